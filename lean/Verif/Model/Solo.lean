import Verif.Model.Agents

/-!
# Agents that only look at themselves and at the clock

Vocabulary for the agents of the examples: the code of such an agent is a function of its own
attributes and of `self.now`.
-/

namespace Verif

variable {W σ A : Type}

/-- Agent `r` of a host runs the code `beh` on its own attributes `loc` (attributes and state), and
nobody else touches these, as long as the world satisfies `P` (which it always does, once it does).
`beh a now` is the reply of `agent.step()` and the new attributes. -/
structure Isolated (H : Host W) (P : W → Prop) (r : Ref) (loc : W → σ)
    (beh : σ → Time → Reply × σ) : Prop where
  reply : ∀ s w, P w → (H.step r s w).1 = (beh (loc w) s.time).1
  attrs : ∀ s w, P w → loc (H.step r s w).2.2 = (beh (loc w) s.time).2
  others : ∀ q s w, P w → q ≠ r → loc (H.step q s w).2.2 = loc w
  shuffle : ∀ l w, P w → loc (H.shuffle l w).2 = loc w
  keeps : ∀ q s w, P w → P (H.step q s w).2.2
  keepsShuffle : ∀ l w, P w → P (H.shuffle l w).2

/-- Changes of the world between steps leave the attributes alone. -/
def Untouched (P : W → Prop) (loc : W → σ) (h : List (Cmd W)) : Prop :=
  ∀ f, Cmd.world f ∈ h → ∀ w, P w → P (f w) ∧ loc (f w) = loc w

/-- `FSM.step` of an agent whose state functions are plain functions of the attributes and of the
clock (soil/agents/fsm.py:142-156, soil/agents/__init__.py:32-46): `code fn a now` is the value
returned by the function `fn` and the attributes it leaves. -/
def fsmBeh (cls : FsmClass) (code : Nat → A → Time → Val × A) :
    Option StateDef × A → Time → Reply × (Option StateDef × A)
  | (none, a), _ => (.error, (none, a))
  | (some d, a), now =>
    let r := code d.fn a now
    let o := fsmOutcome (fun _ => none) cls (some d) r.1
    (o.2, (o.1, r.2))

/-- The activations of one agent in a log: when, and what it replied. -/
def actsOf (r : Ref) (l : List Ev) : List (Time × Reply) :=
  l.filterMap fun e => match e with
    | .act q t rep => if q = r then some (t, rep) else none
    | .added .. => none

end Verif
