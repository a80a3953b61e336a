import Verif.Model.ExTimers
import Verif.Model.Refine

/-!
# Whole simulations of the example agents that choose their own timeouts

examples/custom_timeouts/custom_timeouts_sim.py and examples/random_delays/random_delays_sim.py, for either scheduler.
-/

namespace Verif

/-- The attribute `prev` of `Fibonacci` (examples/custom_timeouts/custom_timeouts_sim.py:6); it is never negative. -/
abbrev PrevAttr := {p : Time // 0 ≤ p}

/-- `prev` before the first activation (examples/custom_timeouts/custom_timeouts_sim.py:6). -/
def prevStart : PrevAttr := ⟨1, by decide⟩

/-- The agents of `TimeoutsEnv` (examples/custom_timeouts/custom_timeouts_sim.py:30-34): agent 0 is the `Fibonacci`, agent 1 the `Odds`. Each has one state of its own, which
it never leaves (`fibBeh`, `oddBeh`). The network, which they do not use, is left out. -/
def timersCode : AgentCode PrevAttr := fun r now _ _ w =>
  if r = 0 then
    ((fibBeh (some fibState, w.1) now).1, [], ⟨(fibBeh (some fibState, w.1) now).2.2, le_max_of_le_right w.2⟩)
  else ((oddBeh (some oddState, ()) now).1, [], w)

/-- The state and the attributes of a `MyAgent`; `expovariate` returns no negative numbers. -/
abbrev PongState := {x : Option StateDef × PongAttrs // ∀ k, 0 ≤ x.2.draws k}

theorem pongBeh_draws (x : Option StateDef × PongAttrs) (now : Time) : (pongBeh x now).2.2.draws = x.2.draws := by
  obtain ⟨d, a⟩ := x
  cases d with
  | none => rfl
  | some d =>
    simp only [pongBeh, fsmBeh, pongCode]
    split
    · rfl
    · split
      · split <;> rfl
      · rfl

/-- The agent of `RandomEnv` (examples/random_delays/random_delays_sim.py:30-33). When it dies it is removed from the schedule (`BaseAgent.die`,
soil/agents/__init__.py:232-242). -/
def pongRunCode : AgentCode PongState := fun r now _ _ w =>
  let b := pongBeh w.1 now
  (b.1, if w.1.2.alive && !b.2.2.alive then [.remove r] else [], ⟨b.2, by rw [pongBeh_draws]; exact w.2⟩)

/-- A new `MyAgent` that is going to draw the delays `d` (examples/random_delays/random_delays_sim.py:12, 14). -/
def pongStart (m : Int) (d : Nat → Rat) (hd : ∀ k, 0 ≤ d k) : PongState := ⟨(pongClass.init, ⟨m, d, 0, true, 0, 0⟩), hd⟩

end Verif
