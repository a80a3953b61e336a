import Verif.Model.Rounds
import Verif.Model.PQueue
import Verif.Model.Builtin

/-!
# Whole simulations of agents that change only themselves, such as the counters of soil
-/

namespace Verif

/-- The attributes of the agents, and how many random numbers have been drawn for the order. -/
structure OwnWorld (A : Type) where
  agents : List A
  used : Nat
deriving DecidableEq, Repr

/-- `step` of an agent that reads the time, the number of steps, the number of scheduled agents and its own attributes, and changes only the
latter; `none`: it raises. -/
abbrev SelfCode (A : Type) := Ref → Time → Nat → Nat → A → Option A

/-- `agent.step()` (soil/agents/__init__.py:244-262) of agent `r`: it returns nothing. -/
def SelfCode.turn {A : Type} (U : SelfCode A) (r : Ref) (t : Time) (k n : Nat) (w : OwnWorld A) : Reply × List SOp × OwnWorld A :=
  match w.agents[r]? with
  | none => (.error, [], w)
  | some a => match U r t k n a with
    | none => (.error, [], w)
    | some a' => (.ret none, [], { w with agents := w.agents.set r a' })

/-- Such agents with `TimedActivation`; `order` is what `random.shuffle` does (soil/time.py:167-168). -/
def ownHost {A : Type} (U : SelfCode A) (order : Nat → List Ref → List Ref) (perm : ∀ n l, (order n l).Perm l) : Host (OwnWorld A) where
  step r s w := U.turn r s.time s.steps s.agents.length w
  shuffle l w := (order w.used l, { w with used := w.used + 1 })
  shuffle_perm l w := perm w.used l

/-- Such agents with `PQueueActivation`; `keys` are the numbers that break ties (soil/time.py:70-73). -/
def ownPHost {A : Type} (U : SelfCode A) (keys : Ref → Nat → Rat) : PHost (OwnWorld A) where
  step r s w := U.turn r s.time s.steps s.agents.length w
  key r w := (keys r w.used, { w with used := w.used + 1 })

/-- The classes of soil/agents/CounterModel.py:4-46. -/
inductive CounterCls where
  | ticker
  | counter
  | aggregated
deriving DecidableEq, Repr

/-- `step` of the counters (soil/agents/CounterModel.py:7-8, 20-26, 39-46): `cls r` is the class of agent `r`, `deg r` the number of its neighbours. -/
def countersCode (cls : Ref → CounterCls) (deg : Ref → Nat) : SelfCode (Dict String Val) := fun r _ _ n a =>
  match cls r with
  | .ticker => tickerStep a
  | .counter => counterStep (deg r) n a
  | .aggregated => aggregatedStep (deg r) n a

end Verif
