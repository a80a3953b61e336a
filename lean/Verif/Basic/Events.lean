import Verif.Basic.Time

/-!
# Agents' replies and the activation log

The vocabulary shared by the scheduler models and their specification.
-/

namespace Verif

/-- Identity of an agent object (Python object identity, not its `unique_id`). -/
abbrev Ref := Nat

/-- The outcome of one call `agent.step()` as seen by the scheduler
(soil/time.py:98-103, 170-174): it returns a delay or `None`, raises `DeadAgent`
(soil/time.py:31), or raises anything else. -/
inductive Reply where
  | ret (d : Option Time)
  | dead
  | error
deriving DecidableEq, Repr

/-- Observable scheduler events: an agent was added at clock value `t`; or an agent was
activated at clock value `t` and replied `reply`. -/
inductive Ev where
  | added (r : Ref) (t : Time)
  | act (r : Ref) (t : Time) (reply : Reply)
deriving DecidableEq, Repr

namespace Ev
def time : Ev → Time
  | added _ t => t
  | act _ t _ => t

def ref : Ev → Ref
  | added r _ => r
  | act r _ _ => r

def isAct : Ev → Bool
  | act .. => true
  | _ => false

def isAdd : Ev → Bool
  | added .. => true
  | _ => false
end Ev

/-- The agents activated in a piece of log, in order. -/
def actRefs (l : List Ev) : List Ref :=
  l.filterMap fun e => match e with
    | .act r _ _ => some r
    | _ => none

end Verif
