import Verif.Model.PQueue
import Verif.Model.RunLoop

/-!
# The same user code with either scheduler
-/

namespace Verif

variable {W : Type}

/-- The code of a simulation as far as it does not depend on the scheduler: `agent.step()` of an agent (soil/agents/__init__.py:244-262) may read the time, the number of
steps and the agents (`model.schedule.time`, `.steps`, `.agents`) and everything outside the scheduler. Simplification: it does not read the queue, and not
`model.running`. -/
abbrev AgentCode (W : Type) := Ref → Time → Nat → List Ref → W → Reply × List SOp × W

/-- The code run by `TimedActivation`; `order n` is what `random.shuffle` does in its `n`-th call (soil/time.py:167-168). The random numbers for the order are
independent of the others: the second component counts them. -/
def AgentCode.timed (U : AgentCode W) (order : Nat → List Ref → List Ref) (perm : ∀ n l, (order n l).Perm l) : Host (W × Nat) where
  step r s w := ((U r s.time s.steps s.agents w.1).1, (U r s.time s.steps s.agents w.1).2.1, ((U r s.time s.steps s.agents w.1).2.2, w.2))
  shuffle l w := (order w.2 l, (w.1, w.2 + 1))
  shuffle_perm l w := perm w.2 l

/-- The code run by `PQueueActivation`; `keys r n` is the `n`-th tie-breaking number (soil/time.py:70-73), a random number or the id of the agent `r`. -/
def AgentCode.pqueue (U : AgentCode W) (keys : Ref → Nat → Rat) : PHost (W × Nat) where
  step r s w := ((U r s.time s.steps s.agents w.1).1, (U r s.time s.steps s.agents w.1).2.1, ((U r s.time s.steps s.agents w.1).2.2, w.2))
  key r w := (keys r w.2, (w.1, w.2 + 1))

/-- A population is added, as in `init`, to a new `TimedActivation` (soil/time.py:121-136). -/
def timedPop (H : Host (W × Nat)) (iv : Time) (pop : List Ref) (w : W) : Sched × W × Nat :=
  execAll H (pop.map (fun r => .op (.add r none))) (Sched.init iv true, (w, 0))

/-- A population is added, as in `init`, to a new `PQueueActivation` (soil/time.py:51-65). -/
def pqueuePop (H : PHost (W × Nat)) (iv : Time) (pop : List Ref) (w : W) : PSched × W × Nat :=
  pexecAll H 0 (pop.map (fun r => .op (.add r none))) (PSched.init iv, (w, 0))

end Verif
