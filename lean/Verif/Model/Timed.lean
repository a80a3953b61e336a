import Verif.Basic.Events

/-!
# Model of `TimedActivation` (the default scheduler)

soil/time.py:35-40 (`DiscreteActivation`) and 121-200 (`TimedActivation`,
`ShuffledTimedActivation`, `OrderedTimedActivation`).
-/

namespace Verif

/-- State of a `TimedActivation` (soil/time.py:121-128, mesa `BaseScheduler`):
* `time`, `steps` — mesa `BaseScheduler.time/steps`, both start at 0;
* `queue` — the deque `_queue` of `(when, [agents])` buckets;
* `agents` — mesa `_agents`, an insertion-ordered set;
* `interval` — `default_interval` (soil/time.py:36);
* `shuffle` — `_shuffle`;
* `running` — `model.running` (belongs to the model, kept here because only the
  scheduler and `Simulation._run_model` look at it);
* `log` — ghost: observable events in order. Nothing in the model reads it. -/
structure Sched where
  time : Time
  steps : Nat
  queue : List (Time × List Ref)
  agents : List Ref
  interval : Time
  shuffle : Bool
  running : Bool
  log : List Ev
deriving Repr, DecidableEq

/-- A fresh scheduler (soil/time.py:123-128; mesa `BaseScheduler.__init__`). The lines 39-40
of `DiscreteActivation.__init__` (model-provided interval) are covered by letting
`interval` be any value. -/
def Sched.init (interval : Time) (shuffle : Bool) : Sched :=
  { time := 0, steps := 0, queue := [], agents := [], interval, shuffle, running := true, log := [] }

/-- Calls agent or environment code may make on the scheduler: `schedule.add(agent, when)`,
`schedule.remove(agent)` (mesa; used by `BaseAgent.die`, soil/agents/__init__.py:232-242) and
setting `model.running = False`. -/
inductive SOp where
  | add (r : Ref) (when_ : Option Time)
  | remove (r : Ref)
  | stop
deriving Repr, DecidableEq

/-- The loop and insertion of `_schedule` (soil/time.py:140-148): append to the bucket with
that time, or insert a new bucket before the first later one. -/
def insertBucket (t : Time) (r : Ref) : List (Time × List Ref) → List (Time × List Ref)
  | [] => [(t, [r])]
  | (u, l) :: q =>
    if u = t then (u, l ++ [r]) :: q
    else if t < u then (t, [r]) :: (u, l) :: q
    else (u, l) :: insertBucket t r q

namespace Sched

/-- `TimedActivation._schedule` (soil/time.py:138-148). `when = when or self.time`: `None` and
`0` mean now. The `replace` argument is ignored by the code. -/
def schedule (s : Sched) (r : Ref) (when_ : Option Time) : Sched :=
  { s with queue := insertBucket (Time.pyOr when_ s.time) r s.queue }

/-- `TimedActivation.add` (soil/time.py:130-136). The code computes `when` and then calls
`self._schedule(agent, None, when)`, i.e. passes it as `replace`, which is ignored.
mesa `BaseScheduler.add` inserts into the ordered agent set (no effect if present). -/
def addAgent (s : Sched) (r : Ref) (_when : Option Time) : Sched :=
  let s1 := s.schedule r none
  { s1 with
    agents := if r ∈ s1.agents then s1.agents else s1.agents ++ [r]
    log := s1.log ++ [.added r s.time] }

/-- mesa `BaseScheduler.remove`: drops the agent from the agent set. The queue is not touched.
(Removing an absent agent raises `KeyError` in mesa; soil only removes from `die`; modelled
as no change.) -/
def removeAgent (s : Sched) (r : Ref) : Sched :=
  { s with agents := s.agents.erase r }

def applyOp (s : Sched) : SOp → Sched
  | .add r w => s.addAgent r w
  | .remove r => s.removeAgent r
  | .stop => { s with running := false }

def applyOps (s : Sched) (ops : List SOp) : Sched := ops.foldl applyOp s

/-- Ghost: record an activation. -/
def logAct (s : Sched) (r : Ref) (t : Time) (rep : Reply) : Sched :=
  { s with log := s.log ++ [.act r t rep] }

end Sched

/-- User code. `W` is everything outside the scheduler (agents, graph, random state, ...).
`step r s w` is the call `agent.step()` of agent `r`: it sees everything, and produces its
reply, the scheduler operations it performed in order, and the new world.
`shuffle` is `model.random.shuffle` (an arbitrary permutation). -/
structure Host (W : Type) where
  step : Ref → Sched → W → Reply × List SOp × W
  shuffle : List Ref → W → List Ref × W
  shuffle_perm : ∀ l w, (shuffle l w).1.Perm l

variable {W : Type}

/-- The `for agent in bucket` loop of `TimedActivation.step` (soil/time.py:169-177).
Result: the state, the world and whether an unexpected exception escaped. -/
def runBucket (H : Host W) (now : Time) : List Ref → Sched → W → Sched × W × Bool
  | [], s, w => (s, w, false)
  | r :: rest, s, w =>
    let res := H.step r s w
    let s1 := (s.applyOps res.2.1).logAct r now res.1
    match res.1 with
    | .error => (s1, res.2.2, true)
    | .dead => runBucket H now rest s1 res.2.2
    | .ret d =>
      let when_ := Time.pyOr d s1.interval + now
      let s2 := if when_ = .inf then s1 else s1.schedule r (some when_)
      runBucket H now rest s2 res.2.2

/-- The new value of `self.time` at the end of a step (soil/time.py:180-183). -/
def headTime : List (Time × List Ref) → Time
  | [] => .inf
  | (t, _) :: _ => t

/-- The order in which a bucket is run (soil/time.py:167-168). -/
def runOrder (H : Host W) (s : Sched) (bucket : List Ref) (w : W) : List Ref × W :=
  if s.shuffle then H.shuffle bucket w else (bucket, w)

/-- End of `TimedActivation.step` (soil/time.py:179-183); skipped when an exception escapes
from the loop. -/
def finishStep (res : Sched × W × Bool) : Sched × W × Bool :=
  if res.2.2 then res
  else ({ res.1 with steps := res.1.steps + 1, time := headTime res.1.queue }, res.2.1, false)

/-- `TimedActivation.step` (soil/time.py:150-183). -/
def Sched.step (H : Host W) (s : Sched) (w : W) : Sched × W × Bool :=
  match s.queue with
  | [] => (s, w, false)
  | (t, bucket) :: q =>
    if s.time < t then ({ s with time := t }, w, false)
    else
      let b := runOrder H s bucket w
      finishStep (runBucket H s.time b.1 { s with queue := q } b.2)

/-- What can happen to a scheduler from the outside: a step, an operation performed between
steps (e.g. `env.add_agent`), or an arbitrary change of the rest of the world. -/
inductive Cmd (W : Type) where
  | step
  | op (o : SOp)
  | world (f : W → W)

def Cmd.exec (H : Host W) : Cmd W → Sched × W → Sched × W
  | .step, (s, w) => ((s.step H w).1, (s.step H w).2.1)
  | .op o, (s, w) => (s.applyOp o, w)
  | .world f, (s, w) => (s, f w)

/-- A history: a list of commands, executed in order. -/
def execAll (H : Host W) (h : List (Cmd W)) (sw : Sched × W) : Sched × W :=
  h.foldl (fun sw c => c.exec H sw) sw

end Verif
