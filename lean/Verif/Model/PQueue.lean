import Verif.Model.Timed
import Verif.Model.Heapq

/-!
# Model of `PQueueActivation` (soil/time.py:43-118)

The heap is the list that `heapq` works on (`Model/Heapq.lean`); `queue[0]` is its head.
-/

namespace Verif

/-- A heap entry `((when, key), agent)` (soil/time.py:71-77). -/
structure PEntry where
  when_ : Time
  key : Rat
  ref : Ref
deriving DecidableEq, Repr

/-- Order of the entries: lexicographic on `(when, key)`. Simplification: entries with equal
`(when, key)` are compared by agent in Python, which raises `TypeError`; here neither is less. -/
def PEntry.lt (a b : PEntry) : Bool :=
  decide (a.when_ < b.when_) || (decide (a.when_ = b.when_) && decide (a.key < b.key))

/-- State of a `PQueueActivation` (soil/time.py:51-56 and mesa `BaseScheduler`); the fields are those of
`Sched`, with the heap as queue. `log` is ghost. -/
structure PSched where
  time : Time
  steps : Nat
  queue : List PEntry
  agents : List Ref
  interval : Time
  running : Bool
  log : List Ev
deriving DecidableEq, Repr

/-- A fresh scheduler (soil/time.py:51-56). -/
def PSched.init (interval : Time) : PSched :=
  { time := 0, steps := 0, queue := [], agents := [], interval, running := true, log := [] }

/-- User code; `key` gives the tie-breaking component drawn by `_schedule`
(soil/time.py:70-73): a random number when shuffling, the agent's `unique_id` otherwise. -/
structure PHost (W : Type) where
  step : Ref → PSched → W → Reply × List SOp × W
  key : Ref → W → Rat × W

variable {W : Type}

namespace PSched

/-- `PQueueActivation._schedule` (soil/time.py:67-77). `heapreplace` pops the smallest entry and
pushes the new one; on an empty heap it raises `IndexError` (last component `true`). -/
def schedule (H : PHost W) (s : PSched) (w : W) (r : Ref) (when_ : Option Time) (replace : Bool) :
    PSched × W × Bool :=
  let k := H.key r w
  let e : PEntry := ⟨when_.getD s.time, k.1, r⟩
  if replace then
    match heapreplace PEntry.lt s.queue e with
    | none => (s, k.2, true)
    | some q => ({ s with queue := q }, k.2, false)
  else ({ s with queue := heappush PEntry.lt s.queue e }, k.2, false)

/-- `PQueueActivation.add` (soil/time.py:58-65). The computed `when` is passed as the `replace`
argument of `_schedule`, which is true unless it is 0. If `_schedule` raises, the agent is
not added to the agent set. -/
def addAgent (H : PHost W) (s : PSched) (w : W) (r : Ref) (when_ : Option Time) : PSched × W × Bool :=
  let v := when_.getD s.time
  let res := s.schedule H w r none v.truthy
  if res.2.2 then res
  else
    ({ res.1 with
        agents := if r ∈ res.1.agents then res.1.agents else res.1.agents ++ [r]
        log := res.1.log ++ [.added r s.time] }, res.2.1, false)

/-- One scheduler operation of user code (see `SOp`; mesa `BaseScheduler.remove`). -/
def applyOp (H : PHost W) (s : PSched) (w : W) : SOp → PSched × W × Bool
  | .add r wh => s.addAgent H w r wh
  | .remove r => ({ s with agents := s.agents.erase r }, w, false)
  | .stop => ({ s with running := false }, w, false)

/-- Operations in order; an `IndexError` stops the user code. -/
def applyOps (H : PHost W) (s : PSched) (w : W) : List SOp → PSched × W × Bool
  | [] => (s, w, false)
  | o :: os =>
    let res := s.applyOp H w o
    if res.2.2 then res else res.1.applyOps H res.2.1 os

/-- Ghost: record an activation. -/
def logAct (s : PSched) (r : Ref) (t : Time) (rep : Reply) : PSched :=
  { s with log := s.log ++ [.act r t rep] }

/-- `heappop` (soil/time.py:102, 106). -/
def pop (s : PSched) : PSched := { s with queue := heappop PEntry.lt s.queue }

end PSched

/-- How a step ended: normally, with an exception, or still looping when the fuel ran out. -/
inductive PStatus where
  | ok
  | raised
  | stuck
deriving DecidableEq, Repr

/-- The `while self._queue` loop of `PQueueActivation.step` (soil/time.py:92-110). `fuel` bounds the
number of activations we look at. The `next_time` component is `INFINITY` unless the loop broke
out at a later entry. -/
def pLoop (H : PHost W) (now : Time) : Nat → PSched → W → PSched × W × Time × PStatus
  | fuel, s, w =>
    match s.queue with
    | [] => (s, w, .inf, .ok)
    | e :: _ =>
      if now < e.when_ then (s, w, e.when_, .ok)
      else
        match fuel with
        | 0 => (s, w, .inf, .stuck)
        | fuel + 1 =>
          let res := H.step e.ref s w
          let ops := s.applyOps H res.2.2 res.2.1
          let rep := if ops.2.2 then Reply.error else res.1
          let s1 := ops.1.logAct e.ref now rep
          match rep with
          | .error => (s1, ops.2.1, .inf, .raised)
          | .dead => pLoop H now fuel s1.pop ops.2.1
          | .ret d =>
            let when_ := Time.pyOr d s1.interval + now
            if when_ = .inf then pLoop H now fuel s1.pop ops.2.1
            else
              let sc := s1.schedule H ops.2.1 e.ref (some when_) true
              if sc.2.2 then (sc.1, sc.2.1, .inf, .raised)
              else pLoop H now fuel sc.1 sc.2.1

/-- `PQueueActivation.step` (soil/time.py:79-118). -/
def PSched.step (H : PHost W) (fuel : Nat) (s : PSched) (w : W) : PSched × W × PStatus :=
  if s.time = .inf then (s, w, .ok)
  else
    let res := pLoop H s.time fuel s w
    match res.2.2.2 with
    | .ok =>
      ({ res.1 with
          steps := res.1.steps + 1
          time := res.2.2.1
          running := if res.2.2.1 = .inf then false else res.1.running }, res.2.1, .ok)
    | st => (res.1, res.2.1, st)

/-- Execution of a command (see `Cmd`). Exceptions raised to the caller are dropped here (the log
shows them). -/
def Cmd.pexec (H : PHost W) (fuel : Nat) : Cmd W → PSched × W → PSched × W
  | .step, sw => ((sw.1.step H fuel sw.2).1, (sw.1.step H fuel sw.2).2.1)
  | .op o, sw => ((sw.1.applyOp H sw.2 o).1, (sw.1.applyOp H sw.2 o).2.1)
  | .world f, sw => (sw.1, f sw.2)

/-- A history: a list of commands, executed in order. -/
def pexecAll (H : PHost W) (fuel : Nat) (h : List (Cmd W)) (sw : PSched × W) : PSched × W :=
  h.foldl (fun sw c => c.pexec H fuel sw) sw

end Verif
