import Verif.Model.PQueue
import Verif.Model.Floats

/-!
# `PQueueActivation` with the numbers of Python (soil/time.py:43-118)

`Model/PQueue.lean` once more, with integers and rounded floating-point numbers (`Model/Floats.lean`) for the times.
-/

namespace Verif

/-- A heap entry (see `PEntry`). -/
structure NPEntry where
  when_ : Num
  key : Rat
  ref : Ref
deriving DecidableEq, Repr

/-- Order of the entries (see `PEntry.lt`): numbers are compared by value. -/
def NPEntry.lt (a b : NPEntry) : Bool :=
  decide (a.when_.val < b.when_.val) || (decide (a.when_.val = b.when_.val) && decide (a.key < b.key))

/-- A `PQueueActivation` (see `PSched`). -/
structure NPSched where
  time : Num
  steps : Nat
  queue : List NPEntry
  agents : List Ref
  interval : Num
  running : Bool
  log : List NEv
deriving DecidableEq, Repr

/-- A new scheduler (soil/time.py:51-56): `time` is the integer 0. -/
def NPSched.init (interval : Num) : NPSched :=
  { time := .int 0, steps := 0, queue := [], agents := [], interval, running := true, log := [] }

/-- User code (see `PHost`). -/
structure NPHost (W : Type) where
  step : Ref → NPSched → W → NReply × List SOp × W
  key : Ref → W → Rat × W

variable {W : Type}

namespace NPSched

/-- `_schedule` (soil/time.py:67-77). -/
def schedule (H : NPHost W) (s : NPSched) (w : W) (r : Ref) (when_ : Option Num) (replace : Bool) : NPSched × W × Bool :=
  let k := H.key r w
  let e : NPEntry := ⟨when_.getD s.time, k.1, r⟩
  if replace then
    match heapreplace NPEntry.lt s.queue e with
    | none => (s, k.2, true)
    | some q => ({ s with queue := q }, k.2, false)
  else ({ s with queue := heappush NPEntry.lt s.queue e }, k.2, false)

/-- `add` (soil/time.py:58-65, see `PSched.addAgent`); the truth of `float(when)` is that of `when`. -/
def addAgent (H : NPHost W) (s : NPSched) (w : W) (r : Ref) (when_ : Option Time) : NPSched × W × Bool :=
  let res := s.schedule H w r none (when_.getD s.time.val).truthy
  if res.2.2 then res
  else
    ({ res.1 with
        agents := if r ∈ res.1.agents then res.1.agents else res.1.agents ++ [r]
        log := res.1.log ++ [.added r s.time] }, res.2.1, false)

/-- One operation of user code (see `PSched.applyOp`). -/
def applyOp (H : NPHost W) (s : NPSched) (w : W) : SOp → NPSched × W × Bool
  | .add r wh => s.addAgent H w r wh
  | .remove r => ({ s with agents := s.agents.erase r }, w, false)
  | .stop => ({ s with running := false }, w, false)

/-- Operations in order; an `IndexError` stops the user code. -/
def applyOps (H : NPHost W) (s : NPSched) (w : W) : List SOp → NPSched × W × Bool
  | [] => (s, w, false)
  | o :: os =>
    let res := s.applyOp H w o
    if res.2.2 then res else res.1.applyOps H res.2.1 os

/-- Ghost: record an activation. -/
def logAct (s : NPSched) (r : Ref) (t : Num) (rep : NReply) : NPSched := { s with log := s.log ++ [.act r t rep] }

/-- `heappop` (soil/time.py:102, 106). -/
def pop (s : NPSched) : NPSched := { s with queue := heappop NPEntry.lt s.queue }

end NPSched

/-- The `while self._queue` loop of `step` (soil/time.py:92-110, see `pLoop`). -/
def npLoop (H : NPHost W) (now : Num) : Nat → NPSched → W → NPSched × W × Num × PStatus
  | fuel, s, w =>
    match s.queue with
    | [] => (s, w, .inf, .ok)
    | e :: _ =>
      if now.val < e.when_.val then (s, w, e.when_, .ok)
      else
        match fuel with
        | 0 => (s, w, .inf, .stuck)
        | fuel + 1 =>
          let res := H.step e.ref s w
          let ops := s.applyOps H res.2.2 res.2.1
          let rep := if ops.2.2 then NReply.error else res.1
          let s1 := ops.1.logAct e.ref now rep
          match rep with
          | .error => (s1, ops.2.1, .inf, .raised)
          | .dead => npLoop H now fuel s1.pop ops.2.1
          | .ret d =>
            let when_ := (Num.pyOr d s1.interval).add now
            if when_.val = .inf then npLoop H now fuel s1.pop ops.2.1
            else
              let sc := s1.schedule H ops.2.1 e.ref (some when_) true
              if sc.2.2 then (sc.1, sc.2.1, .inf, .raised)
              else npLoop H now fuel sc.1 sc.2.1

/-- `PQueueActivation.step` (soil/time.py:79-118). -/
def NPSched.step (H : NPHost W) (fuel : Nat) (s : NPSched) (w : W) : NPSched × W × PStatus :=
  if s.time.val = .inf then (s, w, .ok)
  else
    let res := npLoop H s.time fuel s w
    match res.2.2.2 with
    | .ok =>
      ({ res.1 with
          steps := res.1.steps + 1
          time := res.2.2.1
          running := if res.2.2.1.val = .inf then false else res.1.running }, res.2.1, .ok)
    | st => (res.1, res.2.1, st)

/-- A command (see `Cmd.pexec`). -/
def Cmd.npexec (H : NPHost W) (fuel : Nat) : Cmd W → NPSched × W → NPSched × W
  | .step, sw => ((sw.1.step H fuel sw.2).1, (sw.1.step H fuel sw.2).2.1)
  | .op o, sw => ((sw.1.applyOp H sw.2 o).1, (sw.1.applyOp H sw.2 o).2.1)
  | .world f, sw => (sw.1, f sw.2)

/-- A history. -/
def npexecAll (H : NPHost W) (fuel : Nat) (h : List (Cmd W)) (sw : NPSched × W) : NPSched × W :=
  h.foldl (fun sw c => c.npexec H fuel sw) sw

end Verif
