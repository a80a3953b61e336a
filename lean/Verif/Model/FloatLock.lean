import Verif.Model.Floats
import Verif.Model.RunLoop

/-!
# `Lockstepper` with the numbers of Python (soil/time.py:206-228)

`Model/Lockstep.lean` once more, with integers and floating-point numbers.
-/

namespace Verif

/-- The attributes of a `Lockstepper` (soil/time.py:212-216; see `Lock`). -/
structure NLock where
  time : Num
  steps : Nat
  interval : Num
deriving Repr, DecidableEq

/-- `Lockstepper(scheduler, interval)` (soil/time.py:212-216). -/
def NLock.init (s : NSched) (interval : Num) : NLock := { time := s.time, steps := 0, interval }

variable {W : Type}

/-- The loop `while self.scheduler.time < end_time` (soil/time.py:221-222). -/
def nlockLoop (H : NHost W) (end_ : Num) : Nat → NSched × W → Outcome (NSched × W)
  | fuel, sw =>
    if sw.1.time.val < end_.val then
      match fuel with
      | 0 => .running sw
      | fuel + 1 =>
        let r := sw.1.step H sw.2
        if r.2.2 then .raised (r.1, r.2.1) else nlockLoop H end_ fuel (r.1, r.2.1)
    else .done sw

/-- `Lockstepper.step` (soil/time.py:218-225; see `lockStep`). -/
def nlockStep (H : NHost (NLock × W)) (fuel : Nat) (x : NSched × NLock × W) : Outcome (NSched × NLock × W) :=
  let end_ := x.2.1.time.add x.2.1.interval
  match nlockLoop H end_ fuel x with
  | .done (s, l, w) => .done (s, { l with time := end_, steps := l.steps + 1 }, w)
  | .raised y => .raised y
  | .running y => .running y

/-- `n` calls of `Lockstepper.step`. -/
def nlockRun (H : NHost (NLock × W)) (fuel : Nat) : Nat → NSched × NLock × W → Outcome (NSched × NLock × W)
  | 0, x => .done x
  | n + 1, x => match nlockStep H fuel x with
    | .done x' => nlockRun H fuel n x'
    | o => o

end Verif
