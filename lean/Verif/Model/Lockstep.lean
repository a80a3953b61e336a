import Verif.Model.RunLoop

/-!
# Model of `Lockstepper` (soil/time.py:206-228) and of `agent.at` / `agent.delay`
-/

namespace Verif

/-- The attributes of a `Lockstepper` itself (soil/time.py:212-216); every other attribute is looked
up in the wrapped scheduler (`__getattr__`, 227-228). -/
structure Lock where
  time : Time
  steps : Nat
  interval : Time
deriving Repr, DecidableEq

/-- `Lockstepper(scheduler, interval)` (soil/time.py:212-216). -/
def Lock.init (s : Sched) (interval : Time) : Lock := { time := s.time, steps := 0, interval }

variable {W : Type}

/-- The loop `while self.scheduler.time < end_time` (soil/time.py:221-222). -/
def lockLoop (H : Host W) (end_ : Time) : Nat → Sched × W → Outcome (Sched × W)
  | fuel, sw =>
    if sw.1.time < end_ then
      match fuel with
      | 0 => .running sw
      | fuel + 1 =>
        let r := sw.1.step H sw.2
        if r.2.2 then .raised (r.1, r.2.1) else lockLoop H end_ fuel (r.1, r.2.1)
    else .done sw

/-- `Lockstepper.step` (soil/time.py:218-225). The lockstepper is part of the world, because agents
see its clock: `model.schedule` is the lockstepper, so `model.now` (soil/environment.py:141-145) is its
`time`. The return value (that of the last inner step, always `None`) is dropped. -/
def lockStep (H : Host (Lock × W)) (fuel : Nat) (x : Sched × Lock × W) : Outcome (Sched × Lock × W) :=
  let end_ := x.2.1.time + x.2.1.interval
  match lockLoop H end_ fuel x with
  | .done (s, l, w) => .done (s, { l with time := end_, steps := l.steps + 1 }, w)
  | .raised y => .raised y
  | .running y => .running y

/-- `BaseAgent.at(t)` (soil/agents/__init__.py:296-297) for a number `t`, returned from a step:
`Delay(t - self.now)`, converted with `float` by the step decorator (28-54). -/
def atReply (now : Time) (t : Rat) : Reply :=
  match now with
  | .fin n => .ret (some (.fin (t - n)))
  | .inf => .error

end Verif
