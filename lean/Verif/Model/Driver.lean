import Verif.Model.Refine
import Verif.Model.Lockstep

/-!
# Code around the scheduler
-/

namespace Verif

/-- What code outside the schedulers reads: `schedule.time`, `.steps`, `.agents`, and whether there is an end: `model.running` is false or the time is infinite. (When the time
becomes infinite `PQueueActivation` stops the model, soil/time.py:115-118, and `TimedActivation` does not.) -/
structure View where
  time : Time
  steps : Nat
  live : List Ref
  ended : Bool
deriving DecidableEq, Repr

/-- A scheduler as code outside uses it: `schedule.step()`, with `true` for an exception, and operations on the schedule (`remove`, `model.running = False`) together with a
change of all that is outside the scheduler. -/
structure Iface (S W : Type) where
  view : S → View
  world : S → W
  step : S → S × Bool
  code : List SOp → W → S → S

variable {S W D : Type}

/-- `TimedActivation` (soil/time.py:121-183). -/
def timedIface (T : Host (W × Nat)) : Iface (Sched × W × Nat) W where
  view x := ⟨x.1.time, x.1.steps, x.1.agents, !x.1.running || decide (x.1.time = .inf)⟩
  world x := x.2.1
  step x := (((x.1.step T x.2).1, (x.1.step T x.2).2.1), (x.1.step T x.2).2.2)
  code ops w x := (x.1.applyOps ops, (w, x.2.2))

/-- `PQueueActivation` (soil/time.py:44-118). `N` bounds the number of activations of one step. -/
def pqueueIface (P : PHost (W × Nat)) (N : Nat) : Iface (PSched × W × Nat) W where
  view y := ⟨y.1.time, y.1.steps, y.1.agents, !y.1.running || decide (y.1.time = .inf)⟩
  world y := y.2.1
  step y := (((y.1.step P N y.2).1, (y.1.step P N y.2).2.1), (y.1.step P N y.2).2.2 == .raised)
  code ops w y := ((y.1.applyOps P (w, y.2.2) ops).1, (y.1.applyOps P (w, y.2.2) ops).2.1)

/-- What code around the scheduler does next: it is finished, it does something to the schedule and to what is outside, or it calls `schedule.step()`. -/
inductive Deed (W D : Type) where
  | halt
  | code (ops : List SOp) (w : W) (d : D)
  | step (d : D)

/-- Code around the scheduler: `step` of a model (soil/environment.py:189-202, or a method that overrides it), `Lockstepper.step` (soil/time.py:218-225), the loop of a
simulation (soil/simulation.py:274-278), or any other. `D` are its local variables and where it is. -/
abbrev Outer (W D : Type) := D → View → W → Deed W D

/-- Whether code around the scheduler goes on, is finished, or was ended by an exception of `schedule.step()`. -/
inductive DEnd where
  | going
  | halted
  | raised
deriving DecidableEq, Repr

/-- The scheduler with the code around it. -/
structure Driven (S D : Type) where
  st : S
  loc : D
  fin : DEnd

/-- The code around the scheduler does one thing. -/
def driveOne (I : Iface S W) (P : Outer W D) (x : Driven S D) : Driven S D :=
  match x.fin with
  | .going =>
    match P x.loc (I.view x.st) (I.world x.st) with
    | .halt => { x with fin := .halted }
    | .code ops w d => ⟨I.code ops w x.st, d, .going⟩
    | .step d => ⟨(I.step x.st).1, d, if (I.step x.st).2 then .raised else .going⟩
  | _ => x

/-- The code around the scheduler does `i` things. -/
def drive (I : Iface S W) (P : Outer W D) : Nat → Driven S D → Driven S D
  | 0, x => x
  | i + 1, x => driveOne I P (drive I P i x)

/-- Several calls of `Lockstepper.step` (soil/time.py:218-225) as code around the wrapped scheduler: how many more calls there are, and the local variable `end_time` within
a call. The lockstepper is part of the world (see `lockStep`). -/
def lockDriver : Outer (Lock × W) (Nat × Option Time) := fun d v w =>
  match d with
  | (0, none) => .halt
  | (n + 1, none) => .code [] w (n, some (w.1.time + w.1.interval))
  | (n, some end_) =>
    if v.time < end_ then .step (n, some end_)
    else .code [] ({ w.1 with time := end_, steps := w.1.steps + 1 }, w.2) (n, none)

/-- The loop of `Lockstepper.step` (soil/time.py:221-222) around any scheduler. -/
def lockLoopOf (I : Iface S (Lock × W)) (end_ : Time) : Nat → S → Outcome S
  | fuel, s =>
    if (I.view s).time < end_ then
      match fuel with
      | 0 => .running s
      | fuel + 1 => if (I.step s).2 then .raised (I.step s).1 else lockLoopOf I end_ fuel (I.step s).1
    else .done s

/-- `Lockstepper.step` (soil/time.py:218-225) around any scheduler. -/
def lockStepOf (I : Iface S (Lock × W)) (fuel : Nat) (s : S) : Outcome S :=
  match lockLoopOf I ((I.world s).1.time + (I.world s).1.interval) fuel s with
  | .done s' => .done (I.code [] ({ (I.world s').1 with time := (I.world s).1.time + (I.world s).1.interval, steps := (I.world s').1.steps + 1 }, (I.world s').2) s')
  | o => o

/-- Several calls of `Lockstepper.step`. -/
def lockRunOf (I : Iface S (Lock × W)) (fuel : Nat) : Nat → S → Outcome S
  | 0, s => .done s
  | n + 1, s => match lockStepOf I fuel s with
    | .done s' => lockRunOf I fuel n s'
    | o => o

end Verif
