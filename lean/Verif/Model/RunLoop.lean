import Verif.Model.Timed

/-!
# Model of `Simulation._run_model` (soil/simulation.py:236-280)

The loop is written once for any kind of environment (`Stepper`), and instantiated below with
an environment that uses the default scheduler.
-/

namespace Verif

/-- What `_run_model` uses of a model: `model.step()`, `schedule.time`, `schedule.steps`,
`model.running` and whether `schedule.agents` is empty. The Boolean result of `step` tells
whether an exception escaped. -/
structure Stepper (S : Type) where
  step : S → S × Bool
  time : S → Time
  steps : S → Nat
  running : S → Bool
  noAgents : S → Bool

/-- Result of running a simulation: it returned, it raised, or it was still running when the
fuel (the bound on the number of loop iterations we look at) was used up. -/
inductive Outcome (S : Type) where
  | done (s : S)
  | raised (s : S)
  | running (s : S)
deriving Repr, DecidableEq

/-- The four `is_done` lambdas (soil/simulation.py:248-255). -/
def isDone {S : Type} (st : Stepper S) (maxTime : Option Time) (maxSteps : Option Nat) (s : S) : Bool :=
  match maxTime, maxSteps with
  | some mt, some ms => !st.running s || decide (mt ≤ st.time s) || decide (ms ≤ st.steps s)
  | some mt, none => !st.running s || decide (mt ≤ st.time s)
  | none, some ms => !st.running s || decide (ms ≤ st.steps s)
  | none, none => !st.running s

/-- The `while not is_done(model)` loop (soil/simulation.py:274-278). -/
def runLoop {S : Type} (st : Stepper S) (maxTime : Option Time) (maxSteps : Option Nat) :
    Nat → S → Outcome S
  | 0, s => if isDone st maxTime maxSteps s then .done s else .running s
  | fuel + 1, s =>
    if isDone st maxTime maxSteps s then .done s
    else
      let r := st.step s
      if r.2 then .raised r.1 else runLoop st maxTime maxSteps fuel r.1

/-- `_run_model` from the constructed environment on (soil/simulation.py:257-280): raise if there
are no agents, otherwise loop. Timer, logging and debugger are not modelled. -/
def runModel {S : Type} (st : Stepper S) (maxTime : Option Time) (maxSteps : Option Nat)
    (fuel : Nat) (s : S) : Outcome S :=
  if st.noAgents s then .raised s else runLoop st maxTime maxSteps fuel s

/-- An environment with the default scheduler: `BaseEnvironment.step` (soil/environment.py:189-202)
is mesa's `Model.step` (a no-op), `schedule.step()` and data collection. Data collection is
modelled separately (`Verif.Model.Data`). -/
def timedStepper {W : Type} (H : Host W) : Stepper (Sched × W) where
  step sw := (((sw.1.step H sw.2).1, (sw.1.step H sw.2).2.1), (sw.1.step H sw.2).2.2)
  time sw := sw.1.time
  steps sw := sw.1.steps
  running sw := sw.1.running
  noAgents sw := sw.1.agents.isEmpty

end Verif
