import Verif.Basic.Dict
import Verif.Model.RunLoop

/-!
# Model of `Simulation` (soil/simulation.py): parameters, seeds, runs, exporters, deferred runs

Values are opaque. What the environment class does when it is built and run is a parameter
(`Build`); its internals are modelled in the other modules.
-/

namespace Verif

/-- A parameter value: an opaque value, or a dictionary of reporters (which only matters under the
keys `model_reporters` / `agent_reporters`). -/
inductive PV where
  | val (n : Nat)
  | reps (d : Dict String String)
deriving Repr, DecidableEq

/-- A parameter combination. -/
abbrev Params := Dict String PV

/-- The fields of `Simulation` (soil/simulation.py:80-107) that matter here; `exporters` is the number of
exporters. -/
structure Sim where
  seed : String := "default"
  iterations : Nat := 1
  maxTime : Option Rat := none
  maxSteps : Option Rat := none
  parameters : Params := []
  matrix : Dict String (List PV) := []
  dryRun : Bool := false
  exporters : Nat := 1
  modelReporters : Dict String String := []
  agentReporters : Dict String String := []
deriving Repr, DecidableEq

/-- `itertools.product(*ls)`: the last factor varies fastest. -/
def product {α : Type} : List (List α) → List (List α)
  | [] => [[]]
  | l :: ls => l.flatMap fun x => (product ls).map (x :: ·)

/-- `dict(zip(keys, values))` (soil/simulation.py:182). -/
def dictZip {V : Type} (keys : List String) (values : List V) : Dict String V :=
  Dict.update [] (keys.zip values)

/-- The combinations of the matrix (soil/simulation.py:181-182). -/
def matrixCombos (m : Dict String (List PV)) : List Params :=
  (product (m.map Prod.snd)).map (dictZip (Dict.keys m))

/-- `Simulation._collect_params` (soil/simulation.py:174-189). -/
def collectParams (s : Sim) : List Params :=
  let ps := (if s.parameters.isEmpty then [] else [s.parameters])
    ++ (if s.matrix.isEmpty then [] else matrixCombos s.matrix)
  if ps.isEmpty then [[]] else ps

/-- The seed string of an iteration (soil/simulation.py:227): `f"{seed}_iteration_{id}"`. -/
def iterSeed (seed : String) (i : Nat) : String := seed ++ "_iteration_" ++ toString i

/-- What the model class is called with (soil/simulation.py:225-234). -/
structure RunArgs where
  id : Nat
  seed : String
  params : Params
  modelReporters : Dict String String
  agentReporters : Dict String String
deriving Repr, DecidableEq

/-- Observable events of `Simulation.run`: calls of exporter `i`, and a model being built and run
(successfully). -/
inductive SEv where
  | simStart (i : Nat)
  | ran (a : RunArgs)
  | iterEnd (i : Nat) (a : RunArgs)
  | simEnd (i : Nat)
deriving Repr, DecidableEq

/-- Building and running one environment: does it end without an exception? (A function of the
arguments and of the number of environments built so far.) -/
abbrev Build := RunArgs → Nat → Bool

/-- The mutable state during `run`: the reporter dictionaries of the simulation, the trace and the list
of results (an environment is represented by the arguments it was built with); `failed` when an
exception escaped. -/
structure RState where
  modelReporters : Dict String String
  agentReporters : Dict String String
  trace : List SEv
  results : List RunArgs
  failed : Bool
deriving Repr, DecidableEq

/-- `d.pop(key, {})` where a dictionary of reporters is expected (soil/simulation.py:220-223); `none` if
the value is something else (`update` raises). -/
def popReps (d : Params) (key : String) : Option (Dict String String × Params) :=
  match Dict.get? d key with
  | none => some ([], d)
  | some (.reps r) => some (r, Dict.del d key)
  | some (.val _) => none

/-- `SoilCollector.__init__` (soil/datacollection.py:5-12) adds the built-in reporters to the dictionary
it is given, unless that is empty (then it uses a new one). -/
def collectorTouch (d : Dict String String) : Dict String String :=
  if d.isEmpty then d
  else
    let d1 := if Dict.has d "agent_count" then d else Dict.set d "agent_count" "<agent_count>"
    if Dict.has d1 "time" then d1 else Dict.set d1 "time" "<time>"

/-- One iteration: `_get_env` and `_run_model` (soil/simulation.py:215-280), then the exporters and the
list of results (165-167). -/
def oneIter (s : Sim) (B : Build) (params : Params) (i : Nat) (x : RState) : RState :=
  match popReps params "agent_reporters" with
  | none => { x with failed := true }
  | some (ar, p1) =>
    let x1 := { x with agentReporters := Dict.update x.agentReporters ar }
    match popReps p1 "model_reporters" with
    | none => { x1 with failed := true }
    | some (mr, p2) =>
      let mr1 := Dict.update x1.modelReporters mr
      let a : RunArgs := ⟨i, iterSeed s.seed i, p2, mr1, x1.agentReporters⟩
      let x2 := { x1 with modelReporters := collectorTouch mr1 }
      if B a x2.results.length then
        { x2 with
          trace := x2.trace ++ .ran a :: (List.range s.exporters).map (SEv.iterEnd · a)
          results := x2.results ++ [a] }
      else { x2 with failed := true }

/-- `_run_iters_for_params` and the loop body of `run` (soil/simulation.py:164-167, 191-213,
`run_parallel` in soil/utils.py:155-156). In a dry run nothing is built and nothing yielded. -/
def runIters (s : Sim) (B : Build) (params : Params) : List Nat → RState → RState
  | [], x => x
  | i :: is, x =>
    if s.dryRun then runIters s B params is x
    else
      let x1 := oneIter s B params i x
      if x1.failed then x1 else runIters s B params is x1

/-- The loop over the combinations (soil/simulation.py:157-167). -/
def runCombos (s : Sim) (B : Build) : List Params → RState → RState
  | [], x => x
  | p :: ps, x =>
    let x1 := runIters s B p (List.range s.iterations) x
    if x1.failed then x1 else runCombos s B ps x1

/-- `Simulation.run()` when runs are not being deferred (soil/simulation.py:135-172). -/
def Sim.run (s : Sim) (B : Build) : RState :=
  let x0 : RState := ⟨s.modelReporters, s.agentReporters, (List.range s.exporters).map SEv.simStart, [], false⟩
  let x1 := runCombos s B (collectParams s) x0
  if x1.failed then x1
  else { x1 with trace := x1.trace ++ (List.range s.exporters).map SEv.simEnd }

/-- The environments a run builds when nothing fails: used to compare runs. -/
def Sim.jobs (s : Sim) : List (Params × Nat) :=
  (collectParams s).flatMap fun p => (List.range s.iterations).map (p, ·)

/-! ### The command line -/

/-- Command-line options `--max_time`/`--max_steps` (soil/__init__.py:118-129); `none` when not given. -/
structure CliArgs where
  maxTime : Option Rat
  maxSteps : Option Rat
deriving Repr, DecidableEq

/-- soil/__init__.py:252-254: `sim.run(max_time=..., max_steps=...)`, i.e. `replace(self, ...)`
(soil/simulation.py:132-133), where an absent option is passed as `None`. The result is the simulation
that is really run. (`--max_time -1`, which also means `None`, is not distinguished from absence.) -/
def cliSim (s : Sim) (a : CliArgs) : Sim := { s with maxTime := a.maxTime, maxSteps := a.maxSteps }

/-- `_run_model` with the limits of the simulation (soil/simulation.py:245-278): `steps >= max_steps` for a
possibly fractional `max_steps` is the same as reaching its ceiling. -/
def Sim.runEnv {S : Type} (s : Sim) (st : Stepper S) (fuel : Nat) (x : S) : Outcome S :=
  runModel st (s.maxTime.map Time.fin) (s.maxSteps.map fun r => r.ceil.toNat) fuel x

/-! ### Deferred runs -/

/-- The global state used when loading Python files: `_QUEUED` (soil/simulation.py:31). -/
abbrev Queued := List (Sim × Params)

/-- A statement of a loaded Python file, as far as it matters: binding a simulation to a module-level
name, calling `.run()` on a simulation, or raising an exception. -/
inductive PyStmt where
  | bind (name : String) (s : Sim)
  | call (s : Sim)
  | raise
deriving Repr, DecidableEq

/-- `exec_module` under `do_not_run` (soil/simulation.py:136-138, 337): `run` only queues. The Boolean is
`false` when an exception was raised. -/
def execPy : List PyStmt → Dict String Sim → Queued → Dict String Sim × Queued × Bool
  | [], m, q => (m, q, true)
  | .bind n s :: l, m, q => execPy l (Dict.set m n s) q
  | .call s :: l, m, q => execPy l m (q ++ (collectParams s).map (s, ·))
  | .raise :: _, m, q => (m, q, false)

/-- `iter_from_py` (soil/simulation.py:320-355) for a file without environment classes: the simulations
bound to names (`getmembers` sorts them by name, here they are in order of binding), then the queued
ones, `replace(cls, parameters=params)` (45-48), which empties the queue. `none` if an exception is
raised (by the file, or because there is no simulation): then the queue is left as it is. -/
def iterFromPy (file : List PyStmt) (q : Queued) : Option (List Sim) × Queued :=
  let r := execPy file [] q
  if r.2.2 then
    let sims := r.1.map Prod.snd ++ r.2.1.map fun cp => { cp.1 with parameters := cp.2 }
    (if sims.isEmpty then none else some sims, [])
  else (none, r.2.1)

end Verif
