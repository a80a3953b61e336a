import Verif.Model.Simulation

/-!
# `run_parallel`, and how parameters reach the model
-/

namespace Verif

variable {α : Type}

/-- The number of processes of the pool, `none` when no pool is used (soil/utils.py:143-147): `np` is `num_processes`, `cpu` the
number of processors, `debug` tells whether `SOIL_DEBUG` is set. -/
def poolSize (np cpu : Int) (debug : Bool) : Option Int :=
  if np > 1 ∧ debug = false then
    if np < 1 then some (cpu - np) else some np
  else none

/-- The sequential branch of `run_parallel` (soil/utils.py:154-156): the values yielded, and whether an exception escaped. `f i` is
`none` when `func(i)` raises. -/
def runSeq (f : Nat → Option α) : List Nat → List α × Bool
  | [] => ([], false)
  | i :: is => match f i with
    | none => ([], true)
    | some v => (v :: (runSeq f is).1, (runSeq f is).2)

/-- `utils.run_parallel` (soil/utils.py:143-156). `arrival` is the order in which `imap_unordered` delivers the results. In a pool,
exceptions are caught, logged and skipped (lines 127-139, 149-152). Whether arguments and results can be pickled is not modelled. -/
def runParallel (f : Nat → Option α) (iterable : List Nat) (np cpu : Int) (debug : Bool) (arrival : List Nat) : List α × Bool :=
  match poolSize np cpu debug with
  | some _ => (arrival.filterMap f, false)
  | none => runSeq f iterable

/-- The call `run_parallel(func=…, iterable=…, **params)` (soil/simulation.py:205-209, soil/utils.py:143): the value bound to
`num_processes`, and the `**kwargs`. `none`: `TypeError` (two values for a name). -/
def callRunParallel (p : Params) : Option (Option PV × Params) :=
  if Dict.has p "func" || Dict.has p "iterable" then none
  else some (Dict.get? p "num_processes", Dict.del p "num_processes")

/-- The number of processes for a combination `p` of a simulation with `num_processes=field` (soil/simulation.py:97, 205-209): the
field is not used. `none`: the call fails. -/
def processes (_field : Nat) (p : Params) : Option Nat :=
  match callRunParallel p with
  | some (none, _) => some 1
  | some (some (.val n), _) => some n
  | _ => none

/-- The call `func(i, **kwargs)` of `_run_model(self, iteration_id, **params)` (soil/utils.py:156, soil/simulation.py:236). -/
def callRunModel (p : Params) : Option Params :=
  if Dict.has p "self" || Dict.has p "iteration_id" then none else some p

/-- `_get_env` (soil/simulation.py:215-234): the call of the model class, `none` when it raises. `mr` and `ar` are the reporters of
the simulation. -/
def callModel (s : Sim) (i : Nat) (p : Params) (mr ar : Dict String String) : Option RunArgs :=
  match popReps p "agent_reporters" with
  | none => none
  | some (ar', p1) => match popReps p1 "model_reporters" with
    | none => none
    | some (mr', p2) =>
      if ["id", "seed", "dir_path", "logger", "tables"].any (Dict.has p2) then none
      else some ⟨i, iterSeed s.seed i, p2, Dict.update mr mr', Dict.update ar ar'⟩

/-- What the model class is called with for a combination of parameters, following the calls one by one; `none` when one of them
raises. -/
def passParams (s : Sim) (i : Nat) (p : Params) (mr ar : Dict String String) : Option RunArgs :=
  match callRunParallel p with
  | none => none
  | some (_, kw) => match callRunModel kw with
    | none => none
    | some kw' => callModel s i kw' mr ar

end Verif
