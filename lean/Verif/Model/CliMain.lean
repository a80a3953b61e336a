import Verif.Model.Simulation
import Verif.Model.Tools

/-!
# The flow of `main` (soil/__init__.py:30-269) and several uses of it in one process

The settings that the options give to a simulation are in `Verif.Model.Cli`, loading in `Verif.Model.Loading`, `--set` in `Verif.Model.Nested`.
-/

namespace Verif

/-- The variables of the process that `main` sets and never unsets: `SOIL_POSTMORTEM` (soil/__init__.py:190) and `SOIL_DEBUG` (267). -/
structure CliEnv where
  postmortem : Bool := false
  debug : Bool := false
deriving DecidableEq, Repr

/-- What `main` is asked for: options of the command line (`version`, `convert`, `pdb`, `debug`; soil/__init__.py:60-84, 144-149) and arguments of the
caller (`pdbArg`, `debugArg`; 36-37). -/
structure MainFlags where
  version : Bool := false
  convert : Bool := false
  pdb : Bool := false
  debug : Bool := false
  pdbArg : Bool := false
  debugArg : Bool := false
deriving DecidableEq, Repr

/-- Where the simulations come from (soil/__init__.py:210-229): an object, with the options set; a file that does not exist; a file, with what
`list(iter_from_file(...))` gives (an exception, or simulations with the options). -/
inductive CliSource (σ ε : Type) where
  | object (s : σ)
  | missing
  | file (load : Except ε (List σ))

/-- What is done with each simulation: `--set` (soil/__init__.py:234-247), `to_yaml` (250), `run` with the limits (252-254). `run` is told whether
`SOIL_DEBUG` is set, on which it depends whether several processes are used (soil/utils.py:144). -/
structure CliActions (σ ε α : Type) where
  set : σ → Except ε σ
  yaml : σ → Except ε Unit
  run : Bool → σ → Except ε α

/-- What can be observed: a configuration is shown, a simulation is run, the debugger is opened for an exception, or at the end. -/
inductive MainEv (σ ε : Type) where
  | shown (s : σ)
  | ran (s : σ)
  | postMortem (e : ε)
  | setTrace
deriving DecidableEq, Repr

/-- How `main` ends: `return` without a value, the results, an exception. -/
inductive MainEnd (ε α : Type) where
  | nothing
  | results (l : List α)
  | raised (e : ε)
deriving DecidableEq, Repr

variable {σ ε α : Type}

/-- The loop over the simulations (soil/__init__.py:231-254): what happens, the results so far, and the exception. -/
def mainLoop (A : CliActions σ ε α) (dbg convert : Bool) : List σ → List (MainEv σ ε) × List α × Option ε
  | [] => ([], [], none)
  | s :: l =>
    match A.set s with
    | .error e => ([], [], some e)
    | .ok s' =>
      if convert then
        match A.yaml s' with
        | .error e => ([], [], some e)
        | .ok _ => let r := mainLoop A dbg convert l; (.shown s' :: r.1, r.2.1, r.2.2)
      else
        match A.run dbg s' with
        | .error e => ([.ran s'], [], some e)
        | .ok a => let r := mainLoop A dbg convert l; (.ran s' :: r.1, a :: r.2.1, r.2.2)

/-- What follows the loop (soil/__init__.py:256-269): an exception is raised again unless `--pdb` is given, when it is only shown in the debugger;
in debug mode the debugger is opened at the end. -/
def mainFinish (f : MainFlags) (env : CliEnv) (evs : List (MainEv σ ε)) (res : List α) (err : Option ε) :
    CliEnv × List (MainEv σ ε) × MainEnd ε α :=
  let finish (evs : List (MainEv σ ε)) : CliEnv × List (MainEv σ ε) × MainEnd ε α :=
    if f.debugArg || f.debug then ({ env with debug := true }, evs ++ [.setTrace], .results res) else (env, evs, .results res)
  match err with
  | none => finish evs
  | some e => if f.pdb then finish (evs ++ [.postMortem e]) else (env, evs, .raised e)

/-- `main` (soil/__init__.py:163-269). `opts`: the exception while the options are put together (195-208: an argument twice, `--iterations` not a
number), inside of the `try`. Not modelled: an unknown `--level`, `--module`, that `argparse` ends the process for unknown options. -/
def cliMain (f : MainFlags) (A : CliActions σ ε α) (opts : Option ε) (src : CliSource σ ε) (env : CliEnv) :
    CliEnv × List (MainEv σ ε) × MainEnd ε α :=
  if f.version then (env, [], .nothing)
  else
    let env1 : CliEnv := if f.pdb || (f.debugArg || f.debug) then { env with postmortem := true } else env
    match opts with
    | some e => mainFinish f env1 [] [] (some e)
    | none =>
      match src with
      | .missing => (env1, [], .nothing)
      | .file (.error e) => mainFinish f env1 [] [] (some e)
      | .file (.ok l) => let r := mainLoop A env1.debug f.convert l; mainFinish f env1 r.1 r.2.1 r.2.2
      | .object s => let r := mainLoop A env1.debug f.convert [s]; mainFinish f env1 r.1 r.2.1 r.2.2

/-- `easy(cfg, pdb=…, debug=…)` (soil/__init__.py:272-282) as a statement: `main(cfg, …)[0]`, which is an error if there is no result; the debugger is
opened for any exception if `SOIL_POSTMORTEM` is set. `nores`: the exception of `[0]`. The decorator `contextmanager` calls it at once and wraps the result
(`Model/Tools.lean`, C197), which is left out here. -/
def easyMain (f : MainFlags) (A : CliActions σ ε α) (opts : Option ε) (src : CliSource σ ε) (nores : ε) (env : CliEnv) :
    CliEnv × List (MainEv σ ε) × Except ε α :=
  match cliMain f A opts src env with
  | (env1, evs, .results (a :: _)) => (env1, evs, .ok a)
  | (env1, evs, .raised e) => (env1, if env1.postmortem then evs ++ [.postMortem e] else evs, .error e)
  | (env1, evs, _) => (env1, if env1.postmortem then evs ++ [.postMortem nores] else evs, .error nores)

/-! ### From the options to the environments -/

/-- The options that reach the environments: `--seed`, `--iterations`, `--max_time`, `--max_steps` and `--set` with keys without dots (the values are
those of `eval`), in order. -/
structure CliRunOpts where
  seed : Option String := none
  iterations : Option Nat := none
  dryRun : Bool := false
  limits : CliArgs := ⟨none, none⟩
  sets : List (String × PV) := []
deriving DecidableEq, Repr

/-- The fields that `opts` changes (soil/__init__.py:195-208; C96, C102), whether the simulation is an object or comes from a file. -/
def CliRunOpts.apply (o : CliRunOpts) (s : Sim) : Sim :=
  { s with seed := o.seed.getD s.seed, iterations := o.iterations.getD s.iterations, dryRun := o.dryRun }

/-- What is done with a simulation: `--set` changes the dictionary of parameters (soil/__init__.py:234-247, see C67), and it is run with the limits of
the command line (252-254). The result are the environments; `none`: an exception. -/
def CliRunOpts.actions (o : CliRunOpts) (B : Build) : CliActions Sim Unit (List RunArgs) where
  set s := .ok { s with parameters := Dict.update s.parameters o.sets }
  yaml _ := .ok ()
  run _ s := if ((cliSim s o.limits).run B).failed then .error () else .ok ((cliSim s o.limits).run B).results

/-- `soil file` with these options, for a file with these simulations. -/
def soilFile (f : MainFlags) (o : CliRunOpts) (B : Build) (sims : List Sim) (env : CliEnv) :
    CliEnv × List (MainEv Sim Unit) × MainEnd Unit (List RunArgs) :=
  cliMain f (o.actions B) none (.file (.ok (sims.map o.apply))) env

end Verif
