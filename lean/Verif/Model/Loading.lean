import Verif.Basic.Dict
import Mathlib.Data.List.Sort

/-!
# Loading simulations from files (soil/simulation.py:290-365, soil/serialization.py:24-29, 91-103)

Together with the state of the interpreter that loading touches. Objects of class `Simulation` are dictionaries of fields here.
-/

namespace Verif

/-- The absolute path of a file. Simplification: relative paths (`os.path.dirname` of which may be empty) are not modelled. -/
structure SrcPath where
  dir : List String
  base : String
deriving DecidableEq, Repr

/-- The value of a field of a simulation: a folder, or anything else. -/
inductive FieldVal where
  | folder (p : List String)
  | other (n : Nat)
deriving DecidableEq, Repr

/-- The fields of a simulation, or keyword arguments, or a configuration. -/
abbrev SimFields := Dict String FieldVal

/-- The fields of the dataclass (soil/simulation.py:80-107). -/
def simFieldNames : List String :=
  ["version", "source_file", "name", "description", "group", "backup", "overwrite", "dry_run", "dump", "model", "parameters",
    "matrix", "seed", "dir_path", "max_time", "max_steps", "iterations", "num_processes", "exporters", "model_reporters",
    "agent_reporters", "tables", "outdir", "exporter_params", "level", "skip_test", "debug"]

/-- Global state of the interpreter: `sys.path`, whether `imported_file` is in `sys.modules`, `_AVOID_RUNNING` and `_QUEUED`
(soil/simulation.py:30-31). -/
structure Interp where
  path : List (List String)
  imported : Bool
  avoid : Bool
  queued : List (SimFields × FieldVal)
deriving DecidableEq, Repr

/-- A statement of a Python file, as far as it matters: bind a simulation, or a new environment class, to a name; call `.run()` on
a simulation; raise an exception (`true`: a `ValueError`). -/
inductive LoadStmt where
  | bind (name : String) (s : SimFields)
  | cls (name : String) (c : FieldVal)
  | call (s : SimFields)
  | raise (valueError : Bool)
deriving DecidableEq, Repr

/-- What is on the disk: which files are taken for Python modules (by their suffix), their code, the configurations that
`load_file` finds in a file (`none`: it raises), and what `glob` finds for a pattern. -/
structure LoadWorld where
  isPython : SrcPath → Bool
  code : SrcPath → List LoadStmt
  configs : SrcPath → Option (List SimFields)
  glob : SrcPath → List SrcPath
  /-- The values of fields that are not given, the working directory, and the parameter combinations of a simulation (C49). -/
  defaults : SimFields
  cwd : List String
  combos : SimFields → List FieldVal

/-- The exceptions of loading. -/
inductive LoadErr where
  | assertion
  | notPython
  | raised (valueError : Bool)
  | typeError
  | noConfigurations
  | notConfig
  | tooMany
  | index
  | noAttribute
deriving DecidableEq, Repr

/-- Those that are `ValueError`s (exceptions of reading a configuration are not caught anywhere, so their class does not matter). -/
def LoadErr.isValueError : LoadErr → Bool
  | .notPython => true
  | .raised v => v
  | _ => false

/-- Names bound to simulations and to environment classes in a module. -/
inductive Member where
  | sim (s : SimFields)
  | cls (c : FieldVal)
deriving DecidableEq, Repr

/-- The members of a module that are simulations, sorted by name (`inspect.getmembers`, soil/simulation.py:338). -/
def simMembers (m : Dict String Member) : List SimFields :=
  (m.insertionSort (fun a b => a.1 ≤ b.1)).filterMap (fun p => match p.2 with
    | .sim s => some s
    | .cls _ => none)

/-- The members of a module that are environment classes (soil/simulation.py:343-346). -/
def clsMembers (m : Dict String Member) : List FieldVal :=
  (m.insertionSort (fun a b => a.1 ≤ b.1)).filterMap (fun p => match p.2 with
    | .sim _ => none
    | .cls c => some c)

/-- Running the code of a module while runs are deferred (soil/simulation.py:136-138, 337). -/
def execLoad (combos : SimFields → List FieldVal) :
    List LoadStmt → Dict String Member → List (SimFields × FieldVal) → Dict String Member × List (SimFields × FieldVal) × Option Bool
  | [], m, q => (m, q, none)
  | .bind n s :: l, m, q => execLoad combos l (Dict.set m n (.sim s)) q
  | .cls n c :: l, m, q => execLoad combos l (Dict.set m n (.cls c)) q
  | .call s :: l, m, q => execLoad combos l m (q ++ (combos s).map (s, ·))
  | .raise v :: _, m, q => (m, q, some v)

/-- Are all keyword arguments fields? -/
def areFields (kw : SimFields) : Bool := kw.all (fun p => decide (p.1 ∈ simFieldNames))

/-- `dataclasses.replace(sim, **kwargs)`; `none`: `TypeError`. (`__post_init__` is not modelled.) -/
def replaceSim (s kw : SimFields) : Option SimFields := if areFields kw then some (Dict.update s kw) else none

/-- `Simulation(**kwargs)`; `none`: `TypeError`. (`__post_init__`, which computes the name and finds the model class, is not
modelled.) -/
def newSim (w : LoadWorld) (kw : SimFields) : Option SimFields := if areFields kw then some (Dict.update w.defaults kw) else none

/-- `Simulation(model=env, **kwargs)` for each class (soil/simulation.py:347); twice the same argument is a `TypeError`. -/
def envSims (w : LoadWorld) (kw : SimFields) (cs : List FieldVal) : Option (List SimFields) :=
  cs.mapM (fun c => if Dict.has kw "model" then none else newSim w (Dict.set kw "model" c))

/-- `list(iter_from_py(file, **kwargs))` (soil/simulation.py:320-355), with `do_not_run` (33-42) and `_iter_queued` (45-48). Code that changes `sys.path` or loads
other files itself is not modelled. -/
def iterPy (w : LoadWorld) (file : SrcPath) (kw : SimFields) (g : Interp) : Except LoadErr (List SimFields) × Interp :=
  if g.avoid then (.error .assertion, g)
  else
    let g1 := { g with path := if file.dir ∈ g.path then g.path else g.path ++ [file.dir] }
    if w.isPython file = false then (.error .notPython, g1)
    else
      let r := execLoad w.combos (w.code file) [] g.queued
      let g2 := { g1 with imported := true, queued := r.2.1 }
      match r.2.2 with
      | some v => (.error (.raised v), g2)
      | none =>
        let g3 := { g2 with queued := [] }
        let sims := simMembers r.1 ++ r.2.1.map (fun sp => Dict.set sp.1 "parameters" sp.2)
        match (if sims.isEmpty then envSims w kw (clsMembers r.1) else some sims) with
        | none => (.error .typeError, g3)
        | some sims =>
          let g4 := { g3 with imported := false }
          if sims.isEmpty then (.error .noConfigurations, g4)
          else
            let g5 := { g4 with path := if file.dir ∈ g.path then g4.path else g4.path.erase file.dir }
            match sims.mapM (replaceSim · kw) with
            | none => (.error .typeError, g5)
            | some l => (.ok l, g5)

/-- One configuration found in a folder (soil/simulation.py:305-310). -/
def fromDoc (w : LoadWorld) (kw : SimFields) (folder : List String) (doc : SimFields) : Option SimFields :=
  let d := Dict.update doc kw
  newSim w (if Dict.has d "dir_path" then d else Dict.set d "dir_path" (.folder folder))

/-- `load_files(pattern)` (soil/serialization.py:91-96), with `load_file` (24-29): configurations and the files they come from. -/
def loadFiles (w : LoadWorld) : List SrcPath → List (List String) → Option (List (SimFields × SrcPath)) × List (List String)
  | [], p => (some [], p)
  | f :: fs, p =>
    let p1 := if f.dir ∈ p then p else p ++ [f.dir]
    match w.configs f with
    | none => (none, p1)
    | some docs =>
      match loadFiles w fs p1 with
      | (none, p2) => (none, p2)
      | (some l, p2) => (some (docs.map (·, f) ++ l), p2)

/-- `list(iter_from_config(path, **kwargs))` (soil/simulation.py:302-310). -/
def iterConfigFile (w : LoadWorld) (file : SrcPath) (kw : SimFields) (g : Interp) : Except LoadErr (List SimFields) × Interp :=
  match loadFiles w (w.glob file) g.path with
  | (none, p) => (.error .notConfig, { g with path := p })
  | (some l, p) => match l.mapM (fun dp => fromDoc w kw dp.2.dir dp.1) with
    | none => (.error .typeError, { g with path := p })
    | some sims => (.ok sims, { g with path := p })

/-- `list(iter_from_config(cfg, **kwargs))` for a dictionary: `load_config` (soil/serialization.py:99-101) gives the working
directory as the path, of which `dirname` (the parent) is taken (soil/simulation.py:309). -/
def iterConfigDict (w : LoadWorld) (doc kw : SimFields) : Except LoadErr (List SimFields) :=
  match fromDoc w kw w.cwd.dropLast doc with
  | none => .error .typeError
  | some s => .ok [s]

/-- One file of `iter_from_file` (soil/simulation.py:291-295). -/
def iterFile1 (w : LoadWorld) (file : SrcPath) (kw : SimFields) (g : Interp) : Except LoadErr (List SimFields) × Interp :=
  match iterPy w file kw g with
  | (.ok l, g1) => (.ok l, g1)
  | (.error e, g1) => if e.isValueError then iterConfigFile w file kw g1 else (.error e, g1)

/-- `from_file(*files, **kwargs)`, `list(iter_from_file(...))` (soil/simulation.py:290-299). -/
def fromFile (w : LoadWorld) (kw : SimFields) : List SrcPath → Interp → Except LoadErr (List SimFields) × Interp
  | [], g => (.ok [], g)
  | f :: fs, g =>
    match iterFile1 w f kw g with
    | (.error e, g1) => (.error e, g1)
    | (.ok l, g1) =>
      match fromFile w kw fs g1 with
      | (.error e, g2) => (.error e, g2)
      | (.ok l', g2) => (.ok (l ++ l'), g2)

/-- `from_config(conf_or_path)` (soil/simulation.py:313-317), from the list of simulations. -/
def fromConfig (r : Except LoadErr (List SimFields)) : Except LoadErr SimFields :=
  match r with
  | .error e => .error e
  | .ok [] => .error .index
  | .ok [s] => .ok s
  | .ok (_ :: _ :: _) => .error .tooMany

/-- The methods of `Simulation` (soil/simulation.py:109-287). -/
def simMethods : List String :=
  ["__post_init__", "run", "_collect_params", "_run_iters_for_params", "_get_env", "_run_model", "to_dict", "to_yaml"]

/-- `run_from_file(*files)` (soil/simulation.py:362-365), once the files are loaded: the simulations that were run, and the exception.
(It loads the files one at a time; that does not matter here.) -/
def runLoaded : List SimFields → List SimFields × Option LoadErr
  | [] => ([], none)
  | s :: l =>
    if "run_simulation" ∈ simMethods then
      let r := runLoaded l
      (s :: r.1, r.2)
    else ([], some .noAttribute)

end Verif
