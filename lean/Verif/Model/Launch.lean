import Verif.Model.Loading
import Verif.Model.Nested

/-!
# Ways to launch a simulation
-/

namespace Verif

/-- Values of the fields of a simulation: `None`, a text, something with a `__name__` (a class), or anything else, with its truth value. -/
inductive LVal where
  | none
  | text (s : Str)
  | cls (name : Str) (n : Nat)
  | other (truth : Bool) (n : Nat)
deriving DecidableEq, Repr

/-- The truth value of a value in Python. -/
def LVal.truthy : LVal → Bool
  | .none => false
  | .text s => !s.isEmpty
  | .cls _ _ => true
  | .other b _ => b

/-- The fields of a `Simulation` (soil/simulation.py:80-107). -/
abbrev LFields := String → LVal

/-- Exceptions of launching a simulation: unexpected, repeated or missing arguments and values of the wrong type; a model without a name; a model that is not found. -/
inductive LErr where
  | typeError
  | noName
  | notFound
deriving DecidableEq, Repr

/-- What is outside: the working directory, the defaults of the fields (soil/simulation.py:80-107), and what `deserialize` finds for the name of a model when the file is
among the sources (soil/simulation.py:119-122). -/
structure LWorld where
  cwd : Str
  defaults : LFields
  find : LVal → Str → Option (Str × Nat)

/-- `os.path.isabs`. -/
def isAbs (s : Str) : Bool := s.head? == some '/'

/-- `os.path.join(d, s)`. -/
def joinDir (d s : Str) : Str :=
  if isAbs s then s else if d.isEmpty || d.getLast? == some '/' then d ++ s else d ++ '/' :: s

/-- `os.path.abspath(s)`. Simplification: without removing `.` and `..`. -/
def absDir (w : LWorld) (s : Str) : Str := joinDir w.cwd s

/-- The name of the simulation (soil/simulation.py:110-116): the one given, the text that describes the model, or the name of the model. `logger.getChild` raises `TypeError` for
a name that is no text. -/
def launchName (f : LFields) : Except LErr Str :=
  match f "name" with
  | .none => match f "model" with
    | .text s => .ok s
    | .cls s _ => .ok s
    | _ => .error .noName
  | .text s => .ok s
  | _ => .error .typeError

/-- The source file of the simulation (soil/simulation.py:118-119). -/
def launchSource (w : LWorld) (f : LFields) : Except LErr LVal :=
  if (f "source_file").truthy then
    match f "source_file" with
    | .text s =>
      if isAbs s then .ok (.text s)
      else match f "dir_path" with
        | .text d => .ok (.text (absDir w (joinDir d s)))
        | _ => .error .typeError
    | _ => .error .typeError
  else .ok (f "source_file")

/-- The model of the simulation (soil/simulation.py:120-123). -/
def launchModel (w : LWorld) (src : LVal) (f : LFields) : Except LErr LVal :=
  match f "model" with
  | .text s => match w.find src s with
    | some c => .ok (.cls c.1 c.2)
    | none => .error .notFound
  | v => .ok v

/-- `Simulation.__post_init__` (soil/simulation.py:109-128). The logger and the `id` (which contains the current time) are not modelled. -/
def postInit (w : LWorld) (f : LFields) : Except LErr LFields :=
  match launchName f with
  | .error e => .error e
  | .ok n => match launchSource w f with
    | .error e => .error e
    | .ok src => match launchModel w src f with
      | .error e => .error e
      | .ok m => .ok (fun k => if k = "name" then .text n else if k = "source_file" then src else if k = "model" then m else f k)

/-- Fields with some of them replaced. -/
def override (f : LFields) (kw : Dict String LVal) : LFields := fun k => (Dict.get? kw k).getD (f k)

/-- `Simulation(**kwargs)` (soil/simulation.py:52-128). -/
def construct (w : LWorld) (kw : Dict String LVal) : Except LErr LFields :=
  if kw.all (fun p => decide (p.1 ∈ simFieldNames)) then postInit w (override w.defaults kw) else .error .typeError

/-- `dataclasses.replace(sim, **kwargs)`: a new simulation from the fields given, and all others as they are. -/
def replaceWith (w : LWorld) (f : LFields) (kw : Dict String LVal) : Except LErr LFields :=
  if kw.all (fun p => decide (p.1 ∈ simFieldNames)) then postInit w (override f kw) else .error .typeError

/-- `sim.run(**kwargs)` (soil/simulation.py:130-133): the simulation whose combinations are run. -/
def launch (w : LWorld) (f : LFields) (kw : Dict String LVal) : Except LErr LFields :=
  if kw.isEmpty then .ok f else replaceWith w f kw

/-- `cls.run(**kwargs)` (soil/environment.py:216-224). -/
def launchClass (w : LWorld) (name : Str) (n : Nat) (kw : Dict String LVal) : Except LErr LFields :=
  if Dict.has kw "model" then .error .typeError
  else
    construct w (Dict.update
      [("name", if ((Dict.get? kw "name").getD .none).truthy then (Dict.get? kw "name").getD .none else .text name), ("model", .cls name n),
        ("iterations", (Dict.get? kw "iterations").getD (.other true 1)), ("num_processes", (Dict.get? kw "num_processes").getD (.other true 1))]
      (Dict.del (Dict.del (Dict.del kw "name") "iterations") "num_processes"))

/-- `soil.simulation.run(env, **kwargs)` (soil/simulation.py:367-368). -/
def launchRun (w : LWorld) (env : LVal) (kw : Dict String LVal) : Except LErr LFields :=
  if Dict.has kw "model" then .error .typeError
  else
    construct w (Dict.update
      [("model", env), ("iterations", (Dict.get? kw "iterations").getD (.other true 1)), ("name", (Dict.get? kw "name").getD (.text "test".toList)),
        ("dump", (Dict.get? kw "dump").getD (.other false 0)), ("num_processes", (Dict.get? kw "num_processes").getD (.other true 1))]
      (Dict.del (Dict.del (Dict.del (Dict.del kw "name") "iterations") "num_processes") "dump"))

end Verif
