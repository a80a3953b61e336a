import Verif.Basic.Dict
import Verif.Model.Nested
import Verif.Model.Simulation

/-!
# `soil/serialization.py`: source files, names of classes, templates
-/

namespace Verif

/-! ### Source files as modules -/

/-- Names of modules: `imported_module_n` (soil/serialization.py:127) or any other. Simplification: there is no real module
called `imported_module_n`. -/
inductive ModName where
  | imported (n : Nat)
  | named (s : String)
deriving DecidableEq, Repr

/-- The globals `MODULE_FILES` (file → number of its module name) and `KNOWN_MODULES` (soil/serialization.py:114-119); a
module is an opaque number; `none`: not loaded yet. -/
structure Registry where
  files : Dict String Nat
  known : Dict ModName (Option Nat)
deriving DecidableEq, Repr

/-- `_remove_source_file` (soil/serialization.py:135-143); the Boolean: `ValueError`. (If the second `pop` fails, the first one has
been done.) -/
def Registry.remove (R : Registry) (file : String) : Registry × Bool :=
  match Dict.get? R.files file with
  | none => (R, true)
  | some n =>
    let R1 := { R with files := Dict.del R.files file }
    match Dict.get? R.known (.imported n) with
    | none => (R1, true)
    | some _ => ({ R1 with known := Dict.del R.known (.imported n) }, false)

/-- `_add_source_file` (soil/serialization.py:121-133); paths are absolute already; `m` is the new module, `loads` tells
whether executing it succeeds. The Boolean: an exception. -/
def Registry.add (R : Registry) (file : String) (m : Nat) (loads : Bool) : Registry × Bool :=
  let r := if Dict.has R.files file then R.remove file else (R, false)
  if r.2 then r
  else if loads then
    let n := r.1.files.length
    (⟨Dict.set r.1.files file n, Dict.set r.1.known (.imported n) (some m)⟩, false)
  else (r.1, true)

/-- Programs that use `with_source` and `get_module`. -/
inductive SrcProg where
  | skip
  | raise
  | seq (a b : SrcProg)
  | tryExcept (a : SrcProg)
  | get (name : String) (m : Option Nat)
  | withSource (file : String) (m : Nat) (loads : Bool) (body : SrcProg)
deriving DecidableEq, Repr

/-- `get_module(name)` (soil/serialization.py:157-162); `m` is the result of importing it (`none`: `ImportError`). -/
def Registry.get (R : Registry) (name : String) (m : Option Nat) : Registry × Bool :=
  match Dict.get? R.known (.named name) with
  | some (some _) => (R, false)
  | _ => match m with
    | none => (R, true)
    | some m => ({ R with known := Dict.set R.known (.named name) (some m) }, false)

/-- Execution; the Boolean tells whether an exception escapes. `with_source`: soil/serialization.py:146-155. -/
def SrcProg.exec : SrcProg → Registry → Registry × Bool
  | .skip, R => (R, false)
  | .raise, R => (R, true)
  | .seq a b, R =>
    let r := a.exec R
    if r.2 then r else b.exec r.1
  | .tryExcept a, R => ((a.exec R).1, false)
  | .get name m, R => R.get name m
  | .withSource file m loads body, R =>
    let r := R.add file m loads
    if r.2 then r
    else
      let q := body.exec r.1
      let z := q.1.remove file
      (z.1, q.2 || z.2)

/-- The module that is registered for a file. -/
def Registry.moduleOf (R : Registry) (file : String) : Option Nat :=
  match Dict.get? R.files file with
  | none => none
  | some n => (Dict.get? R.known (.imported n)).join

/-! ### Names of classes -/

/-- A class: `__name__`, `__module__`, and its identity. -/
structure PyClass where
  name : Str
  module : Str
  obj : Nat
deriving DecidableEq, Repr

/-- What is there to import: names of `builtins`; the attributes of every importable module (`none`: `ImportError`); for
objects, their attribute `deserialize`; and what `eval` finds in the namespace of `soil.serialization`. -/
structure PyWorld where
  isBuiltin : Str → Bool
  modules : Str → Option (Dict Str Nat)
  deserializeAttr : Nat → Option Nat
  evalName : Str → Option Nat

/-- Results of `deserialize`: an object, or one of the lambdas made for builtins (soil/serialization.py:222-228). -/
inductive Des where
  | obj (n : Nat)
  | builtin (name : Str)
deriving DecidableEq, Repr

/-- `getattr(get_module(m), t)`; `none`: `ImportError` or `AttributeError`. -/
def PyWorld.attr (w : PyWorld) (m t : Str) : Option Nat :=
  match w.modules m with
  | none => none
  | some d => Dict.get? d t

/-- `"__main__"`. -/
def mainName : Str := "__main__".toList

/-- The loop over the known modules at the end of `name` (soil/serialization.py:179-183). `none`: `ImportError`. -/
def nameIn (w : PyWorld) (c : PyClass) : List Str → Option Str
  | [] => some (c.module ++ '.' :: c.name)
  | k :: ks => match w.modules k with
    | none => none
    | some d => if Dict.has d c.name then some c.name else nameIn w c ks

/-- `name(cls)` (soil/serialization.py:165-183) for a class; `known` are the keys of `KNOWN_MODULES` in order. -/
def className (w : PyWorld) (known : List Str) (c : PyClass) : Option Str :=
  if w.isBuiltin c.name then some c.name
  else if c.module = mainName then some c.name
  else if c.module ∈ known then some c.name
  else nameIn w c known

/-- `getattr(cls, "deserialize", cls)`. -/
def PyWorld.finish (w : PyWorld) (n : Nat) : Nat := (w.deserializeAttr n).getD n

/-- The loop over the options (soil/serialization.py:246-253). -/
def firstOption (w : PyWorld) : List (Str × Str) → Option Nat
  | [] => none
  | (m, t) :: rest => match w.attr m t with
    | some n => some (w.finish n)
    | none => firstOption w rest

/-- `deserializer(type_)` (soil/serialization.py:218-254) and `deserialize(type_)` without a value (257-273). Not modelled:
strings of the form `<class '...'>`, `globs`. `none`: `ValueError`. -/
def deserializeName (w : PyWorld) (known : List Str) (t : Str) : Option Des :=
  if w.isBuiltin t then some (.builtin t)
  else
    let options := ((known.filter (fun m => !m.isEmpty)).map (fun m => (m, t))) ++
      (match pyRsplit1 '.' t with
        | (some m, tl) => [(m, tl)]
        | (none, _) => [])
    match firstOption w options with
    | some n => some (.obj n)
    | none => (w.evalName t).map .obj

/-! ### Templates -/

/-- `params_for_template` (soil/serialization.py:67-88), once the sampler has returned `samples`: names and values of
`lists`, and the names of `bounds`. -/
def templateParams {V : Type} (lists : Dict String (List V)) (bounds : List String) (samples : List (List V)) :
    List (Dict String V) :=
  let combs := product (lists.map Prod.snd)
  let allnames := Dict.keys lists ++ bounds
  let allvalues := combs.flatMap (fun c => samples.map (fun s => c ++ s))
  allvalues.map (dictZip allnames)

/-- `expand_template` for a template (soil/serialization.py:36-64): `render` is Jinja's `render` followed by YAML's
loading; the rendering with all variables 0 is given by the number of configurations it yields and whether it has a name.
Simplification: the result is the list of all that the generator yields. `none`: an exception. -/
def expandTemplate {V C : Type} (lists : Dict String (List V)) (bounds : List String) (samples : List (List V))
    (blankCount : Nat) (blankNamed : Bool) (render : Dict String V → List C) : Option (List C) :=
  match templateParams lists bounds samples with
  | [] => none
  | ps => if blankCount ≠ 1 ∨ blankNamed then none else some (ps.flatMap render)

/-- The choice of the sampler (soil/serialization.py:68-70): `pop` takes "method" out of the dictionary of the caller. Result:
the method, and the dictionary afterwards. -/
def takeMethod (sampler : Dict String String) : String × Dict String String :=
  ((Dict.get? sampler "method").getD "SALib.sample.morris.sample", Dict.del sampler "method")

end Verif
