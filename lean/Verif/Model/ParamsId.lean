import Verif.Model.Simulation
import Verif.Model.Literal
import Mathlib.Data.String.Basic
import Mathlib.Data.List.Sort

/-!
# Identifiers of combinations of parameters (soil/simulation.py:158-163)

`repr` of the sorted items is hashed with SHA-256, and the first seven hexadecimal digits are the identifier with which the exporters write the
results of the combination.
-/

namespace Verif

/-- Parameters whose values are literals. Parameters of other types (functions, graphs, floating-point numbers …) are not modelled. -/
abbrev LitParams := Dict String PyLit

/-- `sorted(params.items())` (soil/simulation.py:162): pairs are compared by their keys, texts compared by code points; the values are never
compared, since no key occurs twice. -/
def sortItems (ps : LitParams) : List (String × PyLit) := ps.insertionSort (fun a b => a.1 ≤ b.1)

/-- `repr(sorted(params.items()))` (soil/simulation.py:162). -/
def paramsText (printable : Char → Bool) (ps : LitParams) : Str :=
  reprLit printable (.list ((sortItems ps).map (fun kv => .tuple [.str kv.1.toList, kv.2])))

/-- `params_id` (soil/simulation.py:161-163): `hexdigest()[:7]`. `sha` is SHA-256 of the UTF-8 encoding of a text, as a number below
`2 ^ 256`; nothing is assumed about it. -/
def paramsId (sha : Str → Nat) (printable : Char → Bool) (ps : LitParams) : String :=
  String.ofList ((hexText 64 (sha (paramsText printable ps))).take 7)

/-- The parameters with the values that the opaque values of `Params` stand for. -/
def litParams (den : PV → PyLit) (ps : Params) : LitParams := ps.map (fun kv => (kv.1, den kv.2))

/-- The identifiers of combination and iteration that the exporters are given, in order (soil/simulation.py:157-167, 217): for each combination the
iterations `0, 1, …`. -/
def runIds (sha : Str → Nat) (printable : Char → Bool) (den : PV → PyLit) (s : Sim) : List (String × String) :=
  (collectParams s).flatMap (fun ps => (List.range s.iterations).map (fun i => (paramsId sha printable (litParams den ps), toString i)))

end Verif
