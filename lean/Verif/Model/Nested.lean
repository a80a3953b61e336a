import Verif.Basic.Dict

/-!
# Nested dictionaries: `flatten_dict`, `unflatten_dict` and `--set`

Strings are lists of characters here, so that `split` can be reasoned about.
-/

namespace Verif

/-- A string. -/
abbrev Str := List Char

/-- A nested dictionary (`node`), or any other value (`leaf`, opaque). Simplification: keys are strings. -/
inductive NTree where
  | leaf (v : Nat)
  | node (d : List (Str × NTree))
deriving Repr

/-- Python `s.split(sep)` for a separator of one character. -/
def pySplit (sep : Char) (s : Str) : List Str := s.splitOn sep

/-- Python `s.rsplit(sep, 1)`: what is before the last separator (`none` if there is no separator) and after it. -/
def pyRsplit1 (sep : Char) (s : Str) : Option Str × Str :=
  let r := s.reverse
  match r.dropWhile (· ≠ sep) with
  | [] => (none, s)
  | _ :: before => (some before.reverse, (r.takeWhile (· ≠ sep)).reverse)

mutual
/-- `_flatten_dict(d, prefix)` (soil/utils.py:94-105). -/
def flattenFrom (pre : Str) : NTree → List (Str × Nat)
  | .leaf v => [(pre, v)]
  | .node d => flattenItems (if pre.isEmpty then pre else pre ++ ['.']) d

/-- The loop over the items of a dictionary (soil/utils.py:101-105); `pre` ends in a dot unless it is empty. -/
def flattenItems (pre : Str) : List (Str × NTree) → List (Str × Nat)
  | [] => []
  | (k, v) :: d => flattenFrom (pre ++ k) v ++ flattenItems pre d
end

/-- `flatten_dict(d)` for a dictionary (soil/utils.py:88-91): `dict` of the pairs. -/
def flattenDict (d : List (Str × NTree)) : Dict Str Nat := Dict.update [] (flattenFrom [] (.node d))

/-- The body of the loop of `unflatten_dict` (soil/utils.py:110-123) after splitting the key: walk down, making missing
dictionaries, and store the value. `none`: there is something other than a dictionary on the way (`TypeError`). -/
def insertPath (out : List (Str × NTree)) : List Str → Nat → Option (List (Str × NTree))
  | [], _ => none
  | [k], v => some (Dict.set out k (.leaf v))
  | k :: k' :: ks, v => match Dict.get? out k with
    | none => (insertPath [] (k' :: ks) v).map (fun d => Dict.set out k (.node d))
    | some (.node e) => (insertPath e (k' :: ks) v).map (fun d => Dict.set out k (.node d))
    | some (.leaf _) => none

/-- `unflatten_dict(d)` (soil/utils.py:108-124). -/
def unflattenDict (d : Dict Str Nat) : Option (List (Str × NTree)) :=
  d.foldlM (fun out kv => insertPath out (pySplit '.' kv.1) kv.2) []

/-! ### `--set` -/

/-- Objects: a reference to a dictionary or an opaque value. -/
inductive PVal where
  | leaf (v : Nat)
  | dict (o : Nat)
deriving DecidableEq, Repr

/-- All dictionaries, by identity. -/
abbrev PHeap := Nat → Dict Str PVal

/-- Assignment of an item of the dictionary `o`. -/
def PHeap.set (h : PHeap) (o : Nat) (k : Str) (v : PVal) : PHeap := fun o' => if o' = o then Dict.set (h o) k v else h o'

/-- The loop over the parts of the key (soil/__init__.py:238-242): `getattr` first, then the item. `isAttr` tells which names
are attributes of Python dictionaries (`keys`, `items`, `get`, ...); for these the walk leaves the parameters.
Simplification: this, and reaching anything that is not a dictionary, counts as failure (`none`); a value with attributes
of its own is not modelled. -/
def setWalk (isAttr : Str → Bool) (h : PHeap) : Nat → List Str → Option Nat
  | o, [] => some o
  | o, p :: ps =>
    if isAttr p then none
    else match Dict.get? (h o) p with
      | some (.dict o') => setWalk isAttr h o' ps
      | _ => none

/-- `--set key=value` (soil/__init__.py:232-247) for the already evaluated value `v`; `root` is `sim.parameters`. `setattr`
on a dictionary raises `AttributeError`, so an item is set. `none`: an exception. -/
def cliSet (isAttr : Str → Bool) (h : PHeap) (root : Nat) (key : Str) (v : PVal) : Option PHeap :=
  let ht := pyRsplit1 '.' key
  match ht.1 with
  | none => some (h.set root ht.2 v)
  | some head => (setWalk isAttr h root (pySplit '.' head)).map (fun o => h.set o ht.2 v)

/-- `s.split("=", 1)` (soil/__init__.py:234); `none` if there is no `=` (`ValueError`). -/
def splitEq (s : Str) : Option (Str × Str) :=
  match s.dropWhile (· ≠ '=') with
  | [] => none
  | _ :: v => some (s.takeWhile (· ≠ '='), v)

/-- All `--set` options, in order (soil/__init__.py:233); `ev` is Python's `eval` (`none`: it raises). An exception ends the
loop; the Boolean tells. -/
def cliSetAll (isAttr : Str → Bool) (ev : Str → Option PVal) (root : Nat) : List Str → PHeap → PHeap × Bool
  | [], h => (h, true)
  | s :: rest, h => match splitEq s with
    | none => (h, false)
    | some (k, e) => match ev e with
      | none => (h, false)
      | some v => match cliSet isAttr h root k v with
        | none => (h, false)
        | some h' => cliSetAll isAttr ev root rest h'

/-- The value found by following keys from a dictionary. -/
def readPath (h : PHeap) : Nat → List Str → Option PVal
  | o, [] => some (.dict o)
  | o, k :: ks => match Dict.get? (h o) k with
    | some (.dict o') => readPath h o' ks
    | some (.leaf v) => if ks.isEmpty then some (.leaf v) else none
    | none => none

end Verif
