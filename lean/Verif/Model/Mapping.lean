import Verif.Model.Env

/-!
# Agents and the methods of `MutableMapping`

`BaseAgent` inherits from `collections.abc.MutableMapping` (soil/agents/__init__.py:105) and defines `__getitem__`, `__setitem__`,
`__delitem__`, `__contains__`, `__len__`, `__iter__`, `keys`, `items` and `get` (lines 184-222). The other methods are those of
the standard library (Lib/_collections_abc.py), modelled here as they are written there.
-/

namespace Verif

/-- Keys: names, what iterating over an agent yields (pairs of a name and a value), and anything else. -/
inductive MKey where
  | name (k : String)
  | item (k : String) (v : Option Val)
  | other (n : Nat)
deriving DecidableEq, Repr

/-- Exceptions. -/
inductive MErr where
  | keyError
  | attributeError
  | typeError
deriving DecidableEq, Repr

/-- An agent with the names of the properties without setter and deleter on its class (e.g. `now`). -/
structure MObj where
  obj : Obj
  readonly : List String
deriving DecidableEq, Repr

/-- `__getitem__` (soil/agents/__init__.py:184-188): `getattr` with a key that is not a string is a `TypeError`. -/
def MObj.getitem (o : MObj) : MKey → Except MErr Val
  | .name k => match o.obj.getitem k with
    | .ok v => .ok v
    | .error _ => .error .keyError
  | .item _ _ => .error .typeError
  | .other _ => .error .typeError

/-- `__setitem__` (soil/agents/__init__.py:196-197). -/
def MObj.setitem (o : MObj) (key : MKey) (v : Val) : Except MErr MObj :=
  match key with
  | .name k => if k ∈ o.readonly then .error .attributeError else .ok { o with obj := o.obj.setitem k v }
  | .item _ _ => .error .typeError
  | .other _ => .error .typeError

/-- `__delitem__` (soil/agents/__init__.py:190-191). -/
def MObj.delitem (o : MObj) : MKey → Except MErr MObj
  | .name k => if k ∈ o.readonly then .error .attributeError else match o.obj.delitem k with
    | .ok o' => .ok { o with obj := o' }
    | .error _ => .error .attributeError
  | .item _ _ => .error .typeError
  | .other _ => .error .typeError

/-- `__contains__` (soil/agents/__init__.py:193-194): `hasattr` with a key that is not a string is a `TypeError`. -/
def MObj.contains (o : MObj) : MKey → Except MErr Bool
  | .name k => .ok (o.obj.contains k)
  | .item _ _ => .error .typeError
  | .other _ => .error .typeError

/-- `__len__` (soil/agents/__init__.py:199-200). -/
def MObj.len (o : MObj) : Nat := o.obj.agentKeys.length

/-- `__iter__` (soil/agents/__init__.py:202-203): `self.items()`. -/
def MObj.iter (o : MObj) : List MKey := o.obj.items.map (fun kv => .item kv.1 kv.2)

/-- `dict(agent)`: a mapping given to `dict` is read through `keys()` and `__getitem__`. -/
def MObj.toDict (o : MObj) : Except MErr (Dict String Val) :=
  o.obj.agentKeys.mapM (fun k => match o.getitem (.name k) with
    | .ok v => .ok (k, v)
    | .error e => .error e)

/-- `MutableMapping.pop`. -/
def MObj.pop (o : MObj) (key : MKey) (dflt : Option Val) : MObj × Except MErr Val :=
  match o.getitem key with
  | .error .keyError => (o, match dflt with
    | some d => .ok d
    | none => .error .keyError)
  | .error e => (o, .error e)
  | .ok v => match o.delitem key with
    | .ok o' => (o', .ok v)
    | .error e => (o, .error e)

/-- `MutableMapping.popitem`: the first key of the iteration. -/
def MObj.popitem (o : MObj) : MObj × Except MErr (MKey × Val) :=
  match o.iter with
  | [] => (o, .error .keyError)
  | key :: _ => match o.getitem key with
    | .error e => (o, .error e)
    | .ok v => match o.delitem key with
      | .ok o' => (o', .ok (key, v))
      | .error e => (o, .error e)

/-- `MutableMapping.clear`: `popitem` until it raises `KeyError`. `none`: not finished after `fuel` rounds. -/
def MObj.clear : Nat → MObj → Option (MObj × Except MErr Unit)
  | 0, _ => none
  | fuel + 1, o => match o.popitem with
    | (o', .ok _) => MObj.clear fuel o'
    | (o', .error .keyError) => some (o', .ok ())
    | (o', .error e) => some (o', .error e)

/-- `list(agent.values())` (`ValuesView.__iter__`: `for key in mapping: yield mapping[key]`). -/
def MObj.values (o : MObj) : Except MErr (List Val) := o.iter.mapM o.getitem

/-- `MutableMapping.setdefault`. -/
def MObj.setdefault (o : MObj) (key : MKey) (dflt : Val) : MObj × Except MErr Val :=
  match o.getitem key with
  | .ok v => (o, .ok v)
  | .error .keyError => match o.setitem key dflt with
    | .ok o' => (o', .ok dflt)
    | .error e => (o, .error e)
  | .error e => (o, .error e)

/-- The loop of `MutableMapping.update` over the pairs of a dictionary, of a list of pairs or of the keyword arguments. -/
def MObj.update (o : MObj) : List (String × Val) → MObj × Except MErr Unit
  | [] => (o, .ok ())
  | (k, v) :: kvs => match o.setitem (.name k) v with
    | .ok o' => o'.update kvs
    | .error e => (o, .error e)

/-- The loop of `MutableMapping.update` over another mapping (`for key in other: self[key] = other[key]`), here another agent.
`keys` are those still to come. -/
def MObj.updateLoop (other : MObj) : List MKey → MObj → MObj × Except MErr Unit
  | [], o => (o, .ok ())
  | key :: keys, o => match other.getitem key with
    | .error e => (o, .error e)
    | .ok v => match o.setitem key v with
      | .ok o' => MObj.updateLoop other keys o'
      | .error e => (o, .error e)

/-- `agent.update(other)` with another agent. -/
def MObj.updateFrom (o other : MObj) : MObj × Except MErr Unit := MObj.updateLoop other other.iter o

/-- Uses of an agent as a dictionary. -/
inductive MapOp where
  | get (k : String)
  | set (k : String) (v : Val)
  | del (k : String)
  | has (k : String)
  | len
  | pop (k : String) (dflt : Option Val)
  | setdefault (k : String) (v : Val)
  | update (kvs : List (String × Val))
deriving DecidableEq, Repr

/-- What an operation returns. -/
inductive MapRes where
  | none
  | val (v : Val)
  | bool (b : Bool)
  | nat (n : Nat)
  | raised (e : MErr)
deriving DecidableEq, Repr

/-- One operation on an agent. -/
def MapOp.exec (o : MObj) : MapOp → MObj × MapRes
  | .get k => (o, match o.getitem (.name k) with
    | .ok v => .val v
    | .error e => .raised e)
  | .set k v => match o.setitem (.name k) v with
    | .ok o' => (o', .none)
    | .error e => (o, .raised e)
  | .del k => match o.delitem (.name k) with
    | .ok o' => (o', .none)
    | .error e => (o, .raised e)
  | .has k => (o, match o.contains (.name k) with
    | .ok b => .bool b
    | .error e => .raised e)
  | .len => (o, .nat o.len)
  | .pop k d => ((o.pop (.name k) d).1, match (o.pop (.name k) d).2 with
    | .ok v => .val v
    | .error e => .raised e)
  | .setdefault k v => ((o.setdefault (.name k) v).1, match (o.setdefault (.name k) v).2 with
    | .ok v => .val v
    | .error e => .raised e)
  | .update kvs => ((o.update kvs).1, match (o.update kvs).2 with
    | .ok _ => .none
    | .error e => .raised e)

/-- A sequence of operations, with what each of them returned. -/
def mapExec : MObj → List MapOp → MObj × List MapRes
  | o, [] => (o, [])
  | o, op :: ops =>
    let r := op.exec o
    let r2 := mapExec r.1 ops
    (r2.1, r.2 :: r2.2)

end Verif
