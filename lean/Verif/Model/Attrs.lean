import Verif.Basic.Val
import Verif.Basic.Dict

/-!
# Class defaults and the construction of agents
-/

namespace Verif

/-- An item of the body of an agent class, as `MetaAgent.__new__` tells them apart
(soil/agents/__init__.py:71-98): something kept as a class attribute (functions, properties, class methods,
names starting with an underscore), a dictionary called `defaults`, or any other value. -/
inductive NsItem where
  | kept
  | defaults (d : Dict String Val)
  | value (v : Val)
deriving DecidableEq, Repr

/-- The effect of one item on `_defaults` (soil/agents/__init__.py:94-98). The copy of line 98 is invisible here. -/
def NsItem.add (d : Dict String Val) (k : String) : NsItem → Dict String Val
  | .kept => d
  | .defaults e => Dict.update d e
  | .value v => Dict.set d k v

/-- `MetaAgent.__new__` (soil/agents/__init__.py:57-102): the `_defaults` of a class with the given bases (their
`_defaults`, in the order of the `class` statement) and body. -/
def mkDefaults (bases : List (Dict String Val)) (ns : List (String × NsItem)) : Dict String Val :=
  ns.foldl (fun d it => it.2.add d it.1) (bases.foldl Dict.update [])

/-- An agent class: its `_defaults`; what attribute lookup on the class itself finds (methods, properties,
private class attributes, everything inherited); which of those are properties without a setter. -/
structure AgentCls where
  defaults : Dict String Val
  attrs : Dict String Val
  readonly : List String
deriving Repr

/-- `getattr(self, k)`: the instance, then its class; `none`: `AttributeError`. -/
def AgentCls.getattr (c : AgentCls) (inst : Dict String Val) (k : String) : Option Val :=
  match Dict.get? inst k with
  | some v => some v
  | none => Dict.get? c.attrs k

/-- `setattr(self, k, v)`; `none`: `AttributeError`. -/
def AgentCls.setattr (c : AgentCls) (inst : Dict String Val) (k : String) (v : Val) : Option (Dict String Val) :=
  if k ∈ c.readonly then none else some (Dict.set inst k v)

/-- The first loop (soil/agents/__init__.py:133-136). `model k` is `getattr(model, k, None)`. -/
def AgentCls.fromModel (c : AgentCls) (model : String → Val) : List String → Dict String Val → Option (Dict String Val)
  | [], inst => some inst
  | k :: ks, inst =>
    if model k = .none then c.fromModel model ks inst
    else match c.setattr inst k (model k) with
      | none => none
      | some inst' => c.fromModel model ks inst'

/-- The second loop (soil/agents/__init__.py:138-140); `deepcopy` returns an equal value (see `Model/Heap`). -/
def AgentCls.fromDefaults (c : AgentCls) : Dict String Val → Dict String Val → Option (Dict String Val)
  | [], inst => some inst
  | (k, v) :: d, inst =>
    match c.getattr inst k with
    | none | some .none => match c.setattr inst k v with
      | none => none
      | some inst' => c.fromDefaults d inst'
    | some _ => c.fromDefaults d inst

/-- The third loop (soil/agents/__init__.py:142-143). -/
def AgentCls.fromKwargs (c : AgentCls) : Dict String Val → Dict String Val → Option (Dict String Val)
  | [], inst => some inst
  | (k, v) :: d, inst => match c.setattr inst k v with
    | none => none
    | some inst' => c.fromKwargs d inst'

/-- The attributes that `MesaAgent.__init__` and the first lines of `BaseAgent.__init__`
(soil/agents/__init__.py:118-128) set. -/
def builtinNames : List String := ["unique_id", "model", "pos", "name", "alive", "logger"]

/-- `BaseAgent.__init__` (soil/agents/__init__.py:117-143) without the call of `init`. `inst0` holds the values of
the built-in attributes. `none`: `AttributeError`. -/
def AgentCls.construct (c : AgentCls) (model : String → Val) (inst0 kwargs : Dict String Val) :
    Option (Dict String Val) :=
  match c.fromModel model (Dict.keys c.defaults) inst0 with
  | none => none
  | some i1 => match c.fromDefaults c.defaults i1 with
    | none => none
    | some i2 => c.fromKwargs kwargs i2

end Verif
