import Verif.Model.FSM
import Verif.Model.Attrs
import Verif.Model.Serialization

/-!
# Declaring agent classes: the decorators of states, and customised classes (soil/agents/fsm.py:8-110, soil/agents/__init__.py:158-159, 691-693)

In `Model/FSM` the states of a class are values. In Python they are objects that a class shares with the classes derived from it, and
`default_state` changes the object that it is given. Here they are in a heap.
-/

namespace Verif

/-- The decorators for states: `@state`, `@state(name, default)` (soil/agents/fsm.py:57-71; `@state` alone is the same as
`@state(None, False)`), and `@default_state` (74-76). -/
inductive Deco where
  | state (name : Option String) (dflt : Bool)
  | dfltState
deriving DecidableEq, Repr

/-- What a decorator is applied to: a function (its `__name__` and its identity), or a `State` object, by its position in the heap. -/
inductive DecoVal where
  | func (name : String) (fn : Nat)
  | ref (r : Nat)
deriving DecidableEq, Repr

/-- The function of a state that is made of another `State` object: calling it raises (soil/agents/fsm.py:32-33). Functions of the user have
other numbers. -/
def callError : Nat := 0

/-- `name or func.__name__` (soil/agents/fsm.py:63). -/
def nameOr (name : Option String) (own : String) : String :=
  match name with
  | none => own
  | some n => if n = "" then own else n

/-- Applying one decorator. `state` of a function makes a new object (soil/agents/fsm.py:58-66); of a `State` object, which has no
`__name__`, it needs a name (`none`: `AttributeError`). `default_state` sets the attribute `default` of what it is given (74-76), which
nobody reads if that is a function. -/
def applyDeco (heap : List StateDef) (v : DecoVal) (d : Deco) : Option (List StateDef × DecoVal) :=
  match d, v with
  | .state name dflt, .func own fn => some (heap ++ [⟨nameOr name own, dflt, fn⟩], .ref heap.length)
  | .state name dflt, .ref _ => match name with
    | none => none
    | some n => if n = "" then none else some (heap ++ [⟨n, dflt, callError⟩], .ref heap.length)
  | .dfltState, .func own fn => some (heap, .func own fn)
  | .dfltState, .ref r => some (heap.modify r (fun s => { s with dflt := true }), .ref r)

/-- Applying the decorators, from the one next to the function to the topmost one. -/
def applyDecos (heap : List StateDef) (v : DecoVal) : List Deco → Option (List StateDef × DecoVal)
  | [] => some (heap, v)
  | d :: ds => match applyDeco heap v d with
    | none => none
    | some (h, v') => applyDecos h v' ds

/-- An item of a class body: a name, what is decorated, and the decorators from the innermost to the outermost. (`x = default_state(Base.y)`
has the name `x`, the object of `Base.y`, and one decorator.) -/
structure DItem where
  attr : String
  src : DecoVal
  decos : List Deco
deriving DecidableEq, Repr

/-- Executing a class body: the heap and the namespace. -/
def runBody (heap : List StateDef) (ns : Dict String DecoVal) : List DItem → Option (List StateDef × Dict String DecoVal)
  | [] => some (heap, ns)
  | it :: its => match applyDecos heap it.src it.decos with
    | none => none
    | some (h, v) => runBody h (Dict.set ns it.attr v) its

/-- The attributes `_states` and `_state` of a class, in terms of the heap. -/
structure HClass where
  states : Dict String Nat
  init : Option Nat
deriving DecidableEq, Repr

/-- All `State` objects and FSM classes so far. -/
structure FsmWorld where
  heap : List StateDef
  classes : List HClass
deriving DecidableEq, Repr

/-- One step of the loops of `MetaFSM.__new__` (soil/agents/fsm.py:86-89, 93-96). -/
def HClass.addState (heap : List StateDef) (c : HClass) (id : String) (r : Nat) : HClass :=
  ⟨Dict.set c.states id r, if (heap[r]?.map StateDef.dflt).getD false then some r else c.init⟩

/-- The states in a namespace (soil/agents/fsm.py:92-93). -/
def nsRefs (ns : Dict String DecoVal) : List Nat :=
  ns.filterMap (fun kv => match kv.2 with | .ref r => some r | .func _ _ => none)

/-- `MetaFSM.__new__` (soil/agents/fsm.py:80-110) as far as states are concerned. -/
def mkHClass (heap : List StateDef) (bases : List HClass) (refs : List Nat) : HClass :=
  refs.foldl (fun c r => c.addState heap ((heap[r]?.map StateDef.name).getD "") r)
    (bases.foldl (fun c b => b.states.foldl (fun c kr => c.addState heap kr.1 kr.2) c) ⟨[], none⟩)

/-- The statement `class ...(bases): body`; `bases` are positions of FSM classes. `none`: an exception. -/
def FsmWorld.declare (w : FsmWorld) (bases : List Nat) (body : List DItem) : Option FsmWorld :=
  match runBody w.heap [] body with
  | none => none
  | some (heap, ns) => some ⟨heap, w.classes ++ [mkHClass heap (bases.filterMap (fun b => w.classes[b]?)) (nsRefs ns)]⟩

/-- What a class means: its states with their names, marks and functions. -/
def FsmWorld.view (w : FsmWorld) (c : HClass) : FsmClass :=
  ⟨c.states.map (fun kr => (kr.1, w.heap[kr.2]?.getD default)), c.init.map (fun r => w.heap[r]?.getD default)⟩

/-- The class number `n`. -/
def FsmWorld.cls (w : FsmWorld) (n : Nat) : Option FsmClass := w.classes[n]?.map w.view

/-! ### Customised classes -/

/-- A keyword argument of `w` and `custom`: a value, a dictionary (told apart because of the name `defaults`; `v` is the same dictionary as a
value), or a function, property or class method. -/
inductive Kw where
  | value (v : Val)
  | dict (d : Dict String Val) (v : Val)
  | func (v : Val)
deriving DecidableEq, Repr

/-- How `MetaAgent.__new__` treats an item of the namespace of a class that is made by `type` (soil/agents/__init__.py:71-98): `step` has to be
a function, functions and names that start with an underscore are kept, `defaults` has to be a dictionary. `none`: an exception.
(`attr[0]` fails for the empty name.) Simplification: a property or class method called `step` is taken for a function. -/
def Kw.item (k : String) (x : Kw) : Option NsItem :=
  match x with
  | .func _ => some .kept
  | .value v => match k.toList with
    | [] => none
    | a :: _ => if k = "step" then none else if a = '_' then some .kept else if k = "defaults" then none else some (.value v)
  | .dict d v => match k.toList with
    | [] => none
    | a :: _ => if k = "step" then none else if a = '_' then some .kept
      else if k = "defaults" then some (.defaults d) else some (.value v)

/-- The value of a keyword argument. -/
def Kw.val : Kw → Val
  | .value v => v
  | .dict _ v => v
  | .func v => v

/-- `custom(cls, **kwargs)`, `cls.w(**kwargs)` (soil/agents/__init__.py:158-159, 691-693): `type(cls.__name__, (cls,), kwargs)` calls the
metaclass. What is kept is added to what attribute lookup finds on the class. Simplifications: whether a new property has a setter, and the
wrapping of `step`, are not modelled. -/
def custom (c : AgentCls) (kwargs : Dict String Kw) : Option AgentCls :=
  match kwargs.mapM (fun kx => (kx.2.item kx.1).map (fun i => (kx.1, i))) with
  | none => none
  | some ns => some ⟨mkDefaults [c.defaults] ns,
      Dict.update c.attrs ((kwargs.filter (fun kx => kx.2.item kx.1 = some .kept)).map (fun kx => (kx.1, kx.2.val))), c.readonly⟩

/-- The states of a customised FSM class (soil/agents/__init__.py:691-693): those of a class with one base and no states in its body. -/
def customFsm (c : FsmClass) : FsmClass := mkFsm [c] []

/-- The module of customised classes: Python takes it from the function that calls `type.__new__`, which is `ABCMeta.__new__` in the module `abc`
of the standard library, because `MetaAgent` is derived from `ABCMeta` (soil/agents/__init__.py:57, 102). -/
def customModule : Str := "abc".toList

/-- The name and the module of a customised class (soil/agents/__init__.py:691-693); `obj` is the identity of the new class. -/
def customName (c : PyClass) (obj : Nat) : PyClass := ⟨c.name, customModule, obj⟩

end Verif
