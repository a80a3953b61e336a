import Verif.Model.Data

/-!
# Members of the class of an environment that are marked with `@report`; logging
-/

namespace Verif

variable {S A : Type}

/-- What happens when the getter of a property runs: it returns, or raises `AttributeError`, or raises something else. -/
inductive Got where
  | value (v : RVal)
  | attributeError
  | raises
deriving DecidableEq, Repr

/-- A member of the class of an environment, as `__new__` tells them apart (soil/environment.py:58-63): a property with its
getter; a function, which on an instance gives a bound method (an object with the given identity) whose call is `call`; any
other object. `marked`: the decorator `report` (soil/decorators.py:1-6) was applied to it, to the property or to the
function that is its getter. -/
inductive EnvMember (S : Type) where
  | prop (marked : Bool) (get : S → Got)
  | method (marked : Bool) (ident : Nat) (call : S → Got)
  | data (v : RVal)

/-- `getattr(v, "add_to_report", False)` after replacing a property by its getter (soil/environment.py:59-62). Simplification:
objects that are neither properties nor functions have no such attribute. -/
def EnvMember.marked : EnvMember S → Bool
  | .prop m _ => m
  | .method m _ _ => m
  | .data _ => false

/-- `getattr(model, k, None)` for a member of the class: a property runs its getter and wins over attributes of the instance;
other members are looked up on the instance first. `none`: the getter raises something other than `AttributeError`. -/
def EnvMember.read (inst : S → Dict String RVal) (k : String) (m : EnvMember S) : ModelRep S := fun s =>
  match m with
  | .prop _ get => match get s with
    | .value v => some v
    | .attributeError => some .none
    | .raises => none
  | .method _ ident _ => some ((Dict.get? (inst s) k).getD (.obj ident))
  | .data v => some ((Dict.get? (inst s) k).getD v)

/-- The loop of `BaseEnvironment.__new__` (soil/environment.py:58-63): the members in the order of `dir(cls)`, those that are
marked are registered as reporters by name; mesa evaluates a reporter given by name with `getattr(model, name, None)`. -/
def markedRegs (inst : S → Dict String RVal) (members : List (String × EnvMember S)) : List (Reg S A) :=
  members.filterMap (fun km => if km.2.marked then some (.model km.1 (km.2.read inst km.1)) else none)

/-- The construction of an environment with the given members (soil/environment.py:40-110): the collector with the reporters
given as arguments, then those of the marked members, then those added by `init()`. -/
def DataEnv.ofClass (st : Stepper S) (ob : Observed S A) (mr : Dict String (ModelRep S)) (ar : Dict String (AgentRep S A))
    (inst : S → Dict String RVal) (members : List (String × EnvMember S)) (regsInit : List (Reg S A)) (s : S) : DataEnv S A × Bool :=
  DataEnv.new ob (soilCollector st ob mr ar) (markedRegs inst members ++ regsInit) true s

/-! ### Logging -/

/-- `f"{v:>6}"` works: numbers and, among the other objects, those `fmt` tells (strings for example); not `None`, whose
`__format__` is the one of `object`, which takes no specification. -/
def RVal.formattable (fmt : Nat → Bool) : RVal → Bool
  | .none => false
  | .num _ => true
  | .obj n => fmt n

/-- The message of `BaseEnvironment.step` (soil/environment.py:197-202) can be made: every column has a last value, which can
be formatted. There is always a column: the collector has two of its own. -/
def Collector.printable (fmt : Nat → Bool) (c : Collector S A) : Bool :=
  c.modelVars.all (fun kv => match kv.2.getLast? with
    | some v => v.formattable fmt
    | none => false)

/-- `BaseEnvironment.step` with its logging (soil/environment.py:189-202); `debug` tells whether the logger is enabled for
`DEBUG`. -/
def DataEnv.stepLogged (debug : Bool) (fmt : Nat → Bool) (st : Stepper S) (ob : Observed S A) (regs : S → List (Reg S A))
    (e : DataEnv S A) : DataEnv S A × Bool :=
  let r := e.step st ob regs
  if r.2 then r
  else if debug && !r.1.dc.printable fmt then (r.1, true)
  else r

/-- `n` such steps; stops at the first exception. -/
def DataEnv.stepsLogged (debug : Bool) (fmt : Nat → Bool) (st : Stepper S) (ob : Observed S A) (regs : S → List (Reg S A)) :
    Nat → DataEnv S A → DataEnv S A × Bool
  | 0, e => (e, false)
  | n + 1, e =>
    let r := e.stepLogged debug fmt st ob regs
    if r.2 then r else r.1.stepsLogged debug fmt st ob regs n

/-- The loop over the keyword arguments (soil/agents/__init__.py:256-257, soil/environment.py:182-183): iterating over the
dictionary gives its keys, so a key is unpacked into `k, v`, which raises `ValueError` unless it has two characters, and then
`" {k}={v} ".format(k, v)` raises `KeyError`. The Boolean tells whether it raises. -/
def logKwargs : List String → Bool
  | [] => false
  | k :: rest => if k.length ≠ 2 then true else if keyedFormat then true else logKwargs rest
where
  /-- `" {k}={v} ".format(k, v)`: the fields are named and there are no named arguments. -/
  keyedFormat : Bool := true

/-- `BaseAgent.log` and `BaseEnvironment.log` (soil/agents/__init__.py:251-262, soil/environment.py:177-187) with the level
from which the logger is enabled, the level of the message and the names of the keyword arguments: whether it raises.
Simplification: converting the positional arguments to strings does not raise. -/
def logRaises (enabledFrom level : Nat) (kwargs : List String) : Bool :=
  if level < enabledFrom then false else logKwargs kwargs

/-- User code: statements that change the state, possibly raising, and calls of `log`. -/
inductive Stmt (S : Type) where
  | act (f : S → S × Bool)
  | log (level : Nat) (kwargs : List String)

/-- Running user code; the Boolean tells whether an exception escaped. -/
def runStmts (enabledFrom : Nat) : List (Stmt S) → S → S × Bool
  | [], s => (s, false)
  | .act f :: rest, s => if (f s).2 then f s else runStmts enabledFrom rest (f s).1
  | .log level kwargs :: rest, s => if logRaises enabledFrom level kwargs then (s, true) else runStmts enabledFrom rest s

end Verif
