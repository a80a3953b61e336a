import Verif.Model.Env
import Verif.Model.Attrs

/-!
# Equality of agents, `from_dict`, parameters of environments, log levels of classes
-/

namespace Verif

/-- `dict(a.items()) == dict(b.items())`, which is what `Mapping.__eq__` compares for two agents (`BaseAgent` is a
`MutableMapping`, soil/agents/__init__.py:105, and defines no `__eq__`): as many keys, and for every key of the first the same
key with an equal value in the second. Simplification: attribute values are compared as `Val`. -/
def agentEq (a b : Obj) : Bool :=
  decide (a.items.length = b.items.length) &&
    a.items.all (fun kv => match Dict.get? b.items kv.1 with
      | some v => decide (v = kv.2)
      | none => false)

/-- `BaseAgent.__hash__` (soil/agents/__init__.py:151-152): the hash of `unique_id`; we only need which value is hashed.
`none`: `AttributeError`. -/
def agentHashOf (a : Obj) : Option Val :=
  match a.getitem "unique_id" with
  | .ok v => some v
  | .error _ => none

/-- Outcomes of `from_dict`. -/
inductive FromDictErr where
  | nameError
  | typeError
deriving DecidableEq, Repr

/-- The loop of `BaseAgent.from_dict` (soil/agents/__init__.py:170-177): the arguments for the constructor and the ignored ones.
`sig` are the names of the parameters of the class. -/
def splitAttrs (sig : List String) : Dict String Val → Dict String Val × Dict String Val
  | [] => ([], [])
  | (k, v) :: rest =>
    let r := splitAttrs sig rest
    if k ∈ sig then ((k, v) :: r.1, r.2) else (r.1, (k, v) :: r.2)

/-- `BaseAgent.from_dict` (soil/agents/__init__.py:169-182): the keyword arguments, other than `model`, that the class is called
with. The message about ignored arguments mentions `agent_class`, a name that is not defined there (lines 178-181). -/
def fromDict (sig : List String) (attrs : Dict String Val) (warnExtra : Bool) : Except FromDictErr (Dict String Val) :=
  let r := splitAttrs sig attrs
  if !r.2.isEmpty && warnExtra then .error .nameError
  else if Dict.has r.1 "model" then .error .typeError
  else .ok r.1

/-- The parameters of `BaseAgent` (soil/agents/__init__.py:117), in the sense of `inspect.signature`. -/
def baseAgentSig : List String := ["unique_id", "model", "name", "init", "kwargs"]

/-! ### Parameters of environments -/

/-- The named arguments of `BaseEnvironment.__init__` (soil/environment.py:67-83). -/
def baseEnvNamed : List String :=
  ["id", "seed", "dir_path", "schedule", "schedule_class", "logger", "agents", "collector_class", "agent_reporters",
   "model_reporters", "tables", "init"]

/-- The named arguments of `NetworkEnvironment.__init__` (soil/environment.py:262-269). -/
def netEnvNamed : List String := ["topology", "agent_class", "network_generator", "network_params", "init"]

/-- Properties without setter: those of the two classes (soil/environment.py:115, 141, 326) and `agent_types` of mesa's `Model`. -/
def envReadonly (net : Bool) : List String :=
  ["agent_types", "get_agents", "now"] ++ (if net then ["network_agents"] else [])

/-- The loop `for (k, v) in env_params.items(): self[k] = v` (soil/environment.py:103-104); `none`: `AttributeError`. -/
def setParams (ro : List String) : Dict String Val → Dict String Val → Option (Dict String Val)
  | [], inst => some inst
  | (k, v) :: rest, inst => if k ∈ ro then none else setParams ro rest (Dict.set inst k v)

/-- `BaseEnvironment.__init__` (soil/environment.py:67-104) up to the additions of agents: what is in `__dict__`. `inst0` are the
attributes set by `__new__` and by the first lines. -/
def baseEnvConstruct (ro : List String) (inst0 kwargs : Dict String Val) : Option (Dict String Val) :=
  setParams ro (kwargs.filter (fun kv => decide (kv.1 ∉ baseEnvNamed))) inst0

/-- `NetworkEnvironment.__init__` (soil/environment.py:262-284) likewise: the graph `g` is made before the parameters are set, the
class of the agents is recorded after. -/
def netEnvConstruct (ro : List String) (g : Val) (inst0 kwargs : Dict String Val) : Option (Dict String Val) :=
  let arg := fun k => (Dict.get? kwargs k).getD .none
  let i1 := Dict.set inst0 "topology" (arg "topology")
  let i2 := Dict.set i1 "network_generator" (arg "network_generator")
  let i3 := Dict.set i2 "network_params" (arg "network_params")
  let i4 := Dict.set i3 "G" g
  match baseEnvConstruct ro i4 (kwargs.filter (fun kv => decide (kv.1 ∉ netEnvNamed))) with
  | none => none
  | some i5 => some (Dict.set i5 "agent_class" (arg "agent_class"))

/-! ### Log levels of classes -/

/-- The effect of one item of the body of a class on the attributes of the class itself (soil/agents/__init__.py:71-98): only items
that are kept become class attributes; we record them as objects. -/
def NsItem.addAttr (d : Dict String Val) (k : String) (v : Val) : NsItem → Dict String Val
  | .kept => Dict.set d k v
  | .defaults _ => d
  | .value _ => d

/-- The attributes that lookup on a class finds: the inherited ones and those of the body. `kept k` is the object kept under `k`. -/
def mkAttrs (inherited : Dict String Val) (kept : String → Val) (ns : List (String × NsItem)) : Dict String Val :=
  ns.foldl (fun d it => it.2.addAttr d it.1 (kept it.1)) inherited

/-- `if hasattr(self, "level"): self.logger.setLevel(self.level)` (soil/agents/__init__.py:130-131), executed when only the
built-in attributes exist: the level that is set, if any. -/
def levelSet (c : AgentCls) (inst0 : Dict String Val) : Option Val := c.getattr inst0 "level"

end Verif
