import Verif.Model.Random
import Verif.Basic.Dict
import Verif.Basic.Val

/-!
# Environments: ids, additions of agents, use as dictionaries
-/

namespace Verif

/-- An agent as the environment sees it: its id and its class (a number). -/
structure IdAgent where
  id : Int
  cls : Nat
deriving DecidableEq, Repr

/-- The parts of an environment that additions and deaths touch: `current_id` (soil/environment.py:88), the
scheduled agents in order, and (ghost) the ids that were given automatically to agents that were created. -/
structure IdEnv where
  currentId : Int
  agents : List IdAgent
  auto : List Int
deriving DecidableEq, Repr

/-- A new environment (soil/environment.py:67-110). -/
def IdEnv.init : IdEnv := ⟨-1, [], []⟩

/-- mesa `Model.next_id`. -/
def IdEnv.nextId (e : IdEnv) : IdEnv × Int := ({ e with currentId := e.currentId + 1 }, e.currentId + 1)

/-- `BaseEnvironment.add_agent` (soil/environment.py:152-166) with an explicit id; `ok` tells whether the
constructor of the agent succeeds. -/
def IdEnv.addWithId (e : IdEnv) (id : Int) (cls : Nat) (ok : Bool) : IdEnv :=
  if ok then { e with agents := e.agents ++ [⟨id, cls⟩] } else e

/-- The same without an id. -/
def IdEnv.addAuto (e : IdEnv) (cls : Nat) (ok : Bool) : IdEnv :=
  let r := e.nextId
  let e' := r.1.addWithId r.2 cls ok
  if ok then { e' with auto := e'.auto ++ [r.2] } else e'

/-- `NetworkEnvironment.add_agent` with a node (soil/environment.py:287-296): if the class does not accept a
`node_id` the agent is created again without it, with another id. -/
def IdEnv.addOnNode (e : IdEnv) (cls : Nat) (accepts ok : Bool) : IdEnv :=
  if accepts then e.addAuto cls ok else (e.addAuto cls false).addAuto cls ok

/-- `NetworkEnvironment.add_node` (soil/environment.py:335-358), as far as ids are concerned: the id is drawn first and
then passed on. -/
def IdEnv.addNode (e : IdEnv) (cls : Nat) (ok : Bool) : IdEnv :=
  let r := e.nextId
  let e' := r.1.addWithId r.2 cls ok
  if ok then { e' with auto := e'.auto ++ [r.2] } else e'

/-- `agent.die()`: the agent at that position of the schedule is removed from it. -/
def IdEnv.die (e : IdEnv) (pos : Nat) : IdEnv := { e with agents := e.agents.eraseIdx pos }

/-- `BaseEnvironment.add_agents` (soil/environment.py:168-175): `weights = none` means equal weights; the number of
agents is the number of draws. `none`: `choices` raises. -/
def IdEnv.addAgents (e : IdEnv) (classes : List Nat) (weights : Option (List Rat)) (draws : List Rat) : Option IdEnv :=
  let ws := match weights with
    | some ws => ws
    | none => List.replicate classes.length 1
  match choices classes ws draws with
  | none => none
  | some cs => some (cs.foldl (fun e c => e.addAuto c true) e)

inductive IdOp where
  | addAuto (cls : Nat) (ok : Bool)
  | addWithId (id : Int) (cls : Nat) (ok : Bool)
  | addOnNode (cls : Nat) (accepts ok : Bool)
  | addNode (cls : Nat) (ok : Bool)
  | addAgents (classes : List Nat) (weights : Option (List Rat)) (draws : List Rat)
  | die (pos : Nat)
deriving DecidableEq, Repr

def IdOp.exec (e : IdEnv) : IdOp → IdEnv
  | .addAuto cls ok => e.addAuto cls ok
  | .addWithId id cls ok => e.addWithId id cls ok
  | .addOnNode cls accepts ok => e.addOnNode cls accepts ok
  | .addNode cls ok => e.addNode cls ok
  | .addAgents classes weights draws => (e.addAgents classes weights draws).getD e
  | .die pos => e.die pos

/-! ### Objects as dictionaries -/

/-- An agent or an environment: its `__dict__` and the attributes found on its class. -/
structure Obj where
  inst : Dict String Val
  cls : Dict String Val
deriving DecidableEq, Repr

/-- Outcomes of reads and deletions. -/
inductive DictErr where
  | keyError
  | attributeError
deriving DecidableEq, Repr

/-- `__getitem__` (soil/agents/__init__.py:184-188, soil/environment.py:226-230). -/
def Obj.getitem (o : Obj) (k : String) : Except DictErr Val :=
  match Dict.get? o.inst k with
  | some v => .ok v
  | none => match Dict.get? o.cls k with
    | some v => .ok v
    | none => .error .keyError

/-- `__setitem__` (soil/agents/__init__.py:196-197, soil/environment.py:238-239). -/
def Obj.setitem (o : Obj) (k : String) (v : Val) : Obj := { o with inst := Dict.set o.inst k v }

/-- `__delitem__` (soil/agents/__init__.py:190-191, soil/environment.py:232-233): `delattr`. -/
def Obj.delitem (o : Obj) (k : String) : Except DictErr Obj :=
  match Dict.get? o.inst k with
  | some _ => .ok { o with inst := Dict.del o.inst k }
  | none => .error .attributeError

/-- `__contains__` (soil/agents/__init__.py:193-194, soil/environment.py:235-236): `hasattr`. -/
def Obj.contains (o : Obj) (k : String) : Bool :=
  match o.getitem k with
  | .ok _ => true
  | .error _ => false

/-- A name starting with an underscore. -/
def isPrivate (k : String) : Bool := k.toList.head? == some '_'

/-- `BaseAgent.keys` (soil/agents/__init__.py:205-206) with `IGNORED_FIELDS` (line 25). -/
def Obj.agentKeys (o : Obj) : List String :=
  (Dict.keys o.inst).filter (fun k => !isPrivate k && k ≠ "model" && k ≠ "logger")

/-- `BaseEnvironment.keys` (soil/environment.py:253-254). -/
def Obj.envKeys (o : Obj) : List String := (Dict.keys o.inst).filter (fun k => !isPrivate k)

/-- `BaseAgent.items` without arguments and `BaseAgent.__iter__` (soil/agents/__init__.py:202-213). -/
def Obj.items (o : Obj) : List (String × Option Val) :=
  o.agentKeys.map (fun k => (k, match o.getitem k with
    | .ok v => some v
    | .error _ => none))

/-- `BaseAgent.get` (soil/agents/__init__.py:215-222): the agent, then the model, then the default. -/
def Obj.agentGet (o model : Obj) (k : String) (dflt : Val) : Val :=
  match o.getitem k with
  | .ok v => v
  | .error _ => match model.getitem k with
    | .ok v => v
    | .error _ => dflt

/-- `BaseEnvironment.get` (soil/environment.py:250-251). -/
def Obj.envGet (o : Obj) (k : String) (dflt : Val) : Val :=
  if o.contains k then match o.getitem k with
    | .ok v => v
    | .error _ => dflt
  else dflt

/-- Dictionary operations on an object; failing deletions change nothing. -/
inductive DOp where
  | set (k : String) (v : Val)
  | del (k : String)
deriving DecidableEq, Repr

def DOp.exec (o : Obj) : DOp → Obj
  | .set k v => o.setitem k v
  | .del k => match o.delitem k with
    | .ok o' => o'
    | .error _ => o

end Verif
