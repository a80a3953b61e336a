import Verif.Basic.Dict
import Verif.Basic.Val

/-!
# Queries on agents
-/

namespace Verif

/-- An agent as queries see it: identity, id, class, what `getattr` finds on it (own and class attributes) and on its model. -/
structure FAgent where
  ref : Nat
  uid : Nat
  cls : Nat
  attrs : Dict String Val
  env : Dict String Val
deriving DecidableEq, Repr

/-- `getattr(agent, k, None)`. -/
def FAgent.attr (a : FAgent) (k : String) : Val := (Dict.get? a.attrs k).getD .none

/-- `agent.get(k, None)` (soil/agents/__init__.py:215-222): what the agent does not have is looked up on its model. -/
def FAgent.get (a : FAgent) (k : String) : Val := ((Dict.get? a.attrs k).or (Dict.get? a.env k)).getD .none

/-- A criterion on an attribute: one value or a list of values. -/
inductive CritVal where
  | one (v : Val)
  | many (vs : List Val)
deriving DecidableEq, Repr

/-- `if not isinstance(vs, list): vs = [vs]` (soil/agents/__init__.py:482-483). -/
def CritVal.wrap : CritVal → List Val
  | .one v => [v]
  | .many vs => vs

/-- The parameter `unique_id`: absent, one id, a list of ids. -/
inductive IdCrit where
  | absent
  | one (id : Nat)
  | many (ids : List Nat)
deriving DecidableEq, Repr

/-- The arguments of `filter_agents` (soil/agents/__init__.py:432-441). `state` is `None` or a dictionary; `stateId` and
`cls` are given as the tuple they are turned into. Simplification: classes given by name are not modelled. -/
structure Query where
  idArgs : List Nat := []
  uniqueId : IdCrit := .absent
  stateId : Option (List Val) := none
  cls : Option (List Nat) := none
  state : Option (Dict String CritVal) := none
  limit : Option Nat := none
  kwargs : Dict String CritVal := []
deriving DecidableEq, Repr

/-- `ids` (soil/agents/__init__.py:446-455). -/
def Query.ids (q : Query) : List Nat :=
  (match q.uniqueId with
    | .absent => []
    | .one i => [i]
    | .many is => is) ++ q.idArgs

/-- `state = state or dict(); state.update(kwargs)` (soil/agents/__init__.py:478-479). -/
def Query.crits (q : Query) : Dict String CritVal :=
  Dict.update (match q.state with
    | some d => d
    | none => []) q.kwargs

/-- The caller's `state` dictionary after the call: `update` changes it in place unless it was empty (`state or
dict()`). -/
def Query.stateAfter (q : Query) : Option (Dict String CritVal) :=
  match q.state with
  | none => none
  | some [] => some []
  | some d => some (Dict.update d q.kwargs)

/-- The variables `k` and `vs` of the running `filter_agents`, which the lambdas of the loop share. -/
abbrev Cell := String × List Val

/-- The loop `for k, vs in state.items()` (soil/agents/__init__.py:481-484): each round assigns the shared variables and
adds one lambda, which reads them when it is called. -/
def critLoop : Dict String CritVal → Cell → List (Cell → FAgent → Bool) → Cell × List (Cell → FAgent → Bool)
  | [], cell, fs => (cell, fs)
  | (k, v) :: rest, _, fs =>
    critLoop rest (k, v.wrap) (fs ++ [fun c a => c.2.any (fun v => decide (a.attr c.1 = v))])

/-- `filter_agents` (soil/agents/__init__.py:432-489). `sub c d`: class `c` is `d` or derives from it. The lambdas run
when the result is consumed, after the loop. -/
def filterAgents (sub : Nat → Nat → Bool) (agents : List FAgent) (q : Query) : List FAgent :=
  let f := if q.ids = [] then agents else agents.filter (fun a => decide (a.uid ∈ q.ids))
  let f := match q.stateId with
    | none => f
    | some sids => f.filter (fun a => decide (a.get "state_id" ∈ sids))
  let f := match q.cls with
    | none => f
    | some cs => f.filter (fun a => cs.any (fun c => sub a.cls c))
  let r := critLoop q.crits ("", []) []
  let f := r.2.foldl (fun f p => f.filter (p r.1)) f
  match q.limit with
  | none => f
  | some n => f.take n

/-- `BaseAgent.get_agents` (soil/agents/__init__.py:273-278) and `environment.get_agents(...)`
(soil/environment.py:115-117, soil/agents/__init__.py:413-420). -/
def baseGetAgents (sub : Nat → Nat → Bool) (agents : List FAgent) (q : Query) : List FAgent := filterAgents sub agents q

/-- `NetworkAgent.iter_agents` (soil/agents/network_agents.py:39-60), as a list. `neighborIds = none`: not
`limit_neighbors`. The first parameter `unique_id` (also if given by position) is not used: `unique_ids` is `None`
whenever it is tested. -/
def netGetAgents (sub : Nat → Nat → Bool) (agents : List FAgent) (neighborIds : Option (List Nat)) (q : Query) :
    List FAgent :=
  match neighborIds with
  | none => filterAgents sub agents { q with uniqueId := .absent, idArgs := [] }
  | some ids => if ids = [] then [] else filterAgents sub agents { q with uniqueId := .many ids, idArgs := [] }

end Verif
