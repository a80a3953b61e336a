import Verif.Model.Filter

/-!
# `AgentView`: the collection of agents that `environment.get_agents` is
-/

namespace Verif

/-- What can be put between the brackets of `view[...]` or before `in view`: an id, an agent (by identity), a slice. -/
inductive ViewKey where
  | id (n : Nat)
  | agent (ref : Nat)
  | slice
deriving DecidableEq, Repr

/-- The outcome of `view[key]`. -/
inductive ViewItem where
  | agent (a : FAgent)
  | valueError
  | typeError
deriving DecidableEq, Repr

/-- `agent_id in self._agents` (soil/agents/__init__.py:422-423, 409). `_agents` is `schedule.agents`
(soil/environment.py:115-120): a list of agents, or a set of agents in mesa 2.2, so an id is never in it. Simplification: agents
are compared by identity (`==` compares their public attributes). -/
def viewContains (agents : List FAgent) : ViewKey → Bool
  | .id _ => false
  | .agent r => agents.any (fun a => decide (a.ref = r))
  | .slice => false

/-- `AgentView.__getitem__` (soil/agents/__init__.py:406-411). If the key is in the collection it is an agent; lists (and the
sets of mesa) are indexed by position, so indexing by an agent is a `TypeError`. -/
def viewGet (agents : List FAgent) (k : ViewKey) : ViewItem :=
  if k = .slice then .valueError
  else if viewContains agents k then .typeError
  else .valueError

/-- `AgentView.__len__` (soil/agents/__init__.py:400-401). -/
def viewLen (agents : List FAgent) : Nat := agents.length

/-- `AgentView.__iter__` (soil/agents/__init__.py:403-404): `schedule.agents` has no method `values`; `none`:
`AttributeError`. -/
def viewIter (_agents : List FAgent) : Option (List FAgent) := none

/-- `AgentView.__call__` (soil/agents/__init__.py:413-414, 419-420), that is `environment.get_agents(...)`. -/
def viewCall (sub : Nat → Nat → Bool) (agents : List FAgent) (q : Query) : List FAgent := filterAgents sub agents q

/-- `AgentView.one` (soil/agents/__init__.py:416-417) and `environment.agent(...)` (soil/environment.py:119-120): `next` of the
filtered agents; `none`: `StopIteration`. -/
def viewOne (sub : Nat → Nat → Bool) (agents : List FAgent) (q : Query) : Option FAgent := (filterAgents sub agents q).head?

/-- `environment.count_agents(...)` (soil/environment.py:122-123): `get_agents(...)` is a list. -/
def viewCount (sub : Nat → Nat → Bool) (agents : List FAgent) (q : Query) : Nat :=
  ((viewCall sub agents q).map (fun _ => 1)).sum

/-- `iter(environment)` (soil/environment.py:247-248). -/
def envIter (sub : Nat → Nat → Bool) (agents : List FAgent) : List FAgent := viewCall sub agents {}

end Verif
