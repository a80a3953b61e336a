import Verif.Model.Rounds
import Verif.Model.Views
import Verif.Model.Builtin

/-!
# The Torvalds example (examples/torvalds_sim.py): a network of `CounterModel` agents
-/

namespace Verif

/-- The agents, and the state of the random generator. -/
structure CWorld where
  agents : List FAgent
  rng : Nat
deriving DecidableEq, Repr

/-- `CounterModel.step` (soil/agents/CounterModel.py:20-26) of agent `r` in a simulation: `deg r` is the number of its neighbours,
`schedule._agents` the scheduled agents. It returns nothing. `σ` is what the random generator makes of a list. -/
def counterHost (deg : Ref → Nat) (σ : Nat → List Ref → List Ref) (hσ : ∀ n l, (σ n l).Perm l) : Host CWorld where
  step r s w := match w.agents[r]? with
    | none => (.error, [], w)
    | some a => match counterStep (deg r) s.agents.length a.attrs with
      | none => (.error, [], w)
      | some d => (.ret none, [], { w with agents := w.agents.set r { a with attrs := d } })
  shuffle l w := (σ w.rng l, { w with rng := w.rng + 1 })
  shuffle_perm l w := hσ _ l

/-- The attributes of an agent made by `self.populate_network(CounterModel, skill_level='beginner')` (examples/torvalds_sim.py:12,
soil/environment.py:335-366) for the node `name`, with those of its class (soil/agents/CounterModel.py:16-18). -/
def counterAttrs (name : String) : Dict String Val :=
  [("times", .num (.fin 0)), ("neighbors", .num (.fin 0)), ("total", .num (.fin 0)), ("node_id", .str name), ("skill_level", .str "beginner")]

/-- The agents of all nodes, in the order of the nodes. Simplification: ids and references are the positions. -/
def counterAgents (names : List String) : List FAgent :=
  names.mapIdx (fun i name => ⟨i, i, 0, counterAttrs name, []⟩)

/-- `self.agent(node_id=name).skill_level = skill` (examples/torvalds_sim.py:13-14); `none`: `StopIteration`. -/
def setSkill (sub : Nat → Nat → Bool) (name skill : String) (agents : List FAgent) : Option (List FAgent) :=
  match viewOne sub agents { kwargs := [("node_id", .one (.str name))] } with
  | none => none
  | some a => some (agents.set a.ref { a with attrs := Dict.set a.attrs "skill_level" (.str skill) })

/-- `TorvaldsEnv.init` (examples/torvalds_sim.py:10-15) for a network with these nodes. -/
def torvaldsInit (sub : Nat → Nat → Bool) (names : List String) : Option (List FAgent) :=
  match setSkill sub "Torvalds" "God" (counterAgents names) with
  | none => none
  | some agents => setSkill sub "balkian" "developer" agents

/-- `TorvaldsEnv.god_developers` (examples/torvalds_sim.py:17-19). -/
def godDevelopers (sub : Nat → Nat → Bool) (agents : List FAgent) : Nat :=
  viewCount sub agents { kwargs := [("skill_level", .one (.str "God"))] }

end Verif
