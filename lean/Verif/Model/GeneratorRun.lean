import Verif.Model.ExGenerator
import Verif.Model.ExTorvalds
import Verif.Model.NetOps

/-!
# Whole simulations of the example with a custom generator (examples/custom_generator/generator_sim.py)
-/

namespace Verif

/-- The environment after `self.create_network(generator=self.generator, n=n, n_edges=…)` (examples/custom_generator/generator_sim.py:32;
soil/environment.py:303-320): the nodes `0 … n-1` without agents, and the edges made by the generator. -/
def genGraph (n : Nat) (E : List (Nat × Nat)) : NWorld :=
  NWorld.start ((List.range n).map (fun i => (.int i, none))) (E.map (fun e => (.int e.1, .int e.2))) false

/-- `GeneratorEnv.init` (examples/custom_generator/generator_sim.py:31-33; soil/environment.py:380-385, 168-175): `draws` are the numbers
drawn by the generator, `cdraws` those for the classes and `picks` those for the nodes of the agents. `none`: it raises. -/
def generatorInit (n : Nat) (draws : List (Nat × Nat)) (cdraws : Nat → Rat) (picks : Nat → Nat → Nat) : Option NWorld :=
  match mygenerator n draws with
  | none => none
  | some E => match (genGraph n E).addAgents false [true] none none cdraws picks (fun _ => .ok) with
    | (w, true) => some w
    | (_, false) => none

/-- The name of a node as a value. -/
def NId.val : NId → Val
  | .int n => .num (.fin n)
  | .str s => .str s

/-- The counters as the scheduler runs them, with the attributes of their class (soil/agents/CounterModel.py:16-18) and their node
(soil/agents/network_agents.py:22). -/
def NWorld.counters (G : NWorld) : List FAgent :=
  G.agents.mapIdx (fun i a => ⟨i, a.uid, 0, [("times", .num (.fin 0)), ("neighbors", .num (.fin 0)), ("total", .num (.fin 0)),
    ("node_id", (a.node.map NId.val).getD .none)], []⟩)

/-- `len(list(self.get_neighbors()))` (soil/agents/CounterModel.py:23). -/
def NWorld.degree (G : NWorld) (r : Ref) : Nat := ((G.getNeighbors r).getD []).length

/-- The start of the simulation: one counter for each agent, in the order in which they were added. -/
def NWorld.countersStart (G : NWorld) (iv : Rat) (sh : Bool) (rng : Nat) : Sched × CWorld :=
  roundsStart G.counters.length iv sh ⟨G.counters, rng⟩

end Verif
