import Verif.Model.ExTerror
import Verif.Model.Random
import Verif.Model.Timed
import Verif.Model.PQueue

/-!
# New relationships of terrorists, and whole simulations (examples/terrorism/TerroristNetworkModel_sim.py)

The ids of the agents are the numbers of their nodes: `populate_network` adds one agent per node in the order of the nodes (soil/environment.py:390-410), and ids start
with 0 (soil/environment.py:88).
-/

namespace Verif

/-- What `update_relationships` is given: the weights of the class (examples/terrorism/TerroristNetworkModel_sim.py:255-256), the length of the shortest path to each agent
(`none`: there is none, examples/terrorism/TerroristNetworkModel_sim.py:308-312), the distance to each agent (examples/terrorism/TerroristNetworkModel_sim.py:301-306), the
results of `geo_search` and `ego_search` (soil/agents/geo.py:9-21, examples/terrorism/TerroristNetworkModel_sim.py:139-143), and random numbers. -/
structure RelIn where
  social : Rat
  link : Rat
  hops : Nat → Option Nat
  dist : Nat → Rat
  close : List Nat
  steps : List Nat
  draw : Nat → Rat

/-- `search`: who is near, without the neighbours that are of the same class (examples/terrorism/TerroristNetworkModel_sim.py:270-286). -/
def relSearch (adj : Nat → List Nat) (vs : List Terr) (i : Nat) (x : RelIn) : List Nat :=
  (x.close ++ x.steps).filter (fun j => decide (j ∉ terrNeighbours adj vs i (fun v => decide (v.kind = .person))))

/-- `self.get_agents(search)` (soil/agents/__init__.py:273-278, soil/agents/network_agents.py:42-60): the argument is bound to `unique_id` and not used, so that all agents
are returned, in the order of their ids. -/
def agentsOf (vs : List Terr) (_search : List Nat) : List Nat := List.range vs.length

/-- `prob_new_interaction` for an agent at the given number of hops and distance (examples/terrorism/TerroristNetworkModel_sim.py:288-293): `1 / inf` is 0, and `none` stands
for the `ZeroDivisionError` of `1 / 0`. -/
def relProb (x : RelIn) (j : Nat) : Option Rat :=
  match x.hops j with
  | none => some (x.social * 0 + x.link * (1 - x.dist j))
  | some 0 => none
  | some (k + 1) => some (x.social * (1 / ((k : Rat) + 1)) + x.link * (1 - x.dist j))

/-- `agent.state_id == "civilian"` (examples/terrorism/TerroristNetworkModel_sim.py:295): of whatever class. -/
def isCivilian (vs : List Terr) (j : Nat) : Bool :=
  match vs[j]? with
  | some v => decide (v.state = .civilian)
  | none => false

/-- The result of `update_relationships`. -/
inductive RelRes where
  | nothing
  | linked (j : Nat)
  | raised
deriving DecidableEq, Repr

/-- The loop (examples/terrorism/TerroristNetworkModel_sim.py:287-299). -/
def relLoop (vs : List Terr) (x : RelIn) : List Nat → RelRes
  | [] => .nothing
  | j :: js =>
    match relProb x j with
    | none => .raised
    | some p => if isCivilian vs j = true ∧ x.draw j < p then .linked j else relLoop vs x js

/-- `update_relationships` of agent `i` (examples/terrorism/TerroristNetworkModel_sim.py:268-299). -/
def updateRel (adj : Nat → List Nat) (vs : List Terr) (i : Nat) (x : RelIn) : RelRes :=
  if terrNeighbours adj vs i (fun v => decide (v.state = .civilian)) = [] then relLoop vs x (agentsOf vs (relSearch adj vs i x)) else .nothing

/-- `self.add_edge(agent)` in an undirected network (soil/agents/network_agents.py:74-88). -/
def addLink (adj : Nat → List Nat) (i j : Nat) : Nat → List Nat := fun k =>
  if k = i then (if j ∈ adj i then adj i else adj i ++ [j])
  else if k = j then (if i ∈ adj j then adj j else adj j ++ [i])
  else adj k

/-- The network and the agents. -/
structure TerrNet where
  adj : Nat → List Nat
  vs : List Terr

/-- One activation in a population of persons of the class `TerroristNetworkModel` (examples/terrorism/TerroristNetworkModel_sim.py:258-266): terrorists and leaders call
`update_relationships`, and then `super().terrorist()` or `super().leader()`, which raises (soil/agents/fsm.py:32-33). The Boolean: an exception escapes. -/
def TerrNet.act (P : TerrParams) (n : TerrNet) (i : Nat) (x : TerrIn) (y : RelIn) : TerrNet × Bool :=
  match n.vs[i]? with
  | none => (n, false)
  | some v =>
    if v.kind = .person ∧ v.state ≠ .civilian then
      match updateRel n.adj n.vs i y with
      | .linked j => ({ n with adj := addLink n.adj i j }, true)
      | _ => (n, true)
    else ({ n with vs := (actTerr P n.adj n.vs i x).1 }, (actTerr P n.adj n.vs i x).2)

/-! ### Whole simulations -/

/-- The settings, the inputs of each activation, and the generator of random numbers (positions are counted in activations). `key`: the number drawn for the order in
`PQueueActivation`. -/
structure TerrCode where
  P : TerrParams
  input : Nat → Nat → TerrNet → TerrIn
  rel : Nat → Nat → TerrNet → RelIn
  shuf : Nat → List Ref → List Ref × Nat
  shuf_perm : ∀ u l, (shuf u l).1.Perm l
  key : Nat → Rat

/-- The network with its agents and the position of the generator. -/
structure TerrWorld where
  net : TerrNet
  used : Nat

/-- The activation of an agent in the example: persons are of the class `TerroristNetworkModel`. The states return a state or nothing, so that the next activation is one
interval later (soil/agents/fsm.py:107-131). -/
def terrTurn (C : TerrCode) (r : Ref) (w : TerrWorld) : Reply × TerrWorld :=
  let res := w.net.act C.P r (C.input w.used r w.net) (C.rel w.used r w.net)
  (if res.2 then .error else .ret none, ⟨res.1, w.used + 1⟩)

/-- The activation if the persons are of the class `TerroristSpreadModel`, see `actTerr`. -/
def spreadTurn (C : TerrCode) (r : Ref) (w : TerrWorld) : Reply × TerrWorld :=
  let res := actTerr C.P w.net.adj w.net.vs r (C.input w.used r w.net)
  (if res.2 then .error else .ret none, ⟨{ w.net with vs := res.1 }, w.used + 1⟩)

/-- The simulation with the default scheduler (soil/time.py:120-181). -/
def terrHost (C : TerrCode) (turn : TerrCode → Ref → TerrWorld → Reply × TerrWorld) : Host TerrWorld where
  step r _ w := ((turn C r w).1, [], (turn C r w).2)
  shuffle l w := ((C.shuf w.used l).1, { w with used := (C.shuf w.used l).2 })
  shuffle_perm l w := C.shuf_perm w.used l

/-- The simulation with `PQueueActivation` (soil/time.py:43-118). -/
def terrPHost (C : TerrCode) (turn : TerrCode → Ref → TerrWorld → Reply × TerrWorld) : PHost TerrWorld where
  step r _ w := ((turn C r w).1, [], (turn C r w).2)
  key _ w := (C.key w.used, { w with used := w.used + 1 })

end Verif
