import Verif.Basic.Dict
import Verif.Model.Random

/-!
# Agents on a network
-/

namespace Verif

/-- Names of nodes: integers (networkx generators, `len(G)`) and strings (`node_for_...`, files). -/
inductive NId where
  | int (n : Nat)
  | str (s : String)
deriving DecidableEq, Repr

/-- An agent: id, whether its class is a `NetworkAgent`, `node_id`, `alive`. -/
structure NAgent where
  uid : Nat
  net : Bool
  node : Option NId
  alive : Bool
deriving DecidableEq, Repr

/-- A `NetworkEnvironment`. `nodes`: the nodes of `G` in order with their attribute "agent": absent (`none`), `None`
(`some none`) or an agent (`some (some r)`); other attributes of nodes and edges are not modelled. `edges`: pairs as they were
added. `agents`: every agent object ever created, by identity (its position). `sched`: `schedule._agents` in order.
`nextId`: `current_id + 1`. -/
structure NWorld where
  nodes : Dict NId (Option (Option Nat))
  edges : List (NId × NId)
  directed : Bool
  agents : List NAgent
  sched : List Nat
  nextId : Nat
deriving DecidableEq, Repr

/-- What `init()` of a new agent does: nothing of interest, raise, or call `self.die()`. -/
inductive InitRes where
  | ok
  | raises
  | dies
deriving DecidableEq, Repr

/-- networkx: there is an edge from `a` to `b` (in any direction, if the graph is undirected). -/
def NWorld.adjacent (w : NWorld) (a b : NId) : Bool :=
  decide ((a, b) ∈ w.edges) || (!w.directed && decide ((b, a) ∈ w.edges))

/-- networkx `G.neighbors(n)`. Simplification: in the order of the nodes instead of the edges (soil makes it a set). -/
def NWorld.neighbors (w : NWorld) (n : NId) : List NId := (Dict.keys w.nodes).filter (fun m => w.adjacent n m)

/-- `"agent" not in node or node["agent"] is None` (soil/agents/network_agents.py:13). -/
def nodeFree : Option (Option Nat) → Bool
  | none => true
  | some none => true
  | some (some _) => false

/-- The loop of `NetworkAgent.__init__` over the candidates (soil/agents/network_agents.py:12-15). -/
def firstFree (nodes : Dict NId (Option (Option Nat))) : List NId → Option NId
  | [] => none
  | n :: ns => match Dict.get? nodes n with
    | some a => if nodeFree a then some n else firstFree nodes ns
    | none => firstFree nodes ns

/-- `random.choices(list(G.nodes), k=len(G))` (soil/agents/network_agents.py:11); `picks` are the random numbers. -/
def candidates (nodes : Dict NId (Option (Option Nat))) (picks : Nat → Nat) : List NId :=
  (List.range nodes.length).filterMap (fun i => (Dict.keys nodes)[picks i % nodes.length]?)

/-- networkx `G.add_node(n)`: nothing happens if it is there already. -/
def NWorld.addGraphNode (w : NWorld) (n : NId) : NWorld :=
  if Dict.has w.nodes n then w else { w with nodes := Dict.set w.nodes n none }

/-- networkx `G.remove_node(n)`; the edges of `n` go too. -/
def NWorld.removeGraphNode (w : NWorld) (n : NId) : NWorld :=
  { w with nodes := Dict.del w.nodes n, edges := w.edges.filter (fun e => decide (e.1 ≠ n ∧ e.2 ≠ n)) }

/-- Choice of the node in `NetworkAgent.__init__` (soil/agents/network_agents.py:10-20); `none`: `KeyError` of line 21. -/
def NWorld.chooseNode (w : NWorld) (node : Option NId) (picks : Nat → Nat) : Option (NWorld × NId) :=
  match node with
  | some n => if Dict.has w.nodes n then some (w, n) else none
  | none => match firstFree w.nodes (candidates w.nodes picks) with
    | some n => some (w, n)
    | none => some (w.addGraphNode (.int w.nodes.length), .int w.nodes.length)

/-- `agent.die(remove)` (soil/agents/network_agents.py:90-95, 69-72; soil/agents/__init__.py:232-242). The second
component tells whether it returned: `remove_node` raises if the node is not in the graph. -/
def NWorld.die (w : NWorld) (r : Nat) (remove : Bool) : NWorld × Bool :=
  match w.agents[r]? with
  | none => (w, true)
  | some a =>
    if a.net then
      if !a.alive then (w, true)
      else if remove then
        match a.node with
        | none => (w, false)
        | some n =>
          if Dict.has w.nodes n then
            let w := w.removeGraphNode n
            ({ w with agents := w.agents.set r { a with node := none, alive := false }, sched := w.sched.erase r }, true)
          else (w, false)
      else ({ w with agents := w.agents.set r { a with alive := false }, sched := w.sched.erase r }, true)
    else ({ w with agents := w.agents.set r { a with alive := false }, sched := w.sched.erase r }, true)

/-- The constructor of an agent (soil/agents/network_agents.py:5-24; soil/agents/__init__.py:117-146). Returns the
object if it was created and whether the constructor returned. An object whose `init` raises stays on its node. For other
classes `node_id` is just an attribute. -/
def NWorld.construct (w : NWorld) (net : Bool) (uid : Nat) (node : Option NId) (picks : Nat → Nat) (init : InitRes) :
    NWorld × Option Nat × Bool :=
  let r := w.agents.length
  let placed : Option NWorld :=
    if net then
      match w.chooseNode node picks with
      | none => none
      | some (w1, n) =>
        some { w1 with nodes := Dict.set w1.nodes n (some (some r)), agents := w1.agents ++ [⟨uid, true, some n, true⟩] }
    else some { w with agents := w.agents ++ [⟨uid, false, node, true⟩] }
  match placed with
  | none => (w, none, false)
  | some w1 =>
    match init with
    | .ok => (w1, some r, true)
    | .raises => (w1, some r, false)
    | .dies => ((w1.die r true).1, some r, true)

/-- `if unique_id is None: unique_id = self.next_id()` (soil/environment.py:153-154, 336-337). -/
def NWorld.takeId (w : NWorld) (uid : Option Nat) : NWorld × Nat :=
  match uid with
  | some u => (w, u)
  | none => ({ w with nextId := w.nextId + 1 }, w.nextId)

/-- `BaseEnvironment.add_agent` (soil/environment.py:152-166). Result: the agent and whether it returned. -/
def NWorld.baseAdd (w : NWorld) (net : Bool) (uid : Option Nat) (node : Option NId) (picks : Nat → Nat) (init : InitRes) :
    NWorld × Option Nat × Bool :=
  let x := w.takeId uid
  match x.1.construct net x.2 node picks init with
  | (w1, some r, true) => ({ w1 with sched := w1.sched ++ [r] }, some r, true)
  | res => res

/-- `NetworkEnvironment.add_agent` (soil/environment.py:287-296). Simplification: every class accepts a `node_id` (see
`IdEnv.addOnNode` for the ids otherwise), `topology` is only given together with `node_id`. -/
def NWorld.addAgent (w : NWorld) (net : Bool) (uid : Option Nat) (node : Option NId) (picks : Nat → Nat)
    (init : InitRes) : NWorld × Option Nat × Bool :=
  match node with
  | none => w.baseAdd net uid none picks init
  | some n =>
    match w.baseAdd net uid (some n) picks init with
    | (w1, some r, true) =>
      if Dict.has w1.nodes n then ({ w1 with nodes := Dict.set w1.nodes n (some (some r)) }, some r, true)
      else (w1, some r, false)
    | res => res

/-- `network.find_unassigned` (soil/network.py:56-68) for the shuffled candidates. -/
def findUnassigned : List (NId × Option (Option Nat)) → Option NId
  | [] => none
  | (n, none) :: _ => some n
  | (_, some _) :: rest => findUnassigned rest

/-- A shuffle: any permutation. -/
structure Shuffle where
  run : List (NId × Option (Option Nat)) → List (NId × Option (Option Nat))
  perm : ∀ l, (run l).Perm l

/-- The node chosen by `add_node` (soil/environment.py:338-343). -/
def NWorld.nodeFor (w : NWorld) (uid : Nat) (node : Option NId) (shuffle : Shuffle) : NId :=
  match node with
  | some n => n
  | none => match findUnassigned (shuffle.run w.nodes) with
    | some n => n
    | none => .str ("node_for_" ++ toString uid)

/-- `NetworkEnvironment.add_node` (soil/environment.py:335-358). The attribute `visible` is not modelled. -/
def NWorld.addNode (w : NWorld) (net : Bool) (uid : Option Nat) (node : Option NId) (shuffle : Shuffle)
    (picks : Nat → Nat) (init : InitRes) : NWorld × Option Nat × Bool :=
  let x := w.takeId uid
  let w := x.1
  let n := w.nodeFor x.2 node shuffle
  let w := w.addGraphNode n
  match Dict.get? w.nodes n with
  | some none => w.addAgent net (some x.2) (some n) picks init
  | _ => (w, none, false)

/-- First loop of `populate_network` (soil/environment.py:399-403): reserve the nodes without attribute "agent", in order, with
a class (whether it is a network agent) each. -/
def reserve : List Bool → Dict NId (Option (Option Nat)) → Dict NId (Option (Option Nat)) × List (NId × Bool)
  | c :: cs, (n, a) :: nodes =>
    let r := reserve cs nodes
    match a with
    | some _ => ((n, a) :: r.1, r.2)
    | none => ((n, some none) :: r.1, (n, c) :: r.2)
  | _, nodes => (nodes, [])

/-- Second loop of `populate_network` (soil/environment.py:404-406): stops at the first exception. -/
def NWorld.addAll (w : NWorld) (toadd : List (NId × Bool)) (inits : Nat → InitRes) : NWorld × Bool :=
  match toadd with
  | [] => (w, true)
  | (n, c) :: rest =>
    match w.addAgent c none (some n) (fun _ => 0) (inits 0) with
    | (w1, some r, true) =>
      if Dict.has w1.nodes n then
        NWorld.addAll { w1 with nodes := Dict.set w1.nodes n (some (some r)) } rest (fun i => inits (i + 1))
      else (w1, false)
    | (w1, _, _) => (w1, false)

/-- `NetworkEnvironment.network_agents` (soil/environment.py:326-333): `None` is yielded for reserved nodes. -/
def NWorld.networkAgents (w : NWorld) : List (Option Nat) :=
  w.nodes.filterMap (fun x => match x.2 with
    | none => none
    | some none => some none
    | some (some r) => match w.agents[r]? with
      | some a => if a.alive then some (some r) else none
      | none => none)

/-- `if not weights: weights = [1] * len(agent_class)` (soil/environment.py:395-396). -/
def effectiveWeights (classes : List Bool) (weights : Option (List Rat)) : List Rat :=
  match weights with
  | none => List.replicate classes.length 1
  | some [] => List.replicate classes.length 1
  | some ws => ws

/-- `NetworkEnvironment.populate_network` (soil/environment.py:390-409). `classes`: whether each class is a network agent;
`draws i` is the `i`-th `random()`. The flag tells whether it returned. -/
def NWorld.populate (w : NWorld) (classes : List Bool) (weights : Option (List Rat)) (draws : Nat → Rat)
    (inits : Nat → InitRes) : NWorld × Bool :=
  let ws := effectiveWeights classes weights
  if w.nodes = [] then (w, false)
  else match choices classes ws ((List.range w.nodes.length).map draws) with
    | none => (w, false)
    | some cs =>
      let r := reserve cs w.nodes
      let w1 := { w with nodes := r.1 }
      let res := w1.addAll r.2 inits
      if res.2 then (res.1, res.1.nodes.all (fun x => x.2.isSome) && !res.1.networkAgents.isEmpty)
      else res

/-- `NetworkAgent.add_edge` (soil/agents/network_agents.py:74-88), without edge attributes; `other` is a network agent. -/
def NWorld.addEdge (w : NWorld) (r s : Nat) : NWorld × Bool :=
  match w.agents[r]?, w.agents[s]? with
  | some a, some b =>
    match a.node, b.node with
    | some n, some m =>
      if Dict.has w.nodes n then
        if Dict.has w.nodes m then
          if w.adjacent n m then (w, true) else ({ w with edges := w.edges ++ [(n, m)] }, true)
        else (w, false)
      else (w, false)
    | _, _ => (w, false)
  | _, _ => (w, false)

/-- `neighbor_ids` (soil/agents/network_agents.py:47-52); `none`: networkx raises because the node is not in the graph. -/
def NWorld.neighborIds (w : NWorld) (r : Nat) : Option (List Nat) :=
  match w.agents[r]? with
  | none => none
  | some a => match a.node with
    | none => none
    | some n =>
      if Dict.has w.nodes n then
        some ((w.neighbors n).filterMap (fun m => match Dict.get? w.nodes m with
          | some (some (some s)) => (w.agents[s]?).map (·.uid)
          | _ => none))
      else none

/-- The id of an agent. -/
def NWorld.uid (w : NWorld) (r : Nat) : Option Nat := (w.agents[r]?).map (·.uid)

/-- `NetworkAgent.get_neighbors()` (soil/agents/network_agents.py:29-33, 39-60; soil/agents/__init__.py:452-458): the
scheduled agents whose id is one of `neighbor_ids`; none if there are no ids. `none`: it raises. -/
def NWorld.getNeighbors (w : NWorld) (r : Nat) : Option (List Nat) :=
  match w.neighborIds r with
  | none => none
  | some ids =>
    if ids = [] then some []
    else some (w.sched.filter (fun s => match w.uid s with
      | some u => decide (u ∈ ids)
      | none => false))

/-- `count_neighbors()` (soil/agents/network_agents.py:26-27) without `state_id`. -/
def NWorld.countNeighbors (w : NWorld) (r : Nat) : Option Nat := (w.getNeighbors r).map List.length

/-- Operations of user code. -/
inductive NOp where
  | add (net : Bool) (uid : Option Nat) (node : Option NId) (picks : Nat → Nat) (init : InitRes)
  | addNode (net : Bool) (uid : Option Nat) (node : Option NId) (shuffle : Shuffle) (picks : Nat → Nat) (init : InitRes)
  | populate (classes : List Bool) (weights : Option (List Rat)) (draws : Nat → Rat) (inits : Nat → InitRes)
  | die (r : Nat) (remove : Bool)
  | addEdge (r s : Nat)

def NOp.exec (w : NWorld) : NOp → NWorld
  | .add net uid node picks init => (w.addAgent net uid node picks init).1
  | .addNode net uid node sh picks init => (w.addNode net uid node sh picks init).1
  | .populate cs ws ds is => (w.populate cs ws ds is).1
  | .die r remove => (w.die r remove).1
  | .addEdge r s => (w.addEdge r s).1

/-- A history of operations. -/
def NWorld.run (w : NWorld) (ops : List NOp) : NWorld := ops.foldl NOp.exec w

/-- A new environment with a graph; nodes may already have a reserved "agent" attribute. -/
def NWorld.start (nodes : Dict NId (Option (Option Nat))) (edges : List (NId × NId)) (directed : Bool) : NWorld :=
  ⟨nodes, edges, directed, [], [], 0⟩

end Verif
