import Verif.Model.Network

/-!
# More operations on networks: subgraphs, attributes of edges, adding many agents, classes that ignore their node
-/

namespace Verif

/-- `n.node_id` (soil/agents/network_agents.py:65): outer `none` is the `AttributeError` of agents that are not network agents and
were not given a node; a network agent without a node has the attribute `None`. -/
def NAgent.nodeAttr (a : NAgent) : Option (Option NId) :=
  match a.net, a.node with
  | true, n => some n
  | false, some n => some (some n)
  | false, none => none

/-- `self.get_agents(limit_neighbors=limit, **criteria)` (soil/agents/network_agents.py:39-60; soil/agents/__init__.py:273-275):
`sel` tells which agents satisfy the criteria. -/
def NWorld.selected (w : NWorld) (r : Nat) (limit : Bool) (sel : Nat → Bool) : Option (List Nat) :=
  if limit then (w.getNeighbors r).map (fun l => l.filter sel) else some (w.sched.filter sel)

/-- `agent.subgraph(center, limit_neighbors, **criteria)` (soil/agents/network_agents.py:62-67): the nodes and the edges of the
view. networkx ignores what is not a node of the graph. `none`: an exception. -/
def NWorld.subgraph (w : NWorld) (r : Nat) (center limit : Bool) (sel : Nat → Bool) : Option (List NId × List (NId × NId)) :=
  match w.selected r limit sel with
  | none => none
  | some l =>
    match (l ++ (if center then [r] else [])).mapM (fun s => (w.agents[s]?).bind NAgent.nodeAttr) with
    | none => none
    | some ids =>
      let ns := (Dict.keys w.nodes).filter (fun n => decide (some n ∈ ids))
      some (ns, w.edges.filter (fun e => decide (e.1 ∈ ns) && decide (e.2 ∈ ns)))

/-! ### Attributes of edges -/

/-- A value of an attribute: what users give, or what soil passes as the attribute `edge_attr_dict`. -/
inductive EdgeVal (V : Type) where
  | val (v : V)
  | dict (d : Option (Dict String V))

/-- A network with the attributes of its edges (absent: none were ever set). -/
structure EWorld (V : Type) where
  net : NWorld
  attrs : NId × NId → Dict String (EdgeVal V)

/-- networkx: the pair under which the attributes of the edge between `n` and `m` are kept. In an undirected graph both
directions share one dictionary. -/
def NWorld.edgeKey (w : NWorld) (n m : NId) : NId × NId :=
  if !w.directed && decide ((m, n) ∈ w.edges) then (m, n) else (n, m)

/-- `G.edges[n, m].get(k)`. -/
def EWorld.attr {V : Type} (e : EWorld V) (n m : NId) (k : String) : Option (EdgeVal V) :=
  Dict.get? (e.attrs (e.net.edgeKey n m)) k

/-- `agent.add_edge(other, d, *extra)` (soil/agents/network_agents.py:74-88): the checks, then
`G.add_edge(n, m, edge_attr_dict=d, *extra)`, where networkx takes attributes as keywords only, so that there is exactly one
attribute, `edge_attr_dict`; with further positional arguments a `TypeError`. -/
def EWorld.addEdge {V : Type} (e : EWorld V) (r s : Nat) (d : Option (Dict String V)) (extra : List V) : EWorld V × Bool :=
  match e.net.addEdge r s with
  | (_, false) => (e, false)
  | (w, true) =>
    if extra ≠ [] then (e, false)
    else match e.net.agents[r]?, e.net.agents[s]? with
      | some a, some b => match a.node, b.node with
        | some n, some m =>
          ({ net := w
             attrs := fun p => if p = w.edgeKey n m then Dict.set (e.attrs p) "edge_attr_dict" (.dict d) else e.attrs p }, true)
        | _, _ => (e, false)
      | _, _ => (e, false)

/-! ### Adding many agents -/

/-- The loop of `BaseEnvironment.add_agents` (soil/environment.py:174-175) in a network environment: `add_agent` for each class
(whether it is a network agent), stopping at the first exception. `topology`: whether a `topology` is among the keywords; then
`add_agent` goes on to `self.G.nodes[None]["agent"] = a` (soil/environment.py:287-295), a `KeyError`. -/
def NWorld.addEach (w : NWorld) (topology : Bool) : List Bool → (Nat → Nat → Nat) → (Nat → InitRes) → NWorld × Bool
  | [], _, _ => (w, true)
  | c :: cs, picks, inits =>
    match w.addAgent c none none (picks 0) (inits 0) with
    | (w1, some _, true) =>
      if topology then (w1, false)
      else NWorld.addEach w1 topology cs (fun i => picks (i + 1)) (fun i => inits (i + 1))
    | (w1, _, _) => (w1, false)

/-- `NetworkEnvironment.add_agents(classes, k, weights)` (soil/environment.py:380-385, 168-175; the definition at lines 298-301 is
replaced by the one at 380). Flag: whether it returned. -/
def NWorld.addAgents (w : NWorld) (topology : Bool) (classes : List Bool) (k : Option Nat) (weights : Option (List Rat))
    (draws : Nat → Rat) (picks : Nat → Nat → Nat) (inits : Nat → InitRes) : NWorld × Bool :=
  let n := k.getD w.nodes.length
  if k.isNone && w.nodes.isEmpty then (w, false)
  else match choices classes (weights.getD (List.replicate classes.length 1)) ((List.range n).map draws) with
    | none => (w, false)
    | some cs => w.addEach topology cs picks inits

/-! ### Classes that ignore their node -/

/-- `add_agent(cls, node_id=n)` (soil/environment.py:287-296) for a class of network agents whose constructor does not pass `node_id` on,
such as `SocialMoneyAgent` (examples/mesa/social_wealth.py:31-33, 56: `MoneyAgent.__init__` drops its keyword arguments), followed by
the assignment of line 405. -/
def NWorld.addIgnoring (w : NWorld) (n : NId) (picks : Nat → Nat) : NWorld × Bool :=
  match w.baseAdd true none none picks .ok with
  | (w1, some r, true) =>
    if Dict.has w1.nodes n then ({ w1 with nodes := Dict.set w1.nodes n (some (some r)) }, true)
    else (w1, false)
  | (w1, _, _) => (w1, false)

/-- The second loop of `populate_network` (soil/environment.py:404-406) with such a class. -/
def NWorld.addAllIgnoring (w : NWorld) : List NId → (Nat → Nat → Nat) → NWorld × Bool
  | [], _ => (w, true)
  | n :: ns, picks =>
    match w.addIgnoring n (picks 0) with
    | (w1, true) => NWorld.addAllIgnoring w1 ns (fun i => picks (i + 1))
    | (w1, false) => (w1, false)

/-- `populate_network(cls)` (soil/environment.py:390-406) with such a class, on a network none of whose nodes has an agent. -/
def NWorld.populateIgnoring (w : NWorld) (picks : Nat → Nat → Nat) : NWorld × Bool :=
  if w.nodes = [] then (w, false)
  else
    let r := reserve (List.replicate w.nodes.length true) w.nodes
    { w with nodes := r.1 }.addAllIgnoring (r.2.map Prod.fst) picks

end Verif
