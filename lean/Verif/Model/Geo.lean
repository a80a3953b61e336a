import Verif.Basic.Time

/-!
# Searching for near-by agents (soil/agents/geo.py, soil/agents/network_agents.py `subgraph`)

Coordinates are rational numbers in the plane, distances are compared by their squares.
-/

namespace Verif

/-- An agent as far as `subgraph` is concerned: `attr` is `none` if it has no attribute `node_id` (agents that are not network agents),
`sat` whether it satisfies the criteria of the query. -/
structure GeoAgent where
  attr : Option Nat
  sat : Bool
deriving DecidableEq, Repr

/-- The network: its nodes and the attribute `pos` of each. -/
structure GeoNet where
  nodes : List Nat
  pos : Nat → Option (Rat × Rat)

/-- The ids handed to `G.subgraph` (soil/agents/network_agents.py:63-67): those of all scheduled agents that satisfy the criteria, and its
own if `center`. `none`: `AttributeError`, if one of them has no `node_id`. -/
def subgraphIds (sched : List GeoAgent) (own : Nat) (center : Bool) : Option (List Nat) :=
  ((sched.filter GeoAgent.sat).mapM GeoAgent.attr).map (fun l => l ++ (if center then [own] else []))

/-- `self.subgraph(...)`: the nodes of `G.subgraph(ids)`. -/
def subgraphNodes (net : GeoNet) (sched : List GeoAgent) (own : Nat) (center : Bool) : Option (List Nat) :=
  (subgraphIds sched own center).map (fun ids => net.nodes.filter (fun n => decide (n ∈ ids)))

/-- Within the closed ball (`KDTree.query_ball_point`). -/
def inBall (c r : Rat × Rat) (radius : Rat) : Bool :=
  decide (0 ≤ radius) && decide ((c.1 - r.1) * (c.1 - r.1) + (c.2 - r.2) * (c.2 - r.2) ≤ radius * radius)

/-- `geo_search(radius, center)` (soil/agents/geo.py:9-21). `none`: an exception (`AttributeError` of `subgraph`, `KeyError` if the own
node has no position but another one has). -/
def geoSearch (net : GeoNet) (sched : List GeoAgent) (own : Nat) (radius : Rat) (center : Bool) : Option (List Nat) :=
  match subgraphNodes net sched own true with
  | none => none
  | some ns =>
    let withPos := ns.filter (fun n => (net.pos n).isSome)
    if withPos.isEmpty then some []
    else if own ∉ withPos then none
    else match net.pos own with
      | none => none
      | some p => some ((withPos.filter (fun n => match net.pos n with
          | some q => inBall p q radius
          | none => false)).filter (fun n => center || decide (n ≠ own)))

end Verif
