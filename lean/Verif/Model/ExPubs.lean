import Verif.Basic.Time

/-!
# The pub crawl (examples/pubcrawl/pubcrawl_sim.py)

Patrons are identified with their position in the list of patrons (the order in which they were added);
node `i` of the network is the node of patron `i`.  Log messages are left out.
-/

namespace Verif

/-- The states of a `Patron` (examples/pubcrawl/pubcrawl_sim.py:77-123). -/
inductive PState where
  | friends
  | seekPub
  | sober
  | drunkInPub
  | home
deriving DecidableEq, Repr

/-- The attributes of a `Patron` (examples/pubcrawl/pubcrawl_sim.py:71-75, 24). -/
structure Patron where
  pub : Option Nat
  drunk : Bool
  pints : Nat
  maxPints : Nat
  kicked : Bool
  state : PState
  openness : Rat
deriving DecidableEq, Repr

/-- A new patron (class attributes, lines 71-75; the default state is `looking_for_friends`). -/
def Patron.new (openness : Rat) (maxPints : Nat := 3) : Patron :=
  ⟨none, false, 0, maxPints, false, .friends, openness⟩

/-- A pub (examples/pubcrawl/pubcrawl_sim.py:19-24). -/
structure Pub where
  isOpen : Bool
  capacity : Nat
  occupancy : Nat
deriving DecidableEq, Repr

/-- The environment `CityPubs`: the pubs, the patrons and the edges of the network. -/
structure City where
  pubs : List Pub
  patrons : List Patron
  edges : List (Nat × Nat)
deriving DecidableEq, Repr

/-- `CityPubs.init` (examples/pubcrawl/pubcrawl_sim.py:16-28) for a network with the given edges, and any
capacities and kinds of patrons. -/
def City.init (caps : List Nat) (ps : List (Rat × Nat)) (edges : List (Nat × Nat)) : City :=
  ⟨caps.map (fun c => ⟨true, c, 0⟩), ps.map (fun p => Patron.new p.1 p.2), edges⟩

/-- `CityPubs.enter(pub_id, *nodes)` (examples/pubcrawl/pubcrawl_sim.py:31-42); `none`: `ValueError`. -/
def City.enter (c : City) (pub : Nat) (nodes : List Nat) : Option (Bool × City) :=
  match c.pubs[pub]? with
  | none => none
  | some p =>
    if !p.isOpen || decide (p.capacity < nodes.length + p.occupancy) then some (false, c)
    else some (true,
      { c with
        pubs := c.pubs.modify pub (fun p => { p with occupancy := p.occupancy + nodes.length })
        patrons := nodes.foldl (fun ps i => ps.modify i (fun q => { q with pub := some pub })) c.patrons })

/-- `CityPubs.available_pubs` (examples/pubcrawl/pubcrawl_sim.py:44-47). -/
def City.available (c : City) : List Nat :=
  (List.range c.pubs.length).filter fun i => match c.pubs[i]? with
    | some p => p.isOpen && decide (p.occupancy < p.capacity)
    | none => false

/-- `CityPubs.exit(pub_id, *node_ids)` (examples/pubcrawl/pubcrawl_sim.py:49-59): environments have no
attribute `get_agent`, so any patron makes it raise `AttributeError`. `none`: it raises. -/
def City.exit (c : City) (pub : Nat) (nodes : List Nat) : Option City :=
  match c.pubs[pub]? with
  | none => none
  | some _ => match nodes with
    | [] => some c
    | _ :: _ => none

/-- `NetworkAgent.get_neighbors()` (soil/agents/network_agents.py:32-33, 39-60): the patrons with an edge to
`i`, in the order they were added. -/
def City.neighbors (c : City) (i : Nat) : List Nat :=
  (List.range c.patrons.length).filter fun j => decide ((i, j) ∈ c.edges ∨ (j, i) ∈ c.edges)

/-- `NetworkAgent.add_edge(other, edge_attr_dict)` (soil/agents/network_agents.py:74-88) called on `i` with
`other`; the attributes of the edge are left out. -/
def City.addEdge (c : City) (i other : Nat) : City := { c with edges := c.edges ++ [(i, other)] }

/-- `Patron.befriend(other_agent, force)` of patron `i` (examples/pubcrawl/pubcrawl_sim.py:134-143); `r` is what
`self.random.random()` returns. Line 139 calls `self.add_edge(self, other_agent)`: the first argument is
the other end of the edge, the second one becomes an attribute of the edge. -/
def City.befriend (c : City) (i _other : Nat) (force : Bool) (r : Rat) : City × Bool :=
  match c.patrons[i]? with
  | none => (c, false)
  | some p => if force || decide (r < p.openness) then (c.addEdge i i, true) else (c, false)

/-- The loop of `Patron.try_friends` (examples/pubcrawl/pubcrawl_sim.py:149-159); `draw j` is the number drawn
by friend `j`. -/
def City.tryLoop (i : Nat) (draw : Nat → Rat) : List Nat → City → City × Bool
  | [], c => (c, false)
  | j :: js, c =>
    if j = i then City.tryLoop i draw js c
    else
      let b := c.befriend j i false (draw j)
      if b.2 then
        let b2 := b.1.befriend i j true 0
        ((City.tryLoop i draw js b2.1).1, true)
      else City.tryLoop i draw js b.1

/-- `self.get_agents(drunk=False, pub=None, state_id=…)` (examples/pubcrawl/pubcrawl_sim.py:82-84): only the
last criterion on attributes is applied (`pub`, see C47), besides the state. -/
def City.lookingForFriends (c : City) : List Nat :=
  (List.range c.patrons.length).filter fun j => match c.patrons[j]? with
    | some q => decide (q.state = .friends) && q.pub.isNone
    | none => false

/-- Set the state of patron `i`. -/
def City.goto (c : City) (i : Nat) (s : PState) : City :=
  { c with patrons := c.patrons.modify i (fun q => { q with state := s }) }

/-- The loop over the pubs in `looking_for_pub` (examples/pubcrawl/pubcrawl_sim.py:99-103): enter the first pub
that lets the group in. -/
def City.tryPubs (i : Nat) (group : List Nat) : List Nat → City → City
  | [], c => c
  | p :: ps, c => match c.enter p (i :: group) with
    | some (true, c') => c'.goto i .sober
    | _ => City.tryPubs i group ps c

/-- `Patron.step` of patron `i` (examples/pubcrawl/pubcrawl_sim.py:77-130): `shuffle` is what
`self.random.shuffle` does with the list of friends, `draw j` what friend `j` draws. -/
def City.patronStep (c : City) (i : Nat) (shuffle : List Nat → List Nat) (draw : Nat → Rat) : City :=
  match c.patrons[i]? with
  | none => c
  | some p => match p.state with
    | .friends =>
      let others := c.lookingForFriends
      if others.isEmpty then c.goto i .home
      else
        let r := City.tryLoop i draw ((shuffle others).take (10 * p.openness).floor.toNat) c
        if r.2 then r.1.goto i .seekPub else r.1
    | .seekPub =>
      if p.pub.isSome then c.goto i .sober
      else City.tryPubs i (c.neighbors i) c.available c
    | .sober =>
      let c1 := { c with patrons := c.patrons.modify i (fun q => { q with pints := q.pints + 1 }) }
      if p.maxPints < p.pints + 1 then c1.goto i .drunkInPub else c1
    | .drunkInPub =>
      let c1 := { c with patrons := c.patrons.modify i (fun q => { q with drunk := true }) }
      if p.kicked then c1.goto i .home else c1
    | .home => c

/-- `Police.patrol` (examples/pubcrawl/pubcrawl_sim.py:168-176). -/
def City.police (c : City) : City :=
  { c with patrons := c.patrons.map fun q =>
      if q.drunk && decide (q.state = .drunkInPub) then { q with kicked := true } else q }

/-- What may happen: a patron or the police is activated. -/
inductive PubEv where
  | patron (i : Nat) (shuffle : List Nat → List Nat) (draw : Nat → Rat)
  | police

def City.ev (c : City) : PubEv → City
  | .patron i sh d => c.patronStep i sh d
  | .police => c.police

/-- Any schedule of the agents, with any random numbers. -/
def City.run (c : City) (h : List PubEv) : City := h.foldl City.ev c

end Verif
