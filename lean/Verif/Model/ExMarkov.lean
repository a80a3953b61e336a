import Verif.Model.Random
import Verif.Basic.Time

/-!
# Drivers in a city (examples/markov_chains/markov_sim.py)

Drivers and intersections are numbered. Results of random choices are arbitrary inputs. `gini` is in `ExWealth`.
-/

namespace Verif

/-- The multigraph of streets: the neighbours of an intersection, the travel times of all parallel edges between two, and whether there
is an edge with the key 0. -/
structure Streets where
  directed : Bool
  nbrs : Nat → List Nat
  times : Nat → Nat → List Rat
  key0 : Nat → Nat → Bool

/-- The edge `G.edges[u, v, 0]`: without directions `(u, v)` and `(v, u)` are the same. -/
def Streets.edge (S : Streets) (u v : Nat) : Nat × Nat := if S.directed then (u, v) else (min u v, max u v)

/-- `CityGrid.travel_time` (examples/markov_chains/markov_sim.py:31-32); `none`: it raises (no edge). -/
def Streets.travelTime (S : Streets) (u v : Nat) : Option Rat :=
  match S.times u v with
  | [] => none
  | t :: ts => some (ts.foldl min t)

/-- A driver: its class, position, `waiting`, and the local variable `pos` of `move_to` while it is suspended in line 66. -/
structure Driver where
  picky : Bool
  pos : Nat
  target : Option Nat
  waiting : Bool
deriving DecidableEq, Repr

/-- The drivers, the lists of agents of the intersections (mesa's `NetworkGrid`) and the attribute `occupation` of the edges with key 0. -/
structure Town where
  drivers : List Driver
  cells : Nat → List Nat
  occ : Nat × Nat → Int

/-- `choose_next` (examples/markov_chains/markov_sim.py:52-56 and 78-82): `k` is what `random.choice` draws, `r` what
`random.choices` draws. `none`: an exception (no neighbours, an edge without travel time, a travel time 0 for a lazy one). -/
def Streets.chooseNext (S : Streets) (a : Driver) (k : Nat) (r : Rat) : Option (Nat × Rat) :=
  let opts := S.nbrs a.pos
  if a.picky then
    match opts.mapM (S.travelTime a.pos) with
    | none => none
    | some times =>
      if (0 : Rat) ∈ times then none
      else match choices (List.range times.length) (times.map (fun t => 1 / t)) [r] with
        | some (idx :: _) => match opts[idx]?, times[idx]? with
          | some p, some t => some (p, t)
          | _, _ => none
        | _ => none
  else
    match opts[k % opts.length]? with
    | none => none
    | some p => (S.travelTime a.pos p).map (fun t => (p, t))

/-- What an activation ends with: an exception, or a delay that is asked for. -/
inductive RoamOut where
  | raises
  | wait (t : Rat)
deriving DecidableEq, Repr

/-- `grid.move_agent(self, pos)` (mesa: taken off the list of the old intersection, appended to that of the new one) and
`self.waiting = False` (examples/markov_chains/markov_sim.py:72-73). -/
def Town.moveAgent (c : Town) (i : Nat) (a : Driver) (dst : Nat) : Town :=
  { c with
    drivers := c.drivers.set i { a with pos := dst, target := none, waiting := false }
    cells := fun n =>
      let l := if n = a.pos then (c.cells n).erase i else c.cells n
      if n = dst then l ++ [i] else l }

/-- Add to the occupation of an edge. -/
def Town.addOcc (c : Town) (e : Nat × Nat) (d : Int) : Town := { c with occ := fun f => if f = e then c.occ f + d else c.occ f }

/-- One activation of driver `i`: `Roamer.step` with `move_to(None)` (examples/markov_chains/markov_sim.py:45-50, 58-73), from its start
or from line 66. -/
def Town.act (S : Streets) (gradual : Bool) (c : Town) (i k : Nat) (r : Rat) : Town × RoamOut :=
  match c.drivers[i]? with
  | none => (c, .raises)
  | some a => match a.target with
    | some dst =>
      if dst = a.pos then (c.moveAgent i a dst, .wait 0)
      else ((c.addOcc (S.edge a.pos dst) (-1)).moveAgent i a dst, .wait 0)
    | none => match S.chooseNext a k r with
      | none => ({ c with drivers := c.drivers.set i { a with waiting := true } }, .raises)
      | some (dst, delay) =>
        if gradual then
          if dst = a.pos then ({ c with drivers := c.drivers.set i { a with waiting := true, target := some dst } }, .wait delay)
          else if S.key0 a.pos dst then
            (({ c with drivers := c.drivers.set i { a with waiting := true, target := some dst } } : Town).addOcc (S.edge a.pos dst) 1,
              .wait delay)
          else ({ c with drivers := c.drivers.set i { a with waiting := true } }, .raises)
        else (c.moveAgent i a dst, .wait 0)

/-- Any schedule, with any random numbers, until an exception escapes. -/
def Town.run (S : Streets) (gradual : Bool) : List (Nat × Nat × Rat) → Town → Town
  | [], c => c
  | (i, k, r) :: h, c =>
    let x := c.act S gradual i k r
    if x.2 = .raises then x.1 else Town.run S gradual h x.1

/-- The beginning (examples/markov_chains/markov_sim.py:24-25, 109-117): drivers of the given classes on the given intersections. -/
def Town.init (ds : List (Bool × Nat)) : Town where
  drivers := ds.map (fun d => ⟨d.1, d.2, none, false⟩)
  cells := fun n => (List.range ds.length).filter (fun i => decide ((ds[i]?).map Prod.snd = some n))
  occ := fun _ => 0

/-- `move_to(pos)` with a given position, the first activation (examples/markov_chains/markov_sim.py:58-73): with `gradual_move` the local
variable `delay` is not defined in line 66 (`UnboundLocalError`), after the occupation was increased. -/
def Town.moveTo (S : Streets) (gradual : Bool) (c : Town) (i dst : Nat) : Town × RoamOut :=
  match c.drivers[i]? with
  | none => (c, .raises)
  | some a =>
    let c1 : Town := { c with drivers := c.drivers.set i { a with waiting := true } }
    if gradual then
      if dst = a.pos then (c1, .raises)
      else if S.key0 a.pos dst then (c1.addOcc (S.edge a.pos dst) 1, .raises)
      else (c1, .raises)
    else (c.moveAgent i a dst, .wait 0)

/-- A graph without parallel edges (`nx.Graph`): `G.adj[u][v].values()` are then the values of the attributes, which have no
"travel_time", and `G.edges[u, v, 0]` raises. -/
def Streets.simple (nbrs : Nat → List Nat) : Streets := ⟨false, nbrs, fun _ _ => [], fun _ _ => false⟩

/-- The edges of `nx.grid_graph(dim=[side, side])` (examples/markov_chains/markov_sim.py:130), the intersection `(x, y)` as `x * side + y`. -/
def gridEdges (side : Nat) : List (Nat × Nat) :=
  (List.range side).flatMap (fun x => (List.range side).flatMap (fun y =>
    (if x + 1 < side then [(x * side + y, (x + 1) * side + y)] else []) ++
    (if y + 1 < side then [(x * side + y, x * side + y + 1)] else [])))

/-- `SquareCityEnv.__init__` (examples/markov_chains/markov_sim.py:128-136): `self.max_weight` is not set before line 132
(`AttributeError`, `none`) in the first round of the loop over the edges. The result: the streets. -/
def squareCity (side : Nat) : Option Streets :=
  match gridEdges side with
  | [] => some (Streets.simple (fun _ => []))
  | _ :: _ => none

end Verif
