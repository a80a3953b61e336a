import Mathlib.Data.List.Basic
import Mathlib.Algebra.BigOperators.Group.List.Basic

/-!
# Drivers and passengers (examples/cars/cars_sim.py)

Drivers (`Cab`) and passengers (`Rider`) are numbered separately. A passenger makes one `Journey` object in its life, which therefore has
the number of the passenger. Times are natural numbers: the simulation starts at 0 and all delays are whole numbers. Results of random
choices are arbitrary inputs. Code between two `await`s is one activation.
-/

namespace Verif

/-- A cell of the grid. -/
abbrev GridCell := Int × Int

/-- `Journey` (examples/cars/cars_sim.py:29-43) without the passenger. -/
structure Trip where
  origin : GridCell
  dest : GridCell
  tip : Int
  driver : Option Nat
deriving DecidableEq, Repr

/-- Where a driver is in its code: at the beginning of `wandering`, in `delay(30)` with the local variable `target`, in `ask` (which
message, until when), at the beginning of `driving` or in the first `delay()` there, in the second, dead. -/
inductive CabPc where
  | wander
  | loop (target : GridCell)
  | ask (a exp : Nat)
  | toOrigin
  | toDest
  | dead
deriving DecidableEq, Repr

/-- A driver. `cell` is the cell in whose list the grid has it, `inbox` the journeys it was told about with their expiration, `next` when
it will be activated. -/
structure Cab where
  pos : GridCell
  cell : GridCell
  journey : Option Nat
  earnings : Int
  inbox : List (Nat × Nat)
  pc : CabPc
  next : Nat
deriving DecidableEq, Repr

/-- Where a passenger is in its code: at the beginning, in `received(expiration, delay=10)` with the local variable `expiration`, at the
beginning of `driving_home`, in `received(timeout=60)` there, dead. -/
inductive RiderPc where
  | start
  | wait (exp : Nat)
  | home
  | ride (exp : Nat)
  | dead
deriving DecidableEq, Repr

/-- A passenger. `trip` is its `Journey` object, `journey` the attribute `self.journey` (the number of a journey), `inbox` the questions
(number of the `Ask` object and of the journey). -/
structure Rider where
  pos : GridCell
  cell : GridCell
  trip : Option Trip
  journey : Option Nat
  inbox : List (Nat × Nat)
  pc : RiderPc
  next : Nat
deriving DecidableEq, Repr

/-- Everything: the grid, drivers, passengers, the replies to the `Ask` objects, `total_earnings`, the time of the last activation. `paid`
is a ghost: the journeys that were paid for. -/
structure Ride where
  width : Nat
  height : Nat
  cabs : List Cab
  riders : List Rider
  asks : List (Option Nat)
  total : Int
  now : Nat
  paid : List Nat
deriving DecidableEq, Repr

/-- Within the grid. -/
def Ride.inside (c : Ride) (p : GridCell) : Bool :=
  decide (0 ≤ p.1 ∧ p.1 < c.width ∧ 0 ≤ p.2 ∧ p.2 < c.height)

/-- `count_agents(agent_class=Passenger)` (examples/cars/cars_sim.py:77-80, 94-98). -/
def Ride.passengers (c : Ride) : Nat := c.riders.countP (fun p => decide (p.pc ≠ .dead))

/-- The next cell in `move_towards` (examples/cars/cars_sim.py:145-164); `none` at the target. -/
def towards (pos target : GridCell) : Option GridCell :=
  if target.1 = pos.1 ∧ target.2 = pos.2 then none
  else if pos.1 < target.1 then some (pos.1 + 1, pos.2)
  else if target.1 < pos.1 then some (pos.1 - 1, pos.2)
  else if pos.2 < target.2 then some (pos.1, pos.2 + 1)
  else some (pos.1, pos.2 - 1)

/-- `get_neighborhood(self.pos, moore=False)` of a grid without torus. -/
def Ride.around (c : Ride) (p : GridCell) : List GridCell :=
  [(p.1 - 1, p.2), (p.1, p.2 - 1), (p.1, p.2 + 1), (p.1 + 1, p.2)].filter c.inside

/-- `process_messages` of a driver with its `on_receive` (examples/cars/cars_sim.py:88-92; soil/agents/evented.py:44-55): the
journey of the driver and the passengers (with their journeys) after the messages. -/
def hearTrips (now i : Nat) : List (Nat × Nat) → Option Nat → List Rider → Option Nat × List Rider
  | [], g, ps => (g, ps)
  | (j, e) :: ms, g, ps =>
    if e < now then hearTrips now i ms g ps
    else match g, (ps[j]?).bind Rider.trip with
      | none, some t =>
        if t.driver = none then hearTrips now i ms (some j) (ps.modify j (fun p => { p with trip := some { t with driver := some i } }))
        else hearTrips now i ms none ps
      | g, _ => hearTrips now i ms g ps

/-- `die` of a driver. -/
def Ride.cabDies (c : Ride) (i : Nat) (q : Cab) : Ride := { c with cabs := c.cabs.set i { q with pc := .dead } }

/-- The rest of a round of the loop in `wandering` (examples/cars/cars_sim.py:113-117), with the local variable `target`. -/
def Ride.listen (c : Ride) (i : Nat) (q : Cab) (target : GridCell) : Ride :=
  if c.passengers = 0 then c.cabDies i q
  else
    let r := hearTrips c.now i q.inbox q.journey c.riders
    { c with cabs := c.cabs.set i { q with journey := r.1, inbox := [], pc := .loop target, next := c.now + 30 }, riders := r.2 }

/-- A round of the loop in `wandering` (examples/cars/cars_sim.py:107-117); `k` is what `random.choice` draws. The Boolean: an exception (`IndexError`, or a
cell outside of the grid). -/
def Ride.roam (c : Ride) (i : Nat) (q : Cab) (target : Option GridCell) (k : Nat) : Ride × Bool :=
  match target.bind (towards q.pos) with
  | some p => if c.inside p then (c.listen i { q with pos := p, cell := p } (target.getD p), false) else (c, true)
  | none => match (c.around q.pos)[k % (c.around q.pos).length]? with
    | none => (c, true)
    | some t => (c.listen i q t, false)

/-- The end of `driving` (examples/cars/cars_sim.py:138-143). -/
def Ride.collect (c : Ride) (i : Nat) (q : Cab) (j : Nat) (t : Trip) : Ride :=
  let q1 := { q with earnings := q.earnings + t.tip }
  let c1 := { c with total := c.total + t.tip, paid := c.paid ++ [j] }
  if c.passengers = 0 then c1.cabDies i q1
  else { c1 with cabs := c1.cabs.set i { q1 with pc := .wander, next := c.now + 1 } }

/-- The second loop of `driving` (examples/cars/cars_sim.py:136-137). -/
def Ride.carry (c : Ride) (i : Nat) (q : Cab) (j : Nat) (t : Trip) : Ride × Bool :=
  match towards q.pos t.dest with
  | none => (c.collect i q j t, false)
  | some p =>
    if c.inside p then
      ({ c with
        cabs := c.cabs.set i { q with pos := p, cell := p, pc := .toDest, next := c.now + 1 }
        riders := c.riders.modify j (fun r => { r with pos := p }) }, false)
    else (c, true)

/-- One activation of driver `i` at time `c.now` (examples/cars/cars_sim.py:100-164; `ask`: soil/agents/evented.py:33-42). -/
def Ride.actCab (c : Ride) (i k : Nat) : Ride × Bool :=
  match c.cabs[i]? with
  | none => (c, false)
  | some q => match q.pc with
    | .dead => (c, false)
    | .wander => if c.passengers = 0 then (c.cabDies i q, false) else c.roam i { q with journey := none } none k
    | .loop target => match q.journey with
      | none => c.roam i q (some target) k
      | some j =>
        ({ c with
          cabs := c.cabs.set i { q with pc := .ask c.asks.length (c.now + 60), next := c.now + 5 }
          riders := c.riders.modify j (fun r => { r with inbox := r.inbox ++ [(c.asks.length, j)] })
          asks := c.asks ++ [none] }, false)
    | .ask a exp =>
      if c.now < exp then
        match (c.asks[a]?).bind id with
        | some j => ({ c with cabs := c.cabs.set i { q with journey := some j, pc := .toOrigin, next := c.now + 1 } }, false)
        | none => ({ c with cabs := c.cabs.set i { q with next := c.now + 5 } }, false)
      else ({ c with cabs := c.cabs.set i { q with journey := none, pc := .wander, next := c.now + 1 } }, false)
    | .toOrigin => match q.journey with
      | none => (c, true)
      | some j => match (c.riders[j]?).bind Rider.trip with
        | none => (c, true)
        | some t => match towards q.pos t.origin with
          | some p => if c.inside p then
              ({ c with cabs := c.cabs.set i { q with pos := p, cell := p, next := c.now + 1 } }, false) else (c, true)
          | none => c.carry i q j t
    | .toDest => match q.journey with
      | none => (c, true)
      | some j => match (c.riders[j]?).bind Rider.trip with
        | none => (c, true)
        | some t => c.carry i q j t

/-- `broadcast(journey, ttl=60, sender=self, agent_class=Driver)` (soil/environment.py:413-432): to all living drivers. -/
def Ride.announce (c : Ride) (j : Nat) : Ride :=
  { c with cabs := c.cabs.map (fun q => if q.pc = .dead then q else { q with inbox := q.inbox ++ [(j, c.now + 60)] }) }

/-- `process_messages` of a passenger with its `on_receive` (examples/cars/cars_sim.py:170-175): `self.journey` and the
replies. -/
def hearAsks : List (Nat × Nat) → Option Nat → List (Option Nat) → Option Nat × List (Option Nat)
  | [], g, as => (g, as)
  | (a, j) :: ms, _, as => hearAsks ms (some j) (as.set a (some j))

/-- `while not self.journey: … received(expiration=…, delay=10)` and what follows (examples/cars/cars_sim.py:196-209), before the expiration. -/
def Ride.await (c : Ride) (j : Nat) (p : Rider) (exp : Nat) : Ride :=
  let r := hearAsks p.inbox p.journey c.asks
  match r.1 with
  | some g => { c with riders := c.riders.set j { p with journey := some g, inbox := [], pc := .home, next := c.now + 1 }, asks := r.2 }
  | none => { c with riders := c.riders.set j { p with pc := .wait exp, next := c.now + 10 } }

/-- The loop of `driving_home` (examples/cars/cars_sim.py:212-222), at the check of the position. -/
def Ride.homeward (c : Ride) (j : Nat) (p : Rider) : Ride × Bool :=
  match p.journey.bind (fun g => (c.riders[g]?).bind Rider.trip) with
  | none => (c, true)
  | some t =>
    if p.pos.1 ≠ t.dest.1 ∨ p.pos.2 ≠ t.dest.2 then
      let r := hearAsks p.inbox p.journey c.asks
      ({ c with riders := c.riders.set j { p with journey := r.1, inbox := [], pc := .ride (c.now + 60), next := c.now + 1 }, asks := r.2 },
        false)
    else ({ c with riders := c.riders.set j { p with pc := .dead } }, false)

/-- One activation of passenger `j` at time `c.now` (examples/cars/cars_sim.py:177-222; `received`:
soil/agents/evented.py:17-28); `dest` and `tip` are what is drawn. -/
def Ride.actRider (c : Ride) (j : Nat) (dest : GridCell) (tip : Int) : Ride × Bool :=
  match c.riders[j]? with
  | none => (c, false)
  | some p => match p.pc with
    | .dead => (c, false)
    | .start =>
      let p1 := { p with journey := none, trip := some ⟨p.pos, dest, tip, none⟩ }
      let c1 := ({ c with riders := c.riders.set j p1 } : Ride).announce j
      (c1.await j p1 (c.now + 60), false)
    | .wait exp =>
      if c.now < exp then (c.await j p exp, false)
      else ((c.announce j).await j p (c.now + 60), false)
    | .home => c.homeward j p
    | .ride exp =>
      if c.now < exp then
        if p.inbox = [] then ({ c with riders := c.riders.set j { p with next := c.now + 1 } }, false)
        else
          let r := hearAsks p.inbox p.journey c.asks
          ({ c with riders := c.riders.set j { p with journey := r.1, inbox := [] }, asks := r.2 } : Ride).homeward j
            { p with journey := r.1, inbox := [] }
      else c.homeward j p

/-- Who is activated, and with which random results. -/
inductive RideEv where
  | cab (i k : Nat)
  | rider (j : Nat) (dest : GridCell) (tip : Int)
deriving DecidableEq, Repr

/-- When the agent will be activated; `none`: never. -/
def Ride.due (c : Ride) : RideEv → Option Nat
  | .cab i _ => (c.cabs[i]?).bind (fun q => if q.pc = .dead then none else some q.next)
  | .rider j _ _ => (c.riders[j]?).bind (fun p => if p.pc = .dead then none else some p.next)

/-- What the schedulers guarantee: an agent is activated at the time it asked for, after all that are due before (any order among those due
at the same time). -/
def Ride.turn (c : Ride) (e : RideEv) (t : Nat) : Bool :=
  decide (c.due e = some t) &&
  c.cabs.all (fun q => decide (q.pc = .dead ∨ t ≤ q.next)) &&
  c.riders.all (fun p => decide (p.pc = .dead ∨ t ≤ p.next))

/-- One activation. -/
def Ride.act (c : Ride) : RideEv → Ride × Bool
  | .cab i k => c.actCab i k
  | .rider j dest tip => c.actRider j dest tip

/-- A simulation, until an exception escapes: the events that are not the turn of their agent are left out. -/
def Ride.run (c : Ride) : List RideEv → Ride × Bool
  | [] => (c, false)
  | e :: es => match c.due e with
    | none => c.run es
    | some t =>
      if c.turn e t then
        let r := ({ c with now := t } : Ride).act e
        if r.2 then r else r.1.run es
      else c.run es

/-- The beginning: drivers and passengers in the given cells (`City.init`, examples/cars/cars_sim.py:64-75). -/
def Ride.init (width height : Nat) (cabs riders : List GridCell) : Ride where
  width := width
  height := height
  cabs := cabs.map (fun p => ⟨p, p, none, 0, [], .wander, 0⟩)
  riders := riders.map (fun p => ⟨p, p, none, none, [], .start, 0⟩)
  asks := []
  total := 0
  now := 0
  paid := []

/-- `grid.place_agent(agent, (0, 0))` and `grid.move_to_empty(agent)` for each agent (examples/cars/cars_sim.py:70-72):
`empties` are the empty cells, `k` what is drawn for each agent; when it moves, its cell `(0, 0)` is not empty. `none`: no empty cell
(mesa raises an exception). The result: the cells of the agents. -/
def placeAll : List Nat → List GridCell → Option (List GridCell)
  | [], _ => some []
  | k :: ks, empties =>
    let es := empties.filter (fun p => decide (p ≠ (0, 0)))
    match es[k % es.length]? with
    | none => none
    | some p => (placeAll ks (empties.erase p)).map (p :: ·)

/-- All cells of the grid. -/
def gridCells (width height : Nat) : List GridCell :=
  (List.range width).flatMap (fun (x : Nat) => (List.range height).map (fun (y : Nat) => ((x : Int), (y : Int))))

end Verif
