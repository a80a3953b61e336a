import Verif.Model.ExCars
import Verif.Model.Rounds
import Verif.Model.Refine

/-!
# The drivers and passengers of examples/cars/cars_sim.py inside the scheduler
-/

namespace Verif

/-- What chance decides: what `random.choice` draws for a driver in the `k`-th activation, the destination and the tip that a passenger draws
(examples/cars/cars_sim.py:178-189), and how the scheduler shuffles its buckets the `k`-th time. -/
structure CarsFate where
  pick : Nat → Nat
  dest : Nat → GridCell
  tip : Nat → Int
  order : Nat → List Ref → List Ref
  perm : ∀ k l, (order k l).Perm l

/-- The city and how many activations drew numbers. -/
structure CarsSim where
  ride : Ride
  used : Nat

/-- The time as a whole number; all times of this example are. -/
def wholeTime : Time → Nat
  | .fin q => q.num.toNat
  | .inf => 0

/-- The activation of the agent with the number `r`: drivers are added first (examples/cars/cars_sim.py:67-68). -/
def Ride.eventOf (c : Ride) (F : CarsFate) (k : Nat) (r : Ref) : RideEv :=
  if r < c.cabs.length then .cab r (F.pick k) else .rider (r - c.cabs.length) (F.dest k) (F.tip k)

/-- What `step` of the agent `r` gives to the scheduler and does to it (soil/agents/fsm.py:131-165, soil/agents/__init__.py:28-46, 232-242). A
passenger that is dead raises `DeadAgent` (`_check_alive`). When an agent dies it is removed from the agents; a driver returns what `die` gives, an infinite
delay (examples/cars/cars_sim.py:105, 115, 142); a passenger does not (line 222), so that `step` returns `None` and it is scheduled once more. Otherwise the
delay until its next activation; where a state ends (`None`) this is the default interval of the scheduler, 1. -/
def CarsSim.turn (F : CarsFate) (r : Ref) (now : Time) (w : CarsSim) : Reply × List SOp × CarsSim :=
  let e := w.ride.eventOf F w.used r
  match w.ride.due e with
  | none => (.dead, [], w)
  | some _ =>
    let x := ({ w.ride with now := wholeTime now } : Ride).act e
    if x.2 then (.error, [], ⟨x.1, w.used + 1⟩)
    else match x.1.due e with
      | some t => (.ret (some (.fin ((t : Rat) - (wholeTime now : Rat)))), [], ⟨x.1, w.used + 1⟩)
      | none => (.ret (if r < w.ride.cabs.length then some .inf else none), [.remove r], ⟨x.1, w.used + 1⟩)

/-- Drivers and passengers for a scheduler. -/
def carsCode (F : CarsFate) : AgentCode CarsSim := fun r t _ _ w => w.turn F r t

/-- Drivers and passengers in `TimedActivation`. -/
def carsHost (F : CarsFate) : Host (CarsSim × Nat) := (carsCode F).timed F.order F.perm

/-- `City.init` (examples/cars/cars_sim.py:64-75): the drivers and then the passengers are added to the scheduler (with the default interval, 1) at the time 0,
and placed in the given cells. -/
def carsStart (width height : Nat) (cabs riders : List GridCell) (sh : Bool) : Sched × CarsSim × Nat :=
  roundsStart (cabs.length + riders.length) 1 sh (⟨Ride.init width height cabs riders, 0⟩, 0)

end Verif
