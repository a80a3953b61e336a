import Verif.Model.CarsRun

/-!
# The drivers and passengers of examples/cars/cars_sim.py with `PQueueActivation`
-/

namespace Verif

/-- `City.init` (examples/cars/cars_sim.py:64-75) with `schedule_class=PQueueActivation` (soil/environment.py:95-101; soil/time.py:51-77): the drivers and then the
passengers are added to the scheduler (with the default interval, 1) at the time 0, and placed in the given cells. The `n`-th tie-breaking number, for the agent `r`, is
`keys r n`: a random number with `shuffle`, otherwise the id. -/
def carsPStart (F : CarsFate) (keys : Ref → Nat → Rat) (width height : Nat) (cabs riders : List GridCell) : PSched × CarsSim × Nat :=
  pqueuePop ((carsCode F).pqueue keys) 1 (List.range (cabs.length + riders.length)) ⟨Ride.init width height cabs riders, 0⟩

end Verif
