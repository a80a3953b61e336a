import Verif.Model.RunLoop

/-!
# The schedulers of mesa, for comparison with that of soil

soil's schedulers derive from mesa's `BaseScheduler`, and models written for mesa can be run with soil (soil/environment.py:14,
soil/time.py:9, 35). What is described here is what mesa's own schedulers do with a fixed set of agents. mesa is not part of `/repo`:
this is a specification.
-/

namespace Verif

/-- A mesa model with its scheduler: `schedule.time`, `schedule.steps`, `schedule.agents` and everything else. -/
structure MesaState (W : Type) where
  time : Rat
  steps : Nat
  agents : List Ref
  world : W

/-- The code of agents that look at the scheduler only through `time`, `steps` and `agents`, return nothing and do not change the scheduler. -/
abbrev MesaCode (W : Type) := Ref → Rat → Nat → List Ref → W → W

/-- mesa's `BaseScheduler.step`: `for agent in order: agent.step()`, then `steps += 1` and `time += 1`. -/
def mesaStep {W : Type} (act : MesaCode W) (order : List Ref) (m : MesaState W) : MesaState W :=
  { m with
    world := order.foldl (fun w r => act r m.time m.steps m.agents w) m.world
    steps := m.steps + 1
    time := m.time + 1 }

/-- One step of mesa's `BaseScheduler` (`shuffled = false`: the agents in the order in which they were added), or of its `RandomActivation`
(`shuffled = true`: in the order that the generator of random numbers gives; what it is given is some list of all the agents). -/
def MesaRound {W : Type} (act : MesaCode W) (shuffle : List Ref → W → List Ref × W) (shuffled : Bool) (m m' : MesaState W) : Prop :=
  if shuffled then
    ∃ l : List Ref, l.Perm m.agents ∧ m' = mesaStep act (shuffle l m.world).1 { m with world := (shuffle l m.world).2 }
  else m' = mesaStep act m.agents m

/-- An environment with soil's default scheduler and `n` agents, added one after the other before the first step (soil/environment.py:152-175). -/
def roundsStart {W : Type} (n : Nat) (iv : Rat) (shuffle : Bool) (w : W) : Sched × W :=
  ((Sched.init (.fin iv) shuffle).applyOps ((List.range n).map (fun r => .add r none)), w)

end Verif
