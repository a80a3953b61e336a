import Verif.Model.Agents
import Verif.Model.PQueue
import Verif.Model.RunLoop

/-!
# The benchmarks of agents that do nothing (benchmarks/noop)

Agents that count their activations, in the versions of soil_step.py, soil_gens.py and soil_async.py (default scheduler) and
soil_step_pqueue.py, soil_gens_pqueue.py and soil_async_pqueue.py (`PQueueActivation`), and the mesa model of mesa_simulation.py.
The versions for the external package `soilent` are not modelled.
-/

namespace Verif

/-- The rest of the world: `num_calls` of each agent, and the state of the random generator (a counter of the numbers drawn). -/
structure NoopU where
  calls : Ref → Nat
  rng : Nat

/-- The three kinds of `NoopAgent`. -/
inductive NoopKind where
  | step
  | gens
  | async
deriving DecidableEq, Repr

/-- The number of the function of each kind. -/
def NoopKind.fn : NoopKind → Nat
  | .step => 0
  | .gens => 1
  | .async => 2

/-- What soil makes of its class. -/
def NoopKind.kind : NoopKind → Kind
  | .step => .plain 0
  | .gens => .gen false 1
  | .async => .gen true 2

/-- `NoopAgent.step` (benchmarks/noop/soil_step.py:7-8, soil_gens.py:7-10, soil_async.py:7-10): one round. `self.delay()` is `Delay(1)`
(soil/agents/__init__.py:299-300); `await` yields its number (soil/time.py:27-28). -/
def noopRun (fn : Nat) (r : Ref) (u : NoopU) : Seg Unit × List AOp × NoopU :=
  (match fn with
    | 0 => .ret .none
    | 1 => .yld (.delay 1) ()
    | _ => .yld (.num 1) (),
   [], { u with calls := fun q => if q = r then u.calls q + 1 else u.calls q })

/-- The code of the benchmark; `σ` is what the generator of random numbers makes of a list. -/
def noopCode (σ : Nat → List Ref → List Ref) (hσ : ∀ n l, (σ n l).Perm l) : UserCode NoopU Unit where
  run fn _ r _ w := noopRun fn r w.u
  pf := fun _ => Option.none
  shuffle l w := (σ w.u.rng l, { w with u := { w.u with rng := w.u.rng + 1 } })
  shuffle_perm l w := hσ _ l
  shuffle_agents _ _ := ⟨rfl, rfl⟩

/-- The world before `init`: no agent has been called. -/
def noopWorld (k : NoopKind) (n : Nat) : AWorld NoopU Unit := ⟨List.replicate n (AgentRec.new k.kind), ⟨fun _ => 0, 0⟩, []⟩

/-- `NoopEnvironment.init` with the default scheduler: `self.add_agents(NoopAgent, k=self.num_agents)` (benchmarks/noop/soil_step.py:13-15;
soil/environment.py:152-175). -/
def noopStart (k : NoopKind) (n : Nat) (iv : Time) (shuffle : Bool) : Sched × AWorld NoopU Unit :=
  ((Sched.init iv shuffle).applyOps ((List.range n).map (fun r => .add r none)), noopWorld k n)

/-- `run_sim` of one iteration (benchmarks/noop/_config.py:8-16): `max_steps` is given. -/
def noopSim (σ : Nat → List Ref → List Ref) (hσ : ∀ n l, (σ n l).Perm l) (k : NoopKind) (n : Nat) (iv : Time) (shuffle : Bool)
    (maxSteps fuel : Nat) : Outcome (Sched × AWorld NoopU Unit) :=
  runModel (timedStepper (agentHost (noopCode σ hσ))) none (some maxSteps) fuel (noopStart k n iv shuffle)

/-- The agents with `PQueueActivation`; `κ` gives the random numbers (or the ids) used for the order. The code of the agents does not look
at the scheduler. -/
def noopPHost (κ : Ref → Nat → Rat) (σ : Nat → List Ref → List Ref) (hσ : ∀ n l, (σ n l).Perm l) : PHost (AWorld NoopU Unit) where
  step r s w := stepAgent (noopCode σ hσ) r ⟨s.time, s.steps, [], s.agents, s.interval, true, s.running, []⟩ w
  key r w := (κ r w.u.rng, { w with u := { w.u with rng := w.u.rng + 1 } })

/-- An environment with `PQueueActivation` (benchmarks/noop/soil_step_pqueue.py:10-16). A step that would loop for ever counts as an
exception. -/
def noopPStepper (κ : Ref → Nat → Rat) (σ : Nat → List Ref → List Ref) (hσ : ∀ n l, (σ n l).Perm l) (loop : Nat) :
    Stepper (PSched × AWorld NoopU Unit) where
  step sw :=
    let r := sw.1.step (noopPHost κ σ hσ) loop sw.2
    ((r.1, r.2.1), decide (r.2.2 ≠ .ok))
  time sw := sw.1.time
  steps sw := sw.1.steps
  running sw := sw.1.running
  noAgents sw := sw.1.agents.isEmpty

/-- `NoopEnvironment.init` with `PQueueActivation`. -/
def noopPStart (κ : Ref → Nat → Rat) (σ : Nat → List Ref → List Ref) (hσ : ∀ n l, (σ n l).Perm l) (k : NoopKind) (n : Nat) (iv : Time) :
    PSched × AWorld NoopU Unit :=
  let r := (PSched.init iv).applyOps (noopPHost κ σ hσ) (noopWorld k n) ((List.range n).map (fun r => .add r none))
  (r.1, r.2.1)

/-- `run_sim` of one iteration with `PQueueActivation`. -/
def noopPSim (κ : Ref → Nat → Rat) (σ : Nat → List Ref → List Ref) (hσ : ∀ n l, (σ n l).Perm l) (k : NoopKind) (n : Nat) (iv : Time)
    (loop maxSteps fuel : Nat) : Outcome (PSched × AWorld NoopU Unit) :=
  runModel (noopPStepper κ σ hσ loop) none (some maxSteps) fuel (noopPStart κ σ hσ k n iv)

/-- The mesa model of mesa_simulation.py: `num_calls` of the agents, `schedule.steps`, `schedule.time`. -/
structure MesaNoop where
  calls : List Nat
  steps : Nat
deriving DecidableEq, Repr

/-- `RandomActivation.step` of mesa: every agent once, in a random order (benchmarks/noop/mesa_simulation.py:12-15, 30-31); the order does
not matter here, as long as it is a permutation. -/
def MesaNoop.step (order : List Nat) (m : MesaNoop) : MesaNoop :=
  ⟨order.foldl (fun c i => c.modify i (· + 1)) m.calls, m.steps + 1⟩

/-- As an environment for `Simulation`: `order` gives the order in each step. -/
def mesaNoopStepper (order : Nat → List Nat) : Stepper MesaNoop where
  step m := (m.step (order m.steps), false)
  time m := .fin m.steps
  steps m := m.steps
  running _ := true
  noAgents m := m.calls.isEmpty

end Verif
