import Verif.Model.ExVirus
import Verif.Model.RunLoop

/-!
# Whole simulations of the virus on a network

benchmarks/virusonnetwork: the agents of `Verif.Model.ExVirus` inside the default scheduler (`Verif.Model.Timed`), run by
`Simulation._run_model` (`Verif.Model.RunLoop`), and mesa's own scheduler.
-/

namespace Verif

/-- Agents whose step returns either `None` or `at(INFINITY)` and that do not touch the scheduler: `act r w` is the new state of the world and
whether agent `r` returns `at(INFINITY)`, that is a delay of infinity (soil/agents/__init__.py:296-297). `shuf` is
`model.random.shuffle`. -/
def leaveHost {W : Type} (act : Ref → W → W × Bool) (shuf : List Ref → W → List Ref × W) (hs : ∀ l w, (shuf l w).1.Perm l) : Host W where
  step r _ w := (.ret (if (act r w).2 then some .inf else none), [], (act r w).1)
  shuffle := shuf
  shuffle_perm := hs

/-- Where randomness comes from: the numbers drawn in the `n`-th activation, and the `n`-th shuffle. -/
structure VSource where
  draws : Nat → Nat → Rat
  perm : Nat → List Ref → List Ref
  perm_ok : ∀ n l, (perm n l).Perm l

/-- The world of the benchmark: the agents (`S` is `VStat` or `VAgent`), how many activations and shuffles there were, and (ghost) who was
activated with which random numbers. -/
structure VWorld (S : Type) where
  st : List S
  acts : Nat
  shuffles : Nat
  hist : List (Nat × (Nat → Rat))

/-- The beginning. -/
def VWorld.init {S : Type} (st : List S) : VWorld S := ⟨st, 0, 0, []⟩

/-- One activation, for any of the versions. -/
def VWorld.act {S : Type} (f : List S → Nat → (Nat → Rat) → List S × Bool) (src : VSource) (r : Ref) (w : VWorld S) : VWorld S × Bool :=
  ({ w with st := (f w.st r (src.draws w.acts)).1, acts := w.acts + 1, hist := w.hist ++ [(r, src.draws w.acts)] },
    (f w.st r (src.draws w.acts)).2)

/-- `model.random.shuffle`. -/
def VWorld.shuf {S : Type} (src : VSource) (l : List Ref) (w : VWorld S) : List Ref × VWorld S :=
  (src.perm w.shuffles l, { w with shuffles := w.shuffles + 1 })

/-- The agents of `soil_step.py` (benchmarks/virusonnetwork/soil_step.py:64-98) in the scheduler. -/
def virusHost (P : VirusParams) (adj : Nat → List Nat) (src : VSource) : Host (VWorld VStat) :=
  leaveHost (VWorld.act (soilVirusStep P adj) src) (VWorld.shuf src) (fun l w => src.perm_ok w.shuffles l)

/-- The agents of `soil_states.py` (benchmarks/virusonnetwork/soil_states.py:57-89) in the scheduler. -/
def virusStatesHost (P : VirusParams) (adj : Nat → List Nat) (src : VSource) : Host (VWorld VAgent) :=
  leaveHost (VWorld.act (statesVirusStep P adj) src) (VWorld.shuf src) (fun l w => src.perm_ok w.shuffles l)

/-- `VirusOnNetwork.init` and the constructor of the environment (benchmarks/virusonnetwork/soil_step.py:26-38): `st.length` agents are added to a fresh
scheduler with interval 1. -/
def virusStart {S : Type} (H : Host (VWorld S)) (sh : Bool) (st : List S) : Sched × VWorld S :=
  execAll H ((List.range st.length).map (fun r => .op (.add r none))) (Sched.init 1 sh, .init st)

/-- After `k` further steps of the environment. -/
def virusAfter {S : Type} (H : Host (VWorld S)) (sh : Bool) (st : List S) (k : Nat) : Sched × VWorld S :=
  execAll H (List.replicate k .step) (virusStart H sh st)

/-- One step of mesa's version: `RandomActivation.step` activates every agent in the given order (benchmarks/virusonnetwork/mesa_basic.py:111-112). -/
def mesaRound (P : VirusParams) (adj : Nat → List Nat) (st : List VStat) (order : List (Nat × (Nat → Rat))) : List VStat :=
  mesaVirusRun P adj st order

/-- `Simulation(model=VirusOnNetwork, max_steps=m).run()` for one iteration (benchmarks/virusonnetwork/_config.py:8-25), see `runModel`. -/
def virusSimulation {S : Type} (H : Host (VWorld S)) (sh : Bool) (st : List S) (m fuel : Nat) : Outcome (Sched × VWorld S) :=
  runModel (timedStepper H) none (some m) fuel (virusStart H sh st)

end Verif
