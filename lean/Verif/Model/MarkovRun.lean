import Verif.Model.ExMarkov
import Verif.Model.Rounds
import Verif.Model.Lockstep

/-!
# The drivers of examples/markov_chains/markov_sim.py inside the scheduler
-/

namespace Verif

/-- What chance decides: what the `k`-th call of `random.choice` and of `random.choices` draws, and how the scheduler shuffles its buckets. -/
structure Fate where
  pick : Nat → Nat
  draw : Nat → Rat
  order : Nat → List Ref → List Ref
  perm : ∀ k l, (order k l).Perm l

/-- The city and how much has been drawn. -/
structure TownSim where
  town : Town
  used : Nat

/-- What an activation of a driver gives to the scheduler: the generator yields a delay or ends with `return self.delay(0)`
(examples/markov_chains/markov_sim.py:49-50, 66), which the decorator of `step` turns into a number (soil/agents/__init__.py:28-46). -/
def RoamOut.reply : RoamOut → Reply
  | .raises => .error
  | .wait t => .ret (some (.fin t))

/-- An activation of the driver `r`. -/
def TownSim.turn (S : Streets) (gradual : Bool) (F : Fate) (r : Ref) (w : TownSim) : Reply × TownSim :=
  let x := w.town.act S gradual r (F.pick w.used) (F.draw w.used)
  (x.2.reply, ⟨x.1, w.used + 1⟩)

/-- The drivers for the scheduler. `L` is what else there is in the world: nothing, or the `Lockstepper` around the scheduler
(examples/markov_chains/markov_sim.py:101-102), which drivers do not look at. -/
def townHost (L : Type) (S : Streets) (gradual : Bool) (F : Fate) : Host (L × TownSim) where
  step r _ w := let x := w.2.turn S gradual F r; (x.1, [], (w.1, x.2))
  shuffle l w := (F.order w.2.used l, (w.1, { w.2 with used := w.2.used + 1 }))
  shuffle_perm l w := F.perm w.2.used l

/-- `CityEnv.__init__` (examples/markov_chains/markov_sim.py:99-117): the drivers are added to the scheduler at the time 0, and get their
positions. The scheduler may shuffle (the default) or not. -/
def townStart {L : Type} (l : L) (ds : List (Bool × Nat)) (iv : Rat) (sh : Bool) : Sched × L × TownSim :=
  roundsStart ds.length iv sh (l, ⟨Town.init ds, 0⟩)

/-- With `lockstep=True`, the default: the scheduler is wrapped before the drivers are added (examples/markov_chains/markov_sim.py:101-102),
by a `Lockstepper` with the default interval 1. -/
def townLocked (ds : List (Bool × Nat)) (iv : Rat) (sh : Bool) : Sched × Lock × TownSim :=
  townStart (Lock.init (Sched.init (.fin iv) sh) 1) ds iv sh

end Verif
