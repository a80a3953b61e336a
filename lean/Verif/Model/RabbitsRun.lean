import Verif.Model.ExRabbits
import Verif.Model.Rounds
import Verif.Model.Refine

/-!
# The rabbits of examples/rabbits/rabbits_basic_sim.py inside the scheduler
-/

namespace Verif

/-- What chance decides: in the `k`-th activation that draws, the numbers drawn for the females, or for the rabbits in an accident
(examples/rabbits/rabbits_basic_sim.py:77, 150), the number for the size of a litter (line 99), the classes of the babies (line 116), and how the scheduler
shuffles its buckets the `k`-th time. -/
structure RabFate where
  d : Nat → Nat → Rat
  r : Nat → Rat
  sex : Nat → Nat → Bool
  order : Nat → List Ref → List Ref
  perm : ∀ k l, (order k l).Perm l

/-- The rabbits with their network, and how many activations drew numbers. -/
structure RabSim where
  warren : Warren
  used : Nat
deriving DecidableEq, Repr

/-- The rabbit with the number `r` in the schedule: agents are numbered in the order in which they are added, the accident is the third
(examples/rabbits/rabbits_basic_sim.py:10-14). -/
def rabOf (r : Ref) : Nat := if r < 2 then r else r - 1

/-- The number in the schedule of rabbit `i`. -/
def refOf (i : Nat) : Ref := if i < 2 then i else i + 1

/-- What happened to the scheduler while the rabbits `w` became `v`: the new ones were added (soil/environment.py:152-175), the dead ones removed
(soil/agents/__init__.py:232-242). -/
def Warren.changes (w v : Warren) : List SOp :=
  ((List.range v.rabs.length).filter (fun i => w.rabs.length ≤ i)).map (fun i => .add (refOf i) none) ++
    ((List.range w.rabs.length).filter (fun i => w.lives i && !v.lives i)).map (fun i => .remove (refOf i))

/-- `step` of the agent `r`. The accident (examples/rabbits/rabbits_basic_sim.py:137-154) dies if there are no nodes (`return self.die()`, an infinite delay).
A rabbit that is not alive raises `DeadAgent` (soil/agents/fsm.py:143). Otherwise its state is run; a pregnant one that dies returns what `die` gives, an
infinite delay (examples/rabbits/rabbits_basic_sim.py:107, soil/agents/fsm.py:169-171), the state `dead` does not (lines 56-58), and no other state gives a delay. -/
def RabSim.turn (P : RabParams) (F : RabFate) (r : Ref) (w : RabSim) : Reply × List SOp × RabSim :=
  if r = 2 then
    if w.warren.nodes.length = 0 then (.ret (some .inf), [.remove r], w)
    else
      let v := w.warren.accident P (F.d w.used)
      (.ret none, w.warren.changes v, ⟨v, w.used + 1⟩)
  else match w.warren.rabs[rabOf r]? with
    | none => (.dead, [], w)
    | some q =>
      if !q.alive then (.dead, [], w)
      else
        let v := w.warren.act P (rabOf r) (F.d w.used) (F.r w.used) (F.sex w.used)
        (if v.2 then .error else if q.state = .pregnant && !v.1.lives (rabOf r) then .ret (some .inf) else .ret none,
          w.warren.changes v.1, ⟨v.1, w.used + 1⟩)

/-- The agents of the example for a scheduler. -/
def rabCode (P : RabParams) (F : RabFate) : AgentCode RabSim := fun r _ _ _ w => w.turn P F r

/-- The agents of the example in `TimedActivation`. -/
def rabHost (P : RabParams) (F : RabFate) : Host (RabSim × Nat) := (rabCode P F).timed F.order F.perm

/-- `RabbitEnv.init` (examples/rabbits/rabbits_basic_sim.py:10-14): a male, a female, an edge between them, and the accident, added to the scheduler (with the
default interval, 1) at the time 0. -/
def rabStart (sh : Bool) : Sched × RabSim × Nat := roundsStart 3 1 sh (⟨Warren.init, 0⟩, 0)

/-- The parameters of the example (examples/rabbits/rabbits_basic_sim.py:8, 34-35, 62-63, 83); `death` is 10⁻¹⁰⁰. -/
def rabExample : RabParams := ⟨30, 300, 5, 1 / 1000, 10, 1 / 10 ^ 100⟩

end Verif
