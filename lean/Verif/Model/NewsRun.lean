import Verif.Model.ExNews
import Verif.Model.Random
import Verif.Model.Timed
import Verif.Model.PQueue

/-!
# Whole simulations of the news example (examples/newsspread/newsspread_sim.py)

The viewers of `Model/ExNews.lean` inside the schedulers. Nobody is added or removed, and the viewers return a state or nothing, so the scheduler is told nothing
(soil/agents/fsm.py:107-131): the next activation is one interval later.
-/

namespace Verif

/-- The model: probabilities, network, and the generator of random numbers; positions of the generator are counted in activations. `key`: the number drawn for the
order in `PQueueActivation`. -/
structure NewsNet where
  P : NewsParams
  adj : Nat → List Nat
  draws : Nat → NewsDraws
  shuf : Nat → List Ref → List Ref × Nat
  shuf_perm : ∀ u l, (shuf u l).1.Perm l
  key : Nat → Rat

/-- The viewers and the position of the generator. -/
structure NewsWorld where
  viewers : List Viewer
  used : Nat
deriving DecidableEq, Repr

/-- The activation of a viewer, see `actViewer`: an exception is not caught. -/
def newsTurn (N : NewsNet) (r : Ref) (w : NewsWorld) : Reply × NewsWorld :=
  (if (actViewer N.P N.adj w.viewers r (N.draws w.used)).2 then .error else .ret none,
    ⟨(actViewer N.P N.adj w.viewers r (N.draws w.used)).1, w.used + 1⟩)

/-- The simulation with the default scheduler (soil/time.py:120-181). -/
def newsHost (N : NewsNet) : Host NewsWorld where
  step r _ w := ((newsTurn N r w).1, [], (newsTurn N r w).2)
  shuffle l w := ((N.shuf w.used l).1, { w with used := (N.shuf w.used l).2 })
  shuffle_perm l w := N.shuf_perm w.used l

/-- The simulation with `PQueueActivation` (soil/time.py:43-118). -/
def newsPHost (N : NewsNet) : PHost NewsWorld where
  step r _ w := ((newsTurn N r w).1, [], (newsTurn N r w).2)
  key _ w := (N.key w.used, { w with used := w.used + 1 })

end Verif
