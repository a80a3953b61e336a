import Verif.Model.Rounds
import Verif.Model.ExPubs
import Verif.Model.PQueue

/-!
# Whole simulations of the pub crawl (examples/pubcrawl/pubcrawl_sim.py) in the scheduler
-/

namespace Verif

/-- The simulation: the city, and how many activations of patrons and shuffles of the scheduler there have been, which tells where the generator of
random numbers is. -/
structure Crawl where
  city : City
  used : Nat
deriving DecidableEq

/-- The generator of random numbers of the model: how it shuffles the list of possible friends in an activation
(examples/pubcrawl/pubcrawl_sim.py:148), the number that each friend draws in that activation (line 138), and how it shuffles the agents for the
scheduler (soil/time.py:112-113). -/
structure CrawlNet where
  shuf : Nat → List Nat → List Nat
  shuf_perm : ∀ u l, (shuf u l).Perm l
  draw : Nat → Nat → Rat
  order : Nat → List Ref → List Ref
  order_perm : ∀ u l, (order u l).Perm l

/-- The turn of an agent: the police is the first agent that is added (examples/pubcrawl/pubcrawl_sim.py:25), patron `i` is agent `i + 1`
(lines 26-27). -/
def crawlAct (N : CrawlNet) (r : Ref) (w : Crawl) : Crawl :=
  match r with
  | 0 => { w with city := w.city.police }
  | i + 1 => { city := w.city.patronStep i (N.shuf w.used) (N.draw w.used), used := w.used + 1 }

/-- The agents in the scheduler: all states return another state or nothing (examples/pubcrawl/pubcrawl_sim.py:77-123, 168-176), so that `FSM.step`
(soil/agents/fsm.py:142-156) returns `None`. -/
def crawlHost (N : CrawlNet) : Host Crawl where
  step r _ w := (.ret none, [], crawlAct N r w)
  shuffle l w := (N.order w.used l, { w with used := w.used + 1 })
  shuffle_perm l w := N.order_perm w.used l

/-- The example (examples/pubcrawl/pubcrawl_sim.py:179-193) with pubs of the given capacities and patrons with the given openness and `max_pints`:
the network has no edges in the beginning (`nx.empty_graph`). -/
def crawlStart (caps : List Nat) (ps : List (Rat × Nat)) (iv : Rat) (sh : Bool) : Sched × Crawl :=
  roundsStart (ps.length + 1) iv sh ⟨City.init caps ps [], 0⟩

/-- The agents with `PQueueActivation` (soil/time.py:43-118); `keys` are the numbers drawn for the order in the queue. -/
def crawlPHost (N : CrawlNet) (keys : Nat → Rat) : PHost Crawl where
  step r _ w := (.ret none, [], crawlAct N r w)
  key _ w := (keys w.used, { w with used := w.used + 1 })

end Verif
