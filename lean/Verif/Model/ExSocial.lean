import Verif.Model.ExWealth
import Verif.Model.NetOps
import Verif.Model.Results
import Verif.Model.Rounds

/-!
# Whole simulations of the social wealth model (examples/mesa/social_wealth.py, examples/mesa/mesa_sim.py)

The network, the agents, the scheduler and the collector of data together.
-/

namespace Verif

/-- `graph_generator` (examples/mesa/social_wealth.py:74-78): node 0 with an edge to every node, itself included. -/
def starGraph (n : Nat) : NWorld where
  nodes := (List.range n).map (fun i => (.int i, none))
  edges := (List.range n).map (fun i => (.int 0, .int i))
  directed := false
  agents := []
  sched := []
  nextId := 1

/-- The cells of mesa's `MultiGrid(width, height, False)`. -/
def moneyCells (width height : Nat) : List Square := (List.range width).flatMap (fun x => (List.range height).map (fun y => (x, y)))

/-- mesa `get_neighborhood(pos, moore=True, include_center=False)` in a grid without torus: the cells around one. -/
def mooreCells (width height : Nat) (c : Square) : List Square :=
  (moneyCells width height).filter (fun d => decide (d ≠ c ∧ d.1 ≤ c.1 + 1 ∧ c.1 ≤ d.1 + 1 ∧ d.2 ≤ c.2 + 1 ∧ c.2 ≤ d.2 + 1))

/-- The generator of random numbers of the model: what it yields next (`pick`), and how it shuffles (with where it is afterwards). -/
structure MoneyRng where
  pick : Nat → Nat
  shuf : Nat → List Ref → List Ref × Nat
  shuf_perm : ∀ u l, (shuf u l).1.Perm l

/-- `random.choice(l)`; `none`: `IndexError`, there is nothing to choose from. -/
def MoneyRng.choice {α : Type} (R : MoneyRng) (u : Nat) (l : List α) : Option α := l[R.pick u % l.length]?

/-- The agents and how many random numbers have been drawn. -/
structure MoneyWorld where
  money : Money
  used : Nat

/-- Who is a friend of whom: `get_neighbors` (soil/agents/network_agents.py:29-33). -/
def NWorld.friends (G : NWorld) : MoneyKind := .social (fun i j => decide (j ∈ (G.getNeighbors i).getD []))

/-- `SocialMoneyAgent.step` (examples/mesa/social_wealth.py:48-52, 35-40, 58-71), of agent `r`. Simplifications: the second random number is
skipped if it is not needed; messages are left out. -/
def socialTurn (G : NWorld) (R : MoneyRng) (width height : Nat) (r : Ref) (w : MoneyWorld) : Reply × MoneyWorld :=
  match w.money.pos[r]? with
  | none => (.error, w)
  | some c => match R.choice w.used (mooreCells width height c) with
    | none => (.error, w)
    | some dst => match w.money.move (mooreCells width height) r dst with
      | none => (.error, w)
      | some m1 =>
        if 0 < (m1.wealth[r]?).getD 0 ∧ G.getNeighbors r = none then (.error, ⟨m1, w.used + 1⟩)
        else match w.money.step G.friends (mooreCells width height) r dst ((R.choice (w.used + 1) (G.friends.options m1 r)).getD 0) with
          | none => (.error, ⟨m1, w.used + 2⟩)
          | some m2 => (.ret none, ⟨m2, w.used + 2⟩)

/-- The agents in the scheduler. They are agents of mesa: their `step` is called as it is (soil/time.py:169-177), and returns `None`. -/
def socialHost (G : NWorld) (R : MoneyRng) (width height : Nat) : Host MoneyWorld where
  step r _ w := ((socialTurn G R width height r w).1, [], (socialTurn G R width height r w).2)
  shuffle l w := ((R.shuf w.used l).1, { w with used := (R.shuf w.used l).2 })
  shuffle_perm l w := R.shuf_perm w.used l

/-- The reporter `Gini` (examples/mesa/social_wealth.py:17-22, 110). -/
def giniRep : ModelRep (Sched × MoneyWorld) := fun x =>
  (computeGini (x.1.agents.map (fun r => (((x.2.money.wealth[r]?).getD 0 : Int) : Rat)))).map (fun g => .num (.fin g))

/-- The reporter `Wealth` (examples/mesa/social_wealth.py:110). -/
def wealthRep : AgentRep (Sched × MoneyWorld) Ref := fun x r => (x.2.money.wealth[r]?).map (fun v => .num (.fin ((v : Int) : Rat)))

/-- What mesa's collector looks at. -/
def socialObserved : Observed (Sched × MoneyWorld) Ref where
  agents x := x.1.agents
  key x := x.1.steps

/-- `self.datacollector = DataCollector(…)` (examples/mesa/social_wealth.py:109-111): a collector of mesa, which replaces that of soil. -/
def mesaCollector : Collector (Sched × MoneyWorld) Ref :=
  ((⟨[], [], [], []⟩ : Collector (Sched × MoneyWorld) Ref).newModelReporter "Gini" giniRep).newAgentReporter "Wealth" wealthRep

/-- `MoneyEnv.__init__` (examples/mesa/social_wealth.py:84-111) with the default generator and class of agents; `places` are the results of
`random.randrange`, `picks` those of `random.choices` when agents look for a node. Result: the network and the environment; `none`: there is no
node (`populate_network` raises, C195), or there is no cell (`randrange(0)` raises). -/
def moneyEnv (width height n : Nat) (iv : Rat) (sh : Bool) (picks : Nat → Nat → Nat) (places : Nat → Nat × Nat) :
    Option (NWorld × DataEnv (Sched × MoneyWorld) Ref) :=
  match (starGraph n).populateIgnoring picks with
  | (_, false) => none
  | (G, true) =>
    if width = 0 ∨ height = 0 then none
    else some (G, ⟨roundsStart n iv sh
      ⟨⟨List.replicate n 1, (List.range n).map (fun i => ((places i).1 % width, (places i).2 % height))⟩, 0⟩, mesaCollector⟩)

end Verif
