import Verif.Model.Rounds
import Verif.Model.Builtin
import Verif.Model.PQueue

/-!
# Simulations of the built-in network agents: SISa and independent cascade, inside the scheduler
-/

namespace Verif

/-- The agents of a simulation: their states, their attribute `time_awareness`, and how many random numbers have been drawn from the
generator of the model. -/
structure Pop where
  state : Ref → StateDef
  since : Ref → Time
  used : Nat

/-- What does not change: the neighbours of each agent in the network; the numbers that the generator yields; how it shuffles a list
(and where it is afterwards); subclasses; and the conversion of strings to delays. -/
structure PopNet where
  adj : Ref → List Nat
  draws : Nat → Rat
  shuf : Nat → List Ref → List Ref × Nat
  shuf_perm : ∀ u l, (shuf u l).1.Perm l
  sub : Nat → Nat → Bool
  pf : String → Option Time

/-- The next four random numbers (no step draws more). -/
def PopNet.next (N : PopNet) (u : Nat) : List Rat := [N.draws u, N.draws (u + 1), N.draws (u + 2), N.draws (u + 3)]

/-- The time as a number; agents are never activated at infinity. -/
def Time.num : Time → Rat
  | .fin q => q
  | .inf => 0

/-- What agent `r` sees: the agents of the scheduler with their attributes `state_id` (the name of the state, soil/agents/fsm.py:133-135) and
`time_awareness`, and its neighbours. Simplification: the `unique_id` of agent `r` is `r`. -/
def Pop.around (p : Pop) (N : PopNet) (now : Time) (agents : List Ref) (r : Ref) : Surroundings where
  agents := agents.map (fun a => ⟨a, a, 0, [("state_id", .str (p.state a).name), ("time_awareness", .num (p.since a))], []⟩)
  neighborIds := N.adj r
  now := now.num

/-- `SISaModel` (soil/agents/SISaModel.py:70-110) in `FSM.step` (soil/agents/fsm.py:142-156): the turn of agent `r`, with the parameters `q r` of its own. -/
def sisaTurn (N : PopNet) (q : Ref → SisaParams) (now : Time) (agents : List Ref) (r : Ref) (p : Pop) : Reply × Pop :=
  let d := p.state r
  let v := sisaFn (q r) N.sub (p.around N now agents r) d (N.next p.used)
  let o := fsmOutcome N.pf sisaClass (some d) v.1
  (o.2, { p with state := Function.update p.state r (o.1.getD d), used := p.used + (4 - v.2.length) })

/-- `IndependentCascadeModel` (soil/agents/IndependentCascadeModel.py:14-30): the turn of agent `r`. Becoming aware sets `time_awareness` to
the current time; `sentimentCorrelation` is left out. -/
def cascadeTurn (N : PopNet) (innovation imitation : Rat) (now : Time) (agents : List Ref) (r : Ref) (p : Pop) : Reply × Pop :=
  let d := p.state r
  let v := cascadeFn innovation imitation N.sub (p.around N now agents r) d (N.next p.used)
  let o := fsmOutcome N.pf cascadeClass (some d) v
  (o.2, { state := Function.update p.state r (o.1.getD d),
          since := if d.fn = 1 ∧ (prob innovation (N.next p.used)).1 then Function.update p.since r now else p.since,
          used := p.used + 1 })

/-- A population in the scheduler: `turn` is the code of the agents; the generator of the model shuffles. -/
def popHost (N : PopNet) (turn : Time → List Ref → Ref → Pop → Reply × Pop) : Host Pop where
  step r s p := ((turn s.time s.agents r p).1, [], (turn s.time s.agents r p).2)
  shuffle l p := ((N.shuf p.used l).1, { p with used := (N.shuf p.used l).2 })
  shuffle_perm l p := N.shuf_perm p.used l

/-- The same population with `PQueueActivation` (soil/time.py:43-118); `keys` are the numbers drawn for the order in the queue. -/
def popPHost (keys : Nat → Rat) (turn : Time → List Ref → Ref → Pop → Reply × Pop) : PHost Pop where
  step r s p := ((turn s.time s.agents r p).1, [], (turn s.time s.agents r p).2)
  key _ p := (keys p.used, { p with used := p.used + 1 })

end Verif
