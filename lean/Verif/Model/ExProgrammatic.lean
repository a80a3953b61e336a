import Verif.Model.Rounds
import Verif.Model.FSM

/-!
# The programmatic example (examples/programmatic/programmatic_sim.py)
-/

namespace Verif

/-- The state `neutral` (examples/programmatic/programmatic_sim.py:20-22); `default_state` sets `default` (soil/agents/fsm.py:73-75). -/
def pNeutral : StateDef := ⟨"neutral", true, 1⟩

/-- The class `MyAgent` (examples/programmatic/programmatic_sim.py:18-26). -/
def myAgentCls : FsmClass := mkFsm [fsmRoot 0] [pNeutral]

/-- An agent: `_state` and `times_run`. -/
structure MyAgent where
  state : Option StateDef
  timesRun : Nat
deriving DecidableEq, Repr

/-- The agents, the number of random numbers used by them and by the shuffles, and (ghost) those used by the agents. -/
structure PrWorld where
  agents : List MyAgent
  pos : Nat
  rng : Nat
  used : List Rat
deriving DecidableEq, Repr

/-- The state function `neutral` (examples/programmatic/programmatic_sim.py:22-26): `self.prob(p)` compares a random number with `p` (0.2 in the
example; soil/agents/__init__.py:154-155, 303-315). It returns nothing. -/
def neutralFn (p u : Rat) (a : MyAgent) : MyAgent × Val :=
  (if u < p then { a with timesRun := a.timesRun + 1 } else a, .none)

/-- `FSM.step` of agent `r` (soil/agents/fsm.py:142-156). An agent without state raises. `src` are the random numbers of the agents; simplification:
those of the shuffles (`σ`) come from another source. -/
def myAgentHost (p : Rat) (src : Nat → Rat) (σ : Nat → List Ref → List Ref) (hσ : ∀ n l, (σ n l).Perm l) : Host PrWorld where
  step r _ w := match w.agents[r]? with
    | none => (.error, [], w)
    | some a => match a.state with
      | none => (.error, [], w)
      | some _ =>
        let f := neutralFn p (src w.pos) a
        let o := fsmOutcome (fun _ => none) myAgentCls a.state f.2
        (o.2, [], { w with agents := w.agents.set r { f.1 with state := o.1 }, pos := w.pos + 1, used := w.used ++ [src w.pos] })
  shuffle l w := (σ w.rng l, { w with rng := w.rng + 1 })
  shuffle_perm l w := hσ _ l

/-- A new agent (soil/agents/fsm.py:114-124); `none`: the constructor raises. -/
def newMyAgent : Option MyAgent := (fsmInit myAgentCls .none).map (fun st => ⟨st, 0⟩)

/-- `ProgrammaticEnv.init` (examples/programmatic/programmatic_sim.py:31-35) with a network of `n` nodes (two in the example): `none` if it raises; the
assertion fails for an empty network. -/
def programmaticInit (n : Nat) : Option PrWorld :=
  if n = 0 then none else newMyAgent.map (fun a => ⟨List.replicate n a, 0, 0, []⟩)

end Verif
