import Verif.Model.ExSocial

/-!
# Whole simulations of mesa's wealth model (examples/mesa/wealth.py)

`MoneyModel` is a model of mesa with mesa's `RandomActivation`, `MultiGrid` and `DataCollector`; mesa is not part of `/repo`, what it does is a specification.
-/

namespace Verif

deriving instance DecidableEq, Repr for MoneyWorld

/-- mesa `get_neighborhood(pos, moore=True, include_center=False)` on a torus (examples/mesa/wealth.py:24-26): the cells around one, across the borders; each cell
once, and not the cell itself. -/
def torusMoore (width height : Nat) (c : Square) : List Square :=
  (((List.range 3).flatMap (fun dx => (List.range 3).map (fun dy => ((c.1 + width + dx - 1) % width, (c.2 + height + dy - 1) % height)))).eraseDups).filter
    (fun d => decide (d ≠ c))

/-- `MoneyAgent.step` (examples/mesa/wealth.py:23-40) of agent `r`; `none`: `random.choice` raises `IndexError`. Simplification: the second random number is skipped if it
is not needed. -/
def plainTurn (R : MoneyRng) (nb : Square → List Square) (r : Ref) (w : MoneyWorld) : Option MoneyWorld :=
  match w.money.pos[r]? with
  | none => none
  | some c => match R.choice w.used (nb c) with
    | none => none
    | some dst => match w.money.move nb r dst with
      | none => none
      | some m1 => match w.money.step .plain nb r dst ((R.choice (w.used + 1) (MoneyKind.plain.options m1 r)).getD 0) with
        | none => none
        | some m2 => some ⟨m2, w.used + 2⟩

/-- `for agent in self.agent_buffer(shuffled=True): agent.step()` of mesa's `RandomActivation` (examples/mesa/wealth.py:67). -/
def wealthTurns (R : MoneyRng) (nb : Square → List Square) : List Ref → MoneyWorld → Option MoneyWorld
  | [], w => some w
  | r :: l, w => match plainTurn R nb r w with
    | none => none
    | some w' => wealthTurns R nb l w'

/-- The model (examples/mesa/wealth.py:43-63): the agents, `schedule.time` (which is `schedule.steps`), and what the collector has recorded: the Gini coefficient and the
wealth of all agents, one row for each call. -/
structure WealthModel where
  world : MoneyWorld
  time : Nat
  rows : List (Rat × List Int)
deriving DecidableEq, Repr

/-- `MoneyModel.step` (examples/mesa/wealth.py:65-67): first `collect`, then `schedule.step`. `none`: an exception, in `compute_gini` (examples/mesa/wealth.py:8-13), or
of an agent. -/
def WealthModel.step (R : MoneyRng) (nb : Square → List Square) (s : WealthModel) : Option WealthModel :=
  match computeGini (s.world.money.wealth.map (fun v : Int => (v : Rat))) with
  | none => none
  | some g =>
    match wealthTurns R nb (R.shuf s.world.used (List.range s.world.money.wealth.length)).1
        { s.world with used := (R.shuf s.world.used (List.range s.world.money.wealth.length)).2 } with
    | none => none
    | some w => some ⟨w, s.time + 1, s.rows ++ [(g, s.world.money.wealth)]⟩

/-- The loop of mesa's `BatchRunner` (examples/mesa/wealth.py:75-83): `k` steps, as `running` stays true (examples/mesa/wealth.py:50). -/
def wealthRun (R : MoneyRng) (nb : Square → List Square) : Nat → WealthModel → Option WealthModel
  | 0, s => some s
  | k + 1, s => match s.step R nb with
    | none => none
    | some s' => wealthRun R nb k s'

/-- `MoneyModel.__init__` (examples/mesa/wealth.py:46-63): `places` are the results of `random.randrange`; `none`: `randrange(0)` raises. -/
def wealthInit (width height n : Nat) (places : Nat → Nat × Nat) : Option WealthModel :=
  if 0 < n ∧ (width = 0 ∨ height = 0) then none
  else some ⟨⟨⟨List.replicate n 1, (List.range n).map (fun i => ((places i).1 % width, (places i).2 % height))⟩, 0⟩, 0, []⟩

/-- What `BatchRunner` reports of a simulation (examples/mesa/wealth.py:81, 85-87): the Gini coefficient at the end. -/
def WealthModel.reported (s : WealthModel) : Option Rat := computeGini (s.world.money.wealth.map (fun v : Int => (v : Rat)))

end Verif
