import Mathlib.Algebra.Order.Ring.Rat
import Mathlib.Tactic.Linarith

/-!
# The parts of Python's `random` and `bisect` that soil uses

Randomness is an explicit list of draws: every theorem holds for every draw. Simplification: rational numbers
instead of floats.
-/

namespace Verif

/-- `itertools.accumulate(weights)`, starting from `acc`. -/
def accumulate : Rat → List Rat → List Rat
  | _, [] => []
  | acc, w :: ws => (acc + w) :: accumulate (acc + w) ws

/-- `bisect.bisect_right(a, x, lo, hi)`. -/
def bisectRight (a : List Rat) (x : Rat) (lo hi : Nat) : Nat :=
  if lo < hi then
    let mid := (lo + hi) / 2
    if x < a.getD mid 0 then bisectRight a x lo mid else bisectRight a x (mid + 1) hi
  else lo
termination_by hi - lo
decreasing_by all_goals omega

/-- One index of `random.choices(population, weights, k)` for the draw `r = random()`. -/
def pick (weights : List Rat) (r : Rat) : Nat :=
  let cum := accumulate 0 weights
  bisectRight cum (r * cum.getLastD 0) 0 (weights.length - 1)

/-- `random.choices(population, weights=weights, k=len(draws))`; `none`: `ValueError` or `IndexError`. -/
def choices {α : Type} (population : List α) (weights : List Rat) (draws : List Rat) : Option (List α) :=
  if weights.length ≠ population.length ∨ weights = [] ∨ weights.sum ≤ 0 then none
  else draws.mapM (fun r => population[pick weights r]?)

/-- `prob(p, random)` (soil/agents/__init__.py:303-315): one draw, compared with `p`. -/
def prob (p : Rat) (draws : List Rat) : Bool × List Rat :=
  match draws with
  | [] => (false, [])
  | r :: rest => (decide (r < p), rest)

/-- A result of `random.random()`. -/
def IsDraw (r : Rat) : Prop := 0 ≤ r ∧ r < 1

end Verif
