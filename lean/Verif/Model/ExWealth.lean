import Verif.Basic.Time
import Mathlib.Data.List.Sort
import Mathlib.Data.Rat.Defs
import Mathlib.Algebra.BigOperators.Group.List.Basic

/-!
# Agents that give away money (examples/mesa/wealth.py, examples/mesa/social_wealth.py) and the Gini
coefficient (also examples/markov_chains/markov_sim.py)

Agents are identified with their position in the schedule. Log messages are left out.
-/

namespace Verif

/-- `sum(xi * (N - i) for i, xi in enumerate(x))` (examples/mesa/wealth.py:12). -/
def weighted (N : Nat) (x : List Rat) : Rat := (x.zipIdx.map (fun p => p.1 * ((N : Rat) - (p.2 : Rat)))).sum

/-- `compute_gini` (examples/mesa/wealth.py:8-13, examples/mesa/social_wealth.py:17-22), of the wealths of
the agents; `none`: `ZeroDivisionError`. Rational instead of floating-point numbers. -/
def computeGini (wealths : List Rat) : Option Rat :=
  let x := wealths.insertionSort (· ≤ ·)
  let N := wealths.length
  if (N : Rat) * x.sum = 0 then none
  else
    let B := weighted N x / ((N : Rat) * x.sum)
    some (1 + 1 / (N : Rat) - 2 * B)

/-- `gini` (examples/markov_chains/markov_sim.py:86-95): 0 if everything is 0. (The sum is 0 for an empty list,
so it never raises.) -/
def giniOf (values : List Rat) : Rat :=
  let s := values.sum
  let N := values.length
  if s = 0 then 0
  else
    let x := values.insertionSort (· ≤ ·)
    let B := weighted N x / ((N : Rat) * s)
    1 + 1 / (N : Rat) - 2 * B

/-- A cell of the grid (its coordinates). -/
abbrev Square := Nat × Nat

/-- The agents of a `MoneyModel`/`MoneyEnv`: wealth and position of each. -/
structure Money where
  wealth : List Int
  pos : List Square
deriving DecidableEq, Repr

/-- `grid.get_cell_list_contents([pos])` (mesa): the agents in a cell. -/
def Money.cellmates (m : Money) (c : Square) : List Nat :=
  (List.range m.pos.length).filter (fun j => decide (m.pos[j]? = some c))

/-- `move` (examples/mesa/wealth.py:23-28): `nb` is `grid.get_neighborhood(…, include_center=False)`, `dst` what
`random.choice` returns (one of these cells). -/
def Money.move (nb : Square → List Square) (m : Money) (i : Nat) (dst : Square) : Option Money :=
  match m.pos[i]? with
  | none => none
  | some c => if dst ∈ nb c then some { m with pos := m.pos.set i dst } else none

/-- `other.wealth += 1; self.wealth -= 1` (examples/mesa/wealth.py:34-35). -/
def Money.transfer (m : Money) (i other : Nat) : Money :=
  { m with wealth := (m.wealth.modify other (· + 1)).modify i (· - 1) }

/-- Whom an agent may give money to: for `MoneyAgent` anybody in its cell, itself included, if it is not alone
(examples/mesa/wealth.py:30-33); for `SocialMoneyAgent` its friends in its cell
(examples/mesa/social_wealth.py:58-69). `friends` is the relation given by the network. -/
inductive MoneyKind where
  | plain
  | social (friends : Nat → Nat → Bool)

def MoneyKind.options (k : MoneyKind) (m : Money) (i : Nat) : List Nat :=
  match m.pos[i]? with
  | none => []
  | some c => match k with
    | .plain => if 1 < (m.cellmates c).length then m.cellmates c else []
    | .social fr => (m.cellmates c).filter (fr i)

/-- `step` of agent `i` (examples/mesa/wealth.py:37-40): `dst` and `other` are what `random.choice` returns; `none`
if these values are impossible, or if there is nothing to choose from (`IndexError`). -/
def Money.step (k : MoneyKind) (nb : Square → List Square) (m : Money) (i : Nat) (dst : Square) (other : Nat) : Option Money :=
  match m.move nb i dst with
  | none => none
  | some m1 => match m1.wealth[i]? with
    | none => none
    | some w =>
      if 0 < w then
        if (k.options m1 i).isEmpty then some m1
        else if other ∈ k.options m1 i then some (m1.transfer i other) else none
      else some m1

/-- Any schedule with any choices (those that are possible). -/
def Money.run (k : MoneyKind) (nb : Square → List Square) (m : Money) : List (Nat × Square × Nat) → Option Money
  | [] => some m
  | e :: es => match m.step k nb e.1 e.2.1 e.2.2 with
    | none => none
    | some m' => m'.run k nb es

end Verif
