import Mathlib.Data.List.Basic

/-!
# The generator of networks of an example (examples/custom_generator/generator_sim.py)
-/

namespace Verif

/-- `random.choice(seq)`: `k` is any number, as many as there are elements count; `IndexError` if there is none (`none`). -/
def pyChoice (l : List Nat) (k : Nat) : Option Nat := l[k % l.length]?

/-- An undirected edge, smaller end first. -/
def genEdge (u v : Nat) : Nat × Nat := (min u v, max u v)

/-- `G.add_edge(u, v)` of an undirected simple graph: adding an edge again changes nothing. -/
def genAdd (E : List (Nat × Nat)) (u v : Nat) : List (Nat × Nat) := if genEdge u v ∈ E then E else E ++ [genEdge u v]

/-- The second loop of `mygenerator` (examples/custom_generator/generator_sim.py:17-22), for the nodes `range(n)` (lines 14-15); one
pair of random numbers for each round. `none`: `IndexError`. -/
def mygenLoop (n : Nat) : List (Nat × Nat) → List (Nat × Nat) → Option (List (Nat × Nat))
  | [], E => some E
  | (a, b) :: ds, E =>
    match pyChoice (List.range n) a with
    | none => none
    | some u => match pyChoice ((List.range n).erase u) b with
      | none => none
      | some v => mygenLoop n ds (genAdd E u v)

/-- `mygenerator(n, n_edges)` (examples/custom_generator/generator_sim.py:7-23): the edges; `draws` has `n_edges` elements. The nodes
are `range(n)`. -/
def mygenerator (n : Nat) (draws : List (Nat × Nat)) : Option (List (Nat × Nat)) := mygenLoop n draws []

end Verif
