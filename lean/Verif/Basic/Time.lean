import Mathlib.Order.Defs.LinearOrder
import Mathlib.Algebra.Order.Ring.Rat
import Mathlib.Tactic.Linarith

/-!
# Simulated time

`soil` keeps time in Python numbers (ints and floats) and uses
`INFINITY = float("inf")` (soil/time.py:16).  We model a time (or a delay) as a
rational number or `+inf`.

Simplifications: no floating-point rounding, no NaN and no `-inf`.
-/

namespace Verif

/-- A simulated time or delay: a number or `INFINITY` (soil/time.py:16). -/
inductive Time where
  | fin (q : Rat)
  | inf
deriving DecidableEq, Repr, Inhabited

namespace Time

/-- Python `a <= b` on numbers including `inf`. -/
def le : Time → Time → Prop
  | _, inf => True
  | inf, fin _ => False
  | fin a, fin b => a ≤ b

/-- Python `a < b` on numbers including `inf`. -/
def lt : Time → Time → Prop
  | inf, _ => False
  | fin _, inf => True
  | fin a, fin b => a < b

instance : LE Time := ⟨le⟩
instance : LT Time := ⟨lt⟩

instance decLe : (a b : Time) → Decidable (a ≤ b)
  | fin a, fin b => inferInstanceAs (Decidable (a ≤ b))
  | fin _, inf => isTrue trivial
  | inf, inf => isTrue trivial
  | inf, fin _ => isFalse (fun h => h)

instance decLt : (a b : Time) → Decidable (a < b)
  | fin a, fin b => inferInstanceAs (Decidable (a < b))
  | fin _, inf => isTrue trivial
  | inf, inf => isFalse (fun h => h)
  | inf, fin _ => isFalse (fun h => h)

/-- Python `a + b` on numbers including `inf` (soil/time.py:100, 172). -/
def add : Time → Time → Time
  | fin a, fin b => fin (a + b)
  | _, _ => inf

instance : Add Time := ⟨add⟩
instance : Zero Time := ⟨fin 0⟩
instance (n : Nat) : OfNat Time n := ⟨fin (n : Rat)⟩

@[simp] theorem zero_def : (0 : Time) = fin 0 := rfl
@[simp] theorem fin_le {a b : Rat} : fin a ≤ fin b ↔ a ≤ b := Iff.rfl
@[simp] theorem fin_lt {a b : Rat} : fin a < fin b ↔ a < b := Iff.rfl
@[simp] theorem le_inf (a : Time) : a ≤ inf := by cases a <;> trivial
@[simp] theorem not_inf_le_fin (q : Rat) : ¬ inf ≤ fin q := fun h => h
@[simp] theorem not_inf_lt (a : Time) : ¬ inf < a := fun h => by cases a <;> exact h
@[simp] theorem fin_lt_inf (q : Rat) : fin q < inf := trivial
@[simp] theorem fin_add (a b : Rat) : fin a + fin b = fin (a + b) := rfl
@[simp] theorem inf_add (a : Time) : inf + a = inf := by cases a <;> rfl
@[simp] theorem add_inf (a : Time) : a + inf = inf := by cases a <;> rfl

instance : LinearOrder Time where
  le_refl a := by cases a <;> simp
  le_trans a b c := by
    cases a <;> cases b <;> cases c <;> simp
    exact fun h1 h2 => le_trans h1 h2
  lt_iff_le_not_ge a b := by
    cases a <;> cases b <;> simp
    exact fun h => le_of_lt h
  le_antisymm a b := by
    cases a <;> cases b <;> simp
    exact fun h1 h2 => le_antisymm h1 h2
  le_total a b := by
    cases a <;> cases b <;> simp
    exact le_total _ _
  toDecidableLE := decLe
  toDecidableEq := inferInstance
  toDecidableLT := decLt

theorem lt_add_of_pos {a d : Time} (h : (0 : Time) < d) (ha : a ≠ inf) : a < a + d := by
  cases a <;> cases d <;> simp_all

theorem le_add_of_nonneg {a d : Time} (h : (0 : Time) ≤ d) : a ≤ a + d := by
  cases a <;> cases d <;> simp_all

theorem add_ne_inf {a b : Time} (h : a + b ≠ inf) : a ≠ inf ∧ b ≠ inf := by
  constructor <;> rintro rfl <;> simp at h

/-- Python truthiness of a number: everything except 0. -/
def truthy (t : Time) : Bool := decide (t ≠ 0)

/-- `x or d` for an optional number (soil/time.py:99, 171): `None` and `0` give the default. -/
def pyOr (x : Option Time) (d : Time) : Time :=
  match x with
  | some t => if t = 0 then d else t
  | none => d

end Time
end Verif
