import Verif.Model.ExWealth
import Mathlib.Algebra.Order.BigOperators.Group.List
import Mathlib.Algebra.Order.Field.Basic
import Mathlib.Tactic.FieldSimp
import Mathlib.Tactic.Ring

/-!
# Wealth

C125 (conservation), C126 (Gini).
-/

namespace Verif

/-! ### C125 -/

theorem sum_modify_add (l : List Int) (i : Nat) (d : Int) (h : i < l.length) :
    (l.modify i (· + d)).sum = l.sum + d := by
  induction l generalizing i with
  | nil => simp at h
  | cons a l ih =>
    cases i with
    | zero => simp only [List.modify_zero_cons, List.sum_cons]; ring
    | succ i =>
      simp only [List.length_cons, Nat.add_lt_add_iff_right] at h
      simp only [List.modify_succ_cons, List.sum_cons, ih i h]
      ring

theorem Money.mem_cellmates {m : Money} {c : Square} {j : Nat} : j ∈ m.cellmates c ↔ m.pos[j]? = some c := by
  simp only [Money.cellmates, List.mem_filter, List.mem_range, decide_eq_true_eq]
  constructor
  · exact fun h => h.2
  · intro h; exact ⟨(List.getElem?_eq_some_iff.1 h).1, h⟩

theorem MoneyKind.options_cell {k : MoneyKind} {m : Money} {i j : Nat} (h : j ∈ k.options m i) :
    ∃ c, m.pos[i]? = some c ∧ m.pos[j]? = some c ∧ ∀ fr, k = .social fr → fr i j = true := by
  unfold MoneyKind.options at h
  cases hc : m.pos[i]? with
  | none => rw [hc] at h; simp at h
  | some c =>
    rw [hc] at h
    simp only at h
    cases k with
    | plain =>
      simp only at h
      split at h
      · exact ⟨c, rfl, Money.mem_cellmates.1 h, by simp⟩
      · simp at h
    | social fr =>
      simp only [List.mem_filter] at h
      refine ⟨c, rfl, Money.mem_cellmates.1 h.1, ?_⟩
      rintro _ ⟨⟩
      exact h.2

theorem Money.move_spec {nb : Square → List Square} {m m' : Money} {i : Nat} {dst : Square} (h : m.move nb i dst = some m') :
    ∃ c, m.pos[i]? = some c ∧ dst ∈ nb c ∧ m'.wealth = m.wealth ∧ m'.pos = m.pos.set i dst := by
  unfold Money.move at h
  cases hc : m.pos[i]? with
  | none => rw [hc] at h; cases h
  | some c =>
    rw [hc] at h
    simp only at h
    split at h
    · rename_i ht
      cases h
      exact ⟨c, rfl, ht, rfl, rfl⟩
    · cases h

/-- C125 (one step): the agent moves to a cell next to it; then nothing else changes, or it had something and gives one
unit to an agent in its new cell (a friend, for social agents). -/
theorem C125_step {k : MoneyKind} {nb : Square → List Square} {m m' : Money} {i : Nat} {dst : Square} {other : Nat}
    (h : m.step k nb i dst other = some m') :
    (∃ c, m.pos[i]? = some c ∧ dst ∈ nb c) ∧ m'.pos = m.pos.set i dst ∧
      (m'.wealth = m.wealth ∨
        (∃ w, m.wealth[i]? = some w ∧ 0 < w ∧ m'.pos[other]? = some dst ∧ (∀ fr, k = .social fr → fr i other = true) ∧
          m'.wealth = (m.wealth.modify other (· + 1)).modify i (· - 1))) := by
  unfold Money.step at h
  cases hm : m.move nb i dst with
  | none => rw [hm] at h; cases h
  | some m1 =>
    rw [hm] at h
    simp only at h
    obtain ⟨c, h1, h2, h3, h4⟩ := Money.move_spec hm
    refine ⟨⟨c, h1, h2⟩, ?_⟩
    cases hw : m1.wealth[i]? with
    | none => rw [hw] at h; cases h
    | some w =>
      rw [hw] at h
      simp only at h
      split at h
      · rename_i hpos
        split at h
        · cases h; exact ⟨h4, Or.inl h3⟩
        · split at h
          · rename_i ho
            cases h
            obtain ⟨c', e1, e2, e3⟩ := MoneyKind.options_cell ho
            have hi : i < m.pos.length := (List.getElem?_eq_some_iff.1 h1).1
            have : c' = dst := by
              rw [h4, List.getElem?_set_self hi] at e1
              exact (Option.some.inj e1).symm
            subst this
            refine ⟨h4, Or.inr ⟨w, by rw [← h3, hw], hpos, e2, e3, ?_⟩⟩
            simp only [Money.transfer, h3]
          · cases h
      · cases h; exact ⟨h4, Or.inl h3⟩

/-- The wealth and position lists have the same length. -/
def Money.Ok (m : Money) : Prop := m.wealth.length = m.pos.length

theorem getElem?_modify_int (f : Int → Int) (l : List Int) (i j : Nat) :
    (l.modify i f)[j]? = if i = j then l[j]?.map f else l[j]? := by
  rw [List.getElem?_modify]
  by_cases h : i = j
  · simp only [h, if_true]; rfl
  · simp only [h, if_false]; cases l[j]? <;> rfl

theorem Money.step_inv {k : MoneyKind} {nb : Square → List Square} {m m' : Money} {i : Nat} {dst : Square} {other : Nat}
    (hok : m.Ok) (hn : ∀ w ∈ m.wealth, 0 ≤ w) (h : m.step k nb i dst other = some m') :
    m'.Ok ∧ m'.wealth.length = m.wealth.length ∧ m'.wealth.sum = m.wealth.sum ∧ ∀ w ∈ m'.wealth, 0 ≤ w := by
  obtain ⟨⟨c, hc, _⟩, hp, hw⟩ := C125_step h
  have hlen : m'.pos.length = m.pos.length := by rw [hp, List.length_set]
  rcases hw with hw | ⟨w, hw0, hw1, ho, _, hw⟩
  · exact ⟨by rw [Money.Ok, hw, hlen]; exact hok, by rw [hw], by rw [hw], by rw [hw]; exact hn⟩
  · have hi : i < m.wealth.length := (List.getElem?_eq_some_iff.1 hw0).1
    have hol : other < m.wealth.length := by
      rw [hok, ← hlen]; exact (List.getElem?_eq_some_iff.1 ho).1
    refine ⟨by rw [Money.Ok, hw, hlen, List.length_modify, List.length_modify]; exact hok, by rw [hw]; simp, ?_, ?_⟩
    · rw [hw]
      have e : (fun x : Int => x - 1) = (fun x => x + (-1)) := by funext x; ring
      rw [e, sum_modify_add _ _ _ (by simpa using hi), sum_modify_add _ _ _ hol]
      ring
    · intro v hv
      rw [hw] at hv
      obtain ⟨j, hj⟩ := List.mem_iff_getElem?.1 hv
      rw [getElem?_modify_int, getElem?_modify_int] at hj
      cases hmj : m.wealth[j]? with
      | none => rw [hmj] at hj; split at hj <;> split at hj <;> simp at hj
      | some u =>
        have hu : 0 ≤ u := hn u (List.mem_of_getElem? hmj)
        rw [hmj] at hj
        by_cases hij : i = j
        · subst hij
          rw [hw0] at hmj
          cases hmj
          rw [if_pos rfl] at hj
          split at hj <;> simp at hj <;> omega
        · rw [if_neg hij] at hj
          split at hj <;> simp at hj <;> omega

/-- C125: for any grid, any kind of agents, any schedule and any choices, the total wealth does not change, and nobody ever
has less than nothing. -/
theorem C125_conserved {k : MoneyKind} {nb : Square → List Square} {m m' : Money} (hok : m.Ok) (hn : ∀ w ∈ m.wealth, 0 ≤ w)
    (h : List (Nat × Square × Nat)) (hr : m.run k nb h = some m') :
    m'.wealth.sum = m.wealth.sum ∧ (∀ w ∈ m'.wealth, 0 ≤ w) ∧ m'.wealth.length = m.wealth.length := by
  induction h generalizing m with
  | nil => cases hr; exact ⟨rfl, hn, rfl⟩
  | cons e es ih =>
    unfold Money.run at hr
    cases hs : m.step k nb e.1 e.2.1 e.2.2 with
    | none => rw [hs] at hr; cases hr
    | some m1 =>
      rw [hs] at hr
      simp only at hr
      obtain ⟨h1, h2, h3, h4⟩ := Money.step_inv hok hn hs
      obtain ⟨i1, i2, i3⟩ := ih h1 h4 hr
      exact ⟨i1.trans h3, i2, i3.trans h2⟩

/-- C125: nobody leaves the grid. -/
theorem C125_on_grid {k : MoneyKind} {nb : Square → List Square} {m m' : Money} (cells : Square → Prop)
    (hnb : ∀ c d, cells c → d ∈ nb c → cells d) (hp : ∀ c ∈ m.pos, cells c)
    (h : List (Nat × Square × Nat)) (hr : m.run k nb h = some m') : ∀ c ∈ m'.pos, cells c := by
  induction h generalizing m with
  | nil => cases hr; exact hp
  | cons e es ih =>
    unfold Money.run at hr
    cases hs : m.step k nb e.1 e.2.1 e.2.2 with
    | none => rw [hs] at hr; cases hr
    | some m1 =>
      rw [hs] at hr
      simp only at hr
      obtain ⟨⟨c, hc, ht⟩, hp1, _⟩ := C125_step hs
      refine ih ?_ hr
      intro d hd
      rw [hp1] at hd
      rcases List.mem_or_eq_of_mem_set hd with hd | rfl
      · exact hp d hd
      · exact hnb c _ (hp c (List.mem_of_getElem? hc)) ht

/-- On a line of three cells: the second agent gives a unit to the first one, which gives one to its friend. -/
example : Money.run .plain (fun c => [(c.1 + 1, 0), (c.1 - 1, 0)]) ⟨[1, 1, 1], [(0, 0), (1, 0), (2, 0)]⟩
      [(1, (0, 0), 0), (0, (1, 0), 5), (2, (1, 0), 0)] = some ⟨[3, 0, 0], [(1, 0), (0, 0), (1, 0)]⟩ ∧
    Money.run (.social (fun i j => decide (i + j = 2))) (fun c => [(c.1 + 1, 0), (c.1 - 1, 0)])
      ⟨[1, 1, 1], [(0, 0), (1, 0), (2, 0)]⟩ [(0, (1, 0), 1), (2, (1, 0), 0)] =
        some ⟨[2, 1, 0], [(1, 0), (1, 0), (1, 0)]⟩ := by
  decide +kernel

/-! ### C126 -/

/-- Specification: the sum of the absolute differences of all pairs. -/
def Spec.absDiffs (l : List Rat) : Rat := (l.map (fun x => (l.map (fun y => |x - y|)).sum)).sum

/-- Specification: the Gini coefficient is half the relative mean absolute difference. -/
def Spec.gini (l : List Rat) : Rat := Spec.absDiffs l / (2 * l.length * l.sum)

theorem zipIdx_sum (N : Rat) (x : List Rat) (k : Nat) :
    ((x.zipIdx k).map (fun p => p.1 * (N - (p.2 : Rat)))).sum = 
      ((x.zipIdx 0).map (fun p => p.1 * ((N - k) - (p.2 : Rat)))).sum := by
  induction x generalizing k N with
  | nil => rfl
  | cons a x ih =>
    simp only [List.zipIdx_cons, List.map_cons, List.sum_cons]
    rw [ih N (k + 1), ih (N - k) (0 + 1)]
    congr 1
    · push_cast; ring
    · congr 2
      funext p
      push_cast
      ring

theorem weighted_cons (a : Rat) (x : List Rat) :
    weighted (x.length + 1) (a :: x) = a * ((x.length : Rat) + 1) + weighted x.length x := by
  unfold weighted
  simp only [List.zipIdx_cons, List.map_cons, List.sum_cons]
  rw [zipIdx_sum]
  congr 1
  · push_cast; ring
  · congr 2
    funext p
    push_cast
    ring

theorem sum_ge_of_le {a : Rat} {l : List Rat} (h : ∀ x ∈ l, a ≤ x) : (l.length : Rat) * a ≤ l.sum := by
  induction l with
  | nil => simp
  | cons b l ih =>
    have := ih (fun x hx => h x (by simp [hx]))
    have := h b (by simp)
    simp only [List.length_cons, List.sum_cons]
    push_cast
    linarith

theorem sum_abs_of_le {a : Rat} {l : List Rat} (h : ∀ x ∈ l, a ≤ x) :
    (l.map (fun y => |a - y|)).sum = l.sum - (l.length : Rat) * a ∧
    (l.map (fun y => |y - a|)).sum = l.sum - (l.length : Rat) * a := by
  induction l with
  | nil => simp
  | cons b l ih =>
    obtain ⟨i1, i2⟩ := ih (fun x hx => h x (by simp [hx]))
    have hb := h b (by simp)
    simp only [List.map_cons, List.sum_cons, List.length_cons, i1, i2]
    rw [abs_of_nonpos (by linarith : a - b ≤ 0), abs_of_nonneg (by linarith : 0 ≤ b - a)]
    push_cast
    constructor <;> ring

theorem absDiffs_cons (a : Rat) (l : List Rat) :
    Spec.absDiffs (a :: l) =
      (l.map (fun y => |a - y|)).sum + (l.map (fun y => |y - a|)).sum + Spec.absDiffs l := by
  unfold Spec.absDiffs
  simp only [List.map_cons, List.sum_cons, sub_self, abs_zero, zero_add, List.sum_map_add]
  ring

/-- For sorted lists the sum of the differences can be computed with weights. -/
theorem absDiffs_sorted {l : List Rat} (h : l.Pairwise (· ≤ ·)) :
    Spec.absDiffs l = 2 * (((l.length : Rat) + 1) * l.sum - 2 * weighted l.length l) := by
  induction l with
  | nil => simp [Spec.absDiffs, weighted]
  | cons a l ih =>
    obtain ⟨h1, h2⟩ := List.pairwise_cons.1 h
    obtain ⟨s1, s2⟩ := sum_abs_of_le (a := a) (l := l) h1
    rw [absDiffs_cons, s1, s2, ih h2, List.length_cons, weighted_cons, List.sum_cons]
    push_cast
    ring

theorem absDiffs_perm {l l' : List Rat} (h : l.Perm l') : Spec.absDiffs l = Spec.absDiffs l' := by
  unfold Spec.absDiffs
  have h1 : (fun x => (l.map (fun y => |x - y|)).sum) = (fun x => (l'.map (fun y => |x - y|)).sum) := by
    funext x
    exact (h.map _).sum_eq
  rw [h1]
  exact (h.map _).sum_eq

theorem gini_eq {l : List Rat} (hs : l.sum ≠ 0) :
    1 + 1 / (l.length : Rat) - 2 * (weighted l.length (l.insertionSort (· ≤ ·)) / ((l.length : Rat) * l.sum)) =
      Spec.gini l := by
  have hperm := List.perm_insertionSort (· ≤ ·) l
  have hsort : (l.insertionSort (· ≤ ·)).Pairwise (· ≤ ·) := List.pairwise_insertionSort (· ≤ ·) l
  have hd := absDiffs_sorted hsort
  rw [absDiffs_perm hperm, hperm.length_eq, hperm.sum_eq] at hd
  have hn : (l.length : Rat) ≠ 0 := by
    intro h
    have : l = [] := by
      rw [← List.length_eq_zero_iff]
      exact_mod_cast h
    rw [this] at hs
    exact hs rfl
  unfold Spec.gini
  rw [hd]
  field_simp

/-- C126: the number reported by `compute_gini` is the Gini coefficient: the sum of `|x - y|` over all pairs of
agents, divided by `2 N S`; it raises exactly if the total wealth is 0 (in particular without agents). -/
theorem C126_compute_gini (l : List Rat) :
    (l.sum ≠ 0 → computeGini l = some (Spec.gini l)) ∧ (l.sum = 0 → computeGini l = none) := by
  have hsum : (l.insertionSort (· ≤ ·)).sum = l.sum := (List.perm_insertionSort (· ≤ ·) l).sum_eq
  unfold computeGini
  simp only [hsum]
  constructor
  · intro hs
    have hn : (l.length : Rat) ≠ 0 := by
      intro h
      have : l = [] := by
        rw [← List.length_eq_zero_iff]
        exact_mod_cast h
      rw [this] at hs
      exact hs rfl
    rw [if_neg (mul_ne_zero hn hs), gini_eq hs]
  · intro hs
    rw [if_pos (by rw [hs, mul_zero])]

/-- C126: the same for `gini` of the markov chains, which is 0 if the sum is 0. -/
theorem C126_gini (l : List Rat) : giniOf l = if l.sum = 0 then 0 else Spec.gini l := by
  unfold giniOf
  simp only
  split
  · rfl
  · rename_i hs
    exact gini_eq hs

theorem absDiffs_nonneg (l : List Rat) : 0 ≤ Spec.absDiffs l := by
  unfold Spec.absDiffs
  refine List.sum_nonneg ?_
  intro x hx
  obtain ⟨y, _, rfl⟩ := List.mem_map.1 hx
  refine List.sum_nonneg ?_
  intro z hz
  obtain ⟨w, _, rfl⟩ := List.mem_map.1 hz
  exact abs_nonneg _

theorem weighted_ge {l : List Rat} (h : ∀ x ∈ l, 0 ≤ x) : l.sum ≤ weighted l.length l := by
  induction l with
  | nil => simp [weighted]
  | cons a l ih =>
    rw [List.length_cons, weighted_cons, List.sum_cons]
    have h1 := ih (fun x hx => h x (by simp [hx]))
    have h2 := h a (by simp)
    have h3 : (0 : Rat) ≤ l.length := Nat.cast_nonneg _
    nlinarith

/-- For wealths that are not negative the coefficient is between 0 and `1 - 1/N`. -/
theorem gini_bounds (l : List Rat) (h : ∀ x ∈ l, 0 ≤ x) (hs : l.sum ≠ 0) :
    0 ≤ Spec.gini l ∧ Spec.gini l ≤ 1 - 1 / (l.length : Rat) := by
  have hpos : 0 < l.sum := lt_of_le_of_ne (List.sum_nonneg h) (Ne.symm hs)
  have hn : (0 : Rat) < l.length := by
    have : l ≠ [] := by rintro rfl; exact hs rfl
    exact_mod_cast List.length_pos_iff.2 this
  constructor
  · unfold Spec.gini
    have := absDiffs_nonneg l
    positivity
  · rw [← gini_eq hs]
    have hperm := List.perm_insertionSort (· ≤ ·) l
    have hw := weighted_ge (l := l.insertionSort (· ≤ ·)) (fun x hx => h x (hperm.mem_iff.1 hx))
    rw [hperm.length_eq, hperm.sum_eq] at hw
    have hb : 1 / (l.length : Rat) ≤ weighted l.length (l.insertionSort (· ≤ ·)) / ((l.length : Rat) * l.sum) := by
      rw [div_le_div_iff₀ hn (by positivity)]
      nlinarith
    linarith

/-- It is 0 exactly if all have the same. -/
theorem gini_zero_iff (l : List Rat) (h : ∀ x ∈ l, 0 ≤ x) (hs : l.sum ≠ 0) :
    Spec.gini l = 0 ↔ ∀ x ∈ l, ∀ y ∈ l, x = y := by
  have hpos : 0 < l.sum := lt_of_le_of_ne (List.sum_nonneg h) (Ne.symm hs)
  have hn : (0 : Rat) < l.length := by
    have : l ≠ [] := by rintro rfl; exact hs rfl
    exact_mod_cast List.length_pos_iff.2 this
  unfold Spec.gini
  rw [div_eq_zero_iff]
  have hne : ¬ (2 * (l.length : Rat) * l.sum = 0) := by positivity
  constructor
  · rintro (h0 | h0)
    · intro x hx y hy
      unfold Spec.absDiffs at h0
      have h1 := List.all_zero_of_le_zero_le_of_sum_eq_zero (l := l.map (fun x => (l.map (fun y => |x - y|)).sum)) (by
        intro z hz
        obtain ⟨u, _, rfl⟩ := List.mem_map.1 hz
        refine List.sum_nonneg ?_
        intro v hv
        obtain ⟨w, _, rfl⟩ := List.mem_map.1 hv
        exact abs_nonneg _) h0 (List.mem_map.2 ⟨x, hx, rfl⟩)
      have h2 := List.all_zero_of_le_zero_le_of_sum_eq_zero (l := l.map (fun y => |x - y|)) (by
        intro v hv
        obtain ⟨w, _, rfl⟩ := List.mem_map.1 hv
        exact abs_nonneg _) h1 (List.mem_map.2 ⟨y, hy, rfl⟩)
      exact sub_eq_zero.1 (abs_eq_zero.1 h2)
    · exact absurd h0 hne
  · intro he
    left
    unfold Spec.absDiffs
    have : ∀ x ∈ l, (l.map (fun y => |x - y|)).sum = 0 := by
      intro x hx
      have : l.map (fun y => |x - y|) = l.map (fun _ => (0 : Rat)) := by
        refine List.map_congr_left ?_
        intro y hy
        rw [he x hx y hy]
        simp
      rw [this]
      simp
    have e : l.map (fun x => (l.map (fun y => |x - y|)).sum) = l.map (fun _ => (0 : Rat)) :=
      List.map_congr_left this
    rw [e]
    simp

/-- It does not depend on the unit of money. -/
theorem gini_scale (l : List Rat) (c : Rat) (hc : 0 < c) : Spec.gini (l.map (c * ·)) = Spec.gini l := by
  have hsum : ∀ l : List Rat, (l.map (c * ·)).sum = c * l.sum := by
    intro l
    induction l with
    | nil => simp
    | cons a l ih => simp only [List.map_cons, List.sum_cons, ih]; ring
  have hd : Spec.absDiffs (l.map (c * ·)) = c * Spec.absDiffs l := by
    unfold Spec.absDiffs
    rw [← hsum, List.map_map, List.map_map]
    congr 1
    refine List.map_congr_left ?_
    intro x _
    simp only [Function.comp_apply]
    rw [← hsum, List.map_map, List.map_map]
    congr 1
    refine List.map_congr_left ?_
    intro y _
    simp only [Function.comp_apply]
    rw [← mul_sub, abs_mul, abs_of_pos hc]
  unfold Spec.gini
  rw [hd, hsum, List.length_map]
  have : c ≠ 0 := ne_of_gt hc
  by_cases h0 : 2 * (l.length : Rat) * l.sum = 0
  · rw [h0, show 2 * (l.length : Rat) * (c * l.sum) = c * (2 * (l.length : Rat) * l.sum) by ring, h0]
    simp
  · rw [show 2 * (l.length : Rat) * (c * l.sum) = c * (2 * (l.length : Rat) * l.sum) by ring,
      mul_div_mul_left _ _ this]

theorem computeGini_some {l : List Rat} {g : Rat} (h : computeGini l = some g) : l.sum ≠ 0 ∧ g = Spec.gini l := by
  have hs : l.sum ≠ 0 := by
    intro h0
    rw [(C126_compute_gini l).2 h0] at h
    cases h
  rw [(C126_compute_gini l).1 hs] at h
  exact ⟨hs, (Option.some.inj h).symm⟩

/-- C126: for wealths that are not negative the coefficient is between 0 and `1 - 1/N`, and 0 exactly if all have the same. -/
theorem C126_bounds (l : List Rat) (h : ∀ x ∈ l, 0 ≤ x) (g : Rat) (hg : computeGini l = some g) :
    0 ≤ g ∧ g ≤ 1 - 1 / (l.length : Rat) ∧ (g = 0 ↔ ∀ x ∈ l, ∀ y ∈ l, x = y) := by
  obtain ⟨hs, rfl⟩ := computeGini_some hg
  exact ⟨(gini_bounds l h hs).1, (gini_bounds l h hs).2, gini_zero_iff l h hs⟩

/-- C126: it depends neither on the order of the agents nor on the unit of money. -/
theorem C126_invariant (l l' : List Rat) (c : Rat) (hc : 0 < c) (hl : l'.Perm (l.map (c * ·))) :
    computeGini l' = computeGini l := by
  have hsum : ∀ l : List Rat, (l.map (c * ·)).sum = c * l.sum := by
    intro l
    induction l with
    | nil => simp
    | cons a l ih => simp only [List.map_cons, List.sum_cons, ih]; ring
  have e : l'.sum = c * l.sum := by rw [hl.sum_eq, hsum]
  have eg : Spec.gini l' = Spec.gini (l.map (c * ·)) := by
    unfold Spec.gini
    rw [absDiffs_perm hl, hl.sum_eq, hl.length_eq]
  by_cases hs : l.sum = 0
  · rw [(C126_compute_gini l).2 hs, (C126_compute_gini l').2 (by rw [e, hs, mul_zero])]
  · rw [(C126_compute_gini l).1 hs, (C126_compute_gini l').1 (by rw [e]; exact mul_ne_zero (ne_of_gt hc) hs), eg,
      gini_scale l c hc]

/-- C126: the reporter `Gini` of the wealth models never raises and stays between 0 and `1 - 1/N`, whatever happens, if there
is some money to begin with. -/
theorem C126_reported {k : MoneyKind} {nb : Square → List Square} {m m' : Money} (hok : m.Ok) (hn : ∀ w ∈ m.wealth, 0 ≤ w)
    (hs : m.wealth.sum ≠ 0) (h : List (Nat × Square × Nat)) (hr : m.run k nb h = some m') :
    ∃ g, computeGini (m'.wealth.map (fun w : Int => (w : Rat))) = some g ∧ 0 ≤ g ∧ g ≤ 1 - 1 / (m.wealth.length : Rat) := by
  obtain ⟨h1, h2, h3⟩ := C125_conserved hok hn h hr
  have hc : ∀ l : List Int, (l.map (fun w : Int => (w : Rat))).sum = (l.sum : Rat) := by
    intro l
    induction l with
    | nil => simp
    | cons a l ih => simp only [List.map_cons, List.sum_cons, ih]; push_cast; rfl
  have hs' : (m'.wealth.map (fun w : Int => (w : Rat))).sum ≠ 0 := by
    rw [hc, h1]
    exact_mod_cast hs
  have hb := gini_bounds (m'.wealth.map (fun w : Int => (w : Rat))) (by
    intro x hx
    obtain ⟨w, hw, rfl⟩ := List.mem_map.1 hx
    exact_mod_cast h2 w hw) hs'
  refine ⟨_, (C126_compute_gini _).1 hs', hb.1, ?_⟩
  have := hb.2
  rw [List.length_map, h3] at this
  exact this

/-- One agent has everything; everybody has the same; two thirds; nobody has anything. -/
example : computeGini [0, 4, 0] = some (2 / 3) ∧ computeGini [2, 2, 2] = some 0 ∧ computeGini [3, 1] = some (1 / 4) ∧
    computeGini [0, 0] = none ∧ computeGini [] = none ∧ giniOf [0, 0] = 0 ∧ giniOf [] = 0 ∧ giniOf [5, 0] = 1 / 2 := by
  decide +kernel

end Verif
