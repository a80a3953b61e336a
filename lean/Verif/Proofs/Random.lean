import Verif.Model.Random
import Mathlib.Algebra.BigOperators.Group.List.Basic
import Mathlib.Algebra.Order.BigOperators.Group.List
import Mathlib.Tactic.Ring

/-!
# Facts about `bisect` and `choices`
-/

namespace Verif

@[simp] theorem accumulate_length (acc : Rat) (ws : List Rat) : (accumulate acc ws).length = ws.length := by
  induction ws generalizing acc with
  | nil => rfl
  | cons w ws ih => simp [accumulate, ih]

theorem accumulate_getD (ws : List Rat) : ∀ (acc : Rat) (i : Nat), i < ws.length →
    (accumulate acc ws).getD i 0 = acc + (ws.take (i + 1)).sum := by
  induction ws with
  | nil => intro acc i hi; simp at hi
  | cons w ws ih =>
    intro acc i hi
    cases i with
    | zero => simp [accumulate]
    | succ i =>
      simp only [accumulate, List.getD_cons_succ]
      rw [ih _ i (by simpa using hi)]
      simp [List.take_succ_cons]
      ring

theorem accumulate_getLastD (ws : List Rat) (h : ws ≠ []) : (accumulate 0 ws).getLastD 0 = ws.sum := by
  have hpos : 0 < ws.length := List.length_pos_iff.2 h
  have hne : accumulate 0 ws ≠ [] := by
    intro h'
    have := congrArg List.length h'
    rw [accumulate_length] at this
    simp at this
    exact h this
  rw [List.getLastD_eq_getLast?, List.getLast?_eq_getElem?, accumulate_length]
  have := accumulate_getD ws 0 (ws.length - 1) (by omega)
  rw [List.getD_eq_getElem?_getD] at this
  rw [this]
  have : ws.length - 1 + 1 = ws.length := by omega
  rw [this, List.take_length]
  ring

/-- `bisect_right` on a sorted range: the first position whose element is greater than `x`. -/
theorem bisectRight_spec (a : List Rat) (x : Rat) (n : Nat) : ∀ (lo hi : Nat), hi - lo ≤ n → lo ≤ hi →
    (∀ i j, lo ≤ i → i ≤ j → j < hi → a.getD i 0 ≤ a.getD j 0) →
    lo ≤ bisectRight a x lo hi ∧ bisectRight a x lo hi ≤ hi ∧
    (∀ j, lo ≤ j → j < bisectRight a x lo hi → a.getD j 0 ≤ x) ∧
    (∀ j, bisectRight a x lo hi ≤ j → j < hi → x < a.getD j 0) := by
  induction n with
  | zero =>
    intro lo hi h1 h2 _
    have : lo = hi := by omega
    subst this
    rw [bisectRight, if_neg (lt_irrefl _)]
    exact ⟨le_refl _, le_refl _, fun j h1 h2 => by omega, fun j h1 h2 => by omega⟩
  | succ n ih =>
    intro lo hi h1 h2 hs
    by_cases hlt : lo < hi
    · rw [bisectRight, if_pos hlt]
      simp only
      split
      · rename_i hx
        obtain ⟨i1, i2, i3, i4⟩ := ih lo ((lo + hi) / 2) (by omega) (by omega)
          (fun i j hi' hij hj => hs i j hi' hij (by omega))
        refine ⟨i1, by omega, i3, ?_⟩
        intro j hj1 hj2
        rcases Nat.lt_or_ge j ((lo + hi) / 2) with hj | hj
        · exact i4 j hj1 hj
        · exact lt_of_lt_of_le hx (hs _ _ (by omega) hj hj2)
      · rename_i hx
        obtain ⟨i1, i2, i3, i4⟩ := ih ((lo + hi) / 2 + 1) hi (by omega) (by omega)
          (fun i j hi' hij hj => hs i j (by omega) hij hj)
        refine ⟨by omega, i2, ?_, i4⟩
        intro j hj1 hj2
        rcases Nat.lt_or_ge j ((lo + hi) / 2 + 1) with hj | hj
        · exact le_trans (hs j _ hj1 (by omega) (by omega)) (not_lt.1 hx)
        · exact i3 j hj hj2
    · have : lo = hi := by omega
      subst this
      rw [bisectRight, if_neg (lt_irrefl _)]
      exact ⟨le_refl _, le_refl _, fun j h1 h2 => by omega, fun j h1 h2 => by omega⟩

theorem sum_take_mono (ws : List Rat) (hw : ∀ w ∈ ws, 0 ≤ w) (i j : Nat) (h : i ≤ j) :
    (ws.take i).sum ≤ (ws.take j).sum := by
  have h1 : ws.take j = ws.take i ++ (ws.drop i).take (j - i) := by
    rw [← List.take_add]; congr 1; omega
  rw [h1, List.sum_append]
  have h2 : 0 ≤ ((ws.drop i).take (j - i)).sum := by
    apply List.sum_nonneg
    intro x hx
    exact hw x (List.mem_of_mem_drop (List.mem_of_mem_take hx))
  linarith

/-- The index picked by `choices`: the one whose interval of the cumulative weights contains `r * total`. -/
theorem pick_interval (ws : List Rat) (hw : ∀ w ∈ ws, 0 ≤ w) (hs : 0 < ws.sum) (r : Rat) (hr : IsDraw r) :
    pick ws r < ws.length ∧ (ws.take (pick ws r)).sum ≤ r * ws.sum ∧
      r * ws.sum < (ws.take (pick ws r + 1)).sum := by
  have hne : ws ≠ [] := by rintro rfl; simp at hs
  have hlen : 0 < ws.length := List.length_pos_iff.2 hne
  have hget : ∀ i, i < ws.length → (accumulate 0 ws).getD i 0 = (ws.take (i + 1)).sum := by
    intro i hi; rw [accumulate_getD ws 0 i hi]; ring
  obtain ⟨_, i2, i3, i4⟩ := bisectRight_spec (accumulate 0 ws) (r * (accumulate 0 ws).getLastD 0) _ 0
    (ws.length - 1) (le_refl _) (by omega) (fun i j _ hij hj => by
      rw [hget i (by omega), hget j (by omega)]
      exact sum_take_mono ws hw _ _ (by omega))
  have hp : pick ws r = bisectRight (accumulate 0 ws) (r * (accumulate 0 ws).getLastD 0) 0 (ws.length - 1) := rfl
  rw [← hp] at i2 i3 i4
  rw [accumulate_getLastD ws hne] at i3 i4
  refine ⟨by omega, ?_, ?_⟩
  · rcases Nat.eq_zero_or_pos (pick ws r) with h0 | h0
    · rw [h0]; simp; exact mul_nonneg hr.1 hs.le
    · have := i3 (pick ws r - 1) (by omega) (by omega)
      rw [hget _ (by omega)] at this
      have e : pick ws r - 1 + 1 = pick ws r := by omega
      rwa [e] at this
  · rcases Nat.lt_or_ge (pick ws r) (ws.length - 1) with hlt | hge
    · have := i4 (pick ws r) (le_refl _) hlt
      rwa [hget _ (by omega)] at this
    · have e : pick ws r + 1 = ws.length := by omega
      rw [e, List.take_length]
      have := hr.2
      nlinarith

theorem pick_positive (ws : List Rat) (hw : ∀ w ∈ ws, 0 ≤ w) (hs : 0 < ws.sum) (r : Rat) (hr : IsDraw r) :
    ∃ w, ws[pick ws r]? = some w ∧ 0 < w := by
  obtain ⟨h1, h2, h3⟩ := pick_interval ws hw hs r hr
  refine ⟨ws[pick ws r], List.getElem?_eq_getElem h1, ?_⟩
  rw [List.take_succ_eq_append_getElem h1, List.sum_append] at h3
  simp at h3
  linarith

theorem choices_spec {α : Type} (pop : List α) (ws draws : List Rat) (cs : List α) (hw : ∀ w ∈ ws, 0 ≤ w)
    (hd : ∀ r ∈ draws, IsDraw r) (h : choices pop ws draws = some cs) :
    cs.length = draws.length ∧ ∀ c ∈ cs, ∃ (i : Nat) (w : Rat), pop[i]? = some c ∧ ws[i]? = some w ∧ 0 < w := by
  unfold choices at h
  split at h
  · cases h
  · rename_i hc
    rw [not_or, not_or] at hc
    obtain ⟨_, _, hpos⟩ := hc
    rw [not_le] at hpos
    have key : ∀ (l : List Rat) (cs : List α), (∀ r ∈ l, IsDraw r) →
        l.mapM (fun r => pop[pick ws r]?) = some cs →
        cs.length = l.length ∧ ∀ c ∈ cs, ∃ (i : Nat) (w : Rat), pop[i]? = some c ∧ ws[i]? = some w ∧ 0 < w := by
      intro l
      induction l with
      | nil => intro cs _ h; simp at h; subst h; simp
      | cons r l ih =>
        intro cs hl h
        rw [List.mapM_cons] at h
        cases hx : pop[pick ws r]? with
        | none => rw [hx] at h; simp at h
        | some x =>
          cases hm : l.mapM (fun r => pop[pick ws r]?) with
          | none => rw [hx, hm] at h; simp at h
          | some cs' =>
            rw [hx, hm] at h
            simp at h
            subst h
            obtain ⟨g1, g2⟩ := ih cs' (fun r hr => hl r (by simp [hr])) hm
            refine ⟨by simp [g1], ?_⟩
            intro c hc
            rcases List.mem_cons.1 hc with rfl | hc
            · obtain ⟨w, hw1, hw2⟩ := pick_positive ws hw hpos r (hl r (by simp))
              exact ⟨_, w, hx, hw1, hw2⟩
            · exact g2 c hc
    exact key draws cs hd h

/-- `choices` succeeds when there is something to choose from. -/
theorem choices_isSome {α : Type} (pop : List α) (ws draws : List Rat) (hl : ws.length = pop.length)
    (hw : ∀ w ∈ ws, 0 ≤ w) (hs : 0 < ws.sum) (hd : ∀ r ∈ draws, IsDraw r) :
    (choices pop ws draws).isSome = true := by
  have hne : ws ≠ [] := by rintro rfl; simp at hs
  unfold choices
  rw [if_neg (by simp [hl, hne, hs])]
  induction draws with
  | nil => rfl
  | cons r l ih =>
    rw [List.mapM_cons]
    obtain ⟨h1, _, _⟩ := pick_interval ws hw hs r (hd r (by simp))
    rw [List.getElem?_eq_getElem (by rw [← hl]; exact h1)]
    obtain ⟨cs, hcs⟩ := Option.isSome_iff_exists.1 (ih (fun r hr => hd r (by simp [hr])))
    simp [hcs]

end Verif
