import Verif.Model.ExNewsRun
import Verif.Props.Env

/-!
# The runs of the news example (C226)
-/

namespace Verif

private theorem newsPick {r1 r2 r : Rat} : pick (newsRatios r1 r2) r =
    if r < r1 + r2 then (if r < r1 then 0 else 1) else 2 := by
  have e : accumulate 0 (newsRatios r1 r2) = [r1, r1 + r2, 1] := by
    simp only [newsRatios, accumulate, zero_add, List.cons.injEq, and_true, true_and]
    linarith
  unfold pick
  rw [e]
  simp only [List.getLastD, newsRatios, List.length_cons, List.length_nil, Nat.zero_add, Nat.reduceAdd, Nat.add_one_sub_one]
  rw [show ([r1, r1 + r2, 1].getLast (by simp) : Rat) = 1 from rfl, mul_one]
  rw [bisectRight]
  simp only [Nat.zero_lt_succ, if_true, List.getD_cons_succ, List.getD_cons_zero]
  by_cases h : r < r1 + r2
  · rw [if_pos (by simpa using h), if_pos h, bisectRight]
    simp only [Nat.lt_add_one, if_true]
    by_cases h2 : r < r1
    · rw [if_pos (by simpa using h2), if_pos h2, bisectRight]; simp
    · rw [if_neg (by simpa using h2), if_neg h2, bisectRight]; simp
  · rw [if_neg (by simpa using h), if_neg h, bisectRight]
    simp

private theorem newsKinds_eq (r1 r2 : Rat) (draws : List Rat) : newsKinds r1 r2 draws = some (draws.map (fun r =>
    if r < r1 + r2 then (if r < r1 then ViewerKind.dumb else .herd) else .wise)) := by
  have hs : ¬ (newsRatios r1 r2).sum ≤ 0 := by
    have : (newsRatios r1 r2).sum = 1 := by
      simp only [newsRatios, List.sum_cons, List.sum_nil]
      linarith
    rw [this]
    decide
  unfold newsKinds choices
  rw [if_neg (by simpa [newsRatios] using hs)]
  induction draws with
  | nil => rfl
  | cons r draws ih =>
    rw [List.mapM_cons, ih, newsPick, List.map_cons]
    by_cases h : r < r1 + r2
    · by_cases h2 : r < r1
      · simp [h, h2]
      · simp [h, h2]
    · simp [h]

/-- C226, if the ratios are not negative: a viewer is dumb, herd or wise exactly if the number drawn for it is in an interval of the length of
the ratio. -/
theorem C226_ratios_partial (r1 r2 : Rat) (h1 : 0 ≤ r1) (h2 : 0 ≤ r2) (h : r1 + r2 ≤ 1) (draws : List Rat) (hd : ∀ r ∈ draws, IsDraw r) :
    ∃ ks, newsKinds r1 r2 draws = some ks ∧ ks.length = draws.length ∧ ∀ (i : Nat) r k, draws[i]? = some r → ks[i]? = some k →
      (k = .dumb ↔ 0 ≤ r ∧ r < r1) ∧ (k = .herd ↔ r1 ≤ r ∧ r < r1 + r2) ∧ (k = .wise ↔ r1 + r2 ≤ r ∧ r < r1 + r2 + (1 - r1 - r2)) := by
  refine ⟨_, newsKinds_eq r1 r2 draws, by simp, ?_⟩
  intro i r k hr hk
  rw [List.getElem?_map, hr, Option.map_some] at hk
  obtain ⟨d1, d2⟩ := hd r (List.mem_of_getElem? hr)
  rw [← Option.some.inj hk]
  by_cases h3 : r < r1 + r2
  · by_cases h4 : r < r1
    · simp only [h3, h4, if_true, reduceCtorEq, true_iff, false_iff, not_and, not_lt, and_true]
      exact ⟨d1, fun h => absurd h (not_le.2 h4), fun h => absurd h (not_le.2 h3)⟩
    · simp only [h3, h4, if_true, if_false, reduceCtorEq, true_iff, false_iff, not_and, not_lt, and_true, and_false]
      exact ⟨trivial, not_lt.1 h4, fun h => absurd h (not_le.2 h3)⟩
  · simp only [h3, if_false, reduceCtorEq, true_iff, false_iff, not_and, not_lt, and_false]
    refine ⟨fun _ => le_trans (by linarith) (not_lt.1 h3), trivial, not_lt.1 h3, by linarith⟩

/-- C226 is violated when the first two ratios are more than 1 together, so that the third one is negative: no exception is raised, nobody is wise,
and of the herd there are only as many as the dumb ones leave: the share `1 - r1` and not `r2`. -/
theorem C226_negative_false (r1 r2 : Rat) (h : 1 < r1 + r2) (draws : List Rat) (hd : ∀ r ∈ draws, IsDraw r) :
    ∃ ks, newsKinds r1 r2 draws = some ks ∧ ks.length = draws.length ∧ (∀ (i : Nat) r k, draws[i]? = some r → ks[i]? = some k →
      (k = .dumb ↔ r < r1) ∧ (k = .herd ↔ r1 ≤ r ∧ r < r1 + (1 - r1)) ∧ k ≠ .wise) ∧ 1 - r1 < r2 := by
  refine ⟨_, newsKinds_eq r1 r2 draws, by simp, ?_, by linarith⟩
  intro i r k hr hk
  rw [List.getElem?_map, hr, Option.map_some] at hk
  obtain ⟨d1, d2⟩ := hd r (List.mem_of_getElem? hr)
  rw [← Option.some.inj hk]
  have h3 : r < r1 + r2 := by linarith
  by_cases h4 : r < r1
  · simp only [h3, h4, if_true, reduceCtorEq, false_iff, not_and, not_lt, ne_eq, not_false_eq_true, and_true]
    exact ⟨trivial, fun h => absurd h (not_le.2 h4)⟩
  · simp only [h3, h4, if_true, if_false, reduceCtorEq, true_iff, ne_eq, not_false_eq_true, and_true]
    exact ⟨trivial, not_lt.1 h4, by linarith⟩

/-- ... which is the case in three of the nine pairs of ratios of the example. -/
theorem C226_pairs_false : newsPairs.filter (fun p => decide (1 < p.1 + p.2)) = [(1 / 2, 1), (1, 1 / 2), (1, 1)] := by decide +kernel

example : newsKinds (1 / 2) 1 [0, 1 / 4, 1 / 2, 99 / 100] = some [.dumb, .dumb, .herd, .herd] ∧
    newsKinds (1 / 2) (1 / 4) [0, 1 / 4, 1 / 2, 99 / 100] = some [.dumb, .dumb, .herd, .wise] ∧
    newsKinds 1 1 [0, 1 / 4, 1 / 2, 99 / 100] = some [.dumb, .dumb, .dumb, .dumb] := by decide +kernel

end Verif
