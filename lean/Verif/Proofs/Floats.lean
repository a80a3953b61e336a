import Verif.Model.Floats
import Mathlib.Algebra.Order.Field.Power
import Mathlib.Tactic.Ring
import Mathlib.Tactic.Positivity
import Mathlib.Tactic.FieldSimp
import Mathlib.Data.Rat.Floor

/-!
# Rounding to binary64
-/

namespace Verif

theorem pow2_zpow (e : Int) : pow2 e = (2 : Rat) ^ e := by
  cases e with
  | ofNat n => simp [pow2]
  | negSucc n => simp [pow2, Rat.mkRat_eq_div, zpow_negSucc]

theorem pow2_pos (e : Int) : 0 < pow2 e := by rw [pow2_zpow]; positivity

theorem pow2_add (a b : Int) : pow2 (a + b) = pow2 a * pow2 b := by
  simp only [pow2_zpow]; exact zpow_add₀ (by norm_num) a b

theorem pow2_le {a b : Int} : pow2 a ≤ pow2 b ↔ a ≤ b := by
  simp only [pow2_zpow]; exact zpow_le_zpow_iff_right₀ (by norm_num)

theorem pow2_lt {a b : Int} : pow2 a < pow2 b ↔ a < b := by
  simp only [pow2_zpow]; exact zpow_lt_zpow_iff_right₀ (by norm_num)

theorem pow2_nat (n : Nat) : pow2 n = ((2 ^ n : Nat) : Rat) := rfl

theorem floor_spec (x : Rat) : (x.floor : Rat) ≤ x ∧ x < x.floor + 1 := by
  have h : x.floor = ⌊x⌋ := rfl
  rw [h]
  exact ⟨Int.floor_le x, Int.lt_floor_add_one x⟩

theorem le_floor_iff (z : Int) (x : Rat) : z ≤ x.floor ↔ (z : Rat) ≤ x := by
  have h : x.floor = ⌊x⌋ := rfl
  rw [h]
  exact Int.le_floor

theorem rne_mono {x y : Rat} (h : x ≤ y) : rne x ≤ rne y := by
  have hf : x.floor ≤ y.floor := (le_floor_iff _ _).2 (le_trans (floor_spec x).1 h)
  have hx : rne x ≤ x.floor + 1 := by
    unfold rne; simp only; split_ifs <;> omega
  have hy : y.floor ≤ rne y := by
    unfold rne; simp only; split_ifs <;> omega
  rcases lt_or_eq_of_le hf with hlt | heq
  · omega
  · unfold rne
    simp only [heq]
    split_ifs <;> first | omega | (exfalso; linarith)

theorem rne_int (n : Int) : rne (n : Rat) = n := by
  have h : (n : Rat).floor = n := by
    have : (n : Rat).floor = ⌊(n : Rat)⌋ := rfl
    rw [this, Int.floor_intCast]
  unfold rne
  simp [h]

theorem le_rne {n : Int} {x : Rat} (h : (n : Rat) ≤ x) : n ≤ rne x := by
  have := rne_mono h
  rwa [rne_int] at this

theorem rne_le {n : Int} {x : Rat} (h : x ≤ (n : Rat)) : rne x ≤ n := by
  have := rne_mono h
  rwa [rne_int] at this

/-! ### Exponents -/

theorem ilog2_spec {q : Rat} (h : 0 < q) : pow2 (ilog2 q) ≤ q ∧ q < pow2 (ilog2 q + 1) := by
  have hnum : 0 < q.num := Rat.num_pos.2 h
  obtain ⟨n, hn⟩ : ∃ n : Nat, q.num = n := ⟨q.num.toNat, by omega⟩
  have hn0 : n ≠ 0 := by omega
  have hd0 : q.den ≠ 0 := q.den_nz
  have hnat : q.num.toNat = n := by omega
  have hq : q = (n : Rat) / (q.den : Rat) := by
    have this := (Rat.num_div_den q).symm
    rw [hn, Int.cast_natCast] at this
    exact this
  have hdpos : (0 : Rat) < q.den := by positivity
  have n1 : ((2 ^ (Nat.log2 n) : Nat) : Rat) ≤ n := by exact_mod_cast Nat.log2_self_le hn0
  have n2 : (n : Rat) < ((2 ^ (Nat.log2 n + 1) : Nat) : Rat) := by exact_mod_cast Nat.lt_log2_self
  have d1 : ((2 ^ (Nat.log2 q.den) : Nat) : Rat) ≤ q.den := by exact_mod_cast Nat.log2_self_le hd0
  have d2 : (q.den : Rat) < ((2 ^ (Nat.log2 q.den + 1) : Nat) : Rat) := by exact_mod_cast Nat.lt_log2_self
  rw [← pow2_nat] at n1 n2 d1 d2
  have hup : q < pow2 ((Nat.log2 n : Int) - Nat.log2 q.den + 1) := by
    have e1 : pow2 ((Nat.log2 n : Int) - Nat.log2 q.den + 1) * pow2 (Nat.log2 q.den : Nat) = pow2 ((Nat.log2 n + 1 : Nat)) := by
      rw [← pow2_add]; congr 1; push_cast; ring
    rw [hq, div_lt_iff₀ hdpos, ← hq]
    calc (n : Rat) < pow2 ((Nat.log2 n + 1 : Nat)) := n2
      _ = pow2 ((Nat.log2 n : Int) - Nat.log2 q.den + 1) * pow2 (Nat.log2 q.den : Nat) := e1.symm
      _ ≤ _ := mul_le_mul_of_nonneg_left d1 (le_of_lt (pow2_pos _))
  have hlow : pow2 ((Nat.log2 n : Int) - Nat.log2 q.den - 1) ≤ q := by
    have e1 : pow2 ((Nat.log2 n : Int) - Nat.log2 q.den - 1) * pow2 (Nat.log2 q.den + 1 : Nat) = pow2 ((Nat.log2 n : Nat)) := by
      rw [← pow2_add]; congr 1; push_cast; ring
    rw [hq, le_div_iff₀ hdpos, ← hq]
    calc pow2 ((Nat.log2 n : Int) - Nat.log2 q.den - 1) * q.den
        ≤ pow2 ((Nat.log2 n : Int) - Nat.log2 q.den - 1) * pow2 (Nat.log2 q.den + 1 : Nat) :=
          mul_le_mul_of_nonneg_left (le_of_lt d2) (le_of_lt (pow2_pos _))
      _ = pow2 ((Nat.log2 n : Nat)) := e1
      _ ≤ n := n1
  unfold ilog2
  simp only [hnat]
  split
  · next hle => exact ⟨hle, hup⟩
  · next hlt =>
    refine ⟨hlow, ?_⟩
    rw [Int.sub_add_cancel]
    exact not_le.1 hlt

theorem ilog2_unique {q : Rat} (h : 0 < q) {k : Int} (h1 : pow2 k ≤ q) (h2 : q < pow2 (k + 1)) : ilog2 q = k := by
  obtain ⟨a, b⟩ := ilog2_spec h
  have c1 := pow2_lt.1 (lt_of_le_of_lt a h2)
  have c2 := pow2_lt.1 (lt_of_le_of_lt h1 b)
  omega

theorem ilog2_mono {a b : Rat} (ha : 0 < a) (h : a ≤ b) : ilog2 a ≤ ilog2 b := by
  have h1 := (ilog2_spec ha).1
  have h2 := (ilog2_spec (lt_of_lt_of_le ha h)).2
  have := pow2_lt.1 (lt_of_le_of_lt (le_trans h1 h) h2)
  omega

theorem ilog2_lt {q : Rat} (h : 0 < q) {k : Int} (hk : q < pow2 k) : ilog2 q < k :=
  pow2_lt.1 (lt_of_le_of_lt (ilog2_spec h).1 hk)

theorem ulpExp_pos {q : Rat} (h : 0 < q) : ulpExp q = max (ilog2 q - 52) (-1074) := by
  rw [ulpExp, if_neg (ne_of_gt h), abs_of_pos h]

theorem ulpExp_mono {a b : Rat} (ha : 0 ≤ a) (h : a ≤ b) : ulpExp a ≤ ulpExp b := by
  rcases eq_or_lt_of_le ha with h0 | h0
  · rw [← h0, ulpExp, if_pos rfl]
    rcases eq_or_lt_of_le (le_trans ha h) with h1 | h1
    · rw [← h1, ulpExp, if_pos rfl]
    · rw [ulpExp_pos h1]; exact le_max_right _ _
  · rw [ulpExp_pos h0, ulpExp_pos (lt_of_lt_of_le h0 h)]
    have := ilog2_mono h0 h
    omega

/-! ### Rounding -/

/-- Multiples of the distance are not rounded. -/
theorem round53_exact {q : Rat} {m k : Int} (hq : q = m * pow2 k) (hk : ulpExp q ≤ k) : round53 q = q := by
  obtain ⟨j, hj⟩ : ∃ j : Nat, k = ulpExp q + j := ⟨(k - ulpExp q).toNat, by omega⟩
  have hp := pow2_pos (ulpExp q)
  have hdiv : q / pow2 (ulpExp q) = ((m * 2 ^ j : Int) : Rat) := by
    rw [div_eq_iff (ne_of_gt hp)]
    conv_lhs => rw [hq, hj, pow2_add]
    rw [pow2_nat]
    push_cast
    ring
  rw [round53, hdiv, rne_int, ← hdiv, div_mul_cancel₀ _ (ne_of_gt hp)]

theorem round53_zero : round53 0 = 0 := round53_exact (m := 0) (k := ulpExp 0) (by simp) (le_refl _)

/-- A multiple of the distance is not crossed. -/
theorem round53_le {q c : Rat} {m : Int} (h : q ≤ c) (hc : c = m * pow2 (ulpExp q)) : round53 q ≤ c := by
  have hp := pow2_pos (ulpExp q)
  rw [round53, hc]
  refine mul_le_mul_of_nonneg_right ?_ (le_of_lt hp)
  have : q / pow2 (ulpExp q) ≤ (m : Rat) := by rw [div_le_iff₀ hp, ← hc]; exact h
  exact_mod_cast rne_le this

theorem le_round53 {q c : Rat} {m : Int} (h : c ≤ q) (hc : c = m * pow2 (ulpExp q)) : c ≤ round53 q := by
  have hp := pow2_pos (ulpExp q)
  rw [round53, hc]
  refine mul_le_mul_of_nonneg_right ?_ (le_of_lt hp)
  have : (m : Rat) ≤ q / pow2 (ulpExp q) := by rw [le_div_iff₀ hp, ← hc]; exact h
  exact_mod_cast le_rne this

theorem pow2_multiple {k u : Int} (h : u ≤ k) : ∃ m : Int, pow2 k = m * pow2 u := by
  obtain ⟨j, hj⟩ : ∃ j : Nat, k = j + u := ⟨(k - u).toNat, by omega⟩
  refine ⟨2 ^ j, ?_⟩
  rw [hj, pow2_add, pow2_nat]
  push_cast
  rfl

theorem round53_nonneg {q : Rat} (h : 0 ≤ q) : 0 ≤ round53 q := le_round53 (m := 0) h (by simp)

/-- Rounding is monotone. -/
theorem round53_mono {a b : Rat} (ha : 0 ≤ a) (h : a ≤ b) : round53 a ≤ round53 b := by
  rcases eq_or_lt_of_le ha with h0 | h0
  · rw [← h0, round53_zero]; exact round53_nonneg (le_trans ha h)
  have hb : 0 < b := lt_of_lt_of_le h0 h
  rcases eq_or_lt_of_le (ulpExp_mono ha h) with he | hlt
  · rw [round53, round53, he]
    have hp := pow2_pos (ulpExp b)
    refine mul_le_mul_of_nonneg_right ?_ (le_of_lt hp)
    have : a / pow2 (ulpExp b) ≤ b / pow2 (ulpExp b) := div_le_div_of_nonneg_right h (le_of_lt hp)
    exact_mod_cast rne_mono this
  · rw [ulpExp_pos h0, ulpExp_pos hb] at hlt
    have hexp : ilog2 a < ilog2 b := by omega
    have h1 : a < pow2 (ilog2 b) := lt_of_lt_of_le (ilog2_spec h0).2 (pow2_le.2 (by omega))
    obtain ⟨m1, hm1⟩ := pow2_multiple (k := ilog2 b) (u := ulpExp a) (by rw [ulpExp_pos h0]; omega)
    obtain ⟨m2, hm2⟩ := pow2_multiple (k := ilog2 b) (u := ulpExp b) (by rw [ulpExp_pos hb]; omega)
    exact le_trans (round53_le (le_of_lt h1) hm1) (le_round53 (ilog2_spec hb).1 hm2)

/-- What is rounded is a floating-point number. -/
theorem round53_idem {q : Rat} (h : 0 ≤ q) : round53 (round53 q) = round53 q := by
  rcases eq_or_lt_of_le h with h0 | h0
  · rw [← h0, round53_zero, round53_zero]
  rcases eq_or_lt_of_le (round53_nonneg h) with hr | hr
  · rw [← hr, round53_zero]
  -- the largest value is the next power of two
  have hu := ulpExp_pos h0
  have htop : q ≤ pow2 (53 + ulpExp q) := by
    refine le_trans (le_of_lt (ilog2_spec h0).2) (pow2_le.2 ?_)
    omega
  obtain ⟨m, hm⟩ := pow2_multiple (k := 53 + ulpExp q) (u := ulpExp q) (by omega)
  have hle := round53_le htop hm
  rcases eq_or_lt_of_le hle with he | hlt
  · have hlog : ilog2 (round53 q) = 53 + ulpExp q := by
      apply ilog2_unique hr
      · rw [he]
      · rw [he]; exact pow2_lt.2 (by omega)
    apply round53_exact (m := 1) (k := 53 + ulpExp q)
    · rw [he]; simp
    · rw [ulpExp_pos hr, hlog]; omega
  · have hlog := ilog2_lt hr hlt
    apply round53_exact (m := rne (q / pow2 (ulpExp q))) (k := ulpExp q)
    · rfl
    · rw [ulpExp_pos hr]; omega

/-- The next floating-point number. -/
theorem round53_next {t : Rat} (h : 0 ≤ t) (ht : round53 t = t) : round53 (t + pow2 (ulpExp t)) = t + pow2 (ulpExp t) := by
  have hp := pow2_pos (ulpExp t)
  have hm : t = rne (t / pow2 (ulpExp t)) * pow2 (ulpExp t) := ht.symm
  have hs : t + pow2 (ulpExp t) = ((rne (t / pow2 (ulpExp t)) + 1 : Int) : Rat) * pow2 (ulpExp t) := by
    push_cast
    rw [add_mul, one_mul, ← hm]
  have hspos : 0 < t + pow2 (ulpExp t) := by linarith
  rcases eq_or_lt_of_le h with h0 | h0
  · -- the smallest positive number
    subst h0
    have hz : ulpExp 0 = -1074 := by simp [ulpExp]
    apply round53_exact (m := 1) (k := -1074)
    · rw [hz]; simp
    · rw [ulpExp_pos hspos]
      have : ilog2 (0 + pow2 (ulpExp 0)) = -1074 := by
        apply ilog2_unique hspos
        · rw [hz]; simp
        · rw [hz, zero_add]; exact pow2_lt.2 (by omega)
      omega
  by_cases hle : ulpExp (t + pow2 (ulpExp t)) ≤ ulpExp t
  · exact round53_exact hs hle
  · -- the next number is a power of two
    have hle := not_le.1 hle
    rw [ulpExp_pos hspos, ulpExp_pos h0] at hle
    have hlogs : ilog2 t + 1 ≤ ilog2 (t + pow2 (ulpExp t)) := by rw [ulpExp_pos h0]; omega
    have hge : pow2 (ilog2 t + 1) ≤ t + pow2 (ulpExp t) := le_trans (pow2_le.2 hlogs) (ilog2_spec hspos).1
    have hbig : ulpExp t ≤ ilog2 t + 1 := by
      have : pow2 (ulpExp t) ≤ t := by
        have h1 : 0 < rne (t / pow2 (ulpExp t)) := by
          by_contra hcon
          have : (rne (t / pow2 (ulpExp t)) : Rat) ≤ 0 := by exact_mod_cast not_lt.1 hcon
          have := mul_nonpos_of_nonpos_of_nonneg this (le_of_lt hp)
          linarith
        have h2 : (1 : Rat) ≤ rne (t / pow2 (ulpExp t)) := by exact_mod_cast h1
        calc pow2 (ulpExp t) = 1 * pow2 (ulpExp t) := (one_mul _).symm
          _ ≤ rne (t / pow2 (ulpExp t)) * pow2 (ulpExp t) := mul_le_mul_of_nonneg_right h2 (le_of_lt hp)
          _ = t := hm.symm
      have := pow2_lt.1 (lt_of_le_of_lt this (ilog2_spec h0).2)
      omega
    obtain ⟨j, hj⟩ := pow2_multiple hbig
    have hlt := (ilog2_spec h0).2
    have hle2 : t + pow2 (ulpExp t) ≤ pow2 (ilog2 t + 1) := by
      rw [hj, hs]
      refine mul_le_mul_of_nonneg_right ?_ (le_of_lt hp)
      have : (rne (t / pow2 (ulpExp t)) : Rat) < j := by
        by_contra hcon
        have := mul_le_mul_of_nonneg_right (not_lt.1 hcon) (le_of_lt hp)
        rw [← hj, ← hm] at this
        linarith
      have : rne (t / pow2 (ulpExp t)) < j := by exact_mod_cast this
      exact_mod_cast this
    have heq : t + pow2 (ulpExp t) = pow2 (ilog2 t + 1) := le_antisymm hle2 hge
    have hlog : ilog2 (t + pow2 (ulpExp t)) = ilog2 t + 1 := by
      apply ilog2_unique hspos
      · rw [heq]
      · rw [heq]; exact pow2_lt.2 (by omega)
    apply round53_exact (m := 1) (k := ilog2 t + 1)
    · rw [heq]; simp
    · rw [ulpExp_pos hspos, hlog]
      rw [ulpExp_pos h0] at hbig
      omega

/-- Adding at least the distance to the next number changes a number. -/
theorem round53_progress {t d : Rat} (h : 0 ≤ t) (ht : round53 t = t) (hd : pow2 (ulpExp t) ≤ d) : t < round53 (t + d) := by
  have hp := pow2_pos (ulpExp t)
  have h1 : t + pow2 (ulpExp t) ≤ round53 (t + d) := by
    rw [← round53_next h ht]
    exact round53_mono (by linarith) (by linarith)
  linarith

/-- Integers up to `2 ** 53` are floating-point numbers. -/
theorem round53_nat {n : Int} (h0 : 0 ≤ n) (h : n ≤ 2 ^ 53) : round53 (n : Rat) = n := by
  rcases eq_or_lt_of_le h0 with hz | hz
  · subst hz; simpa using round53_zero
  have hpos : (0 : Rat) < n := by exact_mod_cast hz
  rcases eq_or_lt_of_le h with he | hlt
  · apply round53_exact (m := 1) (k := 53)
    · rw [he]; rw [show (53 : Int) = ((53 : Nat) : Int) from rfl, pow2_nat]; norm_num
    · rw [ulpExp_pos hpos]
      have : ilog2 (n : Rat) < 54 := by
        apply ilog2_lt hpos
        rw [he, show (54 : Int) = ((54 : Nat) : Int) from rfl, pow2_nat]; norm_num
      omega
  · apply round53_exact (m := n) (k := 0)
    · rw [show (0 : Int) = ((0 : Nat) : Int) from rfl, pow2_nat]; simp
    · rw [ulpExp_pos hpos]
      have : ilog2 (n : Rat) < 53 := by
        apply ilog2_lt hpos
        rw [show (53 : Int) = ((53 : Nat) : Int) from rfl, pow2_nat]
        exact_mod_cast hlt
      omega

end Verif
