import Verif.Model.FloatLock
import Verif.Props.Floats
import Verif.Props.Lockstep
import Mathlib.Tactic.Ring
import Mathlib.Tactic.Linarith
import Mathlib.Tactic.Positivity

/-!
# `Lockstepper` with the numbers of Python (C206)
-/

namespace Verif
open Spec

variable {W : Type}

/-! ### The loop -/

private theorem nexecAll_steps (H : NHost W) (n : Nat) (sw : NSched × W) (hd : (List (Cmd W))) :
    nexecAll H (hd ++ List.replicate n .step) sw = nexecAll H (List.replicate n .step) (nexecAll H hd sw) := by
  simp only [nexecAll, List.foldl_append]

/-- A loop that ends has made some number of steps, each of them at a time before the end. -/
theorem nlockLoop_done {H : NHost W} {end_ : Num} {fuel : Nat} {sw sw' : NSched × W} (h : nlockLoop H end_ fuel sw = .done sw') :
    end_.val ≤ sw'.1.time.val ∧ ∃ n, sw' = nexecAll H (List.replicate n .step) sw ∧
      ∀ m < n, (nexecAll H (List.replicate m .step) sw).1.time.val < end_.val := by
  induction fuel generalizing sw with
  | zero =>
    unfold nlockLoop at h
    split at h
    · cases h
    · rename_i hlt
      cases h
      exact ⟨not_lt.1 hlt, 0, rfl, by simp⟩
  | succ fuel ih =>
    unfold nlockLoop at h
    split at h
    · rename_i hlt
      simp only at h
      split at h
      · cases h
      · obtain ⟨h1, n, h2, h3⟩ := ih h
        refine ⟨h1, n + 1, h2, ?_⟩
        intro m hm
        cases m with
        | zero => exact hlt
        | succ m => exact h3 m (by omega)
    · rename_i hlt
      cases h
      exact ⟨not_lt.1 hlt, 0, rfl, by simp⟩

/-- C206: as long as no delay of an agent is lost by rounding, a `Lockstepper.step` that returns takes its clock to the sum as Python computes it, leaves the
wrapped scheduler at a time not before it, has run only activations due before it and has left none of them pending.
Missing: delays that are lost (`C203_stall_false`). -/
theorem C206_interval_partial (H : NHost (NLock × W)) (iv : Num) (hiv : 0 < iv.val) (sh : Bool) (w0 : NLock × W)
    (h : List (Cmd (NLock × W))) (fuel : Nat) (x' : NSched × NLock × W)
    (hstep : nlockStep H fuel (nreach H iv sh w0 h) = .done x') (hp : ∀ e ∈ x'.1.log, Advances iv e) :
    x'.2.1.time = (nreach H iv sh w0 h).2.1.time.add (nreach H iv sh w0 h).2.1.interval ∧
    x'.2.1.time.val ≤ x'.1.time.val ∧
    (∃ evs, x'.1.log = (nreach H iv sh w0 h).1.log ++ evs ∧ ∀ e ∈ evs, e.time.val < x'.2.1.time.val) ∧
    (∀ p ∈ ncal iv x'.1.log, x'.2.1.time.val ≤ p.2) := by
  unfold nlockStep at hstep
  simp only at hstep
  cases hl : nlockLoop H ((nreach H iv sh w0 h).2.1.time.add (nreach H iv sh w0 h).2.1.interval) fuel (nreach H iv sh w0 h) with
  | raised y => rw [hl] at hstep; cases hstep
  | running y => rw [hl] at hstep; cases hstep
  | done y =>
    rw [hl] at hstep
    obtain ⟨hle, n, hy, hlt⟩ := nlockLoop_done hl
    simp only [Outcome.done.injEq] at hstep
    subst hstep
    simp only at hp ⊢
    generalize (nreach H iv sh w0 h).2.1.time.add (nreach H iv sh w0 h).2.1.interval = E at *
    have hreach : ∀ m, nexecAll H (List.replicate m .step) (nreach H iv sh w0 h) = nreach H iv sh w0 (h ++ List.replicate m .step) :=
      fun m => (nexecAll_steps H m _ h).symm
    refine ⟨trivial, hle, ?_, ?_⟩
    · subst hy
      clear hl hle
      rw [hreach] at hp ⊢
      induction n with
      | zero => exact ⟨[], by simp⟩
      | succ n ih =>
        have hsp : h ++ List.replicate (n + 1) Cmd.step = (h ++ List.replicate n Cmd.step) ++ [Cmd.step] := by
          rw [List.replicate_succ', List.append_assoc]
        rw [hsp] at hp ⊢
        obtain ⟨evs2, he2, ht2⟩ := nstep_times H iv hiv sh w0 (h ++ List.replicate n Cmd.step) hp
        obtain ⟨evs, he, ht⟩ := ih (fun m hm => hlt m (by omega)) (fun e hm => hp e (by rw [he2]; exact List.mem_append_left _ hm))
        have hlt' := hlt n (by omega)
        rw [hreach] at hlt'
        refine ⟨evs ++ evs2, ?_, ?_⟩
        · rw [← List.append_assoc, ← he]
          exact he2
        · intro e hm
          rcases List.mem_append.1 hm with hm | hm
          · exact ht e hm
          · rw [ht2 e hm]; exact hlt'
    · intro p hm
      rw [hy, hreach] at hp hm hle
      exact hle.trans (ncal_le H iv hiv sh w0 _ hp p hm)

/-! ### The clock -/

/-- User code that leaves the attributes of the lockstepper alone. -/
def KeepsLock (H : NHost (NLock × W)) : Prop := (∀ r s w, (H.step r s w).2.2.1 = w.1) ∧ ∀ l w, (H.shuffle l w).2.1 = w.1

theorem nlockLoop_lock {H : NHost (NLock × W)} (hH : KeepsLock H) {end_ : Num} {fuel : Nat} {sw sw' : NSched × NLock × W}
    (h : nlockLoop H end_ fuel sw = .done sw') : sw'.2.1 = sw.2.1 := by
  have hbucket : ∀ (now : Num) (b : List Ref) (s : NSched) (w : NLock × W), (nrunBucket H now b s w).2.1.1 = w.1 := by
    intro now b
    induction b with
    | nil => intro s w; rfl
    | cons r b ih =>
      intro s w
      simp only [nrunBucket]
      split
      · exact hH.1 r s w
      · rw [ih]; exact hH.1 r s w
      · rw [ih]; exact hH.1 r s w
  have hstep : ∀ (s : NSched) (w : NLock × W), (s.step H w).2.1.1 = w.1 := by
    intro s w
    unfold NSched.step
    split
    · rfl
    · split
      · rfl
      · have e : ∀ res : NSched × (NLock × W) × Bool, (nfinishStep res).2.1 = res.2.1 := by
          intro res; unfold nfinishStep; split <;> rfl
        simp only [e, hbucket]
        unfold nrunOrder
        split
        · exact hH.2 _ _
        · rfl
  induction fuel generalizing sw with
  | zero =>
    unfold nlockLoop at h
    split at h
    · cases h
    · cases h; rfl
  | succ fuel ih =>
    unfold nlockLoop at h
    split at h
    · simp only at h
      split at h
      · cases h
      · rw [ih h]; exact hstep _ _
    · cases h; rfl

theorem nlockStep_lock {H : NHost (NLock × W)} (hH : KeepsLock H) {fuel : Nat} {x y : NSched × NLock × W} (h : nlockStep H fuel x = .done y) :
    y.2.1 = ⟨x.2.1.time.add x.2.1.interval, x.2.1.steps + 1, x.2.1.interval⟩ := by
  unfold nlockStep at h
  simp only at h
  cases hll : nlockLoop H (x.2.1.time.add x.2.1.interval) fuel x with
  | raised z => rw [hll] at h; cases h
  | running z => rw [hll] at h; cases h
  | done z =>
    rw [hll] at h
    have hz := nlockLoop_lock hH hll
    simp only [Outcome.done.injEq] at h
    subst h
    simp only [hz]

/-- The clock after `n` steps: the interval is added `n` times, with rounding each time. -/
def addTimes (t q : Num) : Nat → Num
  | 0 => t
  | n + 1 => (addTimes t q n).add q

private theorem addTimes_first (t q : Num) (n : Nat) : addTimes (t.add q) q n = addTimes t q (n + 1) := by
  induction n with
  | zero => rfl
  | succ n ih => simp only [addTimes] at ih ⊢; rw [ih]

theorem nlockRun_lock {H : NHost (NLock × W)} (hH : KeepsLock H) {fuel : Nat} (n : Nat) {x y : NSched × NLock × W} (h : nlockRun H fuel n x = .done y) :
    y.2.1 = ⟨addTimes x.2.1.time x.2.1.interval n, x.2.1.steps + n, x.2.1.interval⟩ := by
  induction n generalizing x with
  | zero => cases h; rfl
  | succ n ih =>
    simp only [nlockRun] at h
    cases hl : nlockStep H fuel x with
    | raised z => rw [hl] at h; cases h
    | running z => rw [hl] at h; cases h
    | done z =>
      rw [hl] at h
      rw [ih h, nlockStep_lock hH hl]
      simp only [addTimes_first, NLock.mk.injEq, and_true, true_and]
      omega

/-- C206: with integers the clock is exact: `n` steps of a new `Lockstepper` take it to exactly `n` intervals later, however late.
Missing: floating-point intervals (`C206_early_false`). -/
theorem C206_integers_partial (H : NHost (NLock × W)) (hH : KeepsLock H) (s : NSched) (w : W) (t q : Int) (ht : s.time = .int t)
    (fuel n : Nat) (x' : NSched × NLock × W) (h : nlockRun H fuel n (s, NLock.init s (.int q), w) = .done x') :
    x'.2.1 = ⟨.int (t + n * q), n, .int q⟩ := by
  rw [nlockRun_lock hH n h]
  simp only [NLock.init, ht, NLock.mk.injEq, Nat.zero_add, and_true]
  clear h
  induction n with
  | zero => simp [addTimes]
  | succ n ih =>
    simp only [addTimes, ih, Num.add]
    push_cast
    ring_nf

/-- C206: if the interval is a multiple of `2 ** -j` (a half, a quarter, ...), and so is the time at the beginning, the clock is exact up to `2 ** (53 - j)`.
Missing: other intervals, such as 0.1 (`C206_early_false`). -/
theorem C206_dyadic_partial (H : NHost (NLock × W)) (hH : KeepsLock H) (s : NSched) (w : W) (iv : Num) (t q : Rat) (j : Nat) (hj : j ≤ 1074)
    (ht : s.time.val = .fin t) (hq : iv.val = .fin q) (ht0 : 0 ≤ t) (hq0 : 0 ≤ q) (htg : ∃ m : Int, t = m * pow2 (-j)) (hqg : ∃ m : Int, q = m * pow2 (-j))
    (fuel n : Nat) (hn : t + n * q < pow2 (53 - j)) (x' : NSched × NLock × W) (h : nlockRun H fuel n (s, NLock.init s iv, w) = .done x') :
    x'.2.1.time.val = .fin (t + n * q) ∧ x'.2.1.steps = n := by
  rw [nlockRun_lock hH n h]
  simp only [NLock.init, Nat.zero_add, and_true]
  clear h
  induction n with
  | zero => simp [addTimes, ht]
  | succ n ih =>
    have hn' : t + n * q < pow2 (53 - j) := by
      push_cast at hn
      nlinarith
    have ih := ih hn'
    simp only [addTimes]
    have hg : OnGrid j (addTimes s.time iv n).val := by
      rw [ih]
      refine ⟨by positivity, ?_⟩
      obtain ⟨a, ha⟩ := htg
      obtain ⟨b, hb⟩ := hqg
      exact ⟨a + n * b, by rw [ha, hb]; push_cast; ring⟩
    have hsum : (addTimes s.time iv n).val + iv.val = .fin (t + (n + 1 : Nat) * q) := by
      rw [ih, hq]
      show Time.fin _ = Time.fin _
      congr 1
      push_cast
      ring
    rw [add_grid hj hg (by rw [hq]; exact ⟨hq0, hqg⟩) (Or.inr (by rw [hsum, Time.fin_lt]; exact hn)), hsum]

theorem rne_error (x : Rat) : |(rne x : Rat) - x| ≤ 1 / 2 := by
  obtain ⟨h1, h2⟩ := floor_spec x
  unfold rne
  simp only
  rw [abs_le]
  split_ifs <;> push_cast <;> constructor <;> linarith

theorem round53_error (q : Rat) : |round53 q - q| ≤ pow2 (ulpExp q - 1) := by
  have hp := pow2_pos (ulpExp q)
  have h := rne_error (q / pow2 (ulpExp q))
  have he : round53 q - q = (rne (q / pow2 (ulpExp q)) - q / pow2 (ulpExp q)) * pow2 (ulpExp q) := by
    rw [round53, sub_mul, div_mul_cancel₀ _ (ne_of_gt hp)]
  have h2 : pow2 (ulpExp q - 1) = 1 / 2 * pow2 (ulpExp q) := by
    have h3 : pow2 (-1) = 1 / 2 := by rw [pow2_zpow]; norm_num
    rw [sub_eq_add_neg, pow2_add, mul_comm, h3]
  rw [he, abs_mul, abs_of_pos hp, h2]
  exact mul_le_mul_of_nonneg_right h (le_of_lt hp)

/-- A sum below `2 ** k` is off by at most `2 ** (k - 54)`. -/
theorem add_error {k : Nat} (hk : k ≤ 53) {x y : Num} {a b : Rat} (hx : x.val = .fin a) (hy : y.val = .fin b) (ha : 0 ≤ a) (hb : 0 ≤ b)
    (hlt : a + b < pow2 k) : ∃ c, (x.add y).val = .fin c ∧ |c - (a + b)| ≤ pow2 (k - 54) ∧ 0 ≤ c := by
  have hk53 : pow2 (k : Int) ≤ pow2 (53 - (0 : Nat)) := pow2_le.2 (by omega)
  have h1 := toFloat_grid (j := 0) (by omega) hx ha (by linarith)
  have h2 := toFloat_grid (j := 0) (by omega) hy hb (by linarith)
  have hsum0 : 0 ≤ a + b := add_nonneg ha hb
  have hbound : pow2 (ulpExp (a + b) - 1) ≤ pow2 ((k : Int) - 54) := by
    rw [pow2_le]
    rcases eq_or_lt_of_le hsum0 with hz | hz
    · rw [← hz, ulpExp, if_pos rfl]; omega
    · rw [ulpExp_pos hz]
      have := ilog2_lt hz hlt
      omega
  have herr := le_trans (round53_error (a + b)) hbound
  have hnot : ¬ pow2 1024 ≤ round53 (a + b) := by
    have h3 : round53 (a + b) ≤ round53 (pow2 (53 : Nat)) := round53_mono hsum0 (by
      have : pow2 (k : Int) ≤ pow2 (53 : Nat) := pow2_le.2 (by omega)
      linarith)
    have h4 : round53 (pow2 (53 : Nat)) = pow2 (53 : Nat) := by
      rw [pow2_nat]
      exact_mod_cast round53_nat (n := 2 ^ 53) (by norm_num) (le_refl _)
    have h5 : pow2 (53 : Nat) < pow2 1024 := pow2_lt.2 (by norm_num)
    intro h6
    linarith
  unfold Num.add
  split
  · next n m =>
    injection hx with hx; injection hy with hy
    refine ⟨a + b, ?_, by simpa using le_of_lt (pow2_pos _), hsum0⟩
    show Time.fin _ = Time.fin _
    rw [← hx, ← hy]; push_cast; rfl
  · rw [h1, h2]
    simp only [fl, if_neg hnot]
    exact ⟨_, rfl, herr, round53_nonneg hsum0⟩

/-- C206: in general the clock drifts: below `2 ** k` each step adds an error of at most `2 ** (k - 54)`. Missing: that there is no error (`C206_early_false`). -/
theorem C206_drift_partial (H : NHost (NLock × W)) (hH : KeepsLock H) (s : NSched) (w : W) (iv : Num) (t q : Rat) (k : Nat) (hk : k ≤ 53)
    (ht : s.time.val = .fin t) (hq : iv.val = .fin q) (ht0 : 0 ≤ t) (hq0 : 0 ≤ q) (fuel n : Nat) (hn : t + n * (q + pow2 (k - 54)) < pow2 k)
    (x' : NSched × NLock × W) (h : nlockRun H fuel n (s, NLock.init s iv, w) = .done x') :
    ∃ c, x'.2.1.time.val = .fin c ∧ |c - (t + n * q)| ≤ n * pow2 (k - 54) ∧ x'.2.1.steps = n := by
  rw [nlockRun_lock hH n h]
  simp only [NLock.init, Nat.zero_add, and_true]
  clear h
  have hp := pow2_pos ((k : Int) - 54)
  suffices ∃ c, (addTimes s.time iv n).val = .fin c ∧ |c - (t + n * q)| ≤ n * pow2 (k - 54) ∧ 0 ≤ c by
    obtain ⟨c, h1, h2, _⟩ := this; exact ⟨c, h1, h2⟩
  induction n with
  | zero => exact ⟨t, ht, by simp, ht0⟩
  | succ n ih =>
    push_cast at hn
    obtain ⟨c, hc, he, hc0⟩ := ih (by nlinarith)
    have hle := abs_le.1 he
    obtain ⟨d, hd, hde, hd0⟩ := add_error hk hc hq hc0 hq0 (by nlinarith)
    refine ⟨d, hd, ?_, hd0⟩
    have hde' := abs_le.1 hde
    rw [abs_le]
    push_cast
    constructor <;> nlinarith

theorem nadd_comm (x y : Num) : x.add y = y.add x := by
  have key : ∀ u v : Num, (match u, v with
      | .flt a, .flt b => Num.ofTime (fl (a + b))
      | _, _ => Num.inf) = (match v, u with
      | .flt a, .flt b => Num.ofTime (fl (a + b))
      | _, _ => Num.inf) := by
    intro u v
    cases u <;> cases v <;> first | rfl | (simp only; rw [add_comm])
  cases hx : x <;> cases hy : y <;> first
    | rfl
    | (simp only [Num.add]; rw [add_comm])
    | (rw [← hx, ← hy]; have := key x.toFloat y.toFloat; rw [hx, hy] at this ⊢; exact this)

/-- C206: the clock advances with every step as long as it is below `2 ** k` and the interval is at least `2 ** (k - 53)`.
Missing: later times (`C206_stall_false`). -/
theorem C206_advances_partial (H : NHost (NLock × W)) (hH : KeepsLock H) (k : Nat) (hk : k ≤ 53) (fuel : Nat) (x x' : NSched × NLock × W)
    (ht : x.2.1.time.IsPy) (hq : x.2.1.interval.IsPy) (hlt : x.2.1.time.val < .fin (pow2 k)) (hle : .fin (pow2 (k - 53)) ≤ x.2.1.interval.val)
    (h : nlockStep H fuel x = .done x') : x.2.1.time.val < x'.2.1.time.val ∧ x'.2.1.time.IsPy := by
  rw [nlockStep_lock hH h]
  simp only
  rw [nadd_comm]
  exact ⟨add_advances hk hq ht hle hlt, add_isPy hq ht⟩

/-! ### Examples and violations -/

/-- Agents wait 0.3. -/
private def lockHost : NHost (NLock × Unit) where
  step _ _ w := (.ret (some f03), [], w)
  shuffle l w := (l, w)
  shuffle_perm l _ := List.Perm.refl l

private theorem lockHost_keeps : KeepsLock lockHost := ⟨fun _ _ _ => rfl, fun _ _ => rfl⟩

/-- A scheduler with one agent. -/
private def lockStart : NSched × NLock × Unit := nreach lockHost (.int 1) false (⟨.int 0, 0, f01⟩, ()) [.op (.add 0 none)]

set_option maxRecDepth 100000 in
example : (nlockStep lockHost 10 lockStart).returned (fun x' => decide ((∀ e ∈ x'.1.log, Advances (.int 1) e) ∧ x'.2.1.time = f01 ∧ x'.1.time = f03 ∧
    nactRefs x'.1.log = [0])) = true := by decide +kernel

set_option maxRecDepth 100000 in
/-- The hypotheses of `C206_dyadic_partial` for steps of 1/4, and those of `C206_drift_partial` for steps of 0.1. -/
example : ((nlockRun lockHost 10 9 (lockStart.1, NLock.init lockStart.1 (.flt (1 / 4)), ())).returned (fun x' =>
      decide (x'.2.1.time = .flt (9 / 4) ∧ x'.2.1.steps = 9 ∧ nactRefs x'.1.log = List.replicate 8 0)) = true ∧
    (0 : Rat) + 9 * (1 / 4) < pow2 (53 - (2 : Nat))) ∧
    ((nlockRun lockHost 10 10 (lockStart.1, NLock.init lockStart.1 f01, ())).returned (fun x' =>
      decide (x'.2.1.time.val < .fin 1 ∧ x'.2.1.steps = 10)) = true ∧
    (0 : Rat) + 10 * (3602879701896397 / 36028797018963968 + pow2 ((1 : Nat) - 54)) < pow2 (1 : Nat)) := by decide +kernel

set_option maxRecDepth 100000 in
/-- With the interval 2, an integer; and the hypotheses of `C206_advances_partial`. -/
example : (nlockRun lockHost 30 4 (lockStart.1, NLock.init lockStart.1 (.int 2), ())).returned (fun x' =>
      decide (x'.2.1 = ⟨.int 8, 4, .int 2⟩ ∧ (nactRefs x'.1.log).length = 27)) = true ∧
    lockStart.2.1.time.IsPy ∧ lockStart.2.1.interval.IsPy ∧ lockStart.2.1.time.val < .fin (pow2 (40 : Nat)) ∧
    .fin (pow2 ((40 : Nat) - 53)) ≤ lockStart.2.1.interval.val := by
  refine ⟨by decide +kernel, show (0 : Int) ≤ 0 by decide, ⟨?_, ?_⟩, by decide +kernel, by decide +kernel⟩ <;> decide +kernel

set_option maxRecDepth 100000 in
/-- C206, violation: three steps of 0.1 run an agent that is due at 0.3, which is not before the end of the third interval. -/
theorem C206_early_false : ∃ (H : NHost (NLock × Unit)) (s : NSched) (x' : NSched × NLock × Unit), KeepsLock H ∧
    s = (nreach H (.int 1) false (⟨.int 0, 0, f01⟩, ()) [.op (.add 0 none)]).1 ∧
    nlockRun H 10 3 (s, NLock.init s f01, ()) = .done x' ∧
    x'.1.log = [.added 0 (.int 0), .act 0 (.int 0) (.ret (some f03)), .act 0 f03 (.ret (some f03))] ∧
    f03.val = fl (3 / 10) ∧ f03.val < x'.2.1.time.val ∧ x'.2.1.steps = 3 := by
  have h : (nlockRun lockHost 10 3 (lockStart.1, NLock.init lockStart.1 f01, ())).returned (fun x' => decide (
      x'.1.log = [.added 0 (.int 0), .act 0 (.int 0) (.ret (some f03)), .act 0 f03 (.ret (some f03))] ∧
      f03.val = fl (3 / 10) ∧ f03.val < x'.2.1.time.val ∧ x'.2.1.steps = 3)) = true := by decide +kernel
  obtain ⟨x', h1, h2⟩ := Outcome.returned_iff h
  exact ⟨lockHost, _, x', lockHost_keeps, rfl, h1, of_decide_eq_true h2⟩

/-- Agents wait `2.0 ** 53`. -/
private def lateHost : NHost (NLock × Unit) where
  step _ _ w := (.ret (some (.flt 9007199254740992)), [], w)
  shuffle l w := (l, w)
  shuffle_perm l _ := List.Perm.refl l

private def lateStart : NSched × NLock × Unit := nreach lateHost (.int 1) false (⟨.int 0, 0, .int 1⟩, ()) [.op (.add 0 none), .step]

set_option maxRecDepth 100000 in
/-- C206, violation: from the time `2 ** 53` on, a `Lockstepper` with the interval 1.0 stands still: its steps are counted, but its clock does not move and the
agent that is due is never run. -/
theorem C206_stall_false : ∃ (H : NHost (NLock × Unit)) (s : NSched), KeepsLock H ∧
    s = (nreach H (.int 1) false (⟨.int 0, 0, .int 1⟩, ()) [.op (.add 0 none), .step]).1 ∧ s.queue = [(.flt 9007199254740992, [0])] ∧
    ∀ n fuel, nlockRun H fuel n (s, NLock.init s (.flt 1), ()) = .done (s, ⟨.flt 9007199254740992, n, .flt 1⟩, ()) := by
  refine ⟨lateHost, lateStart.1, ⟨fun _ _ _ => rfl, fun _ _ => rfl⟩, rfl, by decide +kernel, ?_⟩
  have htime : lateStart.1.time = .flt 9007199254740992 := by decide +kernel
  have hsum : Num.add (.flt 9007199254740992) (.flt 1) = .flt 9007199254740992 := by decide +kernel
  have gen : ∀ n fuel k, nlockRun lateHost fuel n (lateStart.1, ⟨.flt 9007199254740992, k, .flt 1⟩, ()) =
      .done (lateStart.1, ⟨.flt 9007199254740992, k + n, .flt 1⟩, ()) := by
    intro n fuel
    induction n with
    | zero => intro k; rfl
    | succ n ih =>
      intro k
      have hstep : nlockStep lateHost fuel (lateStart.1, ⟨.flt 9007199254740992, k, .flt 1⟩, ()) =
          .done (lateStart.1, ⟨.flt 9007199254740992, k + 1, .flt 1⟩, ()) := by
        unfold nlockStep
        simp only [hsum]
        unfold nlockLoop
        simp only [htime, lt_irrefl, if_false]
      simp only [nlockRun, hstep, ih]
      rw [Nat.add_assoc, Nat.add_comm 1 n]
  intro n fuel
  have := gen n fuel 0
  rw [Nat.zero_add] at this
  rw [← this, NLock.init, htime]

end Verif
