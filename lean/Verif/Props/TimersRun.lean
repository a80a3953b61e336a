import Verif.Model.TimersRun
import Verif.Props.ExTimers
import Verif.Props.Refine
import Verif.Props.CarsPQueue

/-!
# C253: whole simulations of the example agents that choose their own timeouts
-/

namespace Verif
open Spec

/-- A Fibonacci number. -/
def isFib (x : Nat) : Bool := (List.range (x + 2)).any (fun m => Nat.fib m == x)

/-- 0 or an odd number. -/
def isOdds (x : Nat) : Bool := x == 0 || x % 2 == 1

theorem isFib_iff (x : Nat) : isFib x = true ↔ ∃ m, Nat.fib m = x := by
  simp only [isFib, List.any_eq_true, List.mem_range, beq_iff_eq]
  constructor
  · rintro ⟨m, -, h⟩; exact ⟨m, h⟩
  · rintro ⟨m, h⟩
    refine ⟨m, ?_, h⟩
    have := Nat.le_fib_add_one m
    omega

/-- The `i`-th time of `Fibonacci`, as a number. -/
private def fibT (i : Nat) : Nat := if i = 0 then 0 else Nat.fib (i + 1)
private def fibP (i : Nat) : Nat := if i = 0 then 1 else Nat.fib i
private def oddT (k : Nat) : Nat := if k = 0 then 0 else 2 * k - 1

private theorem fibP_pos (i : Nat) : 0 < fibP i := by
  unfold fibP
  split
  · exact Nat.one_pos
  · exact Nat.fib_pos.2 (by omega)

private theorem fibT_succ (i : Nat) : fibT (i + 1) = fibT i + fibP i := by
  unfold fibT fibP
  cases i with
  | zero => rfl
  | succ i =>
    simp only [Nat.add_eq_zero_iff, one_ne_zero, and_false, if_false]
    rw [Nat.fib_add_two (n := i + 1)]
    omega

private theorem fibP_succ (i : Nat) : max (fibT i) (fibP i) = fibP (i + 1) := by
  unfold fibT fibP
  cases i with
  | zero => rfl
  | succ i =>
    simp only [Nat.add_eq_zero_iff, one_ne_zero, and_false, if_false]
    exact max_eq_left (Nat.fib_mono (by omega))

private theorem oddT_succ (k : Nat) : oddT (k + 1) = oddT k + (1 + oddT k % 2) := by
  unfold oddT
  split <;> split <;> omega

/-- No Fibonacci number is between two of the times. -/
private theorem fibT_gap {i x : Nat} (hx : isFib x = true) (h : x < fibT (i + 1)) : x ≤ fibT i := by
  obtain ⟨m, rfl⟩ := (isFib_iff x).1 hx
  cases i with
  | zero =>
    have h1 : fibT (0 + 1) = 1 := rfl
    omega
  | succ i =>
    have h1 : fibT (i + 1 + 1) = Nat.fib (i + 3) := rfl
    have h0 : fibT (i + 1) = Nat.fib (i + 2) := rfl
    rw [h1] at h
    rw [h0]
    by_contra hc
    have hm : m < i + 3 := by
      by_contra hm
      exact absurd (Nat.fib_mono (by omega : i + 3 ≤ m)) (by omega)
    exact absurd (Nat.fib_mono (by omega : m ≤ i + 2)) (by omega)

private theorem isFib_fibT (i : Nat) : isFib (fibT i) = true := by
  rw [isFib_iff]
  unfold fibT
  split
  · exact ⟨0, rfl⟩
  · exact ⟨i + 1, rfl⟩

private theorem oddT_gap {k x : Nat} (hx : isOdds x = true) (h : x < oddT (k + 1)) : x ≤ oddT k := by
  simp only [isOdds, Bool.or_eq_true, beq_iff_eq] at hx
  unfold oddT at *
  simp only [Nat.add_eq_zero_iff, one_ne_zero, and_false, if_false] at h
  split <;> omega

private theorem isOdds_oddT (k : Nat) : isOdds (oddT k) = true := by
  simp only [isOdds, Bool.or_eq_true, beq_iff_eq]
  unfold oddT
  split <;> omega

/-- One number more of a kind. -/
theorem filter_range_next (p : Nat → Bool) {T T' : Nat} (h : T < T') (c : Bool) (hT : p T = c) (hn : ∀ y, T < y → y < T' → p y = false) :
    (List.range T').filter p = (List.range T).filter p ++ (if c then [T] else []) := by
  obtain ⟨d, rfl⟩ : ∃ d, T' = T + 1 + d := ⟨T' - (T + 1), by omega⟩
  rw [List.range_add, List.filter_append, List.range_succ, List.filter_append]
  have h0 : ((List.range d).map (fun x => T + 1 + x)).filter p = [] := by
    rw [List.filter_eq_nil_iff]
    intro y hy
    obtain ⟨x, hx, rfl⟩ := List.mem_map.1 hy
    rw [List.mem_range] at hx
    rw [hn _ (by omega) (by omega)]
    simp
  rw [h0, List.append_nil]
  congr 1
  subst hT
  cases h : p T <;> simp [h]

variable (order : Nat → List Ref → List Ref) (perm : ∀ n l, (order n l).Perm l)

/-- The queue when `Fibonacci` is due at `a` and `Odds` at `b`. -/
private def QForm (a b : Nat) (q : List (Time × List Ref)) : Prop :=
  (a < b ∧ q = [(.fin a, [0]), (.fin b, [1])]) ∨ (b < a ∧ q = [(.fin b, [1]), (.fin a, [0])]) ∨
    (a = b ∧ (q = [(.fin a, [0, 1])] ∨ q = [(.fin a, [1, 0])]))

private theorem fin_nat_eq {a b : Nat} : (Time.fin (a : Rat) = .fin (b : Rat)) ↔ a = b := by
  rw [Time.fin.injEq]; exact_mod_cast Iff.rfl

private theorem fin_nat_lt {a b : Nat} : (Time.fin (a : Rat) < .fin (b : Rat)) ↔ a < b := by
  rw [Time.fin_lt]; exact_mod_cast Iff.rfl

private theorem qform_zero (a b : Nat) : QForm a b (insertBucket (.fin a) 0 [(.fin b, [1])]) := by
  simp only [insertBucket]
  rcases lt_trichotomy a b with h | h | h
  · rw [if_neg (by rw [fin_nat_eq]; omega), if_pos (fin_nat_lt.2 h)]
    exact Or.inl ⟨h, rfl⟩
  · subst h
    rw [if_pos rfl]
    exact Or.inr (Or.inr ⟨rfl, Or.inr rfl⟩)
  · rw [if_neg (by rw [fin_nat_eq]; omega), if_neg (by rw [fin_nat_lt]; omega)]
    exact Or.inr (Or.inl ⟨h, rfl⟩)

private theorem qform_one (a b : Nat) : QForm a b (insertBucket (.fin b) 1 [(.fin a, [0])]) := by
  simp only [insertBucket]
  rcases lt_trichotomy a b with h | h | h
  · rw [if_neg (by rw [fin_nat_eq]; omega), if_neg (by rw [fin_nat_lt]; omega)]
    exact Or.inl ⟨h, rfl⟩
  · subst h
    rw [if_pos rfl]
    exact Or.inr (Or.inr ⟨rfl, Or.inl rfl⟩)
  · rw [if_neg (by rw [fin_nat_eq]; omega), if_pos (fin_nat_lt.2 h)]
    exact Or.inr (Or.inl ⟨h, rfl⟩)

private theorem qform_head {a b : Nat} {q : List (Time × List Ref)} (h : QForm a b q) : headTime q = .fin (min a b : Nat) := by
  rcases h with ⟨h, rfl⟩ | ⟨h, rfl⟩ | ⟨rfl, rfl | rfl⟩
  · rw [min_eq_left h.le]; rfl
  · rw [min_eq_right h.le]; rfl
  · rw [min_self]; rfl
  · rw [min_self]; rfl

private theorem sched_when {s : Sched} {r : Ref} {x : Nat} (hx : 0 < x) :
    s.schedule r (some (.fin x)) = { s with queue := insertBucket (.fin x) r s.queue } := by
  have : Time.pyOr (some (.fin (x : Rat))) s.time = .fin x := by
    rw [pyOr_eq_eff, effDelay_pos]
    show Time.fin 0 < _
    rw [Time.fin_lt]
    exact_mod_cast hx
  simp only [Sched.schedule, this]

private theorem turn_zero (i : Nat) (rest : List Ref) (s : Sched) (p : PrevAttr) (c : Nat) (ht : s.time = .fin (fibT i)) (hp : p.1 = .fin (fibP i)) :
    ∃ p' : PrevAttr, p'.1 = .fin (fibP (i + 1)) ∧ runBucket (timersCode.timed order perm) (.fin (fibT i)) (0 :: rest) s (p, c) =
      runBucket (timersCode.timed order perm) (.fin (fibT i)) rest
        { s with queue := insertBucket (.fin (fibT (i + 1))) 0 s.queue, log := s.log ++ [.act 0 (.fin (fibT i)) (.ret (some (.fin (fibP i))))] } (p', c) := by
  refine ⟨⟨max s.time p.1, le_max_of_le_right p.2⟩, ?_, ?_⟩
  · show max s.time p.1 = _
    rw [ht, hp, ← fibP_succ]
    rcases le_total (fibT i) (fibP i) with h | h
    · rw [max_eq_right h, max_eq_right]
      rw [Time.fin_le]; exact_mod_cast h
    · rw [max_eq_left h, max_eq_left]
      rw [Time.fin_le]; exact_mod_cast h
  · conv_lhs => unfold runBucket
    have e1 : ((timersCode.timed order perm).step 0 s (p, c)).1 = .ret (some (.fin (fibP i))) := by
      show Reply.ret (some p.1) = _
      rw [hp]
    have e2 : ((timersCode.timed order perm).step 0 s (p, c)).2.1 = [] := rfl
    have e3 : ((timersCode.timed order perm).step 0 s (p, c)).2.2 = (⟨max s.time p.1, le_max_of_le_right p.2⟩, c) := rfl
    simp only [e1, e2, e3, Sched.applyOps, List.foldl_nil, Sched.logAct]
    have hw : Time.pyOr (some (.fin (fibP i : Rat))) s.interval + .fin (fibT i) = .fin (fibT (i + 1) : Nat) := by
      rw [pyOr_eq_eff, effDelay_pos (by show Time.fin 0 < _; rw [Time.fin_lt]; exact_mod_cast fibP_pos i), fibT_succ, Time.fin_add]
      push_cast
      rw [add_comm]
    rw [hw, if_neg (by simp), sched_when (by rw [fibT_succ]; have := fibP_pos i; omega)]

private theorem turn_one (k : Nat) (rest : List Ref) (s : Sched) (w : PrevAttr × Nat) (ht : s.time = .fin (oddT k)) :
    runBucket (timersCode.timed order perm) (.fin (oddT k)) (1 :: rest) s w =
      runBucket (timersCode.timed order perm) (.fin (oddT k)) rest
        { s with queue := insertBucket (.fin (oddT (k + 1))) 1 s.queue, log := s.log ++ [.act 1 (.fin (oddT k)) (.ret (some (.fin ((1 + oddT k % 2 : Nat) : Rat))))] } w := by
  conv_lhs => unfold runBucket
  have e1 : ((timersCode.timed order perm).step 1 s w).1 = .ret (some (.fin ((1 + oddT k % 2 : Nat) : Rat))) := by
    show Reply.ret (some (1 + mod2 s.time)) = _
    rw [ht]
    have := mod2_int (oddT k : Int)
    rw [Int.cast_natCast] at this
    rw [this]
    have h1 : (1 : Time) = .fin 1 := by show Time.fin ((1 : Nat) : Rat) = _; simp
    rw [h1, Time.fin_add]
    congr 3
    push_cast
    congr 1
  have e2 : ((timersCode.timed order perm).step 1 s w).2.1 = [] := rfl
  have e3 : ((timersCode.timed order perm).step 1 s w).2.2 = w := rfl
  simp only [e1, e2, e3, Sched.applyOps, List.foldl_nil, Sched.logAct]
  have hw : Time.pyOr (some (.fin ((1 + oddT k % 2 : Nat) : Rat))) s.interval + .fin (oddT k) = .fin (oddT (k + 1) : Nat) := by
    rw [pyOr_eq_eff, effDelay_pos (by show Time.fin 0 < _; rw [Time.fin_lt]; exact_mod_cast (by omega : 0 < 1 + oddT k % 2)), oddT_succ, Time.fin_add]
    push_cast
    rw [add_comm]
  rw [hw, if_neg (by simp), sched_when (by rw [oddT_succ]; omega)]

/-- What is true between two steps: the numbers of the times so far. -/
private structure TimersNum (n i k : Nat) (l0 l1 : List Nat) : Prop where
  gapF : ∀ y, isFib y = true → y < fibT i → y < min (fibT i) (oddT k)
  gapO : ∀ y, isOdds y = true → y < oddT k → y < min (fibT i) (oddT k)
  fibs : l0 = (List.range (min (fibT i) (oddT k))).filter isFib
  odds : l1 = (List.range (min (fibT i) (oddT k))).filter isOdds
  count : ((List.range (min (fibT i) (oddT k))).filter (fun t => isFib t || isOdds t)).length = n

private theorem num_step {n i k : Nat} {l0 l1 : List Nat} (h : TimersNum n i k l0 l1) :
    TimersNum (n + 1) (if fibT i ≤ oddT k then i + 1 else i) (if oddT k ≤ fibT i then k + 1 else k)
      (l0 ++ if fibT i ≤ oddT k then [fibT i] else []) (l1 ++ if oddT k ≤ fibT i then [oddT k] else []) := by
  obtain ⟨hF, hO, h0, h1, hc⟩ := h
  have ga : ∀ y, isFib y = true → y < fibT (if fibT i ≤ oddT k then i + 1 else i) → y ≤ min (fibT i) (oddT k) := by
    intro y hy h
    split at h
    · have := fibT_gap hy h; omega
    · have := hF y hy h; omega
  have gb : ∀ y, isOdds y = true → y < oddT (if oddT k ≤ fibT i then k + 1 else k) → y ≤ min (fibT i) (oddT k) := by
    intro y hy h
    split at h
    · have := oddT_gap hy h; omega
    · have := hO y hy h; omega
  have hlt : min (fibT i) (oddT k) < min (fibT (if fibT i ≤ oddT k then i + 1 else i)) (oddT (if oddT k ≤ fibT i then k + 1 else k)) := by
    have a1 := fibT_succ i
    have a2 := fibP_pos i
    have a3 := oddT_succ k
    split <;> split <;> omega
  have f1 : isFib (min (fibT i) (oddT k)) = decide (fibT i ≤ oddT k) := by
    by_cases h : fibT i ≤ oddT k
    · rw [min_eq_left h, isFib_fibT]; simp [h]
    · rw [min_eq_right (by omega)]
      rw [decide_eq_false h]
      by_contra hc
      have := hF _ (by simpa using hc) (by omega)
      omega
  have f2 : isOdds (min (fibT i) (oddT k)) = decide (oddT k ≤ fibT i) := by
    by_cases h : oddT k ≤ fibT i
    · rw [min_eq_right h, isOdds_oddT]; simp [h]
    · rw [min_eq_left (by omega)]
      rw [decide_eq_false h]
      by_contra hc
      have := hO _ (by simpa using hc) (by omega)
      omega
  have n1 : ∀ y, min (fibT i) (oddT k) < y → y < min (fibT (if fibT i ≤ oddT k then i + 1 else i)) (oddT (if oddT k ≤ fibT i then k + 1 else k)) → isFib y = false := by
    intro y hy1 hy2
    by_contra hc
    have := ga y (by simpa using hc) (lt_of_lt_of_le hy2 (min_le_left _ _))
    omega
  have n2 : ∀ y, min (fibT i) (oddT k) < y → y < min (fibT (if fibT i ≤ oddT k then i + 1 else i)) (oddT (if oddT k ≤ fibT i then k + 1 else k)) → isOdds y = false := by
    intro y hy1 hy2
    by_contra hc
    have := gb y (by simpa using hc) (lt_of_lt_of_le hy2 (min_le_right _ _))
    omega
  refine ⟨fun y hy h => lt_of_le_of_lt (ga y hy h) hlt, fun y hy h => lt_of_le_of_lt (gb y hy h) hlt, ?_, ?_, ?_⟩
  · rw [filter_range_next isFib hlt _ f1 n1, ← h0]
    by_cases h : fibT i ≤ oddT k
    · simp [h]
    · simp [h]
  · rw [filter_range_next isOdds hlt _ f2 n2, ← h1]
    by_cases h : oddT k ≤ fibT i
    · simp [h]
    · simp [h]
  · rw [filter_range_next (fun t => isFib t || isOdds t) hlt true (by simp only [f1, f2]; by_cases h : fibT i ≤ oddT k <;> simp [h] <;> omega)
      (fun y h1 h2 => by simp [n1 y h1 h2, n2 y h1 h2])]
    simp [hc]

/-- What is true between two steps. -/
private structure TimersAt (n i k : Nat) (l0 l1 : List Nat) (x : Sched × PrevAttr × Nat) : Prop where
  queue : QForm (fibT i) (oddT k) x.1.queue
  time : x.1.time = .fin (min (fibT i) (oddT k) : Nat)
  shuffle : x.1.shuffle = true
  steps : x.1.steps = n
  agents : x.1.agents = [0, 1]
  running : x.1.running = true
  prev : x.2.1.1 = .fin (fibP i)
  acts0 : (actsOf 0 x.1.log).map (·.1) = l0.map (fun t : Nat => Time.fin t)
  acts1 : (actsOf 1 x.1.log).map (·.1) = l1.map (fun t : Nat => Time.fin t)
  num : TimersNum n i k l0 l1

private theorem perm_two {l : List Ref} (h : l.Perm [0, 1]) : l = [0, 1] ∨ l = [1, 0] := by
  have hl := h.length_eq
  match l, hl with
  | [a, b], _ =>
    have hn : [a, b].Nodup := h.nodup_iff.2 (by decide)
    have ha : a ∈ [0, 1] := h.mem_iff.1 (by simp)
    have hb : b ∈ [0, 1] := h.mem_iff.1 (by simp)
    simp only [List.mem_cons, List.not_mem_nil, or_false] at ha hb
    rcases ha with rfl | rfl <;> rcases hb with rfl | rfl
    · simp at hn
    · exact Or.inl rfl
    · exact Or.inr rfl
    · simp at hn

private theorem step_open {s : Sched} {t : Time} {b : List Ref} {q : List (Time × List Ref)} (hq : s.queue = (t, b) :: q) (ht : s.time = t)
    (hsh : s.shuffle = true) (p : PrevAttr) (c : Nat) :
    s.step (timersCode.timed order perm) (p, c) = finishStep (runBucket (timersCode.timed order perm) t (order c b) { s with queue := q } (p, c + 1)) := by
  unfold Sched.step
  rw [hq]
  simp only
  rw [if_neg (by rw [ht]; exact lt_irrefl _), ht]
  simp only [runOrder, hsh, if_true]
  rfl

private theorem perm_one {l : List Ref} {a : Ref} (h : l.Perm [a]) : l = [a] := List.perm_singleton.1 h

private theorem timers_step {n i k : Nat} {l0 l1 : List Nat} {x : Sched × PrevAttr × Nat} (h : TimersAt n i k l0 l1 x) :
    ((timedStepper (timersCode.timed order perm)).step x).2 = false ∧
      TimersAt (n + 1) (if fibT i ≤ oddT k then i + 1 else i) (if oddT k ≤ fibT i then k + 1 else k)
        (l0 ++ if fibT i ≤ oddT k then [fibT i] else []) (l1 ++ if oddT k ≤ fibT i then [oddT k] else [])
        ((timedStepper (timersCode.timed order perm)).step x).1 := by
  obtain ⟨s, p, c⟩ := x
  obtain ⟨hq, ht, hsh, hs, ha, hr, hp, g0, g1, hn⟩ := h
  have hn' := num_step hn
  simp only at hq ht hsh hs ha hr hp g0 g1
  have hfin : ∀ (i' k' : Nat) (q' : List (Time × List Ref)) (l : List Ev) (p' : PrevAttr) (c' : Nat) (m0 m1 : List Nat),
      s.step (timersCode.timed order perm) (p, c) = finishStep ({ s with queue := q', log := s.log ++ l }, (p', c'), false) →
      QForm (fibT i') (oddT k') q' → p'.1 = .fin (fibP i') → (actsOf 0 l).map (·.1) = m0.map (fun t : Nat => Time.fin t) →
      (actsOf 1 l).map (·.1) = m1.map (fun t : Nat => Time.fin t) → TimersNum (n + 1) i' k' (l0 ++ m0) (l1 ++ m1) →
      ((timedStepper (timersCode.timed order perm)).step (s, p, c)).2 = false ∧
        TimersAt (n + 1) i' k' (l0 ++ m0) (l1 ++ m1) ((timedStepper (timersCode.timed order perm)).step (s, p, c)).1 := by
    intro i' k' q' l p' c' m0 m1 he f1 f2 f3 f4 f5
    simp only [timedStepper]
    rw [he]
    simp only [finishStep, Bool.false_eq_true, if_false]
    refine ⟨trivial, f1, qform_head f1, hsh, by simp [hs], ha, hr, f2, ?_, ?_, f5⟩
    · simp only [actsOf_append, List.map_append, g0, f3]
    · simp only [actsOf_append, List.map_append, g1, f4]
  rcases hq with ⟨h, hq⟩ | ⟨h, hq⟩ | ⟨h, hq⟩
  · rw [if_pos h.le, if_neg (by omega), if_pos h.le, if_neg (by omega)] at hn' ⊢
    rw [min_eq_left h.le] at ht
    have e := step_open order perm hq ht hsh p c
    rw [perm_one (perm c _)] at e
    obtain ⟨p', hp', e'⟩ := turn_zero order perm i [] { s with queue := [(.fin (oddT k : Rat), [1])] } p (c + 1) ht hp
    rw [e'] at e
    refine hfin _ _ _ [_] p' (c + 1) _ _ e (qform_zero _ _) hp' ?_ ?_ hn'
    · simp [actsOf]
    · simp [actsOf]
  · rw [if_neg (by omega), if_pos h.le, if_neg (by omega), if_pos h.le] at hn' ⊢
    rw [min_eq_right h.le] at ht
    have e := step_open order perm hq ht hsh p c
    rw [perm_one (perm c _), turn_one order perm k [] { s with queue := [(.fin (fibT i : Rat), [0])] } _ ht] at e
    refine hfin _ _ _ [_] p (c + 1) _ _ e (qform_one _ _) hp ?_ ?_ hn'
    · simp [actsOf]
    · simp [actsOf]
  · rw [if_pos h.le, if_pos h.ge, if_pos h.le, if_pos h.ge] at hn' ⊢
    rw [min_eq_left h.le] at ht
    have hb : ∃ b, s.queue = [(.fin (fibT i : Rat), b)] ∧ b.Perm [0, 1] := by
      rcases hq with hq | hq
      · exact ⟨_, hq, List.Perm.refl _⟩
      · exact ⟨_, hq, List.Perm.swap _ _ _⟩
    obtain ⟨b, hq, hb⟩ := hb
    have e := step_open order perm hq ht hsh p c
    rcases perm_two ((perm c b).trans hb) with ho | ho
    · rw [ho] at e
      obtain ⟨p', hp', e'⟩ := turn_zero order perm i [1] { s with queue := [] } p (c + 1) ht hp
      rw [e', h, turn_one order perm k [] _ _ (by rw [← h]; exact ht)] at e
      simp only [List.append_assoc, List.singleton_append] at e
      refine hfin _ _ _ [_, _] p' (c + 1) _ _ e (qform_one _ _) hp' ?_ ?_ hn'
      · simp [actsOf, h]
      · simp [actsOf]
    · rw [ho, h, turn_one order perm k [0] _ _ (by rw [← h]; exact ht)] at e
      obtain ⟨p', hp', e'⟩ := turn_zero order perm i [] { s with queue := insertBucket (.fin (oddT (k + 1) : Rat)) 1 [], log := s.log ++ [.act 1 (.fin (oddT k)) (.ret (some (.fin ((1 + oddT k % 2 : Nat) : Rat))))] } p (c + 1) ht hp
      rw [h] at e'
      rw [e'] at e
      simp only [List.append_assoc, List.singleton_append] at e
      refine hfin _ _ _ [_, _] p' (c + 1) _ _ e (qform_zero _ _) hp' ?_ ?_ hn'
      · simp [actsOf, h]
      · simp [actsOf]

/-- What is true of a simulation of `TimeoutsEnv` whose clock says `T`: the agents ran at the times before `T` that are theirs, and at no others, each once and in order. -/
def TimersDid (T : Nat) (log : List Ev) : Prop :=
  (actsOf 0 log).map (·.1) = ((List.range T).filter isFib).map (fun t : Nat => Time.fin t) ∧
    (actsOf 1 log).map (·.1) = ((List.range T).filter isOdds).map (fun t : Nat => Time.fin t)

/-- How many times before `T` belong to one of the agents. -/
def timersCount (T : Nat) : Nat := ((List.range T).filter (fun t => isFib t || isOdds t)).length

private theorem timers_at (n : Nat) : ∃ i k l0 l1, TimersAt n i k l0 l1 (timedRun timersCode order perm 1 [0, 1] prevStart n) := by
  induction n with
  | zero =>
    refine ⟨0, 0, [], [], Or.inr (Or.inr ⟨rfl, Or.inl ?_⟩), rfl, rfl, rfl, rfl, rfl, ?_, rfl, rfl, ⟨?_, ?_, rfl, rfl, rfl⟩⟩
    · show [(Time.fin 0, [0, 1])] = _
      simp [fibT]
    · show Time.fin ((1 : Nat) : Rat) = _
      rfl
    · intro y _ h; simp [fibT] at h
    · intro y _ h; simp [oddT] at h
  | succ n ih =>
    obtain ⟨i, k, l0, l1, h⟩ := ih
    have := (timers_step order perm h).2
    unfold timedRun at this ⊢
    rw [iterStep_succ]
    exact ⟨_, _, _, _, this⟩

/-- C253: `TimeoutsEnv`, whatever the order in which the scheduler runs agents that are due at the same time: after `n` steps the clock is at the `n`-th time that is a
Fibonacci number or odd (counting from 0), `Fibonacci` has run at exactly the Fibonacci numbers before it, `Odds` at 0 and at exactly the odd numbers before it, and the
next step does not raise. -/
theorem C253_steps (n : Nat) :
    let x := timedRun timersCode order perm 1 [0, 1] prevStart n
    ∃ T : Nat, x.1.time = .fin T ∧ (isFib T || isOdds T) = true ∧ timersCount T = n ∧ TimersDid T x.1.log ∧ x.1.steps = n ∧ x.1.agents = [0, 1] ∧
      x.1.running = true ∧ ((timedStepper (timersCode.timed order perm)).step x).2 = false := by
  intro x
  obtain ⟨i, k, l0, l1, h⟩ := timers_at order perm n
  have hs := (timers_step order perm h).1
  obtain ⟨-, h2, -, h4, h5, h6, -, h8, h9, ⟨-, -, g3, g4, g5⟩⟩ := h
  refine ⟨_, h2, ?_, g5, ⟨by rw [← g3]; exact h8, by rw [← g4]; exact h9⟩, h4, h5, h6, hs⟩
  rcases le_total (fibT i) (oddT k) with h | h
  · rw [min_eq_left h, isFib_fibT]; rfl
  · rw [min_eq_right h, isOdds_oddT]; simp

theorem runLoop_done_ge {S : Type} (st : Stepper S) (mt : Option Time) (ms : Option Nat) (n fuel : Nat) (hf : n ≤ fuel) (s : S)
    (h : ∀ m < n, isDone st mt ms (iterStep st m s) = false ∧ (st.step (iterStep st m s)).2 = false) (hd : isDone st mt ms (iterStep st n s) = true) :
    runLoop st mt ms fuel s = .done (iterStep st n s) := by
  induction n generalizing s fuel with
  | zero =>
    have hd' : isDone st mt ms s = true := hd
    cases fuel <;> simp [runLoop, hd', iterStep]
  | succ n ih =>
    obtain ⟨h1, h2⟩ := h 0 (by omega)
    have h1' : isDone st mt ms s = false := h1
    have h2' : (st.step s).2 = false := h2
    obtain ⟨fuel, rfl⟩ : ∃ f, fuel = f + 1 := ⟨fuel - 1, by omega⟩
    unfold runLoop
    rw [h1']
    simp only [Bool.false_eq_true, if_false]
    rw [h2']
    simp only [Bool.false_eq_true, if_false]
    exact ih fuel (by omega) (st.step s).1 (fun m hm => h (m + 1) (by omega)) hd

/-- C253: a simulation with `max_steps` (10 in the example) returns after exactly that many steps. -/
theorem C253_max_steps (m fuel : Nat) (hf : m ≤ fuel) :
    ∃ x T, runModel (timedStepper (timersCode.timed order perm)) none (some m) fuel (timedPop (timersCode.timed order perm) 1 [0, 1] prevStart) = .done x ∧
      x.1.time = .fin (T : Nat) ∧ (isFib T || isOdds T) = true ∧ timersCount T = m ∧ TimersDid T x.1.log ∧ x.1.steps = m := by
  obtain ⟨T, h1, h2, h3, h4, h5, -, h7, -⟩ := C253_steps order perm m
  refine ⟨_, T, ?_, h1, h2, h3, h4, h5⟩
  unfold runModel
  rw [if_neg (show ¬ _ from by
    obtain ⟨-, -, -, -, -, -, h6, -⟩ := C253_steps order perm 0
    have : (timedPop (timersCode.timed order perm) 1 [0, 1] prevStart).1.agents = [0, 1] := h6
    simp [timedStepper, this])]
  refine runLoop_done_ge _ none (some m) m fuel hf _ ?_ ?_
  · intro j hj
    obtain ⟨-, -, -, -, -, e1, -, e2, e3⟩ := C253_steps order perm j
    refine ⟨?_, e3⟩
    show (!(timedRun timersCode order perm 1 [0, 1] prevStart j).1.running || decide (m ≤ (timedRun timersCode order perm 1 [0, 1] prevStart j).1.steps)) = false
    rw [e1, e2]
    simp; omega
  · show (!(timedRun timersCode order perm 1 [0, 1] prevStart m).1.running || decide (m ≤ (timedRun timersCode order perm 1 [0, 1] prevStart m).1.steps)) = true
    rw [h5]
    simp

private theorem count_mono {S T : Nat} (h : S ≤ T) : timersCount S ≤ timersCount T := by
  obtain ⟨d, rfl⟩ := Nat.exists_eq_add_of_le h
  unfold timersCount
  rw [List.range_add, List.filter_append, List.length_append]
  omega

private theorem count_lt {S T : Nat} (h : S < T) (hS : (isFib S || isOdds S) = true) : timersCount S < timersCount T := by
  have : timersCount (S + 1) = timersCount S + 1 := by
    unfold timersCount
    rw [List.range_succ, List.filter_append]
    simp [hS]
  have := count_mono (show S + 1 ≤ T by omega)
  omega

private theorem count_same {S T : Nat} (h : S ≤ T) (hc : timersCount T = timersCount S) (p : Nat → Bool) (hp : ∀ y, p y = true → (isFib y || isOdds y) = true) :
    (List.range T).filter p = (List.range S).filter p := by
  obtain ⟨d, rfl⟩ := Nat.exists_eq_add_of_le h
  unfold timersCount at hc
  rw [List.range_add, List.filter_append, List.length_append] at hc
  have h0 : ((List.range d).map (fun x => S + x)).filter (fun t => isFib t || isOdds t) = [] := List.length_eq_zero_iff.1 (by omega)
  rw [List.range_add, List.filter_append]
  rw [List.filter_eq_nil_iff] at h0
  have : ((List.range d).map (fun x => S + x)).filter p = [] := by
    rw [List.filter_eq_nil_iff]
    exact fun y hy hpy => h0 y hy (hp y hpy)
  rw [this, List.append_nil]

/-- C253: a simulation with `max_time` returns when the agents have run at all of their times before the limit, and at no others. -/
theorem C253_max_time (T fuel : Nat) (hf : timersCount T ≤ fuel) :
    ∃ x, runModel (timedStepper (timersCode.timed order perm)) (some (.fin T)) none fuel (timedPop (timersCode.timed order perm) 1 [0, 1] prevStart) = .done x ∧
      TimersDid T x.1.log ∧ x.1.steps = timersCount T ∧ .fin T ≤ x.1.time := by
  obtain ⟨S, h1, h2, h3, h4, h5, -, h7, -⟩ := C253_steps order perm (timersCount T)
  have hTS : T ≤ S := by
    by_contra hc
    have := count_lt (by omega : S < T) h2
    omega
  have hle : Time.fin (T : Rat) ≤ .fin S := by rw [Time.fin_le]; exact_mod_cast hTS
  refine ⟨_, ?_, ?_, h5, by rw [h1]; exact hle⟩
  · unfold runModel
    rw [if_neg (show ¬ _ from by
      obtain ⟨-, -, -, -, -, -, h6, -⟩ := C253_steps order perm 0
      have : (timedPop (timersCode.timed order perm) 1 [0, 1] prevStart).1.agents = [0, 1] := h6
      simp [timedStepper, this])]
    refine runLoop_done_ge _ _ none (timersCount T) fuel hf _ ?_ ?_
    · intro j hj
      obtain ⟨S', e0, -, e4, -, -, -, e2, e3⟩ := C253_steps order perm j
      refine ⟨?_, e3⟩
      have hlt : S' < T := by
        by_contra hc
        have := count_mono (by omega : T ≤ S')
        omega
      have hlt' : ¬ Time.fin (T : Rat) ≤ .fin S' := by rw [not_le, Time.fin_lt]; exact_mod_cast hlt
      show (!(timedRun timersCode order perm 1 [0, 1] prevStart j).1.running || decide (.fin (T : Rat) ≤ (timedRun timersCode order perm 1 [0, 1] prevStart j).1.time)) = false
      rw [e0, e2, decide_eq_false hlt']
      rfl
    · show (!(timedRun timersCode order perm 1 [0, 1] prevStart (timersCount T)).1.running || decide (.fin (T : Rat) ≤ (timedRun timersCode order perm 1 [0, 1] prevStart (timersCount T)).1.time)) = true
      rw [h1, decide_eq_true hle]
      simp
  · unfold TimersDid at h4 ⊢
    rw [← count_same hTS h3 isFib (by intro y h; simp [h]), ← count_same hTS h3 isOdds (by intro y h; simp [h])]
    exact h4

theorem timers_plain : PlainCode timersCode := by
  intro r t n as w
  constructor
  · intro q wh h
    unfold timersCode at h
    split at h <;> simp at h
  · intro d hd
    unfold timersCode at hd
    split at hd
    · cases hd
      exact w.2
    · cases hd
      cases t with
      | inf => exact (show (0 : Time) ≤ Time.inf from Time.le_inf _)
      | fin q =>
        show Time.fin 0 ≤ Time.fin ((1 : Nat) : Rat) + Time.fin _
        rw [Time.fin_add, Time.fin_le]
        have := Rat.floor_le (q / 2)
        push_cast
        linarith

/-- C253, with `PQueueActivation`, whatever its keys: the same after every number of steps. -/
theorem C253_pqueue (keys : Ref → Nat → Rat) (N : Nat) (hN : 2 ≤ N) (n : Nat) :
    let x := pqueueRun timersCode keys N 1 [0, 1] prevStart n
    (∃ T : Nat, x.1.time = .fin T ∧ (isFib T || isOdds T) = true ∧ timersCount T = n ∧ TimersDid T x.1.log ∧ x.1.steps = n ∧ x.1.agents = [0, 1]) ∧
      ((pqStepper (timersCode.pqueue keys) N).step x).2 = false := by
  intro x
  have hsafe := C247_safe timersCode timers_plain 1 (by decide +kernel) [0, 1] (by simp) prevStart
    (fun order perm k => (C253_steps order perm k).choose_spec.2.2.2.2.2.2.2) keys N hN
  refine ⟨?_, hsafe n⟩
  refine C247_transfer timersCode timers_plain 1 (by decide +kernel) [0, 1] (by simp) prevStart
    (fun n log time steps agents _ => ∃ T : Nat, time = .fin T ∧ (isFib T || isOdds T) = true ∧ timersCount T = n ∧ TimersDid T log ∧ steps = n ∧ agents = [0, 1])
    ?_ keys N hN n (fun m _ => hsafe m)
  intro order perm k _
  obtain ⟨T, h1, h2, h3, h4, h5, h6, -⟩ := C253_steps order perm k
  exact ⟨T, h1, h2, h3, h4, h5, h6⟩

/-- C253, with `PQueueActivation` and `max_time`. -/
theorem C253_pqueue_max_time (keys : Ref → Nat → Rat) (N : Nat) (hN : 2 ≤ N) (T fuel : Nat) (hf : timersCount T ≤ fuel) :
    ∃ x, runModel (pqStepper (timersCode.pqueue keys) N) (some (.fin T)) none fuel (pqueuePop (timersCode.pqueue keys) 1 [0, 1] prevStart) = .done x ∧
      TimersDid T x.1.log ∧ x.1.steps = timersCount T ∧ .fin T ≤ x.1.time := by
  obtain ⟨order, perm, h⟩ := C247_outcome timersCode timers_plain keys N 1 (by decide +kernel) [0, 1] (by simp) hN prevStart (.fin T) none
  have h := h fuel
  obtain ⟨x, e, h1, h2, h3⟩ := C253_max_time order perm T fuel hf
  rw [e] at h
  generalize runModel (pqStepper (timersCode.pqueue keys) N) (some (.fin (T : Rat))) none fuel (pqueuePop (timersCode.pqueue keys) 1 [0, 1] prevStart) = o at h ⊢
  cases o with
  | done y =>
    obtain ⟨-, g1, g2, g3, -⟩ := h
    exact ⟨y, rfl, by rw [← g1]; exact h1, by rw [← g3]; exact h2, by rw [← g2]; exact h3⟩
  | raised y => exact h.elim
  | running y => exact h.elim

set_option maxRecDepth 100000 in
/-- The example: 10 steps, until the time 15. -/
example : timersCount 15 = 10 ∧ isOdds 15 = true ∧ (List.range 15).filter isFib = [0, 1, 2, 3, 5, 8, 13] ∧
    (List.range 15).filter isOdds = [0, 1, 3, 5, 7, 9, 11, 13] ∧ timersCount 14 = 10 ∧ isFib 14 = false ∧ isOdds 14 = false := by
  decide +kernel

set_option maxRecDepth 100000 in
example : (timedRun timersCode (fun _ l => l.reverse) (fun _ l => l.reverse_perm) 1 [0, 1] prevStart 4).1.log =
    [.added 0 0, .added 1 0, .act 1 0 (.ret (some 1)), .act 0 0 (.ret (some 1)), .act 0 1 (.ret (some 1)), .act 1 1 (.ret (some 2)),
      .act 0 2 (.ret (some 1)), .act 0 3 (.ret (some 2)), .act 1 3 (.ret (some 2))] := by
  decide +kernel

/-! ### Pings and pongs -/

/-- The times of a `MyAgent` that draws the delays `d`: a delay of 0 means the interval of the schedule, 1. -/
def pongTime (d : Nat → Rat) : Nat → Rat
  | 0 => 0
  | k + 1 => pongTime d k + if d k = 0 then 1 else d k

private theorem pongTime_lt {d : Nat → Rat} (hd : ∀ k, 0 ≤ d k) (k : Nat) : pongTime d k < pongTime d (k + 1) := by
  simp only [pongTime]
  split
  · linarith
  · rename_i h
    have := lt_of_le_of_ne (hd k) (Ne.symm h)
    linarith

private theorem pongTime_mono {d : Nat → Rat} (hd : ∀ k, 0 ≤ d k) : StrictMono (pongTime d) := strictMono_nat_of_lt_succ (pongTime_lt hd)

private theorem pong_turn (m : Int) (d : Nat → Rat) (now : Time) (k : Nat) (hk : (k : Int) ≤ max m 1) :
    pongBeh (pongAfter ⟨m, d, 0, true, 0, 0⟩ k) now =
      (if (k : Int) < max m 1 then .ret (some (.fin (d k))) else .ret (some .inf), pongAfter ⟨m, d, 0, true, 0, 0⟩ (k + 1)) := by
  cases k with
  | zero =>
    have : pongAfter ⟨m, d, 0, true, 0, 0⟩ 0 = (some pingState, ⟨m, d, 0, true, 0, 0⟩) := rfl
    rw [this, pong_ping, if_pos (by simp)]
    simp only [pongAfter]
    rw [if_neg (by omega), if_pos (by simp)]
    simp
  | succ k =>
    have : pongAfter ⟨m, d, 0, true, 0, 0⟩ (k + 1) = (some pongState, ⟨m - k, d, k + 1, true, 1, k⟩) := by
      simp only [pongAfter]
      rw [if_neg (by omega), if_pos hk]
      simp
    rw [this, pong_pong]
    simp only
    by_cases hl : m - k - 1 < 1
    · rw [if_pos hl, if_neg (by push_cast at hk ⊢; omega)]
      simp only [pongAfter]
      rw [if_neg (by omega), if_neg (by push_cast at hk ⊢; omega)]
      simp
      omega
    · rw [if_neg hl, if_pos (by push_cast; omega)]
      simp only [pongAfter]
      rw [if_neg (by omega), if_pos (by push_cast; omega)]
      simp
      omega

private theorem pongAfter_alive (m : Int) (d : Nat → Rat) (k : Nat) : (pongAfter ⟨m, d, 0, true, 0, 0⟩ k).2.alive = decide ((k : Int) ≤ max m 1) := by
  unfold pongAfter
  split
  · rename_i h; subst h; simp
  · split
    · rename_i h; simp [h]
    · rename_i h; simp only [decide_eq_false h]

/-- What is true of a simulation of `RandomEnv` after `n` steps. -/
structure PongsAt (m : Int) (d : Nat → Rat) (n : Nat) (x : Sched × PongState × Nat) : Prop where
  acts : (actsOf 0 x.1.log).map (·.1) = (List.range (min n ((max m 1).toNat + 1))).map (fun k => Time.fin (pongTime d k))
  steps : x.1.steps = min n ((max m 1).toNat + 1)
  after : x.2.1.1 = pongAfter ⟨m, d, 0, true, 0, 0⟩ (min n ((max m 1).toNat + 1))
  running : x.1.running = true
  early : n ≤ (max m 1).toNat → x.1.queue = [(.fin (pongTime d n), [0])] ∧ x.1.time = .fin (pongTime d n) ∧ x.1.agents = [0]
  late : (max m 1).toNat < n → x.1.queue = [] ∧ x.1.time = .inf ∧ x.1.agents = []
  settings : x.1.interval = 1 ∧ x.1.shuffle = true

private theorem pongs_step {m : Int} {d : Nat → Rat} (hd : ∀ k, 0 ≤ d k) {n : Nat} {x : Sched × PongState × Nat} (h : PongsAt m d n x) :
    ((timedStepper (pongRunCode.timed order perm)).step x).2 = false ∧ PongsAt m d (n + 1) ((timedStepper (pongRunCode.timed order perm)).step x).1 := by
  obtain ⟨s, p, c⟩ := x
  obtain ⟨h1, h2, h3, h4, h5, h6, h7, h8⟩ := h
  simp only at h1 h2 h3 h4 h5 h6 h7 h8
  by_cases hn : n ≤ (max m 1).toNat
  · obtain ⟨hq, ht, ha⟩ := h5 hn
    rw [min_eq_left (by omega)] at h1 h2 h3
    have hb := pong_turn m d s.time n (by omega)
    rw [← h3] at hb
    have hal := pongAfter_alive m d n
    have hal' := pongAfter_alive m d (n + 1)
    rw [← h3] at hal
    have e : s.step (pongRunCode.timed order perm) (p, c) = finishStep (runBucket (pongRunCode.timed order perm) s.time [0] { s with queue := [] } (p, c + 1)) := by
      unfold Sched.step
      rw [hq]
      simp only
      rw [if_neg (by rw [ht]; exact lt_irrefl _)]
      simp only [runOrder, h8, if_true]
      have : ((pongRunCode.timed order perm).shuffle [0] (p, c)).1 = [0] := perm_one (perm c [0])
      rw [this]
      rfl
    obtain ⟨w', hw'⟩ : ∃ w', ((pongRunCode.timed order perm).step 0 { s with queue := [] } (p, c + 1)).2.2 = (w', c + 1) := ⟨_, rfl⟩
    have hw'' : w'.1 = pongAfter ⟨m, d, 0, true, 0, 0⟩ (n + 1) := by
      have : (((pongRunCode.timed order perm).step 0 { s with queue := [] } (p, c + 1)).2.2).1.1 = (pongBeh p.1 s.time).2 := rfl
      rw [hw', hb] at this
      exact this
    have e1 : ((pongRunCode.timed order perm).step 0 { s with queue := [] } (p, c + 1)).1 = (pongBeh p.1 s.time).1 := rfl
    have e2 : ((pongRunCode.timed order perm).step 0 { s with queue := [] } (p, c + 1)).2.1 = if p.1.2.alive && !(pongBeh p.1 s.time).2.2.alive then [.remove 0] else [] := rfl
    rw [hb] at e1 e2
    simp only [hal, hal'] at e2
    by_cases hlt : n < (max m 1).toNat
    · rw [if_pos (by omega)] at e1
      rw [if_neg (by simp; omega)] at e2
      have hstep : s.step (pongRunCode.timed order perm) (p, c) =
          ({ s with queue := [(.fin (pongTime d (n + 1)), [0])], time := .fin (pongTime d (n + 1)), steps := s.steps + 1,
                    log := s.log ++ [.act 0 (.fin (pongTime d n)) (.ret (some (.fin (d n))))] }, (w', c + 1), false) := by
        rw [e]
        unfold runBucket
        simp only [hw', e1, e2, Sched.applyOps, List.foldl_nil, Sched.logAct]
        have hpos : 0 < pongTime d (n + 1) := by
          have := pongTime_mono hd (by omega : 0 < n + 1)
          simpa [pongTime] using this
        have hwh : Time.pyOr (some (.fin (d n))) s.interval + s.time = .fin (pongTime d (n + 1)) := by
          rw [pyOr_eq_eff, ht, h7]
          simp only [pongTime]
          by_cases hz : d n = 0
          · rw [if_pos hz, hz]
            show Time.fin ((1 : Nat) : Rat) + Time.fin _ = _
            rw [Time.fin_add]
            push_cast
            rw [add_comm]
          · rw [if_neg hz, effDelay_pos, Time.fin_add, add_comm]
            show Time.fin 0 < _
            rw [Time.fin_lt]
            exact lt_of_le_of_ne (hd n) (Ne.symm hz)
        rw [hwh, if_neg (by simp)]
        have hsch : ∀ u, Time.pyOr (some (.fin (pongTime d (n + 1)))) u = .fin (pongTime d (n + 1)) := by
          intro u
          rw [pyOr_eq_eff, effDelay_pos]
          show Time.fin 0 < _
          rw [Time.fin_lt]
          exact hpos
        simp only [Sched.schedule, hsch, insertBucket, runBucket, finishStep, Bool.false_eq_true, if_false, headTime, ht]
      simp only [timedStepper]
      rw [hstep]
      refine ⟨rfl, ?_, ?_, ?_, h4, fun _ => ⟨rfl, rfl, ha⟩, fun h => by omega, h7, h8⟩
      · rw [min_eq_left (by omega), List.range_succ, actsOf_append, List.map_append, List.map_append, h1]
        simp [actsOf]
      · rw [min_eq_left (by omega)]
        simp [h2]
      · rw [min_eq_left (by omega)]
        exact hw''
    · rw [if_neg (by omega)] at e1
      rw [if_pos (by simp; omega)] at e2
      have hstep : s.step (pongRunCode.timed order perm) (p, c) =
          ({ s with queue := [], time := .inf, steps := s.steps + 1, agents := s.agents.erase 0,
                    log := s.log ++ [.act 0 (.fin (pongTime d n)) (.ret (some .inf))] }, (w', c + 1), false) := by
        rw [e]
        unfold runBucket
        simp only [hw', e1, e2, Sched.applyOps, List.foldl_cons, List.foldl_nil, Sched.applyOp, Sched.removeAgent, Sched.logAct]
        have hwh : Time.pyOr (some .inf) s.interval + s.time = .inf := by
          rw [ht]; rfl
        rw [hwh, if_pos rfl]
        simp only [runBucket, finishStep, Bool.false_eq_true, if_false, headTime, ht]
      simp only [timedStepper]
      rw [hstep]
      refine ⟨rfl, ?_, ?_, ?_, h4, fun h => by omega, fun _ => ⟨rfl, rfl, by rw [ha]; rfl⟩, h7, h8⟩
      · rw [min_eq_left (by omega), List.range_succ, actsOf_append, List.map_append, List.map_append, h1]
        simp [actsOf]
      · rw [min_eq_left (by omega)]
        simp [h2]
      · rw [min_eq_left (by omega)]
        exact hw''
  · obtain ⟨hq, ht, ha⟩ := h6 (by omega)
    have e : s.step (pongRunCode.timed order perm) (p, c) = (s, (p, c), false) := by
      unfold Sched.step
      rw [hq]
    simp only [timedStepper]
    rw [e]
    have e1 : min (n + 1) ((max m 1).toNat + 1) = min n ((max m 1).toNat + 1) := by omega
    refine ⟨rfl, ?_, ?_, ?_, h4, fun h => by omega, fun _ => ⟨hq, ht, ha⟩, h7, h8⟩
    · rw [e1]; exact h1
    · rw [e1]; exact h2
    · rw [e1]; exact h3

/-- C253: `RandomEnv`, for all delays that are drawn and every `max_pongs`: after `n` steps the agent has run at the first `n` of its times, which are the sums of the delays;
after `max_pongs + 1` of them (2 if that is less than 1) it is dead and removed, nothing is scheduled and nothing happens any more; no step raises. -/
theorem C253_pongs (m : Int) (d : Nat → Rat) (hd : ∀ k, 0 ≤ d k) (n : Nat) :
    PongsAt m d n (timedRun pongRunCode order perm 1 [0] (pongStart m d hd) n) ∧
      ((timedStepper (pongRunCode.timed order perm)).step (timedRun pongRunCode order perm 1 [0] (pongStart m d hd) n)).2 = false := by
  have h : PongsAt m d n (timedRun pongRunCode order perm 1 [0] (pongStart m d hd) n) := by
    induction n with
    | zero => exact ⟨by simp; rfl, by simp; rfl, by simp; rfl, rfl, fun _ => ⟨rfl, rfl, rfl⟩, fun h => by omega, rfl, rfl⟩
    | succ n ih =>
      unfold timedRun at ih ⊢
      rw [iterStep_succ]
      exact (pongs_step order perm hd ih).2
  exact ⟨h, (pongs_step order perm hd h).1⟩

private theorem pong_first (f : Nat → Rat) (T : Rat) (M : Nat) : ∃ n ≤ M, (∀ k < n, f k < T) ∧ (n < M → T ≤ f n) := by
  induction M with
  | zero => exact ⟨0, le_refl _, fun _ h => by omega, fun h => by omega⟩
  | succ M ih =>
    obtain ⟨n, h1, h2, h3⟩ := ih
    by_cases hn : n < M
    · exact ⟨n, by omega, h2, fun _ => h3 hn⟩
    · by_cases hT : f n < T
      · refine ⟨n + 1, by omega, fun k hk => ?_, fun h => by omega⟩
        rcases (by omega : k < n ∨ k = n) with h | rfl
        · exact h2 k h
        · exact hT
      · exact ⟨n, by omega, h2, fun _ => not_lt.1 hT⟩

private theorem filter_first {f : Nat → Rat} (hf : StrictMono f) {T : Rat} {n M : Nat} (hn : n ≤ M) (h1 : ∀ k < n, f k < T) (h2 : n < M → T ≤ f n) :
    (List.range M).filter (fun k => decide (f k < T)) = List.range n := by
  obtain ⟨e, rfl⟩ := Nat.exists_eq_add_of_le hn
  rw [List.range_add, List.filter_append]
  have a1 : (List.range n).filter (fun k => decide (f k < T)) = List.range n := by
    rw [List.filter_eq_self]
    intro k hk
    simpa using h1 k (List.mem_range.1 hk)
  have a2 : ((List.range e).map (fun x => n + x)).filter (fun k => decide (f k < T)) = [] := by
    rw [List.filter_eq_nil_iff]
    intro k hk
    obtain ⟨x, hx, rfl⟩ := List.mem_map.1 hk
    rw [List.mem_range] at hx
    have := h2 (by omega)
    have := hf.monotone (by omega : n ≤ n + x)
    simp only [decide_eq_true_eq, not_lt]
    linarith
  rw [a1, a2, List.append_nil]

/-- C253: a simulation of `RandomEnv` with `max_time` (100 in the example) returns, and the agent has run at exactly those of its times that are before the limit. -/
theorem C253_pongs_max_time (m : Int) (d : Nat → Rat) (hd : ∀ k, 0 ≤ d k) (T : Rat) (fuel : Nat) (hf : (max m 1).toNat + 1 ≤ fuel) :
    ∃ x, runModel (timedStepper (pongRunCode.timed order perm)) (some (.fin T)) none fuel (timedPop (pongRunCode.timed order perm) 1 [0] (pongStart m d hd)) = .done x ∧
      (actsOf 0 x.1.log).map (·.1) = ((List.range ((max m 1).toNat + 1)).filter (fun k => decide (pongTime d k < T))).map (fun k => Time.fin (pongTime d k)) ∧
      .fin T ≤ x.1.time := by
  obtain ⟨n, n1, n2, n3⟩ := pong_first (pongTime d) T ((max m 1).toNat + 1)
  rw [filter_first (pongTime_mono hd) n1 n2 n3]
  have hn := (C253_pongs order perm m d hd n).1
  have htime : .fin T ≤ (timedRun pongRunCode order perm 1 [0] (pongStart m d hd) n).1.time := by
    by_cases hl : n ≤ (max m 1).toNat
    · rw [(hn.early hl).2.1, Time.fin_le]
      exact n3 (by omega)
    · rw [(hn.late (by omega)).2.1]
      exact Time.le_inf _
  have ha := hn.acts
  rw [min_eq_left n1] at ha
  refine ⟨_, ?_, ha, htime⟩
  unfold runModel
  rw [if_neg (show ¬ _ from by
    have : (timedPop (pongRunCode.timed order perm) 1 [0] (pongStart m d hd)).1.agents = [0] := rfl
    simp [timedStepper, this])]
  refine runLoop_done_ge _ _ none n fuel (by omega) _ ?_ ?_
  · intro j hj
    obtain ⟨g1, g2⟩ := C253_pongs order perm m d hd j
    refine ⟨?_, g2⟩
    show (!(timedRun pongRunCode order perm 1 [0] (pongStart m d hd) j).1.running || decide (.fin T ≤ (timedRun pongRunCode order perm 1 [0] (pongStart m d hd) j).1.time)) = false
    rw [g1.running, (g1.early (by omega)).2.1]
    have : ¬ Time.fin T ≤ .fin (pongTime d j) := by rw [not_le, Time.fin_lt]; exact n2 j hj
    rw [decide_eq_false this]
    rfl
  · show (!(timedRun pongRunCode order perm 1 [0] (pongStart m d hd) n).1.running || decide (.fin T ≤ (timedRun pongRunCode order perm 1 [0] (pongStart m d hd) n).1.time)) = true
    rw [decide_eq_true htime]
    simp

theorem pong_plain : PlainCode pongRunCode := by
  intro r t n as w
  constructor
  · intro q wh h
    unfold pongRunCode at h
    simp only at h
    split at h <;> simp at h
  · intro e he
    obtain ⟨⟨o, a⟩, hw⟩ := w
    simp only at hw
    have he : (pongBeh (o, a) t).1 = .ret (some e) := he
    cases o with
    | none => simp [pongBeh, fsmBeh] at he
    | some dd =>
      have hz : ∀ q : Rat, 0 ≤ q → (0 : Time) ≤ .fin q := fun q h => by show Time.fin 0 ≤ _; rw [Time.fin_le]; exact h
      simp only [pongBeh, fsmBeh, pongCode] at he
      by_cases h1 : dd.fn = 1
      · rw [if_pos h1] at he
        have he : Reply.ret (some (.fin (a.draws a.used))) = .ret (some e) := he
        cases he
        exact hz _ (hw _)
      · rw [if_neg h1] at he
        by_cases h2 : dd.fn = 2
        · rw [if_pos h2] at he
          by_cases h3 : a.maxPongs - 1 < 1
          · rw [if_pos h3] at he
            have he : Reply.ret (some .inf) = .ret (some e) := he
            cases he
            exact Time.le_inf _
          · rw [if_neg h3] at he
            have he : Reply.ret (some (.fin (a.draws a.used))) = .ret (some e) := he
            cases he
            exact hz _ (hw _)
        · rw [if_neg h2] at he
          have he : Reply.ret (some .inf) = .ret (some e) := he
          cases he
          exact Time.le_inf _

/-- C253: the same with `PQueueActivation`, whatever its keys. -/
theorem C253_pongs_pqueue (m : Int) (d : Nat → Rat) (hd : ∀ k, 0 ≤ d k) (keys : Ref → Nat → Rat) (N : Nat) (hN : 1 ≤ N) (T : Rat) (fuel : Nat)
    (hf : (max m 1).toNat + 1 ≤ fuel) :
    ∃ x, runModel (pqStepper (pongRunCode.pqueue keys) N) (some (.fin T)) none fuel (pqueuePop (pongRunCode.pqueue keys) 1 [0] (pongStart m d hd)) = .done x ∧
      (actsOf 0 x.1.log).map (·.1) = ((List.range ((max m 1).toNat + 1)).filter (fun k => decide (pongTime d k < T))).map (fun k => Time.fin (pongTime d k)) ∧
      .fin T ≤ x.1.time := by
  obtain ⟨order, perm, h⟩ := C247_outcome pongRunCode pong_plain keys N 1 (by decide +kernel) [0] (by simp) hN (pongStart m d hd) (.fin T) none
  have h := h fuel
  obtain ⟨x, e, h1, h2⟩ := C253_pongs_max_time order perm m d hd T fuel hf
  rw [e] at h
  generalize runModel (pqStepper (pongRunCode.pqueue keys) N) (some (.fin T)) none fuel (pqueuePop (pongRunCode.pqueue keys) 1 [0] (pongStart m d hd)) = o at h ⊢
  cases o with
  | done y =>
    obtain ⟨-, g1, g2, -⟩ := h
    exact ⟨y, rfl, by rw [← g1]; exact h1, by rw [← g2]; exact h2⟩
  | raised y => exact h.elim
  | running y => exact h.elim

/-- C253: without `max_time`, the simulation never ends with `TimedActivation` if `max_steps` is more than the agent takes (C19). -/
theorem C253_pongs_endless (m : Int) (d : Nat → Rat) (hd : ∀ k, 0 ≤ d k) (maxSteps : Option Nat) (hm : ∀ k, maxSteps = some k → (max m 1).toNat + 1 < k) (fuel : Nat) :
    ∃ x, runModel (timedStepper (pongRunCode.timed order perm)) none maxSteps fuel (timedPop (pongRunCode.timed order perm) 1 [0] (pongStart m d hd)) = .running x := by
  unfold runModel
  rw [if_neg (show ¬ _ from by
    have : (timedPop (pongRunCode.timed order perm) 1 [0] (pongStart m d hd)).1.agents = [0] := rfl
    simp [timedStepper, this])]
  have key : ∀ fuel n, ∃ x, runLoop (timedStepper (pongRunCode.timed order perm)) none maxSteps fuel (timedRun pongRunCode order perm 1 [0] (pongStart m d hd) n) = .running x := by
    intro fuel
    induction fuel with
    | zero =>
      intro n
      refine ⟨timedRun pongRunCode order perm 1 [0] (pongStart m d hd) n, ?_⟩
      · unfold runLoop
        rw [if_neg]
        obtain ⟨g1, -⟩ := C253_pongs order perm m d hd n
        have a1 := g1.running
        have a2 := g1.steps
        cases maxSteps with
        | none => simp [isDone, timedStepper, a1]
        | some k =>
          have := hm k rfl
          simp [isDone, timedStepper, a1, a2]
          omega
    | succ fuel ih =>
      intro n
      obtain ⟨g1, g2⟩ := C253_pongs order perm m d hd n
      unfold runLoop
      rw [if_neg (by
        have a1 := g1.running
        have a2 := g1.steps
        cases maxSteps with
        | none => simp [isDone, timedStepper, a1]
        | some k =>
          have := hm k rfl
          simp [isDone, timedStepper, a1, a2]
          omega)]
      simp only [g2, Bool.false_eq_true, if_false]
      have := ih (n + 1)
      unfold timedRun at this
      rw [iterStep_succ] at this
      exact this
  exact key fuel 0

set_option maxRecDepth 100000 in
/-- The delays 5/2, 7/2, 9/2, …, two pongs, as in the example; with the limit 5 there is one of them only. -/
example : (timedRun pongRunCode (fun _ l => l) (fun _ l => .refl l) 1 [0] (pongStart 2 (fun k => k + 5 / 2) (fun k => by positivity)) 5).1.log
    = [.added 0 0, .act 0 0 (.ret (some (.fin (5 / 2)))), .act 0 (.fin (5 / 2)) (.ret (some (.fin (7 / 2)))), .act 0 6 (.ret (some .inf))] ∧
    ((List.range ((max 2 1 : Int).toNat + 1)).filter (fun k => decide (pongTime (fun k => k + 5 / 2) k < 5))).map (pongTime (fun k => k + 5 / 2)) = [0, 5 / 2] := by
  decide +kernel

end Verif
