import Verif.Model.RunLoop
import Verif.Proofs.Timed
import Mathlib.Data.Rat.Floor
import Mathlib.Algebra.Order.Floor.Semiring
import Mathlib.Algebra.Order.Field.Rat

/-! Lemmas about the run loop. -/

namespace Verif
open Spec

section generic
variable {S : Type} (st : Stepper S) (mt : Option Time) (ms : Option Nat)

/-- State after `n` steps. -/
def iterStep : Nat → S → S
  | 0, s => s
  | n + 1, s => iterStep n (st.step s).1

theorem iterStep_succ (n : Nat) (s : S) : iterStep st (n + 1) s = (st.step (iterStep st n s)).1 := by
  induction n generalizing s with
  | zero => rfl
  | succ n ih => exact ih (st.step s).1

/-- A run that returns is a number of steps, the last state is done and no earlier one is. -/
theorem runLoop_done {fuel : Nat} {s s' : S} (h : runLoop st mt ms fuel s = .done s') :
    ∃ n, s' = iterStep st n s ∧ isDone st mt ms s' = true ∧
      ∀ m < n, isDone st mt ms (iterStep st m s) = false ∧ (st.step (iterStep st m s)).2 = false := by
  induction fuel generalizing s with
  | zero =>
    simp only [runLoop] at h
    split at h
    · rename_i hd; cases h; exact ⟨0, rfl, hd, by omega⟩
    · cases h
  | succ fuel ih =>
    simp only [runLoop] at h
    split at h
    · rename_i hd; cases h; exact ⟨0, rfl, hd, by omega⟩
    · rename_i hd
      split at h
      · cases h
      · rename_i hr
        obtain ⟨n, h1, h2, h3⟩ := ih h
        refine ⟨n + 1, h1, h2, ?_⟩
        intro m hm
        cases m with
        | zero => exact ⟨by simpa [iterStep] using hd, by simpa [iterStep] using hr⟩
        | succ m => exact h3 m (by omega)

/-- If no state met in the first `fuel` steps is done or raises, the loop is still running. -/
theorem runLoop_running {fuel : Nat} {s : S}
    (h : ∀ m ≤ fuel, isDone st mt ms (iterStep st m s) = false ∧ (st.step (iterStep st m s)).2 = false) :
    runLoop st mt ms fuel s = .running (iterStep st fuel s) := by
  induction fuel generalizing s with
  | zero =>
    have := (h 0 (by omega)).1
    simp only [iterStep] at this
    simp [runLoop, this, iterStep]
  | succ fuel ih =>
    have h0 := h 0 (by omega)
    simp only [iterStep] at h0
    simp only [runLoop, h0.1, h0.2]
    apply ih
    intro m hm
    exact h (m + 1) (by omega)

end generic

variable {W : Type} (H : Host W)

theorem iterStep_timed (n : Nat) (sw : Sched × W) :
    iterStep (timedStepper H) n sw = execAll H (List.replicate n .step) sw := by
  induction n generalizing sw with
  | zero => rfl
  | succ n ih =>
    rw [iterStep, ih]
    rfl

theorem runBucket_steps (now : Time) (b : List Ref) (s : Sched) (w : W) :
    (runBucket H now b s w).1.steps = s.steps := by
  have hops : ∀ (os : List SOp) (s : Sched), (s.applyOps os).steps = s.steps := by
    intro os
    induction os with
    | nil => intro s; rfl
    | cons o os ih => intro s; refine (ih (s.applyOp o)).trans ?_; cases o <;> rfl
  have hact : ∀ (s : Sched) (r : Ref) (rep : Reply), (afterAct s r now rep).steps = s.steps := by
    intro s r rep
    cases rep with
    | ret d =>
      by_cases hh : Time.pyOr d s.interval + now = .inf <;>
        simp [afterAct, Sched.logAct, Sched.schedule, hh]
    | dead => rfl
    | error => rfl
  induction b generalizing s w with
  | nil => rfl
  | cons r rest ih =>
    rw [runBucket_cons]
    simp only
    split
    · rw [hact, hops]
    · rw [ih, hact, hops]

/-- A step increments the step counter by at most one. -/
theorem step_steps_le (s : Sched) (w : W) : (s.step H w).1.steps ≤ s.steps + 1 := by
  unfold Sched.step
  split
  · simp
  · split
    · simp
    · simp only [finishStep]
      split
      · rw [runBucket_steps]; simp
      · simp [runBucket_steps]

/-- With something pending, a step without an exception increments the step counter by one; with
nothing pending it changes nothing. -/
theorem Inv.step_steps {s : Sched} (h : Inv s) (w : W) (hne : (s.step H w).2.2 = false) :
    (s.step H w).1.steps = s.steps + (if s.queue = [] then 0 else 1) := by
  cases hq : s.queue with
  | nil => simp [Sched.step, hq]
  | cons c q =>
    obtain ⟨t, b⟩ := c
    rw [h.step_eq H w hq] at hne ⊢
    unfold finishStep at hne ⊢
    split
    · rename_i hr
      rw [if_pos hr] at hne
      rw [hr] at hne; cases hne
    · simp [runBucket_steps]

/-! ### Termination measure -/

/-- How many more activations an agent pending at `t` can have before `T` if it always waits at
least `δ`. -/
def budget (T δ : Rat) : Time → Nat
  | .fin q => ⌈(T - q) / δ⌉₊
  | .inf => 0

theorem budget_pos {T δ : Rat} (hδ : 0 < δ) {t : Time} (h : t < .fin T) : 0 < budget T δ t := by
  cases t with
  | inf => simp at h
  | fin q =>
    simp only [budget]
    rw [Nat.ceil_pos]
    simp only [Time.fin_lt] at h
    exact div_pos (by linarith) hδ

theorem budget_lt {T δ : Rat} (hδ : 0 < δ) {t u : Time} (h : t < .fin T) (hu : t + .fin δ ≤ u) :
    budget T δ u < budget T δ t := by
  cases u with
  | inf => exact budget_pos hδ h
  | fin p =>
    cases t with
    | inf => simp at h
    | fin q =>
      simp only [Time.fin_add, Time.fin_le, Time.fin_lt] at h hu
      by_cases hp : T ≤ p
      · have : budget T δ (.fin p) = 0 := by
          simp only [budget, Nat.ceil_eq_zero]
          apply div_nonpos_of_nonpos_of_nonneg <;> linarith
        rw [this]
        exact budget_pos hδ h
      · simp only [budget]
        rw [Nat.lt_ceil]
        have h1 : (T - p) / δ ≤ (T - q) / δ - 1 := by
          rw [div_sub_one (ne_of_gt hδ)]
          apply div_le_div_of_nonneg_right _ (le_of_lt hδ)
          linarith
        have h2 : (⌈(T - p) / δ⌉₊ : ℚ) < (T - p) / δ + 1 := by
          apply Nat.ceil_lt_add_one
          apply div_nonneg <;> linarith
        linarith

/-- Total budget of a calendar. -/
def calBudget (T δ : Rat) (c : Cal) : Nat := (c.map (fun p => budget T δ p.2)).sum

theorem calBudget_perm {T δ : Rat} {c d : Cal} (h : c.Perm d) : calBudget T δ c = calBudget T δ d :=
  (h.map _).sum_nat

theorem calBudget_append (T δ : Rat) (c d : Cal) :
    calBudget T δ (c ++ d) = calBudget T δ c + calBudget T δ d := by
  simp [calBudget]

theorem calBudget_erase {T δ : Rat} {c : Cal} {p : Ref × Time} (h : p ∈ c) :
    calBudget T δ (c.erase p) + budget T δ p.2 = calBudget T δ c := by
  have := calBudget_perm (T := T) (δ := δ) (List.perm_cons_erase h)
  rw [this]
  simp [calBudget, Nat.add_comm]

/-- Activating agents before `T` that wait at least `δ` uses up the budget. -/
theorem calBudget_evs {T δ : Rat} (hδ : 0 < δ) {iv : Time} {l evs : List Ev} (hl : Legal iv (l ++ evs))
    (hact : ∀ e ∈ evs, e.isAct = true) (ht : ∀ e ∈ evs, e.time < .fin T)
    (hw : ∀ r t d, Ev.act r t (.ret d) ∈ evs → .fin δ ≤ effDelay iv d) :
    calBudget T δ (cal iv (l ++ evs)) + evs.length ≤ calBudget T δ (cal iv l) := by
  induction evs using List.reverseRecOn with
  | nil => simp
  | append_singleton m e ih =>
    rw [← List.append_assoc] at hl ⊢
    have ih' := ih hl.prefix (fun x hx => hact x (by simp [hx])) (fun x hx => ht x (by simp [hx]))
      (fun r t d hx => hw r t d (by simp [hx]))
    have hadm := hl (l ++ m) e [] (by simp)
    have hea := hact e (by simp)
    have het := ht e (by simp)
    rw [cal_append_one]
    cases e with
    | added => simp [Ev.isAct] at hea
    | act r t rep =>
      have h1 := calBudget_erase (T := T) (δ := δ) hadm.1
      simp only [calStep, calBudget_append, List.length_append, List.length_singleton]
      simp only [Ev.time] at het
      have h2 : calBudget T δ (((nextWake iv t rep).map (r, ·)).toList) < budget T δ t := by
        cases hn : nextWake iv t rep with
        | none => simpa [calBudget] using budget_pos hδ het
        | some u =>
          simp only [calBudget, Option.map_some, Option.toList_some, List.map_cons, List.map_nil,
            List.sum_cons, List.sum_nil, Nat.add_zero]
          apply budget_lt hδ het
          cases rep with
          | ret d =>
            simp only [nextWake] at hn
            split at hn
            · cases hn
            · cases hn
              have := hw r t d (by simp)
              revert this
              cases t <;> cases effDelay iv d <;> simp
          | dead => cases hn
          | error => cases hn
      simp only at h1
      omega

/-- A bucket that ran without an escaping exception contains no error replies. -/
theorem runBucket_no_error (H : Host W) (now : Time) (b : List Ref) (s : Sched) (w : W)
    (hf : (runBucket H now b s w).2.2 = false) :
    ∃ l, (runBucket H now b s w).1.log = s.log ++ l ∧ ∀ r t, Ev.act r t .error ∉ l := by
  induction b generalizing s w with
  | nil => exact ⟨[], by simp [runBucket], by simp⟩
  | cons r rest ih =>
    rw [runBucket_cons] at hf ⊢
    simp only at hf ⊢
    obtain ⟨l1, h1, h1'⟩ := applyOps_log s (H.step r s w).2.1
    split
    · rename_i he
      rw [if_pos he] at hf; cases hf
    · rename_i he
      rw [if_neg he] at hf
      obtain ⟨l2, h2, h2'⟩ := ih _ _ hf
      refine ⟨l1 ++ [.act r now (H.step r s w).1] ++ l2, ?_, ?_⟩
      · rw [h2, afterAct_log, h1]; simp
      · intro q t hm
        rcases List.mem_append.1 hm with hm | hm
        · rcases List.mem_append.1 hm with hm | hm
          · have : q ∈ actRefs l1 := mem_actRefs.2 ⟨t, _, hm⟩
            rw [h1'] at this; cases this
          · simp at hm
            exact he hm.2.2.symm
        · exact h2' q t hm

theorem step_no_error (H : Host W) (s : Sched) (w : W) (hf : (s.step H w).2.2 = false) :
    ∃ l, (s.step H w).1.log = s.log ++ l ∧ ∀ r t, Ev.act r t .error ∉ l := by
  unfold Sched.step at hf ⊢
  split
  · exact ⟨[], by simp, by simp⟩
  · rename_i t b q hq
    simp only [hq] at hf
    split
    · exact ⟨[], by simp, by simp⟩
    · rename_i hlt
      rw [if_neg hlt] at hf
      have : (runBucket H s.time (runOrder H s b w).1 { s with queue := q } (runOrder H s b w).2).2.2 = false := by
        unfold finishStep at hf
        by_contra hne
        rw [if_pos (by simpa using hne)] at hf
        exact hne hf
      obtain ⟨l, hl, hl'⟩ := runBucket_no_error H _ _ _ _ this
      exact ⟨l, by rw [finishStep_log, hl], hl'⟩

theorem runLoop_still_running {S : Type} (st : Stepper S) (mt : Option Time) (ms : Option Nat)
    {fuel : Nat} {s s' : S} (h : runLoop st mt ms fuel s = .running s') :
    ∀ m ≤ fuel, isDone st mt ms (iterStep st m s) = false ∧
      (m < fuel → (st.step (iterStep st m s)).2 = false) := by
  induction fuel generalizing s with
  | zero =>
    intro m hm
    have : m = 0 := by omega
    subst this
    simp only [runLoop] at h
    split at h
    · cases h
    · rename_i hd; exact ⟨by simpa [iterStep] using hd, by omega⟩
  | succ fuel ih =>
    simp only [runLoop] at h
    split at h
    · cases h
    · rename_i hd
      split at h
      · cases h
      · rename_i hr
        intro m hm
        cases m with
        | zero => exact ⟨by simpa [iterStep] using hd, fun _ => by simpa [iterStep] using hr⟩
        | succ m =>
          have := ih h m (by omega)
          exact ⟨this.1, fun hlt => this.2 (by omega)⟩

theorem isDone_time {S : Type} {st : Stepper S} {t : Time} {ms : Option Nat} {s : S}
    (h : isDone st (some t) ms s = false) : st.time s < t ∧ st.running s = true := by
  cases ms <;> simp [isDone] at h <;> simp [h]

theorem isDone_steps {S : Type} {st : Stepper S} {mt : Option Time} {n : Nat} {s : S}
    (h : isDone st mt (some n) s = false) : st.steps s < n := by
  cases mt <;> simp [isDone] at h <;> omega

/-! ### Where replies and additions come from -/

theorem applyOps_adds (s : Sched) (os : List SOp) :
    ∃ l, (s.applyOps os).log = s.log ++ l ∧ actRefs l = [] ∧
      ∀ r t, Ev.added r t ∈ l → ∃ wh, SOp.add r wh ∈ os := by
  induction os generalizing s with
  | nil => exact ⟨[], by simp [Sched.applyOps], rfl, by simp⟩
  | cons o os ih =>
    obtain ⟨l2, h2, h2', h2''⟩ := ih (s.applyOp o)
    have h1 : ∃ l1, (s.applyOp o).log = s.log ++ l1 ∧ actRefs l1 = [] ∧
        ∀ r t, Ev.added r t ∈ l1 → ∃ wh, o = SOp.add r wh := by
      cases o with
      | add r w =>
        refine ⟨[.added r s.time], rfl, rfl, ?_⟩
        intro q t hm; simp at hm; exact ⟨w, by rw [hm.1]⟩
      | remove r => exact ⟨[], by simp [Sched.applyOp, Sched.removeAgent], rfl, by simp⟩
      | stop => exact ⟨[], by simp [Sched.applyOp], rfl, by simp⟩
    obtain ⟨l1, h1, h1', h1''⟩ := h1
    refine ⟨l1 ++ l2, ?_, ?_, ?_⟩
    · have : (s.applyOps (o :: os)) = (s.applyOp o).applyOps os := rfl
      rw [this, h2, h1, List.append_assoc]
    · rw [actRefs_append, h1', h2']; rfl
    · intro r t hm
      rcases List.mem_append.1 hm with hm | hm
      · obtain ⟨wh, hw⟩ := h1'' r t hm; exact ⟨wh, by simp [hw]⟩
      · obtain ⟨wh, hw⟩ := h2'' r t hm; exact ⟨wh, by simp [hw]⟩

theorem runBucket_sources (now : Time) (b : List Ref) (s : Sched) (w : W) (hnow : s.time = now) :
    ∃ l, (runBucket H now b s w).1.log = s.log ++ l ∧
      (∀ r t rep, Ev.act r t rep ∈ l → ∃ s' w', s'.time = t ∧ rep = (H.step r s' w').1) ∧
      (∀ r t, Ev.added r t ∈ l → ∃ q s' w' wh, SOp.add r wh ∈ (H.step q s' w').2.1) := by
  induction b generalizing s w with
  | nil => exact ⟨[], by simp [runBucket], by simp, by simp⟩
  | cons r rest ih =>
    rw [runBucket_cons]
    simp only
    obtain ⟨l1, h1, h1', h1''⟩ := applyOps_adds s (H.step r s w).2.1
    have hfst : ∀ q t rep, Ev.act q t rep ∈ l1 ++ [Ev.act r now (H.step r s w).1] →
        ∃ s' w', s'.time = t ∧ rep = (H.step q s' w').1 := by
      intro q t rep hm
      rcases List.mem_append.1 hm with hm | hm
      · have : q ∈ actRefs l1 := mem_actRefs.2 ⟨t, _, hm⟩
        rw [h1'] at this; cases this
      · simp only [List.mem_singleton, Ev.act.injEq] at hm
        obtain ⟨rfl, rfl, rfl⟩ := hm
        exact ⟨s, w, hnow, rfl⟩
    have hsnd : ∀ q t, Ev.added q t ∈ l1 ++ [Ev.act r now (H.step r s w).1] →
        ∃ p s' w' wh, SOp.add q wh ∈ (H.step p s' w').2.1 := by
      intro q t hm
      rcases List.mem_append.1 hm with hm | hm
      · obtain ⟨wh, hw⟩ := h1'' q t hm; exact ⟨r, s, w, wh, hw⟩
      · simp at hm
    split
    · exact ⟨l1 ++ [.act r now (H.step r s w).1], by simp [afterAct_log, h1], hfst, hsnd⟩
    · obtain ⟨l2, h2, h2', h2''⟩ := ih (afterAct (s.applyOps (H.step r s w).2.1) r now (H.step r s w).1) (H.step r s w).2.2
        (by rw [afterAct_time, applyOps_time, hnow])
      refine ⟨l1 ++ [.act r now (H.step r s w).1] ++ l2, ?_, ?_, ?_⟩
      · rw [h2, afterAct_log, h1]; simp
      · intro q t rep hm
        rcases List.mem_append.1 hm with hm | hm
        · exact hfst q t rep hm
        · exact h2' q t rep hm
      · intro q t hm
        rcases List.mem_append.1 hm with hm | hm
        · exact hsnd q t hm
        · exact h2'' q t hm

theorem step_sources (s : Sched) (w : W) :
    ∃ l, (s.step H w).1.log = s.log ++ l ∧
      (∀ r t rep, Ev.act r t rep ∈ l → ∃ s' w', s'.time = t ∧ rep = (H.step r s' w').1) ∧
      (∀ r t, Ev.added r t ∈ l → ∃ q s' w' wh, SOp.add r wh ∈ (H.step q s' w').2.1) := by
  unfold Sched.step
  split
  · exact ⟨[], by simp, by simp, by simp⟩
  · rename_i t b q hq
    split
    · exact ⟨[], by simp, by simp, by simp⟩
    · obtain ⟨l, h1, h2⟩ := runBucket_sources H s.time (runOrder H s b w).1 { s with queue := q } (runOrder H s b w).2 rfl
      exact ⟨l, by rw [finishStep_log, h1], h2⟩

theorem execAll_replies (hist : List (Cmd W)) (sw : Sched × W) (r : Ref) (t : Time) (rep : Reply)
    (hm : Ev.act r t rep ∈ (execAll H hist sw).1.log) :
    Ev.act r t rep ∈ sw.1.log ∨ ∃ s w, s.time = t ∧ rep = (H.step r s w).1 := by
  induction hist generalizing sw with
  | nil => exact Or.inl hm
  | cons c hist ih =>
    rcases ih (c.exec H sw) hm with h | h
    · obtain ⟨s, w⟩ := sw
      cases c with
      | step =>
        obtain ⟨l, h1, h2, _⟩ := step_sources H s w
        have h' : Ev.act r t rep ∈ (s.step H w).1.log := h
        rw [h1] at h'
        rcases List.mem_append.1 h' with h' | h'
        · exact Or.inl h'
        · exact Or.inr (h2 r t rep h')
      | op o =>
        obtain ⟨l, h1, h2, _⟩ := applyOps_adds s [o]
        have h' : Ev.act r t rep ∈ (s.applyOps [o]).log := h
        rw [h1] at h'
        rcases List.mem_append.1 h' with h' | h'
        · exact Or.inl h'
        · have : r ∈ actRefs l := mem_actRefs.2 ⟨t, _, h'⟩
          rw [h2] at this; cases this
      | world f => exact Or.inl h
    · exact Or.inr h

theorem steps_adds (n : Nat) (sw : Sched × W) :
    ∃ l, (execAll H (List.replicate n .step) sw).1.log = sw.1.log ++ l ∧
      ∀ r t, Ev.added r t ∈ l → ∃ q s' w' wh, SOp.add r wh ∈ (H.step q s' w').2.1 := by
  induction n generalizing sw with
  | zero => exact ⟨[], by simp [execAll], by simp⟩
  | succ n ih =>
    obtain ⟨l1, h1, _, h1'⟩ := step_sources H sw.1 sw.2
    obtain ⟨l2, h2, h2'⟩ := ih (Cmd.exec H .step sw)
    refine ⟨l1 ++ l2, ?_, ?_⟩
    · have : execAll H (List.replicate (n + 1) .step) sw = execAll H (List.replicate n .step) (Cmd.exec H .step sw) := rfl
      rw [this, h2]
      have h3 : (Cmd.exec H .step sw).1.log = sw.1.log ++ l1 := h1
      rw [h3, List.append_assoc]
    · intro r t hm
      rcases List.mem_append.1 hm with hm | hm
      · exact h1' r t hm
      · exact h2' r t hm

/-- How many agents are added in a piece of log. -/
def addsIn (l : List Ev) : Nat := l.countP Ev.isAdd

/-- How many activations there are in a piece of log. -/
def actsIn (l : List Ev) : Nat := l.countP Ev.isAct

theorem budget_anti {T δ : Rat} (hδ : 0 < δ) {t u : Time} (h : t ≤ u) : budget T δ u ≤ budget T δ t := by
  cases u with
  | inf => exact Nat.zero_le _
  | fin p =>
    cases t with
    | inf => simp at h
    | fin q =>
      simp only [Time.fin_le] at h
      simp only [budget]
      apply Nat.ceil_le_ceil
      apply div_le_div_of_nonneg_right _ (le_of_lt hδ)
      linarith

/-- Activations before `T` that wait at least `δ` use up the budget, additions increase it. -/
theorem calBudget_mixed {T δ : Rat} (hδ : 0 < δ) {iv t0 : Time} {l evs : List Ev} (hl : Legal iv (l ++ evs))
    (h0 : ∀ e ∈ evs, t0 ≤ e.time) (ht : ∀ e ∈ evs, e.time < .fin T)
    (hw : ∀ r t d, Ev.act r t (.ret d) ∈ evs → .fin δ ≤ effDelay iv d) :
    calBudget T δ (cal iv (l ++ evs)) + actsIn evs ≤ calBudget T δ (cal iv l) + addsIn evs * budget T δ t0 := by
  induction evs using List.reverseRecOn with
  | nil => simp [actsIn, addsIn]
  | append_singleton m e ih =>
    rw [← List.append_assoc] at hl ⊢
    have ih' := ih hl.prefix (fun x hx => h0 x (by simp [hx])) (fun x hx => ht x (by simp [hx]))
      (fun r t d hx => hw r t d (by simp [hx]))
    have hadm := hl (l ++ m) e [] (by simp)
    have het := ht e (by simp)
    have he0 := h0 e (by simp)
    rw [cal_append_one]
    cases e with
    | added r t =>
      simp only [Ev.time] at he0
      have := budget_anti (T := T) hδ he0
      have e1 : actsIn (m ++ [Ev.added r t]) = actsIn m := by simp [actsIn, Ev.isAct]
      have e2 : addsIn (m ++ [Ev.added r t]) = addsIn m + 1 := by simp [addsIn, Ev.isAdd]
      have e3 : calBudget T δ [(r, t)] = budget T δ t := by simp [calBudget]
      rw [e1, e2, calStep, calBudget_append, e3, Nat.add_mul]
      omega
    | act r t rep =>
      have h1 := calBudget_erase (T := T) (δ := δ) hadm.1
      simp only [Ev.time] at het
      have e1 : actsIn (m ++ [Ev.act r t rep]) = actsIn m + 1 := by simp [actsIn, Ev.isAct]
      have e2 : addsIn (m ++ [Ev.act r t rep]) = addsIn m := by simp [addsIn, Ev.isAdd]
      rw [e1, e2, calStep, calBudget_append]
      have h2 : calBudget T δ (((nextWake iv t rep).map (r, ·)).toList) < budget T δ t := by
        cases hn : nextWake iv t rep with
        | none => simpa [calBudget] using budget_pos hδ het
        | some u =>
          simp only [calBudget, Option.map_some, Option.toList_some, List.map_cons, List.map_nil,
            List.sum_cons, List.sum_nil, Nat.add_zero]
          apply budget_lt hδ het
          cases rep with
          | ret d =>
            simp only [nextWake] at hn
            split at hn
            · cases hn
            · cases hn
              have := hw r t d (by simp)
              revert this
              cases t <;> cases effDelay iv d <;> simp
          | dead => cases hn
          | error => cases hn
      simp only at h1
      omega

theorem actsIn_eq (l : List Ev) : actsIn l = (actRefs l).length := by
  induction l with
  | nil => rfl
  | cons e l ih =>
    cases e with
    | added r t => simpa [actsIn, actRefs, Ev.isAct] using ih
    | act r t rep =>
      have e1 : actsIn (Ev.act r t rep :: l) = actsIn l + 1 := List.countP_cons_of_pos rfl
      have e2 : actRefs (Ev.act r t rep :: l) = r :: actRefs l := by simp [actRefs]
      rw [e1, e2, ih, List.length_cons]

end Verif
