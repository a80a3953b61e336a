import Verif.Proofs.RunLoop
import Verif.Props.Scheduler

/-!
# Properties of running a simulation (C16-C19)

The environment at the start of the run is any state reached by a history `h` (normally the
additions made by the constructor).
-/

namespace Verif
open Spec

variable {W : Type}

theorem iterStep_reach (H : Host W) (iv : Time) (sh : Bool) (w0 : W) (h : List (Cmd W)) (n : Nat) :
    iterStep (timedStepper H) n (reach H iv sh w0 h) = reach H iv sh w0 (h ++ List.replicate n .step) := by
  rw [iterStep_timed, reach, reach, execAll_append]

theorem runModel_done {S : Type} {st : Stepper S} {mt : Option Time} {ms : Option Nat} {fuel : Nat}
    {s s' : S} (h : runModel st mt ms fuel s = .done s') : runLoop st mt ms fuel s = .done s' := by
  unfold runModel at h
  split at h
  · cases h
  · exact h

/-- C16: in a run with `max_time = T` no event (activation or addition) happens at or after `T`,
and when the clock has reached `T` nothing that was due before `T` is left pending. -/
theorem C16_max_time_open (H : Host W) (iv : Time) (hiv : 0 < iv) (sh : Bool) (w0 : W)
    (h : List (Cmd W)) (T : Time) (ms : Option Nat) (fuel : Nat) (sw : Sched × W)
    (hrun : runModel (timedStepper H) (some T) ms fuel (reach H iv sh w0 h) = .done sw)
    (hg : GoodLog sw.1.log) :
    ∃ evs, sw.1.log = (reach H iv sh w0 h).1.log ++ evs ∧
      (∀ e ∈ evs, e.time < T) ∧
      (T ≤ sw.1.time → ∀ p ∈ cal iv sw.1.log, T ≤ p.2) := by
  obtain ⟨n, hs, hd, hm⟩ := runLoop_done _ _ _ (runModel_done hrun)
  rw [iterStep_reach] at hs
  subst hs
  have aux : ∀ k ≤ n, ∃ evs, (reach H iv sh w0 (h ++ List.replicate k .step)).1.log
      = (reach H iv sh w0 h).1.log ++ evs ∧ ∀ e ∈ evs, e.time < T := by
    intro k
    induction k with
    | zero => intro _; exact ⟨[], by simp, by simp⟩
    | succ k ih =>
      intro hk
      obtain ⟨evs, he, hlt⟩ := ih (by omega)
      have hnd := (hm k (by omega)).1
      rw [iterStep_reach] at hnd
      have htime : (reach H iv sh w0 (h ++ List.replicate k .step)).1.time < T := (isDone_time hnd).1
      have hgk1 : GoodLog (reach H iv sh w0 (h ++ List.replicate (k + 1) .step)).1.log := by
        obtain ⟨j, rfl⟩ : ∃ j, n = (k + 1) + j := ⟨n - (k + 1), by omega⟩
        rw [List.replicate_add, ← List.append_assoc, reach, execAll_append] at hg
        obtain ⟨l, hl⟩ := execAll_log H (List.replicate j .step)
          (execAll H (h ++ List.replicate (k + 1) .step) (Sched.init iv sh, w0))
        rw [hl] at hg
        exact hg.prefix
      rw [List.replicate_succ', ← List.append_assoc] at hgk1 ⊢
      rw [reach_snoc] at hgk1 ⊢
      have hgk : GoodLog (reach H iv sh w0 (h ++ List.replicate k .step)).1.log := by
        obtain ⟨l, hl⟩ := Cmd.exec_log H .step (reach H iv sh w0 (h ++ List.replicate k .step))
        rw [hl] at hgk1; exact hgk1.prefix
      obtain ⟨evs2, he2, ht2, _⟩ := (reach_inv hiv hgk).step_spec H _ hgk1
      refine ⟨evs ++ evs2, ?_, ?_⟩
      · exact he2.trans (by rw [he, List.append_assoc])
      · intro e hmem
        rcases List.mem_append.1 hmem with hmem | hmem
        · exact hlt e hmem
        · rw [ht2 e hmem]; exact htime
  obtain ⟨evs, he, hlt⟩ := aux n le_rfl
  refine ⟨evs, he, hlt, ?_⟩
  intro hT p hp
  have := (reach_inv hiv hg).mid.mem_le
  rw [reach_interval] at this
  exact le_trans hT (this p hp)

/-- Three agents with delays 1, 2, 3 (in `exHost`), run up to time 4. -/
def exPop : List (Cmd Unit) := [.op (.add 0 none), .op (.add 1 none), .op (.add 2 none)]

/-- The run returned and its final state satisfies `p` (used for the concrete cases). -/
def Outcome.returned {S : Type} (p : S → Bool) : Outcome S → Bool
  | .done s => p s
  | _ => false

example : (runModel (timedStepper exHost) (some 4) none 20 (reach exHost 1 true () exPop)).returned
    (fun sw => decide (GoodLog sw.1.log ∧ (4 : Time) ≤ sw.1.time ∧
      actRefs sw.1.log = [2, 1, 0, 7, 0, 0, 1, 0, 2])) = true := by
  decide +kernel

/-- C17: a run with `max_steps = n` started with at most `n` steps never exceeds `n` scheduler
steps, and if it ends with the model still running (and `max_time`, if any, not reached) it has
performed exactly `n`. No assumption on the behaviours. -/
theorem C17_max_steps_exact (H : Host W) (sw0 sw : Sched × W) (mt : Option Time) (n fuel : Nat)
    (h0 : sw0.1.steps ≤ n)
    (hrun : runModel (timedStepper H) mt (some n) fuel sw0 = .done sw) :
    sw.1.steps ≤ n ∧
    (sw.1.running = true → (∀ T, mt = some T → sw.1.time < T) → sw.1.steps = n) := by
  obtain ⟨k, hs, hd, hm⟩ := runLoop_done _ _ _ (runModel_done hrun)
  have hle : sw.1.steps ≤ n := by
    cases k with
    | zero => rw [hs]; exact h0
    | succ k =>
      have hnd := isDone_steps (hm k (by omega)).1
      rw [hs, iterStep_succ]
      exact le_trans (step_steps_le H _ _) hnd
  refine ⟨hle, ?_⟩
  intro hr ht
  apply le_antisymm hle
  cases mt with
  | none =>
    simp only [isDone, timedStepper, hr, Bool.not_true, Bool.false_or] at hd
    exact of_decide_eq_true hd
  | some T =>
    have hT := ht T rfl
    simp only [isDone, timedStepper, hr] at hd
    simp only [Bool.not_true, Bool.false_or, Bool.or_eq_true] at hd
    rcases hd with hd | hd
    · exact absurd (of_decide_eq_true hd) (not_le.2 hT)
    · exact of_decide_eq_true hd

example : (runModel (timedStepper exHost) none (some 5) 20 (reach exHost 1 true () exPop)).returned
    (fun sw => decide (sw.1.running = true ∧ sw.1.steps = 5)) = true := by
  decide +kernel

/-- The calls of `step`, among the first `k` after `h`, that ran at least one agent. -/
def busySteps (H : Host W) (iv : Time) (sh : Bool) (w0 : W) (h : List (Cmd W)) (k : Nat) : List Nat :=
  (List.range k).filter fun i =>
    (actRefs (reach H iv sh w0 (h ++ List.replicate i .step)).1.log).length
      < (actRefs (reach H iv sh w0 (h ++ List.replicate (i + 1) .step)).1.log).length

/-- C17: what is counted as a step is a call of `step` that runs at least one agent, neither more nor less. -/
theorem C17_steps_counted (H : Host W) (iv : Time) (hiv : 0 < iv) (sh : Bool) (w0 : W) (h : List (Cmd W)) (k : Nat)
    (hg : GoodLog (reach H iv sh w0 (h ++ List.replicate k .step)).1.log) :
    (reach H iv sh w0 (h ++ List.replicate k .step)).1.steps
      = (reach H iv sh w0 h).1.steps + (busySteps H iv sh w0 h k).length := by
  induction k with
  | zero => simp [busySteps]
  | succ k ih =>
    have hb : busySteps H iv sh w0 h (k + 1) = busySteps H iv sh w0 h k ++
        (if (actRefs (reach H iv sh w0 (h ++ List.replicate k .step)).1.log).length
          < (actRefs (reach H iv sh w0 (h ++ List.replicate (k + 1) .step)).1.log).length then [k] else []) := by
      unfold busySteps
      rw [List.range_succ, List.filter_append]
      congr 1
      by_cases hc : (actRefs (reach H iv sh w0 (h ++ List.replicate k .step)).1.log).length
          < (actRefs (reach H iv sh w0 (h ++ List.replicate (k + 1) .step)).1.log).length
      · rw [if_pos hc]; simp [hc]
      · rw [if_neg hc]; simp only [List.filter_cons, decide_eq_true_eq, if_neg hc, List.filter_nil]
    rw [hb]
    rw [List.replicate_succ', ← List.append_assoc, reach_snoc] at hg ⊢
    have hgk : GoodLog (reach H iv sh w0 (h ++ List.replicate k .step)).1.log := by
      obtain ⟨l, hl⟩ := Cmd.exec_log H .step (reach H iv sh w0 (h ++ List.replicate k .step))
      rw [hl] at hg; exact hg.prefix
    have ih := ih hgk
    have hi := reach_inv hiv hgk
    generalize reach H iv sh w0 (h ++ List.replicate k .step) = sw at *
    obtain ⟨s, w⟩ := sw
    have hg' : GoodLog (s.step H w).1.log := hg
    have hst := hi.step_steps (H := H) w (hi.step H w hg').2.1
    obtain ⟨evs, hev, _, hac⟩ := hi.step_spec H w hg'
    show (s.step H w).1.steps = _ + (_ ++ if (actRefs s.log).length < (actRefs (s.step H w).1.log).length then [k] else []).length
    have happ : actRefs (s.log ++ evs) = actRefs s.log ++ actRefs evs := by simp [actRefs]
    have hlen : actRefs evs = [] ↔ s.queue = [] := by
      rw [hac]
      constructor
      · intro h0
        by_contra hq
        have hb0 : bucketAt s.queue s.time = [] := by
          have := runOrder_perm H s (bucketAt s.queue s.time) w
          rw [h0] at this
          exact this.symm.eq_nil
        cases hqq : s.queue with
        | nil => exact hq hqq
        | cons c q =>
          obtain ⟨u, b⟩ := c
          have hu : headTime s.queue = s.time := hi.head hq
          rw [hqq] at hu hb0
          have hu' : u = s.time := hu
          simp only [bucketAt, hu', if_true] at hb0
          exact hi.ne (u, b) (by rw [hqq]; simp) hb0
      · intro hq
        rw [hq]
        exact (runOrder_perm H s [] w).eq_nil
    have hst : (s.step H w).1.steps = s.steps + (if s.queue = [] then 0 else 1) := hst
    have hev : (s.step H w).1.log = s.log ++ evs := hev
    rw [hst, hev, happ, List.length_append (as := actRefs s.log)]
    by_cases hq : s.queue = []
    · rw [if_pos hq, hlen.2 hq, if_neg (by simp)]
      simpa using ih
    · have hne : actRefs evs ≠ [] := fun h0 => hq (hlen.1 h0)
      have := List.length_pos_iff.2 hne
      rw [if_neg hq, if_pos (by omega)]
      simp only [List.length_append, List.length_singleton]
      have ih' : s.steps = (reach H iv sh w0 h).1.steps + (busySteps H iv sh w0 h k).length := ih
      omega

example : GoodLog (reach exHost 1 true () (exPop ++ List.replicate 4 .step)).1.log ∧
    busySteps exHost 1 true () exPop 4 = [0, 1, 2, 3] ∧
    (reach exHost 1 true () (exPop ++ List.replicate 4 .step)).1.steps = 4 := by
  decide +kernel

example : busySteps exHost 1 true () [.op (.add 3 none)] 4 = [0] := by
  decide +kernel

/-- C18: a run with a finite `max_time` in which every activation waits at least `δ > 0` and which
adds at most `K` agents ends (it returns or raises; it does not go on for ever). -/
theorem C18_terminates_adds (H : Host W) (iv : Time) (hiv : 0 < iv) (sh : Bool) (w0 : W)
    (h : List (Cmd W)) (hg : GoodLog (reach H iv sh w0 h).1.log) (T δ : Rat) (hδ : 0 < δ)
    (ms : Option Nat)
    (hwait : ∀ n r t d, Ev.act r t (.ret d) ∈ (reach H iv sh w0 (h ++ List.replicate n .step)).1.log →
      .fin δ ≤ effDelay iv d)
    (K : Nat) (hadds : ∀ n evs, (reach H iv sh w0 (h ++ List.replicate n .step)).1.log
      = (reach H iv sh w0 h).1.log ++ evs → addsIn evs ≤ K) :
    ∃ fuel, ∀ sw, runModel (timedStepper H) (some (.fin T)) ms fuel (reach H iv sh w0 h) ≠ .running sw := by
  -- more steps than the total budget are impossible
  let B := calBudget T δ (cal iv (reach H iv sh w0 h).1.log) + K * budget T δ 0
  refine ⟨B + 1, ?_⟩
  intro sw hrun
  have hag : (timedStepper H).noAgents (reach H iv sh w0 h) = false := by
    unfold runModel at hrun
    split at hrun
    · cases hrun
    · rename_i hx; simpa using hx
  unfold runModel at hrun
  rw [if_neg (by rw [hag]; simp)] at hrun
  have hall := runLoop_still_running _ _ _ hrun
  -- after k steps: invariant, good log, and the budget decreased by at least k
  have aux : ∀ k ≤ B + 1, GoodLog (reach H iv sh w0 (h ++ List.replicate k .step)).1.log ∧
      (k ≠ 0 → (reach H iv sh w0 (h ++ List.replicate k .step)).1.log ≠ []) ∧
      ∃ pre, (reach H iv sh w0 (h ++ List.replicate k .step)).1.log = (reach H iv sh w0 h).1.log ++ pre ∧
      calBudget T δ (cal iv (reach H iv sh w0 (h ++ List.replicate k .step)).1.log) + k
        ≤ calBudget T δ (cal iv (reach H iv sh w0 h).1.log) + addsIn pre * budget T δ 0 := by
    intro k
    induction k with
    | zero => intro _; simp only [List.replicate_zero, List.append_nil]; exact ⟨hg, by simp, [], by simp, by simp [addsIn]⟩
    | succ k ih =>
      intro hk
      obtain ⟨hgk, hne, pre, hpre, hb⟩ := ih (by omega)
      have hnd := hall k (by omega)
      rw [iterStep_reach] at hnd
      have htime : (reach H iv sh w0 (h ++ List.replicate k .step)).1.time < .fin T := (isDone_time hnd.1).1
      have hraise := hnd.2 (by omega)
      obtain ⟨l, hl, hl'⟩ := step_no_error H _ _ hraise
      have hrep : h ++ List.replicate (k + 1) (Cmd.step (W := W)) = (h ++ List.replicate k .step) ++ [.step] := by
        rw [List.replicate_succ', List.append_assoc]
      have hlog : (reach H iv sh w0 (h ++ List.replicate (k + 1) .step)).1.log
          = (reach H iv sh w0 (h ++ List.replicate k .step)).1.log ++ l := by
        rw [hrep, reach_snoc]; exact hl
      have hgk1 : GoodLog (reach H iv sh w0 (h ++ List.replicate (k + 1) .step)).1.log := by
        intro e he
        have he0 := he
        rw [hlog] at he
        rcases List.mem_append.1 he with he | he
        · exact hgk e he
        · cases e with
          | added => trivial
          | act r t rep =>
            cases rep with
            | error => exact absurd he (hl' r t)
            | dead => trivial
            | ret d =>
              have hw := hwait (k + 1) r t d he0
              cases d with
              | none => trivial
              | some x =>
                show (0 : Time) ≤ x
                simp only [effDelay] at hw
                split at hw
                · rename_i hx; rw [hx]
                · refine le_trans ?_ hw
                  simp only [Time.zero_def, Time.fin_le]; exact le_of_lt hδ
      have hik := reach_inv hiv hgk
      have hg' := hgk1
      rw [hrep, reach_snoc] at hg'
      obtain ⟨evs, hev, het, hacts⟩ := hik.step_spec H (reach H iv sh w0 (h ++ List.replicate k Cmd.step)).2 hg'
      have hle : evs = l := List.append_cancel_left (hev.symm.trans hl)
      subst hle
      -- the queue is not empty
      have hq : (reach H iv sh w0 (h ++ List.replicate k .step)).1.queue ≠ [] := by
        intro hq
        rcases hik.empty hq with h0 | h0
        · -- nothing ever happened, so there are no agents
          have hk0 : k = 0 := by
            by_contra hk0; exact hne hk0 h0
          subst hk0
          simp only [List.replicate_zero, List.append_nil] at h0
          have hagents : ∀ (c : List (Cmd W)) (sw : Sched × W),
              (sw.1.log = [] → sw.1.agents = []) → (execAll H c sw).1.log = [] →
              (execAll H c sw).1.agents = [] := by
            intro c
            induction c with
            | nil => intro sw h1 h2; exact h1 h2
            | cons c cs ih2 =>
              intro sw h1 h2
              have e : execAll H (c :: cs) sw = execAll H cs (c.exec H sw) := rfl
              rw [e] at h2 ⊢
              apply ih2 _ _ h2
              intro h3
              obtain ⟨l, hl⟩ := c.exec_log H sw
              obtain ⟨l3, hl3⟩ := execAll_log H cs (c.exec H sw)
              rw [hl] at h3
              have h4 := (List.append_eq_nil_iff.1 h3).1
              have h5 := h1 h4
              obtain ⟨s, w⟩ := sw
              cases c with
              | step =>
                have hdrop : ∀ (now : Time) (b : List Ref) (s : Sched) (w : W), s.log = [] →
                    (runBucket H now b s w).1.log = [] → (runBucket H now b s w).1.agents = s.agents := by
                  intro now b s w hs hs2
                  cases b with
                  | nil => rfl
                  | cons r rest =>
                    exfalso
                    rw [runBucket_cons] at hs2
                    simp only at hs2
                    split at hs2
                    · rw [afterAct_log] at hs2; simp at hs2
                    · obtain ⟨l9, h9, _⟩ := runBucket_log H now rest (afterAct (s.applyOps (H.step r s w).2.1) r now (H.step r s w).1) (H.step r s w).2.2
                      rw [h9, afterAct_log] at hs2; simp at hs2
                have h6 : (s.step H w).1.log = [] := by
                  have : (s.step H w).1.log = s.log ++ l := hl
                  rw [this]; exact h3
                show (s.step H w).1.agents = []
                unfold Sched.step at h6 ⊢
                split
                · exact h5
                · rename_i t b q hq
                  simp only [hq] at h6
                  split
                  · exact h5
                  · rename_i hlt
                    rw [if_neg hlt, finishStep_log] at h6
                    have := hdrop _ _ _ _ (by exact h4) h6
                    have h7 : (finishStep (runBucket H s.time (runOrder H s b w).1 { s with queue := q } (runOrder H s b w).2)).1.agents
                        = (runBucket H s.time (runOrder H s b w).1 { s with queue := q } (runOrder H s b w).2).1.agents := by
                      unfold finishStep; split <;> rfl
                    rw [h7, this]; exact h5
              | op o =>
                cases o with
                | add r w' =>
                  exfalso
                  have : (s.addAgent r w').log = s.log ++ l := hl
                  rw [h3, addAgent_log] at this
                  simp at this
                | remove r =>
                  show s.agents.erase r = []
                  have h5' : s.agents = [] := h5
                  rw [h5']; rfl
                | stop => exact h5
              | world f => exact h5
          have := hagents h (Sched.init iv sh, w0) (fun _ => rfl) h0
          simp only [timedStepper] at hag
          rw [show (reach H iv sh w0 h).1.agents = [] from this] at hag
          simp at hag
        · rw [h0] at htime; simp at htime
      have hbne : actRefs evs ≠ [] := by
        intro he0
        rw [he0] at hacts
        have hb0 : bucketAt (reach H iv sh w0 (h ++ List.replicate k .step)).1.queue
            (reach H iv sh w0 (h ++ List.replicate k .step)).1.time = [] := by
          have := runOrder_perm H (reach H iv sh w0 (h ++ List.replicate k .step)).1
            (bucketAt (reach H iv sh w0 (h ++ List.replicate k .step)).1.queue
            (reach H iv sh w0 (h ++ List.replicate k .step)).1.time)
            (reach H iv sh w0 (h ++ List.replicate k .step)).2
          rw [← hacts] at this
          exact this.symm.eq_nil
        cases hqq : (reach H iv sh w0 (h ++ List.replicate k .step)).1.queue with
        | nil => exact hq hqq
        | cons c q =>
          obtain ⟨u, b⟩ := c
          have hu := hik.head hq
          rw [hqq] at hu hb0
          have hu' : u = (reach H iv sh w0 (h ++ List.replicate k .step)).1.time := hu
          simp only [bucketAt, hu', if_true] at hb0
          exact hik.ne (u, b) (by rw [hqq]; simp) hb0
      have hleg := (reach_inv hiv hgk1).legal
      rw [reach_interval, hlog] at hleg
      have hbud := calBudget_mixed (t0 := 0) hδ hleg (fun e he => by rw [het e he]; exact hik.time_nonneg)
        (fun e he => by rw [het e he]; exact htime)
        (fun r t d he => hwait (k + 1) r t d (by rw [hlog]; exact List.mem_append_right _ he))
      have hlen : 0 < actsIn evs := by
        rw [actsIn_eq]
        exact List.length_pos_iff.2 hbne
      refine ⟨hgk1, ?_, pre ++ evs, by rw [hlog, hpre, List.append_assoc], ?_⟩
      · intro _; rw [hlog]; intro e0
        rw [(List.append_eq_nil_iff.1 e0).2] at hlen
        exact absurd hlen (by simp [actsIn])
      · rw [hlog]
        have : addsIn (pre ++ evs) = addsIn pre + addsIn evs := by simp [addsIn]
        rw [this, Nat.add_mul]
        omega
  obtain ⟨_, _, pre, hpre, hb⟩ := aux (B + 1) le_rfl
  have := Nat.mul_le_mul_right (budget T δ 0) (hadds _ pre hpre)
  omega

/-- C18: a run with a finite `max_time` in which every activation waits at least `δ > 0` and which
adds no agents ends (it returns or raises; it does not go on for ever). -/
theorem C18_terminates (H : Host W) (iv : Time) (hiv : 0 < iv) (sh : Bool) (w0 : W)
    (h : List (Cmd W)) (hg : GoodLog (reach H iv sh w0 h).1.log) (T δ : Rat) (hδ : 0 < δ)
    (ms : Option Nat)
    (hwait : ∀ n r t d, Ev.act r t (.ret d) ∈ (reach H iv sh w0 (h ++ List.replicate n .step)).1.log →
      .fin δ ≤ effDelay iv d)
    (hnoadd : ∀ n evs, (reach H iv sh w0 (h ++ List.replicate n .step)).1.log
      = (reach H iv sh w0 h).1.log ++ evs → ∀ e ∈ evs, e.isAct = true) :
    ∃ fuel, ∀ sw, runModel (timedStepper H) (some (.fin T)) ms fuel (reach H iv sh w0 h) ≠ .running sw := by
  apply C18_terminates_adds H iv hiv sh w0 h hg T δ hδ ms hwait 0
  intro n evs he
  rw [Nat.le_zero, addsIn, List.countP_eq_zero]
  intro e hm
  have := hnoadd n evs he e hm
  cases e with
  | act => simp [Ev.isAdd]
  | added => simp [Ev.isAct] at this

/-- A run of `exHost`, in which one agent is added in the first step, ends. -/
example : addsIn ((reach exHost 1 true () (exPop ++ List.replicate 6 .step)).1.log.drop 3) = 1 ∧
    (runModel (timedStepper exHost) (some 4) none 20 (reach exHost 1 true () exPop)).returned (fun sw => sw.1.time == 4) = true := by
  decide +kernel

/-- C18 in terms of the behaviours: agents that always wait at least `δ`, never add agents. -/
theorem C18_terminates_host (H : Host W) (iv : Time) (hiv : 0 < iv) (sh : Bool) (w0 : W)
    (h : List (Cmd W)) (hg : GoodLog (reach H iv sh w0 h).1.log) (T δ : Rat) (hδ : 0 < δ)
    (ms : Option Nat)
    (hwait : ∀ r s w d, (H.step r s w).1 = .ret d → .fin δ ≤ effDelay iv d)
    (hnoadd : ∀ r s w q wh, SOp.add q wh ∉ (H.step r s w).2.1) :
    ∃ fuel, ∀ sw, runModel (timedStepper H) (some (.fin T)) ms fuel (reach H iv sh w0 h) ≠ .running sw := by
  apply C18_terminates H iv hiv sh w0 h hg T δ hδ ms
  · intro n r t d hm
    rcases execAll_replies H _ _ r t _ hm with h0 | ⟨s, w, _, h0⟩
    · cases h0
    · exact hwait r s w d h0.symm
  · intro n evs he e hm
    rw [reach, execAll_append] at he
    obtain ⟨l, hl, hl'⟩ := steps_adds H n (execAll H h (Sched.init iv sh, w0))
    have : l = evs := List.append_cancel_left (hl.symm.trans he)
    subst this
    cases e with
    | act => rfl
    | added r t =>
      obtain ⟨q, s, w, wh, hx⟩ := hl' r t hm
      exact absurd hx (hnoadd q s w r wh)

/-- A host with state-dependent delays of at least 1/2, and an agent that dies. -/
def waitHost : Host Unit where
  step r s _ := (if r = 2 && s.steps > 3 then .dead else .ret (some (.fin (1 / 2 + r + s.steps))), [], ())
  shuffle l _ := (l.reverse, ())
  shuffle_perm l _ := List.reverse_perm l

example : ∃ fuel, ∀ sw, runModel (timedStepper waitHost) (some (.fin 100)) none fuel
    (reach waitHost 1 true () exPop) ≠ .running sw := by
  apply C18_terminates_host (δ := 1 / 2)
  · decide +kernel
  · decide +kernel
  · norm_num
  · intro r s w d h
    simp only [waitHost] at h
    split at h
    · cases h
    · cases h
      simp only [effDelay]
      have hpos : (0 : Rat) < 1 / 2 + r + s.steps := by positivity
      rw [if_neg (by simp only [Time.zero_def, Time.fin.injEq]; exact ne_of_gt hpos)]
      simp only [Time.fin_le]
      have h1 : (0 : Rat) ≤ r := by positivity
      have h2 : (0 : Rat) ≤ s.steps := by positivity
      linarith
  · intro r s w q wh
    simp [waitHost]

/-! ### C19 -/

/-- C19 is violated: once everything has finished, a run without `max_time` never returns, not even
with `max_steps` (the default scheduler neither stops the model nor counts further steps). -/
theorem C19_exhausted_diverges_false (H : Host W) (iv : Time) (hiv : 0 < iv) (sh : Bool) (w0 : W)
    (h : List (Cmd W)) (hg : GoodLog (reach H iv sh w0 h).1.log)
    (hne : (reach H iv sh w0 h).1.log ≠ []) (hex : cal iv (reach H iv sh w0 h).1.log = [])
    (hrun : (reach H iv sh w0 h).1.running = true) (ms : Option Nat)
    (hms : ∀ n, ms = some n → (reach H iv sh w0 h).1.steps < n) (fuel : Nat) :
    runLoop (timedStepper H) none ms fuel (reach H iv sh w0 h) = .running (reach H iv sh w0 h) := by
  obtain ⟨_, hq⟩ := C07_exhausted_quiescent H iv hiv sh w0 h hg hne hex
  have hit : ∀ m, iterStep (timedStepper H) m (reach H iv sh w0 h) = reach H iv sh w0 h := by
    intro m; rw [iterStep_reach, hq]
  have hqe : (reach H iv sh w0 h).1.queue = [] := by
    have hi := reach_inv hiv hg
    have hp := hi.pending_perm
    rw [reach_interval, hex] at hp
    by_contra hne
    obtain ⟨b, hb⟩ := List.exists_mem_of_ne_nil _ hne
    obtain ⟨x, hx⟩ := List.exists_mem_of_ne_nil _ (hi.ne b hb)
    have : (x, b.1) ∈ pending (reach H iv sh w0 h).1 :=
      List.mem_flatMap.2 ⟨b, hb, List.mem_map.2 ⟨x, hx, rfl⟩⟩
    rw [hp.eq_nil] at this
    cases this
  rw [runLoop_running, hit]
  intro m _
  rw [hit]
  constructor
  · cases ms with
    | none => simp [isDone, timedStepper, hrun]
    | some n =>
      have := hms n rfl
      simp only [isDone, timedStepper, hrun, Bool.not_true, Bool.false_or]
      exact decide_eq_false (by omega)
  · simp [timedStepper, Sched.step, hqe]

/-- The witness: one agent that dies at once; `max_steps=10`; the run goes on for ever. -/
theorem C19_witness_false : ∃ (H : Host Unit) (h : List (Cmd Unit)), ∀ fuel,
    ∃ sw, runModel (timedStepper H) none (some 10) fuel (reach H 1 true () h) = .running sw := by
  refine ⟨exHost, [.op (.add 3 none)], ?_⟩
  intro fuel
  cases fuel with
  | zero => exact ⟨_, rfl⟩
  | succ fuel =>
    have e := C19_exhausted_diverges_false exHost 1 (by decide +kernel) true ()
      [.op (.add 3 none), .step] (by decide +kernel) (by decide +kernel) (by decide +kernel)
      (by decide +kernel) (some 10) (by intro n hn; cases hn; decide +kernel) fuel
    refine ⟨reach exHost 1 true () [.op (.add 3 none), .step], ?_⟩
    unfold runModel
    rw [if_neg (by decide +kernel)]
    unfold runLoop
    rw [if_neg (by decide +kernel)]
    simp only
    rw [if_neg (by decide +kernel)]
    exact e

/-- C19, what holds: with a finite or infinite `max_time` an exhausted model is recognised and the
run returns at once. Missing: runs without `max_time`. -/
theorem C19_exhausted_partial (H : Host W) (iv : Time) (hiv : 0 < iv) (sh : Bool) (w0 : W)
    (h : List (Cmd W)) (hg : GoodLog (reach H iv sh w0 h).1.log)
    (hne : (reach H iv sh w0 h).1.log ≠ []) (hex : cal iv (reach H iv sh w0 h).1.log = [])
    (T : Time) (ms : Option Nat) (fuel : Nat) :
    runLoop (timedStepper H) (some T) ms fuel (reach H iv sh w0 h) = .done (reach H iv sh w0 h) := by
  obtain ⟨ht, _⟩ := C07_exhausted_quiescent H iv hiv sh w0 h hg hne hex
  have hd : isDone (timedStepper H) (some T) ms (reach H iv sh w0 h) = true := by
    have : T ≤ (reach H iv sh w0 h).1.time := by rw [ht]; simp
    cases ms <;> simp [isDone, timedStepper, this]
  cases fuel <;> simp [runLoop, hd]

/-! ### C83: stopping the model -/

/-- C83: when `model.running` becomes false in the `k`-th step (no step up to it raises), the run returns, after `k` steps at
the latest, whatever the limits are. -/
theorem C83_stop_ends_run {S : Type} (st : Stepper S) (mt : Option Time) (ms : Option Nat) (k fuel : Nat) (s : S)
    (hk : st.running (iterStep st k s) = false) (hr : ∀ j < k, (st.step (iterStep st j s)).2 = false) (hf : k ≤ fuel) :
    ∃ j ≤ k, runLoop st mt ms fuel s = .done (iterStep st j s) := by
  induction k generalizing s fuel with
  | zero =>
    have hd : isDone st mt ms s = true := by
      have : st.running s = false := hk
      cases mt <;> cases ms <;> simp [isDone, this]
    refine ⟨0, le_rfl, ?_⟩
    cases fuel <;> simp [runLoop, hd, iterStep]
  | succ k ih =>
    cases fuel with
    | zero => omega
    | succ fuel =>
      by_cases hd : isDone st mt ms s = true
      · exact ⟨0, by omega, by simp [runLoop, hd, iterStep]⟩
      · have h0 : (st.step s).2 = false := hr 0 (by omega)
        have hit : ∀ j, iterStep st (j + 1) s = iterStep st j (st.step s).1 := fun j => rfl
        obtain ⟨j, hj, he⟩ := ih fuel (st.step s).1 (by rw [← hit]; exact hk)
          (by intro j hj; rw [← hit]; exact hr (j + 1) (by omega)) (by omega)
        refine ⟨j + 1, by omega, ?_⟩
        rw [hit, ← he]
        simp [runLoop, hd, h0]

private theorem applyOps_stopped (s : Sched) (os : List SOp) (h : s.running = false ∨ SOp.stop ∈ os) : (s.applyOps os).running = false := by
  unfold Sched.applyOps
  induction os generalizing s with
  | nil => exact h.resolve_right (by simp)
  | cons o os ih =>
    rw [List.foldl_cons]
    apply ih
    rcases h with h | h
    · left; cases o <;> first | exact h | rfl
    · rcases List.mem_cons.1 h with rfl | h
      · exact .inl rfl
      · exact .inr h

private theorem afterAct_running (s : Sched) (r : Ref) (now : Time) (rep : Reply) : (afterAct s r now rep).running = s.running := by
  cases rep with
  | ret d => by_cases hh : Time.pyOr d s.interval + now = .inf <;> simp [afterAct, Sched.logAct, Sched.schedule, hh]
  | dead => rfl
  | error => rfl

private theorem runBucket_stopped (H : Host W) (r : Ref) (t now : Time) (hs : ∀ s w, s.time = t → SOp.stop ∈ (H.step r s w).2.1)
    (b : List Ref) (s : Sched) (w : W) (hnow : s.time = now) (rep : Reply) :
    (s.running = false → (runBucket H now b s w).1.running = false) ∧
    (Ev.act r t rep ∈ (runBucket H now b s w).1.log → Ev.act r t rep ∈ s.log ∨ (runBucket H now b s w).1.running = false) := by
  induction b generalizing s w with
  | nil => exact ⟨fun h => h, fun h => .inl h⟩
  | cons q rest ih =>
    rw [runBucket_cons]
    simp only
    have hrun : s.running = false ∨ SOp.stop ∈ (H.step q s w).2.1 →
        (afterAct (s.applyOps (H.step q s w).2.1) q now (H.step q s w).1).running = false := by
      intro h
      rw [afterAct_running]
      exact applyOps_stopped _ _ h
    have hlog : Ev.act r t rep ∈ (afterAct (s.applyOps (H.step q s w).2.1) q now (H.step q s w).1).log →
        Ev.act r t rep ∈ s.log ∨ (afterAct (s.applyOps (H.step q s w).2.1) q now (H.step q s w).1).running = false := by
      intro h
      rw [afterAct_log] at h
      obtain ⟨l, hl, ha⟩ := applyOps_log s (H.step q s w).2.1
      rcases List.mem_append.1 h with h | h
      · rw [hl] at h
        rcases List.mem_append.1 h with h | h
        · exact .inl h
        · have : r ∈ actRefs l := List.mem_filterMap.2 ⟨_, h, rfl⟩
          rw [ha] at this
          cases this
      · have e := List.mem_singleton.1 h
        cases e
        exact .inr (hrun (.inr (hs s w hnow)))
    have htime : (afterAct (s.applyOps (H.step q s w).2.1) q now (H.step q s w).1).time = now := by
      rw [afterAct_time, applyOps_time, hnow]
    split
    · exact ⟨fun h => hrun (.inl h), hlog⟩
    · obtain ⟨i1, i2⟩ := ih _ (H.step q s w).2.2 htime
      refine ⟨fun h => i1 (hrun (.inl h)), fun h => ?_⟩
      rcases i2 h with h | h
      · exact (hlog h).imp_right i1
      · exact .inr h

/-- C83: if agent `r` calls `model.stop()` whenever it is activated at `t`, the model has stopped after the step in which this happens,
and nothing that happens afterwards starts it again. With `C83_stop_ends_run`: the run returns. -/
theorem C83_called (H : Host W) (iv : Time) (sh : Bool) (w0 : W) (h : List (Cmd W)) (r : Ref) (t : Time)
    (hs : ∀ s w, s.time = t → SOp.stop ∈ (H.step r s w).2.1) (rep : Reply)
    (ha : Ev.act r t rep ∈ (reach H iv sh w0 h).1.log) : (reach H iv sh w0 h).1.running = false := by
  unfold reach at ha ⊢
  have key : ∀ (h : List (Cmd W)) (sw : Sched × W), (Ev.act r t rep ∈ sw.1.log → sw.1.running = false) →
      Ev.act r t rep ∈ (execAll H h sw).1.log → (execAll H h sw).1.running = false := by
    intro h
    induction h with
    | nil => exact fun _ h => h
    | cons c h ih =>
      intro sw hsw
      have e : execAll H (c :: h) sw = execAll H h (c.exec H sw) := rfl
      rw [e]
      apply ih
      obtain ⟨s, w⟩ := sw
      cases c with
      | world f => exact hsw
      | op o =>
        cases o with
        | add q t' =>
          intro hm
          have hm' : Ev.act r t rep ∈ (s.applyOps [.add q t']).log := hm
          obtain ⟨l, hl, ha⟩ := applyOps_log s [.add q t']
          rw [hl] at hm'
          rcases List.mem_append.1 hm' with hm' | hm'
          · have := applyOps_stopped s [.add q t'] (.inl (hsw hm'))
            exact this
          · have : r ∈ actRefs l := List.mem_filterMap.2 ⟨_, hm', rfl⟩
            rw [ha] at this
            cases this
        | remove q => exact hsw
        | stop => exact fun _ => rfl
      | step =>
        intro hm
        show (s.step H w).1.running = false
        have hm' : Ev.act r t rep ∈ (s.step H w).1.log := hm
        cases hq : s.queue with
        | nil =>
          have e : s.step H w = (s, w, false) := by simp [Sched.step, hq]
          rw [e] at hm' ⊢
          exact hsw hm'
        | cons b q =>
          obtain ⟨t', bucket⟩ := b
          by_cases hlt : s.time < t'
          · have e : s.step H w = ({ s with time := t' }, w, false) := by simp [Sched.step, hq, hlt]
            rw [e] at hm' ⊢
            exact hsw hm'
          · have e : s.step H w = finishStep (runBucket H s.time (runOrder H s bucket w).1 { s with queue := q } (runOrder H s bucket w).2) := by
              simp only [Sched.step, hq, if_neg hlt]
            rw [e, finishStep_log] at hm'
            rw [e]
            have hf : ∀ res : Sched × W × Bool, (finishStep res).1.running = res.1.running := by
              intro res; unfold finishStep; split <;> rfl
            rw [hf]
            obtain ⟨i1, i2⟩ := runBucket_stopped H r t s.time hs (runOrder H s bucket w).1 { s with queue := q } (runOrder H s bucket w).2 rfl rep
            rcases i2 hm' with h | h
            · exact i1 (hsw h)
            · exact h
  exact key h _ (by intro h; cases h) ha

/-- C83: a run without limits returns only when the model has been stopped, and right then. -/
theorem C83_without_limits {S : Type} (st : Stepper S) (fuel : Nat) (s s' : S)
    (h : runLoop st none none fuel s = .done s') :
    st.running s' = false ∧ ∃ n, s' = iterStep st n s ∧ ∀ j < n, st.running (iterStep st j s) = true := by
  obtain ⟨n, hs, hd, hm⟩ := runLoop_done _ _ _ h
  refine ⟨by simpa [isDone] using hd, n, hs, ?_⟩
  intro j hj
  have := (hm j hj).1
  simpa [isDone] using this

/-- Agent 1 stops the model in its third step. -/
def stopHost : Host Unit where
  step r s _ := (.ret none, if r = 1 && s.steps == 2 then [.stop] else [], ())
  shuffle l _ := (l, ())
  shuffle_perm l _ := List.Perm.refl l

example : (runModel (timedStepper stopHost) none none 20 (reach stopHost 1 true () exPop)).returned
    (fun sw => decide (sw.1.steps = 3 ∧ sw.1.running = false ∧ actRefs sw.1.log = [0, 1, 2, 0, 1, 2, 0, 1, 2])) = true := by
  decide +kernel

end Verif
