import Verif.Props.PQueue
import Verif.Props.Liveness

/-!
# No agent of a `PQueueActivation` starves (C191)
-/

namespace Verif
open Spec

variable {W : Type}

/-- Only an activation takes something out of the calendar. -/
private theorem pcal_keeps {iv : Time} (l evs : List Ev) (r : Ref) (t : Time) (h : (r, t) ∈ cal iv l)
    (hno : ∀ rep, Ev.act r t rep ∉ evs) : (r, t) ∈ cal iv (l ++ evs) := by
  induction evs using List.reverseRecOn with
  | nil => simpa using h
  | append_singleton m e ih =>
    have := ih (fun rep hm => hno rep (by simp [hm]))
    rw [← List.append_assoc, cal_append_one]
    cases e with
    | added r' t' => simp [calStep, this]
    | act r' t' rep =>
      simp only [calStep, List.mem_append]
      left
      rw [List.mem_erase_of_ne]
      · exact this
      · intro he
        cases he
        exact hno rep (by simp)

private theorem pexists_min (c : Cal) (hc : c ≠ []) : ∃ p ∈ c, ∀ x ∈ c, p.2 ≤ x.2 := by
  induction c with
  | nil => exact absurd rfl hc
  | cons p c ih =>
    by_cases h : c = []
    · subst h
      exact ⟨p, by simp, by intro x hx; simp only [List.mem_singleton] at hx; subst hx; exact le_refl _⟩
    · obtain ⟨q, hq, hmin⟩ := ih h
      rcases le_total p.2 q.2 with hpq | hpq
      · refine ⟨p, by simp, ?_⟩
        intro x hx
        rcases List.mem_cons.1 hx with rfl | hx
        · exact le_refl _
        · exact le_trans hpq (hmin x hx)
      · refine ⟨q, by simp [hq], ?_⟩
        intro x hx
        rcases List.mem_cons.1 hx with rfl | hx
        · exact hpq
        · exact hmin x hx

private theorem exists_lower (l : List Ev) : ∃ t0 : Time, ∀ e ∈ l, t0 ≤ e.time := by
  induction l with
  | nil => exact ⟨0, by simp⟩
  | cons e l ih =>
    obtain ⟨t0, h⟩ := ih
    refine ⟨min t0 e.time, ?_⟩
    intro x hx
    rcases List.mem_cons.1 hx with rfl | hx
    · exact min_le_right _ _
    · exact le_trans (min_le_left _ _) (h x hx)

private theorem schedule_log (H : PHost W) (s : PSched) (w : W) (r : Ref) (wh : Option Time) (b : Bool) :
    (s.schedule H w r wh b).1.log = s.log := by
  unfold PSched.schedule
  cases b with
  | false => rfl
  | true =>
    simp only [if_true]
    cases heapreplace PEntry.lt s.queue _ <;> rfl

/-- What is logged is what the behaviours replied. -/
private theorem pLoop_replies (H : PHost W) (hna : NoAdd H) (now : Time) (fuel : Nat) (s : PSched) (w : W) (r : Ref) (t : Time) (rep : Reply)
    (hm : Ev.act r t rep ∈ (pLoop H now fuel s w).1.log) :
    Ev.act r t rep ∈ s.log ∨ ∃ s' w', rep = (H.step r s' w').1 := by
  induction fuel generalizing s w with
  | zero =>
    unfold pLoop at hm
    cases hq : s.queue with
    | nil => simp only [hq] at hm; exact Or.inl hm
    | cons e q =>
      simp only [hq] at hm
      split at hm <;> exact Or.inl hm
  | succ fuel ih =>
    unfold pLoop at hm
    cases hq : s.queue with
    | nil => simp only [hq] at hm; exact Or.inl hm
    | cons e q =>
      simp only [hq] at hm
      split at hm
      · exact Or.inl hm
      · obtain ⟨o1, _, _, o4, _, _, _⟩ := papplyOps_noadd H s (H.step e.ref s w).2.2
          (H.step e.ref s w).2.1 (hna e.ref s w)
        rw [o1] at hm
        simp only [Bool.false_eq_true, if_false] at hm
        generalize s.applyOps H (H.step e.ref s w).2.2 (H.step e.ref s w).2.1 = ops at *
        have base : ∀ x : PSched, x.log = s.log ++ [.act e.ref now (H.step e.ref s w).1] → Ev.act r t rep ∈ x.log →
            Ev.act r t rep ∈ s.log ∨ ∃ s' w', rep = (H.step r s' w').1 := by
          intro x hx hmx
          rw [hx] at hmx
          rcases List.mem_append.1 hmx with h | h
          · exact Or.inl h
          · simp only [List.mem_singleton, Ev.act.injEq] at h
            obtain ⟨rfl, _, h⟩ := h
            exact Or.inr ⟨s, w, h⟩
        cases hrep : (H.step e.ref s w).1 with
        | error =>
          simp only [hrep] at hm base
          exact base _ (by simp [PSched.logAct, o4]) hm
        | dead =>
          simp only [hrep] at hm base
          rcases ih _ _ hm with h | h
          · exact base _ (by simp [PSched.logAct, PSched.pop, o4]) h
          · exact Or.inr h
        | ret d =>
          simp only [hrep] at hm base
          split at hm
          · rcases ih _ _ hm with h | h
            · exact base _ (by simp [PSched.logAct, PSched.pop, o4]) h
            · exact Or.inr h
          · split at hm
            · exact base _ (by rw [schedule_log]; simp [PSched.logAct, o4]) hm
            · rcases ih _ _ hm with h | h
              · exact base _ (by rw [schedule_log]; simp [PSched.logAct, o4]) h
              · exact Or.inr h

private theorem pexecAll_replies (H : PHost W) (hna : NoAdd H) (N : Nat) (hist : List (Cmd W)) (sw : PSched × W) (r : Ref) (t : Time) (rep : Reply)
    (hm : Ev.act r t rep ∈ (pexecAll H N hist sw).1.log) :
    Ev.act r t rep ∈ sw.1.log ∨ ∃ s w, rep = (H.step r s w).1 := by
  induction hist generalizing sw with
  | nil => exact Or.inl hm
  | cons c hist ih =>
    rcases ih (c.pexec H N sw) hm with h | h
    · cases c with
      | step =>
        have h' : Ev.act r t rep ∈ (sw.1.step H N sw.2).1.log := h
        unfold PSched.step at h'
        split at h'
        · exact Or.inl h'
        · refine pLoop_replies H hna sw.1.time N sw.1 sw.2 r t rep ?_
          cases hst : (pLoop H sw.1.time N sw.1 sw.2).2.2.2 <;> simp only [hst] at h' <;> exact h'
      | op o =>
        have h' : Ev.act r t rep ∈ (sw.1.applyOp H sw.2 o).1.log := h
        cases o with
        | add q wh =>
          simp only [PSched.applyOp, PSched.addAgent] at h'
          split at h'
          · rw [schedule_log] at h'; exact Or.inl h'
          · simp only [schedule_log] at h'
            rcases List.mem_append.1 h' with h' | h'
            · exact Or.inl h'
            · simp at h'
        | remove q => exact Or.inl h'
        | stop => exact Or.inl h'
      | world f => exact Or.inl h
    · exact Or.inr h

/-- C191 for `PQueueActivation`: with a population added at time 0 and no agents added later (an agent that is added later may evict another one, see
`C12_add_evicts_false`), an agent that is pending for the time `t` is activated at `t` after finitely many steps, if all activations from then on wait at
least some `δ > 0`. Missing: agents that wait less and less, and agents added later. -/
theorem C191_pqueue_partial (H : PHost W) (hna : NoAdd H) (N : Nat) (iv : Time) (hiv : 0 < iv) (w0 : W) (pop : List Ref)
    (h : List (Cmd W)) (hh : ∀ c ∈ h, c.noAdd = true) (hN : pop.length ≤ N)
    (hg : ∀ n, GoodLog (preach H N iv w0 pop (h ++ List.replicate n .step)).1.log) (δ : Rat) (hδ : 0 < δ)
    (hwait : ∀ n evs, (preach H N iv w0 pop (h ++ List.replicate n .step)).1.log = (preach H N iv w0 pop h).1.log ++ evs →
      ∀ r t d, Ev.act r t (.ret d) ∈ evs → .fin δ ≤ effDelay iv d)
    (r : Ref) (t : Rat) (hp : (r, .fin t) ∈ ppending (preach H N iv w0 pop h).1) :
    ∃ n evs rep, (preach H N iv w0 pop (h ++ List.replicate n .step)).1.log = (preach H N iv w0 pop h).1.log ++ evs ∧
      Ev.act r (.fin t) rep ∈ evs := by
  have hg0 : GoodLog (preach H N iv w0 pop h).1.log := by simpa using hg 0
  have hhn : ∀ n, ∀ c ∈ h ++ List.replicate n (Cmd.step (W := W)), c.noAdd = true := by
    intro n c hc
    rcases List.mem_append.1 hc with hc | hc
    · exact hh c hc
    · rw [(List.mem_replicate.1 hc).2]; rfl
  have hcal : (r, .fin t) ∈ cal iv (preach H N iv w0 pop h).1.log := by
    obtain ⟨hi, _, hint, _, _⟩ := preach_post hna hiv hh hN hg0
    have hperm := hi.perm
    rw [hint] at hperm
    exact hperm.mem_iff.1 hp
  by_contra hcon
  have hno : ∀ n evs, (preach H N iv w0 pop (h ++ List.replicate n .step)).1.log = (preach H N iv w0 pop h).1.log ++ evs →
      ∀ rep, Ev.act r (.fin t) rep ∉ evs := fun n evs he rep hm => hcon ⟨n, evs, rep, he, hm⟩
  have key : ∀ n, ∃ evs, (preach H N iv w0 pop (h ++ List.replicate n .step)).1.log = (preach H N iv w0 pop h).1.log ++ evs ∧
      n ≤ actsIn evs ∧ ∀ e ∈ evs, e.time < .fin (t + δ) := by
    intro n
    induction n with
    | zero => exact ⟨[], by simp, by simp, by simp⟩
    | succ n ih =>
      obtain ⟨evs, h1, h2, h3⟩ := ih
      have hrep : h ++ List.replicate (n + 1) (Cmd.step (W := W)) = (h ++ List.replicate n .step) ++ [.step] := by
        rw [List.replicate_succ', List.append_assoc]
      have hgn := hg (n + 1)
      rw [hrep] at hgn ⊢
      obtain ⟨_, ⟨evs', h1', hstep⟩, _⟩ :=
        C11_pqueue_step H hna N iv hiv w0 pop (h ++ List.replicate n .step) (hhn n) hN hgn
      have hin : (r, .fin t) ∈ cal iv (preach H N iv w0 pop (h ++ List.replicate n .step)).1.log := by
        rw [h1]
        exact pcal_keeps _ _ _ _ hcal (hno n evs h1)
      obtain ⟨p, hpm, hmin⟩ := pexists_min _ (List.ne_nil_of_mem hin)
      obtain ⟨g1, g2⟩ := hstep p.1 p.2 hpm hmin
      have hpt : p.2 ≤ .fin t := hmin _ hin
      refine ⟨evs ++ evs', by rw [h1', h1, List.append_assoc], ?_, ?_⟩
      · have hpos : 0 < actsIn evs' := by
          rw [actsIn_eq, g2.length_eq]
          exact List.length_pos_of_mem (mem_dueAt.2 hpm)
        have : actsIn (evs ++ evs') = actsIn evs + actsIn evs' := by simp [actsIn]
        omega
      · intro e he
        rcases List.mem_append.1 he with he | he
        · exact h3 e he
        · rw [g1 e he]
          refine lt_of_le_of_lt hpt ?_
          simp only [Time.fin_lt]; linarith
  let M := calBudget (t + δ) δ (cal iv (preach H N iv w0 pop h).1.log)
  obtain ⟨evs, h1, h2, h3⟩ := key (M + 1)
  obtain ⟨hi, _, hint, _, l, hl, hl'⟩ := preach_post hna hiv (hhn (M + 1)) hN (hg (M + 1))
  have hleg := hi.legal
  rw [hint, h1] at hleg
  obtain ⟨_, _, _, _, l0, hl0, hl0'⟩ := preach_post hna hiv hh hN hg0
  have hacts : ∀ e ∈ evs, e.isAct = true := by
    intro e he
    have : pop.map (Ev.added · 0) ++ (l0 ++ evs) = pop.map (Ev.added · 0) ++ l := by
      rw [← List.append_assoc, ← hl0, ← h1, hl]
    have := List.append_cancel_left this
    exact hl' e (by rw [← this]; exact List.mem_append_right _ he)
  have hadds : addsIn evs = 0 := by
    rw [addsIn, List.countP_eq_zero]
    intro e he
    have := hacts e he
    cases e with
    | added => cases this
    | act => simp [Ev.isAdd]
  obtain ⟨t0, ht0⟩ := exists_lower evs
  have hb := calBudget_mixed hδ hleg ht0 h3 (hwait (M + 1) evs h1)
  rw [hadds, Nat.zero_mul] at hb
  omega

/-- The same in terms of the behaviours. -/
theorem C191_pqueue_host_partial (H : PHost W) (hna : NoAdd H) (N : Nat) (iv : Time) (hiv : 0 < iv) (w0 : W) (pop : List Ref)
    (h : List (Cmd W)) (hh : ∀ c ∈ h, c.noAdd = true) (hN : pop.length ≤ N) (δ : Rat) (hδ : 0 < δ)
    (hgood : ∀ r s w, (H.step r s w).1 ≠ .error)
    (hwait : ∀ r s w d, (H.step r s w).1 = .ret d → .fin δ ≤ effDelay iv d)
    (r : Ref) (t : Rat) (hp : (r, .fin t) ∈ ppending (preach H N iv w0 pop h).1) :
    ∃ n evs rep, (preach H N iv w0 pop (h ++ List.replicate n .step)).1.log = (preach H N iv w0 pop h).1.log ++ evs ∧
      Ev.act r (.fin t) rep ∈ evs := by
  have hrep : ∀ n r t rep, Ev.act r t rep ∈ (preach H N iv w0 pop (h ++ List.replicate n .step)).1.log → ∃ s w, rep = (H.step r s w).1 := by
    intro n r t rep hm
    rcases pexecAll_replies H hna N _ _ r t rep hm with h0 | h0
    · cases h0
    · exact h0
  refine C191_pqueue_partial H hna N iv hiv w0 pop h hh hN ?_ δ hδ ?_ r t hp
  · intro n e he
    cases e with
    | added => trivial
    | act r t rep =>
      obtain ⟨s, w, h0⟩ := hrep n r t rep he
      cases rep with
      | dead => trivial
      | error => exact absurd h0.symm (hgood r s w)
      | ret d =>
        cases d with
        | none => trivial
        | some d =>
          have := hwait r s w (some d) h0.symm
          show (0 : Time) ≤ d
          rw [effDelay] at this
          split at this
          · next hz => rw [hz]
          · refine le_trans ?_ this
            simp only [Time.zero_def, Time.fin_le]
            exact le_of_lt hδ
  · intro n evs he r t d hm
    obtain ⟨s, w, h0⟩ := hrep n r t (.ret d) (by rw [he]; exact List.mem_append_right _ hm)
    exact hwait r s w d h0.symm

/-- The hypotheses are met: agent `r` of `exPHost` waits `r + 1`, and agent 1, pending for 4, is activated then, although agent 0 is active in between. -/
example : ∃ n evs rep, (preach exPHost 3 1 0 [0, 1, 3] ([.step, .step, .step] ++ List.replicate n .step)).1.log =
      (preach exPHost 3 1 0 [0, 1, 3] [.step, .step, .step]).1.log ++ evs ∧ Ev.act 1 (.fin 4) rep ∈ evs := by
  refine C191_pqueue_host_partial exPHost exPHost_noAdd 3 1 (by decide +kernel) 0 [0, 1, 3] _ (by simp [Cmd.noAdd]) (by simp) 1 (by norm_num)
    ?_ ?_ 1 4 (by decide +kernel)
  · intro r s w h
    simp only [exPHost] at h
    split at h <;> cases h
  · intro r s w d h
    simp only [exPHost] at h
    split at h <;> cases h
    have hr : (0 : Rat) ≤ r := Nat.cast_nonneg r
    rw [effDelay, if_neg]
    · simp only [Time.fin_le]
      push_cast
      linarith
    · intro he
      injection he with he
      push_cast at he
      linarith

example : Ev.act 1 4 (.ret (some 2)) ∈ (preach exPHost 3 1 0 [0, 1, 3] ([.step, .step, .step] ++ List.replicate 2 .step)).1.log ∧
    Ev.act 1 4 (.ret (some 2)) ∉ (preach exPHost 3 1 0 [0, 1, 3] ([.step, .step, .step] ++ List.replicate 1 .step)).1.log := by
  decide +kernel

end Verif
