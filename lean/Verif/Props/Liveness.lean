import Verif.Props.Scheduler
import Verif.Props.RunLoop
import Mathlib.Tactic.Ring
import Mathlib.Tactic.Positivity

/-!
# No agent starves (C191)
-/

namespace Verif
open Spec

variable {W : Type}

/-- Only an activation takes something out of the calendar. -/
private theorem cal_keeps {iv : Time} (l evs : List Ev) (r : Ref) (t : Time) (h : (r, t) ∈ cal iv l)
    (hno : ∀ rep, Ev.act r t rep ∉ evs) : (r, t) ∈ cal iv (l ++ evs) := by
  induction evs using List.reverseRecOn with
  | nil => simpa using h
  | append_singleton m e ih =>
    have := ih (fun rep hm => hno rep (by simp [hm]))
    rw [← List.append_assoc, cal_append_one]
    cases e with
    | added r' t' => simp [calStep, this]
    | act r' t' rep =>
      simp only [calStep, List.mem_append]
      left
      rw [List.mem_erase_of_ne]
      · exact this
      · intro he
        cases he
        exact hno rep (by simp)

private theorem exists_min (c : Cal) (hc : c ≠ []) : ∃ p ∈ c, ∀ x ∈ c, p.2 ≤ x.2 := by
  induction c with
  | nil => exact absurd rfl hc
  | cons p c ih =>
    by_cases h : c = []
    · subst h
      exact ⟨p, by simp, by intro x hx; simp only [List.mem_singleton] at hx; subst hx; exact le_refl _⟩
    · obtain ⟨q, hq, hmin⟩ := ih h
      rcases le_total p.2 q.2 with hpq | hpq
      · refine ⟨p, by simp, ?_⟩
        intro x hx
        rcases List.mem_cons.1 hx with rfl | hx
        · exact le_refl _
        · exact le_trans hpq (hmin x hx)
      · refine ⟨q, by simp [hq], ?_⟩
        intro x hx
        rcases List.mem_cons.1 hx with rfl | hx
        · exact hpq
        · exact hmin x hx

/-- C191, what holds: an agent that is pending for the time `t` is activated at `t` after finitely many steps, if all activations from then on wait at least
some `δ > 0`, and at most `K` agents are added. Missing: agents that wait less and less, and agents that keep adding agents, see below. -/
theorem C191_no_starvation_partial (H : Host W) (iv : Time) (hiv : 0 < iv) (sh : Bool) (w0 : W) (h : List (Cmd W))
    (hg : ∀ n, GoodLog (reach H iv sh w0 (h ++ List.replicate n .step)).1.log) (δ : Rat) (hδ : 0 < δ) (K : Nat)
    (hwait : ∀ n evs, (reach H iv sh w0 (h ++ List.replicate n .step)).1.log = (reach H iv sh w0 h).1.log ++ evs →
      ∀ r t d, Ev.act r t (.ret d) ∈ evs → .fin δ ≤ effDelay iv d)
    (hadds : ∀ n evs, (reach H iv sh w0 (h ++ List.replicate n .step)).1.log = (reach H iv sh w0 h).1.log ++ evs → addsIn evs ≤ K)
    (r : Ref) (t : Rat) (hp : (r, .fin t) ∈ pending (reach H iv sh w0 h).1) :
    ∃ n evs rep, (reach H iv sh w0 (h ++ List.replicate n .step)).1.log = (reach H iv sh w0 h).1.log ++ evs ∧
      Ev.act r (.fin t) rep ∈ evs := by
  have hg0 : GoodLog (reach H iv sh w0 h).1.log := by simpa using hg 0
  have hcal : (r, .fin t) ∈ cal iv (reach H iv sh w0 h).1.log :=
    (C03_conservation H iv hiv sh w0 h hg0).mem_iff.1 hp
  by_contra hcon
  have hno : ∀ n evs, (reach H iv sh w0 (h ++ List.replicate n .step)).1.log = (reach H iv sh w0 h).1.log ++ evs →
      ∀ rep, Ev.act r (.fin t) rep ∉ evs := fun n evs he rep hm => hcon ⟨n, evs, rep, he, hm⟩
  -- after n steps there are at least n activations, all of them before t + δ
  have key : ∀ n, ∃ evs, (reach H iv sh w0 (h ++ List.replicate n .step)).1.log = (reach H iv sh w0 h).1.log ++ evs ∧
      n ≤ actsIn evs ∧ (∀ e ∈ evs, e.time < .fin (t + δ)) ∧ ∀ e ∈ evs, (0 : Time) ≤ e.time := by
    intro n
    induction n with
    | zero => exact ⟨[], by simp, by simp, by simp, by simp⟩
    | succ n ih =>
      obtain ⟨evs, h1, h2, h3, h4⟩ := ih
      have hrep : h ++ List.replicate (n + 1) (Cmd.step (W := W)) = (h ++ List.replicate n .step) ++ [.step] := by
        rw [List.replicate_succ', List.append_assoc]
      have hgn := hg (n + 1)
      rw [hrep] at hgn ⊢
      obtain ⟨evs', h1', _, hstep⟩ := C04_step_runs_due H iv hiv sh w0 (h ++ List.replicate n .step) hgn
      have hin : (r, .fin t) ∈ cal iv (reach H iv sh w0 (h ++ List.replicate n .step)).1.log := by
        rw [h1]
        exact cal_keeps _ _ _ _ hcal (hno n evs h1)
      obtain ⟨p, hpm, hmin⟩ := exists_min _ (List.ne_nil_of_mem hin)
      obtain ⟨g1, g2⟩ := hstep p.1 p.2 hpm hmin
      have hpt : p.2 ≤ .fin t := hmin _ hin
      have hmono := C01_time_monotone H iv hiv sh w0 (h ++ List.replicate n .step) [] (by simpa using hg n)
      have hp2 : p.2 = (reach H iv sh w0 (h ++ List.replicate n .step)).1.time := by
        have hi := reach_inv hiv (hg n)
        have hint := reach_interval H iv sh w0 (h ++ List.replicate n .step)
        exact hi.min_eq_time (r := p.1) (by rw [hint]; exact hpm) (by rw [hint]; exact hmin)
      refine ⟨evs ++ evs', by rw [h1', h1, List.append_assoc], ?_, ?_, ?_⟩
      · have hpos : 0 < actsIn evs' := by
          rw [actsIn_eq, g2.length_eq]
          exact List.length_pos_of_mem (mem_dueAt.2 hpm)
        have : actsIn (evs ++ evs') = actsIn evs + actsIn evs' := by simp [actsIn]
        omega
      · intro e he
        rcases List.mem_append.1 he with he | he
        · exact h3 e he
        · rw [g1 e he]
          refine lt_of_le_of_lt hpt ?_
          simp only [Time.fin_lt]; linarith
      · intro e he
        rcases List.mem_append.1 he with he | he
        · exact h4 e he
        · rw [g1 e he, hp2]
          exact hmono.1
  let N := calBudget (t + δ) δ (cal iv (reach H iv sh w0 h).1.log) + K * budget (t + δ) δ 0
  obtain ⟨evs, h1, h2, h3, h4⟩ := key (N + 1)
  have hleg := C03_no_spurious_activation H iv hiv sh w0 _ (hg (N + 1))
  rw [h1] at hleg
  have hb := calBudget_mixed hδ hleg h4 h3 (hwait (N + 1) evs h1)
  have hk := hadds (N + 1) evs h1
  have : addsIn evs * budget (t + δ) δ 0 ≤ K * budget (t + δ) δ 0 := Nat.mul_le_mul_right _ hk
  omega

/-- C191 in terms of the behaviours: if no behaviour fails, all of them wait at least `δ`, and none adds agents, then every pending agent is activated at
its time, whatever the history. Missing: see above. -/
theorem C191_host_partial (H : Host W) (iv : Time) (hiv : 0 < iv) (sh : Bool) (w0 : W) (h : List (Cmd W)) (δ : Rat) (hδ : 0 < δ)
    (hg : GoodLog (reach H iv sh w0 h).1.log)
    (hgood : ∀ r s w, (H.step r s w).1 ≠ .error)
    (hwait : ∀ r s w d, (H.step r s w).1 = .ret d → .fin δ ≤ effDelay iv d)
    (hnoadd : ∀ r s w q wh, SOp.add q wh ∉ (H.step r s w).2.1)
    (r : Ref) (t : Rat) (hp : (r, .fin t) ∈ pending (reach H iv sh w0 h).1) :
    ∃ n evs rep, (reach H iv sh w0 (h ++ List.replicate n .step)).1.log = (reach H iv sh w0 h).1.log ++ evs ∧
      Ev.act r (.fin t) rep ∈ evs := by
  refine C191_no_starvation_partial H iv hiv sh w0 h ?_ δ hδ 0 ?_ ?_ r t hp
  · intro n e he
    cases e with
    | added => trivial
    | act r t rep =>
      rw [reach, execAll_append] at he
      rcases execAll_replies H _ _ r t rep he with h0 | ⟨s, w, _, h0⟩
      · exact hg _ h0
      · cases rep with
        | dead => trivial
        | error => exact absurd h0.symm (hgood r s w)
        | ret d =>
          cases d with
          | none => trivial
          | some d =>
            have := hwait r s w (some d) h0.symm
            show (0 : Time) ≤ d
            rw [effDelay] at this
            split at this
            · next hz => rw [hz]
            · refine le_trans ?_ this
              simp only [Time.zero_def, Time.fin_le]
              exact le_of_lt hδ
  · intro n evs he r t d hm
    rcases execAll_replies H _ _ r t _ (show Ev.act r t (.ret d) ∈ (reach H iv sh w0 (h ++ List.replicate n .step)).1.log by
      rw [he]; exact List.mem_append_right _ hm) with h0 | ⟨s, w, _, h0⟩
    · cases h0
    · exact hwait r s w d h0.symm
  · intro n evs he
    rw [reach, execAll_append] at he
    obtain ⟨l, hl, hl'⟩ := steps_adds H n (execAll H h (Sched.init iv sh, w0))
    have : l = evs := List.append_cancel_left (hl.symm.trans he)
    subst this
    rw [Nat.le_zero, addsIn, List.countP_eq_zero]
    intro e hm
    cases e with
    | act => simp [Ev.isAdd]
    | added r t =>
      obtain ⟨q, s, w, wh, hx⟩ := hl' r t hm
      exact absurd hx (hnoadd q s w r wh)

/-! ### Violations -/

/-- Agent 1 asks for 2; agent 0 asks for 1, then 1/2, then 1/4, ... -/
def zenoHost : Host Unit where
  step r s _ := (.ret (some (if r = 1 then .fin 2 else .fin (1 / 2 ^ s.steps))), [], ())
  shuffle l _ := (l, ())
  shuffle_perm l _ := List.Perm.refl l

/-- C191 is violated by agents that wait less and less: agent 1 waits for the time 2, and never is activated again, because agent 0 is active at ever
later times before 2. -/
theorem C191_zeno_false (n : Nat) :
    let sw := reach zenoHost 1 true () ([.op (.add 0 none), .op (.add 1 none)] ++ List.replicate (n + 1) .step)
    (1, .fin 2) ∈ pending sw.1 ∧ GoodLog sw.1.log ∧ (sw.1.log.filter (fun e => e.isAct && e.ref == 1)) = [.act 1 0 (.ret (some 2))] := by
  have key : ∀ n, ∃ sw, reach zenoHost 1 true () ([.op (.add 0 none), .op (.add 1 none)] ++ List.replicate (n + 1) .step) = sw ∧
      sw.1.queue = [(.fin (2 - 1 / 2 ^ n), [0]), (.fin 2, [1])] ∧ sw.1.time = .fin (2 - 1 / 2 ^ n) ∧ sw.1.steps = n + 1 ∧ sw.1.shuffle = true ∧
      GoodLog sw.1.log ∧ (sw.1.log.filter (fun e => e.isAct && e.ref == 1)) = [.act 1 0 (.ret (some 2))] := by
    intro n
    induction n with
    | zero =>
      refine ⟨_, rfl, ?_⟩
      decide +kernel
    | succ n ih =>
      obtain ⟨⟨s, w⟩, h1, h2, h3, h4, h5, h6, h7⟩ := ih
      have hrep : [Cmd.op (SOp.add 0 none), Cmd.op (.add 1 none)] ++ List.replicate (n + 1 + 1) (Cmd.step (W := Unit)) =
          ([.op (.add 0 none), .op (.add 1 none)] ++ List.replicate (n + 1) .step) ++ [.step] := by
        rw [List.replicate_succ' (n := n + 1), List.append_assoc]
      rw [hrep, reach_snoc, h1]
      refine ⟨_, rfl, ?_⟩
      simp only at h2 h3 h4 h5 h6 h7
      have hpow : (0 : Rat) < 1 / 2 ^ (n + 1) := by positivity
      have hne : Time.fin (1 / 2 ^ (n + 1)) ≠ 0 := by
        intro he
        injection he with he
        exact absurd he (ne_of_gt hpow)
      have hsum : Time.fin (1 / 2 ^ (n + 1)) + .fin (2 - 1 / 2 ^ n) = .fin (2 - 1 / 2 ^ (n + 1)) := by
        simp only [Time.fin_add, Time.fin.injEq]
        rw [pow_succ]
        field_simp
        ring
      have hlt : Time.fin (2 - 1 / 2 ^ (n + 1)) < .fin 2 := by
        simp only [Time.fin_lt]; linarith
      have hne2 : Time.fin 2 ≠ .fin (2 - 1 / 2 ^ (n + 1)) := ne_of_gt hlt
      have hstep : s.step zenoHost w = ({ s with
          queue := [(.fin (2 - 1 / 2 ^ (n + 1)), [0]), (.fin 2, [1])],
          log := s.log ++ [.act 0 (.fin (2 - 1 / 2 ^ n)) (.ret (some (.fin (1 / 2 ^ (n + 1)))))],
          steps := s.steps + 1, time := .fin (2 - 1 / 2 ^ (n + 1)) }, w, false) := by
        unfold Sched.step
        rw [h2]
        simp only
        rw [if_neg (by rw [h3]; exact lt_irrefl _)]
        simp only [runOrder, h5, if_true, zenoHost, runBucket, Sched.applyOps, List.foldl_nil, Sched.logAct, h4, h3]
        have hp : Time.pyOr (some (Time.fin (1 / 2 ^ (n + 1)))) s.interval = Time.fin (1 / 2 ^ (n + 1)) := by
          rw [pyOr_eq_eff, effDelay, if_neg hne]
        simp only [Nat.zero_ne_one, if_false, hp, hsum]
        simp only [reduceCtorEq, if_false, Sched.schedule, finishStep, Bool.false_eq_true]
        have hp2 : Time.pyOr (some (Time.fin (2 - 1 / 2 ^ (n + 1)))) (Time.fin (2 - 1 / 2 ^ n)) = .fin (2 - 1 / 2 ^ (n + 1)) := by
          rw [pyOr_eq_eff, effDelay, if_neg]
          intro he
          injection he with he
          have : (1 : Rat) / 2 ^ (n + 1) ≤ 1 := by
            rw [div_le_one (by positivity)]
            exact one_le_pow₀ (by norm_num)
          linarith
        rw [hp2]
        simp only [insertBucket, if_neg hne2, if_pos hlt, headTime]
      show ((s.step zenoHost w).1, (s.step zenoHost w).2.1).1.queue = _ ∧ _
      simp only [Cmd.exec, hstep]
      refine ⟨trivial, trivial, by rw [h4], h5, ?_, ?_⟩
      · intro e he
        rcases List.mem_append.1 he with he | he
        · exact h6 e he
        · simp only [List.mem_singleton] at he
          subst he
          show (0 : Time) ≤ .fin (1 / 2 ^ (n + 1))
          simp only [Time.zero_def, Time.fin_le]
          exact le_of_lt hpow
      · rw [List.filter_append, h7]
        simp [Ev.isAct, Ev.ref]
  obtain ⟨sw, h1, h2, _, _, _, h6, h7⟩ := key n
  simp only [h1]
  exact ⟨by simp [pending, h2], h6, h7⟩

/-- Agent 0 waits for 1; every other agent adds another one and waits for ever. -/
def breedHost : Host Unit where
  step r _ _ := if r = 0 then (.ret (some 1), [], ()) else (.ret (some .inf), [.add (r + 1) none], ())
  shuffle l _ := (l, ())
  shuffle_perm l _ := List.Perm.refl l

/-- C191 is violated by agents that keep adding agents: these are due at once, so the time does not advance, and agent 0, which waits for the time 1, never
is activated again. -/
theorem C191_additions_false (n : Nat) :
    let sw := reach breedHost 1 true () ([.op (.add 0 none), .op (.add 1 none)] ++ List.replicate (n + 1) .step)
    (0, 1) ∈ pending sw.1 ∧ GoodLog sw.1.log ∧ sw.1.time = 0 ∧ (sw.1.log.filter (fun e => e.isAct && e.ref == 0)) = [.act 0 0 (.ret (some 1))] := by
  have key : ∀ n, ∃ sw, reach breedHost 1 true () ([.op (.add 0 none), .op (.add 1 none)] ++ List.replicate (n + 1) .step) = sw ∧
      sw.1.queue = [(0, [n + 2]), (1, [0])] ∧ sw.1.time = 0 ∧ sw.1.shuffle = true ∧
      GoodLog sw.1.log ∧ (sw.1.log.filter (fun e => e.isAct && e.ref == 0)) = [.act 0 0 (.ret (some 1))] := by
    intro n
    induction n with
    | zero =>
      refine ⟨_, rfl, ?_⟩
      decide +kernel
    | succ n ih =>
      obtain ⟨⟨s, w⟩, h1, h2, h3, h5, h6, h7⟩ := ih
      have hrep : [Cmd.op (SOp.add 0 none), Cmd.op (.add 1 none)] ++ List.replicate (n + 1 + 1) (Cmd.step (W := Unit)) =
          ([.op (.add 0 none), .op (.add 1 none)] ++ List.replicate (n + 1) .step) ++ [.step] := by
        rw [List.replicate_succ' (n := n + 1), List.append_assoc]
      rw [hrep, reach_snoc, h1]
      refine ⟨_, rfl, ?_⟩
      simp only at h2 h3 h5 h6 h7
      have hstep : ∃ ag, s.step breedHost w = ({ s with
          queue := [(0, [n + 3]), (1, [0])], agents := ag,
          log := s.log ++ [.added (n + 3) 0, .act (n + 2) 0 (.ret (some .inf))],
          steps := s.steps + 1, time := 0 }, w, false) := by
        refine ⟨if n + 3 ∈ s.agents then s.agents else s.agents ++ [n + 3], ?_⟩
        unfold Sched.step
        rw [h2]
        simp only
        rw [if_neg (by rw [h3]; exact lt_irrefl _)]
        have hpy : Time.pyOr none (0 : Time) = 0 := rfl
        have hpy2 : Time.pyOr (some Time.inf) s.interval = .inf := rfl
        simp only [runOrder, h5, if_true, breedHost, runBucket, Nat.add_eq_zero_iff, OfNat.ofNat_ne_zero, and_false, if_false,
          Sched.applyOps, List.foldl_cons, List.foldl_nil, Sched.applyOp, Sched.addAgent, Sched.schedule, Sched.logAct, h3, hpy, hpy2, Time.inf_add,
          finishStep, Bool.false_eq_true]
        have h01 : ((1 : Time) = 0) = False := eq_false (by decide +kernel)
        have h01' : ((0 : Time) < 1) = True := eq_true (by decide +kernel)
        simp only [insertBucket, h01, h01', if_false, if_true, headTime, List.append_assoc, List.cons_append, List.nil_append]
      obtain ⟨ag, hstep⟩ := hstep
      show ((s.step breedHost w).1, (s.step breedHost w).2.1).1.queue = _ ∧ _
      simp only [Cmd.exec, hstep]
      refine ⟨trivial, trivial, h5, ?_, ?_⟩
      · intro e he
        rcases List.mem_append.1 he with he | he
        · exact h6 e he
        · simp only [List.mem_cons, List.not_mem_nil, or_false] at he
          rcases he with rfl | rfl
          · trivial
          · show (0 : Time) ≤ .inf
            simp
      · rw [List.filter_append, h7]
        simp [Ev.isAct, Ev.ref]
  obtain ⟨sw, h1, h2, h3, _, h6, h7⟩ := key n
  simp only [h1]
  exact ⟨by simp [pending, h2], h6, h3, h7⟩

/-- The hypotheses of `C191_host_partial` are met by agents that ask for `1/2 + r`, and agent 3 is activated at 7/2, in the 7th step from then on. -/
def halfHost : Host Unit where
  step r _ _ := (.ret (some (.fin (1 / 2 + r))), [], ())
  shuffle l _ := (l, ())
  shuffle_perm l _ := List.Perm.refl l

example : ∃ n evs rep, (reach halfHost 1 true () ([.op (.add 0 none), .op (.add 3 none), .step] ++ List.replicate n .step)).1.log =
      (reach halfHost 1 true () [.op (.add 0 none), .op (.add 3 none), .step]).1.log ++ evs ∧ Ev.act 3 (.fin (7 / 2)) rep ∈ evs := by
  refine C191_host_partial halfHost 1 (by decide +kernel) true () _ (1 / 2) (by norm_num) (by decide +kernel) ?_ ?_ ?_ 3 (7 / 2) (by decide +kernel)
  · intro r s w h
    cases h
  · intro r s w d h
    cases h
    have hr : (0 : Rat) ≤ r := Nat.cast_nonneg r
    rw [effDelay, if_neg]
    · simp only [Time.fin_le]
      linarith
    · intro he
      injection he with he
      linarith
  · intro r s w q wh h
    cases h

example : ((reach halfHost 1 true () ([.op (.add 0 none), .op (.add 3 none), .step] ++ List.replicate 7 .step)).1.log.filter
    (fun e => e.ref == 3 && e.isAct)).length = 2 := by decide +kernel

/-- An instance of C191: agent 1 of `exHost` (which adds one agent, and whose agents wait at least 1) is pending for 4 and is activated then. -/
example : (1, .fin 4) ∈ pending (reach exHost 1 true () exHist).1 ∧
    Ev.act 1 4 (.ret (some 2)) ∈ (reach exHost 1 true () (exHist ++ List.replicate 2 .step)).1.log ∧
    Ev.act 1 4 (.ret (some 2)) ∉ (reach exHost 1 true () exHist).1.log := by decide +kernel

end Verif
