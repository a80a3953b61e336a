import Verif.Props.Scheduler

/-!
# Invariants of the scheduler together with the world
-/

namespace Verif
open Spec

variable {W : Type}

/-- `J` is about the log, the set of agents, the clock and the world; every activation of an agent that is due keeps it. Nothing
earlier is pending then, and everything in the log is in the past. -/
structure KeepsInv (H : Host W) (iv : Time) (J : Sched → W → Prop) : Prop where
  act : ∀ r s w, s.interval = iv → J s w → (r, s.time) ∈ cal iv s.log →
    (∀ p ∈ cal iv s.log, s.time ≤ p.2) → (∀ e ∈ s.log, e.time ≤ s.time) → GoodReply (H.step r s w).1 →
    J ((s.applyOps (H.step r s w).2.1).logAct r s.time (H.step r s w).1) (H.step r s w).2.2
  same : ∀ s s' w, J s w → s'.log = s.log → s'.agents = s.agents → s.time ≤ s'.time → J s' w
  shuffle : ∀ s l w, J s w → J s (H.shuffle l w).2

private theorem afterAct_agents (s : Sched) (r : Ref) (now : Time) (rep : Reply) : (afterAct s r now rep).agents = s.agents := by
  cases rep with
  | ret d =>
    by_cases hh : Time.pyOr d s.interval + now = .inf <;> simp [afterAct, Sched.logAct, Sched.schedule, hh]
  | dead => rfl
  | error => rfl

theorem KeepsInv.bucket {H : Host W} {iv : Time} {J : Sched → W → Prop} (hJ : KeepsInv H iv J) {now : Time} {b l : List Ref}
    {s : Sched} {w : W} (hm : MidInv now b l s) (hi : s.interval = iv) (h : J s w)
    (hg : GoodLog (runBucket H now b s w).1.log) : J (runBucket H now b s w).1 (runBucket H now b s w).2.1 := by
  induction b generalizing s w l with
  | nil => exact h
  | cons r rest ih =>
    rw [runBucket_cons] at hg ⊢
    simp only at hg ⊢
    have hrep : Ev.act r now (H.step r s w).1 ∈
        (afterAct (s.applyOps (H.step r s w).2.1) r now (H.step r s w).1).log := by
      rw [afterAct_log]; simp
    split
    · rename_i he
      rw [if_pos he] at hg
      exact absurd he (hg.not_error hrep)
    · rename_i he
      rw [if_neg he] at hg
      obtain ⟨l2, h2, _⟩ := runBucket_log H now rest
        (afterAct (s.applyOps (H.step r s w).2.1) r now (H.step r s w).1) (H.step r s w).2.2
      have hg' := hg
      rw [h2] at hg'
      have hgr := hg'.prefix.reply hrep
      have hnow : s.time = now := hm.time_eq
      have hrl : r ∈ l := hm.perm.mem_iff.2 (by simp)
      have hmem : (r, s.time) ∈ cal iv s.log := by
        rw [← hi, ← mem_dueAt, hnow, hm.due]; simp [hrl]
      have h1 := hJ.act r s w hi h hmem (by rw [← hi, hnow]; exact hm.mem_le) (by rw [hnow]; exact hm.past) hgr
      have h3 : J (afterAct (s.applyOps (H.step r s w).2.1) r now (H.step r s w).1) (H.step r s w).2.2 := by
        refine hJ.same _ _ _ h1 ?_ ?_ ?_
        · rw [afterAct_log, hnow]; rfl
        · rw [afterAct_agents]; rfl
        · rw [afterAct_time]; exact le_rfl
      exact ih ((hm.ops (H.step r s w).2.1).act (H.step r s w).1 hgr)
        (by rw [afterAct_interval, applyOps_interval, hi]) h3 hg

theorem KeepsInv.step {H : Host W} {iv : Time} {J : Sched → W → Prop} (hJ : KeepsInv H iv J)
    {s : Sched} {w : W} (hs : Inv s) (hi : s.interval = iv) (h : J s w)
    (hg : GoodLog (s.step H w).1.log) : J (s.step H w).1 (s.step H w).2.1 := by
  cases hq : s.queue with
  | nil =>
    have : s.step H w = (s, w, false) := by simp [Sched.step, hq]
    rw [this]; exact h
  | cons c q =>
    obtain ⟨t, b⟩ := c
    obtain ⟨ht, hm⟩ := hs.pop hq (runOrder_perm H s b w)
    have hmono := (hs.step H w hg).2.2
    rw [hs.step_eq H w hq] at hg hmono ⊢
    rw [finishStep_log] at hg
    have h0 : J { s with queue := q } (runOrder H s b w).2 := by
      refine hJ.same s _ _ ?_ rfl rfl le_rfl
      unfold runOrder
      split
      · exact hJ.shuffle _ _ _ h
      · exact h
    have h1 := hJ.bucket hm hi h0 hg
    obtain ⟨_, h2⟩ := hm.runBucket hg
    obtain ⟨_, _, htimes⟩ : True ∧ True ∧ (runBucket H s.time (runOrder H s b w).1 { s with queue := q } (runOrder H s b w).2).1.time = s.time :=
      ⟨trivial, trivial, (hm.runBucket hg).1.time_eq⟩
    unfold finishStep at hmono ⊢
    rw [if_neg (by rw [h2]; simp)] at hmono ⊢
    exact hJ.same _ _ _ h1 rfl rfl (by rw [htimes]; exact hmono)

theorem execAll_replicate_succ (H : Host W) (n : Nat) (sw : Sched × W) :
    execAll H (List.replicate (n + 1) .step) sw = Cmd.exec H .step (execAll H (List.replicate n .step) sw) := by
  rw [List.replicate_succ', execAll_append]; rfl

/-- An invariant that every activation keeps holds after any number of steps. -/
theorem KeepsInv.steps {H : Host W} {iv : Time} {J : Sched → W → Prop} (hJ : KeepsInv H iv J)
    {s : Sched} {w : W} (hs : Inv s) (hi : s.interval = iv) (h : J s w) (n : Nat)
    (hg : GoodLog (execAll H (List.replicate n .step) (s, w)).1.log) :
    J (execAll H (List.replicate n .step) (s, w)).1 (execAll H (List.replicate n .step) (s, w)).2 := by
  induction n with
  | zero => exact h
  | succ n ih =>
    rw [execAll_replicate_succ] at hg ⊢
    obtain ⟨l, hl⟩ := (Cmd.step (W := W)).exec_log H (execAll H (List.replicate n .step) (s, w))
    have hg1 : GoodLog (execAll H (List.replicate n .step) (s, w)).1.log := by
      rw [hl] at hg; exact hg.prefix
    exact hJ.step (Inv.execAll (sw := (s, w)) hs H _ hg1).1 ((execAll_interval H _ _).trans hi) (ih hg1) hg

/-- If agents only raise or answer well, the first exception that escapes from a step comes from an agent that was due, in a state in which the
invariant holds; what it did is what is left. -/
theorem KeepsInv.bucket_error {H : Host W} {iv : Time} {J : Sched → W → Prop} (hJ : KeepsInv H iv J)
    (hge : ∀ r s w, (H.step r s w).1 = .error ∨ GoodReply (H.step r s w).1) {now : Time} {b l : List Ref}
    {s : Sched} {w : W} (hm : MidInv now b l s) (hi : s.interval = iv) (h : J s w) (hg : GoodLog s.log)
    (hb : ¬ GoodLog (runBucket H now b s w).1.log) :
    ∃ r s1 w1, J s1 w1 ∧ GoodLog s1.log ∧ s1.time = now ∧ (r, now) ∈ cal iv s1.log ∧ (H.step r s1 w1).1 = .error ∧
      (runBucket H now b s w).1.log = (s1.applyOps (H.step r s1 w1).2.1).log ++ [.act r now .error] ∧
      (runBucket H now b s w).2.1 = (H.step r s1 w1).2.2 ∧ ∀ p ∈ cal iv s1.log, now ≤ p.2 := by
  induction b generalizing s w l with
  | nil => exact absurd hg hb
  | cons r rest ih =>
    rw [runBucket_cons] at hb ⊢
    simp only at hb ⊢
    have hnow : s.time = now := hm.time_eq
    have hrl : r ∈ l := hm.perm.mem_iff.2 (by simp)
    have hmem : (r, s.time) ∈ cal iv s.log := by
      rw [← hi, ← mem_dueAt, hnow, hm.due]; simp [hrl]
    by_cases he : (H.step r s w).1 = .error
    · rw [if_pos he]
      refine ⟨r, s, w, h, hg, hnow, hnow ▸ hmem, he, ?_, rfl, by rw [← hi]; exact hm.mem_le⟩
      simp only
      rw [afterAct_log, he]
    · rw [if_neg he] at hb ⊢
      have hgr := (hge r s w).resolve_left he
      have h1 := hJ.act r s w hi h hmem (by rw [← hi, hnow]; exact hm.mem_le) (by rw [hnow]; exact hm.past) hgr
      have h3 : J (afterAct (s.applyOps (H.step r s w).2.1) r now (H.step r s w).1) (H.step r s w).2.2 := by
        refine hJ.same _ _ _ h1 ?_ ?_ ?_
        · rw [afterAct_log, hnow]; rfl
        · rw [afterAct_agents]; rfl
        · rw [afterAct_time]; exact le_rfl
      refine ih ((hm.ops (H.step r s w).2.1).act (H.step r s w).1 hgr)
        (by rw [afterAct_interval, applyOps_interval, hi]) h3 ?_ hb
      rw [afterAct_log]
      obtain ⟨l3, hl3, ha3⟩ := applyOps_log s (H.step r s w).2.1
      rw [hl3]
      intro e hme
      rcases List.mem_append.1 hme with hme | hme
      · rcases List.mem_append.1 hme with hme | hme
        · exact hg e hme
        · cases e with
          | added q t => trivial
          | act q t rep =>
            have : q ∈ actRefs l3 := List.mem_filterMap.2 ⟨_, hme, rfl⟩
            rw [ha3] at this
            cases this
      · rw [List.mem_singleton.1 hme]
        exact hgr

theorem KeepsInv.steps_error {H : Host W} {iv : Time} {J : Sched → W → Prop} (hJ : KeepsInv H iv J)
    (hge : ∀ r s w, (H.step r s w).1 = .error ∨ GoodReply (H.step r s w).1)
    {s : Sched} {w : W} (hs : Inv s) (hi : s.interval = iv) (h : J s w) (n : Nat)
    (hg : GoodLog (execAll H (List.replicate n .step) (s, w)).1.log)
    (hb : ¬ GoodLog (execAll H (List.replicate (n + 1) .step) (s, w)).1.log) :
    ∃ r s1 w1, J s1 w1 ∧ GoodLog s1.log ∧ (r, s1.time) ∈ cal iv s1.log ∧ (H.step r s1 w1).1 = .error ∧
      (execAll H (List.replicate (n + 1) .step) (s, w)).1.log = (s1.applyOps (H.step r s1 w1).2.1).log ++ [.act r s1.time .error] ∧
      (execAll H (List.replicate (n + 1) .step) (s, w)).2 = (H.step r s1 w1).2.2 ∧ ∀ p ∈ cal iv s1.log, s1.time ≤ p.2 := by
  have hJn := hJ.steps hs hi h n hg
  have hin := (Inv.execAll (sw := (s, w)) hs H _ hg).1
  have hiv := (execAll_interval H (List.replicate n .step) (s, w)).trans hi
  rw [execAll_replicate_succ] at hb ⊢
  generalize execAll H (List.replicate n .step) (s, w) = sw at *
  obtain ⟨s, w⟩ := sw
  have e1 : (Cmd.exec H .step (s, w)).1 = (s.step H w).1 := rfl
  have e2 : (Cmd.exec H .step (s, w)).2 = (s.step H w).2.1 := rfl
  rw [e1] at hb
  rw [e1, e2]
  simp only at hg hJn hin hiv
  cases hq : s.queue with
  | nil =>
    have : s.step H w = (s, w, false) := by simp [Sched.step, hq]
    rw [this] at hb
    exact absurd hg hb
  | cons c q =>
    obtain ⟨t, b⟩ := c
    obtain ⟨ht, hm⟩ := hin.pop hq (runOrder_perm H s b w)
    rw [hin.step_eq H w hq] at hb ⊢
    rw [finishStep_log] at hb ⊢
    have h0 : J { s with queue := q } (runOrder H s b w).2 := by
      refine hJ.same s _ _ ?_ rfl rfl le_rfl
      unfold runOrder
      split
      · exact hJ.shuffle _ _ _ hJn
      · exact hJn
    obtain ⟨r, s1, w1, h1, hg1, h2, h3, h4, h5, h6, h7⟩ := hJ.bucket_error hge hm hiv h0 hg hb
    refine ⟨r, s1, w1, h1, hg1, by rw [h2]; exact h3, h4, by rw [h2]; exact h5, ?_, by rw [h2]; exact h7⟩
    rw [← h6]
    unfold finishStep
    split <;> rfl

end Verif
