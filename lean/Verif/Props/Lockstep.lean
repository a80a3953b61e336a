import Verif.Model.Lockstep
import Verif.Props.RunLoop
import Mathlib.Tactic.Ring

/-!
# Properties of `Lockstepper` (C14) and of `agent.at` (C15)
-/

namespace Verif
open Spec

variable {W : Type}

theorem lockLoop_done {H : Host W} {end_ : Time} {fuel : Nat} {sw sw' : Sched × W}
    (h : lockLoop H end_ fuel sw = .done sw') :
    end_ ≤ sw'.1.time ∧ ∃ n, sw' = iterStep (timedStepper H) n sw ∧
      ∀ m < n, (iterStep (timedStepper H) m sw).1.time < end_ := by
  induction fuel generalizing sw with
  | zero =>
    unfold lockLoop at h
    split at h
    · cases h
    · rename_i hlt
      cases h
      exact ⟨not_lt.1 hlt, 0, rfl, by simp⟩
  | succ fuel ih =>
    unfold lockLoop at h
    split at h
    · rename_i hlt
      simp only at h
      split at h
      · cases h
      · obtain ⟨h1, n, h2, h3⟩ := ih h
        refine ⟨h1, n + 1, h2, ?_⟩
        intro m hm
        cases m with
        | zero => exact hlt
        | succ m => exact h3 m (by omega)
    · rename_i hlt
      cases h
      exact ⟨not_lt.1 hlt, 0, rfl, by simp⟩

/-! ### C14 -/

/-- C14: a `Lockstepper.step` that returns advances its clock by exactly one interval, leaves the
wrapped scheduler at a time not before the end of the interval, has only run activations due before the
end of the interval and has left no such activation pending. -/
theorem C14_lockstep_interval (H : Host (Lock × W)) (iv : Time) (hiv : 0 < iv) (sh : Bool) (w0 : Lock × W)
    (h : List (Cmd (Lock × W))) (fuel : Nat) (x' : Sched × Lock × W)
    (hstep : lockStep H fuel (reach H iv sh w0 h) = .done x') (hg : GoodLog x'.1.log) :
    x'.2.1.time = (reach H iv sh w0 h).2.1.time + (reach H iv sh w0 h).2.1.interval ∧
    x'.2.1.time ≤ x'.1.time ∧
    (∃ evs, x'.1.log = (reach H iv sh w0 h).1.log ++ evs ∧ ∀ e ∈ evs, e.time < x'.2.1.time) ∧
    (∀ p ∈ cal iv x'.1.log, x'.2.1.time ≤ p.2) := by
  unfold lockStep at hstep
  simp only at hstep
  cases hl : lockLoop H ((reach H iv sh w0 h).2.1.time + (reach H iv sh w0 h).2.1.interval) fuel
      (reach H iv sh w0 h) with
  | raised y => rw [hl] at hstep; cases hstep
  | running y => rw [hl] at hstep; cases hstep
  | done y =>
    rw [hl] at hstep
    obtain ⟨hle, n, hy, hlt⟩ := lockLoop_done hl
    simp only [Outcome.done.injEq] at hstep
    subst hstep
    simp only at hg ⊢
    generalize (reach H iv sh w0 h).2.1.time + (reach H iv sh w0 h).2.1.interval = E at *
    refine ⟨trivial, hle, ?_, ?_⟩
    · subst hy
      clear hl hle
      induction n with
      | zero => exact ⟨[], by simp [iterStep]⟩
      | succ n ih =>
        rw [iterStep_reach] at hg
        have hsp : h ++ List.replicate (n + 1) Cmd.step = (h ++ List.replicate n Cmd.step) ++ [Cmd.step] := by
          rw [List.replicate_succ', List.append_assoc]
        rw [hsp, reach_snoc] at hg
        obtain ⟨l, hl⟩ := Cmd.exec_log H .step (reach H iv sh w0 (h ++ List.replicate n Cmd.step))
        have hg0 : GoodLog (reach H iv sh w0 (h ++ List.replicate n Cmd.step)).1.log := by
          rw [hl] at hg; exact hg.prefix
        obtain ⟨evs, he, ht⟩ := ih (fun m hm => hlt m (by omega)) (by rw [iterStep_reach]; exact hg0)
        have hi := reach_inv hiv hg0
        obtain ⟨evs2, he2, ht2, _⟩ := hi.step_spec H (reach H iv sh w0 (h ++ List.replicate n Cmd.step)).2 hg
        have hlt' := hlt n (by omega)
        rw [iterStep_reach] at hlt' he ⊢
        refine ⟨evs ++ evs2, ?_, ?_⟩
        · rw [hsp, reach_snoc, ← List.append_assoc, ← he]
          exact he2
        · intro e hm
          rcases List.mem_append.1 hm with hm | hm
          · exact ht e hm
          · rw [ht2 e hm]; exact hlt'
    · intro p hp
      rw [hy, iterStep_reach] at hg hp
      have hmin := (reach_inv hiv hg).mid.mem_le
      rw [reach_interval] at hmin
      rw [hy, iterStep_reach] at hle
      exact hle.trans (hmin p hp)

/-- An agent of the example waits `r + 1`; the lockstepper has interval 5/2. -/
def exLHost : Host (Lock × Unit) where
  step r _ w := (.ret (some (.fin (r + 1 : Nat))), [], w)
  shuffle l w := (l.reverse, w)
  shuffle_perm l _ := List.reverse_perm l

theorem Outcome.returned_iff {S : Type} {p : S → Bool} {o : Outcome S} (h : o.returned p = true) :
    ∃ s, o = .done s ∧ p s = true := by
  cases o with
  | done s => exact ⟨s, rfl, h⟩
  | raised s => cases h
  | running s => cases h

example :
    let x := reach exLHost 1 true (⟨0, 0, .fin (5 / 2)⟩, ()) [.op (.add 0 none), .op (.add 1 none)]
    (lockStep exLHost 10 x).returned (fun x' => decide (GoodLog x'.1.log ∧ x'.2.1.time = .fin (5 / 2) ∧
      x'.1.time = 3 ∧ actRefs x'.1.log = [1, 0, 0, 0, 1])) = true := by
  decide +kernel

/-- `n` calls of `Lockstepper.step`. -/
def lockRun (H : Host (Lock × W)) (fuel : Nat) : Nat → Sched × Lock × W → Outcome (Sched × Lock × W)
  | 0, x => .done x
  | n + 1, x => match lockStep H fuel x with
    | .done x' => lockRun H fuel n x'
    | o => o

theorem lockLoop_lock {H : Host (Lock × W)} (hH : ∀ r s w, (H.step r s w).2.2.1 = w.1)
    (hs : ∀ l w, (H.shuffle l w).2.1 = w.1) {end_ : Time} {fuel : Nat} {sw sw' : Sched × Lock × W}
    (h : lockLoop H end_ fuel sw = .done sw') : sw'.2.1 = sw.2.1 := by
  have hbucket : ∀ (now : Time) (b : List Ref) (s : Sched) (w : Lock × W), (runBucket H now b s w).2.1.1 = w.1 := by
    intro now b
    induction b with
    | nil => intro s w; rfl
    | cons r b ih =>
      intro s w
      rw [runBucket_cons]
      simp only
      split
      · exact hH r s w
      · rw [ih]; exact hH r s w
  have hstep : ∀ (s : Sched) (w : Lock × W), (s.step H w).2.1.1 = w.1 := by
    intro s w
    unfold Sched.step
    split
    · rfl
    · split
      · rfl
      · rename_i b q _ _
        have e : ∀ res : Sched × (Lock × W) × Bool, (finishStep res).2.1 = res.2.1 := by
          intro res; unfold finishStep; split <;> rfl
        simp only [e, hbucket]
        unfold runOrder
        split
        · exact hs _ _
        · rfl
  induction fuel generalizing sw with
  | zero =>
    unfold lockLoop at h
    split at h
    · cases h
    · cases h; rfl
  | succ fuel ih =>
    unfold lockLoop at h
    split at h
    · simp only at h
      split at h
      · cases h
      · rw [ih h]; exact hstep _ _
    · cases h; rfl

/-- C14 over many steps: `n` steps of a new `Lockstepper` take its clock from the time of the wrapped scheduler to exactly `n`
intervals later, and are counted. (Agents do not write to the attributes of the lockstepper.) -/
theorem C14_lockstep_clock (H : Host (Lock × W)) (hH : ∀ r s w, (H.step r s w).2.2.1 = w.1)
    (hs : ∀ l w, (H.shuffle l w).2.1 = w.1) (s : Sched) (w : W) (t q : Rat) (ht : s.time = .fin t) (fuel n : Nat)
    (x' : Sched × Lock × W) (h : lockRun H fuel n (s, Lock.init s (.fin q), w) = .done x') :
    x'.2.1 = ⟨.fin (t + n * q), n, .fin q⟩ := by
  have gen : ∀ n (x : Sched × Lock × W) (t : Rat) (k : Nat), x.2.1 = ⟨.fin t, k, .fin q⟩ →
      lockRun H fuel n x = .done x' → x'.2.1 = ⟨.fin (t + n * q), k + n, .fin q⟩ := by
    intro n
    induction n with
    | zero => intro x t k hx h; cases h; simp [hx]
    | succ n ih =>
      intro x t k hx h
      simp only [lockRun] at h
      cases hl : lockStep H fuel x with
      | raised y => rw [hl] at h; cases h
      | running y => rw [hl] at h; cases h
      | done y =>
        rw [hl] at h
        simp only at h
        have hy : y.2.1 = ⟨.fin (t + q), k + 1, .fin q⟩ := by
          unfold lockStep at hl
          simp only at hl
          cases hll : lockLoop H (x.2.1.time + x.2.1.interval) fuel x with
          | raised z => rw [hll] at hl; cases hl
          | running z => rw [hll] at hl; cases hl
          | done z =>
            rw [hll] at hl
            have hz := lockLoop_lock hH hs hll
            simp only [Outcome.done.injEq] at hl
            subst hl
            simp only
            rw [hz, hx]
            simp
        rw [ih y (t + q) (k + 1) hy h]
        simp only [Lock.mk.injEq, Time.fin.injEq, and_true]
        refine ⟨?_, by omega⟩
        push_cast
        ring
  have := gen n (s, Lock.init s (.fin q), w) t 0 (by simp [Lock.init, ht]) h
  rwa [Nat.zero_add] at this

example :
    let x := reach exLHost 1 true (⟨0, 0, .fin (5 / 2)⟩, ()) [.op (.add 0 none), .op (.add 1 none), .step]
    x.1.time = 1 ∧ (lockRun exLHost 10 3 (x.1, Lock.init x.1 (.fin (5 / 2)), ())).returned (fun x' =>
      decide (x'.2.1 = ⟨.fin (17 / 2), 3, .fin (5 / 2)⟩ ∧ x'.1.time = 9)) = true := by
  decide +kernel

/-- C14, the remaining case: if nothing is scheduled in the wrapped scheduler, `Lockstepper.step` never
returns (unless the clock is already past the end of the interval). -/
theorem C14_lockstep_hangs_when_empty (H : Host (Lock × W)) (x : Sched × Lock × W)
    (hq : x.1.queue = []) (ht : x.1.time < x.2.1.time + x.2.1.interval) (fuel : Nat) :
    lockStep H fuel x = .running x := by
  have hs : x.1.step H x.2 = (x.1, x.2, false) := by simp [Sched.step, hq]
  have : ∀ fuel, lockLoop H (x.2.1.time + x.2.1.interval) fuel x = .running x := by
    intro fuel
    induction fuel with
    | zero => unfold lockLoop; rw [if_pos ht]
    | succ fuel ih =>
      unfold lockLoop
      rw [if_pos ht]
      simp only [hs]
      exact ih
  simp only [lockStep, this]

example : let x := reach exLHost 1 true (⟨0, 0, 1⟩, ()) []
    x.1.queue = [] ∧ x.1.time < x.2.1.time + x.2.1.interval := by
  decide +kernel

/-! ### C15 -/

/-- C15 for the default scheduler: an agent that is activated, returns `self.at(t)` with `t` in the
future, and is activated again, is activated again at exactly `t`. -/
theorem C15_at_exact (H : Host W) (iv : Time) (hiv : 0 < iv) (sh : Bool) (w0 : W)
    (h : List (Cmd W)) (hg : GoodLog (reach H iv sh w0 h).1.log) (r : Ref)
    (h1 : addCount r (reach H iv sh w0 h).1.log = 1)
    {pre post : List Ev} {t0 u : Time} {rep rep' : Reply}
    (hlog : (reach H iv sh w0 h).1.log.filter (·.ref = r)
      = pre ++ .act r t0 rep :: .act r u rep' :: post) :
    ∃ s w, s.time = t0 ∧ rep = (H.step r s w).1 ∧
      ∀ t : Rat, (H.step r s w).1 = atReply s.time t → s.time < .fin t → u = .fin t := by
  have hm : Ev.act r t0 rep ∈ (reach H iv sh w0 h).1.log := by
    have : Ev.act r t0 rep ∈ (reach H iv sh w0 h).1.log.filter (·.ref = r) := by rw [hlog]; simp
    exact List.mem_of_mem_filter this
  rcases execAll_replies H _ _ r t0 rep hm with h0 | ⟨s, w, hs, hrep⟩
  · cases h0
  · refine ⟨s, w, hs, hrep, ?_⟩
    intro t hat hlt
    have hrt := hrep.trans hat
    cases hst : s.time with
    | inf => rw [hst] at hlt; simp at hlt
    | fin n =>
      rw [hst] at hrt hlt
      simp only [atReply] at hrt
      subst hrt
      have := C02_next_activation H iv hiv sh w0 h hg r h1 hlog
      rw [this, ← hs, hst]
      have hne : t - n ≠ 0 := by
        have : n < t := hlt
        linarith [sub_pos.2 this]
      simp only [effDelay, Time.zero_def, Time.fin.injEq, hne, if_false, Time.fin_add]
      ring

/-- Agent 0 wants to act at 5/2 when activated at 0, then every 2 units. -/
def atHost : Host Unit where
  step r s _ := (if r = 0 && s.time == 0 then atReply s.time (5 / 2) else .ret (some 2), [], ())
  shuffle l _ := (l, ())
  shuffle_perm l _ := List.Perm.refl l

example : let h : List (Cmd Unit) := [.op (.add 0 none), .op (.add 1 none), .step, .step, .step]
    GoodLog (reach atHost 1 true () h).1.log ∧ addCount 0 (reach atHost 1 true () h).1.log = 1 ∧
    (reach atHost 1 true () h).1.log.filter (·.ref = 0) =
      [.added 0 0] ++ .act 0 0 (atReply 0 (5 / 2)) :: .act 0 (.fin (5 / 2)) (.ret (some 2)) :: [] := by
  decide +kernel

/-- C15 under a `Lockstepper`: the agent computes the delay from the lockstepper's clock, so it wakes
at `t0 + (t - now)`, where `t0` is when it really was activated and `now` what it saw. -/
theorem C15_at_lockstep (H : Host (Lock × W)) (iv : Time) (hiv : 0 < iv) (sh : Bool) (w0 : Lock × W)
    (h : List (Cmd (Lock × W))) (hg : GoodLog (reach H iv sh w0 h).1.log) (r : Ref)
    (h1 : addCount r (reach H iv sh w0 h).1.log = 1)
    {pre post : List Ev} {t0 now t : Rat} {u : Time} {rep' : Reply} (hne : now ≠ t)
    (hlog : (reach H iv sh w0 h).1.log.filter (·.ref = r)
      = pre ++ .act r (.fin t0) (atReply (.fin now) t) :: .act r u rep' :: post) :
    u = .fin (t + (t0 - now)) := by
  have := C02_next_activation H iv hiv sh w0 h hg r h1 hlog
  rw [this]
  have hne' : t - now ≠ 0 := fun h0 => hne (by linarith)
  simp only [effDelay, Time.zero_def, Time.fin.injEq, hne', if_false, Time.fin_add]
  ring

/-- Agents that wake at time 1 and then want to act at time 5 (by the model's clock). -/
def atLHost : Host (Lock × Unit) where
  step _ s w := (if s.steps = 0 then .ret none else if s.steps = 1 then atReply w.1.time 5 else .ret none, [], w)
  shuffle l w := (l, w)
  shuffle_perm l _ := List.Perm.refl l

/-- C15 is violated under a `Lockstepper` with interval 10: the agent, activated at time 1 of the
interval, asks for `at(5)` and is activated at 6. -/
theorem C15_at_lockstep_false :
    let x := reach atLHost 1 true (⟨0, 0, 10⟩, ()) [.op (.add 0 none)]
    x.2.1.time = 0 ∧ ∃ x', lockStep atLHost 20 x = .done x' ∧
      [.added 0 0, .act 0 0 (.ret none), .act 0 1 (atReply 0 5), .act 0 6 (.ret none)] <+: x'.1.log := by
  refine ⟨by decide +kernel, ?_⟩
  have h : (lockStep atLHost 20 (reach atLHost 1 true (⟨0, 0, 10⟩, ()) [.op (.add 0 none)])).returned
      (fun x' => decide ([.added 0 0, .act 0 0 (.ret none), .act 0 1 (atReply 0 5), .act 0 6 (.ret none)]
        <+: x'.1.log)) = true := by decide +kernel
  obtain ⟨x', h1, h2⟩ := Outcome.returned_iff h
  exact ⟨x', h1, of_decide_eq_true h2⟩

end Verif
