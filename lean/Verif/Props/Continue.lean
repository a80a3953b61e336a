import Verif.Props.RunLoop
import Verif.Props.PQueue

/-!
# Simulations with larger limits (C262)

`Simulation._run_model` (soil/simulation.py:243-280) looks at `max_time` and `max_steps` only in `is_done`, before each step. So a simulation
with larger limits begins with the simulation with the smaller ones, and goes on from where that one stopped.
-/

namespace Verif

variable {S W : Type}

/-- The limits `mt'`, `ms'` are not smaller than `mt`, `ms` (`None` is no limit). Not code: vocabulary of the claim. -/
structure Larger (mt : Option Time) (ms : Option Nat) (mt' : Option Time) (ms' : Option Nat) : Prop where
  time : ∀ b, mt' = some b → ∃ a, mt = some a ∧ a ≤ b
  steps : ∀ n, ms' = some n → ∃ m, ms = some m ∧ m ≤ n

/-- The state at the end of what we look at. -/
def Outcome.state : Outcome S → S
  | .done s => s
  | .raised s => s
  | .running s => s

private theorem isDone_iff (st : Stepper S) (mt : Option Time) (ms : Option Nat) (s : S) :
    isDone st mt ms s = true ↔
      st.running s = false ∨ (∃ a, mt = some a ∧ a ≤ st.time s) ∨ (∃ n, ms = some n ∧ n ≤ st.steps s) := by
  cases mt <;> cases ms <;> simp [isDone, or_assoc]

private theorem isDone_larger {st : Stepper S} {mt mt' : Option Time} {ms ms' : Option Nat} (hL : Larger mt ms mt' ms') {s : S}
    (h : isDone st mt ms s = false) : isDone st mt' ms' s = false := by
  rw [← Bool.not_eq_true, isDone_iff] at h ⊢
  intro h'
  apply h
  rcases h' with h' | ⟨b, hb, hle⟩ | ⟨n, hn, hle⟩
  · exact .inl h'
  · obtain ⟨a, ha, hab⟩ := hL.time b hb
    exact .inr (.inl ⟨a, ha, le_trans hab hle⟩)
  · obtain ⟨m, hm, hmn⟩ := hL.steps n hn
    exact .inr (.inr ⟨m, hm, le_trans hmn hle⟩)

private theorem loop_larger {st : Stepper S} {mt mt' : Option Time} {ms ms' : Option Nat} (hL : Larger mt ms mt' ms') (fuel : Nat) (s : S) :
    match runLoop st mt ms fuel s with
    | .done s1 => ∃ n ≤ fuel, ∀ k, runLoop st mt' ms' (n + k) s = runLoop st mt' ms' k s1
    | .raised s1 => runLoop st mt' ms' fuel s = .raised s1
    | .running s1 => runLoop st mt' ms' fuel s = .running s1 := by
  induction fuel generalizing s with
  | zero =>
    simp only [runLoop]
    cases hd : isDone st mt ms s with
    | true => exact ⟨0, le_refl _, fun k => by rw [Nat.zero_add]⟩
    | false => simp [isDone_larger hL hd]
  | succ n ih =>
    simp only [runLoop]
    cases hd : isDone st mt ms s with
    | true => exact ⟨0, by omega, fun k => by rw [Nat.zero_add]⟩
    | false =>
      have hd' := isDone_larger hL hd
      cases hr : (st.step s).2 with
      | true => simp [hd', hr]
      | false =>
        have := ih (st.step s).1
        simp only [Bool.false_eq_true, if_false, hd', hr]
        split at this
        · obtain ⟨m, hm, hk⟩ := this
          refine ⟨m + 1, by omega, fun k => ?_⟩
          rw [show m + 1 + k = (m + k) + 1 by omega, runLoop]
          simp only [Bool.false_eq_true, if_false, hd', hr]
          exact hk k
        · exact this
        · exact this

/-- **C262** A simulation that returned under some limits can be continued: the simulation with larger limits goes through the state in which
the first one returned, and continues from it like a simulation that starts there (any environment and scheduler). -/
theorem C262_continue {st : Stepper S} {mt mt' : Option Time} {ms ms' : Option Nat} (hL : Larger mt ms mt' ms') {fuel : Nat} {s s1 : S}
    (h : runModel st mt ms fuel s = .done s1) :
    ∃ n ≤ fuel, ∀ k, runModel st mt' ms' (n + k) s = runLoop st mt' ms' k s1 := by
  unfold runModel at h ⊢
  split at h
  · cases h
  · rename_i hn
    have := loop_larger (st := st) hL fuel s
    rw [h] at this
    obtain ⟨n, hle, hk⟩ := this
    exact ⟨n, hle, fun k => by rw [if_neg hn]; exact hk k⟩

/-- **C262** An exception under some limits is also raised under larger ones, at the same point. -/
theorem C262_raised {st : Stepper S} {mt mt' : Option Time} {ms ms' : Option Nat} (hL : Larger mt ms mt' ms') {fuel : Nat} {s s1 : S}
    (h : runModel st mt ms fuel s = .raised s1) : runModel st mt' ms' fuel s = .raised s1 := by
  unfold runModel at h ⊢
  split at h
  · rename_i hn; rw [if_pos hn, h]
  · rename_i hn
    rw [if_neg hn]
    have := loop_larger (st := st) hL fuel s
    rwa [h] at this

/-- **C262** Reaching larger limits takes at least as many steps: when the simulation with the larger limits has returned after `fuel` rounds,
the one with the smaller limits has. -/
theorem C262_returns {st : Stepper S} {mt mt' : Option Time} {ms ms' : Option Nat} (hL : Larger mt ms mt' ms') {fuel : Nat} {s s2 : S}
    (h : runModel st mt' ms' fuel s = .done s2) : ∃ s1, runModel st mt ms fuel s = .done s1 := by
  unfold runModel at h ⊢
  split at h
  · cases h
  · rename_i hn
    rw [if_neg hn]
    have := loop_larger (st := st) hL fuel s
    cases hr : runLoop st mt ms fuel s with
    | done s1 => exact ⟨s1, rfl⟩
    | raised s1 => rw [hr] at this; rw [this] at h; cases h
    | running s1 => rw [hr] at this; rw [this] at h; cases h

private theorem runLoop_log (H : Host W) (mt : Option Time) (ms : Option Nat) (fuel : Nat) (sw : Sched × W) :
    sw.1.log <+: (runLoop (timedStepper H) mt ms fuel sw).state.1.log := by
  induction fuel generalizing sw with
  | zero =>
    simp only [runLoop]
    split <;> exact List.prefix_refl _
  | succ n ih =>
    simp only [runLoop]
    split
    · exact List.prefix_refl _
    · obtain ⟨l, hl, _⟩ := step_sources H sw.1 sw.2
      have hp : sw.1.log <+: ((timedStepper H).step sw).1.1.log := ⟨l, hl.symm⟩
      split
      · exact hp
      · exact hp.trans (ih _)

/-- **C262** With the default scheduler: everything that happens in the simulation with the smaller limits (every activation, with its time
and result, every added agent) happens first, in the same order, in the one with the larger limits, however that ends. -/
theorem C262_prefix (H : Host W) {mt mt' : Option Time} {ms ms' : Option Nat} (hL : Larger mt ms mt' ms') {fuel fuel' : Nat} {sw s1 : Sched × W}
    (h : runModel (timedStepper H) mt ms fuel sw = .done s1) (hf : fuel ≤ fuel') :
    s1.1.log <+: (runModel (timedStepper H) mt' ms' fuel' sw).state.1.log := by
  obtain ⟨n, hn, hk⟩ := C262_continue hL h
  have := hk (fuel' - n)
  rw [show n + (fuel' - n) = fuel' by omega] at this
  rw [this]
  exact runLoop_log H mt' ms' _ s1

private theorem prunLoop_log (H : PHost W) (N : Nat) (mt : Option Time) (ms : Option Nat) (fuel : Nat) (sw : PSched × W) :
    sw.1.log <+: (runLoop (pqStepper H N) mt ms fuel sw).state.1.log := by
  induction fuel generalizing sw with
  | zero =>
    simp only [runLoop]
    split <;> exact List.prefix_refl _
  | succ n ih =>
    simp only [runLoop]
    split
    · exact List.prefix_refl _
    · obtain ⟨l, hl⟩ := pstep_log H N sw.1 sw.2
      have hp : sw.1.log <+: ((pqStepper H N).step sw).1.1.log := ⟨l, hl.symm⟩
      split
      · exact hp
      · exact hp.trans (ih _)

/-- **C262** With the priority queue, too: everything that happens in the simulation with the smaller limits (every activation, with its time
and result, every added agent) happens first, in the same order, in the one with the larger limits, however that ends. -/
theorem C262_pprefix (H : PHost W) (N : Nat) {mt mt' : Option Time} {ms ms' : Option Nat} (hL : Larger mt ms mt' ms') {fuel fuel' : Nat} {sw s1 : PSched × W}
    (h : runModel (pqStepper H N) mt ms fuel sw = .done s1) (hf : fuel ≤ fuel') :
    s1.1.log <+: (runModel (pqStepper H N) mt' ms' fuel' sw).state.1.log := by
  obtain ⟨n, hn, hk⟩ := C262_continue hL h
  have := hk (fuel' - n)
  rw [show n + (fuel' - n) = fuel' by omega] at this
  rw [this]
  exact prunLoop_log H N mt' ms' _ s1

/-! ### Examples -/

/-- Two agents: one waits for 2, the other for 3; the world counts. -/
private def twoHost : Host Nat :=
  { step := fun r _ w => (.ret (some (if r = 0 then 2 else 3)), [], w + 1), shuffle := fun l w => (l, w), shuffle_perm := fun _ _ => .refl _ }

private def twoStart : Sched × Nat := execAll twoHost [.op (.add 0 none), .op (.add 1 none)] (Sched.init 1 false, 0)

example : Larger (some 4) none (some 9) none ∧ Larger (some 4) (some 3) none (some 5) ∧ ¬ Larger (some 4) none (some 3) none :=
  ⟨⟨fun b hb => ⟨4, rfl, by cases hb; decide⟩, fun n hn => by cases hn⟩,
   ⟨fun b hb => (by cases hb), fun n hn => ⟨3, rfl, by cases hn; decide⟩⟩,
   fun h => by
    obtain ⟨a, ha, hle⟩ := h.time 3 rfl
    cases ha
    exact absurd hle (by decide)⟩

set_option maxRecDepth 100000 in
/-- To 4, and from there to 9: the same as at once. -/
example : (runModel (timedStepper twoHost) (some 4) none 20 twoStart).state.1.time = .fin 4 ∧
    (runModel (timedStepper twoHost) (some 9) none 20 twoStart).state =
      (runLoop (timedStepper twoHost) (some 9) none 20 (runModel (timedStepper twoHost) (some 4) none 20 twoStart).state).state ∧
    (runModel (timedStepper twoHost) (some 9) none 20 twoStart).state.2 = 8 := by
  decide +kernel

end Verif
