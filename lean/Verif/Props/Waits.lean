import Verif.Props.Messages

/-!
# C90: how long `received` and `ask` wait

The code of a waiting agent runs at the call and then every `delay` (`yield self.delay(delay)`; that the scheduler keeps to this is
C02), so the polls of a wait that starts at `start` are `start`, `start + delay`, `start + 2 * delay`, …
-/

namespace Verif

variable {S : Type}

/-- The times of the first `n` polls of a wait. -/
def Spec.pollTimes (start delay : Rat) (n : Nat) : List Time := (List.range n).map (fun k : Nat => .fin (start + k * delay))

/-- A wait without messages looks only at the clock. -/
theorem receivedRaw_quiet (deadline : Time) (ts : List Time) :
    receivedRaw deadline (ts.map (fun t => (t, []))) = if ∀ t ∈ ts, t < deadline then .waiting else .timedOut := by
  induction ts with
  | nil => simp [receivedRaw]
  | cons t ts ih =>
    simp only [List.map_cons, receivedRaw, ih, List.forall_mem_cons]
    by_cases h : t < deadline <;> simp [h]

theorem receivedDefault_quiet (on : Handler S) (deadline : Time) (polls : List (Time × S)) :
    receivedDefault on deadline (polls.map (fun p => (p.1, [], p.2))) =
      if ∀ p ∈ polls, p.1 < deadline then .waiting else .timedOut := by
  induction polls with
  | nil => simp [receivedDefault]
  | cons t ts ih =>
    simp only [List.map_cons, receivedDefault, ih, List.forall_mem_cons]
    by_cases h : t.1 < deadline
    · simp only [h, if_true, true_and]
    · simp only [h, if_false, false_and]

theorem askLoop_quiet (deadline : Time) (ts : List Time) :
    askLoop deadline (ts.map (fun t => (t, none))) = if ∀ t ∈ ts, t < deadline then .waiting else .timedOut := by
  induction ts with
  | nil => simp [askLoop]
  | cons t ts ih =>
    simp only [List.map_cons, askLoop, ih, List.forall_mem_cons]
    by_cases h : t < deadline <;> simp [h]

/-- All polls are before the deadline exactly if none comes `timeout` or more after the start. -/
theorem polls_before (start timeout delay : Rat) (n : Nat) :
    (∀ t ∈ Spec.pollTimes start delay n, t < Time.fin start + Time.fin timeout) ↔ ∀ k : Nat, k < n → k * delay < timeout := by
  simp only [Spec.pollTimes, List.mem_map, List.mem_range, Time.fin_add]
  constructor
  · intro h k hk
    have := h _ ⟨k, hk, rfl⟩
    simp only [Time.fin_lt] at this
    linarith
  · rintro h _ ⟨k, hk, rfl⟩
    have := h k hk
    simp only [Time.fin_lt]
    linarith

/-- C90 for `received(timeout=…, process=False)`: as long as no message arrives it waits while less than `timeout` has gone by, and
raises `TimedOut` at the first poll at which `timeout` or more has. -/
theorem C90_received_timeout (start timeout delay : Rat) (n : Nat) :
    receivedRaw (receivedDeadline none (.fin timeout) (.fin start)) ((Spec.pollTimes start delay n).map (fun t => (t, []))) =
      if ∀ k : Nat, k < n → k * delay < timeout then .waiting else .timedOut := by
  rw [receivedRaw_quiet]
  simp only [receivedDeadline, polls_before]

/-- C90 for `received(timeout=…)`, whatever happens to the rest of the world during the wait. -/
theorem C90_received_default_timeout (on : Handler S) (start timeout delay : Rat) (states : List S) :
    receivedDefault on (receivedDeadline none (.fin timeout) (.fin start))
        (((Spec.pollTimes start delay states.length).zip states).map (fun p => (p.1, [], p.2))) =
      if ∀ k : Nat, k < states.length → k * delay < timeout then .waiting else .timedOut := by
  rw [receivedDefault_quiet]
  have : (∀ p ∈ (Spec.pollTimes start delay states.length).zip states, p.1 < receivedDeadline none (.fin timeout) (.fin start)) ↔
      ∀ t ∈ Spec.pollTimes start delay states.length, t < receivedDeadline none (.fin timeout) (.fin start) := by
    constructor
    · intro h t ht
      obtain ⟨i, hi, rfl⟩ := List.mem_iff_getElem.1 ht
      have hl : i < states.length := by simpa [Spec.pollTimes] using hi
      refine h (_, states[i]) ?_
      rw [List.mem_iff_getElem]
      exact ⟨i, by simp [hi, hl], by simp⟩
    · intro h p hp
      exact h p.1 (List.of_mem_zip hp).1
  simp only [this]
  simp only [receivedDeadline, polls_before]

/-- C90 for `ask(timeout=…)` without a reply; without a timeout it waits for ever (C38_waits_forever_false). -/
theorem C90_ask_timeout (expiration : Option Time) (start timeout delay : Rat) (n : Nat) :
    askLoop (askDeadline expiration (some (.fin timeout)) (.fin start)) ((Spec.pollTimes start delay n).map (fun t => (t, none))) =
      if ∀ k : Nat, k < n → k * delay < timeout then .waiting else .timedOut := by
  rw [askLoop_quiet]
  simp only [askDeadline, polls_before]

/-- C90 for `received(expiration=e)` with `e ≠ 0`: `e` is an absolute time, and `timeout` plays no role. -/
theorem C90_received_expiration_partial (e timeout start : Time) (ts : List Time) (he : e ≠ 0) :
    receivedRaw (receivedDeadline (some e) timeout start) (ts.map (fun t => (t, []))) =
      if ∀ t ∈ ts, t < e then .waiting else .timedOut := by
  rw [receivedRaw_quiet]
  simp only [receivedDeadline, if_neg he]

/-- C90 is violated for `received(expiration=0)` at time 0, which should raise at once: it waits for `timeout`, for every positive
timeout (60 by default). -/
theorem C90_zero_expiration_false (timeout delay : Rat) (n : Nat) (h : ∀ k : Nat, k < n → k * delay < timeout) :
    receivedRaw (receivedDeadline (some 0) (.fin timeout) (.fin 0)) ((Spec.pollTimes 0 delay n).map (fun t => (t, []))) = .waiting := by
  have := C90_received_timeout 0 timeout delay n
  rw [if_pos h] at this
  exact this

example : receivedRaw (receivedDeadline none 60 5) ((Spec.pollTimes 5 25 3).map (fun t => (t, []))) = .waiting ∧
    receivedRaw (receivedDeadline none 60 5) ((Spec.pollTimes 5 25 4).map (fun t => (t, []))) = .timedOut ∧
    askLoop (askDeadline none (some 2) 5) ((Spec.pollTimes 5 1 2).map (fun t => (t, none))) = .waiting ∧
    askLoop (askDeadline none (some 2) 5) ((Spec.pollTimes 5 1 3).map (fun t => (t, none))) = .timedOut ∧
    receivedDefault (fun s _ _ => ⟨none, s, none⟩) (receivedDeadline none 2 5)
      (((Spec.pollTimes 5 1 3).zip [7, 8, 9]).map (fun p => (p.1, [], p.2))) = .timedOut ∧
    receivedRaw (receivedDeadline (some 0) 60 0) ((Spec.pollTimes 0 1 59).map (fun t => (t, []))) = .waiting := by
  decide +kernel

end Verif
