import Verif.Props.Web
import Mathlib.Data.List.Induction

/-!
# The polling of the log (C202)
-/

namespace Verif

/-- The calls of `update_logging` that are scheduled or under way. -/
def pollChains (w : WebLog) : Nat := w.timers + if w.phase = .idle then 0 else 1

/-- The beginnings of runs among events. -/
def begins (es : List WEv) : Nat := es.countP (fun e => decide (e = .begin))

/-- The calls of `update_logging` by the timers among events. -/
def fires (es : List WEv) : Nat := es.countP (fun e => decide (e = .fire))

private theorem endUpdate_chains (w : WebLog) (hc : w.capture = true) : pollChains w.endUpdate = w.timers + 1 := by
  simp [pollChains, WebLog.endUpdate, hc]

/-- One event while logs are captured. -/
private theorem poll_step {w w' : WebLog} {e : WEv} (hc : w.capture = true) (hs : w.step e = some w') (hf : ∀ k, e ≠ .finish k) :
    w'.capture = true ∧ pollChains w' = pollChains w + begins [e] := by
  cases e with
  | «begin» =>
    simp only [WebLog.step] at hs
    split at hs
    · next h => cases hs; simp [pollChains, begins, h]
    · cases hs
  | log m => simp only [WebLog.step] at hs; cases hs; exact ⟨hc, by simp [pollChains, begins]⟩
  | fire =>
    simp only [WebLog.step] at hs
    split at hs
    · next h => cases hs; refine ⟨hc, ?_⟩; simp [pollChains, begins, h.1]; omega
    · cases hs
  | check =>
    simp only [WebLog.step] at hs
    split at hs
    · next h =>
      cases hl : w.ios.getLast? with
      | none => simp [hl] at hs
      | some b =>
        simp only [hl] at hs
        split at hs
        · cases hs; exact ⟨hc, by simp [pollChains, begins, h]⟩
        · cases hs; exact ⟨hc, by rw [endUpdate_chains w hc]; simp [pollChains, begins, h]⟩
    · cases hs
  | send =>
    simp only [WebLog.step] at hs
    split at hs
    · next i n b h1 h2 =>
      split at hs
      · cases hs; exact ⟨hc, by simp [pollChains, begins, h1]⟩
      · cases hs
    · cases hs
  | cut =>
    simp only [WebLog.step] at hs
    split at hs
    · next i n b h1 h2 =>
      split at hs
      · cases hs
      · cases hs; exact ⟨hc, by simp [pollChains, begins, h1]⟩
    · cases hs
  | seek =>
    simp only [WebLog.step] at hs
    split at hs
    · next b h1 h2 =>
      cases hs
      exact ⟨hc, by simp [pollChains, begins, WebLog.endUpdate, hc, h1]⟩
    · cases hs
  | finish k => exact absurd rfl (hf k)

private theorem begins_cons (e : WEv) (es : List WEv) : begins (e :: es) = begins [e] + begins es := by
  simp only [begins, List.countP_cons, List.countP_nil]; omega

/-- While runs are captured, and none ends, there is one chain of polls for each run that began. -/
private theorem poll_run {w w' : WebLog} (es : List WEv) (hc : w.capture = true) (hr : w.run es = some w') (hf : ∀ k, .finish k ∉ es) :
    w'.capture = true ∧ pollChains w' = pollChains w + begins es := by
  induction es generalizing w with
  | nil => simp only [WebLog.run, Option.some.injEq] at hr; subst hr; exact ⟨hc, by simp [begins]⟩
  | cons e es ih =>
    simp only [WebLog.run] at hr
    cases hs : w.step e with
    | none => simp [hs] at hr
    | some v =>
      rw [hs] at hr
      obtain ⟨h1, h2⟩ := poll_step hc hs (fun k he => hf k (by simp [he]))
      obtain ⟨h3, h4⟩ := ih h1 hr (fun k hk => hf k (by simp [hk]))
      refine ⟨h3, ?_⟩
      rw [h4, h2, begins_cons e es]; omega

/-- C202 (partial): in the first run of a connection, as long as it lasts and no other one begins, the log is polled all the time and by one chain of
calls: exactly one call of `update_logging` is scheduled or under way. Missing: later runs, see below. -/
theorem C202_one_poll_partial (es : List WEv) (w : WebLog) (hr : webLog0.run (.begin :: es) = some w) (hb : .begin ∉ es)
    (hf : ∀ k, .finish k ∉ es) : w.timers + (if w.phase = .idle then 0 else 1) = 1 := by
  have h1 : webLog0.step .begin = some ⟨[⟨[], 0, false⟩], [0], true, 0, .due, []⟩ := by decide +kernel
  simp only [WebLog.run, h1] at hr
  obtain ⟨_, h2⟩ := poll_run es rfl hr hf
  have hz : begins es = 0 := by
    rw [begins, List.countP_eq_zero]
    intro e he
    simp only [decide_eq_true_eq]
    rintro rfl
    exact hb he
  rw [hz] at h2
  exact h2

/-- One event after the end of a run. -/
private theorem quiet_step {w w' : WebLog} {e : WEv} (hc : w.capture = false) (hs : w.step e = some w') (hb : e ≠ .begin) :
    w'.capture = false ∧ w'.timers + fires [e] = w.timers := by
  cases e with
  | «begin» => exact absurd rfl hb
  | log m => simp only [WebLog.step] at hs; cases hs; exact ⟨hc, by simp [fires]⟩
  | fire =>
    simp only [WebLog.step] at hs
    split at hs
    · next h => cases hs; refine ⟨hc, ?_⟩; simp [fires]; omega
    · cases hs
  | check =>
    simp only [WebLog.step] at hs
    split at hs
    · cases hl : w.ios.getLast? with
      | none => simp [hl] at hs
      | some b =>
        simp only [hl] at hs
        split at hs
        · cases hs; exact ⟨hc, by simp [fires]⟩
        · cases hs; exact ⟨hc, by simp [fires, WebLog.endUpdate, hc]⟩
    · cases hs
  | send =>
    simp only [WebLog.step] at hs
    split at hs
    · split at hs
      · cases hs; exact ⟨hc, by simp [fires]⟩
      · cases hs
    · cases hs
  | cut =>
    simp only [WebLog.step] at hs
    split at hs
    · split at hs
      · cases hs
      · cases hs; exact ⟨hc, by simp [fires]⟩
    · cases hs
  | seek =>
    simp only [WebLog.step] at hs
    split at hs
    · cases hs
      exact ⟨hc, by simp [fires, WebLog.endUpdate, hc]⟩
    · cases hs
  | finish k =>
    simp only [WebLog.step] at hs
    split at hs
    · cases hl : w.ios.getLast? with
      | none => simp [hl] at hs
      | some b => simp only [hl] at hs; cases hs; exact ⟨rfl, by simp [fires]⟩
    · cases hs

private theorem quiet_run {w w' : WebLog} (es : List WEv) (hc : w.capture = false) (hr : w.run es = some w') (hb : .begin ∉ es) :
    w'.capture = false ∧ w'.timers + fires es = w.timers := by
  induction es generalizing w with
  | nil => simp only [WebLog.run, Option.some.injEq] at hr; subst hr; exact ⟨hc, by simp [fires]⟩
  | cons e es ih =>
    simp only [WebLog.run] at hr
    cases hs : w.step e with
    | none => simp [hs] at hr
    | some v =>
      rw [hs] at hr
      obtain ⟨h1, h2⟩ := quiet_step hc hs (fun he => hb (by simp [he]))
      obtain ⟨h3, h4⟩ := ih h1 hr (fun hk => hb (by simp [hk]))
      refine ⟨h3, ?_⟩
      have : fires (e :: es) = fires [e] + fires es := by
        simp only [fires, List.countP_cons, List.countP_nil]; omega
      omega

/-- C202: when a run ends, the polling ends: until another run begins, no calls of `update_logging` take place but those that are already scheduled,
each of them once. -/
theorem C202_polling_ends (w v w' : WebLog) (k : Nat) (es : List WEv) (hk : w.step (.finish k) = some v) (hr : v.run es = some w')
    (hb : .begin ∉ es) : w'.timers + es.countP (fun e => decide (e = .fire)) = w.timers := by
  have hv : v.capture = false ∧ v.timers = w.timers := by
    simp only [WebLog.step] at hk
    split at hk
    · cases hl : w.ios.getLast? with
      | none => simp [hl] at hk
      | some b => simp only [hl] at hk; cases hk; exact ⟨rfl, rfl⟩
    · cases hk
  rw [← hv.2]
  exact (quiet_run es hv.1 hr hb).2

/-- The first run of a connection, and a second one that begins within half a second after the end of the first one. -/
def exAgain : List WEv := [.begin, .check, .finish 0, .begin]

/-- C202 is violated: if a run begins within half a second after the end of the last one, then the call that is still scheduled goes on as well, since
logs are captured again. From then on two chains of calls poll the log of the one run, as long as it lasts. -/
theorem C202_two_polls_false : ∃ v, webLog0.run exAgain = some v ∧ v.attached = [1] ∧
    ∀ es w, v.run es = some w → .begin ∉ es → (∀ k, .finish k ∉ es) → w.timers + (if w.phase = .idle then 0 else 1) = 2 := by
  refine ⟨⟨[⟨[], 0, true⟩, ⟨[], 0, false⟩], [1], true, 1, .due, []⟩, by decide +kernel, rfl, ?_⟩
  intro es w hr hb hf
  obtain ⟨_, h2⟩ := poll_run es rfl hr hf
  have hz : begins es = 0 := by
    rw [begins, List.countP_eq_zero]
    intro e he
    simp only [decide_eq_true_eq]
    rintro rfl
    exact hb he
  rw [hz] at h2
  exact h2

/-- C202 is violated: if two runs overlap, the polling ends with the first one that ends, although the other one goes on. -/
theorem C202_overlap_false : ∃ v, webLog0.run [.begin, .check, .begin, .check, .finish 0] = some v ∧ v.attached = [1] ∧
    ∀ es w, v.run es = some w → .begin ∉ es → es.countP (fun e => decide (e = .fire)) ≤ 2 := by
  refine ⟨⟨[⟨[], 0, false⟩, ⟨[], 0, true⟩], [1], false, 2, .idle, []⟩, by decide +kernel, rfl, ?_⟩
  intro es w hr hb
  have := (quiet_run es rfl hr hb).2
  simp only [fires] at this
  omega

/-- A run with three lines and two calls by the timer. -/
example : (webLog0.run [.begin, .check, .log ['a'], .log ['b'], .fire, .check, .send, .send, .cut, .seek, .log ['c'], .fire, .check]).map
    (fun w => (w.timers, w.phase, w.sent)) = some (0, .loop 0 1, [['a'], ['b']]) := by decide +kernel

/-- After the end of a run one more call takes place. -/
example : (webLog0.run [.begin, .check, .finish 0, .fire, .check]).map (fun w => (w.timers, w.phase)) = some (0, .idle) ∧
    webLog0.run [.begin, .check, .finish 0, .fire, .check, .fire] = none := by decide +kernel

/-- Two calls for the second run. -/
example : (webLog0.run (exAgain ++ [.check, .fire, .check, .fire, .check])).map (fun w => (w.timers, w.phase)) = some (2, .idle) := by decide +kernel

/-! ## C174: the handlers of the runs -/

private theorem handlers_step {w w' : WebLog} {e : WEv} (hs : w.step e = some w') :
    w'.ios.length = w.ios.length + begins [e] ∧ (w.attached.Nodup → (∀ k ∈ w.attached, k < w.ios.length) → w'.attached.Nodup) ∧
    (w.attached.Nodup → ∀ k, k ∈ w'.attached ↔ (k ∈ w.attached ∨ e = .begin ∧ k = w.ios.length) ∧ e ≠ .finish k) ∧
    (∀ k, e = .finish k → k ∈ w.attached) := by
  have keep : w'.ios.length = w.ios.length → w'.attached = w.attached → e ≠ .begin → (∀ k, e ≠ .finish k) →
      w'.ios.length = w.ios.length + begins [e] ∧ (w.attached.Nodup → (∀ k ∈ w.attached, k < w.ios.length) → w'.attached.Nodup) ∧
      (w.attached.Nodup → ∀ k, k ∈ w'.attached ↔ (k ∈ w.attached ∨ e = .begin ∧ k = w.ios.length) ∧ e ≠ .finish k) ∧
      (∀ k, e = .finish k → k ∈ w.attached) := by
    intro h1 h2 h3 h4
    rw [h1, h2]
    exact ⟨by simp [begins, h3], fun h _ => h, fun _ k => by simp [h3, h4 k], fun k h => absurd h (h4 k)⟩
  have hlast : ∀ (l : List SIO) (b b' : SIO), l.getLast? = some b → (l.dropLast ++ [b']).length = l.length := by
    intro l b b' h
    have : l ≠ [] := by rintro rfl; simp at h
    have := List.length_pos_iff.2 this
    simp
    omega
  cases e with
  | «begin» =>
    simp only [WebLog.step] at hs
    split at hs
    · cases hs
      refine ⟨by simp [begins], fun h1 h2 => ?_, fun _ k => by simp, fun k h => by simp at h⟩
      rw [List.nodup_append]
      refine ⟨h1, by simp, ?_⟩
      intro a ha b hb hab
      rw [List.mem_singleton] at hb
      have := h2 a ha
      omega
    · cases hs
  | log m => simp only [WebLog.step] at hs; cases hs; exact keep (by simp) rfl (by simp) (by simp)
  | fire =>
    simp only [WebLog.step] at hs
    split at hs
    · cases hs; exact keep rfl rfl (by simp) (by simp)
    · cases hs
  | check =>
    simp only [WebLog.step] at hs
    split at hs
    · cases hl : w.ios.getLast? with
      | none => simp [hl] at hs
      | some b =>
        simp only [hl] at hs
        split at hs <;> cases hs <;> exact keep rfl rfl (by simp) (by simp)
    · cases hs
  | send =>
    simp only [WebLog.step] at hs
    split at hs
    · split at hs
      · cases hs; exact keep rfl rfl (by simp) (by simp)
      · cases hs
    · cases hs
  | cut =>
    simp only [WebLog.step] at hs
    split at hs
    · next i n b h1 h2 =>
      split at hs
      · cases hs
      · cases hs; exact keep (hlast _ _ _ h2) rfl (by simp) (by simp)
    · cases hs
  | seek =>
    simp only [WebLog.step] at hs
    split at hs
    · next b h1 h2 => cases hs; exact keep (hlast _ _ _ h2) rfl (by simp) (by simp)
    · cases hs
  | finish j =>
    simp only [WebLog.step] at hs
    split at hs
    · next h =>
      cases hl : w.ios.getLast? with
      | none => simp [hl] at hs
      | some b =>
        simp only [hl] at hs
        cases hs
        refine ⟨by rw [hlast _ _ _ hl]; simp [begins], fun h1 _ => h1.erase _, fun h1 k => ?_, fun k hk => ?_⟩
        · rw [h1.mem_erase_iff]
          simp only [reduceCtorEq, false_and, or_false, ne_eq, WEv.finish.injEq]
          constructor
          · rintro ⟨a, b⟩; exact ⟨b, fun c => a c.symm⟩
          · rintro ⟨a, b⟩; exact ⟨fun c => b c.symm, a⟩
        · cases hk; exact h.2
    · cases hs

private theorem begins_snoc (es : List WEv) (e : WEv) : begins (es ++ [e]) = begins es + begins [e] := by
  simp [begins, List.countP_append]

private theorem wrun_snoc (w : WebLog) (es : List WEv) (e : WEv) : w.run (es ++ [e]) = (w.run es).bind (·.step e) := by
  induction es generalizing w with
  | nil => simp only [List.nil_append, WebLog.run, Option.bind_some]; cases w.step e <;> rfl
  | cons a es ih =>
    simp only [List.cons_append, WebLog.run]
    cases w.step a with
    | none => rfl
    | some v => exact ih v

private theorem handlers_run (es : List WEv) (w : WebLog) (hr : webLog0.run es = some w) :
    w.ios.length = begins es ∧ w.attached.Nodup ∧ (∀ k, k ∈ w.attached ↔ k < begins es ∧ .finish k ∉ es) ∧ (∀ k, .finish k ∈ es → k < begins es) := by
  induction es using List.reverseRecOn generalizing w with
  | nil => simp only [WebLog.run, Option.some.injEq] at hr; subst hr; simp [webLog0, begins]
  | append_singleton es e ih =>
    rw [wrun_snoc] at hr
    cases hv : webLog0.run es with
    | none => simp [hv] at hr
    | some v =>
      rw [hv, Option.bind_some] at hr
      obtain ⟨h1, h2, h3, h4⟩ := ih v hv
      obtain ⟨s1, s2, s3, s4⟩ := handlers_step hr
      have hfin : ∀ k, .finish k ∈ es ++ [e] → k < begins (es ++ [e]) := by
        intro k hk
        rw [begins_snoc]
        rcases List.mem_append.1 hk with hk | hk
        · have := h4 k hk; omega
        · have := (h3 k).1 (s4 k (List.mem_singleton.1 hk).symm); omega
      refine ⟨by rw [s1, h1, begins_snoc], s2 h2 (fun k hk => by rw [h1]; exact ((h3 k).1 hk).1), fun k => ?_, hfin⟩
      rw [s3 h2 k, h3 k, begins_snoc, h1]
      constructor
      · rintro ⟨⟨a, b⟩ | ⟨rfl, rfl⟩, c⟩
        · exact ⟨by omega, by simp [b, Ne.symm c]⟩
        · refine ⟨by simp [begins], ?_⟩
          intro hk
          rcases List.mem_append.1 hk with hk | hk
          · exact absurd (h4 _ hk) (Nat.lt_irrefl _)
          · simp at hk
      · rintro ⟨a, b⟩
        have hb : .finish k ∉ es ∧ e ≠ .finish k := by
          simp only [List.mem_append, List.mem_singleton, not_or] at b
          exact ⟨b.1, fun h => b.2 h.symm⟩
        refine ⟨?_, hb.2⟩
        by_cases hk : k < begins es
        · exact .inl ⟨hk, hb.1⟩
        · right
          by_cases he : e = .begin
          · subst he; simp [begins] at a hk ⊢; omega
          · have : begins [e] = 0 := by simp [begins, he]
            omega

/-- C174: at all times the handlers installed are those of the runs that have begun and are not over; a message is written to the buffers of exactly these
runs. -/
theorem C174_handlers (es : List WEv) (w w' : WebLog) (m : List Char) (hr : webLog0.run es = some w) (hs : w.step (.log m) = some w') :
    (∀ k, k ∈ w.attached ↔ k < begins es ∧ .finish k ∉ es) ∧ w.ios.length = begins es ∧
    ∀ (k : Nat) (b : SIO), w.ios[k]? = some b →
      (.finish k ∈ es → w'.ios[k]? = some b) ∧ (.finish k ∉ es → w'.ios[k]? = some (b.write (m ++ ['\n']))) := by
  obtain ⟨h1, h2, h3, h4⟩ := handlers_run es w hr
  refine ⟨h3, h1, fun k b hk => ?_⟩
  have hlt : k < begins es := by rw [← h1]; exact (List.getElem?_eq_some_iff.1 hk).1
  simp only [WebLog.step, Option.some.injEq] at hs
  subst hs
  simp only [List.getElem?_mapIdx, hk, Option.map_some]
  refine ⟨fun hf => ?_, fun hf => ?_⟩
  · rw [if_neg (fun hm => ((h3 k).1 hm).2 hf)]
  · rw [if_pos ((h3 k).2 ⟨hlt, hf⟩)]

-- Two runs, the first of which is over.
example : ∃ w, webLog0.run [.begin, .check, .begin, .check, .finish 0] = some w ∧ w.attached = [1] ∧ w.ios.length = 2 := by
  refine ⟨_, rfl, ?_⟩
  decide +kernel

end Verif
