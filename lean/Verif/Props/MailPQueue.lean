import Verif.Model.MailPQueue
import Verif.Props.Mail

/-!
# Messages between agents inside `PQueueActivation` (C215)
-/

namespace Verif
open Spec

variable {U : Type}

section World

variable {W : Type} (H : PHost W) (P : W → Prop)

theorem pschedule_world (hk : ∀ r w, P w → P (H.key r w).2) (s : PSched) (w : W) (r : Ref) (wh : Option Time) (b : Bool) (hw : P w) :
    P (s.schedule H w r wh b).2.1 := by
  unfold PSched.schedule
  simp only
  split
  · split
    · exact hk r w hw
    · exact hk r w hw
  · exact hk r w hw

theorem papplyOps_world (hk : ∀ r w, P w → P (H.key r w).2) (os : List SOp) (s : PSched) (w : W) (hw : P w) : P (s.applyOps H w os).2.1 := by
  induction os generalizing s w with
  | nil => exact hw
  | cons o os ih =>
    have h1 : P (s.applyOp H w o).2.1 := by
      cases o with
      | add r wh =>
        simp only [PSched.applyOp, PSched.addAgent]
        split
        · exact pschedule_world H P hk s w r _ _ hw
        · exact pschedule_world H P hk s w r _ _ hw
      | remove r => exact hw
      | stop => exact hw
    unfold PSched.applyOps
    simp only
    split
    · exact h1
    · exact ih _ _ h1

theorem pLoop_world (h : ∀ r s w, P w → P (H.step r s w).2.2) (hk : ∀ r w, P w → P (H.key r w).2) (now : Time) (fuel : Nat) (s : PSched) (w : W)
    (hw : P w) : P (pLoop H now fuel s w).2.1 := by
  induction fuel generalizing s w with
  | zero =>
    unfold pLoop
    split
    · exact hw
    · split
      · exact hw
      · exact hw
  | succ fuel ih =>
    unfold pLoop
    split
    · exact hw
    · rename_i e q hq
      split
      · exact hw
      · have h1 : P (s.applyOps H (H.step e.ref s w).2.2 (H.step e.ref s w).2.1).2.1 := papplyOps_world H P hk _ _ _ (h _ _ _ hw)
        simp only
        generalize (if (s.applyOps H (H.step e.ref s w).2.2 (H.step e.ref s w).2.1).2.2 = true then Reply.error else (H.step e.ref s w).1) = rep
        cases rep with
        | error => exact h1
        | dead => exact ih _ _ h1
        | ret d =>
          simp only
          split
          · exact ih _ _ h1
          · split
            · exact pschedule_world H P hk _ _ _ _ _ h1
            · exact ih _ _ (pschedule_world H P hk _ _ _ _ _ h1)

theorem pstep_world (h : ∀ r s w, P w → P (H.step r s w).2.2) (hk : ∀ r w, P w → P (H.key r w).2) (fuel : Nat) (s : PSched) (w : W)
    (hw : P w) : P (s.step H fuel w).2.1 := by
  unfold PSched.step
  split
  · exact hw
  · simp only
    split <;> exact pLoop_world H P h hk _ _ _ _ hw

end World

/-- A property of the mail that operations, the clock and the user's own state preserve holds throughout. -/
theorem mailP_induct (C : MailPCode U) (fuel : Nat) (P : Mail U → Prop) (h : ∀ w o, P w → P (MailOp.exec C.on w o).1)
    (hn : ∀ w t, P w → P { w with now := t }) (hist : List (MailCmd U)) (s : PSched) (w : Mail U) (hw : P w) :
    P (mailPExec C fuel hist (s, w)).2 := by
  have hk : ∀ r w, P w → P (C.host.key r w).2 := fun r w hw => h w (.other (fun _ => (C.key r w).2)) hw
  induction hist generalizing s w with
  | nil => exact hw
  | cons c hist ih =>
    have : P (c.pexec C fuel (s, w)).2 := by
      cases c with
      | step => exact pstep_world C.host P (fun r s w hw => prog_induct C.on P h _ _ (hn _ _ hw)) hk fuel s w hw
      | code p => exact papplyOps_world C.host P hk _ _ _ (prog_induct C.on P h p _ (hn _ _ hw))
    exact ih _ _ this

/-- The state reached by a history. -/
def mailPReach (C : MailPCode U) (iv : Time) (fuel : Nat) (evented : List Bool) (u : U) (h : List (MailCmd U)) : PSched × Mail U :=
  mailPExec C fuel h (PSched.init iv, Mail.start evented u)

/-- C215 with `PQueueActivation`, whatever the scheduler does (entries lost by `add`, exceptions, steps that do not end): what is in an inbox are the
last messages sent to the agent, and the earlier ones have been dealt with; an agent without inbox is not sent anything; messages have different
identities; a message is handed to `on_receive` only before or at its expiration, and passed over only after it; and the reply stored in a question is
what `on_receive` returned for it the last time. -/
theorem C215_pqueue (C : MailPCode U) (iv : Time) (fuel : Nat) (evented : List Bool) (u : U) (h : List (MailCmd U)) :
    let w := (mailPReach C iv fuel evented u h).2
    (∀ dst b, w.inbox dst = some b → ∃ pre, sentTo dst w.log = pre ++ b ∧ ∀ m ∈ pre, m ∈ doneAt dst w.log) ∧
    (∀ dst, w.inbox dst = none → sentTo dst w.log = []) ∧ (w.log.filterMap sentId).Nodup ∧
    (∀ d m t r, MailEv.handled d m t r ∈ w.log → ∀ e, m.expiration = some e → t ≤ e) ∧
    (∀ d m t, MailEv.expired d m t ∈ w.log → ∃ e, m.expiration = some e ∧ e < t) ∧
    (∀ id, Dict.get? w.replies id = lastReply id w.log) := by
  have hI : MailInv (mailPReach C iv fuel evented u h).2 :=
    mailP_induct C fuel MailInv (fun _ o hw => hw.op C.on o) (fun _ _ hw => hw.congr rfl rfl rfl) h _ _ (start_inv evented u)
  have hr : RepliesOk (mailPReach C iv fuel evented u h).2 :=
    mailP_induct C fuel RepliesOk (fun w o hw => op_replies C.on w hw o) (fun _ _ hw => hw) h _ _ (fun id => rfl)
  refine ⟨hI.kept, hI.none, hI.ids.1, ?_, ?_, hr⟩
  · intro d m t r hm e he
    have := hI.timely _ hm
    simp only [Timely, Msg.expired, he, decide_eq_false_iff_not] at this
    exact le_of_not_gt this
  · intro d m t hm
    have := hI.timely _ hm
    simp only [Timely, Msg.expired] at this
    cases he : m.expiration with
    | none => rw [he] at this; cases this
    | some e =>
      rw [he] at this
      exact ⟨e, rfl, of_decide_eq_true this⟩

/-- C215 with `PQueueActivation`, unless an exception escapes from `process_messages`: the messages sent to an agent are, in this order, those that it has
dealt with and those in its inbox. Missing: as in `C215_conserved_partial`. -/
theorem C215_pqueue_conserved_partial (C : MailPCode U) (iv : Time) (fuel : Nat) (evented : List Bool) (u : U) (h : List (MailCmd U))
    (hn : ∀ d t, MailEv.failed d t ∉ (mailPReach C iv fuel evented u h).2.log) (dst : Nat) (b : List Msg)
    (hb : (mailPReach C iv fuel evented u h).2.inbox dst = some b) :
    sentTo dst (mailPReach C iv fuel evented u h).2.log = doneAt dst (mailPReach C iv fuel evented u h).2.log ++ b := by
  refine mailP_induct C fuel (fun w => NoFailure w.log → ∀ d, CleanAt d w) (fun w o hw hn d => op_clean C.on w hw o hn d)
    (fun w t hw => hw) h (PSched.init iv) (Mail.start evented u) ?_ hn dst b hb
  intro _ d b hb
  obtain ⟨pre, h1, _⟩ := (start_inv evented u).kept d b hb
  cases b with
  | nil => rfl
  | cons m ms => exact absurd h1 (by simp [Mail.start, sentTo])

private theorem pschedule_clock {W : Type} (H : PHost W) (s : PSched) (w : W) (r : Ref) (wh : Option Time) (b : Bool) : (s.schedule H w r wh b).1.time = s.time := by
  unfold PSched.schedule
  simp only
  split
  · split <;> rfl
  · rfl

private theorem papplyOps_clock {W : Type} (H : PHost W) (os : List SOp) (s : PSched) (w : W) : (s.applyOps H w os).1.time = s.time := by
  induction os generalizing s w with
  | nil => rfl
  | cons o os ih =>
    have h1 : (s.applyOp H w o).1.time = s.time := by
      cases o with
      | add r wh =>
        simp only [PSched.applyOp, PSched.addAgent]
        split
        · exact pschedule_clock H s w r _ _
        · exact pschedule_clock H s w r _ _
      | remove r => rfl
      | stop => rfl
    unfold PSched.applyOps
    simp only
    split
    · exact h1
    · rw [ih, h1]

private theorem pLoop_clocked {W : Type} (H : PHost W) (P : W → Prop) (T : Time) (h : ∀ r s w, s.time = T → P w → P (H.step r s w).2.2)
    (hk : ∀ r w, P w → P (H.key r w).2) (now : Time) (fuel : Nat) (s : PSched) (w : W) (hs : s.time = T) (hw : P w) :
    P (pLoop H now fuel s w).2.1 := by
  induction fuel generalizing s w with
  | zero =>
    unfold pLoop
    split
    · exact hw
    · split
      · exact hw
      · exact hw
  | succ fuel ih =>
    unfold pLoop
    split
    · exact hw
    · rename_i e q hq
      split
      · exact hw
      · have h1 : P (s.applyOps H (H.step e.ref s w).2.2 (H.step e.ref s w).2.1).2.1 := papplyOps_world H P hk _ _ _ (h _ _ _ hs hw)
        have h2 : (s.applyOps H (H.step e.ref s w).2.2 (H.step e.ref s w).2.1).1.time = T := (papplyOps_clock H _ _ _).trans hs
        simp only
        generalize (if (s.applyOps H (H.step e.ref s w).2.2 (H.step e.ref s w).2.1).2.2 = true then Reply.error else (H.step e.ref s w).1) = rep
        cases rep with
        | error => exact h1
        | dead => exact ih _ _ h2 h1
        | ret d =>
          simp only
          split
          · exact ih _ _ h2 h1
          · split
            · exact pschedule_world H P hk _ _ _ _ _ h1
            · exact ih _ _ ((pschedule_clock H _ _ _ _ _).trans h2) (pschedule_world H P hk _ _ _ _ _ h1)

/-- C215 with `PQueueActivation`: whatever happens to messages in a step, or in code of the environment between steps, happens at the time of the scheduler
before it; nothing is taken back. -/
theorem C215_pqueue_times (C : MailPCode U) (fuel : Nat) (c : MailCmd U) (s : PSched) (w : Mail U) :
    ∃ evs, (c.pexec C fuel (s, w)).2.log = w.log ++ evs ∧ ∀ e ∈ evs, mailTime e = s.time := by
  have hk : ∀ r w', (∃ evs, w'.log = w.log ++ evs ∧ ∀ e ∈ evs, mailTime e = s.time) →
      (∃ evs, (C.host.key r w').2.log = w.log ++ evs ∧ ∀ e ∈ evs, mailTime e = s.time) := fun r w' h => h
  have hp : ∀ (p : MailProg U) (w' : Mail U), (∃ evs, w'.log = w.log ++ evs ∧ ∀ e ∈ evs, mailTime e = s.time) →
      (∃ evs, (p.run C.on { w' with now := s.time }).2.2.log = w.log ++ evs ∧ ∀ e ∈ evs, mailTime e = s.time) := by
    intro p w' ⟨e1, h1, t1⟩
    obtain ⟨_, e2, h2, t2⟩ := prog_logged C.on p { w' with now := s.time }
    refine ⟨e1 ++ e2, by rw [h2, ← List.append_assoc, ← h1], ?_⟩
    intro e he
    rcases List.mem_append.1 he with he | he
    · exact t1 e he
    · exact t2 e he
  have h0 : ∃ evs, w.log = w.log ++ evs ∧ ∀ e ∈ evs, mailTime e = s.time := ⟨[], by simp, by simp⟩
  cases c with
  | step =>
    show ∃ evs, (s.step C.host fuel w).2.1.log = w.log ++ evs ∧ _
    have hl : ∃ evs, (pLoop C.host s.time fuel s w).2.1.log = w.log ++ evs ∧ ∀ e ∈ evs, mailTime e = s.time :=
      pLoop_clocked C.host (fun w' => ∃ evs, w'.log = w.log ++ evs ∧ ∀ e ∈ evs, mailTime e = s.time) s.time
        (fun r s' w' hs hw => by
          have := hp (C.step r s' { w' with now := s'.time }) w' hw
          rw [← hs] at this ⊢
          exact this) hk s.time fuel s w rfl h0
    unfold PSched.step
    split
    · exact h0
    · simp only
      split <;> exact hl
  | code p => exact papplyOps_world C.host (fun w' => ∃ evs, w'.log = w.log ++ evs ∧ ∀ e ∈ evs, mailTime e = s.time) hk _ _ _ (hp p w h0)

/-- The agents of `exMailCode` inside `PQueueActivation`; entries with the same time in the order in which they were made. -/
def exMailPCode (payload : Time → Nat) (period : Time) : MailPCode Nat where
  on := (exMailCode payload period).on
  step r s _ :=
    if r = 0 then .op (.send (.ask 1 (payload s.time))) (fun _ _ => .done (.ret (some 1)) [])
    else .op (.process 1) (fun _ _ => .done (.ret (some period)) [])
  key r w := (r, w.u)

/-- Four questions; the last one is in the inbox of agent 1, which has answered the others. -/
example : let w := (mailPReach (exMailPCode (fun _ => 5) 2) 1 9 [false, true] 0 (exMailHist 4)).2
    (sentTo 1 w.log).map (·.id) = [0, 1, 2, 3] ∧ (doneAt 1 w.log).map (·.id) = [0, 1, 2] ∧
    w.replies = [(0, ⟨1, true⟩), (1, ⟨2, true⟩), (2, ⟨3, true⟩)] ∧
    (w.inbox 1).map (·.map (·.id)) = some [3] ∧ w.inbox 0 = none ∧ w.log.map mailTime = [0, 0, 1, 2, 2, 2, 3] := by decide +kernel

/-- C215 is false with `PQueueActivation` as well: agent 1 is given the question of time 3 at time 4, `on_receive` raises, and the step of the agent
catches the exception; the question is still in the inbox, and the agent is given it again at time 6. -/
theorem C215_pqueue_twice_false : ∃ C : MailPCode Nat,
    let w := (mailPReach C 1 9 [false, true] 0 (exMailHist 7)).2;
      (sentTo 1 w.log).map (·.id) = [0, 1, 2, 3, 4, 5, 6] ∧ (doneAt 1 w.log).map (·.id) = [0, 1, 2, 3, 3] ∧
      (w.inbox 1).map (·.map (·.id)) = some [3, 4, 5, 6] := by
  refine ⟨exMailPCode (fun t => if t = 3 then 9 else 5) 2, ?_⟩
  decide +kernel

end Verif
