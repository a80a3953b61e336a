import Verif.Proofs.Mail

/-!
# Messages between agents, in whole simulations (C215)
-/

namespace Verif
open Spec

variable {U : Type}

/-- The state reached by a history. -/
def mailReach (C : MailCode U) (iv : Time) (sh : Bool) (evented : List Bool) (u : U) (h : List (MailCmd U)) : Sched × Mail U :=
  mailExec C h (Sched.init iv sh, Mail.start evented u)

theorem mailReach_inv (C : MailCode U) (iv : Time) (sh : Bool) (evented : List Bool) (u : U) (h : List (MailCmd U)) :
    MailInv (mailReach C iv sh evented u h).2 :=
  mail_induct C MailInv (fun _ o hw => hw.op C.on o) (fun _ _ hw => hw.congr rfl rfl rfl) h _ _ (start_inv evented u)

/-- C215, unless an exception escapes from `process_messages`: the messages sent to an agent (told, asked or broadcast) are, in this
order, those that it has dealt with, i.e. handed to `on_receive` or passed over because they had expired, and those in its inbox. So
every message is dealt with once, in order, and none is lost. Missing: see `C215_twice_false`. -/
theorem C215_conserved_partial (C : MailCode U) (iv : Time) (sh : Bool) (evented : List Bool) (u : U) (h : List (MailCmd U))
    (hn : ∀ d t, MailEv.failed d t ∉ (mailReach C iv sh evented u h).2.log) (dst : Nat) (b : List Msg)
    (hb : (mailReach C iv sh evented u h).2.inbox dst = some b) :
    sentTo dst (mailReach C iv sh evented u h).2.log = doneAt dst (mailReach C iv sh evented u h).2.log ++ b := by
  refine mail_induct C (fun w => NoFailure w.log → ∀ d, CleanAt d w) (fun w o hw hn d => op_clean C.on w hw o hn d)
    (fun w t hw => hw) h (Sched.init iv sh) (Mail.start evented u) ?_ hn dst b hb
  intro _ d b hb
  obtain ⟨pre, h1, _⟩ := (start_inv evented u).kept d b hb
  cases b with
  | nil => rfl
  | cons m ms => exact absurd h1 (by simp [Mail.start, sentTo])

/-- C215, always: what is in an inbox are the last messages sent to the agent, and the earlier ones have been dealt with, at least
once; an agent without inbox is not sent anything; messages have different identities. -/
theorem C215_never_lost (C : MailCode U) (iv : Time) (sh : Bool) (evented : List Bool) (u : U) (h : List (MailCmd U)) :
    let w := (mailReach C iv sh evented u h).2
    (∀ dst b, w.inbox dst = some b → ∃ pre, sentTo dst w.log = pre ++ b ∧ ∀ m ∈ pre, m ∈ doneAt dst w.log) ∧
    (∀ dst, w.inbox dst = none → sentTo dst w.log = []) ∧ (w.log.filterMap sentId).Nodup := by
  have hI := mailReach_inv C iv sh evented u h
  exact ⟨hI.kept, hI.none, hI.ids.1⟩

/-- C215: a message is handed to `on_receive` only before or at its expiration, and passed over only after it. -/
theorem C215_expiration (C : MailCode U) (iv : Time) (sh : Bool) (evented : List Bool) (u : U) (h : List (MailCmd U)) (d : Nat) (m : Msg)
    (t : Time) :
    (∀ r, MailEv.handled d m t r ∈ (mailReach C iv sh evented u h).2.log → ∀ e, m.expiration = some e → t ≤ e) ∧
    (MailEv.expired d m t ∈ (mailReach C iv sh evented u h).2.log → ∃ e, m.expiration = some e ∧ e < t) := by
  have hI := mailReach_inv C iv sh evented u h
  constructor
  · intro r hm e he
    have := hI.timely _ hm
    simp only [Timely, Msg.expired, he, decide_eq_false_iff_not] at this
    exact le_of_not_gt this
  · intro hm
    have := hI.timely _ hm
    simp only [Timely, Msg.expired] at this
    cases he : m.expiration with
    | none => rw [he] at this; cases this
    | some e =>
      rw [he] at this
      exact ⟨e, rfl, of_decide_eq_true this⟩

private theorem deliver_inbox (w : Mail U) (dst : Nat) (mk : Nat → Msg) (d : Nat) :
    (w.deliver dst mk).inbox d = if d = dst then (w.inbox d).map (· ++ [mk w.nextId]) else w.inbox d := by
  unfold Mail.deliver
  cases hb : w.inbox dst with
  | none =>
    simp only
    split
    · next h => rw [h, hb]; rfl
    · rfl
  | some b =>
    have hlt : dst < w.inboxes.length := by
      by_contra hc
      simp [Mail.inbox, List.getElem?_eq_none (Nat.le_of_not_lt hc)] at hb
    simp only
    split
    · next h => rw [h, hb]; simp [Mail.inbox, List.getElem?_set_self hlt]
    · next h => simp only [Mail.inbox, List.getElem?_set_ne (fun e => h e.symm)]

/-- C215: what is put in the inboxes. `tell` and `ask` append one message without expiration to that of the agent; a broadcast appends one to that of every
agent that it is for and that has an inbox, with the sender that is given, and an expiration of now plus `ttl`, or the one that is given if there is no
`ttl`; all other inboxes stay as they are. The messages have identities that were not used before. -/
theorem C215_sent (w : Mail U) (payload : Nat) (sender : Option Nat) (expiration : Option Time) (ttl : Time) (dst d : Nat) (targets : List Nat)
    (hnd : targets.Nodup) :
    ((Send.tell dst payload sender).exec w).inbox d =
      (if d = dst then (w.inbox d).map (· ++ [⟨w.nextId, payload, sender, none, false⟩]) else w.inbox d) ∧
    ((Send.ask dst payload).exec w).inbox d =
      (if d = dst then (w.inbox d).map (· ++ [⟨w.nextId, payload, some dst, none, true⟩]) else w.inbox d) ∧
    (∃ id, w.nextId ≤ id ∧ ((Send.broadcast targets payload sender expiration none).exec w).inbox d =
      (if d ∈ targets then (w.inbox d).map (· ++ [⟨id, payload, sender, expiration, false⟩]) else w.inbox d)) ∧
    (∃ id, w.nextId ≤ id ∧ ((Send.broadcast targets payload sender expiration (some ttl)).exec w).inbox d =
      (if d ∈ targets then (w.inbox d).map (· ++ [⟨id, payload, sender, some (w.now + ttl), false⟩]) else w.inbox d)) := by
  have key : ∀ (ex : Option Time) (ttl : Option Time) (targets : List Nat) (w : Mail U), targets.Nodup →
      ∃ id, w.nextId ≤ id ∧ ((Send.broadcast targets payload sender ex ttl).exec w).inbox d =
        (if d ∈ targets then (w.inbox d).map (· ++ [⟨id, payload, sender, castExpiration w.now ex ttl, false⟩]) else w.inbox d) := by
    intro ex ttl targets
    induction targets with
    | nil => intro w _; exact ⟨w.nextId, Nat.le_refl _, by simp [Send.exec]⟩
    | cons t ts ih =>
      intro w hnd
      obtain ⟨ht, hnd⟩ := List.nodup_cons.1 hnd
      obtain ⟨id, hid, hi⟩ := ih (w.deliver t (fun id => ⟨id, payload, sender, castExpiration w.now ex ttl, false⟩)) hnd
      have hnow : (w.deliver t (fun id => ⟨id, payload, sender, castExpiration w.now ex ttl, false⟩)).now = w.now := by
        unfold Mail.deliver; split <;> rfl
      have hnext : w.nextId ≤ (w.deliver t (fun id => ⟨id, payload, sender, castExpiration w.now ex ttl, false⟩)).nextId := by
        unfold Mail.deliver
        split
        · exact Nat.le_refl _
        · exact Nat.le_succ _
      rw [hnow, deliver_inbox] at hi
      have hstep : (Send.broadcast (t :: ts) payload sender ex ttl).exec w = (Send.broadcast ts payload sender ex ttl).exec
          (w.deliver t (fun id => ⟨id, payload, sender, castExpiration w.now ex ttl, false⟩)) := rfl
      rw [hstep, hi]
      by_cases hdt : d = t
      · subst hdt
        exact ⟨w.nextId, Nat.le_refl _, by simp [ht]⟩
      · exact ⟨id, Nat.le_trans hnext hid, by simp [hdt]⟩
  refine ⟨?_, ?_, ?_, ?_⟩
  · exact deliver_inbox w dst _ d
  · exact deliver_inbox w dst _ d
  · exact key expiration none targets w hnd
  · exact key expiration (some ttl) targets w hnd

/-- At time 5, a broadcast to the agents 0, 1 and 2, of which the second has no inbox. -/
example : ((Send.broadcast [0, 1, 2] 7 (some 3) (some 1) (some 2)).exec (⟨[some [], none, some [], some []], 4, [], 5, (), []⟩ : Mail Unit)).inboxes =
    [some [⟨4, 7, some 3, some 7, false⟩], none, some [⟨5, 7, some 3, some 7, false⟩], some []] := by decide +kernel

/-! ### Time -/

/-- Everything in the log has happened by now, in order of time. -/
def InTime (s : Sched) (w : Mail U) : Prop :=
  (∀ e ∈ w.log, mailTime e ≤ s.time) ∧ w.log.Pairwise (fun a b => mailTime a ≤ mailTime b)

theorem inTime_logged {s s' : Sched} {w w' : Mail U} (h : InTime s w) (hl : Logged { w with now := s.time } w')
    (hs : s'.time = s.time) : InTime s' w' := by
  obtain ⟨_, evs, he, ht⟩ := hl
  simp only at he ht
  refine ⟨?_, ?_⟩
  · intro e hm
    rw [hs]
    rw [he] at hm
    rcases List.mem_append.1 hm with hm | hm
    · exact h.1 e hm
    · exact le_of_eq (ht e hm)
  · rw [he, List.pairwise_append]
    refine ⟨h.2, ?_, ?_⟩
    · refine List.pairwise_of_forall_mem_list ?_
      intro a ha b hb
      rw [ht a ha, ht b hb]
    · intro a ha b hb
      rw [ht b hb]
      exact h.1 a ha

theorem keepsInTime (C : MailCode U) (iv : Time) : KeepsInv C.host iv InTime where
  act r s w _ h _ _ _ _ := by
    refine inTime_logged h (prog_logged C.on (C.step r s { w with now := s.time }) { w with now := s.time }) ?_
    simp [Sched.logAct, applyOps_time]
  same s s' w h _ _ ht := ⟨fun e he => le_trans (h.1 e he) ht, h.2⟩
  shuffle s l w h := h

theorem mailExec_log (C : MailCode U) (h : List (MailCmd U)) (sw : Sched × Mail U) :
    ∃ l, (mailExec C h sw).1.log = sw.1.log ++ l := by
  induction h generalizing sw with
  | nil => exact ⟨[], by simp [mailExec]⟩
  | cons c h ih =>
    have h1 : ∃ l, (c.exec C sw).1.log = sw.1.log ++ l := by
      cases c with
      | step => exact Cmd.exec_log C.host .step sw
      | code p =>
        obtain ⟨l, hl, _⟩ := applyOps_log sw.1 (p.run C.on { sw.2 with now := sw.1.time }).2.1
        exact ⟨l, hl⟩
    obtain ⟨l1, h1⟩ := h1
    obtain ⟨l2, h2⟩ := ih (c.exec C sw)
    exact ⟨l1 ++ l2, by rw [← List.append_assoc, ← h1, ← h2]; rfl⟩

theorem applyOps_inv {s : Sched} (h : Inv s) (os : List SOp) : Inv (s.applyOps os) := by
  induction os generalizing s with
  | nil => exact h
  | cons o os ih => exact ih (h.op o)

theorem mailExec_inTime (C : MailCode U) (iv : Time) (h : List (MailCmd U)) (s : Sched) (w : Mail U) (hs : Inv s)
    (hi : s.interval = iv) (hw : InTime s w) (hg : GoodLog (mailExec C h (s, w)).1.log) :
    InTime (mailExec C h (s, w)).1 (mailExec C h (s, w)).2 := by
  induction h generalizing s w with
  | nil => exact hw
  | cons c h ih =>
    have e : mailExec C (c :: h) (s, w) = mailExec C h (c.exec C (s, w)) := rfl
    rw [e] at hg ⊢
    obtain ⟨l, hl⟩ := mailExec_log C h (c.exec C (s, w))
    have hg1 : GoodLog (c.exec C (s, w)).1.log := by
      rw [hl] at hg
      exact hg.prefix
    cases c with
    | step =>
      have hg2 : GoodLog (s.step C.host w).1.log := hg1
      exact ih _ _ (hs.step C.host w hg2).1 ((execAll_interval C.host [.step] (s, w)).trans hi)
        ((keepsInTime C iv).step hs hi hw hg2) hg
    | code p =>
      refine ih _ _ (applyOps_inv hs _) (by rw [applyOps_interval]; exact hi) ?_ hg
      exact inTime_logged hw (prog_logged C.on p _) (applyOps_time _ _)

/-- C215: things happen to messages in order of time, and a message is dealt with after it has been sent, to the same agent. -/
theorem C215_order (C : MailCode U) (iv : Time) (hiv : 0 < iv) (sh : Bool) (evented : List Bool) (u : U) (h : List (MailCmd U))
    (hg : GoodLog (mailReach C iv sh evented u h).1.log) :
    (mailReach C iv sh evented u h).2.log.Pairwise (fun a b => mailTime a ≤ mailTime b) ∧
    ∀ pre e post, (mailReach C iv sh evented u h).2.log = pre ++ e :: post → ∀ dst m, doneEv dst e = some m →
      ∃ t, MailEv.sent dst m t ∈ pre ∧ t ≤ mailTime e := by
  have hp := (mailExec_inTime C iv h (Sched.init iv sh) (Mail.start evented u) (Inv.init hiv sh) rfl
    ⟨by simp [Mail.start], by simp [Mail.start]⟩ hg).2
  refine ⟨hp, ?_⟩
  intro pre e post heq dst m hd
  have hs := (mailReach_inv C iv sh evented u h).causal pre e post heq dst m hd
  obtain ⟨e0, he0, hm0⟩ := List.mem_filterMap.1 hs
  cases e0 with
  | sent d m' t =>
    simp only [sentEv] at hm0
    split at hm0
    · rename_i hdd
      cases hm0
      subst hdd
      refine ⟨t, he0, ?_⟩
      have hp' : (pre ++ e :: post).Pairwise (fun a b => mailTime a ≤ mailTime b) := heq ▸ hp
      exact (List.pairwise_append.1 hp').2.2 _ he0 e List.mem_cons_self
    · cases hm0
  | handled _ _ _ _ => cases hm0
  | expired _ _ _ => cases hm0
  | failed _ _ => cases hm0

/-! ### Replies -/

theorem sent_unique {l : List MailEv} (hnd : (l.filterMap sentId).Nodup) {d1 d2 : Nat} {m1 m2 : Msg}
    (h1 : m1 ∈ sentTo d1 l) (h2 : m2 ∈ sentTo d2 l) (hid : m1.id = m2.id) : d1 = d2 ∧ m1 = m2 := by
  have get : ∀ {d m}, m ∈ sentTo d l → ∃ t, MailEv.sent d m t ∈ l := by
    intro d m hm
    obtain ⟨e, he, hm⟩ := List.mem_filterMap.1 hm
    cases e with
    | sent d' m' t =>
      simp only [sentEv] at hm
      split at hm
      · rename_i hd; cases hm; subst hd; exact ⟨t, he⟩
      · cases hm
    | handled _ _ _ _ => cases hm
    | expired _ _ _ => cases hm
    | failed _ _ => cases hm
  obtain ⟨t1, e1⟩ := get h1
  obtain ⟨t2, e2⟩ := get h2
  clear h1 h2 get
  induction l with
  | nil => cases e1
  | cons e l ih =>
    have htail : (l.filterMap sentId).Nodup := by
      rw [List.filterMap_cons] at hnd
      split at hnd
      · exact hnd
      · exact (List.nodup_cons.1 hnd).2
    have clash : ∀ {d m t}, e = .sent d m t → ∀ {d' m' t'}, MailEv.sent d' m' t' ∈ l → m.id = m'.id → False := by
      rintro d m t rfl d' m' t' hm' hid
      simp only [List.filterMap_cons, sentId] at hnd
      exact (List.nodup_cons.1 hnd).1 (List.mem_filterMap.2 ⟨_, hm', by simp [sentId, hid]⟩)
    rcases List.mem_cons.1 e1 with e1 | e1
    · rcases List.mem_cons.1 e2 with e2 | e2
      · rw [← e1] at e2
        cases e2
        exact ⟨rfl, rfl⟩
      · exact (clash e1.symm e2 hid).elim
    · rcases List.mem_cons.1 e2 with e2 | e2
      · exact (clash e2.symm e1 hid.symm).elim
      · exact ih htail e1 e2

theorem sentTo_nodup {l : List MailEv} (hnd : (l.filterMap sentId).Nodup) (d : Nat) : (sentTo d l).Nodup := by
  induction l with
  | nil => exact List.nodup_nil
  | cons e l ih =>
    have htail : (l.filterMap sentId).Nodup := by
      rw [List.filterMap_cons] at hnd
      split at hnd
      · exact hnd
      · exact (List.nodup_cons.1 hnd).2
    unfold sentTo
    rw [List.filterMap_cons]
    split
    · exact ih htail
    · rename_i m hm
      refine List.nodup_cons.2 ⟨?_, ih htail⟩
      intro hmem
      cases e with
      | sent d' m' t =>
        simp only [sentEv] at hm
        split at hm
        · cases hm
          simp only [List.filterMap_cons, sentId] at hnd
          refine (List.nodup_cons.1 hnd).1 ?_
          obtain ⟨e', he', hm'⟩ := List.mem_filterMap.1 hmem
          cases e' with
          | sent d2 m2 t2 =>
            simp only [sentEv] at hm'
            split at hm'
            · cases hm'
              exact List.mem_filterMap.2 ⟨_, he', rfl⟩
            · cases hm'
          | handled _ _ _ _ => cases hm'
          | expired _ _ _ => cases hm'
          | failed _ _ => cases hm'
        · cases hm
      | handled _ _ _ _ => cases hm
      | expired _ _ _ => cases hm
      | failed _ _ => cases hm

/-- C215, unless an exception escapes from `process_messages`: no message is dealt with twice, neither by the same nor by different
agents. -/
theorem C215_once_partial (C : MailCode U) (iv : Time) (sh : Bool) (evented : List Bool) (u : U) (h : List (MailCmd U))
    (hn : ∀ d t, MailEv.failed d t ∉ (mailReach C iv sh evented u h).2.log) (p q r : List MailEv) (e1 e2 : MailEv)
    (hl : (mailReach C iv sh evented u h).2.log = p ++ e1 :: q ++ e2 :: r) (d1 d2 : Nat) (m1 m2 : Msg)
    (h1 : doneEv d1 e1 = some m1) (h2 : doneEv d2 e2 = some m2) : m1.id ≠ m2.id := by
  intro hid
  have hI := mailReach_inv C iv sh evented u h
  have hs1 : m1 ∈ sentTo d1 (mailReach C iv sh evented u h).2.log := by
    have := hI.causal p e1 (q ++ e2 :: r) (by rw [hl]; simp) d1 m1 h1
    rw [hl]
    simp only [sentTo, List.filterMap_append]
    exact List.mem_append_left _ (List.mem_append_left _ this)
  have hs2 : m2 ∈ sentTo d2 (mailReach C iv sh evented u h).2.log := by
    have := hI.causal (p ++ e1 :: q) e2 r hl d2 m2 h2
    rw [hl]
    unfold sentTo at this ⊢
    rw [List.filterMap_append]
    exact List.mem_append_left _ this
  obtain ⟨rfl, rfl⟩ := sent_unique hI.ids.1 hs1 hs2 hid
  cases hb : (mailReach C iv sh evented u h).2.inbox d1 with
  | none =>
    rw [hI.none d1 hb] at hs1
    cases hs1
  | some b =>
    have hc := C215_conserved_partial C iv sh evented u h hn d1 b hb
    have hnd := sentTo_nodup hI.ids.1 d1
    rw [hc] at hnd
    have hd := (List.nodup_append.1 hnd).1
    rw [hl] at hd
    simp only [doneAt, List.filterMap_append, List.filterMap_cons, h1, h2] at hd
    have := (List.nodup_append.1 hd).2.2 m1 (List.mem_append_right _ List.mem_cons_self) m1 List.mem_cons_self
    exact this rfl

/-- C215: the reply stored in a question is what `on_receive` returned the last time it was given that question; unless an exception
escapes from `process_messages`, it is what `on_receive` returned for it, and never changes. -/
theorem C215_replies (C : MailCode U) (iv : Time) (sh : Bool) (evented : List Bool) (u : U) (h : List (MailCmd U)) :
    (∀ id, Dict.get? (mailReach C iv sh evented u h).2.replies id = lastReply id (mailReach C iv sh evented u h).2.log) ∧
    ((∀ d t, MailEv.failed d t ∉ (mailReach C iv sh evented u h).2.log) → ∀ d m t v,
      MailEv.handled d m t (some v) ∈ (mailReach C iv sh evented u h).2.log → m.ask = true →
      Dict.get? (mailReach C iv sh evented u h).2.replies m.id = some v) := by
  have hr : RepliesOk (mailReach C iv sh evented u h).2 :=
    mail_induct C RepliesOk (fun w o hw => op_replies C.on w hw o) (fun _ _ hw => hw) h _ _ (fun id => rfl)
  refine ⟨hr, ?_⟩
  intro hn d m t v hm ha
  rw [hr]
  obtain ⟨p, q, hl⟩ := List.append_of_mem hm
  have hdone : ∀ e, (replyEv m.id e).isSome = true → ∃ d' m', doneEv d' e = some m' ∧ m'.id = m.id := by
    intro e he
    cases e with
    | handled d' m' t' r =>
      refine ⟨d', m', by simp [doneEv], ?_⟩
      cases r with
      | none => cases he
      | some v' =>
        simp only [replyEv] at he
        split at he
        · rename_i hc
          exact hc.2
        · cases he
    | sent _ _ _ => cases he
    | expired _ _ _ => cases he
    | failed _ _ => cases he
  have hp : p.filterMap (replyEv m.id) = [] := by
    refine List.filterMap_eq_nil_iff.2 ?_
    intro e he
    cases hx : replyEv m.id e with
    | none => rfl
    | some x =>
      obtain ⟨d', m', h1, h2⟩ := hdone e (by rw [hx]; rfl)
      obtain ⟨p1, p2, rfl⟩ := List.append_of_mem he
      exact absurd h2 (C215_once_partial C iv sh evented u h hn p1 p2 q e _ (by rw [hl]) d' d m' m h1 (by simp [doneEv]))
  have hq : q.filterMap (replyEv m.id) = [] := by
    refine List.filterMap_eq_nil_iff.2 ?_
    intro e he
    cases hx : replyEv m.id e with
    | none => rfl
    | some x =>
      obtain ⟨d', m', h1, h2⟩ := hdone e (by rw [hx]; rfl)
      obtain ⟨p1, p2, rfl⟩ := List.append_of_mem he
      exact absurd h2.symm (C215_once_partial C iv sh evented u h hn p p1 p2 (.handled d m t (some v)) e (by rw [hl]; simp) d d' m m' (by simp [doneEv]) h1)
  unfold lastReply
  rw [hl, List.filterMap_append, hp, List.filterMap_cons, hq]
  simp [replyEv, ha]

/-! ### Examples -/

/-- Agent 0 asks agent 1 in every activation; agent 1 processes its messages in every activation and answers with the number of
messages it has been given so far, but raises when it is given the payload 9. -/
def exMailCode (payload : Time → Nat) (period : Time) : MailCode Nat where
  on w _ m := (w.u + 1, [], if m.payload = 9 then none else some ⟨w.u + 1, true⟩)
  step r s _ :=
    if r = 0 then .op (.send (.ask 1 (payload s.time))) (fun _ _ => .done (.ret (some 1)) [])
    else .op (.process 1) (fun _ _ => .done (.ret (some period)) [])
  shuffle l _ := l
  shuffle_perm _ _ := List.Perm.refl _

def exMailHist (n : Nat) : List (MailCmd Nat) := .code (.done (.ret none) [.add 0 none, .add 1 none]) :: List.replicate n .step

/-- Three questions, two of which have been answered. -/
example : let w := (mailReach (exMailCode (fun _ => 5) 2) 1 false [false, true] 0 (exMailHist 3)).2
    (sentTo 1 w.log).map (·.id) = [0, 1, 2] ∧ (doneAt 1 w.log).map (·.id) = [0, 1] ∧ w.replies = [(0, ⟨1, true⟩), (1, ⟨2, true⟩)] ∧
    (w.inbox 1).map (·.map (·.id)) = some [2] ∧ w.inbox 0 = none ∧ w.log.map mailTime = [0, 0, 1, 2, 2] := by decide +kernel

/-- C215 is false: agent 0 asks agent 1 at times 0, 1, 2, …; agent 1 processes its messages at times 0, 2, 4, …, and raises when it is
given the question of time 3; whoever runs it catches the exception. At time 4 it answers the question of time 2 and raises at the one of
time 3; at time 6 it is given both again, and the reply to the former, which agent 0 has seen, changes from 3 to 5. -/
theorem C215_twice_false : ∃ C : MailCode Nat,
    (let w := (mailReach C 1 false [false, true] 0 (exMailHist 5)).2;
      (doneAt 1 w.log).map (·.id) = [0, 1, 2, 3] ∧ Dict.get? w.replies 2 = some ⟨3, true⟩) ∧
    (let w := (mailReach C 1 false [false, true] 0 (exMailHist 7)).2;
      (sentTo 1 w.log).map (·.id) = [0, 1, 2, 3, 4, 5, 6] ∧
      (doneAt 1 w.log).map (·.id) = [0, 1, 2, 3, 2, 3] ∧ Dict.get? w.replies 2 = some ⟨5, true⟩) := by
  refine ⟨exMailCode (fun t => if t = 3 then 9 else 5) 2, ?_⟩
  decide +kernel

end Verif
