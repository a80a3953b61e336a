import Verif.Proofs.Asking

/-!
# An agent that asks another one (C218)
-/

namespace Verif
open Spec

variable {U : Type}

private theorem add_mono_left {a b : Time} (h : a ≤ b) (d : Time) : a + d ≤ b + d := by
  cases a <;> cases b <;> cases d <;> simp_all

private theorem effDelay_nonneg {iv d : Time} (hiv : 0 < iv) (hd : 0 ≤ d) : 0 ≤ effDelay iv (some d) := by
  unfold effDelay
  simp only
  split
  · exact le_of_lt hiv
  · exact hd

private theorem tl_next {iv : Time} {r : Ref} {d d' : Option Time} {l : List Ev} (h : Timeline iv d l d')
    (hr : ∀ e ∈ l, e.ref = r) (hna : ∀ e ∈ l, e.isAdd = false) {a b : List (Time × Reply)} {t : Time} {rep : Reply}
    (hl : actsOf r l = a ++ (t, rep) :: b) :
    (∀ u rep' b', b = (u, rep') :: b' → nextWake iv t rep = some u) ∧ (b = [] → nextWake iv t rep = d') := by
  induction h generalizing a with
  | nil d => simp [actsOf] at hl
  | @add q u l d' h ih => exact absurd (hna _ List.mem_cons_self) (by simp [Ev.isAdd])
  | @act q u rp l d' h ih =>
    have hq : q = r := hr _ List.mem_cons_self
    have hr' : ∀ e ∈ l, e.ref = r := fun e he => hr e (List.mem_cons_of_mem _ he)
    have hna' : ∀ e ∈ l, e.isAdd = false := fun e he => hna e (List.mem_cons_of_mem _ he)
    rw [actsOf_act, if_pos hq] at hl
    cases a with
    | cons x a =>
      rw [List.cons_append] at hl
      exact ih hr' hna' (List.cons.inj hl).2
    | nil =>
      rw [List.nil_append] at hl
      obtain ⟨h1, h2⟩ := List.cons.inj hl
      cases h1
      generalize hx : nextWake iv t rep = x at h
      cases h with
      | nil => exact ⟨fun u' rep' b' hb => by rw [hb] at h2; simp [actsOf] at h2, fun _ => rfl⟩
      | add h => exact absurd (hna' _ List.mem_cons_self) (by simp [Ev.isAdd])
      | @act q' u' rp' l' _ h =>
        rw [actsOf_act, if_pos (show q' = r from hr' _ List.mem_cons_self)] at h2
        refine ⟨?_, fun hb => by rw [hb] at h2; cases h2⟩
        intro u rep' b' hb
        rw [hb] at h2
        cases h2
        rfl

private theorem acts_next {iv : Time} {r : Ref} {log : List Ev} (hl : Legal iv log) (h1 : addCount r log ≤ 1)
    {a b : List (Time × Reply)} {t : Time} {rep : Reply} (he : actsOf r log = a ++ (t, rep) :: b) :
    (∀ u rep' b', b = (u, rep') :: b' → nextWake iv t rep = some u) ∧
    (b = [] → pendingOf (cal iv log) r = (nextWake iv t rep).toList) := by
  obtain ⟨due, ht, hp, _⟩ := hl.timeline r h1
  have hc : addCount r (log.filter (·.ref = r)) ≤ 1 := by
    unfold addCount at h1 ⊢
    exact le_trans (List.Sublist.countP_le (List.filter_sublist)) h1
  rw [← actsOf_filter] at he
  have hr : ∀ e ∈ log.filter (·.ref = r), e.ref = r := fun e hm => by simpa using (List.mem_filter.1 hm).2
  generalize log.filter (·.ref = r) = l at ht hc he hr
  cases ht with
  | nil => simp [actsOf] at he
  | @add q u l _ ht =>
    have hq : q = r := hr _ List.mem_cons_self
    have hna : ∀ e ∈ l, e.isAdd = false := by
      intro e hm
      cases e with
      | act _ _ _ => rfl
      | added q' t' =>
        have hq' : q' = r := hr _ (List.mem_cons_of_mem _ hm)
        subst hq'
        have := addCount_pos hm
        have e1 : addCount q' (.added q u :: l) = addCount q' l + 1 := by simp [addCount, Ev.isAdd, Ev.ref, hq]
        omega
    rw [actsOf_added] at he
    have := tl_next ht (fun e hm => hr e (List.mem_cons_of_mem _ hm)) hna he
    exact ⟨this.1, fun hb => by rw [hp, this.2 hb]⟩

theorem askReach_inv (A : Asking U) (iv : Time) (hiv : 0 < iv) (sh : Bool) (evented : List Bool) (u : U) (h : List (MailCmd U))
    (hb : evented[A.target]? = some true) (hg : GoodLog (askReach A iv sh evented u h).1.log) :
    Inv (askReach A iv sh evented u h).1 ∧ (askReach A iv sh evented u h).1.interval = iv ∧
    AskJ A (askReach A iv sh evented u h).1 (askReach A iv sh evented u h).2 := by
  refine askExec_inv A iv h _ _ (Inv.init hiv sh) rfl ?_ hg
  refine ⟨start_inv evented _, fun id => rfl, ⟨by simp [Mail.start], by simp [Mail.start]⟩, by simp [Mail.start], rfl, ?_, ?_⟩
  · exact ⟨fun _ => rfl, fun h => nomatch h⟩
  · simp [Mail.inbox, Mail.start, hb]

private theorem nextWake_some {iv t u d : Time} (h : nextWake iv t (.ret (some d)) = some u) : u = t + effDelay iv (some d) := by
  simp only [nextWake] at h
  split at h
  · cases h
  · exact (Option.some.inj h).symm

private theorem poll_pairs (A : Asking U) {iv : Time} {s : Sched} {w : Mail (AskU U)} (hs : Inv s) (hi : s.interval = iv) (hJ : AskJ A s w)
    (h1 : addCount A.asker s.log ≤ 1) (a : List Time) (t u : Time) (b : List Time) (hp : w.u.polls = a ++ t :: u :: b) :
    u = t + effDelay iv (some A.delay) := by
  have hl := hs.legal
  rw [hi] at hl
  cases ho : w.u.pc.over with
  | false =>
    have he := hJ.acts.1 ho
    rw [hp, List.map_append, List.map_cons] at he
    exact nextWake_some ((acts_next hl h1 he).1 _ _ _ rfl)
  | true =>
    obtain ⟨front, x, rep, extra, hf, he⟩ := hJ.acts.2 ho
    rw [hp] at hf
    rcases List.eq_nil_or_concat b with rfl | ⟨b', y, rfl⟩
    · have e1 : (a ++ [t]) ++ [u] = front ++ [x] := by rw [← hf]; simp
      obtain ⟨e2, e3⟩ := List.append_inj' e1 rfl
      cases e3
      rw [← e2, List.map_append, List.append_assoc] at he
      exact nextWake_some ((acts_next hl h1 he).1 _ _ _ rfl)
    · have e1 : (a ++ t :: u :: b') ++ [y] = front ++ [x] := by rw [← hf]; simp
      obtain ⟨e2, _⟩ := List.append_inj' e1 rfl
      rw [← e2, List.map_append, List.map_cons, List.append_assoc] at he
      exact nextWake_some ((acts_next hl h1 he).1 _ _ _ rfl)

/-- C218: the asker looks for the reply at the time of the question and then again and again after the delay that it asked for (the
interval of the scheduler, if it is 0), whatever it and the others do. -/
theorem C218_looks (A : Asking U) (iv : Time) (hiv : 0 < iv) (sh : Bool) (evented : List Bool) (u : U) (h : List (MailCmd U))
    (hb : evented[A.target]? = some true) (hg : GoodLog (askReach A iv sh evented u h).1.log)
    (h1 : addCount A.asker (askReach A iv sh evented u h).1.log ≤ 1) (a : List Time) (t t' : Time) (b : List Time)
    (hp : (askReach A iv sh evented u h).2.u.polls = a ++ t :: t' :: b) : t' = t + effDelay iv (some A.delay) := by
  obtain ⟨hs, hi, hJ⟩ := askReach_inv A iv hiv sh evented u h hb hg
  exact poll_pairs A hs hi hJ h1 a t t' b hp

private theorem the_question {A : Asking U} {w : Mail (AskU U)} (hI : MailInv w) {id : Nat} {t0 : Time}
    (hs : MailEv.sent A.target (A.question id) t0 ∈ w.log) {e : MailEv} (he : e ∈ w.log) {v : ReplyVal} (hv : replyEv id e = some v) :
    ∃ t', e = .handled A.target (A.question id) t' (some v) := by
  cases e with
  | handled d m t r =>
    cases r with
    | none => cases hv
    | some x =>
      simp only [replyEv] at hv
      split at hv
      · rename_i hc
        cases hv
        obtain ⟨pre, post, hl⟩ := List.append_of_mem he
        have h1 := hI.causal pre _ post hl d m (by simp [doneEv])
        have h2 : m ∈ sentTo d w.log := by
          rw [hl]
          unfold sentTo at h1 ⊢
          rw [List.filterMap_append]
          exact List.mem_append_left _ h1
        have h3 : A.question id ∈ sentTo A.target w.log := List.mem_filterMap.2 ⟨_, hs, by simp [sentEv]⟩
        obtain ⟨rfl, rfl⟩ := sent_unique hI.ids.1 h2 h3 hc.2
        exact ⟨t, rfl⟩
      · cases hv
  | sent _ _ _ => cases hv
  | expired _ _ _ => cases hv
  | failed _ _ => cases hv

/-- C218: when the asker goes on with a reply, this is what `on_receive` of the target has returned for this very question, it has done so
after the last look in vain, i.e. at most one delay ago, and the deadline has not passed. -/
theorem C218_noticed (A : Asking U) (iv : Time) (hiv : 0 < iv) (sh : Bool) (evented : List Bool) (u : U) (h : List (MailCmd U))
    (hb : evented[A.target]? = some true) (hg : GoodLog (askReach A iv sh evented u h).1.log)
    (h1 : addCount A.asker (askReach A iv sh evented u h).1.log ≤ 1) (id : Nat) (dl : Time) (v : ReplyVal)
    (hp : (askReach A iv sh evented u h).2.u.pc = .got id dl v) :
    ∃ t0 t' t, MailEv.sent A.target ⟨id, A.payload, some A.target, none, true⟩ t0 ∈ (askReach A iv sh evented u h).2.log ∧
      MailEv.handled A.target ⟨id, A.payload, some A.target, none, true⟩ t' (some v) ∈ (askReach A iv sh evented u h).2.log ∧
      (askReach A iv sh evented u h).2.u.polls.head? = some t0 ∧ (askReach A iv sh evented u h).2.u.polls.getLast? = some t ∧
      v.truthy = true ∧ t' ≤ t ∧ t ≤ t' + effDelay iv (some A.delay) ∧ t < dl ∧ dl = askDeadline none A.timeout t0 := by
  obtain ⟨hs, hi, hJ⟩ := askReach_inv A iv hiv sh evented u h hb hg
  have hk := hJ.known
  unfold AskK at hk
  rw [hp] at hk
  obtain ⟨⟨t0, a1, a2, a3⟩, front, tl, t, hpolls, hd, hv, e, he, hr, h2, h3⟩ := hk
  obtain ⟨t', rfl⟩ := the_question hJ.inv a3 he hr
  refine ⟨t0, t', t, a3, he, a1, ?_, hv, h3, ?_, hd, a2⟩
  · rw [hpolls]; simp
  · rw [poll_pairs A hs hi hJ h1 front tl t [] hpolls]
    exact add_mono_left h2 _

private theorem reply_once (A : Asking U) (iv : Time) (sh : Bool) (evented : List Bool) (u : U) (h : List (MailCmd U))
    (hn : ∀ d t, MailEv.failed d t ∉ (askReach A iv sh evented u h).2.log) {m : Msg} {d1 d2 : Nat} {t1 t2 : Time} {r1 r2 : Option ReplyVal}
    (h1 : MailEv.handled d1 m t1 r1 ∈ (askReach A iv sh evented u h).2.log)
    (h2 : MailEv.handled d2 m t2 r2 ∈ (askReach A iv sh evented u h).2.log) :
    MailEv.handled d1 m t1 r1 = .handled d2 m t2 r2 := by
  obtain ⟨p, q, hl⟩ := List.append_of_mem h1
  have h2' := h2
  rw [hl] at h2'
  rcases List.mem_append.1 h2' with hm | hm
  · obtain ⟨p1, p2, rfl⟩ := List.append_of_mem hm
    exact absurd rfl (C215_once_partial A.code iv sh evented ⟨u, .start, []⟩ (h.map MailCmd.lift) hn p1 p2 q _ _ hl d2 d1 m m
      (by simp [doneEv]) (by simp [doneEv]))
  · rcases List.mem_cons.1 hm with hm | hm
    · exact hm.symm
    · obtain ⟨p1, p2, rfl⟩ := List.append_of_mem hm
      exact absurd rfl (C215_once_partial A.code iv sh evented ⟨u, .start, []⟩ (h.map MailCmd.lift) hn p p1 p2 (.handled d1 m t1 r1)
        (.handled d2 m t2 r2) (hl.trans (by simp)) d1 d2 m m (by simp [doneEv]) (by simp [doneEv]))

/-- An answer that is true comes after every look in vain. -/
private theorem answer_after (A : Asking U) (iv : Time) (sh : Bool) (evented : List Bool) (u : U) (h : List (MailCmd U))
    (hn : ∀ d t, MailEv.failed d t ∉ (askReach A iv sh evented u h).2.log) {id : Nat} {tl t' : Time} {v : ReplyVal}
    (hu : Unanswered id tl (askReach A iv sh evented u h).2.log)
    (ha : MailEv.handled A.target (A.question id) t' (some v) ∈ (askReach A iv sh evented u h).2.log) (hv : v.truthy = true) : tl ≤ t' := by
  have hr := (C215_replies A.code iv sh evented ⟨u, .start, []⟩ (h.map MailCmd.lift)).1 id
  have hr2 := (C215_replies A.code iv sh evented ⟨u, .start, []⟩ (h.map MailCmd.lift)).2 hn A.target (A.question id) t' v ha rfl
  obtain ⟨pre, post, h1, h2, h3⟩ := hu
  rw [h1] at ha
  rcases List.mem_append.1 ha with hm | hm
  · exfalso
    obtain ⟨p1, p2, rfl⟩ := List.append_of_mem hm
    have hne : lastReply id (p1 ++ .handled A.target (A.question id) t' (some v) :: p2) ≠ none := by
      intro hx
      unfold lastReply at hx
      rw [List.getLast?_eq_none_iff, List.filterMap_eq_nil_iff] at hx
      have := hx _ hm
      simp [replyEv, Asking.question] at this
    cases hlast : lastReply id (p1 ++ .handled A.target (A.question id) t' (some v) :: p2) with
    | none => exact hne hlast
    | some x =>
      have hx := h2 x hlast
      obtain ⟨e, he, hxe⟩ := lastReply_mem hlast
      have hI := mailReach_inv A.code iv sh evented ⟨u, .start, []⟩ (h.map MailCmd.lift)
      have he' : e ∈ (askReach A iv sh evented u h).2.log := by rw [h1]; exact List.mem_append_left _ he
      have ha' : MailEv.handled A.target (A.question id) t' (some v) ∈ (askReach A iv sh evented u h).2.log := by rw [h1]; exact ha
      obtain ⟨q1, q2, hq⟩ := List.append_of_mem ha'
      have hc := hI.causal q1 _ q2 hq A.target (A.question id) (by simp [doneEv])
      obtain ⟨e0, he0, hm0⟩ := List.mem_filterMap.1 hc
      have hs : ∃ t0, MailEv.sent A.target (A.question id) t0 ∈ (askReach A iv sh evented u h).2.log := by
        cases e0 with
        | sent d m t =>
          simp only [sentEv] at hm0
          split at hm0
          · rename_i hd
            cases hm0
            subst hd
            exact ⟨t, by rw [hq]; exact List.mem_append_left _ he0⟩
          · cases hm0
        | handled _ _ _ _ => cases hm0
        | expired _ _ _ => cases hm0
        | failed _ _ => cases hm0
      obtain ⟨t0, hs⟩ := hs
      obtain ⟨t2, rfl⟩ := the_question hI hs he' hxe
      have := reply_once A iv sh evented u h hn he' ha'
      cases this
      rw [hv] at hx
      cases hx
  · exact h3 _ hm

/-- C218, unless an exception escapes from `process_messages`: when the asker gives up, the deadline has passed, and if the target has
answered the question with something true, then so late that one delay later the deadline had passed. Missing: answers in the last
delay before the deadline (`C218_late_false`) and answers that are false (`C218_falsy_false`). -/
theorem C218_gave_up_partial (A : Asking U) (iv : Time) (hiv : 0 < iv) (sh : Bool) (evented : List Bool) (u : U) (h : List (MailCmd U))
    (hb : evented[A.target]? = some true) (hg : GoodLog (askReach A iv sh evented u h).1.log) (hd : 0 ≤ A.delay)
    (h1 : addCount A.asker (askReach A iv sh evented u h).1.log ≤ 1)
    (hn : ∀ d t, MailEv.failed d t ∉ (askReach A iv sh evented u h).2.log) (id : Nat) (dl : Time)
    (hp : (askReach A iv sh evented u h).2.u.pc = .gaveUp id dl) :
    ∃ t0 t, MailEv.sent A.target ⟨id, A.payload, some A.target, none, true⟩ t0 ∈ (askReach A iv sh evented u h).2.log ∧
      dl = askDeadline none A.timeout t0 ∧ (askReach A iv sh evented u h).2.u.polls.getLast? = some t ∧ dl ≤ t ∧
      ∀ t' v, MailEv.handled A.target ⟨id, A.payload, some A.target, none, true⟩ t' (some v) ∈ (askReach A iv sh evented u h).2.log →
        v.truthy = true → dl ≤ t' + effDelay iv (some A.delay) := by
  obtain ⟨hs, hi, hJ⟩ := askReach_inv A iv hiv sh evented u h hb hg
  have hk := hJ.known
  unfold AskK at hk
  rw [hp] at hk
  obtain ⟨⟨t0, a1, a2, a3⟩, front, t, hpolls, hdl, hf, hun⟩ := hk
  refine ⟨t0, t, a3, a2, by rw [hpolls]; simp, hdl, ?_⟩
  intro t' v ha hv
  cases hl : front.getLast? with
  | none =>
    rw [List.getLast?_eq_none_iff] at hl
    subst hl
    rw [hpolls] at a1
    have a1 : t = t0 := by simpa using a1
    subst a1
    obtain ⟨pre, post, hlog⟩ := List.append_of_mem ha
    obtain ⟨ts, hts, hle⟩ := (C215_order A.code iv hiv sh evented ⟨u, .start, []⟩ (h.map MailCmd.lift) hg).2 pre _ post hlog A.target
      (A.question id) (by simp [doneEv, Asking.question])
    have : ts = t := by
      have hnd := hJ.inv.ids.1
      by_contra hne
      have h2 : MailEv.sent A.target (A.question id) ts ∈ (askReach A iv sh evented u h).2.log := by
        rw [hlog]; exact List.mem_append_left _ hts
      obtain ⟨p1, p2, hq⟩ := List.append_of_mem a3
      rw [hq] at h2 hnd
      have hnd2 : id ∉ p1.filterMap sentId ∧ id ∉ p2.filterMap sentId := by
        rw [List.filterMap_append, List.filterMap_cons] at hnd
        simp only [sentId] at hnd
        rw [List.nodup_append] at hnd
        refine ⟨fun hx => ?_, fun hx => (List.nodup_cons.1 hnd.2.1).1 hx⟩
        exact hnd.2.2 id hx id List.mem_cons_self rfl
      rcases List.mem_append.1 h2 with h2 | h2
      · exact hnd2.1 (List.mem_filterMap.2 ⟨_, h2, rfl⟩)
      · rcases List.mem_cons.1 h2 with h2 | h2
        · cases h2
          exact hne rfl
        · exact hnd2.2 (List.mem_filterMap.2 ⟨_, h2, rfl⟩)
    subst this
    exact le_trans hdl (le_trans hle (Time.le_add_of_nonneg (effDelay_nonneg hiv hd)))
  | some tl =>
    obtain ⟨f, rfl⟩ := List.getLast?_eq_some_iff.1 hl
    have h2 := answer_after A iv sh evented u h hn (hun tl hl) ha hv
    have h3 := poll_pairs A hs hi hJ h1 f tl t [] (by rw [hpolls]; simp)
    rw [h3] at hdl
    exact le_trans hdl (add_mono_left h2 _)

/-- C218, unless an exception escapes from `process_messages`: if the target has answered the question with something true, and one
delay later was before the deadline and is in the past now, then the asker has gone on with this answer. -/
theorem C218_answered_partial (A : Asking U) (iv : Time) (hiv : 0 < iv) (sh : Bool) (evented : List Bool) (u : U) (h : List (MailCmd U))
    (hb : evented[A.target]? = some true) (hg : GoodLog (askReach A iv sh evented u h).1.log) (hd : 0 ≤ A.delay)
    (h1 : addCount A.asker (askReach A iv sh evented u h).1.log ≤ 1)
    (hn : ∀ d t, MailEv.failed d t ∉ (askReach A iv sh evented u h).2.log) (id : Nat) (dl t' : Time) (v : ReplyVal)
    (hp : (askReach A iv sh evented u h).2.u.pc = .waiting id dl ∨ (∃ v', (askReach A iv sh evented u h).2.u.pc = .got id dl v') ∨
      (askReach A iv sh evented u h).2.u.pc = .gaveUp id dl)
    (ha : MailEv.handled A.target ⟨id, A.payload, some A.target, none, true⟩ t' (some v) ∈ (askReach A iv sh evented u h).2.log)
    (hv : v.truthy = true) (hdl : t' + effDelay iv (some A.delay) < dl)
    (hnow : t' + effDelay iv (some A.delay) < (askReach A iv sh evented u h).1.time) :
    (askReach A iv sh evented u h).2.u.pc = .got id dl v := by
  obtain ⟨hs, hi, hJ⟩ := askReach_inv A iv hiv sh evented u h hb hg
  rcases hp with hp | ⟨v', hp⟩ | hp
  · exfalso
    have hk := hJ.known
    unfold AskK at hk
    rw [hp] at hk
    obtain ⟨_, _, hne, hun⟩ := hk
    cases hl : (askReach A iv sh evented u h).2.u.polls.getLast? with
    | none => exact hne (List.getLast?_eq_none_iff.1 hl)
    | some tl =>
      obtain ⟨front, hf⟩ := List.getLast?_eq_some_iff.1 hl
      have h2 := answer_after A iv sh evented u h hn (hun tl hl) ha hv
      have he := hJ.acts.1 (by rw [hp]; rfl)
      rw [hf, List.map_append] at he
      have hleg := hs.legal
      rw [hi] at hleg
      have hpend := (acts_next hleg h1 he).2 rfl
      have hle : tl + effDelay iv (some A.delay) ≤ t' + effDelay iv (some A.delay) := add_mono_left h2 _
      have hw : nextWake iv tl (.ret (some A.delay)) = some (tl + effDelay iv (some A.delay)) := by
        simp only [nextWake]
        rw [if_neg]
        intro hx
        rw [hx] at hle
        exact absurd (lt_of_le_of_lt hle hnow) (not_lt_of_ge (Time.le_inf _))
      rw [hw] at hpend
      have hmem : (A.asker, tl + effDelay iv (some A.delay)) ∈ cal (askReach A iv sh evented u h).1.interval (askReach A iv sh evented u h).1.log := by
        rw [hi]
        exact mem_pendingOf.1 (by rw [hpend]; simp)
      exact absurd (hs.mid.mem_le _ hmem) (not_le_of_gt (lt_of_le_of_lt hle hnow))
  · obtain ⟨_, t2, _, _, h3, _⟩ := C218_noticed A iv hiv sh evented u h hb hg h1 id dl v' hp
    have := reply_once A iv sh evented u h hn h3 ha
    cases this
    exact hp
  · obtain ⟨_, _, _, _, _, _, h2⟩ := C218_gave_up_partial A iv hiv sh evented u h hb hg hd h1 hn id dl hp
    exact absurd (h2 t' v ha hv) (not_le_of_gt hdl)

/-! ### Examples -/

/-- Agent 0 asks agent 1; agent 1 processes its messages every `period`, starting at its own first activation, and answers 7, which is
true or not. -/
def exAsking (timeout : Option Time) (delay period : Time) (truthy : Bool) : Asking Nat where
  others :=
    { on := fun w _ _ => (w.u, [], some ⟨7, truthy⟩)
      step := fun r _ _ =>
        if r = 1 then .op (.process 1) (fun _ _ => .done (.ret (some period)) []) else .done (.ret (some 1)) []
      shuffle := fun l _ => l
      shuffle_perm := fun _ _ => List.Perm.refl _ }
  asker := 0
  target := 1
  payload := 5
  timeout := timeout
  delay := delay
  answered := fun v _ => .op (.other (fun _ => v.v)) (fun _ _ => .done (.ret none) [])
  timedOut := fun _ => .done .dead []

/-- Agent 0, and agent 1 before or after it. -/
def exAskHist (first : Bool) (n : Nat) : List (MailCmd Nat) :=
  .code (.done (.ret none) (if first then [.add 1 none, .add 0 none] else [.add 0 none, .add 1 none])) :: List.replicate n .step

/-- Agent 1 has run just before the question, and processes it three time units later; the asker looks at 0, 2 and 4. -/
example : let sw := askReach (exAsking (some 9) 2 3 true) 1 false [false, true] 0 (exAskHist true 4)
    sw.2.u.pc = .got 0 9 ⟨7, true⟩ ∧ sw.2.u.polls = [0, 2, 4] ∧ sw.2.u.u = 7 ∧
    sw.2.log = [.sent 1 ⟨0, 5, some 1, none, true⟩ 0, .handled 1 ⟨0, 5, some 1, none, true⟩ 3 (some ⟨7, true⟩)] := by decide +kernel

/-- C218 is false: the answer comes at 3, before the deadline at 4, but the asker, which looks every two time units, gives up at 4. -/
theorem C218_late_false : ∃ A : Asking Nat, let sw := askReach A 1 false [false, true] 0 (exAskHist true 4);
    A.delay = 2 ∧ A.timeout = some 4 ∧ GoodLog sw.1.log ∧ sw.2.u.pc = .gaveUp 0 4 ∧ sw.2.u.polls = [0, 2, 4] ∧
    sw.2.log = [.sent 1 ⟨0, 5, some 1, none, true⟩ 0, .handled 1 ⟨0, 5, some 1, none, true⟩ 3 (some ⟨7, true⟩)] :=
  ⟨exAsking (some 4) 2 3 true, by decide +kernel⟩

/-- C218 is false in another way: an answer that is false (0, an empty list, `None`) is never noticed. -/
theorem C218_falsy_false : ∃ A : Asking Nat, let sw := askReach A 1 false [false, true] 0 (exAskHist true 20);
    A.delay = 1 ∧ A.timeout = some 9 ∧ GoodLog sw.1.log ∧ sw.2.u.pc = .gaveUp 0 9 ∧
    sw.2.log = [.sent 1 ⟨0, 5, some 1, none, true⟩ 0, .handled 1 ⟨0, 5, some 1, none, true⟩ 3 (some ⟨7, false⟩)] :=
  ⟨exAsking (some 9) 1 3 false, by decide +kernel⟩

end Verif
