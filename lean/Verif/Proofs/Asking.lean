import Verif.Model.Asking
import Verif.Props.Mail
import Verif.Proofs.RunInv
import Verif.Proofs.Solo
import Verif.Proofs.ExRabbits2

/-!
# An agent that asks another one
-/

namespace Verif
open Spec

variable {U : Type}

/-! ### Others do not touch the coroutine, and nobody loses an inbox -/

/-- `w'` has the same coroutine as `w`, and an inbox wherever `w` has one. -/
structure SameAsk (w w' : Mail (AskU U)) : Prop where
  pc : w'.u.pc = w.u.pc
  polls : w'.u.polls = w.u.polls
  box : ∀ d, (w.inbox d).isSome = true → (w'.inbox d).isSome = true

theorem SameAsk.refl (w : Mail (AskU U)) : SameAsk w w := ⟨rfl, rfl, fun _ h => h⟩

theorem SameAsk.trans {a b c : Mail (AskU U)} (h1 : SameAsk a b) (h2 : SameAsk b c) : SameAsk a c :=
  ⟨h2.pc.trans h1.pc, h2.polls.trans h1.polls, fun d h => h2.box d (h1.box d h)⟩

theorem deliver_u (w : Mail U) (dst : Nat) (mk : Nat → Msg) : (w.deliver dst mk).u = w.u := by
  unfold Mail.deliver
  split <;> rfl

theorem deliver_box (w : Mail U) (dst : Nat) (mk : Nat → Msg) (d : Nat) (h : (w.inbox d).isSome = true) :
    ((w.deliver dst mk).inbox d).isSome = true := by
  obtain ⟨l, h1, _⟩ := ((Grown.refl w).deliver dst mk).boxes d
  rw [h1]
  simpa using h

theorem SameAsk.sends (ss : List Send) (w : Mail (AskU U)) : SameAsk w (ss.foldl Send.exec w) :=
  sends_induct (SameAsk w) (fun w1 dst mk _ h => h.trans ⟨by rw [deliver_u], by rw [deliver_u], fun d hd => deliver_box w1 dst mk d hd⟩)
    ss w (SameAsk.refl w)

theorem SameAsk.handle (on : OnReceive U) (w : Mail (AskU U)) (dst : Nat) (m : Msg) : SameAsk w (w.handle (liftOn on) dst m) :=
  SameAsk.trans (b := { w with u := (liftOn on w dst m).1, log := w.log ++ [.handled dst m w.now (liftOn on w dst m).2.2] })
    ⟨rfl, rfl, fun _ h => h⟩ (SameAsk.sends _ _)

theorem SameAsk.reply (w : Mail (AskU U)) (m : Msg) (v : ReplyVal) : SameAsk w (w.reply m v) := by
  unfold Mail.reply
  split <;> exact ⟨rfl, rfl, fun _ h => h⟩

theorem SameAsk.procMail (on : OnReceive U) (dst size : Nat) (ms : List Msg) (w : Mail (AskU U)) :
    SameAsk w (procMail (liftOn on) dst size ms w).1 := by
  induction ms generalizing w with
  | nil => exact SameAsk.refl w
  | cons m ms ih =>
    unfold Verif.procMail
    split
    · exact SameAsk.trans (b := { w with log := w.log ++ [.expired dst m w.now] }) ⟨rfl, rfl, fun _ h => h⟩ (ih _)
    · split
      · exact SameAsk.handle on w dst m
      · simp only
        split
        · exact ((SameAsk.handle on w dst m).trans (SameAsk.reply _ m _)).trans (ih _)
        · exact (SameAsk.handle on w dst m).trans (SameAsk.reply _ m _)

theorem SameAsk.op (on : OnReceive U) (w : Mail (AskU U)) (o : MailOp U) : SameAsk w (o.lift.exec (liftOn on) w).1 := by
  cases o with
  | send s => exact SameAsk.sends [s] w
  | process dst =>
    simp only [MailOp.lift, MailOp.exec, Mail.process]
    cases hb : w.inbox dst with
    | none => exact SameAsk.refl w
    | some b =>
      simp only
      have h := SameAsk.procMail on dst b.length b w
      generalize Verif.procMail (liftOn on) dst b.length b w = r at h
      split
      · refine h.trans ⟨rfl, rfl, ?_⟩
        intro d hd
        have hlt : dst < r.1.inboxes.length := by
          cases hx : r.1.inbox dst with
          | none =>
            have := h.box dst (by rw [hb]; rfl)
            rw [hx] at this
            cases this
          | some x => exact inbox_lt hx
        rw [inbox_set (w := r.1) (w' := { r.1 with inboxes := r.1.inboxes.set dst (some []) }) hlt rfl]
        split
        · rfl
        · exact hd
      · exact h.trans ⟨rfl, rfl, fun _ h => h⟩
  | other f => exact ⟨rfl, rfl, fun _ h => h⟩

theorem SameAsk.prog (on : OnReceive U) (p : MailProg U) (w : Mail (AskU U)) : SameAsk w (p.lift.run (liftOn on) w).2.2 := by
  induction p generalizing w with
  | done rep ops => exact SameAsk.refl w
  | op o next ih =>
    simp only [MailProg.lift, MailProg.run]
    exact (SameAsk.op on w o).trans (ih _ _ _)

/-! ### What is known of the coroutine -/

/-- In an earlier part of the log the question had no reply, or one that is false; what came after it happened at `tl` or later. -/
def Unanswered (id : Nat) (tl : Time) (log : List MailEv) : Prop :=
  ∃ pre post, log = pre ++ post ∧ (∀ v, lastReply id pre = some v → v.truthy = false) ∧ ∀ e ∈ post, tl ≤ mailTime e

theorem Unanswered.append {id : Nat} {tl : Time} {log evs : List MailEv} (h : Unanswered id tl log) (he : ∀ e ∈ evs, tl ≤ mailTime e) :
    Unanswered id tl (log ++ evs) := by
  obtain ⟨pre, post, h1, h2, h3⟩ := h
  refine ⟨pre, post ++ evs, by rw [h1, List.append_assoc], h2, ?_⟩
  intro e hm
  rcases List.mem_append.1 hm with hm | hm
  · exact h3 e hm
  · exact he e hm

/-- The question of the asker. -/
def Asking.question (A : Asking U) (id : Nat) : Msg := ⟨id, A.payload, some A.target, none, true⟩

/-- The question was sent at the time of the first look, and the deadline counts from there. -/
def QuestionSent (A : Asking U) (id : Nat) (dl : Time) (polls : List Time) (log : List MailEv) : Prop :=
  ∃ t0, polls.head? = some t0 ∧ dl = askDeadline none A.timeout t0 ∧ MailEv.sent A.target (A.question id) t0 ∈ log

/-- The log explains where the coroutine is. -/
def AskK (A : Asking U) (w : Mail (AskU U)) : Prop :=
  match w.u.pc with
  | .start => w.u.polls = []
  | .waiting id dl => QuestionSent A id dl w.u.polls w.log ∧ (∀ t ∈ w.u.polls, t < dl) ∧ w.u.polls ≠ [] ∧
      ∀ tl, w.u.polls.getLast? = some tl → Unanswered id tl w.log
  | .got id dl v => QuestionSent A id dl w.u.polls w.log ∧ ∃ front tl t, w.u.polls = front ++ [tl, t] ∧ t < dl ∧ v.truthy = true ∧
      ∃ e ∈ w.log, replyEv id e = some v ∧ tl ≤ mailTime e ∧ mailTime e ≤ t
  | .gaveUp id dl => QuestionSent A id dl w.u.polls w.log ∧ ∃ front t, w.u.polls = front ++ [t] ∧ dl ≤ t ∧ (∀ x ∈ front, x < dl) ∧
      ∀ tl, front.getLast? = some tl → Unanswered id tl w.log

theorem QuestionSent.append {A : Asking U} {id : Nat} {dl : Time} {polls : List Time} {log : List MailEv} (h : QuestionSent A id dl polls log)
    (evs : List MailEv) : QuestionSent A id dl polls (log ++ evs) := by
  obtain ⟨t0, h1, h2, h3⟩ := h
  exact ⟨t0, h1, h2, List.mem_append_left _ h3⟩

theorem AskK.mono {A : Asking U} {w w' : Mail (AskU U)} (h : AskK A w) (hs : SameAsk w w') {evs : List MailEv}
    (hl : w'.log = w.log ++ evs) (ht : ∀ e ∈ evs, ∀ t ∈ w.u.polls, t ≤ mailTime e) : AskK A w' := by
  unfold AskK at h ⊢
  rw [hs.pc, hs.polls, hl]
  cases hp : w.u.pc with
  | start => rw [hp] at h; exact h
  | waiting id dl =>
    rw [hp] at h
    refine ⟨h.1.append evs, h.2.1, h.2.2.1, fun tl htl => (h.2.2.2 tl htl).append (fun e he => ht e he tl (List.mem_of_getLast? htl))⟩
  | got id dl v =>
    rw [hp] at h
    obtain ⟨h1, front, tl, t, h2, h3, h4, e, h5, h6⟩ := h
    exact ⟨h1.append evs, front, tl, t, h2, h3, h4, e, List.mem_append_left _ h5, h6⟩
  | gaveUp id dl =>
    rw [hp] at h
    obtain ⟨h1, front, t, h2, h3, h4, h5⟩ := h
    refine ⟨h1.append evs, front, t, h2, h3, h4, fun tl htl => (h5 tl htl).append (fun e he => ht e he tl ?_)⟩
    rw [h2]
    exact List.mem_append_left _ (List.mem_of_getLast? htl)

/-- What is known when the asker is about to look. -/
structure Ready (A : Asking U) (id : Nat) (dl : Time) (w : Mail (AskU U)) : Prop where
  asked : QuestionSent A id dl (w.u.polls ++ [w.now]) w.log
  before : ∀ x ∈ w.u.polls, x < dl
  unanswered : ∀ tl, w.u.polls.getLast? = some tl → Unanswered id tl w.log
  fresh : w.u.polls = [] → lastReply id w.log = none
  past : ∀ e ∈ w.log, mailTime e ≤ w.now
  replies : RepliesOk w

/-- After a look. -/
def Looked (A : Asking U) (w w' : Mail (AskU U)) (rep : Reply) : Prop :=
  w'.u.polls = w.u.polls ++ [w.now] ∧ (∀ d, (w.inbox d).isSome = true → (w'.inbox d).isSome = true) ∧
  match w'.u.pc with
  | .start => False
  | .waiting _ _ => rep = .ret (some A.delay)
  | .got _ _ _ => True
  | .gaveUp _ _ => True

theorem lastReply_mem {id : Nat} {l : List MailEv} {v : ReplyVal} (h : lastReply id l = some v) : ∃ e ∈ l, replyEv id e = some v :=
  List.mem_filterMap.1 (List.mem_of_getLast? h)

theorem unanswered_reply {id : Nat} {tl : Time} {l : List MailEv} {v : ReplyVal} (h : Unanswered id tl l) (hr : lastReply id l = some v)
    (hv : v.truthy = true) : ∃ e ∈ l, replyEv id e = some v ∧ tl ≤ mailTime e := by
  obtain ⟨pre, post, h1, h2, h3⟩ := h
  unfold lastReply at hr
  rw [h1, List.filterMap_append, List.getLast?_append] at hr
  cases hp : (post.filterMap (replyEv id)).getLast? with
  | none =>
    rw [hp] at hr
    exact absurd (h2 v hr) (by rw [hv]; simp)
  | some x =>
    rw [hp] at hr
    cases hr
    obtain ⟨e, he, hx⟩ := List.mem_filterMap.1 (List.mem_of_getLast? hp)
    exact ⟨e, by rw [h1]; exact List.mem_append_right _ he, hx, h3 e he⟩

private theorem poll_wait {A : Asking U} {id : Nat} {dl : Time} {w : Mail (AskU U)} (h : Ready A id dl w) (hd : w.now < dl)
    (hv : ∀ v, lastReply id w.log = some v → v.truthy = false) :
    AskK A { w with u := AskU.note (.waiting id dl) w.now w.u } := by
  refine ⟨h.asked, ?_, by simp [AskU.note], ?_⟩
  · intro t ht
    rcases List.mem_append.1 ht with ht | ht
    · exact h.before t ht
    · rw [List.mem_singleton.1 ht]; exact hd
  · intro tl htl
    have : tl = w.now := by simpa [AskU.note] using htl.symm
    subst this
    exact ⟨w.log, [], by simp, hv, by simp⟩

private theorem after_note {A : Asking U} {w : Mail (AskU U)} (pc : AskPc) (p : Mail U → MailProg U)
    (h : AskK A { w with u := AskU.note pc w.now w.u }) (hn : ∀ t ∈ w.u.polls, t ≤ w.now) :
    AskK A (MailProg.run (liftOn A.others.on)
      (.op (.other (AskU.note pc w.now)) (fun w' _ => (p w'.view).lift)) w).2.2 ∧
    SameAsk { w with u := AskU.note pc w.now w.u } (MailProg.run (liftOn A.others.on)
      (.op (.other (AskU.note pc w.now)) (fun w' _ => (p w'.view).lift)) w).2.2 := by
  simp only [MailProg.run, MailOp.exec]
  have hs := SameAsk.prog A.others.on (p (Mail.view { w with u := AskU.note pc w.now w.u })) { w with u := AskU.note pc w.now w.u }
  obtain ⟨_, evs, hl, ht⟩ := prog_logged (liftOn A.others.on) (p (Mail.view { w with u := AskU.note pc w.now w.u })).lift
    { w with u := AskU.note pc w.now w.u }
  refine ⟨h.mono hs hl ?_, hs⟩
  intro e he t hm
  rw [ht e he]
  rcases List.mem_append.1 hm with hm | hm
  · exact hn t hm
  · exact le_of_eq (List.mem_singleton.1 hm)

theorem poll_run {A : Asking U} {id : Nat} {dl : Time} {w : Mail (AskU U)} (h : Ready A id dl w) (hn : ∀ t ∈ w.u.polls, t ≤ w.now) :
    let res := (A.poll id dl w).run (liftOn A.others.on) w;
    AskK A res.2.2 ∧ Looked A w res.2.2 res.1 := by
  simp only
  unfold Asking.poll
  split
  · rename_i hd
    rw [h.replies id]
    cases hr : lastReply id w.log with
    | none => exact ⟨poll_wait h hd (fun v hv => by rw [hr] at hv; cases hv), rfl, fun _ hd => hd, rfl⟩
    | some v =>
      simp only
      split
      · rename_i hv
        have hK : AskK A { w with u := AskU.note (.got id dl v) w.now w.u } := by
          refine ⟨h.asked, ?_⟩
          cases hl : w.u.polls.getLast? with
          | none =>
            rw [List.getLast?_eq_none_iff] at hl
            rw [h.fresh hl] at hr
            cases hr
          | some tl =>
            obtain ⟨front, hf⟩ := List.getLast?_eq_some_iff.1 hl
            obtain ⟨e, he, h1, h2⟩ := unanswered_reply (h.unanswered tl hl) hr hv
            exact ⟨front, tl, w.now, by simp [AskU.note, hf], hd, hv, e, he, h1, h2, h.past e he⟩
        obtain ⟨h1, h2⟩ := after_note (.got id dl v) (A.answered v) hK hn
        refine ⟨h1, h2.polls, h2.box, ?_⟩
        rw [h2.pc]
        trivial
      · rename_i hv
        refine ⟨poll_wait h hd (fun v' hv' => ?_), rfl, fun _ hd => hd, rfl⟩
        rw [hr] at hv'
        cases hv'
        simpa using hv
  · rename_i hd
    have hK : AskK A { w with u := AskU.note (.gaveUp id dl) w.now w.u } :=
      ⟨h.asked, w.u.polls, w.now, rfl, le_of_not_gt hd, h.before, h.unanswered⟩
    obtain ⟨h1, h2⟩ := after_note (.gaveUp id dl) A.timedOut hK hn
    refine ⟨h1, h2.polls, h2.box, ?_⟩
    rw [h2.pc]
    trivial

/-! ### The coroutine and the scheduler -/

def AskPc.over : AskPc → Bool
  | .got _ _ _ => true
  | .gaveUp _ _ => true
  | .start => false
  | .waiting _ _ => false

/-- The activations of the asker are its looks, as long as it waits. -/
def ActsOk (A : Asking U) (s : Sched) (w : Mail (AskU U)) : Prop :=
  (w.u.pc.over = false → actsOf A.asker s.log = w.u.polls.map (fun t => (t, Reply.ret (some A.delay)))) ∧
  (w.u.pc.over = true → ∃ front t rep extra, w.u.polls = front ++ [t] ∧
    actsOf A.asker s.log = front.map (fun t => (t, Reply.ret (some A.delay))) ++ (t, rep) :: extra)

structure AskJ (A : Asking U) (s : Sched) (w : Mail (AskU U)) : Prop where
  inv : MailInv w
  replies : RepliesOk w
  time : InTime s w
  polls : ∀ t ∈ w.u.polls, t ≤ s.time
  known : AskK A w
  acts : ActsOk A s w
  box : (w.inbox A.target).isSome = true

theorem actsOf_none {l : List Ev} (r : Ref) (h : actRefs l = []) : actsOf r l = [] := by
  cases hx : actsOf r l with
  | nil => rfl
  | cons x xs =>
    obtain ⟨t, rep⟩ := x
    have : Ev.act r t rep ∈ l := mem_actsOf.1 (by rw [hx]; exact List.mem_cons_self)
    have := mem_actRefs.2 ⟨t, rep, this⟩
    rw [h] at this
    cases this

theorem actsOf_act_log (s : Sched) (ops : List SOp) (q r : Ref) (t : Time) (rep : Reply) :
    actsOf q ((s.applyOps ops).logAct r t rep).log = actsOf q s.log ++ if q = r then [(t, rep)] else [] := by
  obtain ⟨l, h1, h2⟩ := applyOps_log s ops
  have : ((s.applyOps ops).logAct r t rep).log = s.log ++ l ++ [.act r t rep] := by simp [Sched.logAct, h1]
  rw [this, actsOf_append, actsOf_append, actsOf_none q h2, List.append_nil, actsOf_one]

/-- Code that does not touch the coroutine. -/
theorem AskJ.others {A : Asking U} {s s' : Sched} {w : Mail (AskU U)} (h : AskJ A s w) (p : MailProg U)
    (ht : s'.time = s.time) (ha : ActsOk A s' w) :
    AskJ A s' (p.lift.run (liftOn A.others.on) { w with now := s.time }).2.2 := by
  have hs : SameAsk w (p.lift.run (liftOn A.others.on) { w with now := s.time }).2.2 :=
    SameAsk.trans (b := { w with now := s.time }) ⟨rfl, rfl, fun _ h => h⟩ (SameAsk.prog A.others.on p _)
  have hl := prog_logged (liftOn A.others.on) p.lift { w with now := s.time }
  refine ⟨?_, ?_, inTime_logged h.time hl ht, ?_, ?_, ?_, hs.box _ h.box⟩
  · exact prog_induct (liftOn A.others.on) MailInv (fun _ o hw => hw.op _ o) p.lift _ (h.inv.congr rfl rfl rfl)
  · exact prog_induct (liftOn A.others.on) RepliesOk (fun w o hw => op_replies _ w hw o) p.lift _ h.replies
  · rw [hs.polls, ht]
    exact h.polls
  · obtain ⟨_, evs, he, hn⟩ := hl
    refine h.known.mono hs he ?_
    intro e hm t htm
    rw [hn e hm]
    exact h.polls t htm
  · unfold ActsOk at ha ⊢
    rw [hs.pc, hs.polls]
    exact ha

private theorem fresh_id {w : Mail U} (h : MailInv w) : lastReply w.nextId w.log = none := by
  cases hr : lastReply w.nextId w.log with
  | none => rfl
  | some v =>
    exfalso
    obtain ⟨e, he, hv⟩ := lastReply_mem hr
    cases e with
    | handled d m t r =>
      have hid : m.id = w.nextId := by
        cases r with
        | none => cases hv
        | some x =>
          simp only [replyEv] at hv
          split at hv
          · rename_i hc; exact hc.2
          · cases hv
      obtain ⟨pre, post, hl⟩ := List.append_of_mem he
      have := h.causal pre _ post hl d m (by simp [doneEv])
      obtain ⟨e', he', hm'⟩ := List.mem_filterMap.1 this
      cases e' with
      | sent d' m' t' =>
        simp only [sentEv] at hm'
        split at hm'
        · cases hm'
          have : m.id < w.nextId := h.ids.2 _ (List.mem_filterMap.2 ⟨.sent d' m t', by rw [hl]; exact List.mem_append_left _ he', rfl⟩)
          omega
        · cases hm'
      | handled _ _ _ _ => cases hm'
      | expired _ _ _ => cases hm'
      | failed _ _ => cases hm'
    | sent _ _ _ => cases hv
    | expired _ _ _ => cases hv
    | failed _ _ => cases hv

/-- What the asker does while it is not over. -/
theorem AskJ.look {A : Asking U} {s : Sched} {w : Mail (AskU U)} (h : AskJ A s w) (ho : w.u.pc.over = false) :
    let res := (A.step s { w with now := s.time }).run (liftOn A.others.on) { w with now := s.time };
    AskK A res.2.2 ∧ Looked A { w with now := s.time } res.2.2 res.1 := by
  simp only
  have hk := h.known
  unfold AskK at hk
  cases hp : w.u.pc with
  | start =>
    rw [hp] at hk
    simp only at hk
    unfold Asking.step
    simp only [hp, MailProg.run, MailOp.exec]
    generalize hw1 : Send.exec { w with now := s.time } (.ask A.target A.payload) = w1
    have hd : w1 = Mail.deliver { w with now := s.time } A.target (fun id => A.question id) := hw1.symm
    obtain ⟨b, hb⟩ := Option.isSome_iff_exists.1 h.box
    have hlog : w1.log = w.log ++ [.sent A.target (A.question w.nextId) s.time] := by
      rw [hd]
      unfold Mail.deliver
      have : Mail.inbox { w with now := s.time } A.target = some b := hb
      rw [this]
    have hg : Grown { w with now := s.time } w1 := by rw [hd]; exact (Grown.refl _).deliver _ _
    have hu : w1.u = w.u := by rw [hd, deliver_u]
    have hnow : w1.now = s.time := hg.now
    have hr : Ready A w.nextId (askDeadline none A.timeout s.time) w1 := by
      constructor
      · rw [hu, hk, hnow, hlog]
        exact ⟨s.time, rfl, rfl, by simp⟩
      · rw [hu, hk]; simp
      · rw [hu, hk]; simp
      · intro _
        rw [hlog, lastReply_append_none, fresh_id h.inv]
        intro e he
        rw [List.mem_singleton.1 he]
        rfl
      · intro e he
        rw [hlog] at he
        rw [hnow]
        rcases List.mem_append.1 he with he | he
        · exact h.time.1 e he
        · rw [List.mem_singleton.1 he]
          exact le_rfl
      · exact RepliesOk.grown (w := { w with now := s.time }) (fun id => by rw [hg.replies]; exact h.replies id) hg
    obtain ⟨h1, h2, h3, h4⟩ := poll_run hr (by rw [hu, hk]; simp)
    refine ⟨h1, ?_, ?_, h4⟩
    · rw [h2, hu, hnow]
    · intro d hdd
      refine h3 d ?_
      rw [hd]
      exact deliver_box _ _ _ _ hdd
  | waiting id dl =>
    rw [hp] at hk
    simp only at hk
    unfold Asking.step
    simp only [hp]
    obtain ⟨⟨t0, a1, a2, a3⟩, hb, hne, hun⟩ := hk
    refine poll_run ?_ h.polls
    constructor
    · refine ⟨t0, ?_, a2, a3⟩
      simp only
      rw [List.head?_append, a1]
      rfl
    · exact hb
    · exact hun
    · intro hx
      exact absurd hx hne
    · exact h.time.1
    · exact h.replies
  | got id dl v => rw [hp] at ho; cases ho
  | gaveUp id dl => rw [hp] at ho; cases ho

theorem keepsAskJ (A : Asking U) (iv : Time) : KeepsInv A.code.host iv (AskJ A) where
  act r s w _ h _ _ _ _ := by
    have ht : ∀ ops rep, ((s.applyOps ops).logAct r s.time rep).time = s.time := by
      intro ops rep
      simp [Sched.logAct, applyOps_time]
    have hother : ∀ p : MailProg U, (∀ rep ops, ActsOk A ((s.applyOps ops).logAct r s.time rep) w) →
        A.code.step r s { w with now := s.time } = p.lift →
        AskJ A ((s.applyOps (A.code.host.step r s w).2.1).logAct r s.time (A.code.host.step r s w).1) (A.code.host.step r s w).2.2 := by
      intro p ha hp
      have e : A.code.host.step r s w = p.lift.run (liftOn A.others.on) { w with now := s.time } := by
        show (A.code.step r s { w with now := s.time }).run A.code.on _ = _
        rw [hp]
        rfl
      rw [e]
      exact h.others p (ht _ _) (ha _ _)
    by_cases hr : r = A.asker
    · by_cases ho : w.u.pc.over = true
      · refine hother (A.others.step A.asker s (Mail.view { w with now := s.time })) ?_ ?_
        · intro rep ops
          refine ⟨fun hf => absurd ho (by rw [hf]; simp), fun _ => ?_⟩
          obtain ⟨front, t, rep', extra, h1, h2⟩ := h.acts.2 ho
          refine ⟨front, t, rep', extra ++ [(s.time, rep)], h1, ?_⟩
          rw [actsOf_act_log, h2, if_pos hr.symm]
          simp
        · show (if r = A.asker then _ else _) = _
          rw [if_pos hr]
          unfold Asking.step
          cases hp : w.u.pc with
          | start => rw [hp] at ho; cases ho
          | waiting _ _ => rw [hp] at ho; cases ho
          | got _ _ _ => rfl
          | gaveUp _ _ => rfl
      · have ho : w.u.pc.over = false := by simpa using ho
        obtain ⟨hk, hlp, hlb, hlr⟩ := h.look ho
        have e : A.code.host.step r s w = (A.step s { w with now := s.time }).run (liftOn A.others.on) { w with now := s.time } := by
          show (if r = A.asker then _ else _ : MailProg (AskU U)).run A.code.on _ = _
          rw [if_pos hr]
          rfl
        have hl := prog_logged (liftOn A.others.on) (A.step s { w with now := s.time }) { w with now := s.time }
        have hI := prog_induct (liftOn A.others.on) MailInv (fun _ o hw => hw.op _ o) (A.step s { w with now := s.time }) _
          (h.inv.congr (w' := { w with now := s.time }) rfl rfl rfl)
        have hR := prog_induct (liftOn A.others.on) RepliesOk (fun w o hw => op_replies _ w hw o) (A.step s { w with now := s.time })
          { w with now := s.time } h.replies
        rw [e]
        generalize (A.step s { w with now := s.time }).run (liftOn A.others.on) { w with now := s.time } = res at hk hlp hlb hlr hl hI hR
        refine ⟨hI, hR, inTime_logged h.time hl (ht _ _), ?_, hk, ?_, hlb _ h.box⟩
        · intro t hm
          rw [ht]
          rw [hlp] at hm
          rcases List.mem_append.1 hm with hm | hm
          · exact h.polls t hm
          · rw [List.mem_singleton.1 hm]
        · have ha := h.acts.1 ho
          unfold ActsOk
          rw [actsOf_act_log, if_pos hr.symm, ha, hlp]
          constructor
          · intro hov
            cases hp : res.2.2.u.pc with
            | start => rw [hp] at hlr; exact hlr.elim
            | waiting _ _ =>
              rw [hp] at hlr
              simp only at hlr
              rw [hlr]
              simp
            | got _ _ _ => rw [hp] at hov; cases hov
            | gaveUp _ _ => rw [hp] at hov; cases hov
          · intro _
            exact ⟨w.u.polls, s.time, res.1, [], rfl, rfl⟩
    · refine hother (A.others.step r s (Mail.view { w with now := s.time })) ?_ ?_
      · intro rep ops
        unfold ActsOk
        rw [actsOf_act_log, if_neg (fun x => hr x.symm), List.append_nil]
        exact h.acts
      · show (if r = A.asker then _ else _) = _
        rw [if_neg hr]
  same s s' w h hl _ ht := ⟨h.inv, h.replies, ⟨fun e he => le_trans (h.time.1 e he) ht, h.time.2⟩,
    fun t hm => le_trans (h.polls t hm) ht, h.known, by unfold ActsOk; rw [hl]; exact h.acts, h.box⟩
  shuffle s l w h := h

theorem askExec_inv (A : Asking U) (iv : Time) (h : List (MailCmd U)) (s : Sched) (w : Mail (AskU U)) (hs : Inv s)
    (hi : s.interval = iv) (hw : AskJ A s w) (hg : GoodLog (mailExec A.code (h.map MailCmd.lift) (s, w)).1.log) :
    Inv (mailExec A.code (h.map MailCmd.lift) (s, w)).1 ∧ (mailExec A.code (h.map MailCmd.lift) (s, w)).1.interval = iv ∧
    AskJ A (mailExec A.code (h.map MailCmd.lift) (s, w)).1 (mailExec A.code (h.map MailCmd.lift) (s, w)).2 := by
  induction h generalizing s w with
  | nil => exact ⟨hs, hi, hw⟩
  | cons c h ih =>
    have e : mailExec A.code ((c :: h).map MailCmd.lift) (s, w) = mailExec A.code (h.map MailCmd.lift) (c.lift.exec A.code (s, w)) := rfl
    rw [e] at hg ⊢
    obtain ⟨l, hl⟩ := mailExec_log A.code (h.map MailCmd.lift) (c.lift.exec A.code (s, w))
    have hg1 : GoodLog (c.lift.exec A.code (s, w)).1.log := by
      rw [hl] at hg
      exact hg.prefix
    cases c with
    | step =>
      have hg2 : GoodLog (s.step A.code.host w).1.log := hg1
      exact ih _ _ (hs.step A.code.host w hg2).1 ((execAll_interval A.code.host [.step] (s, w)).trans hi)
        ((keepsAskJ A iv).step hs hi hw hg2) hg
    | code p =>
      refine ih _ _ (applyOps_inv hs _) (by rw [applyOps_interval]; exact hi) ?_ hg
      refine hw.others p (applyOps_time _ _) ?_
      obtain ⟨l, h1, h2⟩ := applyOps_log s (p.lift.run (liftOn A.others.on) { w with now := s.time }).2.1
      unfold ActsOk
      show (_ → actsOf A.asker (s.applyOps (p.lift.run (liftOn A.others.on) { w with now := s.time }).2.1).log = _) ∧ (_ → ∃ front t rep extra, _ ∧
        actsOf A.asker (s.applyOps (p.lift.run (liftOn A.others.on) { w with now := s.time }).2.1).log = _)
      rw [h1, actsOf_append, actsOf_none _ h2, List.append_nil]
      exact hw.acts

end Verif
