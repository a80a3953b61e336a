import Verif.Model.Mail
import Verif.Proofs.RunInv

/-!
# Lemmas about messages
-/

namespace Verif

namespace Spec

/-- The message, if the event is that of a message being sent to `dst`. -/
def sentEv (dst : Nat) : MailEv → Option Msg
  | .sent d m _ => if d = dst then some m else none
  | _ => none

/-- The message, if the event is that of `dst` dealing with a message. -/
def doneEv (dst : Nat) : MailEv → Option Msg
  | .handled d m _ _ => if d = dst then some m else none
  | .expired d m _ => if d = dst then some m else none
  | _ => none

/-- The messages sent to `dst`, in order. -/
def sentTo (dst : Nat) (l : List MailEv) : List Msg := l.filterMap (sentEv dst)

/-- The messages that `dst` has handed to `on_receive` or passed over because they had expired, in order. -/
def doneAt (dst : Nat) (l : List MailEv) : List Msg := l.filterMap (doneEv dst)

/-- The identity of the message, if the event is that of a message being sent. -/
def sentId : MailEv → Option Nat
  | .sent _ m _ => some m.id
  | _ => none

/-- What `on_receive` returned for the question with the given identity, if the event is that. -/
def replyEv (id : Nat) : MailEv → Option ReplyVal
  | .handled _ m _ (some v) => if m.ask = true ∧ m.id = id then some v else none
  | _ => none

/-- What `on_receive` returned the last time it was given the question with that identity. -/
def lastReply (id : Nat) (l : List MailEv) : Option ReplyVal := (l.filterMap (replyEv id)).getLast?

/-- When an event happened. -/
def mailTime : MailEv → Time
  | .sent _ _ t => t
  | .handled _ _ t _ => t
  | .expired _ _ t => t
  | .failed _ t => t

end Spec

open Spec

variable {U : Type}

/-! ### Delivery -/

theorem inbox_lt {w : Mail U} {r : Nat} {b : List Msg} (h : w.inbox r = some b) : r < w.inboxes.length := by
  unfold Mail.inbox at h
  split at h
  · rename_i x hx
    exact (List.getElem?_eq_some_iff.1 hx).1
  · cases h

theorem inbox_set {w w' : Mail U} {r : Nat} (hr : r < w.inboxes.length) {x : Option (List Msg)} (h : w'.inboxes = w.inboxes.set r x)
    (d : Nat) : w'.inbox d = if d = r then x else w.inbox d := by
  unfold Mail.inbox
  rw [h]
  by_cases hd : d = r
  · subst hd
    rw [if_pos rfl, List.getElem?_set_self hr]
  · rw [if_neg hd, List.getElem?_set_ne (fun e => hd e.symm)]

theorem inbox_congr {w w' : Mail U} (h : w'.inboxes = w.inboxes) (d : Nat) : w'.inbox d = w.inbox d := by
  unfold Mail.inbox
  rw [h]

/-- An induction principle for sending. -/
theorem send_induct (P : Mail U → Prop) (h : ∀ w dst mk, (∀ i, (mk i).id = i) → P w → P (w.deliver dst mk)) (s : Send) (w : Mail U)
    (hw : P w) : P (s.exec w) := by
  cases s with
  | tell dst payload sender => exact h w dst (fun id => ⟨id, payload, sender, none, false⟩) (fun _ => rfl) hw
  | ask dst payload => exact h w dst (fun id => ⟨id, payload, some dst, none, true⟩) (fun _ => rfl) hw
  | broadcast targets payload sender e ttl =>
    simp only [Send.exec]
    induction targets generalizing w with
    | nil => exact hw
    | cons t ts ih => exact ih _ (h _ _ _ (fun _ => rfl) hw)

theorem sends_induct (P : Mail U → Prop) (h : ∀ w dst mk, (∀ i, (mk i).id = i) → P w → P (w.deliver dst mk)) (ss : List Send)
    (w : Mail U) (hw : P w) : P (ss.foldl Send.exec w) := by
  induction ss generalizing w with
  | nil => exact hw
  | cons s ss ih => exact ih _ (send_induct P h s w hw)

/-- Sending adds to inboxes and to the log only. -/
structure Grown (w w' : Mail U) : Prop where
  evs : ∃ evs, w'.log = w.log ++ evs ∧ ∀ e ∈ evs, ∃ d m, e = .sent d m w.now
  now : w'.now = w.now
  replies : w'.replies = w.replies
  boxes : ∀ d, ∃ l, w'.inbox d = (w.inbox d).map (· ++ l) ∧ sentTo d w'.log = sentTo d w.log ++ l ∧
    doneAt d w'.log = doneAt d w.log
  size : w'.inboxes.length = w.inboxes.length

theorem Grown.refl (w : Mail U) : Grown w w where
  evs := ⟨[], by simp, by simp⟩
  now := rfl
  replies := rfl
  boxes d := ⟨[], by simp, by simp, rfl⟩
  size := rfl

theorem Grown.deliver {w w1 : Mail U} (h : Grown w w1) (dst : Nat) (mk : Nat → Msg) : Grown w (w1.deliver dst mk) := by
  unfold Mail.deliver
  cases hb : w1.inbox dst with
  | none => exact h
  | some b =>
    simp only
    obtain ⟨evs, he, hs⟩ := h.evs
    refine ⟨⟨evs ++ [.sent dst (mk w1.nextId) w1.now], by simp [he], ?_⟩, h.now, h.replies, ?_, by simp [h.size]⟩
    · intro e hm
      rcases List.mem_append.1 hm with hm | hm
      · exact hs e hm
      · rw [List.mem_singleton.1 hm, h.now]
        exact ⟨_, _, rfl⟩
    · intro d
      obtain ⟨l, h1, h2, h3⟩ := h.boxes d
      have hset := inbox_set (w := w1) (w' := { w1 with
        inboxes := w1.inboxes.set dst (some (b ++ [mk w1.nextId]))
        nextId := w1.nextId + 1
        log := w1.log ++ [.sent dst (mk w1.nextId) w1.now] }) (inbox_lt hb) rfl d
      rw [hset]
      by_cases hd : d = dst
      · subst hd
        rw [hb] at h1
        cases hw : w.inbox d with
        | none => rw [hw] at h1; cases h1
        | some b0 =>
          rw [hw] at h1
          simp only [Option.map_some, Option.some.injEq] at h1
          refine ⟨l ++ [mk w1.nextId], by simp [h1], ?_, ?_⟩
          · simp only [sentTo] at h2 ⊢
            simp [List.filterMap_append, h2, sentEv]
          · simp only [doneAt] at h3 ⊢
            simp [List.filterMap_append, h3, doneEv]
      · refine ⟨l, by rw [if_neg hd]; exact h1, ?_, ?_⟩
        · simp only [sentTo] at h2 ⊢
          have hd' : ¬ dst = d := fun e => hd e.symm
          simp [List.filterMap_append, h2, sentEv, hd']
        · simp only [doneAt] at h3 ⊢
          simp [List.filterMap_append, h3, doneEv]

theorem Grown.sends (ss : List Send) (w : Mail U) : Grown w (ss.foldl Send.exec w) :=
  sends_induct (Grown w) (fun _ dst mk _ h => h.deliver dst mk) ss w (Grown.refl w)

/-! ### The invariant that always holds -/

/-- Every event of a message being dealt with comes after one of its being sent. -/
def CausalMail (l : List MailEv) : Prop :=
  ∀ pre e post, l = pre ++ e :: post → ∀ dst m, doneEv dst e = some m → m ∈ sentTo dst pre

theorem CausalMail.snoc {l : List MailEv} (h : CausalMail l) (e : MailEv) (he : ∀ dst m, doneEv dst e = some m → m ∈ sentTo dst l) :
    CausalMail (l ++ [e]) := by
  intro pre e' post heq dst m hm
  rcases List.eq_nil_or_concat post with rfl | ⟨post', x, rfl⟩
  · have := List.append_inj' heq rfl
    cases this.2
    rw [← this.1]
    exact he dst m hm
  · have heq' : l ++ [e] = (pre ++ e' :: post') ++ [x] := by rw [heq]; simp
    exact h pre e' post' (List.append_inj' heq' rfl).1 dst m hm

/-- A message is handed over only if it has not expired, and passed over only if it has. -/
def Timely : MailEv → Prop
  | .handled _ m t _ => m.expired t = false
  | .expired _ m t => m.expired t = true
  | _ => True

structure MailInv (w : Mail U) : Prop where
  ids : (w.log.filterMap sentId).Nodup ∧ ∀ i ∈ w.log.filterMap sentId, i < w.nextId
  kept : ∀ d b, w.inbox d = some b → ∃ pre, sentTo d w.log = pre ++ b ∧ ∀ m ∈ pre, m ∈ doneAt d w.log
  none : ∀ d, w.inbox d = none → sentTo d w.log = []
  causal : CausalMail w.log
  timely : ∀ e ∈ w.log, Timely e

theorem MailInv.congr {w w' : Mail U} (h : MailInv w) (h1 : w'.inboxes = w.inboxes) (h2 : w'.nextId = w.nextId)
    (h3 : w'.log = w.log) : MailInv w' := by
  constructor
  · rw [h2, h3]; exact h.ids
  · intro d b hb; rw [h3]; exact h.kept d b (by rw [← inbox_congr h1]; exact hb)
  · intro d hb; rw [h3]; exact h.none d (by rw [← inbox_congr h1]; exact hb)
  · rw [h3]; exact h.causal
  · rw [h3]; exact h.timely

theorem MailInv.deliver {w : Mail U} (h : MailInv w) (dst : Nat) (mk : Nat → Msg) (hmk : ∀ i, (mk i).id = i) :
    MailInv (w.deliver dst mk) := by
  have hg := (Grown.refl w).deliver dst mk
  unfold Mail.deliver at hg ⊢
  cases hb : w.inbox dst with
  | none => exact h
  | some b =>
    rw [hb] at hg
    simp only at hg ⊢
    constructor
    · simp only [List.filterMap_append, List.filterMap_cons, List.filterMap_nil, sentId, hmk]
      refine ⟨?_, ?_⟩
      · rw [List.nodup_append]
        refine ⟨h.ids.1, by simp, ?_⟩
        intro a ha c hc
        rw [List.mem_singleton.1 hc]
        exact Nat.ne_of_lt (h.ids.2 a ha)
      · intro i hi
        rcases List.mem_append.1 hi with hi | hi
        · exact Nat.lt_succ_of_lt (h.ids.2 i hi)
        · rw [List.mem_singleton.1 hi]
          exact Nat.lt_succ_self _
    · intro d b' hb'
      obtain ⟨l, h1, h2, h3⟩ := hg.boxes d
      rw [hb'] at h1
      cases hw : w.inbox d with
      | none => rw [hw] at h1; cases h1
      | some b0 =>
        rw [hw] at h1
        simp only [Option.map_some, Option.some.injEq] at h1
        obtain ⟨pre, hp, hd⟩ := h.kept d b0 hw
        refine ⟨pre, by rw [h2, hp, h1, List.append_assoc], ?_⟩
        rw [h3]
        exact hd
    · intro d hd
      obtain ⟨l, h1, h2, h3⟩ := hg.boxes d
      rw [hd] at h1
      have hw : w.inbox d = Option.none := by
        cases hw : w.inbox d with
        | none => rfl
        | some b0 => rw [hw] at h1; cases h1
      have hne : dst ≠ d := by rintro rfl; rw [hw] at hb; cases hb
      simp only [sentTo, List.filterMap_append, List.filterMap_cons, List.filterMap_nil, sentEv, if_neg hne, List.append_nil]
      exact h.none d hw
    · exact h.causal.snoc _ (fun _ _ hm => by cases hm)
    · intro e he
      rcases List.mem_append.1 he with he | he
      · exact h.timely e he
      · rw [List.mem_singleton.1 he]
        trivial

theorem MailInv.sends {w : Mail U} (h : MailInv w) (ss : List Send) : MailInv (ss.foldl Send.exec w) :=
  sends_induct MailInv (fun _ dst mk hmk h => h.deliver dst mk hmk) ss w h

/-- Noting an event other than of a message being sent. -/
theorem MailInv.note {w w' : Mail U} (h : MailInv w) (e : MailEv) (h1 : w'.inboxes = w.inboxes) (h2 : w'.nextId = w.nextId)
    (h3 : w'.log = w.log ++ [e]) (hs : ∀ d, sentEv d e = Option.none) (hi : sentId e = Option.none) (ht : Timely e)
    (hd : ∀ dst m, doneEv dst e = some m → m ∈ sentTo dst w.log) : MailInv w' := by
  have hst : ∀ d, sentTo d w'.log = sentTo d w.log := by
    intro d
    rw [h3]
    simp [sentTo, List.filterMap_append, hs d]
  have hdn : ∀ d m, m ∈ doneAt d w.log → m ∈ doneAt d w'.log := by
    intro d m hm
    rw [h3]
    simp only [doneAt, List.filterMap_append]
    exact List.mem_append_left _ hm
  constructor
  · rw [h2, h3]
    simp only [List.filterMap_append, List.filterMap_cons, List.filterMap_nil, hi, List.append_nil]
    exact h.ids
  · intro d b hb
    obtain ⟨pre, hp, hd⟩ := h.kept d b (by rw [← inbox_congr h1]; exact hb)
    exact ⟨pre, by rw [hst, hp], fun m hm => hdn d m (hd m hm)⟩
  · intro d hb
    rw [hst]
    exact h.none d (by rw [← inbox_congr h1]; exact hb)
  · rw [h3]
    exact h.causal.snoc e hd
  · rw [h3]
    intro e' he'
    rcases List.mem_append.1 he' with he' | he'
    · exact h.timely e' he'
    · rw [List.mem_singleton.1 he']
      exact ht

/-! ### `process_messages` -/

theorem Mail.handle_eq (on : OnReceive U) (w : Mail U) (dst : Nat) (m : Msg) :
    Grown { w with u := (on w dst m).1, log := w.log ++ [.handled dst m w.now (on w dst m).2.2] } (w.handle on dst m) :=
  Grown.sends _ _

theorem reply_fields (w : Mail U) (m : Msg) (v : ReplyVal) : (w.reply m v).inboxes = w.inboxes ∧ (w.reply m v).nextId = w.nextId ∧
    (w.reply m v).log = w.log ∧ (w.reply m v).now = w.now := by
  unfold Mail.reply
  split <;> exact ⟨rfl, rfl, rfl, rfl⟩

theorem MailInv.handle {w : Mail U} (h : MailInv w) (on : OnReceive U) (dst : Nat) (m : Msg) (hm : m ∈ sentTo dst w.log)
    (he : m.expired w.now = false) : MailInv (w.handle on dst m) := by
  refine MailInv.sends (MailInv.note (w' := { w with u := (on w dst m).1, log := w.log ++ [.handled dst m w.now (on w dst m).2.2] }) h
    (.handled dst m w.now (on w dst m).2.2) rfl rfl rfl (fun _ => rfl) rfl he ?_) _
  intro d m' hd
  simp only [doneEv] at hd
  split at hd
  · rename_i e
    cases hd
    rw [← e]
    exact hm
  · cases hd

/-- What a handler leaves behind, seen from one inbox. -/
theorem handle_boxes (on : OnReceive U) (w : Mail U) (dst : Nat) (m : Msg) (d : Nat) :
    ∃ l, (w.handle on dst m).inbox d = (w.inbox d).map (· ++ l) ∧ sentTo d (w.handle on dst m).log = sentTo d w.log ++ l ∧
      doneAt d (w.handle on dst m).log = doneAt d w.log ++ (if dst = d then [m] else []) := by
  obtain ⟨l, h1, h2, h3⟩ := (Mail.handle_eq on w dst m).boxes d
  refine ⟨l, h1, ?_, ?_⟩
  · rw [h2]
    simp [sentTo, List.filterMap_append, sentEv]
  · rw [h3]
    by_cases hd : dst = d <;> simp [doneAt, List.filterMap_append, doneEv, hd]

theorem procMail_inv (on : OnReceive U) (dst : Nat) (b : List Msg) (ms : List Msg) (w : Mail U) (h : MailInv w)
    (hb : w.inbox dst = some b) (hms : ∀ m ∈ ms, m ∈ b) (hdone : ∀ m ∈ b, m ∈ ms ∨ m ∈ doneAt dst w.log) :
    MailInv (procMail on dst b.length ms w).1 ∧ ((procMail on dst b.length ms w).2 = true →
      (procMail on dst b.length ms w).1.inbox dst = some b ∧ ∀ m ∈ b, m ∈ doneAt dst (procMail on dst b.length ms w).1.log) := by
  induction ms generalizing w with
  | nil => exact ⟨h, fun _ => ⟨hb, fun m hm => (hdone m hm).resolve_left (by simp)⟩⟩
  | cons m ms ih =>
    obtain ⟨pre, hp, _⟩ := h.kept dst b hb
    have hsent : m ∈ sentTo dst w.log := by
      rw [hp]
      exact List.mem_append_right _ (hms m List.mem_cons_self)
    unfold procMail
    by_cases hex : m.expired w.now = true
    · rw [if_pos hex]
      refine ih _ (MailInv.note h (.expired dst m w.now) rfl rfl rfl (fun _ => rfl) rfl hex ?_) hb
        (fun x hx => hms x (List.mem_cons_of_mem _ hx)) ?_
      · intro d m' hd
        simp only [doneEv] at hd
        split at hd
        · rename_i e
          cases hd
          rw [← e]
          exact hsent
        · cases hd
      · intro x hx
        simp only [doneAt, List.filterMap_append, List.filterMap_cons, List.filterMap_nil, doneEv, if_pos]
        rcases hdone x hx with hx' | hx'
        · rcases List.mem_cons.1 hx' with rfl | hx'
          · exact .inr (List.mem_append_right _ (List.mem_singleton.2 rfl))
          · exact .inl hx'
        · exact .inr (List.mem_append_left _ hx')
    · have hex' : m.expired w.now = false := Bool.eq_false_iff.2 hex
      rw [if_neg hex]
      have hh := h.handle on dst m hsent hex'
      cases hr : (on w dst m).2.2 with
      | none => exact ⟨hh, fun hc => by cases hc⟩
      | some v =>
        simp only
        obtain ⟨r1, r2, r3, r4⟩ := reply_fields (w.handle on dst m) m v
        have hh' : MailInv ((w.handle on dst m).reply m v) := hh.congr r1 r2 r3
        obtain ⟨l, h1, h2, h3⟩ := handle_boxes on w dst m dst
        rw [hb] at h1
        have hin : ((w.handle on dst m).reply m v).inbox dst = some (b ++ l) := by
          rw [inbox_congr r1, h1]
          rfl
        split
        · rename_i hlen
          rw [hin] at hlen
          simp only [Option.getD_some, List.length_append] at hlen
          have hl : l = [] := List.eq_nil_of_length_eq_zero (by omega)
          rw [hl, List.append_nil] at hin
          refine ih _ hh' hin (fun x hx => hms x (List.mem_cons_of_mem _ hx)) ?_
          intro x hx
          rw [r3, h3]
          rcases hdone x hx with hx' | hx'
          · rcases List.mem_cons.1 hx' with rfl | hx'
            · exact .inr (List.mem_append_right _ (by simp))
            · exact .inl hx'
          · exact .inr (List.mem_append_left _ hx')
        · exact ⟨hh', fun hc => by cases hc⟩

theorem MailInv.process {w : Mail U} (h : MailInv w) (on : OnReceive U) (dst : Nat) : MailInv (w.process on dst).1 := by
  unfold Mail.process
  cases hb : w.inbox dst with
  | none => exact h
  | some b =>
    simp only
    obtain ⟨h1, h2⟩ := procMail_inv on dst b b w h hb (fun _ hm => hm) (fun _ hm => .inl hm)
    generalize procMail on dst b.length b w = r at h1 h2 ⊢
    by_cases hr : r.2 = true
    · rw [if_pos hr]
      obtain ⟨hin, hd⟩ := h2 hr
      have hset := inbox_set (w := r.1) (w' := { r.1 with inboxes := r.1.inboxes.set dst (some []) }) (inbox_lt hin) rfl
      refine ⟨h1.ids, ?_, ?_, h1.causal, h1.timely⟩
      · intro d b' hb'
        rw [hset] at hb'
        by_cases hd' : d = dst
        · subst hd'
          rw [if_pos rfl] at hb'
          cases hb'
          obtain ⟨pre, hp, hpd⟩ := h1.kept d b hin
          refine ⟨pre ++ b, by rw [List.append_nil]; exact hp, ?_⟩
          intro m hm
          rcases List.mem_append.1 hm with hm | hm
          · exact hpd m hm
          · exact hd m hm
        · rw [if_neg hd'] at hb'
          exact h1.kept d b' hb'
      · intro d hd'
        rw [hset] at hd'
        split at hd'
        · cases hd'
        · exact h1.none d hd'
    · rw [if_neg hr]
      exact MailInv.note h1 (.failed dst r.1.now) rfl rfl rfl (fun _ => rfl) rfl trivial (fun _ _ hm => by cases hm)

theorem MailInv.op {w : Mail U} (h : MailInv w) (on : OnReceive U) (o : MailOp U) : MailInv (o.exec on w).1 := by
  cases o with
  | send s => exact send_induct MailInv (fun _ dst mk hmk h => h.deliver dst mk hmk) s w h
  | process dst => exact h.process on dst
  | other f => exact h.congr rfl rfl rfl

/-! ### The log grows -/

/-- The log grows by events that happen now. -/
def Logged (w w' : Mail U) : Prop := w'.now = w.now ∧ ∃ evs, w'.log = w.log ++ evs ∧ ∀ e ∈ evs, mailTime e = w.now

theorem Logged.refl (w : Mail U) : Logged w w := ⟨rfl, [], by simp, by simp⟩

theorem Logged.trans {a b c : Mail U} (h1 : Logged a b) (h2 : Logged b c) : Logged a c := by
  obtain ⟨n1, e1, l1, t1⟩ := h1
  obtain ⟨n2, e2, l2, t2⟩ := h2
  refine ⟨n2.trans n1, e1 ++ e2, by rw [l2, l1, List.append_assoc], ?_⟩
  intro e he
  rcases List.mem_append.1 he with he | he
  · exact t1 e he
  · rw [t2 e he, n1]

theorem Logged.one {w w' : Mail U} (e : MailEv) (h1 : w'.now = w.now) (h2 : w'.log = w.log ++ [e]) (h3 : mailTime e = w.now) :
    Logged w w' := ⟨h1, [e], h2, fun _ he => by rw [List.mem_singleton.1 he]; exact h3⟩

theorem Logged.same {w w' : Mail U} (h1 : w'.now = w.now) (h2 : w'.log = w.log) : Logged w w' := ⟨h1, [], by simp [h2], by simp⟩

theorem Grown.logged {w w' : Mail U} (h : Grown w w') : Logged w w' := by
  obtain ⟨evs, he, hs⟩ := h.evs
  refine ⟨h.now, evs, he, ?_⟩
  intro e hm
  obtain ⟨d, m, rfl⟩ := hs e hm
  rfl

theorem handle_logged (on : OnReceive U) (w : Mail U) (dst : Nat) (m : Msg) : Logged w (w.handle on dst m) :=
  (Logged.one (w := w) (w' := { w with u := (on w dst m).1, log := w.log ++ [.handled dst m w.now (on w dst m).2.2] })
    (.handled dst m w.now (on w dst m).2.2) rfl rfl rfl).trans (Mail.handle_eq on w dst m).logged

theorem procMail_logged (on : OnReceive U) (dst size : Nat) (ms : List Msg) (w : Mail U) : Logged w (procMail on dst size ms w).1 := by
  induction ms generalizing w with
  | nil => exact Logged.refl w
  | cons m ms ih =>
    unfold procMail
    split
    · exact (Logged.one (w := w) (w' := { w with log := w.log ++ [.expired dst m w.now] }) (.expired dst m w.now) rfl rfl rfl).trans (ih _)
    · split
      · exact handle_logged on w dst m
      · rename_i v _
        obtain ⟨_, _, r3, r4⟩ := reply_fields (w.handle on dst m) m v
        have := (handle_logged on w dst m).trans (Logged.same r4 r3)
        simp only
        split
        · exact this.trans (ih _)
        · exact this

theorem MailOp.logged (on : OnReceive U) (w : Mail U) (o : MailOp U) : Logged w (o.exec on w).1 := by
  cases o with
  | send s => exact (send_induct (Grown w) (fun _ dst mk _ h => h.deliver dst mk) s w (Grown.refl w)).logged
  | process dst =>
    simp only [MailOp.exec, Mail.process]
    cases hb : w.inbox dst with
    | none => exact Logged.refl w
    | some b =>
      simp only
      have := procMail_logged on dst b.length b w
      split
      · exact this.trans (Logged.same rfl rfl)
      · exact this.trans (Logged.one (.failed dst _) rfl rfl rfl)
  | other f => exact Logged.same rfl rfl

/-! ### Without failures -/

/-- The messages sent to an agent are those it has dealt with and those in its inbox, in this order. -/
def CleanAt (d : Nat) (w : Mail U) : Prop := ∀ b, w.inbox d = some b → sentTo d w.log = doneAt d w.log ++ b

theorem CleanAt.grown {w w' : Mail U} {d : Nat} (h : CleanAt d w) (hg : Grown w w') : CleanAt d w' := by
  intro b hb
  obtain ⟨l, h1, h2, h3⟩ := hg.boxes d
  rw [hb] at h1
  cases hw : w.inbox d with
  | none => rw [hw] at h1; cases h1
  | some b0 =>
    rw [hw] at h1
    simp only [Option.map_some, Option.some.injEq] at h1
    rw [h2, h3, h b0 hw, h1, List.append_assoc]

theorem procMail_clean (on : OnReceive U) (dst : Nat) (b : List Msg) (ms : List Msg) (w : Mail U) (h : ∀ d, d ≠ dst → CleanAt d w)
    (hb : w.inbox dst = some b) (hs : sentTo dst w.log = doneAt dst w.log ++ ms)
    (hok : (procMail on dst b.length ms w).2 = true) :
    (∀ d, d ≠ dst → CleanAt d (procMail on dst b.length ms w).1) ∧ (procMail on dst b.length ms w).1.inbox dst = some b ∧
      sentTo dst (procMail on dst b.length ms w).1.log = doneAt dst (procMail on dst b.length ms w).1.log := by
  induction ms generalizing w with
  | nil => exact ⟨h, hb, by rw [List.append_nil] at hs; exact hs⟩
  | cons m ms ih =>
    unfold procMail at hok ⊢
    by_cases hex : m.expired w.now = true
    · rw [if_pos hex] at hok ⊢
      refine ih _ ?_ hb ?_ hok
      · intro d hd b' hb'
        have hd' : ¬ dst = d := fun e => hd e.symm
        simp only [sentTo, doneAt, List.filterMap_append, List.filterMap_cons, List.filterMap_nil, sentEv, doneEv, if_neg hd', List.append_nil]
        exact h d hd b' hb'
      · simp only [sentTo, doneAt] at hs ⊢
        simp [List.filterMap_append, sentEv, doneEv, hs]
    · rw [if_neg hex] at hok ⊢
      cases hr : (on w dst m).2.2 with
      | none => rw [hr] at hok; cases hok
      | some v =>
        rw [hr] at hok
        simp only at hok ⊢
        obtain ⟨r1, r2, r3, r4⟩ := reply_fields (w.handle on dst m) m v
        obtain ⟨l, h1, h2, h3⟩ := handle_boxes on w dst m dst
        rw [hb] at h1
        have hin : ((w.handle on dst m).reply m v).inbox dst = some (b ++ l) := by
          rw [inbox_congr r1, h1]
          rfl
        split at hok
        · rename_i hlen
          have hlen0 := hlen
          rw [hin] at hlen
          simp only [Option.getD_some, List.length_append] at hlen
          have hl : l = [] := List.eq_nil_of_length_eq_zero (by omega)
          rw [if_pos hlen0]
          rw [hl, List.append_nil] at hin
          refine ih _ ?_ hin ?_ hok
          · intro d hd b' hb'
            rw [r3]
            rw [inbox_congr r1] at hb'
            obtain ⟨l', g1, g2, g3⟩ := handle_boxes on w dst m d
            rw [hb'] at g1
            cases hw : w.inbox d with
            | none => rw [hw] at g1; cases g1
            | some b0 =>
              rw [hw] at g1
              simp only [Option.map_some, Option.some.injEq] at g1
              rw [g2, g3, if_neg (fun e => hd e.symm), h d hd b0 hw, g1, List.append_nil, List.append_assoc]
          · rw [r3, h2, h3, hl, hs, if_pos rfl]
            simp
        · cases hok

theorem process_clean (on : OnReceive U) (dst : Nat) (w : Mail U) (h : ∀ d, CleanAt d w)
    (hok : (w.process on dst).2 = true) (d : Nat) : CleanAt d (w.process on dst).1 := by
  unfold Mail.process at hok ⊢
  cases hb : w.inbox dst with
  | none => exact h d
  | some b =>
    rw [hb] at hok
    simp only at hok ⊢
    by_cases hr : (procMail on dst b.length b w).2 = true
    · obtain ⟨h1, h2, h3⟩ := procMail_clean on dst b b w (fun d _ => h d) hb (h dst b hb) hr
      rw [if_pos hr]
      intro b' hb'
      rw [inbox_set (w := (procMail on dst b.length b w).1) (w' := { (procMail on dst b.length b w).1 with
        inboxes := (procMail on dst b.length b w).1.inboxes.set dst (some []) }) (inbox_lt h2) rfl] at hb'
      by_cases hd : d = dst
      · subst hd
        rw [if_pos rfl] at hb'
        cases hb'
        rw [List.append_nil]
        exact h3
      · rw [if_neg hd] at hb'
        exact h1 d hd b' hb'
    · rw [if_neg hr] at hok
      cases hok

/-- No exception has escaped from `process_messages`. -/
def NoFailure (l : List MailEv) : Prop := ∀ d t, MailEv.failed d t ∉ l

theorem op_clean (on : OnReceive U) (w : Mail U) (h : NoFailure w.log → ∀ d, CleanAt d w) (o : MailOp U)
    (hn : NoFailure (o.exec on w).1.log) (d : Nat) : CleanAt d (o.exec on w).1 := by
  obtain ⟨_, evs, hl, _⟩ := MailOp.logged on w o
  have hw : ∀ d, CleanAt d w := h (fun d t hm => hn d t (by rw [hl]; exact List.mem_append_left _ hm))
  cases o with
  | send s => exact (hw d).grown (send_induct (Grown w) (fun _ dst mk _ h => h.deliver dst mk) s w (Grown.refl w))
  | process dst =>
    cases hok : (w.process on dst).2 with
    | true => exact process_clean on dst w hw hok d
    | false =>
      simp only [MailOp.exec] at hn ⊢
      unfold Mail.process at hok hn ⊢
      cases hb : w.inbox dst with
      | none => exact hw d
      | some b =>
        rw [hb] at hok hn
        simp only at hok hn
        by_cases hr : (procMail on dst b.length b w).2 = true
        · rw [if_pos hr] at hok
          cases hok
        · rw [if_neg hr] at hn
          exact absurd (List.mem_append_right _ (List.mem_singleton.2 rfl)) (hn dst _)
  | other f => exact hw d

/-! ### Replies -/

/-- The reply stored in a question is what `on_receive` returned for it the last time. -/
def RepliesOk (w : Mail U) : Prop := ∀ id, Dict.get? w.replies id = lastReply id w.log

theorem lastReply_append_none (id : Nat) (l evs : List MailEv) (h : ∀ e ∈ evs, replyEv id e = none) :
    lastReply id (l ++ evs) = lastReply id l := by
  unfold lastReply
  rw [List.filterMap_append, List.filterMap_eq_nil_iff.2 h, List.append_nil]

theorem RepliesOk.grown {w w' : Mail U} (h : ∀ id, Dict.get? w'.replies id = lastReply id w.log) (hg : Grown w w') : RepliesOk w' := by
  intro id
  obtain ⟨evs, he, hs⟩ := hg.evs
  rw [he, lastReply_append_none, h]
  intro e hm
  obtain ⟨d, m, rfl⟩ := hs e hm
  rfl

theorem handle_replies (on : OnReceive U) (w : Mail U) (h : RepliesOk w) (dst : Nat) (m : Msg) :
    ((on w dst m).2.2 = none → RepliesOk (w.handle on dst m)) ∧
    (∀ v, (on w dst m).2.2 = some v → RepliesOk ((w.handle on dst m).reply m v)) := by
  have hg := Mail.handle_eq on w dst m
  obtain ⟨evs, he, hs⟩ := hg.evs
  have hlog : ∀ id, lastReply id (w.handle on dst m).log = lastReply id (w.log ++ [.handled dst m w.now (on w dst m).2.2]) := by
    intro id
    rw [he, lastReply_append_none]
    intro e hm
    obtain ⟨d, m, rfl⟩ := hs e hm
    rfl
  have hrep : (w.handle on dst m).replies = w.replies := hg.replies
  constructor
  · intro hr id
    rw [hlog, hr, hrep, lastReply_append_none, h]
    intro e hm
    rw [List.mem_singleton.1 hm]
    rfl
  · intro v hr id
    rw [(reply_fields _ m v).2.2.1, hlog, hr]
    unfold Mail.reply
    by_cases ha : m.ask = true
    · rw [if_pos ha]
      simp only [hrep, Dict.get?_set]
      by_cases hid : m.id = id
      · simp [lastReply, List.filterMap_append, replyEv, ha, hid]
      · rw [if_neg hid, lastReply_append_none, h]
        intro e hm
        rw [List.mem_singleton.1 hm]
        simp [replyEv, hid]
    · rw [if_neg ha, hrep, lastReply_append_none, h]
      intro e hm
      rw [List.mem_singleton.1 hm]
      simp [replyEv, ha]

theorem procMail_replies (on : OnReceive U) (dst size : Nat) (ms : List Msg) (w : Mail U) (h : RepliesOk w) :
    RepliesOk (procMail on dst size ms w).1 := by
  induction ms generalizing w with
  | nil => exact h
  | cons m ms ih =>
    unfold procMail
    split
    · refine ih _ ?_
      intro id
      rw [lastReply_append_none]
      · exact h id
      · intro e hm
        rw [List.mem_singleton.1 hm]
        rfl
    · obtain ⟨h1, h2⟩ := handle_replies on w h dst m
      split
      · rename_i hr
        exact h1 hr
      · rename_i v hr
        simp only
        split
        · exact ih _ (h2 v hr)
        · exact h2 v hr

theorem op_replies (on : OnReceive U) (w : Mail U) (h : RepliesOk w) (o : MailOp U) : RepliesOk (o.exec on w).1 := by
  cases o with
  | send s =>
    have hg := send_induct (Grown w) (fun _ dst mk _ h => h.deliver dst mk) s w (Grown.refl w)
    exact RepliesOk.grown (fun id => (congrArg (fun x => Dict.get? x id) hg.replies).trans (h id)) hg
  | process dst =>
    simp only [MailOp.exec, Mail.process]
    cases hb : w.inbox dst with
    | none => exact h
    | some b =>
      simp only
      have h1 := procMail_replies on dst b.length b w h
      split
      · exact h1
      · intro id
        rw [lastReply_append_none]
        · exact h1 id
        · intro e hm
          rw [List.mem_singleton.1 hm]
          rfl
  | other f => exact h

/-! ### Whole activations and histories -/

theorem prog_induct (on : OnReceive U) (P : Mail U → Prop) (h : ∀ w o, P w → P (MailOp.exec on w o).1) (p : MailProg U) (w : Mail U)
    (hw : P w) : P (p.run on w).2.2 := by
  induction p generalizing w with
  | done rep ops => exact hw
  | op o next ih => exact ih _ _ _ (h w o hw)

theorem prog_logged (on : OnReceive U) (p : MailProg U) (w : Mail U) : Logged w (p.run on w).2.2 :=
  prog_induct on (Logged w) (fun w' o h => h.trans (MailOp.logged on w' o)) p w (Logged.refl w)

theorem bucket_world {W : Type} (H : Host W) (P : W → Prop) (h : ∀ r s w, P w → P (H.step r s w).2.2) (now : Time) (b : List Ref)
    (s : Sched) (w : W) (hw : P w) : P (runBucket H now b s w).2.1 := by
  induction b generalizing s w with
  | nil => exact hw
  | cons r b ih =>
    unfold runBucket
    simp only
    split
    · exact h r s w hw
    · exact ih _ _ (h r s w hw)
    · exact ih _ _ (h r s w hw)

theorem step_world {W : Type} (H : Host W) (P : W → Prop) (h : ∀ r s w, P w → P (H.step r s w).2.2)
    (hsh : ∀ l w, P w → P (H.shuffle l w).2) (s : Sched) (w : W) (hw : P w) : P (s.step H w).2.1 := by
  unfold Sched.step
  split
  · exact hw
  · split
    · exact hw
    · simp only
      have h0 : ∀ b, P (runOrder H s b w).2 := by
        intro b
        unfold runOrder
        split
        · exact hsh _ _ hw
        · exact hw
      unfold finishStep
      split
      · exact bucket_world H P h _ _ _ _ (h0 _)
      · exact bucket_world H P h _ _ _ _ (h0 _)

/-- A property of the mail that operations and the clock preserve holds throughout. -/
theorem mail_induct (C : MailCode U) (P : Mail U → Prop) (h : ∀ w o, P w → P (MailOp.exec C.on w o).1)
    (hn : ∀ w t, P w → P { w with now := t }) (hist : List (MailCmd U)) (s : Sched) (w : Mail U) (hw : P w) :
    P (mailExec C hist (s, w)).2 := by
  induction hist generalizing s w with
  | nil => exact hw
  | cons c hist ih =>
    have : P (c.exec C (s, w)).2 := by
      cases c with
      | step =>
        exact step_world C.host P (fun r s w hw => prog_induct C.on P h _ _ (hn _ _ hw)) (fun _ _ hw => hw) s w hw
      | code p => exact prog_induct C.on P h p _ (hn _ _ hw)
    exact ih _ _ this

theorem start_inv (evented : List Bool) (u : U) : MailInv (Mail.start evented u) where
  ids := ⟨List.nodup_nil, by simp [Mail.start]⟩
  kept := by
    intro d b hb
    refine ⟨[], ?_, by simp⟩
    have : b = [] := by
      unfold Mail.inbox Mail.start at hb
      simp only [List.getElem?_map] at hb
      cases he : evented[d]? with
      | none => rw [he] at hb; cases hb
      | some x =>
        rw [he] at hb
        cases x <;> simp at hb
        exact hb
    rw [this]
    rfl
  none := fun _ _ => rfl
  causal := by
    intro pre e post h
    simp [Mail.start] at h
  timely := by simp [Mail.start]

end Verif
