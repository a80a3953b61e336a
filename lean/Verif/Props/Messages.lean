import Verif.Model.Messages
import Mathlib.Data.List.Basic

/-!
# Properties C34–C38: messages
-/

namespace Verif

variable {S : Type}

/-! ### C34 -/

theorem procLoop_handled (on : Handler S) (now : Time) (inbox ms : List Msg) (s : S) :
    (procLoop on now inbox ms s).handled <+: ms.filter (fun m => !m.expired now) := by
  induction ms generalizing s with
  | nil => simp [procLoop]
  | cons m ms ih =>
    simp only [procLoop]
    by_cases he : m.expired now = true
    · simp only [he, if_true]
      simpa [he] using ih s
    · simp only [he, Bool.false_eq_true, if_false]
      rw [List.filter_cons_of_pos (by simpa using he)]
      cases hr : (on s inbox m).reply with
      | none => simp
      | some v =>
        simp only
        cases (on s inbox m).touched with
        | some b => simp
        | none => simpa using ih _

theorem procLoop_valid (on : Handler S) (now : Time) (inbox ms : List Msg) (s : S) (v : List Msg)
    (h : (procLoop on now inbox ms s).valid = some v) :
    (procLoop on now inbox ms s).handled = ms.filter (fun m => !m.expired now) ∧
      v = ms.filter (fun m => !m.expired now) := by
  induction ms generalizing s v with
  | nil => simp [procLoop] at h ⊢; exact h
  | cons m ms ih =>
    simp only [procLoop] at h ⊢
    by_cases he : m.expired now = true
    · simp only [he, if_true] at h ⊢
      simpa [he] using ih s v h
    · simp only [he, Bool.false_eq_true, if_false] at h ⊢
      rw [List.filter_cons_of_pos (by simpa using he)]
      cases hr : (on s inbox m).reply with
      | none => rw [hr] at h; cases h
      | some x =>
        rw [hr] at h
        simp only at h ⊢
        cases ht : (on s inbox m).touched with
        | some b => rw [ht] at h; cases h
        | none =>
          rw [ht] at h
          simp only at h ⊢
          cases hv : (procLoop on now inbox ms (on s inbox m).state).valid with
          | none => rw [hv] at h; cases h
          | some v' =>
            rw [hv] at h
            simp only [Option.map_some, Option.some.injEq] at h
            subst h
            obtain ⟨h1, h2⟩ := ih _ v' hv
            exact ⟨by rw [h1], by rw [h2]⟩

/-- C34: whatever the handler does, when `process_messages` returns, it has handed exactly the messages that have not
expired to `on_receive`, once each, in order of arrival, it returns exactly those, and the inbox is empty. -/
theorem C34_returned (on : Handler S) (now : Time) (inbox : List Msg) (s : S) (v : List Msg)
    (h : (processMessages on now inbox s).valid = some v) :
    (processMessages on now inbox s).handled = inbox.filter (fun m => !m.expired now) ∧
    v = inbox.filter (fun m => !m.expired now) ∧ (processMessages on now inbox s).inbox = [] := by
  unfold processMessages at h ⊢
  simp only at h ⊢
  cases hv : (procLoop on now inbox inbox s).valid with
  | none => rw [hv] at h; simp only at h; rw [hv] at h; cases h
  | some v' =>
    rw [hv] at h
    simp only [Option.some.injEq] at h ⊢
    subst h
    obtain ⟨h1, h2⟩ := procLoop_valid on now inbox inbox s v' hv
    exact ⟨h1, h2, trivial⟩

/-- C34: in every case (even if an exception escapes) the messages handed to `on_receive` are an initial part of the
messages that have not expired, in order. -/
theorem C34_in_order (on : Handler S) (now : Time) (inbox : List Msg) (s : S) :
    (processMessages on now inbox s).handled <+: inbox.filter (fun m => !m.expired now) := by
  have h := procLoop_handled on now inbox inbox s
  unfold processMessages
  simp only
  split <;> exact h

/-- C34: it returns if the handler never raises and leaves the agent's own inbox alone. Missing: handlers that send a
message to the agent itself, see `C34_self_message_false`. -/
theorem C34_returns_partial (on : Handler S) (now : Time) (inbox : List Msg) (s : S)
    (hon : ∀ s m, (on s inbox m).reply.isSome = true ∧ (on s inbox m).touched = none) :
    (processMessages on now inbox s).valid = some (inbox.filter (fun m => !m.expired now)) := by
  have key : ∀ (ms : List Msg) (s : S), ∃ v, (procLoop on now inbox ms s).valid = some v := by
    intro ms
    induction ms with
    | nil => intro s; exact ⟨[], rfl⟩
    | cons m ms ih =>
      intro s
      simp only [procLoop]
      split
      · exact ih s
      · obtain ⟨h1, h2⟩ := hon s m
        obtain ⟨x, hx⟩ := Option.isSome_iff_exists.1 h1
        obtain ⟨v, hv⟩ := ih (on s inbox m).state
        exact ⟨m :: v, by simp [hx, h2, hv]⟩
  obtain ⟨v, hv⟩ := key inbox s
  have hp : (processMessages on now inbox s).valid = some v := by
    unfold processMessages
    simp only [hv]
  rw [hp, (C34_returned on now inbox s v hp).2.1]

/-- C34 is violated: if the handler of the first message (not expired) puts a message in the agent's own inbox,
`process_messages` raises, only that message has been handled, and all messages stay in the inbox. -/
theorem C34_self_message_false (on : Handler S) (now : Time) (m : Msg) (ms extra : List Msg) (s : S) (v : ReplyVal)
    (hm : m.expired now = false) (hr : (on s (m :: ms) m).reply = some v)
    (ht : (on s (m :: ms) m).touched = some (m :: ms ++ extra)) :
    (processMessages on now (m :: ms) s).valid = none ∧ (processMessages on now (m :: ms) s).handled = [m] ∧
    (processMessages on now (m :: ms) s).inbox = m :: ms ++ extra := by
  simp [processMessages, procLoop, hm, hr, ht]

/-- A handler that counts messages, replies with the payload, echoes payload 7 to itself, fails on payload 9. -/
def exHandler : Handler Nat := fun n inbox m =>
  if m.payload = 9 then ⟨none, n, none⟩
  else if m.payload = 7 then ⟨some ⟨7, true⟩, n + 1, some (inbox ++ [⟨100, 1, none, none, false⟩])⟩
  else ⟨some ⟨m.payload, m.payload ≠ 0⟩, n + 1, none⟩

def exMsg (id payload : Nat) (exp : Option Time := none) (ask : Bool := false) : Msg := ⟨id, payload, some 3, exp, ask⟩

example : let r := processMessages exHandler 5 [exMsg 0 1, exMsg 1 2 (some 4), exMsg 2 3 (some 5), exMsg 3 4 none true] 0
    r.valid = some [exMsg 0 1, exMsg 2 3 (some 5), exMsg 3 4 none true] ∧ r.inbox = [] ∧ r.state = 3 ∧
    r.replies = [(3, ⟨4, true⟩)] := by
  decide +kernel

example : let r := processMessages exHandler 5 [exMsg 0 7, exMsg 1 2] 0
    r.valid = none ∧ r.inbox = [exMsg 0 7, exMsg 1 2, ⟨100, 1, none, none, false⟩] := by
  decide +kernel

/-! ### C35 -/

theorem procLoop_raise (on : Handler S) (now : Time) (inbox pre : List Msg) (m : Msg) (post : List Msg)
    (hpre : ∀ s, ∀ x ∈ pre, (on s inbox x).reply.isSome = true ∧ (on s inbox x).touched = none)
    (hm : m.expired now = false) (hbad : ∀ s, (on s inbox m).reply = none ∧ (on s inbox m).touched = none) (s : S) :
    (procLoop on now inbox (pre ++ m :: post) s).valid = none ∧
    (procLoop on now inbox (pre ++ m :: post) s).inbox = inbox ∧
    (procLoop on now inbox (pre ++ m :: post) s).handled = (pre ++ [m]).filter (fun m => !m.expired now) := by
  induction pre generalizing s with
  | nil => simp [procLoop, hm, (hbad s).1, (hbad s).2]
  | cons x pre ih =>
    have ih' := ih (fun s y hy => hpre s y (by simp [hy]))
    simp only [List.cons_append, procLoop]
    by_cases he : x.expired now = true
    · simp only [he, if_true]
      obtain ⟨i1, i2, i3⟩ := ih' s
      exact ⟨i1, i2, by rw [i3]; simp [he]⟩
    · simp only [he, Bool.false_eq_true, if_false]
      obtain ⟨h1, h2⟩ := hpre s x (by simp)
      obtain ⟨v, hv⟩ := Option.isSome_iff_exists.1 h1
      obtain ⟨i1, i2, i3⟩ := ih' (on s inbox x).state
      simp only [hv, h2, i1, i2, i3]
      refine ⟨rfl, trivial, ?_⟩
      rw [List.filter_cons_of_pos (by simpa using he)]

/-- C35 is violated: if `on_receive` raises for some message, everything stays in the inbox; the next call hands all the
messages that had been handled before the failure to `on_receive` again (and fails again, if the handler does). -/
theorem C35_reprocessed_false (on : Handler S) (now : Time) (pre : List Msg) (m : Msg) (post : List Msg) (s : S)
    (hpre : ∀ s, ∀ x ∈ pre, (on s (pre ++ m :: post) x).reply.isSome = true ∧ (on s (pre ++ m :: post) x).touched = none)
    (hm : m.expired now = false)
    (hbad : ∀ s, (on s (pre ++ m :: post) m).reply = none ∧ (on s (pre ++ m :: post) m).touched = none) :
    let first := processMessages on now (pre ++ m :: post) s
    let second := processMessages on now first.inbox first.state
    first.inbox = pre ++ m :: post ∧ first.handled = (pre ++ [m]).filter (fun m => !m.expired now) ∧
    second.handled = first.handled := by
  intro first second
  have key : ∀ s, (processMessages on now (pre ++ m :: post) s).inbox = pre ++ m :: post ∧
      (processMessages on now (pre ++ m :: post) s).handled = (pre ++ [m]).filter (fun m => !m.expired now) := by
    intro s
    obtain ⟨h1, h2, h3⟩ := procLoop_raise on now (pre ++ m :: post) pre m post hpre hm hbad s
    unfold processMessages
    simp only [h1]
    exact ⟨h2, h3⟩
  have h1 : first.inbox = pre ++ m :: post := (key s).1
  refine ⟨h1, (key s).2, ?_⟩
  simp only [second]
  rw [h1, (key first.state).2]
  exact (key s).2.symm

/-- C35, what holds: no message is lost when a handler raises (as long as handlers do not touch the inbox). -/
theorem C35_nothing_lost_partial (on : Handler S) (now : Time) (inbox : List Msg) (s : S)
    (hon : ∀ s m, (on s inbox m).touched = none) (h : (processMessages on now inbox s).valid = none) :
    (processMessages on now inbox s).inbox = inbox := by
  have key : ∀ (ms : List Msg) (s : S), (procLoop on now inbox ms s).inbox = inbox := by
    intro ms
    induction ms with
    | nil => intro s; rfl
    | cons m ms ih =>
      intro s
      simp only [procLoop]
      split
      · exact ih s
      · split
        · simp [hon]
        · simp only [hon]
          exact ih _
  unfold processMessages at h ⊢
  simp only at h ⊢
  cases hv : (procLoop on now inbox inbox s).valid with
  | none => exact key inbox s
  | some v => rw [hv] at h; cases h

example : let first := processMessages exHandler 5 [exMsg 0 1, exMsg 1 9, exMsg 2 3] 0
    let second := processMessages exHandler 5 first.inbox first.state
    first.handled = [exMsg 0 1, exMsg 1 9] ∧ second.handled = [exMsg 0 1, exMsg 1 9] := by
  decide +kernel

/-! ### C36 -/

/-- C36: if ids are unique, `broadcast` gives exactly one message to every agent that matches the filter, has an inbox
and is not the sender, at the end of its inbox, and changes nothing else. -/
theorem C36_broadcast (agents : List MAgent) (filter : MAgent → Bool) (sender : Option MAgent) (payload : Nat)
    (now : Time) (expiration ttl : Option Time) (ids : Nat → Nat)
    (huniq : ∀ a ∈ agents, ∀ s, sender = some s → a.uid = s.uid → a = s) (k : Nat) (a : MAgent)
    (ha : agents[k]? = some a) :
    ∃ a', (broadcast agents filter sender payload now expiration ttl ids)[k]? = some a' ∧
      a'.ref = a.ref ∧ a'.uid = a.uid ∧ a'.attrs = a.attrs ∧
      ((filter a = true ∧ sender ≠ some a ∧ ∃ b, a.inbox = some b ∧ ∃ m, a'.inbox = some (b ++ [m]) ∧
          m.payload = payload ∧ m.sender = sender.map (·.uid) ∧ m.ask = false ∧
          (ttl = none → m.expiration = expiration) ∧ (∀ t, ttl = some t → m.expiration = some (now + t))) ∨
       (¬ (filter a = true ∧ sender ≠ some a ∧ a.inbox.isSome = true) ∧ a' = a)) := by
  unfold broadcast
  simp only [List.getElem?_mapIdx, ha, Option.map_some]
  have hs : isSender sender a = true ↔ sender = some a := by
    cases sender with
    | none => simp [isSender]
    | some s =>
      simp only [isSender, MAgent.pyEq, Bool.and_eq_true, beq_iff_eq, Option.some.injEq]
      constructor
      · intro h
        exact (huniq a (List.mem_of_getElem? ha) s rfl h.1).symm
      · rintro rfl; exact ⟨rfl, rfl⟩
  refine ⟨_, rfl, ?_⟩
  by_cases hf : filter a = true
  · simp only [hf, if_true]
    by_cases hsend : sender = some a
    · rw [if_pos (hs.2 hsend)]
      exact ⟨rfl, rfl, rfl, Or.inr ⟨by simp [hsend], rfl⟩⟩
    · rw [if_neg (fun h => hsend (hs.1 h))]
      cases hb : a.inbox with
      | none => exact ⟨rfl, rfl, rfl, Or.inr ⟨by simp, rfl⟩⟩
      | some b =>
        refine ⟨rfl, rfl, rfl, Or.inl ⟨trivial, hsend, b, rfl, _, rfl, rfl, rfl, rfl, ?_, ?_⟩⟩
        · rintro rfl; rfl
        · rintro t rfl; rfl
  · simp only [hf, Bool.false_eq_true, if_false]
    exact ⟨trivial, trivial, trivial, Or.inr ⟨by simp, trivial⟩⟩

/-- C36: a message with a time to live is dropped by `process_messages` exactly if that happens later than
`now + ttl`; it is never dropped without a time to live and expiration. -/
theorem C36_ttl (m : Msg) (now t later : Time) :
    (m.expiration = some (now + t) → (m.expired later = true ↔ now + t < later)) ∧
    (m.expiration = none → m.expired later = false) := by
  constructor
  · intro h; simp [Msg.expired, h]
  · intro h; simp [Msg.expired, h]

/-- Without unique ids C36 is violated: an agent with the same public attributes as the sender (possible with explicit
ids) does not receive the message. -/
theorem C36_equal_agents_false (a s : MAgent) (hne : a ≠ s) (hu : a.uid = s.uid) (hat : a.attrs = s.attrs)
    (payload : Nat) (now : Time) (exp ttl : Option Time) (ids : Nat → Nat) :
    broadcast [a, s] (fun _ => true) (some s) payload now exp ttl ids = [a, s] ∧ a ≠ s := by
  simp [broadcast, isSender, MAgent.pyEq, hu, hat, hne]

example : broadcast [⟨0, 0, 5, some []⟩, ⟨1, 1, 5, none⟩, ⟨2, 2, 5, some [exMsg 0 1]⟩, ⟨3, 3, 6, some []⟩]
      (fun a => a.attrs = 5) (some ⟨0, 0, 5, some []⟩) 42 10 none (some 3) (fun k => 50 + k) =
    [⟨0, 0, 5, some []⟩, ⟨1, 1, 5, none⟩, ⟨2, 2, 5, some [exMsg 0 1, ⟨52, 42, some 0, some 13, false⟩]⟩,
     ⟨3, 3, 6, some []⟩] := by
  decide +kernel

/-! ### C37 -/

/-- C37 is violated by default (`process=True`): whenever `received()` returns, the caller gets an empty collection,
although messages were there and have been handled. -/
theorem C37_empty_result_false (on : Handler S) (deadline : Time) (polls : List (Time × List Msg × S))
    (res handled : List Msg) (h : receivedDefault on deadline polls = .returned (some (res, handled))) :
    res = [] ∧ ∃ p ∈ polls, p.1 < deadline ∧ p.2.1 ≠ [] ∧ handled = p.2.1.filter (fun m => !m.expired p.1) := by
  induction polls with
  | nil => cases h
  | cons p polls ih =>
    obtain ⟨now, inbox, s⟩ := p
    simp only [receivedDefault] at h
    split at h
    · rename_i hnow
      cases inbox with
      | nil =>
        obtain ⟨h1, p, hp, h2⟩ := ih h
        exact ⟨h1, p, by simp [hp], h2⟩
      | cons m ms =>
        simp only at h
        cases hv : (processMessages on now (m :: ms) s).valid with
        | none => rw [hv] at h; cases h
        | some v =>
          rw [hv] at h
          simp only [Wait.returned.injEq, Option.some.injEq, Prod.mk.injEq] at h
          obtain ⟨g1, _, g3⟩ := C34_returned on now (m :: ms) s v hv
          refine ⟨by rw [← h.1]; exact g3, ⟨now, m :: ms, s⟩, by simp, hnow, by simp, ?_⟩
          rw [← h.2]; exact g1
    · cases h

/-- C37 with `process=False`: the wait ends at the first activation that finds a message or is not before the deadline;
it returns the whole inbox in the first case and raises `TimedOut` in the second. -/
theorem C37_unprocessed_partial (deadline : Time) (polls : List (Time × List Msg)) :
    receivedRaw deadline polls =
      match polls.find? (fun p => !decide (p.1 < deadline) || !p.2.isEmpty) with
      | none => .waiting
      | some p => if p.1 < deadline then .returned p.2 else .timedOut := by
  induction polls with
  | nil => rfl
  | cons p polls ih =>
    obtain ⟨now, inbox⟩ := p
    simp only [receivedRaw]
    by_cases hn : now < deadline
    · rw [if_pos hn]
      cases inbox with
      | nil => simp [hn, ih]
      | cons m ms => simp [hn]
    · rw [if_neg hn]
      simp [hn]

/-- C37 is violated by the deadline: a message that arrives before the deadline but after the last activation before it
is not returned; the wait raises `TimedOut`. `start + delay` is the second activation, the deadline lies between. -/
theorem C37_late_poll_false (start delay deadline : Time) (m : Msg) (h1 : start < deadline)
    (h2 : deadline ≤ start + delay) :
    receivedRaw deadline [(start, []), (start + delay, [m])] = .timedOut := by
  simp only [receivedRaw]
  rw [if_pos h1, if_neg (not_lt.2 h2)]

/-- With the default delay of 1 and a timeout of 1, no message that arrives later than the call is ever noticed. -/
example : receivedRaw (receivedDeadline none 1 5) [(5, []), (6, [exMsg 0 1])] = .timedOut := by
  decide +kernel

example : receivedRaw (receivedDeadline none 60 5) [(5, []), (6, []), (7, [exMsg 0 1, exMsg 1 2])] =
    .returned [exMsg 0 1, exMsg 1 2] := by
  decide +kernel

example : receivedDefault exHandler (receivedDeadline none 60 5) [(5, [], 0), (6, [exMsg 0 1, exMsg 1 2], 0)] =
    .returned (some ([], [exMsg 0 1, exMsg 1 2])) := by
  decide +kernel

/-! ### C38 -/

/-- C38 is violated: the target sees itself as the sender, not the asker. -/
theorem C38_sender_false (target asker payload id : Nat) (h : asker ≠ target) :
    (askMsg target asker payload id).sender = some target ∧ (askMsg target asker payload id).sender ≠ some asker := by
  refine ⟨rfl, ?_⟩
  simp [askMsg, Ne.symm h]

/-- C38 is violated: a reply that Python counts as false (`None`, 0, `False`, an empty string or container) is never
returned, however often and whenever the asker looks. In particular `on_receive` without `return`. -/
theorem C38_falsy_reply_false (deadline : Time) (polls : List (Time × Option ReplyVal))
    (h : ∀ p ∈ polls, ∀ r, p.2 = some r → r.truthy = false) (r : ReplyVal) : askLoop deadline polls ≠ .returned r := by
  induction polls with
  | nil => simp [askLoop]
  | cons p polls ih =>
    obtain ⟨now, reply⟩ := p
    have ih' := ih (fun p hp => h p (by simp [hp]))
    simp only [askLoop]
    split
    · cases reply with
      | none => exact ih'
      | some x =>
        have : x.truthy = false := h _ List.mem_cons_self x rfl
        simp only [this, Bool.false_eq_true, if_false]
        exact ih'
    · simp

/-- With such a reply and no timeout, the asker waits for ever. -/
theorem C38_waits_forever_false (expiration : Option Time) (now : Time) (polls : List (Time × Option ReplyVal))
    (hfin : ∀ p ∈ polls, p.1 ≠ .inf) (h : ∀ p ∈ polls, ∀ r, p.2 = some r → r.truthy = false) :
    askLoop (askDeadline expiration none now) polls = .waiting := by
  induction polls with
  | nil => rfl
  | cons p polls ih =>
    obtain ⟨t, reply⟩ := p
    have ih' := ih (fun p hp => hfin p (by simp [hp])) (fun p hp => h p (by simp [hp]))
    have ht : t < askDeadline expiration none now := by
      have := hfin _ List.mem_cons_self
      cases t with
      | fin q => simp [askDeadline]
      | inf => exact absurd rfl this
    simp only [askLoop]
    rw [if_pos ht]
    cases reply with
    | none => exact ih'
    | some x =>
      have : x.truthy = false := h _ List.mem_cons_self x rfl
      simp only [this, Bool.false_eq_true, if_false]
      exact ih'

/-- The parameter `expiration` of `ask` has no effect. -/
theorem C38_expiration_ignored_false (e : Option Time) (timeout : Option Time) (now : Time) :
    askDeadline e timeout now = askDeadline none timeout now := rfl

/-- C38, what holds: a reply that counts as true is returned at the first activation (before the deadline) that finds
it; `TimedOut` is raised only by an activation that is not before the deadline and when no earlier one found a reply. -/
theorem C38_truthy_partial (deadline : Time) (polls : List (Time × Option ReplyVal))
    (ht : ∀ p ∈ polls, ∀ r, p.2 = some r → r.truthy = true) :
    askLoop deadline polls =
      match polls.find? (fun p => !decide (p.1 < deadline) || p.2.isSome) with
      | none => .waiting
      | some p => if p.1 < deadline then (match p.2 with
          | some r => .returned r
          | none => .waiting) else .timedOut := by
  induction polls with
  | nil => rfl
  | cons p polls ih =>
    obtain ⟨now, reply⟩ := p
    have ih' := ih (fun p hp => ht p (by simp [hp]))
    simp only [askLoop]
    by_cases hn : now < deadline
    · rw [if_pos hn]
      cases reply with
      | none => simp [hn, ih']
      | some r =>
        have := ht _ List.mem_cons_self r rfl
        simp [hn, this]
    · rw [if_neg hn]; simp [hn]

theorem procLoop_reply (on : Handler S) (now : Time) (inbox pre : List Msg) (q : Msg) (post : List Msg)
    (hon : ∀ s m, (on s inbox m).reply.isSome = true ∧ (on s inbox m).touched = none)
    (hq : q.ask = true) (he : q.expiration = none) (s : S) :
    ∃ s', (on s' inbox q).reply.isSome = true ∧ ∀ r, (on s' inbox q).reply = some r →
      (q.id, r) ∈ (procLoop on now inbox (pre ++ q :: post) s).replies := by
  induction pre generalizing s with
  | nil =>
    refine ⟨s, (hon s q).1, ?_⟩
    intro r hr
    have : q.expired now = false := by simp [Msg.expired, he]
    simp [procLoop, this, hr, (hon s q).2, hq]
  | cons x pre ih =>
    simp only [List.cons_append, procLoop]
    by_cases hx : x.expired now = true
    · simp only [hx, if_true]; exact ih s
    · simp only [hx, Bool.false_eq_true, if_false]
      obtain ⟨h1, h2⟩ := hon s x
      obtain ⟨v, hv⟩ := Option.isSome_iff_exists.1 h1
      obtain ⟨s', g1, g2⟩ := ih (on s inbox x).state
      refine ⟨s', g1, fun r hr => ?_⟩
      simp only [hv, h2]
      exact List.mem_append_right _ (g2 r hr)

/-- C38, end to end: when the target processes its messages (the handler neither raises nor touches the inbox), the reply
stored in the question is what `on_receive` returned for it, whatever else is in the inbox and however late it is. -/
theorem C38_reply_stored_partial (on : Handler S) (now : Time) (pre post : List Msg) (target asker payload id : Nat)
    (hon : ∀ s m, (on s (pre ++ askMsg target asker payload id :: post) m).reply.isSome = true ∧
      (on s (pre ++ askMsg target asker payload id :: post) m).touched = none) (s : S) :
    ∃ s' r, (on s' (pre ++ askMsg target asker payload id :: post) (askMsg target asker payload id)).reply = some r ∧
      (id, r) ∈ (processMessages on now (pre ++ askMsg target asker payload id :: post) s).replies := by
  obtain ⟨s', h1, h2⟩ := procLoop_reply on now (pre ++ askMsg target asker payload id :: post) pre
    (askMsg target asker payload id) post hon rfl rfl s
  obtain ⟨r, hr⟩ := Option.isSome_iff_exists.1 h1
  refine ⟨s', r, hr, ?_⟩
  have := h2 r hr
  unfold processMessages
  simp only
  split <;> exact this

example : askLoop (askDeadline none (some 10) 0) [(0, none), (1, none), (2, some ⟨5, true⟩)] = .returned ⟨5, true⟩ := by
  decide +kernel

example : askLoop (askDeadline none (some 2) 0) [(0, none), (1, some ⟨0, false⟩), (2, some ⟨0, false⟩)] = .timedOut := by
  decide +kernel

end Verif
