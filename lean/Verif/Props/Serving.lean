import Verif.Proofs.Serving
import Verif.Props.Asking

/-!
# An agent that keeps waiting for messages (C220)
-/

namespace Verif
open Spec

variable {U : Type}

private theorem nonneg_eff {iv d : Time} (hiv : 0 < iv) (hd : 0 ≤ d) : 0 ≤ effDelay iv (some d) := by
  unfold effDelay
  simp only
  split
  · exact le_of_lt hiv
  · exact hd

private theorem srv_start (C : MailCode U) (dst : Nat) (iv d : Time) (sh : Bool) (evented : List Bool) (u : U) (hb : evented[dst]? = some true) :
    SrvJ C dst iv d (Sched.init iv sh) (Mail.start evented u) := by
  refine ⟨start_inv evented u, ?_, ⟨by simp [Mail.start], by simp [Mail.start]⟩, by simp [Mail.inbox, Mail.start, hb],
    by simp [Sched.init], ?_, by simp [Mail.start]⟩
  · intro _ b hb'
    obtain ⟨pre, h1, _⟩ := (start_inv evented u).kept dst b hb'
    cases b with
    | nil => rfl
    | cons m ms => exact absurd h1 (by simp [Mail.start, sentTo])
  · intro _ b _ m _ ts hs
    simp [Mail.start] at hs

/-- The heart of the matter, for any code that serves. -/
private theorem served_core {C : MailCode U} {dst : Nat} {d : Time} (hS : Serves C dst d) (iv : Time) (hiv : 0 < iv) (sh : Bool)
    (evented : List Bool) (u : U) (h : List (MailCmd U)) (hb : evented[dst]? = some true) (hd : 0 ≤ d)
    (hg : GoodLog (mailReach C iv sh evented u h).1.log) (hn : ∀ t, MailEv.failed dst t ∉ (mailReach C iv sh evented u h).2.log)
    (m : Msg) (ts ta x : Time) (hs : MailEv.sent dst m ts ∈ (mailReach C iv sh evented u h).2.log)
    (ha : Ev.added dst ta ∈ (mailReach C iv sh evented u h).1.log) (hx : ts ≤ x) (hx' : ta ≤ x) :
    (∀ e ∈ (mailReach C iv sh evented u h).2.log, doneEv dst e = some m → mailTime e ≤ x + effDelay iv (some d)) ∧
    (x + effDelay iv (some d) < (mailReach C iv sh evented u h).1.time →
      ∃ e ∈ (mailReach C iv sh evented u h).2.log, doneEv dst e = some m ∧ mailTime e ≤ x + effDelay iv (some d)) := by
  obtain ⟨hI, hi, hJ⟩ := srvExec_inv hS (nonneg_eff hiv hd) h _ _ (Inv.init hiv sh) rfl (srv_start C dst iv _ sh evented u hb) hg
  change SrvJ C dst iv _ (mailReach C iv sh evented u h).1 (mailReach C iv sh evented u h).2 at hJ
  change Inv (mailReach C iv sh evented u h).1 at hI
  change (mailReach C iv sh evented u h).1.interval = iv at hi
  have h1 : ∀ e ∈ (mailReach C iv sh evented u h).2.log, doneEv dst e = some m → mailTime e ≤ x + effDelay iv (some d) :=
    fun e he hm => hJ.done hn e he m hm ts hs ta ha x hx hx'
  refine ⟨h1, fun hlt => ?_⟩
  obtain ⟨b, hbx⟩ := Option.isSome_iff_exists.1 hJ.box
  have hmem := mem_sentTo.2 ⟨ts, hs⟩
  rw [hJ.clean hn b hbx] at hmem
  rcases List.mem_append.1 hmem with hmem | hmem
  · obtain ⟨e, he, hm⟩ := mem_doneAt.1 hmem
    exact ⟨e, he, hm, h1 e he hm⟩
  · exfalso
    rcases hJ.wait hn b hbx m hmem ts hs ta ha x hx hx' with ⟨t, ht, hle⟩ | hinf
    · have ht' : (dst, t) ∈ cal (mailReach C iv sh evented u h).1.interval (mailReach C iv sh evented u h).1.log := by rw [hi]; exact ht
      exact absurd (hI.mid.mem_le _ ht') (not_le_of_gt (lt_of_le_of_lt hle hlt))
    · rw [hinf] at hlt
      exact absurd hlt (not_lt_of_ge (Time.le_inf _))

/-- C220: a message sent at `ts` to an agent that waits for messages in a loop, and has been added to the scheduler at `ta`, is dealt with
at the latest one delay (the interval of the scheduler, if it is 0) after both, whatever the others do, unless an exception escapes
from `process_messages` of this agent: never later, and once the clock has passed that time it has been dealt with. -/
theorem C220_served (S : Serving U) (fuel : Nat) (iv : Time) (hiv : 0 < iv) (sh : Bool) (evented : List Bool) (u : SrvU U)
    (h : List (MailCmd (SrvU U))) (hb : evented[S.server]? = some true) (hd : 0 ≤ S.delay)
    (hg : GoodLog (mailReach (S.code fuel) iv sh evented u h).1.log)
    (hn : ∀ t, MailEv.failed S.server t ∉ (mailReach (S.code fuel) iv sh evented u h).2.log)
    (m : Msg) (ts ta x : Time) (hs : MailEv.sent S.server m ts ∈ (mailReach (S.code fuel) iv sh evented u h).2.log)
    (ha : Ev.added S.server ta ∈ (mailReach (S.code fuel) iv sh evented u h).1.log) (hx : ts ≤ x) (hx' : ta ≤ x) :
    (∀ e ∈ (mailReach (S.code fuel) iv sh evented u h).2.log, doneEv S.server e = some m →
      mailTime e ≤ x + effDelay iv (some S.delay)) ∧
    (x + effDelay iv (some S.delay) < (mailReach (S.code fuel) iv sh evented u h).1.time →
      ∃ e ∈ (mailReach (S.code fuel) iv sh evented u h).2.log, doneEv S.server e = some m ∧
        mailTime e ≤ x + effDelay iv (some S.delay)) :=
  served_core (code_serves S fuel) iv hiv sh evented u h hb hd hg hn m ts ta x hs ha hx hx'

/-- C220: with a positive timeout such an agent always comes back to the scheduler, asking for the delay of `received`, and its inbox is
empty then: three checks of the condition of the loop are enough. -/
theorem C220_yields (S : Serving U) (ht : 0 < S.timeout) (fuel : Nat) (s : Sched) (w : Mail (SrvU U)) (hf : w.now ≠ .inf)
    (hn : ∀ t, MailEv.failed S.server t ∉ (((S.code (fuel + 3)).step S.server s w).run S.others.on w).2.2.log) :
    (((S.code (fuel + 3)).step S.server s w).run S.others.on w).1 = .ret (some S.delay) := by
  have e : (S.code (fuel + 3)).step S.server s w = S.check (fuel + 3) w.u.expiration w := if_pos rfl
  rw [e] at hn ⊢
  exact check_awake S ht fuel _ w hf hn

/-- C220: with a timeout that is not positive such an agent never comes back, however often the condition of the loop is checked: already
at its first activation it goes on for ever, without dealing with any message. -/
theorem C220_timeout (S : Serving U) (ht : ¬ 0 < S.timeout) (fuel : Nat) (s : Sched) (w : Mail (SrvU U)) (he : w.u.expiration = none) :
    ((S.code fuel).step S.server s w).run S.others.on w = (.error, [], w) := by
  have e : (S.code fuel).step S.server s w = S.check fuel w.u.expiration w := if_pos rfl
  rw [e, he]
  exact check_endless S ht fuel w

/-- C220, with an agent that asks (C218): the question sent at `t0` to an agent that waits for messages in a loop (in the scheduler since
`ta` at the latest `t0`), and whose `on_receive` returns something true for it unless it raises, is answered and the answer noticed within
the delay of the one and that of the other, if the deadline is later. -/
theorem C220_round_trip (S : Serving U) (fuel : Nat) (A : Asking (SrvU U)) (hA : A.others = S.code fuel) (hT : A.target = S.server)
    (hne : S.server ≠ A.asker) (iv : Time) (hiv : 0 < iv) (sh : Bool) (evented : List Bool) (u : SrvU U) (h : List (MailCmd (SrvU U)))
    (hb : evented[S.server]? = some true) (hd : 0 ≤ S.delay) (hd' : 0 ≤ A.delay)
    (htrue : ∀ w m v, m.ask = true → m.payload = A.payload → (S.others.on w S.server m).2.2 = some v → v.truthy = true)
    (hg : GoodLog (askReach A iv sh evented u h).1.log) (h1 : addCount A.asker (askReach A iv sh evented u h).1.log ≤ 1)
    (hn : ∀ d t, MailEv.failed d t ∉ (askReach A iv sh evented u h).2.log) (t0 ta : Time)
    (ha : Ev.added S.server ta ∈ (askReach A iv sh evented u h).1.log) (hta : ta ≤ t0)
    (hp : (askReach A iv sh evented u h).2.u.polls.head? = some t0)
    (hdl : t0 + effDelay iv (some S.delay) + effDelay iv (some A.delay) < askDeadline none A.timeout t0)
    (hnow : t0 + effDelay iv (some S.delay) + effDelay iv (some A.delay) < (askReach A iv sh evented u h).1.time) :
    ∃ id v t, (askReach A iv sh evented u h).2.u.pc = .got id (askDeadline none A.timeout t0) v ∧ v.truthy = true ∧
      (askReach A iv sh evented u h).2.u.polls.getLast? = some t ∧ t ≤ t0 + effDelay iv (some S.delay) + effDelay iv (some A.delay) := by
  have hb' : evented[A.target]? = some true := by rw [hT]; exact hb
  obtain ⟨hs, hi, hJ⟩ := askReach_inv A iv hiv sh evented u h hb' hg
  have hq0 : 0 ≤ effDelay iv (some A.delay) := nonneg_eff hiv hd'
  -- the question
  have hk := hJ.known
  have hex : ∃ id, ((askReach A iv sh evented u h).2.u.pc = .waiting id (askDeadline none A.timeout t0) ∨
      (∃ v', (askReach A iv sh evented u h).2.u.pc = .got id (askDeadline none A.timeout t0) v') ∨
      (askReach A iv sh evented u h).2.u.pc = .gaveUp id (askDeadline none A.timeout t0)) ∧
      MailEv.sent A.target (A.question id) t0 ∈ (askReach A iv sh evented u h).2.log := by
    unfold AskK at hk
    cases hpc : (askReach A iv sh evented u h).2.u.pc with
    | start =>
      rw [hpc] at hk
      simp only at hk
      rw [hk] at hp
      cases hp
    | waiting id dl =>
      rw [hpc] at hk
      obtain ⟨⟨t1, a1, a2, a3⟩, _⟩ := hk
      rw [hp] at a1
      cases a1
      exact ⟨id, .inl (by rw [a2]), a3⟩
    | got id dl v =>
      rw [hpc] at hk
      obtain ⟨⟨t1, a1, a2, a3⟩, _⟩ := hk
      rw [hp] at a1
      cases a1
      exact ⟨id, .inr (.inl ⟨v, by rw [a2]⟩), a3⟩
    | gaveUp id dl =>
      rw [hpc] at hk
      obtain ⟨⟨t1, a1, a2, a3⟩, _⟩ := hk
      rw [hp] at a1
      cases a1
      exact ⟨id, .inr (.inr (by rw [a2])), a3⟩
  obtain ⟨id, hpc, hsent⟩ := hex
  -- it is dealt with
  have hS : Serves A.code S.server S.delay := asking_serves A (by rw [hA]; exact code_serves S fuel) hne
  have hlt : t0 + effDelay iv (some S.delay) < (askReach A iv sh evented u h).1.time :=
    lt_of_le_of_lt (Time.le_add_of_nonneg hq0) hnow
  obtain ⟨e, he, hm, hle⟩ := (served_core hS iv hiv sh evented ⟨u, .start, []⟩ (h.map MailCmd.lift) hb hd hg (fun t => hn _ t)
    (A.question id) t0 ta t0 (hT ▸ hsent) ha le_rfl hta).2 hlt
  have hH : HandledOk A.code.on (askReach A iv sh evented u h).2.log :=
    mail_induct A.code (fun w => HandledOk A.code.on w.log) (fun w o hw => op_handled _ w o hw) (fun _ _ hw => hw) (h.map MailCmd.lift) _ _
      (by intro d m t r hm; simp [Mail.start] at hm)
  -- it was not expired, and `on_receive` did not raise
  cases e with
  | sent _ _ _ => cases hm
  | failed _ _ => cases hm
  | expired d m t =>
    simp only [doneEv] at hm
    split at hm
    · cases hm
      have := hJ.inv.timely _ he
      simp [Timely, Asking.question, Msg.expired] at this
    · cases hm
  | handled d m t r =>
    simp only [doneEv] at hm
    split at hm
    · rename_i hdd
      cases hm
      subst hdd
      obtain ⟨⟨w', hw'⟩, hnone⟩ := hH _ _ _ _ he
      cases r with
      | none =>
        obtain ⟨t', ht'⟩ := hnone rfl
        exact absurd ht' (hn _ _)
      | some v =>
        have hv : v.truthy = true := by
          refine htrue w'.view (A.question id) v rfl rfl ?_
          have : (liftOn A.others.on w' S.server (A.question id)).2.2 = some v := hw'
          rw [hA] at this
          exact this
        have hle' : t + effDelay iv (some A.delay) ≤ t0 + effDelay iv (some S.delay) + effDelay iv (some A.delay) := time_add_le hle _
        have he' : MailEv.handled A.target ⟨id, A.payload, some A.target, none, true⟩ t (some v) ∈ (askReach A iv sh evented u h).2.log := by
          have h2 := he
          rw [← hT] at h2
          exact h2
        have hgot := C218_answered_partial A iv hiv sh evented u h hb' hg hd' h1 hn id _ t v hpc he' hv (lt_of_le_of_lt hle' hdl)
          (lt_of_le_of_lt hle' hnow)
        obtain ⟨_, t2, tl, _, g2, _, g4, _, _, g7, _⟩ := C218_noticed A iv hiv sh evented u h hb' hg h1 id _ v hgot
        refine ⟨id, v, tl, hgot, hv, g4, le_trans g7 (le_trans (time_add_le ?_ _) le_rfl)⟩
        exact (served_core hS iv hiv sh evented ⟨u, .start, []⟩ (h.map MailCmd.lift) hb hd hg (fun t => hn _ t)
          (A.question id) t0 ta t0 (hT ▸ hsent) ha le_rfl hta).1 _ g2 (by simp [doneEv, Asking.question, hT])
    · cases hm

/-! ### Examples -/

/-- Agent 1 waits for messages, agent 0 tells it one every two time units. -/
def exServing (timeout delay : Time) : Serving Nat where
  others :=
    { on := fun w _ m => ({ w.u with u := w.u.u + m.payload }, [], some ⟨7, true⟩)
      step := fun r _ w => if r = 0 then .op (.send (.tell 1 (w.u.u + 1) none)) (fun _ _ => .done (.ret (some 2)) []) else .done .dead []
      shuffle := fun l _ => l
      shuffle_perm := fun _ _ => List.Perm.refl _ }
  server := 1
  timeout := timeout
  delay := delay

/-- Adding agents 0 and 1, and some steps. -/
def exServeHist (first : Bool) (n : Nat) : List (MailCmd (SrvU Nat)) :=
  .code (.done (.ret none) (if first then [.add 1 none, .add 0 none] else [.add 0 none, .add 1 none])) :: List.replicate n .step

/-- The messages sent at 0, 2, 4 and 6 are dealt with at 3 (two of them) and at 6 (one): agent 1 is activated at 0, 3 and 6, before agent 0.
At 3 and 6 the timeout of 2 has passed, and it calls `received` again. -/
example : let sw := mailReach ((exServing 2 3).code 3) 1 false [false, true] ⟨0, none⟩ (exServeHist true 5)
    sw.1.time = 8 ∧ GoodLog sw.1.log ∧ sw.2.u.u = 5 ∧
    sw.2.log = [.sent 1 ⟨0, 1, none, none, false⟩ 0, .sent 1 ⟨1, 1, none, none, false⟩ 2, .handled 1 ⟨0, 1, none, none, false⟩ 3 (some ⟨7, true⟩),
      .handled 1 ⟨1, 1, none, none, false⟩ 3 (some ⟨7, true⟩), .sent 1 ⟨2, 3, none, none, false⟩ 4,
      .handled 1 ⟨2, 3, none, none, false⟩ 6 (some ⟨7, true⟩), .sent 1 ⟨3, 6, none, none, false⟩ 6] := by decide +kernel

/-- With a timeout of 0 the first activation does not end (here: is given up after 1000 checks). -/
example : let sw := mailReach ((exServing 0 3).code 1000) 1 false [false, true] ⟨0, none⟩ (exServeHist true 1)
    sw.1.log.getLast? = some (.act 1 0 .error) ∧ sw.2.log = [] := by decide +kernel

/-- Agent 0 asks agent 1, which waits for messages. -/
def exRoundTrip : Asking (SrvU Nat) where
  others := (exServing 60 3).code 3
  asker := 0
  target := 1
  payload := 5
  timeout := some 6
  delay := 2
  answered := fun v _ => .op (.other (fun x => { x with u := v.v })) (fun _ _ => .done (.ret none) [])
  timedOut := fun _ => .done .dead []

/-- The question of time 0 is answered at 3, and the answer noticed at 4, before 0 + 3 + 2. -/
example : let sw := askReach exRoundTrip 1 false [false, true] ⟨0, none⟩ (exServeHist true 5)
    GoodLog sw.1.log ∧ sw.2.u.polls = [0, 2, 4] ∧ sw.2.u.pc = .got 0 6 ⟨7, true⟩ ∧ sw.1.time = 6 := by decide +kernel

end Verif
