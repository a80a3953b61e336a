import Verif.Model.Serving
import Verif.Proofs.Asking

/-!
# An agent that deals with its messages at every activation
-/

namespace Verif
open Spec

variable {U : Type}

namespace Spec

/-- No exception has escaped from `process_messages` of `dst`. -/
def NoFailureAt (dst : Nat) (l : List MailEv) : Prop := ∀ t, MailEv.failed dst t ∉ l

/-- Agent `dst` deals at every activation with everything that is in its inbox, unless an exception escapes from `process_messages`, and asks for the delay `d`. -/
def Serves (C : MailCode U) (dst : Nat) (d : Time) : Prop :=
  ∀ (s : Sched) (w : Mail U), w.now = s.time → ((C.step dst s w).run C.on w).1 ≠ .error →
    ((C.step dst s w).run C.on w).1 = .ret (some d) ∧
    (NoFailureAt dst ((C.step dst s w).run C.on w).2.2.log → ∀ b, w.inbox dst = some b → ∀ m ∈ b, m ∈ doneAt dst ((C.step dst s w).run C.on w).2.2.log)

end Spec

/-! ### Inboxes stay -/

theorem time_add_le {a b : Time} (h : a ≤ b) (d : Time) : a + d ≤ b + d := by
  cases a <;> cases b <;> cases d <;> simp_all

theorem time_inf_of_le {a b d : Time} (h : a ≤ b) (hi : a + d = .inf) : b + d = .inf := by
  cases a <;> cases b <;> cases d <;> simp_all

theorem time_add_nonpos {n x : Time} (h : x ≤ 0) : n + x ≤ n := by
  cases n <;> cases x <;> simp_all

theorem procMail_box (on : OnReceive U) (dst size : Nat) (ms : List Msg) (w : Mail U) (d : Nat) (h : (w.inbox d).isSome = true) :
    ((procMail on dst size ms w).1.inbox d).isSome = true := by
  induction ms generalizing w with
  | nil => exact h
  | cons m ms ih =>
    have hh : ((w.handle on dst m).inbox d).isSome = true := by
      obtain ⟨l, h1, _⟩ := handle_boxes on w dst m d
      rw [h1]
      simpa using h
    unfold procMail
    split
    · exact ih _ h
    · split
      · exact hh
      · rename_i v _
        have hr : (((w.handle on dst m).reply m v).inbox d).isSome = true := by
          rw [inbox_congr (reply_fields (w.handle on dst m) m v).1]
          exact hh
        simp only
        split
        · exact ih _ hr
        · exact hr

theorem op_box (on : OnReceive U) (w : Mail U) (o : MailOp U) (d : Nat) (h : (w.inbox d).isSome = true) :
    ((o.exec on w).1.inbox d).isSome = true := by
  cases o with
  | send s => exact send_induct (fun w => (w.inbox d).isSome = true) (fun w dst mk _ h => deliver_box w dst mk d h) s w h
  | process dst =>
    simp only [MailOp.exec, Mail.process]
    cases hb : w.inbox dst with
    | none => exact h
    | some b =>
      simp only
      have h1 := procMail_box on dst b.length b w d h
      have h2 := procMail_box on dst b.length b w dst (by rw [hb]; rfl)
      generalize procMail on dst b.length b w = r at h1 h2
      split
      · obtain ⟨x, hx⟩ := Option.isSome_iff_exists.1 h2
        rw [inbox_set (w := r.1) (w' := { r.1 with inboxes := r.1.inboxes.set dst (some []) }) (inbox_lt hx) rfl]
        split
        · rfl
        · exact h1
      · exact h1
  | other f => exact h

/-! ### Failures of others do not matter -/

theorem procMail_clean_other (on : OnReceive U) (dst size : Nat) (ms : List Msg) (w : Mail U) (d : Nat) (hd : d ≠ dst) (h : CleanAt d w) :
    CleanAt d (procMail on dst size ms w).1 := by
  induction ms generalizing w with
  | nil => exact h
  | cons m ms ih =>
    have hd' : ¬ dst = d := fun e => hd e.symm
    have hh : CleanAt d (w.handle on dst m) := by
      intro b' hb'
      obtain ⟨l', g1, g2, g3⟩ := handle_boxes on w dst m d
      rw [hb'] at g1
      cases hw : w.inbox d with
      | none => rw [hw] at g1; cases g1
      | some b0 =>
        rw [hw] at g1
        simp only [Option.map_some, Option.some.injEq] at g1
        rw [g2, g3, if_neg hd', h b0 hw, g1, List.append_nil, List.append_assoc]
    unfold procMail
    split
    · refine ih _ ?_
      intro b' hb'
      simp only [sentTo, doneAt, List.filterMap_append, List.filterMap_cons, List.filterMap_nil, sentEv, doneEv, if_neg hd', List.append_nil]
      exact h b' hb'
    · split
      · exact hh
      · rename_i v _
        have hr : CleanAt d ((w.handle on dst m).reply m v) := by
          intro b' hb'
          obtain ⟨r1, _, r3, _⟩ := reply_fields (w.handle on dst m) m v
          rw [inbox_congr r1] at hb'
          rw [r3]
          exact hh b' hb'
        simp only
        split
        · exact ih _ hr
        · exact hr

theorem procMail_clean_at (on : OnReceive U) (dst : Nat) (b : List Msg) (ms : List Msg) (w : Mail U)
    (hb : w.inbox dst = some b) (hs : sentTo dst w.log = doneAt dst w.log ++ ms)
    (hok : (procMail on dst b.length ms w).2 = true) :
    (procMail on dst b.length ms w).1.inbox dst = some b ∧
      sentTo dst (procMail on dst b.length ms w).1.log = doneAt dst (procMail on dst b.length ms w).1.log := by
  induction ms generalizing w with
  | nil => exact ⟨hb, by rw [List.append_nil] at hs; exact hs⟩
  | cons m ms ih =>
    unfold procMail at hok ⊢
    by_cases hex : m.expired w.now = true
    · rw [if_pos hex] at hok ⊢
      refine ih _ hb ?_ hok
      simp only [sentTo, doneAt] at hs ⊢
      simp [List.filterMap_append, sentEv, doneEv, hs]
    · rw [if_neg hex] at hok ⊢
      cases hr : (on w dst m).2.2 with
      | none => rw [hr] at hok; cases hok
      | some v =>
        rw [hr] at hok
        simp only at hok ⊢
        obtain ⟨r1, r2, r3, r4⟩ := reply_fields (w.handle on dst m) m v
        obtain ⟨l, h1, h2, h3⟩ := handle_boxes on w dst m dst
        rw [hb] at h1
        have hin : ((w.handle on dst m).reply m v).inbox dst = some (b ++ l) := by
          rw [inbox_congr r1, h1]
          rfl
        split at hok
        · rename_i hlen
          have hlen0 := hlen
          rw [hin] at hlen
          simp only [Option.getD_some, List.length_append] at hlen
          have hl : l = [] := List.eq_nil_of_length_eq_zero (by omega)
          rw [if_pos hlen0]
          rw [hl, List.append_nil] at hin
          refine ih _ hin ?_ hok
          rw [r3, h2, h3, hl, hs, if_pos rfl]
          simp
        · cases hok

theorem op_clean_at (on : OnReceive U) (w : Mail U) (dst : Nat) (h : NoFailureAt dst w.log → CleanAt dst w) (o : MailOp U)
    (hn : NoFailureAt dst (o.exec on w).1.log) : CleanAt dst (o.exec on w).1 := by
  obtain ⟨_, evs, hl, _⟩ := MailOp.logged on w o
  have hw : CleanAt dst w := h (fun t hm => hn t (by rw [hl]; exact List.mem_append_left _ hm))
  cases o with
  | send s => exact hw.grown (send_induct (Grown w) (fun _ dst mk _ h => h.deliver dst mk) s w (Grown.refl w))
  | process d =>
    simp only [MailOp.exec] at hn ⊢
    unfold Mail.process at hn ⊢
    cases hb : w.inbox d with
    | none => exact hw
    | some b =>
      rw [hb] at hn
      simp only at hn ⊢
      have hbox := procMail_box on d b.length b w d (by rw [hb]; rfl)
      by_cases hd : dst = d
      · subst hd
        by_cases hr : (procMail on dst b.length b w).2 = true
        · rw [if_pos hr]
          obtain ⟨h2, h3⟩ := procMail_clean_at on dst b b w hb (hw b hb) hr
          intro b' hb'
          rw [inbox_set (w := (procMail on dst b.length b w).1) (w' := { (procMail on dst b.length b w).1 with
            inboxes := (procMail on dst b.length b w).1.inboxes.set dst (some []) }) (inbox_lt h2) rfl, if_pos rfl] at hb'
          cases hb'
          rw [List.append_nil]
          exact h3
        · rw [if_neg hr] at hn
          exact absurd (List.mem_append_right _ (List.mem_singleton.2 rfl)) (hn _)
      · have hc := procMail_clean_other on d b.length b w dst hd hw
        generalize procMail on d b.length b w = r at hc hbox
        obtain ⟨x, hx⟩ := Option.isSome_iff_exists.1 hbox
        split
        · intro b' hb'
          rw [inbox_set (w := r.1) (w' := { r.1 with inboxes := r.1.inboxes.set d (some []) }) (inbox_lt hx) rfl, if_neg hd] at hb'
          exact hc b' hb'
        · intro b' hb'
          simp only [sentTo, doneAt, List.filterMap_append, List.filterMap_cons, List.filterMap_nil, sentEv, doneEv, List.append_nil]
          exact hc b' hb'
  | other f => exact hw

/-! ### The invariant -/

/-- What is known while agent `dst` serves with the delay `d` (in effect). -/
structure SrvJ (C : MailCode U) (dst : Nat) (iv d : Time) (s : Sched) (w : Mail U) : Prop where
  inv : MailInv w
  clean : NoFailureAt dst w.log → CleanAt dst w
  time : InTime s w
  box : (w.inbox dst).isSome = true
  /-- it will be activated soon -/
  near : ∀ ta, Ev.added dst ta ∈ s.log → (∃ u, (dst, u) ∈ cal iv s.log ∧ u ≤ s.time + d) ∨ s.time + d = .inf
  /-- what is in the inbox will be dealt with in time -/
  wait : NoFailureAt dst w.log → ∀ b, w.inbox dst = some b → ∀ m ∈ b, ∀ ts, MailEv.sent dst m ts ∈ w.log → ∀ ta, Ev.added dst ta ∈ s.log →
    ∀ x, ts ≤ x → ta ≤ x → (∃ u, (dst, u) ∈ cal iv s.log ∧ u ≤ x + d) ∨ x + d = .inf
  /-- what was dealt with was dealt with in time -/
  done : NoFailureAt dst w.log → ∀ e ∈ w.log, ∀ m, doneEv dst e = some m → ∀ ts, MailEv.sent dst m ts ∈ w.log → ∀ ta, Ev.added dst ta ∈ s.log →
    ∀ x, ts ≤ x → ta ≤ x → mailTime e ≤ x + d

theorem mem_doneAt {dst : Nat} {l : List MailEv} {m : Msg} : m ∈ doneAt dst l ↔ ∃ e ∈ l, doneEv dst e = some m := List.mem_filterMap

theorem mem_sentTo {dst : Nat} {l : List MailEv} {m : Msg} : m ∈ sentTo dst l ↔ ∃ t, MailEv.sent dst m t ∈ l := by
  constructor
  · intro h
    obtain ⟨e, he, hm⟩ := List.mem_filterMap.1 h
    cases e with
    | sent d m' t =>
      simp only [sentEv] at hm
      split at hm
      · rename_i hd
        cases hm
        subst hd
        exact ⟨t, he⟩
      · cases hm
    | handled _ _ _ _ => cases hm
    | expired _ _ _ => cases hm
    | failed _ _ => cases hm
  · rintro ⟨t, ht⟩
    exact List.mem_filterMap.2 ⟨_, ht, by simp [sentEv]⟩

/-- Nothing is both dealt with and in the inbox. -/
theorem done_not_in {w : Mail U} {dst : Nat} (hI : MailInv w) (hc : CleanAt dst w) {b : List Msg} (hb : w.inbox dst = some b) {m : Msg}
    (hm : m ∈ b) : m ∉ doneAt dst w.log := by
  intro hd
  have hnd := sentTo_nodup hI.ids.1 dst
  rw [hc b hb, List.nodup_append] at hnd
  exact hnd.2.2 m hd m hm rfl

/-- Nothing is dealt with twice. -/
theorem done_once {w : Mail U} {dst : Nat} (hI : MailInv w) (hc : CleanAt dst w) {b : List Msg} (hb : w.inbox dst = some b)
    {pre post : List MailEv} (hl : w.log = pre ++ post) {m : Msg} (h1 : m ∈ doneAt dst pre) (h2 : m ∈ doneAt dst post) : False := by
  have hnd := sentTo_nodup hI.ids.1 dst
  rw [hc b hb, List.nodup_append] at hnd
  have h3 := hnd.1
  rw [hl] at h3
  unfold doneAt at h3
  rw [List.filterMap_append, List.nodup_append] at h3
  exact h3.2.2 m h1 m h2 rfl

theorem mem_cal_ops {iv : Time} (s : Sched) (os : List SOp) {p : Ref × Time} (h : p ∈ cal iv s.log) : p ∈ cal iv (s.applyOps os).log := by
  induction os generalizing s with
  | nil => exact h
  | cons o os ih =>
    refine ih (s.applyOp o) ?_
    cases o with
    | add r wh =>
      show p ∈ cal iv (s.log ++ [.added r s.time])
      rw [cal_append_one]
      exact List.mem_append_left _ h
    | remove r => exact h
    | stop => exact h

/-- What is added is due at once. -/
theorem mem_cal_added {iv : Time} (s : Sched) (os : List SOp) {r : Ref} {ta : Time} (h : Ev.added r ta ∈ (s.applyOps os).log) :
    Ev.added r ta ∈ s.log ∨ (ta = s.time ∧ (r, s.time) ∈ cal iv (s.applyOps os).log) := by
  induction os generalizing s with
  | nil => exact Or.inl h
  | cons o os ih =>
    rcases ih (s.applyOp o) h with h1 | ⟨h1, h2⟩
    · cases o with
      | add q wh =>
        rcases List.mem_append.1 (show Ev.added r ta ∈ s.log ++ [.added q s.time] from h1) with h1 | h1
        · exact Or.inl h1
        · cases List.mem_singleton.1 h1
          refine Or.inr ⟨rfl, mem_cal_ops (s.applyOp (.add r wh)) os ?_⟩
          show (r, s.time) ∈ cal iv (s.log ++ [.added r s.time])
          rw [cal_append_one]
          exact List.mem_append_right _ (by simp)
      | remove q => exact Or.inl h1
      | stop => exact Or.inl h1
    · refine Or.inr ?_
      cases o with
      | add q wh => exact ⟨h1, h2⟩
      | remove q => exact ⟨h1, h2⟩
      | stop => exact ⟨h1, h2⟩

theorem mem_cal_act {iv : Time} (s : Sched) (r : Ref) (t : Time) (rep : Reply) {q : Ref} {u : Time} (hq : q ≠ r) (h : (q, u) ∈ cal iv s.log) :
    (q, u) ∈ cal iv (s.logAct r t rep).log := by
  show (q, u) ∈ cal iv (s.log ++ [.act r t rep])
  rw [cal_append_one]
  refine List.mem_append_left _ ?_
  exact (List.mem_erase_of_ne (fun e => hq (congrArg Prod.fst e))).2 h

theorem mem_cal_next {iv : Time} (s : Sched) (r : Ref) (t d : Time) (h : t + effDelay iv (some d) ≠ .inf) :
    (r, t + effDelay iv (some d)) ∈ cal iv (s.logAct r t (.ret (some d))).log := by
  show _ ∈ cal iv (s.log ++ [.act r t (.ret (some d))])
  rw [cal_append_one]
  refine List.mem_append_right _ ?_
  simp only [nextWake]
  rw [if_neg h]
  simp

/-- Code that runs at the current time keeps the invariant, if the scheduler goes on as it should. -/
theorem SrvJ.run {C : MailCode U} {dst : Nat} {iv d : Time} (hd : 0 ≤ d) {s s' : Sched} {w : Mail U} (h : SrvJ C dst iv d s w) (p : MailProg U)
    (ht : s'.time = s.time)
    (hadd : ∀ ta, Ev.added dst ta ∈ s'.log → Ev.added dst ta ∈ s.log ∨ ta = s.time)
    (hcal : ∀ u, (dst, u) ∈ cal iv s.log → s.time ≤ u)
    (hnear : ∀ ta, Ev.added dst ta ∈ s'.log → (∃ u, (dst, u) ∈ cal iv s'.log ∧ u ≤ s'.time + d) ∨ s'.time + d = .inf)
    (hkeep : (∀ u, (dst, u) ∈ cal iv s.log → (dst, u) ∈ cal iv s'.log) ∨
      (NoFailureAt dst (p.run C.on { w with now := s.time }).2.2.log → ∀ b, w.inbox dst = some b → ∀ m ∈ b,
        m ∈ doneAt dst (p.run C.on { w with now := s.time }).2.2.log)) :
    SrvJ C dst iv d s' (p.run C.on { w with now := s.time }).2.2 := by
  have hI := prog_induct C.on MailInv (fun _ o hw => hw.op _ o) p _ (h.inv.congr (w' := { w with now := s.time }) rfl rfl rfl)
  have hC := prog_induct C.on (fun w => NoFailureAt dst w.log → CleanAt dst w) (fun w o hw hn => op_clean_at C.on w dst hw o hn) p
    { w with now := s.time } h.clean
  have hl := prog_logged C.on p { w with now := s.time }
  have hB := prog_induct C.on (fun w => (w.inbox dst).isSome = true) (fun w o hw => op_box C.on w o dst hw) p { w with now := s.time } h.box
  have hT := inTime_logged h.time hl ht
  generalize (p.run C.on { w with now := s.time }).2.2 = w' at hI hC hl hB hT hkeep
  obtain ⟨_, evs, hlog, hev⟩ := hl
  simp only at hlog hev
  obtain ⟨b', hb'⟩ := Option.isSome_iff_exists.1 hB
  obtain ⟨b0, hb0⟩ := Option.isSome_iff_exists.1 h.box
  have hn0 : NoFailureAt dst w'.log → NoFailureAt dst w.log := fun hn t hm => hn t (by rw [hlog]; exact List.mem_append_left _ hm)
  have hxd : ∀ x : Time, x ≤ x + d := fun x => Time.le_add_of_nonneg hd
  have hold : NoFailureAt dst w'.log → ∀ m ts, MailEv.sent dst m ts ∈ w'.log → ts = s.time ∨ (MailEv.sent dst m ts ∈ w.log ∧ (m ∈ doneAt dst w.log ∨ m ∈ b0)) := by
    intro hn m ts hs
    rw [hlog] at hs
    rcases List.mem_append.1 hs with hs | hs
    · right
      refine ⟨hs, ?_⟩
      have := mem_sentTo.2 ⟨ts, hs⟩
      rw [h.clean (hn0 hn) b0 hb0] at this
      exact List.mem_append.1 this
    · left
      exact hev _ hs
  refine ⟨hI, hC, hT, hB, hnear, ?_, ?_⟩
  · intro hn b hb m hm ts hs ta ha x hx1 hx2
    have hnotdone : m ∉ doneAt dst w'.log := done_not_in hI (hC hn) hb hm
    rcases hold hn m ts hs with rfl | ⟨hs0, hm0 | hm0⟩
    · rcases hnear ta ha with ⟨u, hu, hle⟩ | hinf
      · left
        refine ⟨u, hu, le_trans hle ?_⟩
        rw [ht]
        exact time_add_le hx1 d
      · right
        rw [ht] at hinf
        exact time_inf_of_le hx1 hinf
    · exact absurd (by rw [hlog]; unfold doneAt; rw [List.filterMap_append]; exact List.mem_append_left _ hm0) hnotdone
    · rcases hkeep with hk | hk
      · rcases hadd ta ha with ha0 | rfl
        · rcases h.wait (hn0 hn) b0 hb0 m hm0 ts hs0 ta ha0 x hx1 hx2 with ⟨u, hu, hle⟩ | hinf
          · exact Or.inl ⟨u, hk u hu, hle⟩
          · exact Or.inr hinf
        · rcases hnear _ ha with ⟨u, hu, hle⟩ | hinf
          · left
            refine ⟨u, hu, le_trans hle ?_⟩
            rw [ht]
            exact time_add_le hx2 d
          · right
            rw [ht] at hinf
            exact time_inf_of_le hx2 hinf
      · exact absurd (hk hn b0 hb0 m hm0) hnotdone
  · intro hn e he m hm ts hs ta ha x hx1 hx2
    have he' := he
    rw [hlog] at he'
    rcases List.mem_append.1 he' with he0 | he1
    · -- dealt with before
      have hdone : m ∈ doneAt dst w.log := mem_doneAt.2 ⟨e, he0, hm⟩
      rcases hadd ta ha with ha0 | rfl
      · rcases hold hn m ts hs with rfl | ⟨hs0, _⟩
        · exact le_trans (h.time.1 e he0) (le_trans hx1 (hxd x))
        · exact h.done (hn0 hn) e he0 m hm ts hs0 ta ha0 x hx1 hx2
      · exact le_trans (h.time.1 e he0) (le_trans hx2 (hxd x))
    · rw [hev e he1]
      rcases hold hn m ts hs with rfl | ⟨hs0, hm0 | hm0⟩
      · exact le_trans hx1 (hxd x)
      · exact (done_once hI (hC hn) hb' hlog hm0 (mem_doneAt.2 ⟨e, he1, hm⟩)).elim
      · rcases hadd ta ha with ha0 | rfl
        · rcases h.wait (hn0 hn) b0 hb0 m hm0 ts hs0 ta ha0 x hx1 hx2 with ⟨u, hu, hle⟩ | hinf
          · exact le_trans (hcal u hu) hle
          · rw [hinf]; exact Time.le_inf _
        · exact le_trans hx2 (hxd x)

theorem keepsSrvJ {C : MailCode U} {dst : Nat} {d : Time} (hS : Serves C dst d) {iv : Time} (hd : 0 ≤ effDelay iv (some d)) :
    KeepsInv C.host iv (SrvJ C dst iv (effDelay iv (some d))) where
  act r s w _ h _ hcal _ hgood := by
    have e : C.host.step r s w = (C.step r s { w with now := s.time }).run C.on { w with now := s.time } := rfl
    have hlogadd : ∀ ops rep ta, Ev.added dst ta ∈ ((s.applyOps ops).logAct r s.time rep).log → Ev.added dst ta ∈ (s.applyOps ops).log := by
      intro ops rep ta hm
      rcases List.mem_append.1 (show Ev.added dst ta ∈ (s.applyOps ops).log ++ [.act r s.time rep] from hm) with hm | hm
      · exact hm
      · cases List.mem_singleton.1 hm
    have ht : ∀ ops rep, ((s.applyOps ops).logAct r s.time rep).time = s.time := by
      intro ops rep
      simp [Sched.logAct, applyOps_time]
    have hadd : ∀ ops rep ta, Ev.added dst ta ∈ ((s.applyOps ops).logAct r s.time rep).log → Ev.added dst ta ∈ s.log ∨ ta = s.time := by
      intro ops rep ta hm
      rcases mem_cal_added (iv := iv) s ops (hlogadd _ _ _ hm) with h1 | h1
      · exact .inl h1
      · exact .inr h1.1
    by_cases hr : r = dst
    · subst hr
      have hne : (C.host.step r s w).1 ≠ .error := fun he => by rw [he] at hgood; exact hgood
      rw [e] at hne ⊢
      obtain ⟨h1, h2⟩ := hS s { w with now := s.time } rfl hne
      refine h.run hd (C.step r s { w with now := s.time }) (ht _ _) (hadd _ _) (fun u hu => hcal _ hu) ?_ (.inr h2)
      intro ta hta
      rw [ht, h1]
      by_cases hinf : s.time + effDelay iv (some d) = .inf
      · exact .inr hinf
      · exact .inl ⟨_, mem_cal_next _ r s.time d hinf, le_rfl⟩
    · rw [e]
      have hk : ∀ ops rep u, (dst, u) ∈ cal iv (s.applyOps ops).log → (dst, u) ∈ cal iv ((s.applyOps ops).logAct r s.time rep).log :=
        fun ops rep u hu => mem_cal_act _ r s.time rep (fun x => hr x.symm) hu
      refine h.run hd (C.step r s { w with now := s.time }) (ht _ _) (hadd _ _) (fun u hu => hcal _ hu) ?_
        (.inl (fun u hu => hk _ _ _ (mem_cal_ops s _ hu)))
      intro ta hta
      rw [ht]
      rcases mem_cal_added (iv := iv) s _ (hlogadd _ _ _ hta) with h1 | ⟨_, h1⟩
      · rcases h.near ta h1 with ⟨u, hu, hle⟩ | hinf
        · exact .inl ⟨u, hk _ _ _ (mem_cal_ops s _ hu), hle⟩
        · exact .inr hinf
      · exact .inl ⟨s.time, hk _ _ _ h1, Time.le_add_of_nonneg hd⟩
  same s s' w h hl _ ht := by
    refine ⟨h.inv, h.clean, ⟨fun e he => le_trans (h.time.1 e he) ht, h.time.2⟩, h.box, ?_, ?_, ?_⟩
    · rw [hl]
      intro ta hta
      rcases h.near ta hta with ⟨u, hu, hle⟩ | hinf
      · exact .inl ⟨u, hu, le_trans hle (time_add_le ht _)⟩
      · exact .inr (time_inf_of_le ht hinf)
    · rw [hl]; exact h.wait
    · rw [hl]; exact h.done
  shuffle s l w h := h

theorem srvExec_inv {C : MailCode U} {dst : Nat} {d : Time} (hS : Serves C dst d) {iv : Time} (hd : 0 ≤ effDelay iv (some d))
    (h : List (MailCmd U)) (s : Sched) (w : Mail U) (hs : Inv s) (hi : s.interval = iv) (hw : SrvJ C dst iv (effDelay iv (some d)) s w)
    (hg : GoodLog (mailExec C h (s, w)).1.log) :
    Inv (mailExec C h (s, w)).1 ∧ (mailExec C h (s, w)).1.interval = iv ∧
    SrvJ C dst iv (effDelay iv (some d)) (mailExec C h (s, w)).1 (mailExec C h (s, w)).2 := by
  induction h generalizing s w with
  | nil => exact ⟨hs, hi, hw⟩
  | cons c h ih =>
    have e : mailExec C (c :: h) (s, w) = mailExec C h (c.exec C (s, w)) := rfl
    rw [e] at hg ⊢
    obtain ⟨l, hl⟩ := mailExec_log C h (c.exec C (s, w))
    have hg1 : GoodLog (c.exec C (s, w)).1.log := by
      rw [hl] at hg
      exact hg.prefix
    cases c with
    | step =>
      have hg2 : GoodLog (s.step C.host w).1.log := hg1
      exact ih _ _ (hs.step C.host w hg2).1 ((execAll_interval C.host [.step] (s, w)).trans hi)
        ((keepsSrvJ hS hd).step hs hi hw hg2) hg
    | code p =>
      refine ih _ _ (applyOps_inv hs _) (by rw [applyOps_interval]; exact hi) ?_ hg
      refine hw.run hd p (applyOps_time _ _) ?_ ?_ ?_ (.inl (fun u hu => mem_cal_ops s _ hu))
      · intro ta hm
        rcases mem_cal_added (iv := iv) s _ hm with h1 | h1
        · exact .inl h1
        · exact .inr h1.1
      · intro u hu
        exact hs.mid.mem_le _ (hi ▸ hu)
      · intro ta hm
        rw [applyOps_time]
        rcases mem_cal_added (iv := iv) s _ hm with h1 | ⟨_, h1⟩
        · rcases hw.near ta h1 with ⟨u, hu, hle⟩ | hinf
          · exact .inl ⟨u, mem_cal_ops s _ hu, hle⟩
          · exact .inr hinf
        · exact .inl ⟨s.time, h1, Time.le_add_of_nonneg hd⟩

/-! ### `received` in a loop -/

theorem procMail_done (on : OnReceive U) (dst size : Nat) (ms : List Msg) (w : Mail U) (hok : (procMail on dst size ms w).2 = true) (m : Msg)
    (hm : m ∈ ms) : m ∈ doneAt dst (procMail on dst size ms w).1.log := by
  induction ms generalizing w with
  | nil => cases hm
  | cons x ms ih =>
    have keep : ∀ w1 : Mail U, m ∈ doneAt dst w1.log → m ∈ doneAt dst (procMail on dst size ms w1).1.log := by
      intro w1 h1
      obtain ⟨_, evs, hl, _⟩ := procMail_logged on dst size ms w1
      rw [hl]
      unfold doneAt
      rw [List.filterMap_append]
      exact List.mem_append_left _ h1
    unfold procMail at hok ⊢
    by_cases hex : x.expired w.now = true
    · rw [if_pos hex] at hok ⊢
      rcases List.mem_cons.1 hm with rfl | hm
      · exact keep _ (mem_doneAt.2 ⟨.expired dst m w.now, by simp, by simp [doneEv]⟩)
      · exact ih _ hok hm
    · rw [if_neg hex] at hok ⊢
      cases hr : (on w dst x).2.2 with
      | none => rw [hr] at hok; cases hok
      | some v =>
        rw [hr] at hok
        simp only at hok ⊢
        split at hok
        · rename_i hlen
          rw [if_pos hlen]
          rcases List.mem_cons.1 hm with rfl | hm
          · refine keep _ ?_
            rw [(reply_fields (w.handle on dst m) m v).2.2.1]
            obtain ⟨_, _, _, h3⟩ := handle_boxes on w dst m dst
            rw [h3, if_pos rfl]
            exact List.mem_append_right _ (by simp)
          · exact ih _ hok hm
        · cases hok

theorem process_done (on : OnReceive U) (dst : Nat) (w : Mail U) (hok : (w.process on dst).2 = true) (b : List Msg) (hb : w.inbox dst = some b) :
    (∀ m ∈ b, m ∈ doneAt dst (w.process on dst).1.log) ∧ (w.process on dst).1.inbox dst = some [] ∧ (w.process on dst).1.now = w.now := by
  have hlog := MailOp.logged on w (.process dst)
  simp only [MailOp.exec] at hlog
  refine ⟨?_, ?_, hlog.1⟩
  · unfold Mail.process at hok ⊢
    rw [hb] at hok ⊢
    simp only at hok ⊢
    by_cases hr : (procMail on dst b.length b w).2 = true
    · rw [if_pos hr]
      exact fun m hm => procMail_done on dst b.length b w hr m hm
    · rw [if_neg hr] at hok
      cases hok
  · unfold Mail.process at hok ⊢
    rw [hb] at hok ⊢
    simp only at hok ⊢
    by_cases hr : (procMail on dst b.length b w).2 = true
    · rw [if_pos hr]
      obtain ⟨x, hx⟩ := Option.isSome_iff_exists.1 (procMail_box on dst b.length b w dst (by rw [hb]; rfl))
      rw [inbox_set (w := (procMail on dst b.length b w).1) (w' := { (procMail on dst b.length b w).1 with
        inboxes := (procMail on dst b.length b w).1.inboxes.set dst (some []) }) (inbox_lt hx) rfl, if_pos rfl]
    · rw [if_neg hr] at hok
      cases hok

theorem process_failed (on : OnReceive U) (dst : Nat) (w : Mail U) (hok : (w.process on dst).2 = false) (b : List Msg) (hb : w.inbox dst = some b) :
    ¬ NoFailureAt dst (w.process on dst).1.log := by
  unfold Mail.process at hok ⊢
  rw [hb] at hok ⊢
  simp only at hok ⊢
  by_cases hr : (procMail on dst b.length b w).2 = true
  · rw [if_pos hr] at hok
    cases hok
  · rw [if_neg hr]
    exact fun hn => hn _ (List.mem_append_right _ (List.mem_singleton.2 rfl))

theorem doneAt_prog (on : OnReceive U) (p : MailProg U) (w : Mail U) (dst : Nat) (m : Msg) (h : m ∈ doneAt dst w.log) :
    m ∈ doneAt dst (p.run on w).2.2.log := by
  obtain ⟨_, evs, hl, _⟩ := prog_logged on p w
  rw [hl]
  unfold doneAt
  rw [List.filterMap_append]
  exact List.mem_append_left _ h

theorem check_serves (S : Serving U) (fuel : Nat) (e : Option Time) (w : Mail (SrvU U))
    (hne : ((S.check fuel e w).run S.others.on w).1 ≠ .error) :
    ((S.check fuel e w).run S.others.on w).1 = .ret (some S.delay) ∧ ∀ b, w.inbox S.server = some b → ∀ m ∈ b,
      m ∈ doneAt S.server ((S.check fuel e w).run S.others.on w).2.2.log := by
  induction fuel generalizing e w with
  | zero => exact absurd rfl hne
  | succ fuel ih =>
    unfold Serving.check at hne ⊢
    by_cases hlt : w.now < e.getD (receivedDeadline none S.timeout w.now)
    · rw [if_pos hlt] at hne ⊢
      cases hb : w.inbox S.server with
      | none => exact ⟨rfl, fun b hb' => by cases hb'⟩
      | some b =>
        cases b with
        | nil => exact ⟨rfl, fun b hb' m hm => by cases hb'; cases hm⟩
        | cons m0 ms =>
          rw [hb] at hne
          simp only [MailProg.run, MailOp.exec] at hne ⊢
          by_cases hok : (w.process S.others.on S.server).2 = true
          · simp only [hok, cond_true] at hne ⊢
            obtain ⟨h1, _⟩ := ih none _ hne
            refine ⟨h1, fun b hb' m hm => ?_⟩
            cases hb'
            exact doneAt_prog _ _ _ _ _ ((process_done S.others.on S.server w hok _ hb).1 m hm)
          · simp only [Bool.not_eq_true] at hok
            simp only [hok, cond_false] at hne
            exact absurd rfl hne
    · rw [if_neg hlt] at hne ⊢
      exact ih none w hne

theorem code_serves (S : Serving U) (fuel : Nat) : Serves (S.code fuel) S.server S.delay := by
  intro s w _ hne
  have e : (S.code fuel).step S.server s w = S.check fuel w.u.expiration w := if_pos rfl
  rw [e] at hne ⊢
  obtain ⟨h1, h2⟩ := check_serves S fuel w.u.expiration w hne
  exact ⟨h1, fun _ => h2⟩

theorem noFailureAt_mono {on : OnReceive U} {p : MailProg U} {w : Mail U} {dst : Nat} (h : NoFailureAt dst (p.run on w).2.2.log) :
    NoFailureAt dst w.log := by
  obtain ⟨_, evs, hl, _⟩ := prog_logged on p w
  intro t hm
  exact h t (by rw [hl]; exact List.mem_append_left _ hm)

/-- Three checks are enough, unless `process_messages` raises. -/
theorem check_awake (S : Serving U) (ht : 0 < S.timeout) (fuel : Nat) (e : Option Time) (w : Mail (SrvU U)) (hf : w.now ≠ .inf)
    (hn : NoFailureAt S.server ((S.check (fuel + 3) e w).run S.others.on w).2.2.log) :
    ((S.check (fuel + 3) e w).run S.others.on w).1 = .ret (some S.delay) := by
  have hdl : ∀ w' : Mail (SrvU U), w'.now ≠ .inf → w'.now < receivedDeadline none S.timeout w'.now := fun w' h => Time.lt_add_of_pos ht h
  have empty : ∀ fuel (w' : Mail (SrvU U)), w'.now ≠ .inf → w'.inbox S.server = some [] →
      ((S.check (fuel + 1) none w').run S.others.on w').1 = .ret (some S.delay) := by
    intro fuel w' hw' hb
    unfold Serving.check
    rw [if_pos (show w'.now < Option.getD none (receivedDeadline none S.timeout w'.now) from hdl w' hw'), hb]
    rfl
  have two : ∀ fuel e (w' : Mail (SrvU U)), w'.now ≠ .inf → w'.now < e.getD (receivedDeadline none S.timeout w'.now) →
      NoFailureAt S.server ((S.check (fuel + 2) e w').run S.others.on w').2.2.log →
      ((S.check (fuel + 2) e w').run S.others.on w').1 = .ret (some S.delay) := by
    intro fuel e w' hw' hlt hn
    unfold Serving.check at hn ⊢
    rw [if_pos hlt] at hn ⊢
    cases hb : w'.inbox S.server with
    | none => rfl
    | some b =>
      cases b with
      | nil => rfl
      | cons m0 ms =>
        rw [hb] at hn
        simp only [MailProg.run, MailOp.exec] at hn ⊢
        by_cases hok : (w'.process S.others.on S.server).2 = true
        · simp only [hok, cond_true]
          obtain ⟨_, h2, h3⟩ := process_done S.others.on S.server w' hok _ hb
          exact empty fuel _ (by rw [h3]; exact hw') h2
        · exact absurd (noFailureAt_mono hn) (process_failed _ _ _ (by simpa using hok) _ hb)
  by_cases hlt : w.now < e.getD (receivedDeadline none S.timeout w.now)
  · exact two (fuel + 1) e w hf hlt hn
  · unfold Serving.check at hn ⊢
    rw [if_neg hlt] at hn ⊢
    exact two fuel none w hf (hdl w hf) hn

/-- With a timeout that is not positive there is no end. -/
theorem check_endless (S : Serving U) (ht : ¬ 0 < S.timeout) (fuel : Nat) (w : Mail (SrvU U)) :
    (S.check fuel none w).run S.others.on w = (.error, [], w) := by
  induction fuel with
  | zero => rfl
  | succ fuel ih =>
    unfold Serving.check
    rw [if_neg]
    · exact ih
    · simp only [Option.getD_none, receivedDeadline]
      have : S.timeout ≤ 0 := le_of_not_gt ht
      generalize w.now = n at *
      generalize S.timeout = x at *
      exact not_lt_of_ge (time_add_nonpos this)

/-! ### What the asker does not see of the others, and the others of the asker -/

theorem view_inbox (w : Mail (AskU U)) (d : Nat) : w.view.inbox d = w.inbox d := rfl

theorem view_deliver (w : Mail (AskU U)) (dst : Nat) (mk : Nat → Msg) : (w.deliver dst mk).view = w.view.deliver dst mk := by
  unfold Mail.deliver
  rw [view_inbox]
  cases w.inbox dst <;> rfl

theorem view_send (s : Send) (w : Mail (AskU U)) : (s.exec w).view = s.exec w.view := by
  cases s with
  | tell dst payload sender => exact view_deliver _ _ _
  | ask dst payload => exact view_deliver _ _ _
  | broadcast targets payload sender e ttl =>
    simp only [Send.exec]
    induction targets generalizing w with
    | nil => rfl
    | cons t ts ih =>
      simp only [List.foldl_cons]
      rw [ih, view_deliver]
      rfl

theorem view_sends (ss : List Send) (w : Mail (AskU U)) : (ss.foldl Send.exec w).view = ss.foldl Send.exec w.view := by
  induction ss generalizing w with
  | nil => rfl
  | cons s ss ih => simp only [List.foldl_cons]; rw [ih, view_send]

theorem view_handle (on : OnReceive U) (w : Mail (AskU U)) (dst : Nat) (m : Msg) :
    (w.handle (liftOn on) dst m).view = w.view.handle on dst m := by
  unfold Mail.handle
  rw [view_sends]
  rfl

theorem view_reply (w : Mail (AskU U)) (m : Msg) (v : ReplyVal) : (w.reply m v).view = w.view.reply m v := by
  unfold Mail.reply
  split <;> rfl

theorem view_procMail (on : OnReceive U) (dst size : Nat) (ms : List Msg) (w : Mail (AskU U)) :
    (procMail (liftOn on) dst size ms w).1.view = (procMail on dst size ms w.view).1 ∧
    (procMail (liftOn on) dst size ms w).2 = (procMail on dst size ms w.view).2 := by
  induction ms generalizing w with
  | nil => exact ⟨rfl, rfl⟩
  | cons m ms ih =>
    have e : (liftOn on w dst m).2.2 = (on w.view dst m).2.2 := rfl
    unfold procMail
    by_cases hex : m.expired w.now = true
    · rw [if_pos hex, if_pos (show m.expired w.view.now = true from hex)]
      exact ih _
    · rw [if_neg hex, if_neg (show ¬ m.expired w.view.now = true from hex), e]
      cases (on w.view dst m).2.2 with
      | none => exact ⟨view_handle on w dst m, rfl⟩
      | some v =>
        simp only
        rw [← view_handle, ← view_reply, view_inbox]
        split
        · exact ih _
        · exact ⟨rfl, rfl⟩

theorem view_op (on : OnReceive U) (o : MailOp U) (w : Mail (AskU U)) :
    (o.lift.exec (liftOn on) w).1.view = (o.exec on w.view).1 ∧ (o.lift.exec (liftOn on) w).2 = (o.exec on w.view).2 := by
  cases o with
  | send s => exact ⟨view_send s w, rfl⟩
  | process dst =>
    simp only [MailOp.lift, MailOp.exec, Mail.process, view_inbox]
    cases w.inbox dst with
    | none => exact ⟨rfl, rfl⟩
    | some b =>
      simp only
      obtain ⟨h1, h2⟩ := view_procMail on dst b.length b w
      rw [← h1, ← h2]
      split <;> exact ⟨rfl, rfl⟩
  | other f => exact ⟨rfl, rfl⟩

theorem view_run (on : OnReceive U) (p : MailProg U) (w : Mail (AskU U)) :
    (p.lift.run (liftOn on) w).1 = (p.run on w.view).1 ∧ (p.lift.run (liftOn on) w).2.1 = (p.run on w.view).2.1 ∧
    (p.lift.run (liftOn on) w).2.2.view = (p.run on w.view).2.2 := by
  induction p generalizing w with
  | done rep ops => exact ⟨rfl, rfl, rfl⟩
  | op o next ih =>
    obtain ⟨h1, h2⟩ := view_op on o w
    simp only [MailProg.lift, MailProg.run]
    rw [← h1, ← h2]
    exact ih _ _ _

/-- Who serves does so beside an asker, too. -/
theorem asking_serves (A : Asking U) {dst : Nat} {d : Time} (h : Serves A.others dst d) (hne : dst ≠ A.asker) : Serves A.code dst d := by
  intro s w hw he
  have e : A.code.step dst s w = (A.others.step dst s w.view).lift := if_neg hne
  have eo : A.code.on = liftOn A.others.on := rfl
  rw [e, eo] at he ⊢
  obtain ⟨h1, _, h3⟩ := view_run A.others.on (A.others.step dst s w.view) w
  rw [h1] at he ⊢
  obtain ⟨g1, g2⟩ := h s w.view hw he
  refine ⟨g1, ?_⟩
  have hl : ((A.others.step dst s w.view).lift.run (liftOn A.others.on) w).2.2.log = ((A.others.step dst s w.view).run A.others.on w.view).2.2.log :=
    congrArg Mail.log h3
  rw [hl]
  exact g2

/-! ### What is in the log was returned by `on_receive` -/

/-- `on_receive` has returned what the log says, and if it has raised then an exception has escaped from `process_messages`. -/
def HandledOk (on : OnReceive U) (l : List MailEv) : Prop :=
  ∀ d m t r, MailEv.handled d m t r ∈ l → (∃ w, (on w d m).2.2 = r) ∧ (r = none → ∃ t', MailEv.failed d t' ∈ l)

theorem HandledOk.sent {on : OnReceive U} {w w' : Mail U} (h : HandledOk on w.log) (hg : Grown w w') : HandledOk on w'.log := by
  obtain ⟨evs, he, hs⟩ := hg.evs
  intro d m t r hm
  rw [he] at hm ⊢
  rcases List.mem_append.1 hm with hm | hm
  · obtain ⟨h1, h2⟩ := h d m t r hm
    refine ⟨h1, fun hr => ?_⟩
    obtain ⟨t', ht'⟩ := h2 hr
    exact ⟨t', List.mem_append_left _ ht'⟩
  · obtain ⟨_, _, e⟩ := hs _ hm
    cases e

/-- While the loop runs, `dst` may have raised. -/
def HandledMid (on : OnReceive U) (dst : Nat) (l : List MailEv) : Prop :=
  ∀ d m t r, MailEv.handled d m t r ∈ l → (∃ w, (on w d m).2.2 = r) ∧ (r = none → (d = dst ∨ ∃ t', MailEv.failed d t' ∈ l))

theorem handle_mid (on : OnReceive U) (w : Mail U) (dst : Nat) (m : Msg) (h : HandledOk on w.log) :
    HandledMid on dst (w.handle on dst m).log ∧ ((on w dst m).2.2 ≠ none → HandledOk on (w.handle on dst m).log) := by
  obtain ⟨evs, he, hs⟩ := (Mail.handle_eq on w dst m).evs
  simp only at he
  have key : ∀ d m' t r, MailEv.handled d m' t r ∈ (w.handle on dst m).log →
      MailEv.handled d m' t r ∈ w.log ∨ (d = dst ∧ m' = m ∧ r = (on w dst m).2.2) := by
    intro d m' t r hm
    rw [he] at hm
    rcases List.mem_append.1 hm with hm | hm
    · rcases List.mem_append.1 hm with hm | hm
      · exact .inl hm
      · cases List.mem_singleton.1 hm
        exact .inr ⟨rfl, rfl, rfl⟩
    · obtain ⟨_, _, e⟩ := hs _ hm
      cases e
  have grow : ∀ e ∈ w.log, e ∈ (w.handle on dst m).log := by
    intro e hm
    rw [he]
    exact List.mem_append_left _ (List.mem_append_left _ hm)
  constructor
  · intro d m' t r hm
    rcases key d m' t r hm with hm | ⟨rfl, rfl, rfl⟩
    · obtain ⟨h1, h2⟩ := h d m' t r hm
      refine ⟨h1, fun hr => .inr ?_⟩
      obtain ⟨t', ht'⟩ := h2 hr
      exact ⟨t', grow _ ht'⟩
    · exact ⟨⟨w, rfl⟩, fun _ => .inl rfl⟩
  · intro hne d m' t r hm
    rcases key d m' t r hm with hm | ⟨rfl, rfl, rfl⟩
    · obtain ⟨h1, h2⟩ := h d m' t r hm
      refine ⟨h1, fun hr => ?_⟩
      obtain ⟨t', ht'⟩ := h2 hr
      exact ⟨t', grow _ ht'⟩
    · exact ⟨⟨w, rfl⟩, fun hr => absurd hr hne⟩

theorem HandledOk.mid {on : OnReceive U} {l : List MailEv} (h : HandledOk on l) (dst : Nat) : HandledMid on dst l :=
  fun d m t r hm => ⟨(h d m t r hm).1, fun hr => .inr ((h d m t r hm).2 hr)⟩

theorem procMail_handled (on : OnReceive U) (dst size : Nat) (ms : List Msg) (w : Mail U) (h : HandledOk on w.log) :
    HandledMid on dst (procMail on dst size ms w).1.log ∧
    ((procMail on dst size ms w).2 = true → HandledOk on (procMail on dst size ms w).1.log) := by
  induction ms generalizing w with
  | nil => exact ⟨h.mid dst, fun _ => h⟩
  | cons m ms ih =>
    unfold procMail
    split
    · refine ih _ ?_
      intro d m' t r hm
      rcases List.mem_append.1 (show MailEv.handled d m' t r ∈ w.log ++ [.expired dst m w.now] from hm) with hm | hm
      · obtain ⟨h1, h2⟩ := h d m' t r hm
        refine ⟨h1, fun hr => ?_⟩
        obtain ⟨t', ht'⟩ := h2 hr
        exact ⟨t', List.mem_append_left _ ht'⟩
      · cases List.mem_singleton.1 hm
    · obtain ⟨g1, g2⟩ := handle_mid on w dst m h
      split
      · exact ⟨g1, fun hc => by cases hc⟩
      · rename_i v hv
        have g3 := g2 (by rw [hv]; simp)
        rw [← (reply_fields (w.handle on dst m) m v).2.2.1] at g3
        simp only
        split
        · exact ih _ g3
        · exact ⟨g3.mid dst, fun _ => g3⟩

theorem op_handled (on : OnReceive U) (w : Mail U) (o : MailOp U) (h : HandledOk on w.log) : HandledOk on (o.exec on w).1.log := by
  cases o with
  | send s => exact h.sent (send_induct (Grown w) (fun _ dst mk _ h => h.deliver dst mk) s w (Grown.refl w))
  | process dst =>
    simp only [MailOp.exec, Mail.process]
    cases hb : w.inbox dst with
    | none => exact h
    | some b =>
      simp only
      obtain ⟨g1, g2⟩ := procMail_handled on dst b.length b w h
      generalize procMail on dst b.length b w = r at g1 g2
      split
      · rename_i hr
        exact g2 hr
      · intro d m t rep hm
        rcases List.mem_append.1 (show MailEv.handled d m t rep ∈ r.1.log ++ [.failed dst r.1.now] from hm) with hm | hm
        · obtain ⟨h1, h2⟩ := g1 d m t rep hm
          refine ⟨h1, fun hr => ?_⟩
          rcases h2 hr with rfl | ⟨t', ht'⟩
          · exact ⟨r.1.now, List.mem_append_right _ (List.mem_singleton.2 rfl)⟩
          · exact ⟨t', List.mem_append_left _ ht'⟩
        · cases List.mem_singleton.1 hm
  | other f => exact h

end Verif
