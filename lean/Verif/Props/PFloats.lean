import Verif.Proofs.PFloats

/-!
# C219: `PQueueActivation` with the numbers of Python
-/

namespace Verif
open Spec

variable {W : Type}

/-- A new scheduler, a population added at time 0, and a history; `N` bounds the activations of one step. -/
abbrev npreach (H : NPHost W) (N : Nat) (iv : Num) (w0 : W) (pop : List Ref) (h : List (Cmd W)) : NPSched × W :=
  npexecAll H N (popCmds pop ++ h) (NPSched.init iv, w0)

private theorem npreach_interval (H : NPHost W) (hna : NPNoAdd H) (N : Nat) (iv : Num) (w0 : W) (pop : List Ref) (h : List (Cmd W)) :
    (npreach H N iv w0 pop h).1.interval = iv := (npexecAll_props H N _ _ hna).1

private theorem npreach_append (H : NPHost W) (N : Nat) (iv : Num) (w0 : W) (pop : List Ref) (h1 h2 : List (Cmd W)) :
    npreach H N iv w0 pop (h1 ++ h2) = npexecAll H N h2 (npreach H N iv w0 pop h1) := by
  simp only [npreach, npexecAll, List.foldl_append]

private theorem erase_pop (pop : List Ref) : (popCmds pop : List (Cmd W)).map erasePCmd = popCmds pop := by
  simp only [popCmds, List.map_map]
  rfl

private theorem erase_noAdd (h : List (Cmd W)) (hh : ∀ c ∈ h, c.noAdd = true) : ∀ c ∈ h.map erasePCmd, c.noAdd = true := by
  intro c hc
  obtain ⟨c0, hc0, rfl⟩ := List.mem_map.1 hc
  have := hh c0 hc0
  cases c0 with
  | step => rfl
  | world f => rfl
  | op o => cases o <;> first | rfl | cases this

/-- Every execution of the rounded scheduler is one of the exact scheduler; one script serves two parts of a history and one more step. -/
private theorem npreach_replay (H : NPHost W) (hna : NPNoAdd H) (N : Nat) (iv : Num) (w0 : W) (pop : List Ref) (h1 h2 : List (Cmd W))
    (hp : ∀ e ∈ (npreach H N iv w0 pop (h1 ++ h2)).1.log, Advances iv e) :
    ∃ S, (preach replayPHost N iv.val S pop (h1.map erasePCmd)).1 = imgP (npreach H N iv w0 pop h1).1 ∧
      (preach replayPHost N iv.val S pop (h1.map erasePCmd ++ h2.map erasePCmd)).1 = imgP (npreach H N iv w0 pop (h1 ++ h2)).1 ∧
      (h2 = [.step] → ∃ S2, (preach replayPHost N iv.val S pop (h1.map erasePCmd)).2 = S2 ∧
        ((imgP (npreach H N iv w0 pop h1).1).step replayPHost N S2).2.2 =
          ((npreach H N iv w0 pop h1).1.step H N (npreach H N iv w0 pop h1).2).2.2) := by
  have hx := npreach_append H N iv w0 pop h1 h2
  obtain ⟨_, l, hl⟩ := npexecAll_props H N h2 (npreach H N iv w0 pop h1) hna
  rw [← hx] at hl
  obtain ⟨S1, hS1⟩ := npexecAll_replay H N (popCmds pop ++ h1) (NPSched.init iv, w0) hna
    (fun e he => hp e (by rw [hl]; exact List.mem_append_left _ he))
  rw [List.map_append, erase_pop] at hS1
  by_cases h2e : h2 = [.step]
  · obtain ⟨S2, hS2⟩ := npstep_replay H N (npreach H N iv w0 pop h1).1 (npreach H N iv w0 pop h1).2 hna
      (by
        rw [npreach_interval H hna]
        intro e he
        refine hp e ?_
        rw [hx, h2e]
        exact he)
    refine ⟨S1 ++ S2, ?_, ?_, fun _ => ⟨S2, ?_, ?_⟩⟩
    · exact congrArg Prod.fst (hS1 S2)
    · have h3 := hS2 []
      rw [List.append_nil] at h3
      rw [h2e, npreach_append]
      show (pexecAll replayPHost N (popCmds pop ++ (h1.map erasePCmd ++ [.step])) (imgP (NPSched.init iv), S1 ++ S2)).1 = _
      rw [← List.append_assoc, pexecAll_append, hS1 S2]
      show ((imgP _).step replayPHost N S2).1 = _
      rw [h3]
      rfl
    · exact congrArg Prod.snd (hS1 S2)
    · have h3 := hS2 []
      rw [List.append_nil] at h3
      rw [h3]
  · obtain ⟨S2, hS2⟩ := npexecAll_replay H N h2 (npreach H N iv w0 pop h1) hna (by rw [npreach_interval H hna, ← hx]; exact hp)
    refine ⟨S1 ++ S2, ?_, ?_, fun h => absurd h h2e⟩
    · exact congrArg Prod.fst (hS1 S2)
    · have h3 := hS2 []
      rw [List.append_nil] at h3
      show (pexecAll replayPHost N (popCmds pop ++ (h1.map erasePCmd ++ h2.map erasePCmd)) (imgP (NPSched.init iv), S1 ++ S2)).1 = _
      rw [← List.append_assoc, pexecAll_append, hS1 S2, h3, hx]

/-! ## C219 -/

/-- C219: as long as no delay is lost by rounding, an agent of the population that asked for the delay `d` at time `t` acts next at the sum as Python computes
it, it acts first at 0, and never again once it has died. Missing: delays that are lost (`C219_endless_false`); agents added later (C12). -/
theorem C219_next_activation_partial (H : NPHost W) (hna : NPNoAdd H) (N : Nat) (iv : Num) (hiv : 0 < iv.val) (w0 : W) (pop : List Ref)
    (h : List (Cmd W)) (hh : ∀ c ∈ h, c.noAdd = true) (hN : pop.length ≤ N)
    (hp : ∀ e ∈ (npreach H N iv w0 pop h).1.log, Advances iv e) (r : Ref) (hr : pop.count r = 1) :
    (∀ pre post t u d rep, (npreach H N iv w0 pop h).1.log.filter (·.ref = r) = pre ++ .act r t (.ret d) :: .act r u rep :: post →
      u.val = ((Num.pyOr d iv).add t).val) ∧
    (∀ t u rep post, (npreach H N iv w0 pop h).1.log.filter (·.ref = r) = .added r t :: .act r u rep :: post → t.val = 0 ∧ u.val = 0) ∧
    (∀ pre post t, (npreach H N iv w0 pop h).1.log.filter (·.ref = r) = pre ++ .act r t .dead :: post → post = []) := by
  obtain ⟨S, e1, _⟩ := npreach_replay H hna N iv w0 pop h [] (by rw [List.append_nil]; exact hp)
  have hl : (imgP (npreach H N iv w0 pop h).1).log = (npreach H N iv w0 pop h).1.log.map (imgEv iv) := by
    show List.map _ _ = _; rw [npreach_interval H hna]
  obtain ⟨due, evs, hf, ht, ha, hpd⟩ := C11_pqueue_exact_wakeups replayPHost replayPHost_noAdd N iv.val hiv S pop (h.map erasePCmd)
    (erase_noAdd h hh) hN (by rw [e1, hl]; exact good_img iv _ hp) r hr
  rw [e1, hl, List.filter_map,
    show ((fun e : Ev => decide (e.ref = r)) ∘ imgEv iv) = (fun e : NEv => decide (e.ref = r)) from by funext e; simp [imgEv_ref]] at hf
  have htl : Timeline iv.val none (((npreach H N iv w0 pop h).1.log.filter (fun e : NEv => decide (e.ref = r))).map (imgEv iv)) due := by
    rw [hf]
    exact .add ht
  refine ⟨?_, ?_, ?_⟩
  · intro pre post t u d rep hlog
    have hmem : NEv.act r t (.ret d) ∈ (npreach H N iv w0 pop h).1.log := by
      have : NEv.act r t (.ret d) ∈ (npreach H N iv w0 pop h).1.log.filter (·.ref = r) := by rw [hlog]; simp
      exact (List.mem_filter.1 this).1
    have hadd := adjust_when iv t d iv.val (hp _ hmem)
    rw [hlog] at htl
    simp only [List.map_append, List.map_cons, imgEv, adjust] at htl
    have := htl.next
    simp only [nextWake] at this
    split at this
    · cases this
    · have h2 := Option.some.inj this
      have hc : ∀ a b : Time, a + b = b + a := by
        intro a b
        cases a <;> cases b <;> first | rfl | (show Time.fin _ = Time.fin _; rw [add_comm])
      rw [← h2, hc]
      exact hadd
  · intro t u rep post hlog
    rw [hlog] at hf htl
    simp only [List.map_cons, imgEv] at hf htl
    have h1 := (List.cons.inj hf).1
    injection h1 with _ h1
    have := Timeline.first (pre := []) htl
    exact ⟨h1, this.trans h1⟩
  · intro pre post t hlog
    cases post with
    | nil => rfl
    | cons e post =>
      exfalso
      have hmem : e ∈ (npreach H N iv w0 pop h).1.log.filter (·.ref = r) := by rw [hlog]; simp
      have hre : e.ref = r := of_decide_eq_true (List.mem_filter.1 hmem).2
      have hact : (imgEv iv e).isAct = true := by
        cases pre with
        | nil =>
          rw [hlog] at hf
          simp only [List.nil_append, List.map_cons, imgEv] at hf
          cases (List.cons.inj hf).1
        | cons p pre =>
          rw [hlog] at hf
          simp only [List.cons_append, List.map_cons, List.map_append] at hf
          refine ha _ ?_
          rw [← (List.cons.inj hf).2]
          simp
      rw [hlog] at htl
      cases e with
      | added q u => cases hact
      | act q u rep =>
        simp only [List.map_append, List.map_cons, imgEv, adjust] at htl
        cases htl.next

/-- C219: as long as no delay is lost, a step ends, without exception, runs exactly the agents of the population that are due at the earliest time, once per
wake-up, and sets the clock to the next one: infinity, and the model is stopped, if there is none. Missing: delays that are lost (`C219_endless_false`). -/
theorem C219_step_partial (H : NPHost W) (hna : NPNoAdd H) (N : Nat) (iv : Num) (hiv : 0 < iv.val) (w0 : W) (pop : List Ref)
    (h : List (Cmd W)) (hh : ∀ c ∈ h, c.noAdd = true) (hN : pop.length ≤ N)
    (hp : ∀ e ∈ (npreach H N iv w0 pop (h ++ [.step])).1.log, Advances iv e) :
    ((npreach H N iv w0 pop h).1.step H N (npreach H N iv w0 pop h).2).2.2 = .ok ∧
    (∃ evs, (npreach H N iv w0 pop (h ++ [.step])).1.log = (npreach H N iv w0 pop h).1.log ++ evs ∧
      ∀ r t, (r, t) ∈ ncal iv (npreach H N iv w0 pop h).1.log → (∀ p ∈ ncal iv (npreach H N iv w0 pop h).1.log, t ≤ p.2) →
        (∀ e ∈ evs, e.time.val = t) ∧ (nactRefs evs).Perm (dueAt (ncal iv (npreach H N iv w0 pop h).1.log) t)) ∧
    (∀ p ∈ ncal iv (npreach H N iv w0 pop (h ++ [.step])).1.log, (npreach H N iv w0 pop (h ++ [.step])).1.time.val ≤ p.2) ∧
    ((∃ p ∈ ncal iv (npreach H N iv w0 pop (h ++ [.step])).1.log, p.2 = (npreach H N iv w0 pop (h ++ [.step])).1.time.val) ∨
      ncal iv (npreach H N iv w0 pop (h ++ [.step])).1.log = []) ∧
    (ncal iv (npreach H N iv w0 pop h).1.log ≠ [] → ncal iv (npreach H N iv w0 pop (h ++ [.step])).1.log = [] →
      (npreach H N iv w0 pop (h ++ [.step])).1.time.val = .inf ∧ (npreach H N iv w0 pop (h ++ [.step])).1.running = false) := by
  obtain ⟨S, e1, e2, e3⟩ := npreach_replay H hna N iv w0 pop h [.step] hp
  obtain ⟨S2, e4, e5⟩ := e3 rfl
  have hl1 : (imgP (npreach H N iv w0 pop h).1).log = (npreach H N iv w0 pop h).1.log.map (imgEv iv) := by
    show List.map _ _ = _; rw [npreach_interval H hna]
  have hl2 : (imgP (npreach H N iv w0 pop (h ++ [.step])).1).log = (npreach H N iv w0 pop (h ++ [.step])).1.log.map (imgEv iv) := by
    show List.map _ _ = _; rw [npreach_interval H hna]
  obtain ⟨_, l, hl⟩ := npexecAll_props H N [.step] (npreach H N iv w0 pop h) hna
  rw [← npreach_append] at hl
  have hst : [Cmd.step] = ([Cmd.step] : List (Cmd W)).map erasePCmd := rfl
  have key := C11_pqueue_step replayPHost replayPHost_noAdd N iv.val hiv S pop (h.map erasePCmd) (erase_noAdd h hh) hN
    (by rw [hst, e2, hl2]; exact good_img iv _ hp)
  simp only at key
  rw [hst, e2, e1, hl1, hl2, cal_img iv _ hp, cal_img iv _ (fun e he => hp e (by rw [hl]; exact List.mem_append_left _ he)), e4, e5] at key
  obtain ⟨k1, ⟨evs, k2, k3⟩, k4, k5, k6⟩ := key
  refine ⟨k1, ⟨l, hl, fun r t hm hmin => ?_⟩, k4, k5, k6⟩
  rw [hl, List.map_append] at k2
  have hev : evs = l.map (imgEv iv) := (List.append_cancel_left k2).symm
  obtain ⟨a, b⟩ := k3 r t hm hmin
  rw [hev] at a b
  refine ⟨fun e he => ?_, ?_⟩
  · have := a (imgEv iv e) (List.mem_map_of_mem he)
    rwa [imgEv_time] at this
  · have hr : actRefs (l.map (imgEv iv)) = nactRefs l := by
      simp only [actRefs, nactRefs, List.filterMap_map]
      congr 1
      funext e
      cases e <;> rfl
    rwa [hr] at b

/-! ### When no delay is lost -/

/-- What holds of the sums holds of all the times. -/
private def AllTimes (P : Num → Prop) (s : NPSched) : Prop := P s.time ∧ (∀ p ∈ s.queue, P p.when_) ∧ ∀ e ∈ s.log, P e.time

private theorem times_ops (P : Num → Prop) (H : NPHost W) (s : NPSched) (w : W) (os : List SOp) (h : ∀ q wh, SOp.add q wh ∉ os)
    (hs : AllTimes P s) : AllTimes P (s.applyOps H w os).1 := by
  induction os generalizing s with
  | nil => exact hs
  | cons o os ih =>
    have h' : ∀ q wh, SOp.add q wh ∉ os := fun q wh hm => h q wh (List.mem_cons_of_mem _ hm)
    cases o with
    | add q wh => exact absurd List.mem_cons_self (h q wh)
    | remove r => exact ih { s with agents := s.agents.erase r } h' hs
    | stop => exact ih { s with running := false } h' hs

private theorem times_schedule (P : Num → Prop) (H : NPHost W) (s : NPSched) (w : W) (r : Ref) (wh : Option Num) (b : Bool)
    (hs : AllTimes P s) (hw : P (wh.getD s.time)) : AllTimes P (s.schedule H w r wh b).1 := by
  unfold NPSched.schedule
  simp only
  split
  · cases hq : s.queue with
    | nil => exact hs
    | cons e q =>
      simp only [heapreplace]
      refine ⟨hs.1, fun p hp => ?_, hs.2.2⟩
      rcases List.mem_cons.1 ((siftup_perm _ _ _).mem_iff.1 hp) with h | h
      · rw [h]; exact hw
      · exact hs.2.1 p (by rw [hq]; exact List.mem_cons_of_mem _ h)
  · refine ⟨hs.1, fun p hp => ?_, hs.2.2⟩
    rcases List.mem_cons.1 ((heappush_perm _ _).mem_iff.1 hp) with h | h
    · rw [h]; exact hw
    · exact hs.2.1 p h

private theorem times_pop (P : Num → Prop) (s : NPSched) (hs : AllTimes P s) : AllTimes P s.pop := by
  refine ⟨hs.1, fun p hp => ?_, hs.2.2⟩
  unfold NPSched.pop at hp
  simp only at hp
  cases hq : s.queue with
  | nil => rw [hq] at hp; simp [heappop] at hp
  | cons e q =>
    rw [hq] at hp
    exact hs.2.1 p (by rw [hq]; exact List.mem_cons_of_mem _ ((heappop_perm _ _).mem_iff.1 hp))

private theorem times_log (P : Num → Prop) (s : NPSched) (r : Ref) (now : Num) (rep : NReply) (hnow : P now) (hs : AllTimes P s) :
    AllTimes P (s.logAct r now rep) := by
  refine ⟨hs.1, hs.2.1, fun e he => ?_⟩
  rcases List.mem_append.1 he with he | he
  · exact hs.2.2 e he
  · rw [List.mem_singleton.1 he]; exact hnow

private theorem times_loop (P : Num → Prop) (hinf : P .inf) (H : NPHost W) (hna : NPNoAdd H) (now : Num) (hnow : P now) (fuel : Nat) (s : NPSched) (w : W)
    (hs : AllTimes P s)
    (hadd : ∀ r t d, NEv.act r t (.ret d) ∈ (npLoop H now fuel s w).1.log → P t → P ((Num.pyOr d s.interval).add t)) :
    AllTimes P (npLoop H now fuel s w).1 ∧ P (npLoop H now fuel s w).2.2.1 := by
  induction fuel generalizing s w with
  | zero =>
    unfold npLoop
    cases hq : s.queue with
    | nil => exact ⟨hs, hinf⟩
    | cons e q =>
      simp only
      split
      · exact ⟨hs, hs.2.1 e (by rw [hq]; exact List.mem_cons_self ..)⟩
      · exact ⟨hs, hinf⟩
  | succ fuel ih =>
    unfold npLoop at hadd ⊢
    cases hq : s.queue with
    | nil => exact ⟨hs, hinf⟩
    | cons e q =>
      rw [hq] at hadd
      simp only at hadd ⊢
      by_cases hlt : now.val < e.when_.val
      · rw [if_pos hlt]
        exact ⟨hs, hs.2.1 e (by rw [hq]; exact List.mem_cons_self ..)⟩
      · rw [if_neg hlt] at hadd ⊢
        have hops := times_ops P H s (H.step e.ref s w).2.2 (H.step e.ref s w).2.1 (hna e.ref s w) hs
        obtain ⟨h1, h2, h3, _, _⟩ := napplyOps_noadd H s (H.step e.ref s w).2.2 (H.step e.ref s w).2.1 (hna e.ref s w)
        generalize s.applyOps H (H.step e.ref s w).2.2 (H.step e.ref s w).2.1 = ops at h1 h2 h3 hops hadd
        obtain ⟨s1, w1, b1⟩ := ops
        cases h1
        simp only at h2 h3 hops
        simp only [Bool.false_eq_true, if_false] at hadd ⊢
        cases hrep : (H.step e.ref s w).1 with
        | error => exact ⟨times_log P s1 _ _ _ hnow hops, hinf⟩
        | dead =>
          rw [hrep] at hadd
          refine ih _ _ (times_pop P _ (times_log P s1 _ _ _ hnow hops)) ?_
          rw [show (s1.logAct e.ref now .dead).pop.interval = s.interval from h2]
          exact hadd
        | ret d =>
          rw [hrep] at hadd
          simp only at hadd ⊢
          have hint : (s1.logAct e.ref now (.ret d)).interval = s.interval := h2
          rw [hint] at hadd ⊢
          have hlog := times_log P s1 e.ref now (.ret d) hnow hops
          by_cases hin : ((Num.pyOr d s.interval).add now).val = .inf
          · rw [if_pos hin] at hadd ⊢
            refine ih _ _ (times_pop P _ hlog) ?_
            rw [show (s1.logAct e.ref now (.ret d)).pop.interval = s.interval from h2]
            exact hadd
          · rw [if_neg hin] at hadd ⊢
            have hP : P ((Num.pyOr d s.interval).add now) := by
              refine hadd e.ref now d ?_ hnow
              split
              · rw [(schedule_fields H _ _ _ _ _).2.1]
                simp [NPSched.logAct]
              · obtain ⟨_, l, hl⟩ := npLoop_props H now fuel ((s1.logAct e.ref now (.ret d)).schedule H (H.step e.ref s w).2.2 e.ref
                  (some ((Num.pyOr d s.interval).add now)) true).1 ((s1.logAct e.ref now (.ret d)).schedule H (H.step e.ref s w).2.2 e.ref
                  (some ((Num.pyOr d s.interval).add now)) true).2.1 hna
                rw [hl, (schedule_fields H _ _ _ _ _).2.1]
                simp [NPSched.logAct]
            have hsc := times_schedule P H (s1.logAct e.ref now (.ret d)) (H.step e.ref s w).2.2 e.ref
              (some ((Num.pyOr d s.interval).add now)) true hlog hP
            split
            · exact ⟨hsc, hinf⟩
            · next hb =>
              rw [if_neg hb] at hadd
              refine ih _ _ hsc ?_
              rw [(schedule_fields H _ _ _ _ _).1, hint]
              exact hadd

private theorem times_all (P : Num → Prop) (h0 : P (.int 0)) (hinf : P .inf) (H : NPHost W) (hna : NPNoAdd H) (N : Nat) (iv : Num) (w0 : W)
    (h : List (Cmd W)) (hadd : ∀ r t d, NEv.act r t (.ret d) ∈ (npexecAll H N h (NPSched.init iv, w0)).1.log → P t → P ((Num.pyOr d iv).add t)) :
    ∀ e ∈ (npexecAll H N h (NPSched.init iv, w0)).1.log, P e.time := by
  have key : ∀ (h : List (Cmd W)) (sw : NPSched × W), sw.1.interval = iv → AllTimes P sw.1 →
      (∀ r t d, NEv.act r t (.ret d) ∈ (npexecAll H N h sw).1.log → P t → P ((Num.pyOr d iv).add t)) →
      ∀ e ∈ (npexecAll H N h sw).1.log, P e.time := by
    intro h
    induction h with
    | nil => intro sw _ hs _; exact hs.2.2
    | cons c h ih =>
      intro sw hi hs hadd
      have hc := npexec_props H N c sw hna
      obtain ⟨_, l, hl⟩ := npexecAll_props H N h (c.npexec H N sw) hna
      refine ih (c.npexec H N sw) (hc.1.trans hi) ?_ hadd
      have hadd' : ∀ r t d, NEv.act r t (.ret d) ∈ (c.npexec H N sw).1.log → P t → P ((Num.pyOr d iv).add t) := by
        intro r t d hm
        refine hadd r t d ?_
        show _ ∈ (npexecAll H N h (c.npexec H N sw)).1.log
        rw [hl]
        exact List.mem_append_left _ hm
      cases c with
      | step =>
        simp only [Cmd.npexec] at hadd' ⊢
        unfold NPSched.step at hadd' ⊢
        split
        · exact hs
        · next hni =>
          rw [if_neg hni] at hadd'
          have := times_loop P hinf H hna sw.1.time hs.1 N sw.1 sw.2 hs (by
            intro r t d hm
            rw [hi]
            refine hadd' r t d ?_
            simp only
            split <;> exact hm)
          simp only
          split
          · exact ⟨this.2, this.1.2.1, this.1.2.2⟩
          · exact this.1
      | op o =>
        cases o with
        | add r wh =>
          simp only [Cmd.npexec, NPSched.applyOp, NPSched.addAgent]
          have hsc := times_schedule P H sw.1 sw.2 r none (wh.getD sw.1.time.val).truthy hs hs.1
          split
          · exact hsc
          · refine ⟨hsc.1, hsc.2.1, fun e he => ?_⟩
            rcases List.mem_append.1 he with he | he
            · exact hsc.2.2 e he
            · rw [List.mem_singleton.1 he]; exact hs.1
        | remove r => exact hs
        | stop => exact hs
      | world f => exact hs
  exact key h _ rfl ⟨h0, (fun p hp => nomatch hp), (fun e he => nomatch he)⟩ hadd

/-- C219: no delay is lost as long as the time stays below `2 ** k` and delays are at least `2 ** (k - 53)`, `k <= 53`. Exceptions aside, the hypothesis of the
theorems above then holds. Missing: later times. -/
theorem C219_no_delay_lost_partial (H : NPHost W) (hna : NPNoAdd H) (N : Nat) (iv : Num) (w0 : W) (pop : List Ref) (h : List (Cmd W)) (k : Nat) (hk : k ≤ 53)
    (hc : ∀ e ∈ (npreach H N iv w0 pop h).1.log, Coarse k iv e) : ∀ e ∈ (npreach H N iv w0 pop h).1.log, Advances iv e := by
  have ht := times_all Num.IsPy (le_refl _) trivial H hna N iv w0 (popCmds pop ++ h) (fun r t d hm htp => add_isPy (hc _ hm).2.1 htp)
  intro e he
  have h1 := hc e he
  have h2 := ht e he
  cases e with
  | added r t => trivial
  | act r t rep =>
    cases rep with
    | dead => trivial
    | error => exact h1
    | ret d =>
      rcases h1.1 with hi | hlt
      · exact Or.inl hi
      · exact Or.inr (add_advances hk h1.2.1 h2 h1.2.2 hlt)

/-! ### Examples -/

/-- Two agents: one waits 0.1, the other 0.3; the random numbers that break ties are the positions. -/
def drift2Host : NPHost Unit where
  step r _ _ := (.ret (some (if r = 0 then f01 else f03)), [], ())
  key r _ := (r, ())

-- The hypotheses of the theorems hold although the sums are rounded: 0.1 + 0.1 + 0.1 is not 0.3.
set_option maxRecDepth 100000 in
example : NPNoAdd drift2Host ∧ (∀ e ∈ (npreach drift2Host 2 (.int 1) () [0, 1] (List.replicate 6 .step)).1.log, Advances (.int 1) e) ∧
    (npreach drift2Host 2 (.int 1) () [0, 1] (List.replicate 4 .step)).1.log =
      [.added 0 (.int 0), .added 1 (.int 0), .act 0 (.int 0) (.ret (some f01)), .act 1 (.int 0) (.ret (some f03)), .act 0 f01 (.ret (some f01)),
       .act 0 (f01.add f01) (.ret (some f01)), .act 1 f03 (.ret (some f03))] := by
  refine ⟨(fun r s w q wh hm => (nomatch hm)), ?_, ?_⟩ <;> decide +kernel

instance : DecidablePred Num.IsPy
  | .int n => inferInstanceAs (Decidable (0 ≤ n))
  | .flt q => inferInstanceAs (Decidable (0 ≤ q ∧ round53 q = q))
  | .inf => .isTrue trivial

instance (k : Nat) (iv : Num) : DecidablePred (Coarse k iv)
  | .act _ t (.ret d) => inferInstanceAs (Decidable ((t.val = .inf ∨ t.val < .fin (pow2 k)) ∧ (Num.pyOr d iv).IsPy ∧ .fin (pow2 (k - 53)) ≤ (Num.pyOr d iv).val))
  | .act _ _ .error => .isFalse id
  | .act _ _ .dead => .isTrue trivial
  | .added _ _ => .isTrue trivial

-- Below `2 ** 10` delays of at least `2 ** -43` are never lost.
set_option maxRecDepth 100000 in
example : ∀ e ∈ (npreach drift2Host 2 (.int 1) () [0, 1] (List.replicate 6 .step)).1.log, Coarse 10 (.int 1) e := by
  decide +kernel

/-! ### Violations -/

/-- An agent that first waits until `2 ** 53` and then one unit at a time. -/
private def endlessHost : NPHost Unit where
  step _ s _ := (.ret (some (if s.steps = 0 then .flt 9007199254740992 else .flt 1)), [], ())
  key _ _ := (0, ())

private def endlessAt (log : List NEv) : NPSched where
  time := .flt 9007199254740992
  steps := 1
  queue := [⟨.flt 9007199254740992, 0, 0⟩]
  agents := [0]
  interval := .int 1
  running := true
  log := log

private theorem endless_loop (n : Nat) (log : List NEv) :
    npLoop endlessHost (.flt 9007199254740992) n (endlessAt log) () =
      (endlessAt (log ++ List.replicate n (.act 0 (.flt 9007199254740992) (.ret (some (.flt 1))))), (), .inf, .stuck) := by
  have hadd : Num.add (.flt 1) (.flt 9007199254740992) = .flt 9007199254740992 := by decide +kernel
  have hor : ∀ iv, Num.pyOr (some (.flt 1)) iv = .flt 1 := by
    intro iv
    have : ¬ (Num.flt 1).val = 0 := by decide +kernel
    rw [Num.pyOr, if_neg this]
  have hlt : ¬ (Num.flt 9007199254740992).val < (Num.flt 9007199254740992).val := by decide +kernel
  have hinf : ¬ (Num.flt 9007199254740992).val = .inf := by decide +kernel
  induction n generalizing log with
  | zero =>
    unfold npLoop
    simp only [endlessAt, if_neg hlt, List.replicate_zero, List.append_nil]
  | succ n ih =>
    unfold npLoop
    have := ih (log ++ [.act 0 (.flt 9007199254740992) (.ret (some (.flt 1)))])
    rw [List.append_assoc, List.singleton_append, ← List.replicate_succ] at this
    rw [← this]
    simp only [endlessAt, if_neg hlt, endlessHost, NPSched.applyOps, NPSched.logAct, hor, hadd, if_neg hinf, Bool.false_eq_true, if_false,
      NPSched.schedule, if_true, heapreplace, Nat.one_ne_zero]
    have hsift : siftup NPEntry.lt ⟨Num.flt 9007199254740992, 0, 0⟩ [⟨Num.flt 9007199254740992, 0, 0⟩] = [⟨Num.flt 9007199254740992, 0, 0⟩] := by
      decide +kernel
    simp only [Option.getD_some, hsift]

/-- C219, violation: at `2 ** 53` a delay of 1.0 is lost, and the agent stays at the head of the queue. The second step never ends: however many activations it
makes, it is not finished (with the default scheduler every step ends, C203). -/
theorem C219_endless_false : ∃ H : NPHost Unit, NPNoAdd H ∧ ∀ N : Nat,
    let sw := npreach H 1 (.int 1) () [0] [.step]
    (sw.1.step H N sw.2).2.2 = .stuck ∧ (sw.1.step H N sw.2).1.time.val = .fin 9007199254740992 ∧
    (sw.1.step H N sw.2).1.log =
      [.added 0 (.int 0), .act 0 (.int 0) (.ret (some (.flt 9007199254740992)))] ++
        List.replicate N (.act 0 (.flt 9007199254740992) (.ret (some (.flt 1)))) := by
  refine ⟨endlessHost, (fun r s w q wh hm => (nomatch hm)), fun N => ?_⟩
  have h0 : npreach endlessHost 1 (.int 1) () [0] [.step] =
      (endlessAt [.added 0 (.int 0), .act 0 (.int 0) (.ret (some (.flt 9007199254740992)))], ()) := by decide +kernel
  have hinf : ¬ (Num.flt 9007199254740992).val = .inf := by decide +kernel
  have hstep : NPSched.step endlessHost N (endlessAt [.added 0 (.int 0), .act 0 (.int 0) (.ret (some (.flt 9007199254740992)))]) () =
      (endlessAt ([.added 0 (.int 0), .act 0 (.int 0) (.ret (some (.flt 9007199254740992)))] ++
        List.replicate N (.act 0 (.flt 9007199254740992) (.ret (some (.flt 1))))), (), .stuck) := by
    unfold NPSched.step
    rw [if_neg (by exact hinf)]
    simp only
    rw [show (endlessAt [.added 0 (.int 0), .act 0 (.int 0) (.ret (some (.flt 9007199254740992)))]).time = .flt 9007199254740992 from rfl,
      endless_loop N]
  simp only [h0, hstep]
  exact ⟨trivial, rfl, rfl⟩

end Verif
