import Verif.Proofs.Nan
import Verif.Proofs.Heapq
import Verif.Model.RunLoop

/-!
# C224: a delay that is not a number
-/

namespace Verif
open Spec

variable {W : Type}

namespace Spec

/-- The clock whenever `r` was added. -/
def addTimes (r : Ref) (log : List NanEv) : List FNum :=
  log.filterMap (fun e => match e with
    | .added q t => if q = r then some t else none
    | .act _ _ _ => none)

/-- For which times `r` waits in the queue. -/
def waiting (r : Ref) (s : NanSched) : List FNum :=
  s.queue.flatMap (fun b => (b.2.filter (· = r)).map (fun _ => b.1))

/-- `r` has never been added while the clock was `nan` and has never asked for the delay `nan`. -/
def Untouched (r : Ref) (log : List NanEv) : Prop :=
  .added r .nan ∉ log ∧ ∀ t, .act r t (.ret (some .nan)) ∉ log

end Spec

/-- The state of the scheduler after a history. -/
def nanReach (H : NanHost W) (iv : Time) (sh : Bool) (w0 : W) (h : List (Cmd W)) : NanSched × W :=
  nanExecAll H h (NanSched.init iv sh, w0)

theorem nanExecAll_log (H : NanHost W) : ∀ (h : List (Cmd W)) (x : NanSched × W), x.1.log <+: (nanExecAll H h x).1.log
  | [], _ => List.prefix_rfl
  | c :: h, x => (nanExec_log H c x).trans (nanExecAll_log H h _)

/-- Three agents: 0 asks for `nan` at its third activation (and then always), 1 for 2 and 2 for 3; agent 0 adds agent 7 when it acts for the fourth
time. -/
def nanExHost : NanHost Nat where
  step r s w :=
    if r = 0 then (if w < 2 then .ret (some (.num 1)) else .ret (some .nan), if w = 3 then [.add 7 none] else [], w + 1)
    else (.ret (some (.num (.fin (r + 1 : Nat)))), [], w)
  shuffle l w := (l.reverse, w)
  shuffle_perm l _ := List.reverse_perm l

/-- They are added and the model makes some steps. -/
def nanExHist : List (Cmd Nat) := [.op (.add 0 none), .op (.add 1 none), .op (.add 2 none)] ++ List.replicate 20 .step

/-! ### Agents that have nothing to do with `nan` -/

/-- Agents that never met `nan` do not wait for it and have not acted then. -/
private def CleanInv (r : Ref) (n : NanSched) : Prop :=
  Untouched r n.log → (∀ b ∈ n.queue, b.1 = .nan → r ∉ b.2) ∧ ∀ e ∈ n.log, e.ref = r → e.time ≠ .nan

private theorem untouched_mono {r : Ref} {l l' : List NanEv} (h : Untouched r l') (hp : l <+: l') : Untouched r l :=
  ⟨fun hm => h.1 (hp.subset hm), fun t hm => h.2 t (hp.subset hm)⟩

private theorem mem_insertNan {t : FNum} {r : Ref} {b : FNum × List Ref} : ∀ {q : List (FNum × List Ref)}, b ∈ insertNan t r q →
    b ∈ q ∨ (b.1 = t ∧ b.2 = [r]) ∨ ∃ u l, (u, l) ∈ q ∧ u.eq t = true ∧ b = (u, l ++ [r])
  | [], h => by
    simp only [insertNan, List.mem_singleton] at h
    exact .inr (.inl ⟨by rw [h], by rw [h]⟩)
  | (u, l) :: q, h => by
    unfold insertNan at h
    split at h
    · rename_i he
      rcases List.mem_cons.1 h with h | h
      · exact .inr (.inr ⟨u, l, .head _, he, h⟩)
      · exact .inl (.tail _ h)
    · split at h
      · rcases List.mem_cons.1 h with h | h
        · exact .inr (.inl ⟨by rw [h], by rw [h]⟩)
        · exact .inl h
      · rcases List.mem_cons.1 h with h | h
        · exact .inl (h ▸ .head _)
        · rcases mem_insertNan h with h | h | ⟨u', l', h, h'⟩
          · exact .inl (.tail _ h)
          · exact .inr (.inl h)
          · exact .inr (.inr ⟨u', l', .tail _ h, h'⟩)

private theorem insertNan_clean {t : FNum} {q r : Ref} {l : List (FNum × List Ref)} (hl : ∀ b ∈ l, b.1 = .nan → r ∉ b.2)
    (ht : q = r → t ≠ .nan) : ∀ b ∈ insertNan t q l, b.1 = .nan → r ∉ b.2 := by
  intro b hb hn
  rcases mem_insertNan hb with h | ⟨h, h'⟩ | ⟨u, l', h, he, h'⟩
  · exact hl b h hn
  · intro hr
    rw [h', List.mem_singleton] at hr
    exact ht hr.symm (h ▸ hn)
  · rw [h'] at hn
    simp only at hn
    rw [hn] at he
    cases he

private theorem CleanInv.op {r : Ref} {n : NanSched} (h : CleanInv r n) (o : SOp) : CleanInv r (n.applyOp o) := by
  cases o with
  | add q w =>
    intro hu
    have hu' : Untouched r n.log := untouched_mono hu (List.prefix_append _ _)
    obtain ⟨h1, h2⟩ := h hu'
    have hq : q = r → n.time ≠ .nan := by
      rintro rfl hn
      refine hu.1 ?_
      change NanEv.added q .nan ∈ n.log ++ [.added q n.time]
      rw [hn]
      simp
    refine ⟨insertNan_clean h1 hq, ?_⟩
    intro e he
    change e ∈ n.log ++ [.added q n.time] at he
    rcases List.mem_append.1 he with he | he
    · exact h2 e he
    · rw [List.mem_singleton] at he
      subst he
      exact hq
  | remove q => exact h
  | stop => exact h

private theorem CleanInv.ops {r : Ref} : ∀ (os : List SOp) {n : NanSched}, CleanInv r n → CleanInv r (n.applyOps os)
  | [], _, h => h
  | o :: os, _, h => CleanInv.ops os (h.op o)

private theorem nanOps_time : ∀ (os : List SOp) (n : NanSched), (n.applyOps os).time = n.time
  | [], _ => rfl
  | o :: os, n => by
    refine (nanOps_time os (n.applyOp o)).trans ?_
    cases o <;> rfl

private theorem nanAfter_time (n : NanSched) (now : FNum) (r : Ref) (rep : NanReply) : (n.after now r rep).time = n.time := by
  cases rep with
  | dead => rfl
  | error => rfl
  | ret d =>
    simp only [NanSched.after]
    split <;> rfl

private theorem CleanInv.run (H : NanHost W) (now : FNum) {r : Ref} : ∀ (l : List Ref) {n : NanSched} {w : W}, CleanInv r n → n.time = now →
    (now = .nan → Untouched r n.log → r ∉ l) → CleanInv r (runNan H now l n w).1
  | [], _, _, h, _, _ => h
  | q :: l, n, w, h, ht, hl => by
    rcases hres : H.step q n w with ⟨rep, os, w'⟩
    have hpre : n.log <+: (((n.applyOps os).logAct q now rep).after now q rep).log := by
      rw [nanAfter_log]
      exact (nanOps_log os n).trans (List.prefix_append _ _)
    have hn1 : CleanInv r (((n.applyOps os).logAct q now rep).after now q rep) := by
      intro hu
      have hu' := untouched_mono hu hpre
      rw [nanAfter_log] at hu
      have hq : q = r → now ≠ .nan := by
        rintro rfl hn
        exact hl hn hu' (.head _)
      obtain ⟨h1, h2⟩ := (h.ops os) (untouched_mono hu (List.prefix_append _ _))
      constructor
      · cases rep with
        | dead => exact h1
        | error => exact h1
        | ret d =>
          simp only [NanSched.after]
          split
          · exact h1
          · refine insertNan_clean h1 (fun hqr => ?_)
            have hd : d ≠ some .nan := by
              rintro rfl
              refine hu.2 now ?_
              rw [hqr]
              simp [NanSched.logAct]
            obtain ⟨t, rfl⟩ : ∃ t, now = .num t := by
              cases now with
              | nan => exact absurd rfl (hq hqr)
              | num t => exact ⟨t, rfl⟩
            obtain ⟨u, hu'⟩ : ∃ u, (FNum.pyOr d (.num (n.applyOps os).interval)) = .num u := by
              cases d with
              | none => exact ⟨_, rfl⟩
              | some d =>
                cases d with
                | nan => exact absurd rfl hd
                | num d =>
                  simp only [FNum.pyOr]
                  split <;> exact ⟨_, rfl⟩
            change FNum.pyOr (some ((FNum.pyOr d (.num (n.applyOps os).interval)).add (.num t))) (n.applyOps os).time ≠ .nan
            rw [hu', nanOps_time, ht]
            simp only [FNum.add, FNum.pyOr]
            split <;> exact fun h => nomatch h
      · intro e he
        rw [nanAfter_log] at he
        change e ∈ (n.applyOps os).log ++ [.act q now rep] at he
        rcases List.mem_append.1 he with he | he
        · exact h2 e he
        · rw [List.mem_singleton] at he
          subst he
          exact hq
    rw [runNan]
    simp only [hres]
    have hl' : now = .nan → Untouched r (((n.applyOps os).logAct q now rep).after now q rep).log → r ∉ l := fun hn hu hm =>
      hl hn (untouched_mono hu hpre) (.tail _ hm)
    have ht' : (((n.applyOps os).logAct q now rep).after now q rep).time = now := by
      rw [nanAfter_time]
      exact (nanOps_time os n).trans ht
    generalize ((n.applyOps os).logAct q now rep).after now q rep = n1 at *
    cases rep with
    | error => exact hn1
    | dead => exact CleanInv.run H now l hn1 ht' hl'
    | ret d => exact CleanInv.run H now l hn1 ht' hl'

private theorem CleanInv.exec (H : NanHost W) (c : Cmd W) {r : Ref} {x : NanSched × W} (h : CleanInv r x.1)
    (hh : x.1.time = .nan → ∃ b q, x.1.queue = (.nan, b) :: q) : CleanInv r (c.nanExec H x).1 := by
  cases c with
  | op o => exact h.op o
  | world f => exact h
  | step =>
    obtain ⟨n, w⟩ := x
    change CleanInv r (n.step H w).1
    unfold NanSched.step
    cases hq : n.queue with
    | nil => exact h
    | cons b q =>
      simp only
      split
      · intro hu
        obtain ⟨h1, h2⟩ := h hu
        exact ⟨fun b' hb' => h1 b' (by simp only [hq]; exact hb'), h2⟩
      · rename_i hgt
        have h0 : CleanInv r { n with queue := q } := fun hu => ⟨fun b' hb' => (h hu).1 b' (by rw [hq]; exact .tail _ hb'), (h hu).2⟩
        have h1 := CleanInv.run H n.time (nanOrder H n b.2 w).1 (w := (nanOrder H n b.2 w).2) h0 rfl (fun hn hu hm => by
          have hb : r ∈ b.2 := by
            unfold nanOrder at hm
            split at hm
            · exact (H.shuffle_perm _ _).mem_iff.1 hm
            · exact hm
          obtain ⟨b', q', hb'⟩ := hh hn
          simp only [hq] at hb'
          refine (h hu).1 b (by simp only [hq]; exact .head _) ?_ hb
          rw [(List.cons.inj hb').1])
        unfold finishNan
        split
        · exact h1
        · exact h1

private theorem CleanInv.execAll (H : NanHost W) {r : Ref} : ∀ (h : List (Cmd W)) {s : Sched} {n : NanSched} {w : W}, NanSim s n → CleanInv r n →
    (∀ r t, NanEv.act r t .error ∉ (nanExecAll H h (n, w)).1.log) → CleanInv r (nanExecAll H h (n, w)).1
  | [], _, _, _, _, hx, _ => hx
  | c :: h, s, n, w, hs, hx, hg => by
    obtain ⟨h1, e1, e2⟩ := hs.exec H c (w := w) (fun r t hr => hg r t ((nanExecAll_log H h _).subset hr))
    exact CleanInv.execAll H h (w := (c.nanExec H (n, w)).2) e2 (CleanInv.exec H c (x := (n, w)) hx (fun hn => (hs.nan hn).2)) hg

private theorem calm_noError {log : List NanEv} (h : NanCalm log) : ∀ r t, NanEv.act r t .error ∉ log :=
  fun _ _ hm => h _ hm

private theorem simInit (iv : Time) (sh : Bool) : NanSim (Sched.init iv sh) (NanSched.init iv sh) :=
  ⟨⟨rfl, rfl, rfl, rfl⟩, fun t ht => by cases ht; exact ⟨rfl, fun b q h => nomatch h⟩, fun h => nomatch h⟩

private theorem good_numEv {log : List NanEv} (h : NanCalm log) : GoodLog (log.filterMap numEv) := by
  intro e he
  obtain ⟨e', he', heq⟩ := List.mem_filterMap.1 he
  cases e' with
  | added r t =>
    cases t with
    | nan => cases heq
    | num t => cases heq; trivial
  | act r t rep =>
    cases t with
    | nan => cases heq
    | num t =>
      cases heq
      have h1 := h _ he'
      cases rep with
      | dead => trivial
      | error => exact h1.elim
      | ret d =>
        cases d with
        | none => trivial
        | some d =>
          cases d with
          | nan => exact (by decide : (0 : Time) ≤ .inf)
          | num d => exact h1

private theorem addCount_numEv (r : Ref) : ∀ log : List NanEv, addCount r (log.filterMap numEv) = ((addTimes r log).filter (· ≠ .nan)).length
  | [] => rfl
  | e :: log => by
    have ih := addCount_numEv r log
    cases e with
    | act q t rep =>
      cases t with
      | nan => exact ih
      | num t =>
        change addCount r (Ev.act q t (numReply rep) :: _) = _
        rw [addCount, List.countP_cons]
        exact ih
    | added q t =>
      cases t with
      | nan =>
        change addCount r (log.filterMap numEv) = _
        by_cases hq : q = r
        · simp [addTimes, hq, ih]
        · simp [addTimes, hq, ih]
      | num t =>
        change addCount r (Ev.added q t :: log.filterMap numEv) = _
        rw [addCount, List.countP_cons]
        change addCount r (log.filterMap numEv) + _ = _
        by_cases hq : q = r
        · simp [addTimes, hq, ih, Ev.isAdd, Ev.ref]
        · simp [addTimes, hq, ih, Ev.isAdd, Ev.ref]

private theorem filter_numEv (r : Ref) : ∀ log : List NanEv, (log.filterMap numEv).filter (·.ref = r) = (log.filter (·.ref = r)).filterMap numEv
  | [] => rfl
  | e :: log => by
    have ih := filter_numEv r log
    have key : ∀ e', numEv e = some e' → e'.ref = e.ref := by
      intro e' h
      cases e with
      | added q t =>
        cases t with
        | nan => cases h
        | num t => cases h; rfl
      | act q t rep =>
        cases t with
        | nan => cases h
        | num t => cases h; rfl
    cases h : numEv e with
    | none =>
      by_cases hr : e.ref = r
      · simp [h, hr, ih]
      · simp [h, hr, ih]
    | some e' =>
      by_cases hr : e.ref = r
      · simp [h, hr, ih, key e' h]
      · simp [h, hr, ih, key e' h]

private theorem waiting_num (r : Ref) : ∀ q : List (FNum × List Ref), (∀ b ∈ q, b.1 = .nan → r ∉ b.2) →
    q.flatMap (fun b => (b.2.filter (· = r)).map (fun _ => b.1)) =
      (pendingOf ((q.filterMap numBucket).flatMap (fun b => b.2.map (·, b.1))) r).map .num
  | [], _ => rfl
  | (u, l) :: q, h => by
    have ih := waiting_num r q (fun b hb => h b (.tail _ hb))
    rw [List.flatMap_cons, ih]
    cases u with
    | nan =>
      have : l.filter (· = r) = [] := by
        rw [List.filter_eq_nil_iff]
        intro a ha hr
        exact h (.nan, l) (.head _) rfl (by simpa using (of_decide_eq_true hr) ▸ ha)
      have h' : ((.nan, l) :: q).filterMap numBucket = q.filterMap numBucket := rfl
      rw [h', this]
      rfl
    | num u =>
      simp only [List.filterMap_cons, numBucket, List.flatMap_cons, pendingOf_append, List.map_append]
      congr 1
      simp [pendingOf, List.filter_map, Function.comp_def]

/-- The exact scheduler behind a history. -/
private theorem nanShadow (H : NanHost W) (iv : Time) (hiv : 0 < iv) (sh : Bool) (w0 : W) (h : List (Cmd W))
    (hg : NanCalm (nanReach H iv sh w0 h).1.log) : ∃ s : Sched, NanSim s (nanReach H iv sh w0 h).1 ∧ Inv s ∧ s.interval = iv := by
  obtain ⟨h', e1, e2⟩ := NanSim.execAll H h (w := w0) (simInit iv sh) (calm_noError hg)
  have hlog := e2.rel.log
  refine ⟨_, e2, ?_, reach_interval (nanSim H) iv sh (NanSched.init iv sh, w0) h'⟩
  refine reach_inv (H := nanSim H) (sh := sh) (w0 := (NanSched.init iv sh, w0)) (h := h') hiv ?_
  change GoodLog (execAll (nanSim H) h' _).1.log
  rw [hlog]
  exact good_numEv hg

/-- C224: an agent that was added once, while the clock was a number, and never asks for `nan`: it acts only while the clock is a number, exactly when
it has asked for, and what it waits for is exactly its next wake-up – whatever the other agents ask for. -/
theorem C224_others_partial (H : NanHost W) (iv : Time) (hiv : 0 < iv) (sh : Bool) (w0 : W) (h : List (Cmd W))
    (hg : NanCalm (nanReach H iv sh w0 h).1.log) (r : Ref) (t0 : Time) (h1 : addTimes r (nanReach H iv sh w0 h).1.log = [.num t0])
    (h2 : ∀ t, .act r t (.ret (some .nan)) ∉ (nanReach H iv sh w0 h).1.log) :
    (∀ e ∈ (nanReach H iv sh w0 h).1.log, e.ref = r → e.time ≠ .nan) ∧
    ∃ due, Timeline iv none (((nanReach H iv sh w0 h).1.log.filter (·.ref = r)).filterMap numEv) due ∧
      waiting r (nanReach H iv sh w0 h).1 = due.toList.map .num := by
  obtain ⟨s, hs, hi, hiv'⟩ := nanShadow H iv hiv sh w0 h hg
  have hu : Untouched r (nanReach H iv sh w0 h).1.log := by
    refine ⟨fun hm => ?_, h2⟩
    have : FNum.nan ∈ addTimes r (nanReach H iv sh w0 h).1.log := List.mem_filterMap.2 ⟨_, hm, by simp⟩
    rw [h1] at this
    simp at this
  have hc : CleanInv r (NanSched.init iv sh) := fun _ => ⟨fun b hb => (nomatch hb), fun e he => (nomatch he)⟩
  obtain ⟨c1, c2⟩ := CleanInv.execAll H h (w := w0) (simInit iv sh) hc (calm_noError hg) hu
  refine ⟨c2, ?_⟩
  have hcount : addCount r s.log = 1 := by
    rw [hs.rel.log, addCount_numEv, h1]
    rfl
  obtain ⟨due, ht, hp, _⟩ := hi.legal.timeline r (by omega)
  refine ⟨due, ?_, ?_⟩
  · rw [hs.rel.log, filter_numEv, hiv'] at ht
    exact ht
  · have hpp : (pendingOf (pending s) r).Perm due.toList := by
      rw [← hp]
      exact (hi.pending_perm.filter _).map _
    have hpe : pendingOf (pending s) r = due.toList := by
      cases due with
      | none => exact hpp.eq_nil
      | some t => exact List.perm_singleton.1 hpp
    rw [← hpe, pending, hs.rel.queue]
    exact waiting_num r _ c1

set_option maxRecDepth 100000 in
example : NanCalm (nanReach nanExHost 1 true 0 nanExHist).1.log ∧ addTimes 1 (nanReach nanExHost 1 true 0 nanExHist).1.log = [.num 0] ∧
    NanEv.act 0 (.num 2) (.ret (some .nan)) ∈ (nanReach nanExHost 1 true 0 nanExHist).1.log ∧
    NanEv.act 1 (.num 14) (.ret (some (.num 2))) ∈ (nanReach nanExHost 1 true 0 nanExHist).1.log ∧
    waiting 1 (nanReach nanExHost 1 true 0 nanExHist).1 = [.num 16] := by
  decide +kernel

/-- C224: the readings of the clock that are numbers never go backwards, and neither do the events. -/
theorem C224_clock_partial (H : NanHost W) (iv : Time) (hiv : 0 < iv) (sh : Bool) (w0 : W) (h1 h2 : List (Cmd W))
    (hg : NanCalm (nanReach H iv sh w0 (h1 ++ h2)).1.log) (t u : Time) (ht : (nanReach H iv sh w0 h1).1.time = .num t)
    (hu : (nanReach H iv sh w0 (h1 ++ h2)).1.time = .num u) :
    0 ≤ t ∧ t ≤ u ∧ Chronological ((nanReach H iv sh w0 (h1 ++ h2)).1.log.filterMap numEv) := by
  have happ : nanReach H iv sh w0 (h1 ++ h2) = nanExecAll H h2 (nanReach H iv sh w0 h1) := by
    unfold nanReach nanExecAll
    rw [List.foldl_append]
  have hno := calm_noError hg
  rw [happ] at hno
  obtain ⟨k1, e1, e2⟩ := NanSim.execAll H h1 (w := w0) (simInit iv sh) (fun r t hm => hno r t ((nanExecAll_log H h2 _).subset hm))
  have hx : execAll (nanSim H) k1 (Sched.init iv sh, (NanSched.init iv sh, w0)) =
      ((execAll (nanSim H) k1 (Sched.init iv sh, (NanSched.init iv sh, w0))).1, nanReach H iv sh w0 h1) := Prod.ext rfl e1
  obtain ⟨k2, f1, f2⟩ := NanSim.execAll H h2 (w := (nanReach H iv sh w0 h1).2) e2 hno
  have hx2 : (reach (nanSim H) iv sh (NanSched.init iv sh, w0) (k1 ++ k2)) =
      execAll (nanSim H) k2 ((execAll (nanSim H) k1 (Sched.init iv sh, (NanSched.init iv sh, w0))).1, nanReach H iv sh w0 h1) := by
    rw [reach, execAll_append, hx]
  have hlog : (reach (nanSim H) iv sh (NanSched.init iv sh, w0) (k1 ++ k2)).1.log = (nanReach H iv sh w0 (h1 ++ h2)).1.log.filterMap numEv := by
    rw [hx2, happ]
    exact f2.rel.log
  obtain ⟨g1, g2, g3⟩ := C01_time_monotone (nanSim H) iv hiv sh (NanSched.init iv sh, w0) k1 k2 (by rw [hlog]; exact good_numEv hg)
  have ht' : (reach (nanSim H) iv sh (NanSched.init iv sh, w0) k1).1.time = t := (e2.num t ht).1
  have hu' : (reach (nanSim H) iv sh (NanSched.init iv sh, w0) (k1 ++ k2)).1.time = u := by
    rw [hx2]
    rw [happ] at hu
    exact (f2.num u hu).1
  rw [ht', hu'] at g2
  rw [ht'] at g1
  rw [hlog] at g3
  exact ⟨g1, g2, g3⟩

set_option maxRecDepth 100000 in
example : (nanReach nanExHost 1 true 0 (nanExHist.take 7)).1.time = .nan ∧ (nanReach nanExHost 1 true 0 (nanExHist.take 6)).1.time = .num 3 ∧
    (nanReach nanExHost 1 true 0 (nanExHist.take 8)).1.time = .num 4 := by
  decide +kernel

/-! ### Agents that meet `nan` -/

private theorem Timeline.noAdd {iv : Time} {l : List Ev} {due : Option Time} (h : Timeline iv none l due) (hl : ∀ e ∈ l, e.isAdd = false) : l = [] := by
  cases h with
  | nil => rfl
  | add h => exact absurd (hl _ (.head _)) (by simp [Ev.isAdd])

private theorem timeline_after {iv : Time} {r : Ref} {t : Time} : ∀ {l post : List Ev} {due due' : Option Time},
    Timeline iv due (l ++ .act r t (.ret (some .inf)) :: post) due' → ∃ due'', Timeline iv none post due''
  | [], post, due, due', h => by
    cases h with
    | act h =>
      have : nextWake iv t (.ret (some .inf)) = none := by
        cases t <;> rfl
      rw [this] at h
      exact ⟨_, h⟩
  | e :: l, post, due, due', h => by
    cases h with
    | add h => exact timeline_after h
    | act h => exact timeline_after h

private theorem onlyNan {r : Ref} {l : List NanEv} (h : (l.filter (·.ref = r)).filterMap numEv = []) {e : NanEv} (he : e ∈ l) (hr : e.ref = r) :
    e.time = .nan := by
  have := List.filterMap_eq_nil_iff.1 h e (List.mem_filter.2 ⟨he, by simpa using hr⟩)
  cases e with
  | added q u =>
    cases u with
    | nan => rfl
    | num u => cases this
  | act q u rep =>
    cases u with
    | nan => rfl
    | num u => cases this

/-- C224: an agent (added once) that asks for `nan` is never woken again at a time of the clock: whatever it does later happens while the clock is
`nan`. -/
theorem C224_lost_false (H : NanHost W) (iv : Time) (hiv : 0 < iv) (sh : Bool) (w0 : W) (h : List (Cmd W))
    (hg : NanCalm (nanReach H iv sh w0 h).1.log) (r : Ref) (h1 : (addTimes r (nanReach H iv sh w0 h).1.log).length = 1) (t : Time)
    (pre post : List NanEv) (hlog : (nanReach H iv sh w0 h).1.log = pre ++ .act r (.num t) (.ret (some .nan)) :: post) :
    ∀ e ∈ post, e.ref = r → e.time = .nan := by
  obtain ⟨s, hs, hi, hiv'⟩ := nanShadow H iv hiv sh w0 h hg
  have hcount : addCount r s.log ≤ 1 := by
    rw [hs.rel.log, addCount_numEv, ← h1]
    exact List.length_filter_le _ _
  obtain ⟨due, ht, _, _⟩ := hi.legal.timeline r hcount
  rw [hs.rel.log, filter_numEv, hlog, List.filter_append, List.filter_cons_of_pos (by simp [NanEv.ref]), List.filterMap_append] at ht
  change Timeline _ _ (_ ++ .act r t (.ret (some .inf)) :: (post.filter (·.ref = r)).filterMap numEv) _ at ht
  have hpost : addTimes r post = [] := by
    have hpre : addTimes r pre ≠ [] := by
      intro hnil
      cases hp : (pre.filter (·.ref = r)).filterMap numEv with
      | nil =>
        rw [hp] at ht
        cases ht
      | cons e l =>
        rw [hp] at ht
        cases ht with
        | @add r' t' _ _ ht =>
          have hm : Ev.added r' t' ∈ (pre.filter (·.ref = r)).filterMap numEv := by rw [hp]; exact .head _
          obtain ⟨e', he', heq⟩ := List.mem_filterMap.1 hm
          obtain ⟨he1, he2⟩ := List.mem_filter.1 he'
          have he3 : e'.ref = r := of_decide_eq_true he2
          have : ∃ x, x ∈ addTimes r pre := by
            cases e' with
            | act q u rep =>
              cases u with
              | nan => cases heq
              | num u => cases heq
            | added q u =>
              change q = r at he3
              exact ⟨u, List.mem_filterMap.2 ⟨_, he1, by simp [he3]⟩⟩
          rw [hnil] at this
          obtain ⟨x, hx⟩ := this
          cases hx
    rw [hlog] at h1
    have h1' : (addTimes r pre).length + (addTimes r post).length = 1 := by
      rw [← h1, ← List.length_append]
      simp [addTimes]
    have := List.length_pos_iff.2 hpre
    exact List.length_eq_zero_iff.1 (by omega)
  obtain ⟨due'', ht''⟩ := timeline_after ht
  have hB := Timeline.noAdd ht'' (fun e he => by
    obtain ⟨e', he', heq⟩ := List.mem_filterMap.1 he
    obtain ⟨he1, he2⟩ := List.mem_filter.1 he'
    cases e' with
    | act q u rep =>
      cases u with
      | nan => cases heq
      | num u => cases heq; rfl
    | added q u =>
      have he3 : q = r := of_decide_eq_true he2
      have : u ∈ addTimes r post := List.mem_filterMap.2 ⟨_, he1, by simp [he3]⟩
      rw [hpost] at this
      cases this)
  exact fun e he hr => onlyNan hB he hr

/-- The same agent goes on to act: it is not gone, but not on the clock any more. -/
theorem C224_lost_acts_false : ∃ (H : NanHost Nat) (h : List (Cmd Nat)), NanCalm (nanReach H 1 true 0 h).1.log ∧
    addTimes 0 (nanReach H 1 true 0 h).1.log = [.num 0] ∧ NanEv.act 0 (.num 2) (.ret (some .nan)) ∈ (nanReach H 1 true 0 h).1.log ∧
    ((nanReach H 1 true 0 h).1.log.filter (fun e => e.ref = 0 ∧ e.time = .nan)).length = 4 ∧
    addTimes 7 (nanReach H 1 true 0 h).1.log = [.nan] ∧
    NanEv.act 7 .nan (.ret (some (.num 8))) ∈ (nanReach H 1 true 0 h).1.log :=
  ⟨nanExHost, nanExHist, by decide +kernel⟩

/-- C224: an agent that is added (once) while the clock is `nan` never acts at a time of the clock. -/
theorem C224_newborn_false (H : NanHost W) (iv : Time) (hiv : 0 < iv) (sh : Bool) (w0 : W) (h : List (Cmd W))
    (hg : NanCalm (nanReach H iv sh w0 h).1.log) (r : Ref) (h1 : addTimes r (nanReach H iv sh w0 h).1.log = [.nan]) :
    ∀ e ∈ (nanReach H iv sh w0 h).1.log, e.ref = r → e.time = .nan := by
  obtain ⟨s, hs, hi, hiv'⟩ := nanShadow H iv hiv sh w0 h hg
  have hcount : addCount r s.log = 0 := by
    rw [hs.rel.log, addCount_numEv, h1]
    rfl
  obtain ⟨due, _, _, hz⟩ := hi.legal.timeline r (by omega)
  have hB := (hz hcount).2
  rw [hs.rel.log, filter_numEv] at hB
  exact fun e he hr => onlyNan hB he hr

/-- Sleeping for ever does not work while the clock is `nan`: `inf + nan` is not `inf`. -/
theorem C224_never_false : ∃ (H : NanHost Nat) (h : List (Cmd Nat)), NanCalm (nanReach H 1 false 0 h).1.log ∧
    (nanReach H 1 false 0 h).1.log = [.added 0 (.num 0), .act 0 (.num 0) (.ret (some .nan)), .act 0 .nan (.ret (some (.num .inf))),
      .act 0 .nan (.ret (some (.num .inf)))] :=
  ⟨{ step := fun _ _ w => (.ret (some (if w = 0 then .nan else .num .inf)), [], w + 1), shuffle := fun l w => (l, w),
     shuffle_perm := fun l _ => List.Perm.refl l }, [.op (.add 0 none), .step, .step, .step], by decide +kernel⟩

/-! ### Runs that do not end -/

/-- Waiting for `nan` only. -/
private structure NanStuck (n : NanSched) : Prop where
  running : n.running = true
  time : n.time = .nan
  queue : n.queue ≠ []
  nan : ∀ b ∈ n.queue, b.1 = .nan ∧ b.2 ≠ []

private theorem runNan_stuck (H : NanHost W) (hH : ∀ r s w, (H.step r s w).1 = .ret (some .nan) ∧ (H.step r s w).2.1 = []) (now : FNum) :
    ∀ (l : List Ref) (n : NanSched) (w : W),
    (runNan H now l n w).1.queue = n.queue ++ l.map (fun r => (.nan, [r])) ∧ (runNan H now l n w).1.running = n.running ∧
    (runNan H now l n w).2.2 = false
  | [], n, w => ⟨by simp [runNan], rfl, rfl⟩
  | r :: l, n, w => by
    obtain ⟨h1, h2⟩ := hH r n w
    rcases hres : H.step r n w with ⟨rep, os, w'⟩
    rw [hres] at h1 h2
    simp only at h1 h2
    subst h1 h2
    have hn : (FNum.pyOr (some .nan) (.num n.interval)).add now = .nan := by cases now <;> rfl
    have ha : ((n.applyOps []).logAct r now (.ret (some .nan))).after now r (.ret (some .nan)) =
        { n with queue := n.queue ++ [(.nan, [r])], log := n.log ++ [.act r now (.ret (some .nan))] } := by
      have e : FNum.eq .nan (.num .inf) = false := rfl
      simp only [NanSched.applyOps, List.foldl_nil, NanSched.logAct, NanSched.after, hn, e, Bool.false_eq_true, if_false, NanSched.schedule]
      change ({ n with queue := insertNan .nan r n.queue, log := _ } : NanSched) = _
      rw [insertNan_nan]
    rw [runNan]
    simp only [hres, ha]
    obtain ⟨e1, e2, e3⟩ := runNan_stuck H hH now l { n with queue := n.queue ++ [(.nan, [r])], log := n.log ++ [.act r now (.ret (some .nan))] } w'
    exact ⟨by rw [e1]; simp, e2, e3⟩

private theorem stuck_step (H : NanHost W) (hH : ∀ r s w, (H.step r s w).1 = .ret (some .nan) ∧ (H.step r s w).2.1 = []) {n : NanSched} {w : W}
    {t : FNum} {b : List Ref} {q : List (FNum × List Ref)} (hq : n.queue = (t, b) :: q) (hb : b ≠ []) (ht : t.gt n.time = false)
    (hr : n.running = true) (hn : ∀ b ∈ q, b.1 = .nan ∧ b.2 ≠ []) : NanStuck (n.step H w).1 ∧ (n.step H w).2.2 = false := by
  have hst : n.step H w = finishNan (runNan H n.time (nanOrder H n b w).1 { n with queue := q } (nanOrder H n b w).2) := by
    simp only [NanSched.step, hq, ht, Bool.false_eq_true, if_false]
  obtain ⟨e1, e2, e3⟩ := runNan_stuck H hH n.time (nanOrder H n b w).1 { n with queue := q } (nanOrder H n b w).2
  have ho : (nanOrder H n b w).1 ≠ [] := by
    unfold nanOrder
    split
    · exact fun h => hb (List.perm_nil.1 (h ▸ (H.shuffle_perm b w).symm))
    · exact hb
  rw [hst, finishNan, e3]
  simp only [Bool.false_eq_true, if_false]
  have hall : ∀ c ∈ q ++ (nanOrder H n b w).1.map (fun r => (FNum.nan, [r])), c.1 = .nan ∧ c.2 ≠ [] := by
    intro b' hb'
    rcases List.mem_append.1 hb' with h | h
    · exact hn b' h
    · obtain ⟨r, _, rfl⟩ := List.mem_map.1 h
      exact ⟨rfl, List.cons_ne_nil _ _⟩
  have hne : q ++ (nanOrder H n b w).1.map (fun r => (FNum.nan, [r])) ≠ [] := by
    intro h
    exact ho (List.map_eq_nil_iff.1 (List.append_eq_nil_iff.1 h).2)
  refine ⟨⟨e2.trans hr, ?_, ?_, ?_⟩, trivial⟩
  · change headNan _ = _
    rw [e1]
    change headNan (q ++ _) = _
    generalize q ++ (nanOrder H n b w).1.map (fun r => (FNum.nan, [r])) = q' at *
    cases q' with
    | nil => exact absurd rfl hne
    | cons c q' => exact (hall c (.head _)).1
  · change (runNan _ _ _ _ _).1.queue ≠ []
    rw [e1]
    exact hne
  · intro c hc
    change c ∈ (runNan _ _ _ _ _).1.queue at hc
    rw [e1] at hc
    exact hall c hc

private theorem stuck_loop (H : NanHost W) (hH : ∀ r s w, (H.step r s w).1 = .ret (some .nan) ∧ (H.step r s w).2.1 = []) (maxTime : Time) :
    ∀ (fuel : Nat) (n : NanSched) (w : W), NanStuck n → nanRunLoop H maxTime fuel (n, w) = none
  | 0, _, _, _ => rfl
  | fuel + 1, n, w, h => by
    cases hq : n.queue with
    | nil => exact absurd hq h.queue
    | cons c q =>
      obtain ⟨t, b⟩ := c
      obtain ⟨h1, h2⟩ := h.nan (t, b) (by rw [hq]; exact .head _)
      obtain ⟨e1, e2⟩ := stuck_step H hH (w := w) hq h2 (by rw [h.time]; cases t <;> rfl) h.running
        (fun b hb => h.nan b (by rw [hq]; exact .tail _ hb))
      rw [nanRunLoop]
      simp only [h.running, h.time, FNum.reached, e2, Bool.not_true, Bool.or_self, Bool.false_eq_true, if_false]
      exact stuck_loop H hH maxTime fuel _ _ e1

/-- C224: when every agent asks for `nan`, a simulation with any `max_time` never ends. -/
theorem C224_endless_false (H : NanHost W) (iv : Time) (sh : Bool) (w0 : W) (rs : List Ref) (hr : rs ≠ [])
    (hH : ∀ r s w, (H.step r s w).1 = .ret (some .nan) ∧ (H.step r s w).2.1 = []) (maxTime : Time) (hm : 0 < maxTime) (fuel : Nat) :
    nanRunLoop H maxTime fuel (nanReach H iv sh w0 (rs.map (fun r => .op (.add r none)))) = none := by
  have hadd : ∀ (rs l : List Ref) (n : NanSched), n.queue = [(.num 0, l)] → n.time = .num 0 → n.running = true →
      (nanExecAll H (rs.map (fun r => .op (.add r none))) (n, w0)).1.queue = [(.num 0, l ++ rs)] ∧
      (nanExecAll H (rs.map (fun r => .op (.add r none))) (n, w0)).1.time = .num 0 ∧
      (nanExecAll H (rs.map (fun r => .op (.add r none))) (n, w0)).1.running = true := by
    intro rs
    induction rs with
    | nil => exact fun l n h1 h2 h3 => ⟨by simpa [nanExecAll] using h1, h2, h3⟩
    | cons r rs ih =>
      intro l n h1 h2 h3
      have := ih (l ++ [r]) (n.addAgent r) (by
        change insertNan (FNum.pyOr none n.time) r n.queue = _
        rw [h1, h2]
        rfl) h2 h3
      rw [List.append_assoc] at this
      exact this
  obtain ⟨r, rs, rfl⟩ := List.exists_cons_of_ne_nil hr
  obtain ⟨h1, h2, h3⟩ := hadd rs [r] ((NanSched.init iv sh).addAgent r) rfl rfl rfl
  change nanRunLoop H maxTime fuel (nanExecAll H (rs.map (fun r => .op (.add r none))) ((NanSched.init iv sh).addAgent r, w0)) = none
  generalize nanExecAll H (rs.map (fun r => .op (.add r none))) ((NanSched.init iv sh).addAgent r, w0) = x at *
  obtain ⟨n, w⟩ := x
  cases fuel with
  | zero => rfl
  | succ fuel =>
    simp only at h1 h2 h3
    obtain ⟨e1, e2⟩ := stuck_step H hH (w := w) h1 (by simp) (by rw [h2]; rfl) h3 (fun b hb => (nomatch hb))
    rw [nanRunLoop]
    simp only [h3, h2, FNum.reached, e2, decide_eq_false (not_le.2 hm), Bool.not_true, Bool.or_self, Bool.false_eq_true, if_false]
    exact stuck_loop H hH maxTime fuel _ _ e1

/-- Two agents that always ask for `nan`. -/
def nanOnlyHost : NanHost Unit where
  step _ _ _ := (.ret (some .nan), [], ())
  shuffle l _ := (l.reverse, ())
  shuffle_perm l _ := List.reverse_perm l

set_option maxRecDepth 100000 in
example : nanRunLoop nanOnlyHost 5 40 (nanReach nanOnlyHost 1 true () [.op (.add 0 none), .op (.add 1 none)]) = none ∧
    (nanRunLoop nanExHost 5 40 (nanReach nanExHost 1 true 0 [.op (.add 0 none), .op (.add 1 none)])).isSome = true := by
  refine ⟨C224_endless_false nanOnlyHost 1 true () [0, 1] (by decide) (fun _ _ _ => ⟨rfl, rfl⟩) 5 (by decide) 40, ?_⟩
  decide +kernel

/-- C224: one step of the priority queue never ends when all the agents in it are due and ask for `nan`. -/
theorem C224_heap_false (reply : Nat → Nat → Option FNum) (hr : ∀ i k, reply i k = some .nan) (iv now : Time) (q : List NanEntry) (hq : q ≠ [])
    (hdue : ∀ e ∈ q, e.when_ = .num now) (fuel : Nat) (acts : List Nat) : nanHeapLoop reply iv (.num now) fuel q acts = none := by
  have key : ∀ (fuel : Nat) (q : List NanEntry) (acts : List Nat), q ≠ [] → (∀ e ∈ q, e.when_.gt (.num now) = false) →
      nanHeapLoop reply iv (.num now) fuel q acts = none := by
    intro fuel
    induction fuel with
    | zero => exact fun _ _ _ _ => rfl
    | succ fuel ih =>
      intro q acts hq hd
      cases q with
      | nil => exact absurd rfl hq
      | cons e q =>
        obtain ⟨q', h1, h2⟩ := heapreplace_perm (lt := NanEntry.lt) e q ⟨.nan, e.id⟩
        have e1 : (FNum.pyOr (some .nan) (.num iv)).add (.num now) = .nan := rfl
        have e2 : FNum.eq .nan (.num .inf) = false := rfl
        rw [nanHeapLoop]
        simp only [hd e (.head _), hr, e1, e2, h1, Bool.false_eq_true, if_false]
        refine ih q' _ ?_ ?_
        · intro h
          rw [h] at h2
          exact absurd (List.nil_perm.1 h2) (List.cons_ne_nil _ _)
        · intro x hx
          rcases List.mem_cons.1 (h2.mem_iff.1 hx) with h | h
          · rw [h]; rfl
          · exact hd x (.tail _ h)
  refine key fuel q acts hq (fun e he => ?_)
  rw [hdue e he]
  simp [FNum.gt]

set_option maxRecDepth 100000 in
example : nanHeapLoop (fun _ _ => some .nan) 1 (.num 0) 40 [⟨.num 0, 0⟩, ⟨.num 0, 1⟩] [] = none := by
  decide +kernel

set_option maxRecDepth 100000 in
example : (nanHeapLoop (fun i _ => some (.num (.fin (i + 1 : Nat)))) 1 (.num 0) 40 [⟨.num 0, 0⟩, ⟨.num 0, 1⟩] []).isSome = true := by
  decide +kernel

/-- Agent 1 asks for `nan` during the first five activations, otherwise agent `i` asks for `5 - i`. -/
def nanLateReply (i k : Nat) : Option FNum := if i = 1 ∧ k < 5 then some .nan else some (.num (.fin (5 - i : Nat)))

set_option maxRecDepth 100000 in
/-- C224: with the priority queue the others suffer: agent 3 asks for 2 at time 4 and is still not woken at time 20. -/
theorem C224_heap_late_false :
    (∀ k, nanLateReply 3 k = some (.num 2)) ∧
    ∃ steps, nanHeapSteps nanLateReply 1 50 12 (.num 0) [⟨.num 0, 0⟩, ⟨.num 0, 1⟩, ⟨.num 0, 2⟩, ⟨.num 0, 3⟩] [] = some steps ∧
      (FNum.num 4, [3]) ∈ steps ∧ (FNum.num 20, [0]) ∈ steps ∧
      ∀ e ∈ steps, 3 ∈ e.2 → e.1 = .num 0 ∨ e.1 = .num 2 ∨ e.1 = .num 4 := by
  refine ⟨fun k => ?_, [(.num 0, [0, 1, 2, 1, 3]), (.num 2, [3]), (.num 3, [2]), (.num 4, [3]), (.num 5, [0]), (.num 6, [2]), (.num 9, [2]),
    (.num 10, [0]), (.num 12, [2]), (.num 15, [0, 2]), (.num 18, [2]), (.num 20, [0])], ?_⟩
  · simp only [nanLateReply]
    rw [if_neg (by omega)]
    rfl
  · decide +kernel

/-- C224: with the priority queue the clock never is `nan`: a step that ends at the time `now` advances it to a later time, `inf` if nobody is left. -/
theorem C224_heap_clock_partial (reply : Nat → Nat → Option FNum) (iv now : Time) (hnow : now ≠ .inf) (fuel : Nat) (q q' : List NanEntry) (acts acts' : List Nat)
    (next : FNum) (h : nanHeapLoop reply iv (.num now) fuel q acts = some (q', acts', next)) :
    ∃ t, next = .num t ∧ now < t ∧ (q' = [] → t = .inf) ∧ acts <+: acts' := by
  induction fuel generalizing q acts with
  | zero => cases h
  | succ fuel ih =>
    unfold nanHeapLoop at h
    cases q with
    | nil =>
      simp only [Option.some.injEq, Prod.mk.injEq] at h
      obtain ⟨rfl, rfl, rfl⟩ := h
      refine ⟨.inf, rfl, ?_, fun _ => rfl, List.prefix_rfl⟩
      cases now with
      | inf => exact absurd rfl hnow
      | fin a => exact lt_of_le_of_ne (Time.le_inf _) (fun h => by cases h)
    | cons e q =>
      simp only at h
      split at h
      · rename_i hgt
        simp only [Option.some.injEq, Prod.mk.injEq] at h
        obtain ⟨rfl, rfl, rfl⟩ := h
        cases hw : e.when_ with
        | nan => rw [hw] at hgt; cases hgt
        | num t =>
          rw [hw] at hgt
          exact ⟨t, rfl, of_decide_eq_true hgt, fun h => (by cases h), List.prefix_rfl⟩
      · split at h
        · obtain ⟨t, h1, h2, h3, h4⟩ := ih _ _ h
          exact ⟨t, h1, h2, h3, (List.prefix_append _ _).trans h4⟩
        · split at h
          · cases h
          · obtain ⟨t, h1, h2, h3, h4⟩ := ih _ _ h
            exact ⟨t, h1, h2, h3, (List.prefix_append _ _).trans h4⟩

/-! ### Without `nan` -/

namespace Spec

/-- Numbers as floats. -/
def nanReply : Reply → NanReply
  | .ret d => .ret (d.map .num)
  | .dead => .dead
  | .error => .error

/-- Events, likewise. -/
def nanEv : Ev → NanEv
  | .added r t => .added r (.num t)
  | .act r t rep => .act r (.num t) (nanReply rep)

/-- Schedulers, likewise. -/
def nanSched (s : Sched) : NanSched where
  time := .num s.time
  steps := s.steps
  queue := s.queue.map (fun b => (.num b.1, b.2))
  agents := s.agents
  interval := s.interval
  shuffle := s.shuffle
  running := s.running
  log := s.log.map nanEv

/-- Agents that do the same in both models as long as there is no `nan`, and never ask for it. -/
structure NanExtends (H : NanHost W) (H0 : Host W) : Prop where
  step : ∀ r s w, H.step r (nanSched s) w = (nanReply (H0.step r s w).1, (H0.step r s w).2.1, (H0.step r s w).2.2)
  shuffle : ∀ l w, H.shuffle l w = H0.shuffle l w

end Spec

theorem insertNan_nums (t : Time) (r : Ref) (q : List (Time × List Ref)) :
    insertNan (.num t) r (q.map (fun b => (.num b.1, b.2))) = (insertBucket t r q).map (fun b => (.num b.1, b.2)) := by
  induction q with
  | nil => rfl
  | cons b q ih =>
    obtain ⟨u, l⟩ := b
    simp only [List.map_cons, insertNan, insertBucket, FNum.eq, FNum.gt, decide_eq_true_eq]
    split
    · rfl
    · split
      · rfl
      · rw [ih]; rfl

theorem pyOr_num (x : Option Time) (d : Time) : FNum.pyOr (x.map .num) (.num d) = .num (Time.pyOr x d) := by
  cases x with
  | none => rfl
  | some t =>
    simp only [Option.map_some, FNum.pyOr, Time.pyOr]
    split <;> rfl

theorem nanSched_schedule (s : Sched) (r : Ref) (x : Option Time) : (nanSched s).schedule r (x.map .num) = nanSched (s.schedule r x) := by
  have e1 : (nanSched s).time = .num s.time := rfl
  have e2 : (nanSched s).queue = s.queue.map (fun b => (.num b.1, b.2)) := rfl
  unfold NanSched.schedule Sched.schedule
  rw [e1, e2, pyOr_num, insertNan_nums]
  rfl

theorem nanSched_op (s : Sched) (o : SOp) : (nanSched s).applyOp o = nanSched (s.applyOp o) := by
  cases o with
  | add r w =>
    have := nanSched_schedule s r none
    simp only [Option.map_none] at this
    simp only [NanSched.applyOp, NanSched.addAgent, this, Sched.applyOp, Sched.addAgent]
    simp only [nanSched, nanEv, List.map_append, List.map_cons, List.map_nil]
    congr 1
  | remove r => rfl
  | stop => rfl

theorem nanSched_ops (os : List SOp) (s : Sched) : (nanSched s).applyOps os = nanSched (s.applyOps os) := by
  induction os generalizing s with
  | nil => rfl
  | cons o os ih =>
    show ((nanSched s).applyOp o).applyOps os = _
    rw [nanSched_op, ih]
    rfl

theorem nanSched_logAct (s : Sched) (r : Ref) (t : Time) (rep : Reply) : (nanSched s).logAct r (.num t) (nanReply rep) = nanSched (s.logAct r t rep) := by
  simp [NanSched.logAct, Sched.logAct, nanSched, nanEv]

theorem runNan_num {H : NanHost W} {H0 : Host W} (hH : NanExtends H H0) (now : Time) (l : List Ref) (s : Sched) (w : W) :
    runNan H (.num now) l (nanSched s) w = (nanSched (runBucket H0 now l s w).1, (runBucket H0 now l s w).2.1, (runBucket H0 now l s w).2.2) := by
  induction l generalizing s w with
  | nil => rfl
  | cons r l ih =>
    unfold runNan runBucket
    simp only [hH.step, nanSched_ops, nanSched_logAct]
    cases hr : (H0.step r s w).1 with
    | error => rfl
    | dead =>
      simp only [nanReply]
      exact ih _ _
    | ret d =>
      have e1 : ∀ s' : Sched, (nanSched s').interval = s'.interval := fun _ => rfl
      have hadd : ∀ a b : Time, (FNum.num a).add (.num b) = .num (a + b) := fun _ _ => rfl
      have heq : ∀ a b : Time, (FNum.num a).eq (.num b) = decide (a = b) := fun _ _ => rfl
      simp only [nanReply, NanSched.after, e1, pyOr_num, hadd, heq, decide_eq_true_eq]
      split
      · exact ih _ _
      · have := nanSched_schedule ((s.applyOps (H0.step r s w).2.1).logAct r now (.ret d)) r
          (some (Time.pyOr d ((s.applyOps (H0.step r s w).2.1).logAct r now (.ret d)).interval + now))
        simp only [Option.map_some] at this
        rw [this]
        exact ih _ _

theorem nanStep_num {H : NanHost W} {H0 : Host W} (hH : NanExtends H H0) (s : Sched) (w : W) :
    (nanSched s).step H w = (nanSched (s.step H0 w).1, (s.step H0 w).2.1, (s.step H0 w).2.2) := by
  unfold NanSched.step Sched.step
  cases hq : s.queue with
  | nil =>
    have : (nanSched s).queue = [] := by simp [nanSched, hq]
    rw [this]
  | cons b q =>
    obtain ⟨t, bucket⟩ := b
    have e : (nanSched s).queue = (.num t, bucket) :: q.map (fun b => (.num b.1, b.2)) := by simp [nanSched, hq]
    have e1 : (FNum.num t).gt (nanSched s).time = decide (s.time < t) := rfl
    rw [e]
    simp only [e1, decide_eq_true_eq]
    split
    · rfl
    · have ho : nanOrder H (nanSched s) bucket w = runOrder H0 s bucket w := by
        have e2 : (nanSched s).shuffle = s.shuffle := rfl
        unfold nanOrder runOrder
        rw [e2, hH.shuffle]
      have e3 : ({ nanSched s with queue := q.map (fun b => (.num b.1, b.2)) } : NanSched) = nanSched { s with queue := q } := rfl
      have e4 : (nanSched s).time = .num s.time := rfl
      rw [ho, e3, e4, runNan_num hH]
      generalize runBucket H0 s.time (runOrder H0 s bucket w).1 { s with queue := q } (runOrder H0 s bucket w).2 = res
      obtain ⟨s', w', b⟩ := res
      unfold finishNan finishStep
      cases b with
      | true => rfl
      | false =>
        have : headNan (nanSched s').queue = .num (headTime s'.queue) := by
          have : (nanSched s').queue = s'.queue.map (fun b => (.num b.1, b.2)) := rfl
          rw [this]
          cases s'.queue <;> rfl
        simp only [Bool.false_eq_true, if_false, this]
        rfl

/-- C224: as long as nobody asks for `nan`, everything is as for numbers: the state after any history is that of the scheduler of the other claims, and a
run with `max_time` that ends ends in the same state. -/
theorem C224_numbers_partial (H : NanHost W) (H0 : Host W) (hH : NanExtends H H0) (iv : Time) (sh : Bool) (w0 : W) (h : List (Cmd W)) :
    nanReach H iv sh w0 h = (nanSched (execAll H0 h (Sched.init iv sh, w0)).1, (execAll H0 h (Sched.init iv sh, w0)).2) ∧
    ∀ (maxTime : Time) (fuel : Nat) (s s' : Sched) (w w' : W), runLoop (timedStepper H0) (some maxTime) none fuel (s, w) = .done (s', w') →
      nanRunLoop H maxTime (fuel + 1) (nanSched s, w) = some (nanSched s', w') := by
  constructor
  · have key : ∀ (h : List (Cmd W)) (s : Sched) (w : W), nanExecAll H h (nanSched s, w) = (nanSched (execAll H0 h (s, w)).1, (execAll H0 h (s, w)).2) := by
      intro h
      induction h with
      | nil => exact fun _ _ => rfl
      | cons c h ih =>
        intro s w
        cases c with
        | step =>
          show nanExecAll H h (((nanSched s).step H w).1, ((nanSched s).step H w).2.1) = _
          rw [nanStep_num hH]
          exact ih _ _
        | op o =>
          show nanExecAll H h ((nanSched s).applyOp o, w) = _
          rw [nanSched_op]
          exact ih _ _
        | world f => exact ih s (f w)
    exact key h (Sched.init iv sh) w0
  · intro maxTime fuel
    induction fuel with
    | zero =>
      intro s s' w w' hd
      unfold runLoop at hd
      split at hd
      · rename_i hdone
        cases hd
        have e : (!(nanSched s).running || (nanSched s).time.reached maxTime) = true := hdone
        unfold nanRunLoop
        rw [if_pos e]
      · cases hd
    | succ fuel ih =>
      intro s s' w w' hd
      unfold runLoop at hd
      unfold nanRunLoop
      have e : (!(nanSched s).running || (nanSched s).time.reached maxTime) = isDone (timedStepper H0) (some maxTime) none (s, w) := rfl
      rw [e]
      split at hd
      · rename_i hdone
        cases hd
        rw [if_pos hdone]
      · rename_i hdone
        rw [if_neg hdone]
        simp only [nanStep_num hH]
        by_cases hb : (s.step H0 w).2.2 = true
        · have hb' : ((timedStepper H0).step (s, w)).2 = true := hb
          rw [if_pos hb'] at hd
          cases hd
        · have hb' : ¬ ((timedStepper H0).step (s, w)).2 = true := hb
          rw [if_neg hb'] at hd
          rw [if_neg hb]
          exact ih _ _ _ _ hd

/-- Agent `r` asks for `r + 1`, and agent 1 stops the model at the time 4. -/
def nanNumHost0 : Host Nat where
  step r s w := (.ret (some (.fin (r + 1 : Nat))), if r = 1 ∧ s.time = 4 then [.stop] else [], w + 1)
  shuffle l w := (l.reverse, w)
  shuffle_perm l _ := List.reverse_perm l

/-- The same in the model with `nan`. -/
def nanNumHost : NanHost Nat where
  step r s w := (.ret (some (.num (.fin (r + 1 : Nat)))), if r = 1 ∧ s.time = .num 4 then [.stop] else [], w + 1)
  shuffle l w := (l.reverse, w)
  shuffle_perm l _ := List.reverse_perm l

/-- The hypothesis of the theorem. -/
theorem nanNum_extends : NanExtends nanNumHost nanNumHost0 where
  step r s w := by
    have : ((nanSched s).time = FNum.num 4) = (s.time = 4) := by simp [nanSched]
    simp only [nanNumHost, nanNumHost0, this]
    rfl
  shuffle _ _ := rfl

set_option maxRecDepth 100000 in
example : (nanRunLoop nanNumHost 10 30 (nanReach nanNumHost 1 true 0 [.op (.add 0 none), .op (.add 1 none)])).map (fun x => (x.1.time, x.1.agents, x.2)) =
    some (.num 5, [0, 1], 8) := by
  decide +kernel

end Verif
