import Verif.Model.Timed
import Verif.Proofs.Calendar

/-! Invariants of the `TimedActivation` model: it refines the event calendar. -/

namespace Verif
open Spec

variable {W : Type}

/-- Agents in the bucket for time `t`. -/
def bucketAt : List (Time × List Ref) → Time → List Ref
  | [], _ => []
  | (u, l) :: q, t => if u = t then l else bucketAt q t

/-- Buckets are in strictly increasing time order. -/
def SortedQ (q : List (Time × List Ref)) : Prop := q.Pairwise (fun a b => a.1 < b.1)

theorem bucketAt_of_lt {q : List (Time × List Ref)} {t : Time} (h : ∀ b ∈ q, t < b.1) :
    bucketAt q t = [] := by
  induction q with
  | nil => rfl
  | cons b q ih =>
    have hb := h b (by simp)
    simp only [bucketAt]
    rw [if_neg (ne_of_gt hb)]
    exact ih (fun c hc => h c (by simp [hc]))

theorem mem_insertBucket {t : Time} {r : Ref} {q : List (Time × List Ref)} {b : Time × List Ref}
    (h : b ∈ insertBucket t r q) : b.1 = t ∨ b ∈ q := by
  induction q with
  | nil => simp [insertBucket] at h; simp [h]
  | cons c q ih =>
    obtain ⟨u, l⟩ := c
    simp only [insertBucket] at h
    split at h
    · rcases List.mem_cons.1 h with rfl | h
      · left; assumption
      · right; simp [h]
    · split at h
      · rcases List.mem_cons.1 h with rfl | h
        · left; rfl
        · right; exact h
      · rcases List.mem_cons.1 h with rfl | h
        · right; simp
        · rcases ih h with h | h
          · left; exact h
          · right; simp [h]

theorem insertBucket_sorted {t : Time} {r : Ref} {q : List (Time × List Ref)}
    (h : SortedQ q) : SortedQ (insertBucket t r q) := by
  induction q with
  | nil => simp [insertBucket, SortedQ]
  | cons c q ih =>
    obtain ⟨u, l⟩ := c
    have hc := List.pairwise_cons.1 h
    simp only [insertBucket]
    split
    · exact List.pairwise_cons.2 ⟨hc.1, hc.2⟩
    · split
      · rename_i hlt
        refine List.pairwise_cons.2 ⟨?_, h⟩
        intro b hb
        rcases List.mem_cons.1 hb with rfl | hb
        · exact hlt
        · exact lt_trans hlt (hc.1 b hb)
      · rename_i hne hnlt
        refine List.pairwise_cons.2 ⟨?_, ih hc.2⟩
        intro b hb
        rcases mem_insertBucket hb with h1 | h1
        · rw [h1]; exact lt_of_le_of_ne (not_lt.1 hnlt) hne
        · exact hc.1 b h1

theorem bucketAt_insert {t u : Time} {r : Ref} {q : List (Time × List Ref)} (h : SortedQ q) :
    bucketAt (insertBucket t r q) u =
      bucketAt q u ++ (if u = t then [r] else []) := by
  induction q with
  | nil =>
    simp only [insertBucket, bucketAt]
    by_cases hu : t = u <;> simp [hu, eq_comm]
  | cons c q ih =>
    obtain ⟨v, l⟩ := c
    have hc := List.pairwise_cons.1 h
    simp only [insertBucket]
    split
    · rename_i hv; subst hv
      simp only [bucketAt]
      by_cases hu : v = u
      · simp [hu]
      · have : ¬ u = v := fun e => hu e.symm
        simp [hu, this]
    · rename_i hv
      split
      · rename_i hlt
        have hnil : bucketAt ((v, l) :: q) t = [] := by
          apply bucketAt_of_lt
          intro b hb
          rcases List.mem_cons.1 hb with rfl | hb
          · exact hlt
          · exact lt_trans hlt (hc.1 b hb)
        rw [bucketAt]
        by_cases hu : t = u
        · subst hu; rw [hnil]; simp
        · have : ¬ u = t := fun e => hu e.symm
          simp [hu, this]
      · simp only [bucketAt]
        rw [ih hc.2]
        by_cases hu : v = u
        · have : ¬ u = t := fun e => hv (hu.trans e)
          simp [hu, this]
        · simp [hu]

/-- All bucket times are at least `t`. -/
def QGe (t : Time) (q : List (Time × List Ref)) : Prop := ∀ b ∈ q, t ≤ b.1

/-- No bucket is empty. -/
def QNe (q : List (Time × List Ref)) : Prop := ∀ b ∈ q, b.2 ≠ []

theorem insertBucket_ne {t : Time} {r : Ref} {q : List (Time × List Ref)}
    (h : QNe q) : QNe (insertBucket t r q) := by
  induction q with
  | nil => intro b hb; simp [insertBucket] at hb; simp [hb]
  | cons c q ih =>
    obtain ⟨u, l⟩ := c
    have hq : QNe q := fun b hb => h b (by simp [hb])
    simp only [insertBucket]
    split
    · intro b hb
      rcases List.mem_cons.1 hb with rfl | hb
      · simp
      · exact hq b hb
    · split
      · intro b hb
        rcases List.mem_cons.1 hb with rfl | hb
        · simp
        · exact h b hb
      · intro b hb
        rcases List.mem_cons.1 hb with rfl | hb
        · exact h _ (by simp)
        · exact ih hq b hb

theorem insertBucket_ge {t u : Time} {r : Ref} {q : List (Time × List Ref)}
    (h : QGe u q) (hu : u ≤ t) : QGe u (insertBucket t r q) := by
  intro b hb
  rcases mem_insertBucket hb with h1 | h1
  · rw [h1]; exact hu
  · exact h b h1

theorem insertBucket_ne_nil {t : Time} {r : Ref} {q : List (Time × List Ref)} :
    insertBucket t r q ≠ [] := by
  cases q with
  | nil => simp [insertBucket]
  | cons c q => simp only [insertBucket]; repeat' split <;> simp

/-! ### Invariant inside a step -/

/-- Invariant while a bucket is being run: `rest` is what is left of the bucket popped at
time `now`; `l` is the order in which the calendar lists those agents. -/
structure MidInv (now : Time) (rest l : List Ref) (s : Sched) : Prop where
  time_eq : s.time = now
  now_nonneg : 0 ≤ now
  iv_pos : 0 < s.interval
  sorted : SortedQ s.queue
  ne : QNe s.queue
  ge : QGe now s.queue
  perm : l.Perm rest
  due : ∀ t, dueAt (cal s.interval s.log) t = (if t = now then l else []) ++ bucketAt s.queue t
  legal : Legal s.interval s.log
  chron : Chronological s.log
  past : ∀ e ∈ s.log, e.time ≤ now

theorem MidInv.mem_le {now : Time} {rest l : List Ref} {s : Sched} (h : MidInv now rest l s) :
    ∀ p ∈ cal s.interval s.log, now ≤ p.2 := by
  rintro ⟨r, t⟩ hp
  have hr : r ∈ dueAt (cal s.interval s.log) t := mem_dueAt.2 hp
  rw [h.due] at hr
  by_cases ht : t = now
  · simp [ht]
  · simp only [ht, if_false, List.nil_append] at hr
    have : ∃ b ∈ s.queue, b.1 = t := by
      have aux : ∀ q : List (Time × List Ref), r ∈ bucketAt q t → ∃ b ∈ q, b.1 = t := by
        intro q
        induction q with
        | nil => simp [bucketAt]
        | cons c q ih =>
          obtain ⟨u, m⟩ := c
          simp only [bucketAt]
          split
          · rename_i hu; intro _; exact ⟨(u, m), by simp, hu⟩
          · intro hm; obtain ⟨b, hb, hb2⟩ := ih hm; exact ⟨b, by simp [hb], hb2⟩
      exact aux _ hr
    obtain ⟨b, hb, rfl⟩ := this
    exact h.ge b hb

theorem MidInv.add {now : Time} {rest l : List Ref} {s : Sched} (h : MidInv now rest l s)
    (r : Ref) (w : Option Time) : MidInv now rest l (s.addAgent r w) := by
  have hq : (s.addAgent r w).queue = insertBucket now r s.queue := by
    simp [Sched.addAgent, Sched.schedule, Time.pyOr, h.time_eq]
  have hl : (s.addAgent r w).log = s.log ++ [.added r now] := by
    simp [Sched.addAgent, Sched.schedule, h.time_eq]
  have hi : (s.addAgent r w).interval = s.interval := rfl
  refine { time_eq := h.time_eq, now_nonneg := h.now_nonneg, iv_pos := h.iv_pos, sorted := ?_, ne := ?_, ge := ?_, perm := h.perm, due := ?_, legal := ?_, chron := ?_, past := ?_ }
  · rw [hq]; exact insertBucket_sorted h.sorted
  · rw [hq]; exact insertBucket_ne h.ne
  · rw [hq]; exact insertBucket_ge h.ge le_rfl
  · intro t
    rw [hi, hl, hq, cal_append_one, bucketAt_insert h.sorted]
    simp only [calStep, dueAt_append, h.due t]
    by_cases ht : t = now
    · simp [ht, dueAt_cons]
    · have : ¬ now = t := fun e => ht e.symm
      simp [ht, this, dueAt_cons]
  · rw [hi, hl]
    exact h.legal.snoc h.mem_le
  · rw [hl]; exact h.chron.snoc h.past
  · rw [hl]; intro e he
    rcases List.mem_append.1 he with he | he
    · exact h.past e he
    · simp at he; subst he; exact le_rfl

theorem MidInv.op {now : Time} {rest l : List Ref} {s : Sched} (h : MidInv now rest l s)
    (o : SOp) : MidInv now rest l (s.applyOp o) := by
  cases o with
  | add r w => exact h.add r w
  | remove r => exact ⟨h.time_eq, h.now_nonneg, h.iv_pos, h.sorted, h.ne, h.ge, h.perm, h.due, h.legal, h.chron, h.past⟩
  | stop => exact ⟨h.time_eq, h.now_nonneg, h.iv_pos, h.sorted, h.ne, h.ge, h.perm, h.due, h.legal, h.chron, h.past⟩

theorem MidInv.ops {now : Time} {rest l : List Ref} {s : Sched} (h : MidInv now rest l s)
    (os : List SOp) : MidInv now rest l (s.applyOps os) := by
  induction os generalizing s with
  | nil => exact h
  | cons o os ih => exact ih (h.op o)

/-- The state after one agent of the bucket has run (lines 170-177). -/
def afterAct (s : Sched) (r : Ref) (now : Time) : Reply → Sched
  | .ret d =>
    let s1 := s.logAct r now (.ret d)
    if Time.pyOr d s1.interval + now = .inf then s1
    else s1.schedule r (some (Time.pyOr d s1.interval + now))
  | rep => s.logAct r now rep

theorem pyOr_eq_eff (d : Option Time) (iv : Time) : Time.pyOr d iv = effDelay iv d := by
  cases d <;> rfl

theorem time_add_comm (a b : Time) : a + b = b + a := by
  cases a <;> cases b <;> simp [Rat.add_comm]

theorem MidInv.act {now : Time} {r : Ref} {rest l : List Ref} {s : Sched}
    (h : MidInv now (r :: rest) l s) (rep : Reply) (hg : GoodReply rep) :
    MidInv now rest (l.erase r) (afterAct s r now rep) := by
  have hrl : r ∈ l := h.perm.mem_iff.2 (by simp)
  have hmem : (r, now) ∈ cal s.interval s.log := by
    rw [← mem_dueAt, h.due]; simp [hrl]
  have hlog : (afterAct s r now rep).log = s.log ++ [.act r now rep] := by
    cases rep with
    | ret d =>
      by_cases hh : Time.pyOr d s.interval + now = .inf <;>
        simp [afterAct, Sched.logAct, Sched.schedule, hh]
    | dead => rfl
    | error => rfl
  have hi : (afterAct s r now rep).interval = s.interval := by
    cases rep with
    | ret d =>
      by_cases hh : Time.pyOr d s.interval + now = .inf <;>
        simp [afterAct, Sched.logAct, Sched.schedule, hh]
    | dead => rfl
    | error => rfl
  have ht : (afterAct s r now rep).time = s.time := by
    cases rep with
    | ret d =>
      by_cases hh : Time.pyOr d s.interval + now = .inf <;>
        simp [afterAct, Sched.logAct, Sched.schedule, hh]
    | dead => rfl
    | error => rfl
  -- the queue after the activation
  have hq : (afterAct s r now rep).queue =
      match nextWake s.interval now rep with
      | none => s.queue
      | some u => insertBucket u r s.queue := by
    cases rep with
    | ret d =>
      have e1 : Time.pyOr d s.interval + now = now + effDelay s.interval d := by
        rw [pyOr_eq_eff, time_add_comm]
      simp only [afterAct, Sched.logAct, nextWake, e1]
      split
      · rfl
      · rename_i hne
        simp only [Sched.schedule]
        have hpos := effDelay_pos h.iv_pos hg
        have hlt := Time.lt_add_of_pos hpos (Time.add_ne_inf hne).1
        have h0 : now + effDelay s.interval d ≠ 0 := ne_of_gt (lt_of_le_of_lt h.now_nonneg hlt)
        simp only [Time.pyOr, if_neg h0]
    | dead => rfl
    | error => rfl
  have hlegal : Legal s.interval (s.log ++ [.act r now rep]) :=
    h.legal.snoc ⟨hmem, h.mem_le⟩
  refine { time_eq := ?_, now_nonneg := h.now_nonneg, iv_pos := ?_, sorted := ?_, ne := ?_, ge := ?_, perm := ?_, due := ?_, legal := ?_, chron := ?_, past := ?_ }
  · rw [ht]; exact h.time_eq
  · rw [hi]; exact h.iv_pos
  · rw [hq]; split
    · exact h.sorted
    · exact insertBucket_sorted h.sorted
  · rw [hq]; split
    · exact h.ne
    · exact insertBucket_ne h.ne
  · rw [hq]; split
    · exact h.ge
    · rename_i u hu
      exact insertBucket_ge h.ge (le_of_lt (nextWake_gt h.iv_pos hg hu).1)
  · have := h.perm.erase r
    simpa using this
  · intro t
    rw [hi, hlog, cal_append_one]
    simp only [calStep, dueAt_append, dueAt_erase, h.due]
    have herase : t = now →
        ((if t = now then l else []) ++ bucketAt s.queue t).erase r
          = l.erase r ++ bucketAt s.queue t := by
      intro e; simp only [e, if_true]; exact List.erase_append_left _ hrl
    rw [hq]
    cases hw : nextWake s.interval now rep with
    | none =>
      by_cases e : t = now
      · simp only [e, if_true] at herase ⊢; simp [List.erase_append_left _ hrl]
      · simp [e]
    | some u =>
      have hlt := (nextWake_gt h.iv_pos hg hw).1
      simp only [bucketAt_insert h.sorted, Option.map_some, Option.toList_some, dueAt_cons, dueAt_nil]
      by_cases e : t = now
      · subst e
        have h1 : ¬ u = t := ne_of_gt hlt
        have h2 : ¬ t = u := ne_of_lt hlt
        simp [h1, h2, List.erase_append_left _ hrl]
      · by_cases e2 : t = u
        · simp [e2, ne_of_gt hlt]
        · have h3 : ¬ u = t := fun x => e2 x.symm
          simp [e, e2, h3]
  · rw [hi, hlog]; exact hlegal
  · rw [hlog]; exact h.chron.snoc h.past
  · rw [hlog]; intro e he
    rcases List.mem_append.1 he with he | he
    · exact h.past e he
    · simp at he; subst he; exact le_rfl

/-! ### Logs only grow -/

theorem applyOp_log (s : Sched) (o : SOp) : ∃ l, (s.applyOp o).log = s.log ++ l ∧ actRefs l = [] := by
  cases o with
  | add r w => exact ⟨[.added r s.time], by simp [Sched.applyOp, Sched.addAgent, Sched.schedule], rfl⟩
  | remove r => exact ⟨[], by simp [Sched.applyOp, Sched.removeAgent], rfl⟩
  | stop => exact ⟨[], by simp [Sched.applyOp], rfl⟩

theorem actRefs_append (a b : List Ev) : actRefs (a ++ b) = actRefs a ++ actRefs b := by
  simp [actRefs]

theorem applyOps_log (s : Sched) (os : List SOp) :
    ∃ l, (s.applyOps os).log = s.log ++ l ∧ actRefs l = [] := by
  induction os generalizing s with
  | nil => exact ⟨[], by simp [Sched.applyOps], rfl⟩
  | cons o os ih =>
    obtain ⟨l1, h1, h1'⟩ := applyOp_log s o
    obtain ⟨l2, h2, h2'⟩ := ih (s.applyOp o)
    refine ⟨l1 ++ l2, ?_, ?_⟩
    · have : (s.applyOps (o :: os)) = (s.applyOp o).applyOps os := rfl
      rw [this, h2, h1, List.append_assoc]
    · rw [actRefs_append, h1', h2']; rfl

theorem afterAct_log (s : Sched) (r : Ref) (now : Time) (rep : Reply) :
    (afterAct s r now rep).log = s.log ++ [.act r now rep] := by
  cases rep with
  | ret d =>
    by_cases hh : Time.pyOr d s.interval + now = .inf <;>
      simp [afterAct, Sched.logAct, Sched.schedule, hh]
  | dead => rfl
  | error => rfl

/-- `runBucket` unfolded through `afterAct`. -/
theorem runBucket_cons (H : Host W) (now : Time) (r : Ref) (rest : List Ref) (s : Sched) (w : W) :
    runBucket H now (r :: rest) s w =
      let res := H.step r s w
      let s2 := afterAct (s.applyOps res.2.1) r now res.1
      if res.1 = .error then (s2, res.2.2, true) else runBucket H now rest s2 res.2.2 := by
  simp only [runBucket, afterAct]
  generalize H.step r s w = res
  obtain ⟨rep, ops, w1⟩ := res
  cases rep with
  | ret d => simp
  | dead => simp
  | error => simp

theorem runBucket_log (H : Host W) (now : Time) (b : List Ref) (s : Sched) (w : W) :
    ∃ l, (runBucket H now b s w).1.log = s.log ++ l ∧
      ((runBucket H now b s w).2.2 = false → actRefs l = b) := by
  induction b generalizing s w with
  | nil => exact ⟨[], by simp [runBucket], fun _ => rfl⟩
  | cons r rest ih =>
    rw [runBucket_cons]
    simp only
    obtain ⟨l1, h1, h1'⟩ := applyOps_log s (H.step r s w).2.1
    split
    · exact ⟨l1 ++ [.act r now (H.step r s w).1], by simp [afterAct_log, h1], by simp⟩
    · obtain ⟨l2, h2, h2'⟩ := ih (afterAct (s.applyOps (H.step r s w).2.1) r now (H.step r s w).1) (H.step r s w).2.2
      refine ⟨l1 ++ [.act r now (H.step r s w).1] ++ l2, ?_, ?_⟩
      · rw [h2, afterAct_log, h1]; simp
      · intro he
        rw [actRefs_append, actRefs_append, h1', h2' he]
        rfl

theorem Spec.GoodLog.not_error {l : List Ev} (h : GoodLog l) {r : Ref} {t : Time} {rep : Reply}
    (hm : Ev.act r t rep ∈ l) : rep ≠ .error := by
  have := h.reply hm
  rintro rfl
  exact this

/-- Running a bucket keeps the invariant. -/
theorem MidInv.runBucket {H : Host W} {now : Time} {b l : List Ref} {s : Sched} {w : W}
    (h : MidInv now b l s) (hg : GoodLog (runBucket H now b s w).1.log) :
    MidInv now [] [] (Verif.runBucket H now b s w).1 ∧ (Verif.runBucket H now b s w).2.2 = false := by
  induction b generalizing s w l with
  | nil =>
    have : l = [] := h.perm.eq_nil
    subst this
    exact ⟨h, rfl⟩
  | cons r rest ih =>
    rw [runBucket_cons] at hg ⊢
    simp only at hg ⊢
    have hrep : Ev.act r now (H.step r s w).1 ∈
        (afterAct (s.applyOps (H.step r s w).2.1) r now (H.step r s w).1).log := by
      rw [afterAct_log]; simp
    split
    · rename_i he
      rw [if_pos he] at hg
      exact absurd he (hg.not_error hrep)
    · rename_i he
      rw [if_neg he] at hg
      obtain ⟨l2, h2, _⟩ := runBucket_log H now rest
        (afterAct (s.applyOps (H.step r s w).2.1) r now (H.step r s w).1) (H.step r s w).2.2
      rw [h2] at hg
      have hgr := hg.prefix.reply hrep
      have := (h.ops (H.step r s w).2.1).act (H.step r s w).1 hgr
      exact ih this (by rw [h2]; exact hg)

/-! ### Invariant between steps -/

structure Inv (s : Sched) : Prop where
  time_nonneg : 0 ≤ s.time
  iv_pos : 0 < s.interval
  sorted : SortedQ s.queue
  ne : QNe s.queue
  head : s.queue ≠ [] → headTime s.queue = s.time
  empty : s.queue = [] → s.log = [] ∨ s.time = .inf
  due : ∀ t, dueAt (cal s.interval s.log) t = bucketAt s.queue t
  legal : Legal s.interval s.log
  chron : Chronological s.log
  past : ∀ e ∈ s.log, e.time ≤ s.time

theorem SortedQ.ge {q : List (Time × List Ref)} (h : SortedQ q) (hne : q ≠ []) :
    QGe (headTime q) q := by
  cases q with
  | nil => exact absurd rfl hne
  | cons c q =>
    intro b hb
    rcases List.mem_cons.1 hb with rfl | hb
    · exact le_rfl
    · exact le_of_lt ((List.pairwise_cons.1 h).1 b hb)

theorem Inv.ge {s : Sched} (h : Inv s) : QGe s.time s.queue := by
  by_cases hq : s.queue = []
  · rw [hq]; intro b hb; cases hb
  · rw [← h.head hq]; exact h.sorted.ge hq

theorem Inv.mid {s : Sched} (h : Inv s) : MidInv s.time [] [] s where
  time_eq := rfl
  now_nonneg := h.time_nonneg
  iv_pos := h.iv_pos
  sorted := h.sorted
  ne := h.ne
  ge := h.ge
  perm := List.Perm.nil
  due := by intro t; rw [h.due]; simp
  legal := h.legal
  chron := h.chron
  past := h.past

theorem Inv.init {iv : Time} (h : 0 < iv) (sh : Bool) : Inv (Sched.init iv sh) where
  time_nonneg := le_rfl
  iv_pos := h
  sorted := List.Pairwise.nil
  ne := by intro b hb; cases hb
  head := fun h => absurd rfl h
  empty := fun _ => Or.inl rfl
  due := fun _ => rfl
  legal := Legal.nil
  chron := List.Pairwise.nil
  past := by intro e he; cases he

theorem headTime_eq_of_ge {q : List (Time × List Ref)} {t : Time} (hs : SortedQ q) (hge : QGe t q)
    (hm : ∃ b ∈ q, b.1 = t) : headTime q = t := by
  obtain ⟨b, hb, hbt⟩ := hm
  have hne : q ≠ [] := by rintro rfl; cases hb
  apply le_antisymm
  · have := hs.ge hne b hb; rw [hbt] at this; exact this
  · cases q with
    | nil => exact absurd rfl hne
    | cons c q => exact hge c (by simp)

theorem exists_insertBucket (t : Time) (r : Ref) (q : List (Time × List Ref)) :
    ∃ b ∈ insertBucket t r q, b.1 = t := by
  induction q with
  | nil => exact ⟨(t, [r]), by simp [insertBucket], rfl⟩
  | cons c q ih =>
    obtain ⟨u, l⟩ := c
    simp only [insertBucket]
    split
    · rename_i hu; exact ⟨(u, l ++ [r]), by simp, hu⟩
    · split
      · exact ⟨(t, [r]), by simp, rfl⟩
      · obtain ⟨b, hb, h⟩ := ih; exact ⟨b, by simp [hb], h⟩

theorem Inv.op {s : Sched} (h : Inv s) (o : SOp) : Inv (s.applyOp o) := by
  have hm := h.mid.op o
  cases o with
  | add r w =>
    have hq : (s.addAgent r w).queue = insertBucket s.time r s.queue := by
      simp [Sched.addAgent, Sched.schedule, Time.pyOr]
    exact { time_nonneg := h.time_nonneg, iv_pos := h.iv_pos, sorted := hm.sorted, ne := hm.ne,
            head := by
              intro _
              exact headTime_eq_of_ge hm.sorted hm.ge
                (by simp only [Sched.applyOp]; rw [hq]; exact exists_insertBucket _ _ _)
            empty := by
              intro he; simp only [Sched.applyOp] at he; rw [hq] at he
              exact absurd he insertBucket_ne_nil
            due := by intro t; rw [hm.due t]; simp
            legal := hm.legal, chron := hm.chron, past := hm.past }
  | remove r => exact ⟨h.time_nonneg, h.iv_pos, h.sorted, h.ne, h.head, h.empty, h.due, h.legal, h.chron, h.past⟩
  | stop => exact ⟨h.time_nonneg, h.iv_pos, h.sorted, h.ne, h.head, h.empty, h.due, h.legal, h.chron, h.past⟩

theorem runOrder_perm (H : Host W) (s : Sched) (b : List Ref) (w : W) :
    (runOrder H s b w).1.Perm b := by
  unfold runOrder; split
  · exact H.shuffle_perm b w
  · exact List.Perm.refl _

/-- In a state satisfying the invariant, a step with something pending runs the first bucket
(the branch `next_time > now` of soil/time.py:162-164 is never taken). -/
theorem Inv.step_eq {s : Sched} (h : Inv s) (H : Host W) (w : W) {t : Time} {b : List Ref}
    {q : List (Time × List Ref)} (hq : s.queue = (t, b) :: q) :
    s.step H w =
      finishStep (runBucket H s.time (runOrder H s b w).1 { s with queue := q } (runOrder H s b w).2) := by
  have ht : t = s.time := by
    have := h.head (by rw [hq]; simp); rw [hq] at this; exact this
  have hn : ¬ s.time < t := by rw [ht]; exact lt_irrefl _
  simp only [Sched.step, hq, if_neg hn]

theorem finishStep_log (res : Sched × W × Bool) : (finishStep res).1.log = res.1.log := by
  unfold finishStep; split <;> rfl

theorem Inv.pop {s : Sched} (h : Inv s) {t : Time} {b : List Ref}
    {q : List (Time × List Ref)} (hq : s.queue = (t, b) :: q) {b' : List Ref} (hb : b'.Perm b) :
    t = s.time ∧ MidInv s.time b' b { s with queue := q } := by
  have ht : t = s.time := by
    have := h.head (by rw [hq]; simp); rw [hq] at this; exact this
  refine ⟨ht, ?_⟩
  have hs := h.sorted
  have hge := h.ge
  have hne := h.ne
  rw [hq] at hs hge hne
  have hc := List.pairwise_cons.1 hs
  exact { time_eq := rfl, now_nonneg := h.time_nonneg, iv_pos := h.iv_pos, sorted := hc.2,
          ne := fun c hc => hne c (by simp [hc]),
          ge := fun c hc => hge c (by simp [hc]), perm := hb.symm
          due := by
            intro u
            show dueAt (cal s.interval s.log) u = _
            rw [h.due u, hq]
            simp only [bucketAt]
            by_cases hu : t = u
            · subst hu
              rw [bucketAt_of_lt hc.1, ht]; simp
            · have : ¬ u = s.time := fun e => hu (ht.trans e.symm)
              simp [hu, this]
          legal := h.legal, chron := h.chron, past := h.past }

theorem MidInv.inv {now : Time} {s : Sched} (h : MidInv now [] [] s) (n : Nat) :
    Inv { s with steps := n, time := headTime s.queue } := by
  have hle : now ≤ headTime s.queue := by
    cases hq : s.queue with
    | nil => simp [headTime]
    | cons c q => exact h.ge c (by rw [hq]; simp)
  exact { time_nonneg := le_trans h.now_nonneg hle, iv_pos := h.iv_pos, sorted := h.sorted, ne := h.ne,
          head := fun _ => rfl
          empty := by
            intro hq
            right
            have hq' : s.queue = [] := hq
            show headTime s.queue = .inf
            rw [hq']; rfl
          due := by
            intro t
            have := h.due t
            simpa using this
          legal := h.legal, chron := h.chron
          past := fun e he => le_trans (h.past e he) hle }

theorem step_log (H : Host W) (s : Sched) (w : W) : ∃ l, (s.step H w).1.log = s.log ++ l := by
  unfold Sched.step
  split
  · exact ⟨[], by simp⟩
  · rename_i t b q hq
    split
    · exact ⟨[], by simp⟩
    · obtain ⟨l, hl, _⟩ := runBucket_log H s.time (runOrder H s b w).1 { s with queue := q }
        (runOrder H s b w).2
      exact ⟨l, by rw [finishStep_log, hl]⟩

theorem Inv.step {s : Sched} (h : Inv s) (H : Host W) (w : W)
    (hg : GoodLog (s.step H w).1.log) :
    Inv (s.step H w).1 ∧ (s.step H w).2.2 = false ∧ s.time ≤ (s.step H w).1.time := by
  cases hq : s.queue with
  | nil =>
    have : s.step H w = (s, w, false) := by simp [Sched.step, hq]
    rw [this]; exact ⟨h, rfl, le_rfl⟩
  | cons c q =>
    obtain ⟨t, b⟩ := c
    obtain ⟨ht, hm⟩ := h.pop hq (runOrder_perm H s b w)
    rw [h.step_eq H w hq] at hg ⊢
    rw [finishStep_log] at hg
    obtain ⟨h1, h2⟩ := hm.runBucket hg
    unfold finishStep
    rw [if_neg (by rw [h2]; simp)]
    refine ⟨h1.inv _, rfl, ?_⟩
    show s.time ≤ headTime _
    generalize hr : (runBucket H s.time (runOrder H s b w).1 { s with queue := q } (runOrder H s b w).2).1 = res at h1 ⊢
    cases hq2 : res.queue with
    | nil => simp [headTime]
    | cons c q2 => exact h1.ge c (by rw [hq2]; simp)

theorem Cmd.exec_log (H : Host W) (c : Cmd W) (sw : Sched × W) :
    ∃ l, (c.exec H sw).1.log = sw.1.log ++ l := by
  obtain ⟨s, w⟩ := sw
  cases c with
  | step => exact step_log H s w
  | op o => obtain ⟨l, hl, _⟩ := applyOp_log s o; exact ⟨l, hl⟩
  | world f => exact ⟨[], by simp [Cmd.exec]⟩

theorem execAll_log (H : Host W) (h : List (Cmd W)) (sw : Sched × W) :
    ∃ l, (execAll H h sw).1.log = sw.1.log ++ l := by
  induction h generalizing sw with
  | nil => exact ⟨[], by simp [execAll]⟩
  | cons c h ih =>
    obtain ⟨l1, h1⟩ := c.exec_log H sw
    obtain ⟨l2, h2⟩ := ih (c.exec H sw)
    exact ⟨l1 ++ l2, by
      have : execAll H (c :: h) sw = execAll H h (c.exec H sw) := rfl
      rw [this, h2, h1, List.append_assoc]⟩

theorem Inv.exec {sw : Sched × W} (h : Inv sw.1) (H : Host W) (c : Cmd W)
    (hg : GoodLog (c.exec H sw).1.log) : Inv (c.exec H sw).1 ∧ sw.1.time ≤ (c.exec H sw).1.time := by
  obtain ⟨s, w⟩ := sw
  cases c with
  | step => have := h.step H w hg; exact ⟨this.1, this.2.2⟩
  | op o =>
    refine ⟨h.op o, ?_⟩
    cases o <;> exact le_rfl
  | world f => exact ⟨h, le_rfl⟩

theorem Inv.execAll {sw : Sched × W} (h : Inv sw.1) (H : Host W) (hist : List (Cmd W))
    (hg : GoodLog (execAll H hist sw).1.log) :
    Inv (Verif.execAll H hist sw).1 ∧ sw.1.time ≤ (Verif.execAll H hist sw).1.time := by
  induction hist generalizing sw with
  | nil => exact ⟨h, le_rfl⟩
  | cons c hist ih =>
    have e : Verif.execAll H (c :: hist) sw = Verif.execAll H hist (c.exec H sw) := rfl
    rw [e] at hg ⊢
    obtain ⟨l, hl⟩ := execAll_log H hist (c.exec H sw)
    have hg1 : GoodLog (c.exec H sw).1.log := by rw [hl] at hg; exact hg.prefix
    obtain ⟨h1, h2⟩ := h.exec H c hg1
    obtain ⟨h3, h4⟩ := ih h1 hg
    exact ⟨h3, le_trans h2 h4⟩

/-! ### What one step does -/

theorem applyOp_time (s : Sched) (o : SOp) : (s.applyOp o).time = s.time := by
  cases o <;> rfl

theorem applyOps_time (s : Sched) (os : List SOp) : (s.applyOps os).time = s.time := by
  induction os generalizing s with
  | nil => rfl
  | cons o os ih => exact (ih (s.applyOp o)).trans (applyOp_time s o)

theorem applyOps_log_times (s : Sched) (os : List SOp) :
    ∃ l, (s.applyOps os).log = s.log ++ l ∧ ∀ e ∈ l, e.time = s.time := by
  induction os generalizing s with
  | nil => exact ⟨[], by simp [Sched.applyOps], by simp⟩
  | cons o os ih =>
    obtain ⟨l2, h2, h2'⟩ := ih (s.applyOp o)
    have h1 : ∃ l1, (s.applyOp o).log = s.log ++ l1 ∧ ∀ e ∈ l1, e.time = s.time := by
      cases o with
      | add r w => exact ⟨[.added r s.time], by simp [Sched.applyOp, Sched.addAgent, Sched.schedule], by simp [Ev.time]⟩
      | remove r => exact ⟨[], by simp [Sched.applyOp, Sched.removeAgent], by simp⟩
      | stop => exact ⟨[], by simp [Sched.applyOp], by simp⟩
    obtain ⟨l1, h1, h1'⟩ := h1
    refine ⟨l1 ++ l2, ?_, ?_⟩
    · have : (s.applyOps (o :: os)) = (s.applyOp o).applyOps os := rfl
      rw [this, h2, h1, List.append_assoc]
    · intro e he
      rcases List.mem_append.1 he with he | he
      · exact h1' e he
      · rw [h2' e he, applyOp_time]

theorem afterAct_time (s : Sched) (r : Ref) (now : Time) (rep : Reply) :
    (afterAct s r now rep).time = s.time := by
  cases rep with
  | ret d =>
    by_cases hh : Time.pyOr d s.interval + now = .inf <;>
      simp [afterAct, Sched.logAct, Sched.schedule, hh]
  | dead => rfl
  | error => rfl

theorem runBucket_log_times (H : Host W) (now : Time) (b : List Ref) (s : Sched) (w : W)
    (ht : s.time = now) :
    ∃ l, (runBucket H now b s w).1.log = s.log ++ l ∧ (∀ e ∈ l, e.time = now) ∧
      (runBucket H now b s w).1.time = now := by
  induction b generalizing s w with
  | nil => exact ⟨[], by simp [runBucket], by simp, ht⟩
  | cons r rest ih =>
    rw [runBucket_cons]
    simp only
    obtain ⟨l1, h1, h1'⟩ := applyOps_log_times s (H.step r s w).2.1
    have hact : ∀ e ∈ l1 ++ [Ev.act r now (H.step r s w).1], e.time = now := by
      intro e he
      rcases List.mem_append.1 he with he | he
      · rw [h1' e he, ht]
      · simp at he; subst he; rfl
    have htime : (afterAct (s.applyOps (H.step r s w).2.1) r now (H.step r s w).1).time = now := by
      rw [afterAct_time, applyOps_time, ht]
    split
    · exact ⟨l1 ++ [.act r now (H.step r s w).1], by simp [afterAct_log, h1], hact, htime⟩
    · obtain ⟨l2, h2, h2', h3⟩ := ih (afterAct (s.applyOps (H.step r s w).2.1) r now (H.step r s w).1)
        (H.step r s w).2.2 htime
      refine ⟨l1 ++ [.act r now (H.step r s w).1] ++ l2, ?_, ?_, h3⟩
      · rw [h2, afterAct_log, h1]; simp
      · intro e he
        rcases List.mem_append.1 he with he | he
        · exact hact e he
        · exact h2' e he

/-- A step of a state satisfying the invariant appends events that all happen at the current
time; its activations are the agents due now, permuted by the shuffle. -/
theorem Inv.step_spec {s : Sched} (h : Inv s) (H : Host W) (w : W)
    (hg : GoodLog (s.step H w).1.log) :
    ∃ evs, (s.step H w).1.log = s.log ++ evs ∧ (∀ e ∈ evs, e.time = s.time) ∧
      actRefs evs = (runOrder H s (bucketAt s.queue s.time) w).1 := by
  cases hq : s.queue with
  | nil =>
    have : s.step H w = (s, w, false) := by simp [Sched.step, hq]
    rw [this]
    refine ⟨[], by simp, by simp, ?_⟩
    have := runOrder_perm H s [] w
    rw [bucketAt]
    exact this.eq_nil.symm
  | cons c q =>
    obtain ⟨t, b⟩ := c
    obtain ⟨ht, hm⟩ := h.pop hq (runOrder_perm H s b w)
    rw [h.step_eq H w hq, finishStep_log] at hg ⊢
    obtain ⟨h1, h2⟩ := hm.runBucket hg
    obtain ⟨l, hl, hl'⟩ := runBucket_log H s.time (runOrder H s b w).1 { s with queue := q } (runOrder H s b w).2
    obtain ⟨l2, hl2, hl2', _⟩ := runBucket_log_times H s.time (runOrder H s b w).1 { s with queue := q } (runOrder H s b w).2 rfl
    have : l = l2 := by
      rw [hl] at hl2; exact List.append_cancel_left hl2
    subst this
    refine ⟨l, hl, hl2', ?_⟩
    rw [hl' h2]
    simp [bucketAt, ht]

/-- The earliest pending time of a non-exhausted state is the clock. -/
theorem Inv.min_eq_time {s : Sched} (h : Inv s) {r : Ref} {t : Time}
    (hm : (r, t) ∈ cal s.interval s.log) (hmin : ∀ p ∈ cal s.interval s.log, t ≤ p.2) :
    t = s.time := by
  apply le_antisymm
  · have hb : r ∈ bucketAt s.queue t := by rw [← h.due]; exact mem_dueAt.2 hm
    cases hq : s.queue with
    | nil => rw [hq] at hb; cases hb
    | cons c q =>
      obtain ⟨u, b⟩ := c
      have hu : u = s.time := by have := h.head (by rw [hq]; simp); rw [hq] at this; exact this
      have hne : b ≠ [] := h.ne (u, b) (by rw [hq]; simp)
      obtain ⟨x, hx⟩ := List.exists_mem_of_ne_nil b hne
      have : (x, u) ∈ cal s.interval s.log := by
        rw [← mem_dueAt, h.due, hq]; simpa [bucketAt] using hx
      have := hmin _ this
      rw [← hu]; exact this
  · exact h.mid.mem_le _ hm

/-- Everything pending, read off the queue. -/
def pending (s : Sched) : Cal := s.queue.flatMap (fun b => b.2.map (·, b.1))

theorem dueAt_flatMap {q : List (Time × List Ref)} (hs : SortedQ q) (t : Time) :
    dueAt (q.flatMap (fun b => b.2.map (·, b.1))) t = bucketAt q t := by
  induction q with
  | nil => rfl
  | cons c q ih =>
    obtain ⟨u, b⟩ := c
    have hc := List.pairwise_cons.1 hs
    simp only [List.flatMap_cons, dueAt_append, bucketAt, ih hc.2]
    by_cases hu : u = t
    · subst hu
      rw [bucketAt_of_lt hc.1]
      simp [dueAt, List.filter_map, Function.comp_def]
    · simp [dueAt, List.filter_map, Function.comp_def, hu]

theorem Inv.pending_perm {s : Sched} (h : Inv s) : (pending s).Perm (cal s.interval s.log) := by
  apply perm_of_dueAt
  intro t
  rw [h.due, pending, dueAt_flatMap h.sorted]

theorem applyOps_interval (s : Sched) (os : List SOp) : (s.applyOps os).interval = s.interval := by
  induction os generalizing s with
  | nil => rfl
  | cons o os ih =>
    refine (ih (s.applyOp o)).trans ?_
    cases o <;> rfl

theorem afterAct_interval (s : Sched) (r : Ref) (now : Time) (rep : Reply) :
    (afterAct s r now rep).interval = s.interval := by
  cases rep with
  | ret d =>
    by_cases hh : Time.pyOr d s.interval + now = .inf <;>
      simp [afterAct, Sched.logAct, Sched.schedule, hh]
  | dead => rfl
  | error => rfl

theorem runBucket_interval (H : Host W) (now : Time) (b : List Ref) (s : Sched) (w : W) :
    (runBucket H now b s w).1.interval = s.interval := by
  induction b generalizing s w with
  | nil => rfl
  | cons r rest ih =>
    rw [runBucket_cons]
    simp only
    split
    · rw [afterAct_interval, applyOps_interval]
    · rw [ih, afterAct_interval, applyOps_interval]

theorem step_interval (H : Host W) (s : Sched) (w : W) : (s.step H w).1.interval = s.interval := by
  unfold Sched.step
  split
  · rfl
  · split
    · rfl
    · simp only [finishStep]
      split <;> exact runBucket_interval _ _ _ _ _

theorem exec_interval (H : Host W) (c : Cmd W) (sw : Sched × W) :
    (c.exec H sw).1.interval = sw.1.interval := by
  obtain ⟨s, w⟩ := sw
  cases c with
  | step => exact step_interval H s w
  | op o => exact applyOps_interval s [o]
  | world f => rfl

theorem execAll_interval (H : Host W) (h : List (Cmd W)) (sw : Sched × W) :
    (execAll H h sw).1.interval = sw.1.interval := by
  induction h generalizing sw with
  | nil => rfl
  | cons c h ih => exact (ih (c.exec H sw)).trans (exec_interval H c sw)

theorem execAll_append (H : Host W) (h1 h2 : List (Cmd W)) (sw : Sched × W) :
    execAll H (h1 ++ h2) sw = execAll H h2 (execAll H h1 sw) := by
  simp [execAll, List.foldl_append]

theorem applyOps_shuffle (s : Sched) (os : List SOp) : (s.applyOps os).shuffle = s.shuffle := by
  induction os generalizing s with
  | nil => rfl
  | cons o os ih =>
    refine (ih (s.applyOp o)).trans ?_
    cases o <;> rfl

theorem afterAct_shuffle (s : Sched) (r : Ref) (now : Time) (rep : Reply) :
    (afterAct s r now rep).shuffle = s.shuffle := by
  cases rep with
  | ret d =>
    by_cases hh : Time.pyOr d s.interval + now = .inf <;>
      simp [afterAct, Sched.logAct, Sched.schedule, hh]
  | dead => rfl
  | error => rfl

theorem runBucket_shuffle (H : Host W) (now : Time) (b : List Ref) (s : Sched) (w : W) :
    (runBucket H now b s w).1.shuffle = s.shuffle := by
  induction b generalizing s w with
  | nil => rfl
  | cons r rest ih =>
    rw [runBucket_cons]
    simp only
    split
    · rw [afterAct_shuffle, applyOps_shuffle]
    · rw [ih, afterAct_shuffle, applyOps_shuffle]

theorem step_shuffle (H : Host W) (s : Sched) (w : W) : (s.step H w).1.shuffle = s.shuffle := by
  unfold Sched.step
  split
  · rfl
  · split
    · rfl
    · simp only [finishStep]
      split <;> exact runBucket_shuffle _ _ _ _ _

theorem exec_shuffle (H : Host W) (c : Cmd W) (sw : Sched × W) :
    (c.exec H sw).1.shuffle = sw.1.shuffle := by
  obtain ⟨s, w⟩ := sw
  cases c with
  | step => exact step_shuffle H s w
  | op o => exact applyOps_shuffle s [o]
  | world f => rfl

theorem execAll_shuffle (H : Host W) (h : List (Cmd W)) (sw : Sched × W) :
    (execAll H h sw).1.shuffle = sw.1.shuffle := by
  induction h generalizing sw with
  | nil => rfl
  | cons c h ih => exact (ih (c.exec H sw)).trans (exec_shuffle H c sw)

/-- An unshuffled run of a bucket does not depend on the shuffle. -/
theorem runBucket_congr {H1 H2 : Host W} (he : H1.step = H2.step) (now : Time) (b : List Ref)
    (s : Sched) (w : W) : runBucket H1 now b s w = runBucket H2 now b s w := by
  induction b generalizing s w with
  | nil => rfl
  | cons r rest ih =>
    rw [runBucket_cons, runBucket_cons, he]
    simp only
    split
    · rfl
    · exact ih _ _

theorem exec_congr {H1 H2 : Host W} (he : H1.step = H2.step) (c : Cmd W) (sw : Sched × W)
    (hsh : sw.1.shuffle = false) : c.exec H1 sw = c.exec H2 sw := by
  obtain ⟨s, w⟩ := sw
  have hs : s.shuffle = false := hsh
  cases c with
  | step =>
    have : s.step H1 w = s.step H2 w := by
      unfold Sched.step
      split
      · rfl
      · split
        · rfl
        · simp only [runOrder, hs]
          rw [runBucket_congr he]
          rfl
    simp only [Cmd.exec, this]
  | op o => rfl
  | world f => rfl

/-! ### Buckets only grow while a step runs (also when an exception escapes) -/

/-- `q'` is sorted and every bucket of `q` is a prefix of that of `q'`. -/
def Grows (q q' : List (Time × List Ref)) : Prop :=
  SortedQ q' ∧ ∀ t, bucketAt q t <+: bucketAt q' t

theorem Grows.trans {a b c : List (Time × List Ref)} (h1 : Grows a b) (h2 : Grows b c) : Grows a c :=
  ⟨h2.1, fun t => (h1.2 t).trans (h2.2 t)⟩

theorem Grows.insert {q : List (Time × List Ref)} (h : SortedQ q) (t : Time) (r : Ref) :
    Grows q (insertBucket t r q) :=
  ⟨insertBucket_sorted h, fun u => by rw [bucketAt_insert h]; exact List.prefix_append _ _⟩

theorem Grows.refl {q : List (Time × List Ref)} (h : SortedQ q) : Grows q q :=
  ⟨h, fun _ => List.prefix_rfl⟩

theorem grows_applyOps (s : Sched) (os : List SOp) (h : SortedQ s.queue) :
    Grows s.queue (s.applyOps os).queue := by
  induction os generalizing s with
  | nil => exact Grows.refl h
  | cons o os ih =>
    have h1 : Grows s.queue (s.applyOp o).queue := by
      cases o with
      | add r w => exact Grows.insert h _ _
      | remove r => exact Grows.refl h
      | stop => exact Grows.refl h
    exact h1.trans (ih (s.applyOp o) h1.1)

theorem grows_afterAct (s : Sched) (r : Ref) (now : Time) (rep : Reply) (h : SortedQ s.queue) :
    Grows s.queue (afterAct s r now rep).queue := by
  cases rep with
  | ret d =>
    by_cases hh : Time.pyOr d s.interval + now = .inf
    · simp only [afterAct, Sched.logAct, hh, if_true]; exact Grows.refl h
    · simp only [afterAct, Sched.logAct, hh, if_false, Sched.schedule]; exact Grows.insert h _ _
  | dead => exact Grows.refl h
  | error => exact Grows.refl h

theorem grows_runBucket (H : Host W) (now : Time) (b : List Ref) (s : Sched) (w : W)
    (h : SortedQ s.queue) : Grows s.queue (runBucket H now b s w).1.queue := by
  induction b generalizing s w with
  | nil => exact Grows.refl h
  | cons r rest ih =>
    rw [runBucket_cons]
    simp only
    have h1 := grows_applyOps s (H.step r s w).2.1 h
    have h2 := h1.trans (grows_afterAct _ r now (H.step r s w).1 h1.1)
    split
    · exact h2
    · exact h2.trans (ih _ _ h2.1)

theorem mem_pending {s : Sched} (h : SortedQ s.queue) {r : Ref} {t : Time} :
    (r, t) ∈ pending s ↔ r ∈ bucketAt s.queue t := by
  rw [← mem_dueAt, pending, dueAt_flatMap h]

theorem addAgent_log (s : Sched) (r : Ref) (w : Option Time) :
    (s.addAgent r w).log = s.log ++ [.added r s.time] := rfl

end Verif
