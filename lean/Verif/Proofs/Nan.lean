import Verif.Model.Nan
import Verif.Props.Recover

/-!
# The scheduler with `nan`: what remains when everything about `nan` is left out is an execution of the exact scheduler
-/

namespace Verif
open Spec

namespace Spec

/-- A reply without `nan`: `nan` becomes "never". -/
def numReply : NanReply → Reply
  | .ret none => .ret none
  | .ret (some (.num d)) => .ret (some d)
  | .ret (some .nan) => .ret (some .inf)
  | .dead => .dead
  | .error => .error

/-- The events at a clock that is a number. -/
def numEv : NanEv → Option Ev
  | .added r (.num t) => some (.added r t)
  | .act r (.num t) rep => some (.act r t (numReply rep))
  | _ => none

/-- The buckets whose time is a number. -/
def numBucket (b : FNum × List Ref) : Option (Time × List Ref) :=
  match b.1 with
  | .num t => some (t, b.2)
  | .nan => none

/-- No exception escapes, and a delay that is a number is not negative. -/
def NanCalmEv : NanEv → Prop
  | .act _ _ (.ret (some (.num d))) => 0 ≤ d
  | .act _ _ .error => False
  | _ => True

instance : DecidablePred NanCalmEv
  | .act _ _ (.ret (some (.num d))) => inferInstanceAs (Decidable (0 ≤ d))
  | .act _ _ (.ret (some .nan)) => isTrue trivial
  | .act _ _ (.ret none) => isTrue trivial
  | .act _ _ .dead => isTrue trivial
  | .act _ _ .error => isFalse id
  | .added _ _ => isTrue trivial

/-- No exception escapes, and delays that are numbers are not negative. -/
def NanCalm (log : List NanEv) : Prop := ∀ e ∈ log, NanCalmEv e

instance (log : List NanEv) : Decidable (NanCalm log) := inferInstanceAs (Decidable (∀ e ∈ log, NanCalmEv e))

end Spec

theorem insertNan_num (t : Time) (r : Ref) : ∀ q : List (FNum × List Ref),
    (insertNan (.num t) r q).filterMap numBucket = insertBucket t r (q.filterMap numBucket)
  | [] => rfl
  | (.nan, l) :: q => by
    have ih := insertNan_num t r q
    simp only [insertNan, FNum.eq, FNum.gt, Bool.false_eq_true, if_false, List.filterMap_cons, numBucket, ih]
  | (.num u, l) :: q => by
    have ih := insertNan_num t r q
    simp only [insertNan, FNum.eq, FNum.gt, decide_eq_true_eq]
    by_cases h : u = t
    · simp [h, numBucket, insertBucket]
    · by_cases h' : t < u
      · simp [h, h', numBucket, insertBucket]
      · simp [h, h', numBucket, insertBucket, ih]

theorem insertNan_nan (r : Ref) : ∀ q : List (FNum × List Ref), insertNan .nan r q = q ++ [(.nan, [r])]
  | [] => rfl
  | (u, l) :: q => by
    have ih := insertNan_nan r q
    cases u <;> simp [insertNan, FNum.eq, FNum.gt, ih]

theorem numBucket_nan (r : Ref) (q : List (FNum × List Ref)) :
    (insertNan .nan r q).filterMap numBucket = q.filterMap numBucket := by
  rw [insertNan_nan]
  simp [numBucket]

/-- The exact scheduler sees what the other one sees, without `nan`. -/
structure NanRel (s : Sched) (n : NanSched) : Prop where
  queue : s.queue = n.queue.filterMap numBucket
  log : s.log = n.log.filterMap numEv
  interval : s.interval = n.interval
  shuffle : s.shuffle = n.shuffle

theorem NanRel.op {s : Sched} {n : NanSched} (h : NanRel s n) (ht : n.time = .num s.time) (o : SOp) :
    NanRel (s.applyOp o) (n.applyOp o) ∧ (s.applyOp o).time = s.time ∧ (n.applyOp o).time = n.time := by
  cases o with
  | add r w =>
    refine ⟨⟨?_, ?_, h.interval, h.shuffle⟩, rfl, rfl⟩
    · simp only [Sched.applyOp, NanSched.applyOp, Sched.addAgent, NanSched.addAgent, Sched.schedule, NanSched.schedule, Time.pyOr, FNum.pyOr, ht,
        insertNan_num, h.queue]
    · simp only [Sched.applyOp, NanSched.applyOp, Sched.addAgent, NanSched.addAgent, Sched.schedule, NanSched.schedule, ht,
        List.filterMap_append, h.log]
      rfl
  | remove r => exact ⟨⟨h.queue, h.log, h.interval, h.shuffle⟩, rfl, rfl⟩
  | stop => exact ⟨⟨h.queue, h.log, h.interval, h.shuffle⟩, rfl, rfl⟩

theorem NanRel.ops : ∀ (os : List SOp) {s : Sched} {n : NanSched}, NanRel s n → n.time = .num s.time →
    NanRel (s.applyOps os) (n.applyOps os) ∧ (s.applyOps os).time = s.time ∧ (n.applyOps os).time = n.time
  | [], _, _, h, _ => ⟨h, rfl, rfl⟩
  | o :: os, s, n, h, ht => by
    obtain ⟨h1, h2, h3⟩ := h.op ht o
    obtain ⟨g1, g2, g3⟩ := NanRel.ops os h1 (by rw [h2, h3, ht])
    exact ⟨g1, g2.trans h2, g3.trans h3⟩

/-- The user code for the exact scheduler; its world contains the scheduler with `nan`. -/
def nanSim {W : Type} (H : NanHost W) : Host (NanSched × W) where
  step r _ x := (numReply (H.step r x.1 x.2).1, (H.step r x.1 x.2).2.1,
    ((((x.1.applyOps (H.step r x.1 x.2).2.1).logAct r x.1.time (H.step r x.1 x.2).1).after x.1.time r (H.step r x.1 x.2).1,
      (H.step r x.1 x.2).2.2)))
  shuffle l x := ((H.shuffle l x.2).1, (x.1, (H.shuffle l x.2).2))
  shuffle_perm l x := H.shuffle_perm l x.2

variable {W : Type}

theorem nanSim_step (H : NanHost W) (r : Ref) (s : Sched) (x : NanSched × W) :
    (nanSim H).step r s x = (numReply (H.step r x.1 x.2).1, (H.step r x.1 x.2).2.1,
      ((((x.1.applyOps (H.step r x.1 x.2).2.1).logAct r x.1.time (H.step r x.1 x.2).1).after x.1.time r (H.step r x.1 x.2).1,
        (H.step r x.1 x.2).2.2))) := rfl

theorem runBucket_nanSim (H : NanHost W) (t : Time) : ∀ (l : List Ref) (s : Sched) (n : NanSched) (w : W), NanRel s n → s.time = t → n.time = .num t →
    ∃ s', runBucket (nanSim H) t l s (n, w) = (s', ((runNan H (.num t) l n w).1, (runNan H (.num t) l n w).2.1), (runNan H (.num t) l n w).2.2) ∧
      NanRel s' (runNan H (.num t) l n w).1 ∧ s'.time = t ∧ (runNan H (.num t) l n w).1.time = .num t
  | [], s, n, w, h, hs, hn => ⟨s, rfl, h, hs, hn⟩
  | r :: l, s, n, w, h, hs, hn => by
    obtain ⟨g1, g2, g3⟩ := NanRel.ops (H.step r n w).2.1 h (by rw [hn, hs])
    rw [runBucket, runNan]
    rcases hres : H.step r n w with ⟨rep, os, w'⟩
    simp only [hres] at g1 g2 g3
    simp only [nanSim_step, hres]
    have hlog : NanRel ((s.applyOps os).logAct r t (numReply rep)) ((n.applyOps os).logAct r (.num t) rep) := by
      refine ⟨g1.queue, ?_, g1.interval, g1.shuffle⟩
      simp only [Sched.logAct, NanSched.logAct, List.filterMap_append, g1.log]
      rfl
    have ht1 : ((s.applyOps os).logAct r t (numReply rep)).time = t := g2.trans hs
    have ht2 : ((n.applyOps os).logAct r (.num t) rep).time = .num t := g3.trans hn
    rw [hn]
    generalize (s.applyOps os).logAct r t (numReply rep) = s1 at *
    generalize (n.applyOps os).logAct r (.num t) rep = n1 at *
    cases rep with
    | error => exact ⟨s1, rfl, hlog, ht1, ht2⟩
    | dead =>
      exact runBucket_nanSim H t l s1 n1 w' hlog ht1 ht2
    | ret d =>
      have key : ∃ s2, NanRel s2 (n1.after (.num t) r (.ret d)) ∧ s2.time = t ∧ (n1.after (.num t) r (.ret d)).time = .num t ∧
          ∀ x, (match numReply (.ret d) with
            | .error => (s1, x, true)
            | .dead => runBucket (nanSim H) t l s1 x
            | .ret d =>
              let when_ := Time.pyOr d s1.interval + t
              let s2 := if when_ = .inf then s1 else s1.schedule r (some when_)
              runBucket (nanSim H) t l s2 x) = runBucket (nanSim H) t l s2 x := by
        cases d with
        | some d =>
          cases d with
          | nan =>
            refine ⟨s1, ⟨?_, hlog.log, hlog.interval, hlog.shuffle⟩, ht1, ht2, fun x => ?_⟩
            · simp only [NanSched.after, FNum.pyOr, FNum.add, FNum.eq, Bool.false_eq_true, if_false, NanSched.schedule, numBucket_nan]
              exact hlog.queue
            · simp [numReply, Time.pyOr]
          | num d =>
            refine ⟨if Time.pyOr (some d) s1.interval + t = .inf then s1 else s1.schedule r (some (Time.pyOr (some d) s1.interval + t)), ?_, ?_, ?_,
              fun x => rfl⟩
            · have he : FNum.pyOr (some (.num d)) (.num n1.interval) = .num (Time.pyOr (some d) s1.interval) := by
                simp only [FNum.pyOr, Time.pyOr, hlog.interval]
                split <;> rfl
              simp only [NanSched.after, he, FNum.add, FNum.eq, decide_eq_true_eq]
              by_cases hi : Time.pyOr (some d) s1.interval + t = .inf
              · rw [if_pos hi, if_pos hi]; exact hlog
              · rw [if_neg hi, if_neg hi]
                refine ⟨?_, hlog.log, hlog.interval, hlog.shuffle⟩
                have h2 : FNum.pyOr (some (.num (Time.pyOr (some d) s1.interval + t))) n1.time = .num (Time.pyOr (some (Time.pyOr (some d) s1.interval + t)) s1.time) := by
                  generalize Time.pyOr (some d) s1.interval + t = v
                  simp only [FNum.pyOr, Time.pyOr, ht1, ht2]
                  split <;> rfl
                simp only [Sched.schedule, NanSched.schedule, h2, insertNan_num, hlog.queue]
            · split
              · exact ht1
              · exact ht1
            · simp only [NanSched.after]
              split
              · exact ht2
              · exact ht2
        | none =>
          refine ⟨if Time.pyOr none s1.interval + t = .inf then s1 else s1.schedule r (some (Time.pyOr none s1.interval + t)), ?_, ?_, ?_,
            fun x => rfl⟩
          · have he : FNum.pyOr none (.num n1.interval) = .num (Time.pyOr none s1.interval) := by
              simp only [FNum.pyOr, Time.pyOr, hlog.interval]
            simp only [NanSched.after, he, FNum.add, FNum.eq, decide_eq_true_eq]
            by_cases hi : Time.pyOr none s1.interval + t = .inf
            · rw [if_pos hi, if_pos hi]; exact hlog
            · rw [if_neg hi, if_neg hi]
              refine ⟨?_, hlog.log, hlog.interval, hlog.shuffle⟩
              have h2 : FNum.pyOr (some (.num (Time.pyOr none s1.interval + t))) n1.time = .num (Time.pyOr (some (Time.pyOr none s1.interval + t)) s1.time) := by
                generalize Time.pyOr none s1.interval + t = v
                simp only [FNum.pyOr, Time.pyOr, ht1, ht2]
                split <;> rfl
              simp only [Sched.schedule, NanSched.schedule, h2, insertNan_num, hlog.queue]
          · split
            · exact ht1
            · exact ht1
          · simp only [NanSched.after]
            split
            · exact ht2
            · exact ht2
      obtain ⟨s2, k1, k2, k3, k4⟩ := key
      obtain ⟨s', e1, e2, e3, e4⟩ := runBucket_nanSim H t l s2 _ w' k1 k2 k3
      refine ⟨s', ?_, e2, e3, e4⟩
      rw [← e1]
      exact k4 _

/-! ### The clock is `nan` -/

theorem op_nan {n : NanSched} (ht : n.time = .nan) (o : SOp) :
    (n.applyOp o).queue.filterMap numBucket = n.queue.filterMap numBucket ∧ (n.applyOp o).log.filterMap numEv = n.log.filterMap numEv ∧
    (n.applyOp o).interval = n.interval ∧ (n.applyOp o).shuffle = n.shuffle ∧ (n.applyOp o).time = .nan ∧
    (∀ b q, n.queue = (.nan, b) :: q → ∃ b' q', (n.applyOp o).queue = (.nan, b') :: q') := by
  cases o with
  | add r w =>
    refine ⟨?_, ?_, rfl, rfl, ht, ?_⟩
    · simp only [NanSched.applyOp, NanSched.addAgent, NanSched.schedule, FNum.pyOr, ht, numBucket_nan]
    · simp only [NanSched.applyOp, NanSched.addAgent, NanSched.schedule, ht, List.filterMap_append]
      simp [numEv]
    · intro b q hq
      simp only [NanSched.applyOp, NanSched.addAgent, NanSched.schedule, FNum.pyOr, ht, insertNan_nan, hq]
      exact ⟨_, _, rfl⟩
  | remove r => exact ⟨rfl, rfl, rfl, rfl, ht, fun b q h => ⟨b, q, h⟩⟩
  | stop => exact ⟨rfl, rfl, rfl, rfl, ht, fun b q h => ⟨b, q, h⟩⟩

theorem ops_nan : ∀ (os : List SOp) {n : NanSched}, n.time = .nan →
    (n.applyOps os).queue.filterMap numBucket = n.queue.filterMap numBucket ∧ (n.applyOps os).log.filterMap numEv = n.log.filterMap numEv ∧
    (n.applyOps os).interval = n.interval ∧ (n.applyOps os).shuffle = n.shuffle ∧ (n.applyOps os).time = .nan
  | [], _, ht => ⟨rfl, rfl, rfl, rfl, ht⟩
  | o :: os, n, ht => by
    obtain ⟨h1, h2, h3, h4, h5, _⟩ := op_nan ht o
    obtain ⟨g1, g2, g3, g4, g5⟩ := ops_nan os h5
    exact ⟨g1.trans h1, g2.trans h2, g3.trans h3, g4.trans h4, g5⟩

theorem after_nan (n : NanSched) (r : Ref) (rep : NanReply) :
    (n.after .nan r rep).queue.filterMap numBucket = n.queue.filterMap numBucket ∧ (n.after .nan r rep).log = n.log ∧
    (n.after .nan r rep).interval = n.interval ∧ (n.after .nan r rep).shuffle = n.shuffle ∧ (n.after .nan r rep).time = n.time := by
  cases rep with
  | dead => exact ⟨rfl, rfl, rfl, rfl, rfl⟩
  | error => exact ⟨rfl, rfl, rfl, rfl, rfl⟩
  | ret d =>
    have h : (FNum.pyOr d (.num n.interval)).add .nan = .nan := by
      cases FNum.pyOr d (.num n.interval) <;> rfl
    have e : FNum.eq .nan (.num .inf) = false := rfl
    simp only [NanSched.after, h, e, Bool.false_eq_true, if_false, NanSched.schedule]
    refine ⟨?_, trivial, trivial, trivial, trivial⟩
    exact numBucket_nan _ _

theorem runNan_nan (H : NanHost W) : ∀ (l : List Ref) (n : NanSched) (w : W), n.time = .nan →
    (runNan H .nan l n w).1.queue.filterMap numBucket = n.queue.filterMap numBucket ∧
    (runNan H .nan l n w).1.log.filterMap numEv = n.log.filterMap numEv ∧
    (runNan H .nan l n w).1.interval = n.interval ∧ (runNan H .nan l n w).1.shuffle = n.shuffle
  | [], _, _, _ => ⟨rfl, rfl, rfl, rfl⟩
  | r :: l, n, w, ht => by
    rcases hres : H.step r n w with ⟨rep, os, w'⟩
    obtain ⟨h1, h2, h3, h4, h5⟩ := ops_nan os ht
    obtain ⟨g1, g2, g3, g4, g5⟩ := after_nan ((n.applyOps os).logAct r .nan rep) r rep
    have hn1 : ((((n.applyOps os).logAct r .nan rep).after .nan r rep)).queue.filterMap numBucket = n.queue.filterMap numBucket := g1.trans h1
    have hn2 : ((((n.applyOps os).logAct r .nan rep).after .nan r rep)).log.filterMap numEv = n.log.filterMap numEv := by
      rw [g2]
      simp only [NanSched.logAct, List.filterMap_append, h2]
      simp [numEv]
    have hn5 : ((((n.applyOps os).logAct r .nan rep).after .nan r rep)).time = .nan := g5.trans h5
    rw [runNan]
    simp only [hres]
    generalize ((n.applyOps os).logAct r .nan rep).after .nan r rep = n1 at *
    have hi : n1.interval = n.interval := g3.trans h3
    have hsh : n1.shuffle = n.shuffle := g4.trans h4
    obtain ⟨e1, e2, e3, e4⟩ := runNan_nan H l n1 w' hn5
    cases rep with
    | error => exact ⟨hn1, hn2, hi, hsh⟩
    | dead => exact ⟨e1.trans hn1, e2.trans hn2, e3.trans hi, e4.trans hsh⟩
    | ret d => exact ⟨e1.trans hn1, e2.trans hn2, e3.trans hi, e4.trans hsh⟩

/-! ### The log only grows, and exceptions are in it -/

theorem nanOps_log : ∀ (os : List SOp) (n : NanSched), n.log <+: (n.applyOps os).log
  | [], _ => List.prefix_rfl
  | o :: os, n => by
    have h : n.log <+: (n.applyOp o).log := by
      cases o with
      | add r w => exact List.prefix_append _ _
      | remove r => exact List.prefix_rfl
      | stop => exact List.prefix_rfl
    exact h.trans (nanOps_log os (n.applyOp o))

theorem nanAfter_log (n : NanSched) (now : FNum) (r : Ref) (rep : NanReply) : (n.after now r rep).log = n.log := by
  cases rep with
  | dead => rfl
  | error => rfl
  | ret d =>
    simp only [NanSched.after]
    split <;> rfl

theorem runNan_log (H : NanHost W) (now : FNum) : ∀ (l : List Ref) (n : NanSched) (w : W),
    n.log <+: (runNan H now l n w).1.log ∧
    ((runNan H now l n w).2.2 = true → ∃ r, NanEv.act r now .error ∈ (runNan H now l n w).1.log)
  | [], _, _ => ⟨List.prefix_rfl, fun h => nomatch h⟩
  | r :: l, n, w => by
    rcases hres : H.step r n w with ⟨rep, os, w'⟩
    have h1 : n.log <+: (((n.applyOps os).logAct r now rep).after now r rep).log := by
      rw [nanAfter_log]
      exact (nanOps_log os n).trans (List.prefix_append _ _)
    have h2 : NanEv.act r now rep ∈ (((n.applyOps os).logAct r now rep).after now r rep).log := by
      rw [nanAfter_log]
      simp [NanSched.logAct]
    rw [runNan]
    simp only [hres]
    generalize ((n.applyOps os).logAct r now rep).after now r rep = n1 at *
    obtain ⟨e1, e2⟩ := runNan_log H now l n1 w'
    cases rep with
    | error => exact ⟨h1, fun _ => ⟨r, h2⟩⟩
    | dead => exact ⟨h1.trans e1, e2⟩
    | ret d => exact ⟨h1.trans e1, e2⟩

theorem nanStep_log (H : NanHost W) (n : NanSched) (w : W) : n.log <+: (n.step H w).1.log ∧
    ((n.step H w).2.2 = true → ∃ r, NanEv.act r n.time .error ∈ (n.step H w).1.log) := by
  unfold NanSched.step
  cases hq : n.queue with
  | nil => exact ⟨List.prefix_rfl, fun h => nomatch h⟩
  | cons b q =>
    simp only
    split
    · exact ⟨List.prefix_rfl, fun h => nomatch h⟩
    · obtain ⟨e1, e2⟩ := runNan_log H n.time (nanOrder H n b.2 w).1 { n with queue := q } (nanOrder H n b.2 w).2
      unfold finishNan
      split
      · exact ⟨e1, e2⟩
      · exact ⟨e1, fun h => nomatch h⟩

theorem nanExec_log (H : NanHost W) (c : Cmd W) (x : NanSched × W) : x.1.log <+: (c.nanExec H x).1.log := by
  cases c with
  | step => exact (nanStep_log H x.1 x.2).1
  | op o => exact nanOps_log [o] x.1
  | world f => exact List.prefix_rfl

/-! ### Whole histories -/

/-- The invariant of the simulation between commands. -/
structure NanSim (s : Sched) (n : NanSched) : Prop where
  rel : NanRel s n
  num : ∀ t, n.time = .num t → s.time = t ∧ ∀ b q, n.queue ≠ (.nan, b) :: q
  nan : n.time = .nan → s.time = headTime s.queue ∧ ∃ b q, n.queue = (.nan, b) :: q

theorem insertNan_head {t : Time} {r : Ref} {q : List (FNum × List Ref)} (h : ∀ b q', q ≠ (.nan, b) :: q') :
    ∀ b q', insertNan (.num t) r q ≠ (.nan, b) :: q' := by
  intro b q'
  cases q with
  | nil => simp [insertNan]
  | cons c q =>
    obtain ⟨u, l⟩ := c
    cases u with
    | nan => exact absurd rfl (h l q)
    | num u =>
      simp only [insertNan]
      split
      · simp
      · split <;> simp

theorem headSim {s : Sched} {n : NanSched} (hr : NanRel s n) (hs : s.time = headTime s.queue) (hn : n.time = headNan n.queue) : NanSim s n := by
  cases hq : n.queue with
  | nil =>
    have hq' : s.queue = [] := by rw [hr.queue, hq]; rfl
    rw [hq] at hn
    refine ⟨hr, fun t ht => ?_, fun h => ?_⟩
    · rw [hn, headNan] at ht
      cases ht
      exact ⟨by rw [hs, hq']; rfl, fun b q h => by rw [hq] at h; cases h⟩
    · rw [hn] at h
      cases h
  | cons c q =>
    obtain ⟨u, l⟩ := c
    rw [hq] at hn
    cases u with
    | nan =>
      refine ⟨hr, fun t ht => ?_, fun _ => ⟨hs, l, q, hq⟩⟩
      rw [hn] at ht
      cases ht
    | num u =>
      have hq' : s.queue = (u, l) :: q.filterMap numBucket := by rw [hr.queue, hq]; rfl
      refine ⟨hr, fun t ht => ?_, fun h => ?_⟩
      · rw [hn, headNan] at ht
        cases ht
        exact ⟨by rw [hs, hq']; rfl, fun b q h => by rw [hq] at h; cases h⟩
      · rw [hn] at h
        cases h

theorem NanSim.exec (H : NanHost W) (c : Cmd W) {s : Sched} {n : NanSched} {w : W} (h : NanSim s n)
    (hg : ∀ r t, NanEv.act r t .error ∉ (c.nanExec H (n, w)).1.log) :
    ∃ h', (execAll (nanSim H) h' (s, (n, w))).2 = c.nanExec H (n, w) ∧
      NanSim (execAll (nanSim H) h' (s, (n, w))).1 (c.nanExec H (n, w)).1 := by
  cases c with
  | world f => exact ⟨[.world (fun x => (x.1, f x.2))], rfl, h⟩
  | op o =>
    cases ht : n.time with
    | nan =>
      obtain ⟨h1, h2, h3, h4, h5, h6⟩ := op_nan ht o
      obtain ⟨g1, b, q, g2⟩ := h.nan ht
      refine ⟨[.world (fun x => (x.1.applyOp o, x.2))], rfl, ⟨⟨h.rel.queue.trans h1.symm, h.rel.log.trans h2.symm, h.rel.interval.trans h3.symm,
        h.rel.shuffle.trans h4.symm⟩, fun t ht' => ?_, fun _ => ⟨g1, h6 b q g2⟩⟩⟩
      change (n.applyOp o).time = _ at ht'
      rw [h5] at ht'
      cases ht'
    | num t =>
      obtain ⟨g1, g2⟩ := h.num t ht
      obtain ⟨h1, h2, h3⟩ := h.rel.op (by rw [ht, g1]) o
      refine ⟨[.op o, .world (fun x => (x.1.applyOp o, x.2))], rfl, ⟨h1, fun t' ht' => ?_, fun ht' => ?_⟩⟩
      · change (n.applyOp o).time = _ at ht'
        rw [h3, ht] at ht'
        cases ht'
        refine ⟨h2.trans g1, ?_⟩
        cases o with
        | add r w =>
          change ∀ b q, insertNan (FNum.pyOr none n.time) r n.queue ≠ _
          rw [ht]
          exact insertNan_head g2
        | remove r => exact g2
        | stop => exact g2
      · change (n.applyOp o).time = _ at ht'
        rw [h3, ht] at ht'
        cases ht'
  | step =>
    have hno : (n.step H w).2.2 = false := by
      cases hb : (n.step H w).2.2 with
      | false => rfl
      | true =>
        obtain ⟨r, hr⟩ := (nanStep_log H n w).2 hb
        exact absurd hr (hg r _)
    cases hq : n.queue with
    | nil =>
      have he : (Cmd.step (W := W)).nanExec H (n, w) = (n, w) := by simp only [Cmd.nanExec, NanSched.step, hq]
      rw [he]
      exact ⟨[], rfl, h⟩
    | cons c q =>
      obtain ⟨u, b⟩ := c
      cases u with
      | nan =>
        cases ht : n.time with
        | num t => exact absurd hq ((h.num t ht).2 b q)
        | nan =>
          have hst : n.step H w = finishNan (runNan H .nan (nanOrder H n b w).1 { n with queue := q } (nanOrder H n b w).2) := by
            simp only [NanSched.step, hq, ht, FNum.gt, Bool.false_eq_true, if_false]
          refine ⟨[.world (fun x => ((x.1.step H x.2).1, (x.1.step H x.2).2.1))], rfl, ?_⟩
          change NanSim s (n.step H w).1
          obtain ⟨e1, e2, e3, e4⟩ := runNan_nan H (nanOrder H n b w).1 { n with queue := q } (nanOrder H n b w).2 ht
          rw [hst] at hno ⊢
          generalize runNan H .nan (nanOrder H n b w).1 { n with queue := q } (nanOrder H n b w).2 = res at *
          have hf : res.2.2 = false := by
            unfold finishNan at hno
            cases hb : res.2.2 with
            | false => rfl
            | true => rw [hb] at hno; simp only [if_true] at hno; rw [hb] at hno; exact hno
          simp only [finishNan, hf, Bool.false_eq_true, if_false]
          refine headSim ⟨?_, h.rel.log.trans e2.symm, h.rel.interval.trans e3.symm, h.rel.shuffle.trans e4.symm⟩ (h.nan ht).1 rfl
          refine Eq.trans ?_ e1.symm
          rw [h.rel.queue, hq]
          rfl
      | num u =>
        cases ht : n.time with
        | nan =>
          obtain ⟨_, b', q', h'⟩ := h.nan ht
          rw [hq] at h'
          cases h'
        | num t =>
          obtain ⟨g1, g2⟩ := h.num t ht
          have hq' : s.queue = (u, b) :: q.filterMap numBucket := by rw [h.rel.queue, hq]; rfl
          by_cases hlt : t < u
          · have hst : n.step H w = ({ n with time := .num u }, w, false) := by
              simp only [NanSched.step, hq, ht, FNum.gt, hlt, decide_true, if_true]
            have hss : ∀ x, s.step (nanSim H) x = ({ s with time := u }, x, false) := by
              intro x
              simp only [Sched.step, hq', g1, hlt, if_true]
            refine ⟨[.step, .world (fun x => ((x.1.step H x.2).1, (x.1.step H x.2).2.1))], ?_, ?_⟩
            · simp only [execAll, List.foldl_cons, List.foldl_nil, Cmd.exec, hss, Cmd.nanExec]
            · simp only [execAll, List.foldl_cons, List.foldl_nil, Cmd.exec, hss, Cmd.nanExec, hst]
              refine ⟨⟨h.rel.queue, h.rel.log, h.rel.interval, h.rel.shuffle⟩, fun t' ht' => ?_, fun ht' => nomatch ht'⟩
              cases ht'
              exact ⟨rfl, g2⟩
          · have hst : n.step H w = finishNan (runNan H (.num t) (nanOrder H n b w).1 { n with queue := q } (nanOrder H n b w).2) := by
              simp only [NanSched.step, hq, ht, FNum.gt, hlt, decide_false, Bool.false_eq_true, if_false]
            have hrel : NanRel { s with queue := q.filterMap numBucket } { n with queue := q } := ⟨rfl, h.rel.log, h.rel.interval, h.rel.shuffle⟩
            obtain ⟨s', e1, e2, e3, e4⟩ := runBucket_nanSim H t (nanOrder H n b w).1 { s with queue := q.filterMap numBucket }
              { n with queue := q } (nanOrder H n b w).2 hrel g1 ht
            have hord : runOrder (nanSim H) s b ({ n with queue := q }, w) = ((nanOrder H n b w).1, ({ n with queue := q }, (nanOrder H n b w).2)) := by
              unfold runOrder nanOrder
              rw [h.rel.shuffle]
              split <;> rfl
            rw [hst] at hno
            have hss : s.step (nanSim H) ({ n with queue := q }, w) = finishStep (s', ((runNan H (.num t) (nanOrder H n b w).1 { n with queue := q } (nanOrder H n b w).2).1,
                (runNan H (.num t) (nanOrder H n b w).1 { n with queue := q } (nanOrder H n b w).2).2.1),
                (runNan H (.num t) (nanOrder H n b w).1 { n with queue := q } (nanOrder H n b w).2).2.2) := by
              rw [← e1]
              simp only [Sched.step, hq', g1, hlt, if_false, hord]
            generalize runNan H (.num t) (nanOrder H n b w).1 { n with queue := q } (nanOrder H n b w).2 = res at *
            have hf : res.2.2 = false := by
              unfold finishNan at hno
              cases hb : res.2.2 with
              | false => rfl
              | true => rw [hb] at hno; simp only [if_true] at hno; rw [hb] at hno; exact hno
            rw [finishStep] at hss
            simp only [hf, Bool.false_eq_true, if_false] at hss
            have hst' : n.step H w = ({ res.1 with steps := res.1.steps + 1, time := headNan res.1.queue }, res.2.1, false) := by
              rw [hst]
              simp only [finishNan, hf, Bool.false_eq_true, if_false]
            refine ⟨[.world (fun x => ({ x.1 with queue := q }, x.2)), .step,
              .world (fun x => ({ x.1 with steps := x.1.steps + 1, time := headNan x.1.queue }, x.2))], ?_, ?_⟩
            · simp only [execAll, List.foldl_cons, List.foldl_nil, Cmd.exec, hss, Cmd.nanExec, hst']
            · simp only [execAll, List.foldl_cons, List.foldl_nil, Cmd.exec, hss, Cmd.nanExec, hst']
              exact headSim ⟨e2.queue, e2.log, e2.interval, e2.shuffle⟩ rfl rfl

theorem NanSim.execAll (H : NanHost W) : ∀ (h : List (Cmd W)) {s : Sched} {n : NanSched} {w : W}, NanSim s n →
    (∀ r t, NanEv.act r t .error ∉ (nanExecAll H h (n, w)).1.log) →
    ∃ h', (Verif.execAll (nanSim H) h' (s, (n, w))).2 = nanExecAll H h (n, w) ∧
      NanSim (Verif.execAll (nanSim H) h' (s, (n, w))).1 (nanExecAll H h (n, w)).1
  | [], s, n, w, hs, _ => ⟨[], rfl, hs⟩
  | c :: h, s, n, w, hs, hg => by
    have hpre : ∀ (h : List (Cmd W)) (x : NanSched × W), x.1.log <+: (nanExecAll H h x).1.log := by
      intro h
      induction h with
      | nil => exact fun x => List.prefix_rfl
      | cons c h ih => exact fun x => (nanExec_log H c x).trans (ih _)
    obtain ⟨h1, e1, e2⟩ := hs.exec H c (w := w) (fun r t hr => hg r t ((hpre h _).subset hr))
    have hx : Verif.execAll (nanSim H) h1 (s, (n, w)) = ((Verif.execAll (nanSim H) h1 (s, (n, w))).1, ((c.nanExec H (n, w)).1, (c.nanExec H (n, w)).2)) :=
      Prod.ext rfl e1
    generalize (Verif.execAll (nanSim H) h1 (s, (n, w))).1 = s1 at *
    obtain ⟨h2, f1, f2⟩ := NanSim.execAll H h e2 (w := (c.nanExec H (n, w)).2) hg
    refine ⟨h1 ++ h2, ?_, ?_⟩
    · rw [execAll_append, hx, f1]
      rfl
    · rw [execAll_append, hx]
      exact f2

end Verif
