import Verif.Model.PQueue
import Verif.Proofs.Heapq
import Verif.Proofs.Calendar

/-!
# Invariants of `PQueueActivation`
-/

namespace Verif
open Spec

variable {W : Type} (H : PHost W)

/-! ### The log only grows -/

theorem pschedule_log (s : PSched) (w : W) (r : Ref) (wh : Option Time) (b : Bool) :
    (s.schedule H w r wh b).1.log = s.log := by
  unfold PSched.schedule
  simp only
  split
  · split <;> rfl
  · rfl

theorem papplyOp_log (s : PSched) (w : W) (o : SOp) :
    ∃ l, (s.applyOp H w o).1.log = s.log ++ l := by
  cases o with
  | add r wh =>
    simp only [PSched.applyOp, PSched.addAgent]
    split
    · exact ⟨[], by rw [pschedule_log]; simp⟩
    · exact ⟨[.added r s.time], by simp only [pschedule_log]⟩
  | remove r => exact ⟨[], by simp [PSched.applyOp]⟩
  | stop => exact ⟨[], by simp [PSched.applyOp]⟩

theorem papplyOps_log (s : PSched) (w : W) (os : List SOp) :
    ∃ l, (s.applyOps H w os).1.log = s.log ++ l := by
  induction os generalizing s w with
  | nil => exact ⟨[], by simp [PSched.applyOps]⟩
  | cons o os ih =>
    simp only [PSched.applyOps]
    obtain ⟨l1, h1⟩ := papplyOp_log H s w o
    split
    · exact ⟨l1, h1⟩
    · obtain ⟨l2, h2⟩ := ih (s.applyOp H w o).1 (s.applyOp H w o).2.1
      exact ⟨l1 ++ l2, by rw [h2, h1, List.append_assoc]⟩

theorem pLoop_log (now : Time) (fuel : Nat) (s : PSched) (w : W) :
    ∃ l, (pLoop H now fuel s w).1.log = s.log ++ l := by
  induction fuel generalizing s w with
  | zero =>
    unfold pLoop
    split
    · exact ⟨[], by simp⟩
    · split <;> exact ⟨[], by simp⟩
  | succ fuel ih =>
    unfold pLoop
    split
    · exact ⟨[], by simp⟩
    · rename_i e q hq
      split
      · exact ⟨[], by simp⟩
      · simp only
        obtain ⟨l1, h1⟩ := papplyOps_log H s (H.step e.ref s w).2.2 (H.step e.ref s w).2.1
        generalize hrep : (if (s.applyOps H (H.step e.ref s w).2.2 (H.step e.ref s w).2.1).2.2 = true
          then Reply.error else (H.step e.ref s w).1) = rep
        generalize s.applyOps H (H.step e.ref s w).2.2 (H.step e.ref s w).2.1 = ops at *
        cases rep with
        | error => exact ⟨l1 ++ [.act e.ref now .error], by simp [PSched.logAct, h1]⟩
        | dead =>
          obtain ⟨l2, h2⟩ := ih (ops.1.logAct e.ref now .dead).pop ops.2.1
          exact ⟨l1 ++ [.act e.ref now .dead] ++ l2, by
            simp only at h2 ⊢
            rw [h2]; simp [PSched.logAct, PSched.pop, h1]⟩
        | ret d =>
          simp only
          split
          · obtain ⟨l2, h2⟩ := ih (ops.1.logAct e.ref now (.ret d)).pop ops.2.1
            exact ⟨l1 ++ [.act e.ref now (.ret d)] ++ l2, by
              rw [h2]; simp [PSched.logAct, PSched.pop, h1]⟩
          · split
            · exact ⟨l1 ++ [.act e.ref now (.ret d)], by
                rw [pschedule_log]; simp [PSched.logAct, h1]⟩
            · obtain ⟨l2, h2⟩ := ih _ _
              exact ⟨l1 ++ [.act e.ref now (.ret d)] ++ l2, by
                rw [h2, pschedule_log]; simp [PSched.logAct, h1]⟩

theorem pstep_log (fuel : Nat) (s : PSched) (w : W) :
    ∃ l, (s.step H fuel w).1.log = s.log ++ l := by
  unfold PSched.step
  split
  · exact ⟨[], by simp⟩
  · obtain ⟨l, h⟩ := pLoop_log H s.time fuel s w
    simp only
    split <;> exact ⟨l, h⟩

theorem pexec_log (fuel : Nat) (c : Cmd W) (sw : PSched × W) :
    ∃ l, (c.pexec H fuel sw).1.log = sw.1.log ++ l := by
  cases c with
  | step => exact pstep_log H fuel sw.1 sw.2
  | op o => exact papplyOp_log H sw.1 sw.2 o
  | world f => exact ⟨[], by simp [Cmd.pexec]⟩

theorem pexecAll_append (fuel : Nat) (h1 h2 : List (Cmd W)) (sw : PSched × W) :
    pexecAll H fuel (h1 ++ h2) sw = pexecAll H fuel h2 (pexecAll H fuel h1 sw) := by
  simp [pexecAll, List.foldl_append]

theorem pexecAll_log (fuel : Nat) (h : List (Cmd W)) (sw : PSched × W) :
    ∃ l, (pexecAll H fuel h sw).1.log = sw.1.log ++ l := by
  induction h generalizing sw with
  | nil => exact ⟨[], by simp [pexecAll]⟩
  | cons c h ih =>
    obtain ⟨l1, h1⟩ := pexec_log H fuel c sw
    obtain ⟨l2, h2⟩ := ih (c.pexec H fuel sw)
    refine ⟨l1 ++ l2, ?_⟩
    have : pexecAll H fuel (c :: h) sw = pexecAll H fuel h (c.pexec H fuel sw) := rfl
    rw [this, h2, h1, List.append_assoc]

/-! ### The heap -/

theorem PEntry.weakOrder : WeakOrder PEntry.lt where
  asymm a b h := by
    simp only [PEntry.lt, Bool.or_eq_true, Bool.and_eq_true, decide_eq_true_eq, Bool.or_eq_false_iff, Bool.and_eq_false_iff,
      decide_eq_false_iff_not] at h ⊢
    rcases h with h | ⟨h1, h2⟩
    · exact ⟨not_lt.2 (le_of_lt h), Or.inl (ne_of_gt h)⟩
    · exact ⟨by rw [h1]; exact lt_irrefl _, Or.inr (not_lt.2 (le_of_lt h2))⟩
  trans a b c h1 h2 := by
    simp only [PEntry.lt, Bool.or_eq_false_iff, Bool.and_eq_false_iff, decide_eq_false_iff_not, not_lt] at h1 h2 ⊢
    refine ⟨le_trans h1.1 h2.1, ?_⟩
    by_cases h : c.when_ = a.when_
    · right
      have hb : b.when_ = a.when_ := le_antisymm (h ▸ h2.1) h1.1
      have h3 := h1.2.resolve_left (fun hn => hn hb)
      have h4 := h2.2.resolve_left (fun hn => hn (h.trans hb.symm))
      exact le_trans h3 h4
    · exact Or.inl h

/-- An entry that is not less is not earlier. -/
theorem PEntry.le_when {a b : PEntry} (h : a.lt b = false) : b.when_ ≤ a.when_ := by
  simp only [PEntry.lt, Bool.or_eq_false_iff, decide_eq_false_iff_not, not_lt] at h
  exact h.1

/-! ### The invariant -/

/-- The pending activations of a heap. -/
def ppending (s : PSched) : Cal := s.queue.map (fun e => (e.ref, e.when_))

/-- User code adds no agents. -/
def NoAdd (H : PHost W) : Prop := ∀ r s w q wh, SOp.add q wh ∉ (H.step r s w).2.1

structure PInv (s : PSched) : Prop where
  iv_pos : 0 < s.interval
  heap : IsHeap PEntry.lt s.queue
  perm : (ppending s).Perm (cal s.interval s.log)
  legal : Legal s.interval s.log
  ge : ∀ e ∈ s.queue, s.time ≤ e.when_
  fin : ∀ e ∈ s.queue, e.when_ ≠ .inf

theorem PInv.init {iv : Time} (hiv : 0 < iv) : PInv (PSched.init iv) where
  iv_pos := hiv
  heap := IsHeap.nil _
  perm := List.Perm.refl _
  legal := Legal.nil
  ge := by simp [PSched.init]
  fin := by simp [PSched.init]

theorem PInv.congr {s s' : PSched} (h : PInv s) (h1 : s'.interval = s.interval)
    (h2 : s'.queue = s.queue) (h3 : s'.log = s.log) (h4 : s'.time = s.time) : PInv s' where
  iv_pos := h1 ▸ h.iv_pos
  heap := h2 ▸ h.heap
  perm := by rw [ppending, h1, h2, h3]; exact h.perm
  legal := by rw [h1, h3]; exact h.legal
  ge := by rw [h2, h4]; exact h.ge
  fin := by rw [h2]; exact h.fin

theorem papplyOps_noadd (s : PSched) (w : W) (os : List SOp) (h : ∀ q wh, SOp.add q wh ∉ os) :
    (s.applyOps H w os).2.2 = false ∧ (s.applyOps H w os).2.1 = w ∧
    (s.applyOps H w os).1.queue = s.queue ∧ (s.applyOps H w os).1.log = s.log ∧
    (s.applyOps H w os).1.time = s.time ∧ (s.applyOps H w os).1.interval = s.interval ∧
    (s.applyOps H w os).1.steps = s.steps := by
  induction os generalizing s with
  | nil => simp [PSched.applyOps]
  | cons o os ih =>
    have h' : ∀ q wh, SOp.add q wh ∉ os := fun q wh hm => h q wh (List.mem_cons_of_mem _ hm)
    cases o with
    | add r wh => exact absurd List.mem_cons_self (h r wh)
    | remove r => simpa [PSched.applyOps, PSched.applyOp] using ih { s with agents := s.agents.erase r } h'
    | stop => simpa [PSched.applyOps, PSched.applyOp] using ih { s with running := false } h'

/-- Removing the head `(r, now)` and logging an activation that is never rescheduled. -/
theorem PInv.act_pop {s : PSched} {e : PEntry} {q : List PEntry} {rep : Reply} (h : PInv s)
    (hq : s.queue = e :: q) (hw : e.when_ = s.time) (hn : nextWake s.interval s.time rep = none) :
    PInv (s.logAct e.ref s.time rep).pop := by
  have hp := h.perm
  rw [ppending, hq, List.map_cons, hw] at hp
  have hmem : (e.ref, s.time) ∈ cal s.interval s.log := hp.mem_iff.1 List.mem_cons_self
  have hpop : (s.logAct e.ref s.time rep).pop.queue.Perm q := by
    simp only [PSched.pop, PSched.logAct, hq]; exact heappop_perm e q
  refine ⟨h.iv_pos, heappop_heap PEntry.weakOrder _ h.heap, ?_, ?_, ?_, ?_⟩
  · rw [ppending]
    refine (hpop.map _).trans ?_
    simp only [PSched.pop, PSched.logAct, cal_append_one, calStep, hn]
    simp only [Option.map_none, Option.toList_none, List.append_nil]
    have := hp.erase (e.ref, s.time)
    rwa [List.erase_cons_head] at this
  · apply h.legal.snoc
    refine ⟨hmem, ?_⟩
    intro p hpm
    have := h.perm.mem_iff.2 hpm
    obtain ⟨x, hx, rfl⟩ := List.mem_map.1 this
    exact h.ge x hx
  · intro x hx
    exact h.ge x (by rw [hq]; exact List.mem_cons_of_mem _ (hpop.mem_iff.1 hx))
  · intro x hx
    exact h.fin x (by rw [hq]; exact List.mem_cons_of_mem _ (hpop.mem_iff.1 hx))

/-- Replacing the head `(r, now)` by `(r, u)` after an activation asking for `u`. -/
theorem PInv.act_replace {s : PSched} {e : PEntry} {q : List PEntry} {rep : Reply} {u : Time} (h : PInv s)
    (hq : s.queue = e :: q) (hw : e.when_ = s.time) (hn : nextWake s.interval s.time rep = some u)
    (hu : s.time < u) (hinf : u ≠ .inf) (k : Rat) :
    PInv { s.logAct e.ref s.time rep with queue := siftup PEntry.lt ⟨u, k, e.ref⟩ (e :: q) } := by
  have hs := h.heap
  rw [hq] at hs
  have hp := h.perm
  rw [ppending, hq, List.map_cons, hw] at hp
  have hmem : (e.ref, s.time) ∈ cal s.interval s.log := hp.mem_iff.1 List.mem_cons_self
  refine ⟨h.iv_pos, heapreplace_heap PEntry.weakOrder _ _ _ hs rfl, ?_, ?_, ?_, ?_⟩
  · simp only [ppending, PSched.logAct, cal_append_one, calStep, hn]
    simp only [Option.map_some, Option.toList_some]
    have := hp.erase (e.ref, s.time)
    rw [List.erase_cons_head] at this
    refine ((siftup_perm _ e q).map _).trans ?_
    rw [List.map_cons]
    refine (this.cons _).trans ?_
    exact (List.perm_append_singleton _ _).symm
  · apply h.legal.snoc
    refine ⟨hmem, ?_⟩
    intro p hpm
    have := h.perm.mem_iff.2 hpm
    obtain ⟨x, hx, rfl⟩ := List.mem_map.1 this
    exact h.ge x hx
  · intro x hx
    rcases List.mem_cons.1 ((siftup_perm _ e q).mem_iff.1 hx) with rfl | hx
    · exact le_of_lt hu
    · exact h.ge x (by rw [hq]; exact List.mem_cons_of_mem _ hx)
  · intro x hx
    rcases List.mem_cons.1 ((siftup_perm _ e q).mem_iff.1 hx) with rfl | hx
    · exact hinf
    · exact h.fin x (by rw [hq]; exact List.mem_cons_of_mem _ hx)

/-- What the loop achieves. -/
structure LoopPost (s : PSched) (fuel : Nat) (res : PSched × W × Time × PStatus) : Prop where
  inv : PInv res.1
  time : res.1.time = s.time
  interval : res.1.interval = s.interval
  steps : res.1.steps = s.steps
  len : res.1.queue.length ≤ s.queue.length
  noraise : res.2.2.2 ≠ .raised
  stuck : s.queue.countP (fun e => decide (e.when_ = s.time)) ≤ fuel → res.2.2.2 ≠ .stuck
  evs : ∃ l, res.1.log = s.log ++ l ∧ ∀ e ∈ l, e.time = s.time ∧ e.isAct = true
  ok : res.2.2.2 = .ok → (res.1.queue = [] ∧ res.2.2.1 = .inf) ∨
    ∃ e q, res.1.queue = e :: q ∧ s.time < e.when_ ∧ res.2.2.1 = e.when_

theorem pyOr_eq_effDelay (d : Option Time) (iv : Time) : Time.pyOr d iv = effDelay iv d := by
  cases d <;> rfl

theorem time_add_comm (a b : Time) : a + b = b + a := by
  cases a <;> cases b <;> simp [add_comm]

theorem LoopPost.cons {s s2 : PSched} {fuel : Nat} {res : PSched × W × Time × PStatus}
    (hp : LoopPost s2 fuel res) (ht : s2.time = s.time) (hi : s2.interval = s.interval)
    (hst : s2.steps = s.steps) (hlen : s2.queue.length ≤ s.queue.length)
    {r : Ref} {rep : Reply} (hlog : s2.log = s.log ++ [.act r s.time rep])
    (hc : s2.queue.countP (fun e => decide (e.when_ = s.time)) + 1
      ≤ s.queue.countP (fun e => decide (e.when_ = s.time))) :
    LoopPost s (fuel + 1) res where
  inv := hp.inv
  time := hp.time.trans ht
  interval := hp.interval.trans hi
  steps := hp.steps.trans hst
  len := hp.len.trans hlen
  noraise := hp.noraise
  stuck h := hp.stuck (by rw [ht]; omega)
  evs := by
    obtain ⟨l, h1, h2⟩ := hp.evs
    refine ⟨.act r s.time rep :: l, by rw [h1, hlog]; simp, ?_⟩
    intro e he
    rcases List.mem_cons.1 he with rfl | he
    · exact ⟨rfl, rfl⟩
    · rw [← ht]; exact h2 e he
  ok h := by rw [← ht]; exact hp.ok h

theorem pLoop_spec (hna : NoAdd H) (fuel : Nat) (s : PSched) (w : W) (h : PInv s)
    (hg : GoodLog (pLoop H s.time fuel s w).1.log) :
    LoopPost s fuel (pLoop H s.time fuel s w) := by
  induction fuel generalizing s w with
  | zero =>
    unfold pLoop at hg ⊢
    cases hq : s.queue with
    | nil =>
      simp only
      exact ⟨h, rfl, rfl, rfl, by simp, by simp, by simp, ⟨[], by simp⟩, by simp [hq]⟩
    | cons e q =>
      simp only
      by_cases hlt : s.time < e.when_
      · rw [if_pos hlt]
        exact ⟨h, rfl, rfl, rfl, by simp, by simp, by simp, ⟨[], by simp⟩,
          fun _ => Or.inr ⟨e, q, hq, hlt, rfl⟩⟩
      · rw [if_neg hlt]
        have he : e.when_ = s.time := le_antisymm (not_lt.1 hlt) (h.ge e (by simp [hq]))
        refine ⟨h, rfl, rfl, rfl, by simp, by simp, ?_, ⟨[], by simp⟩, by simp⟩
        intro hc
        simp [hq, he] at hc
  | succ fuel ih =>
    have hg0 := hg
    unfold pLoop at hg ⊢
    cases hq : s.queue with
    | nil =>
      simp only
      exact ⟨h, rfl, rfl, rfl, by simp, by simp, by simp, ⟨[], by simp⟩, by simp [hq]⟩
    | cons e q =>
      simp only [hq] at hg ⊢
      by_cases hlt : s.time < e.when_
      · rw [if_pos hlt]
        exact ⟨h, rfl, rfl, rfl, by simp, by simp, by simp, ⟨[], by simp⟩,
          fun _ => Or.inr ⟨e, q, hq, hlt, rfl⟩⟩
      · rw [if_neg hlt] at hg ⊢
        have he : e.when_ = s.time := le_antisymm (not_lt.1 hlt) (h.ge e (by simp [hq]))
        obtain ⟨o1, o2, o3, o4, o5, o6, o7⟩ := papplyOps_noadd H s (H.step e.ref s w).2.2
          (H.step e.ref s w).2.1 (hna e.ref s w)
        rw [o1] at hg ⊢
        simp only [Bool.false_eq_true, if_false] at hg ⊢
        generalize s.applyOps H (H.step e.ref s w).2.2 (H.step e.ref s w).2.1 = ops at *
        have hops : PInv ops.1 := h.congr o6 o3 o4 o5
        have hqo : ops.1.queue = e :: q := o3.trans hq
        have heo : e.when_ = ops.1.time := he.trans o5.symm
        have hcount : q.countP (fun x => decide (x.when_ = s.time)) + 1
            ≤ s.queue.countP (fun x => decide (x.when_ = s.time)) := by
          rw [hq, List.countP_cons_of_pos (by simp [he])]
        generalize (H.step e.ref s w).1 = rep at *
        cases rep with
        | error =>
          exfalso
          simp only [PSched.logAct] at hg
          exact hg (.act e.ref s.time .error) (by simp)
        | dead =>
          simp only at hg ⊢
          have hi := hops.act_pop (rep := .dead) hqo heo rfl
          rw [o5] at hi
          have ht : (ops.1.logAct e.ref s.time .dead).pop.time = s.time := o5
          have hpost := ih _ ops.2.1 hi (by rw [ht]; exact hg)
          rw [ht] at hpost
          refine hpost.cons ht o6 o7 ?_ (r := e.ref) (rep := .dead) ?_ ?_
          · simp [PSched.logAct, PSched.pop, hqo, hq, (heappop_perm _ _).length_eq]
          · simp [PSched.logAct, PSched.pop, o4]
          · simpa [PSched.logAct, PSched.pop, hqo, (heappop_perm _ _).countP_eq] using hcount
        | ret d =>
          simp only at hg ⊢
          have hiv : (ops.1.logAct e.ref s.time (.ret d)).interval = s.interval := o6
          rw [hiv, pyOr_eq_effDelay, time_add_comm] at hg ⊢
          by_cases hinf : s.time + effDelay s.interval d = .inf
          · rw [if_pos hinf] at hg ⊢
            have hi := hops.act_pop (rep := .ret d) hqo heo (by rw [o5, o6]; simp [nextWake, hinf])
            rw [o5] at hi
            have ht : (ops.1.logAct e.ref s.time (.ret d)).pop.time = s.time := o5
            have hpost := ih _ ops.2.1 hi (by rw [ht]; exact hg)
            rw [ht] at hpost
            refine hpost.cons ht o6 o7 ?_ (r := e.ref) (rep := .ret d) ?_ ?_
            · simp [PSched.logAct, PSched.pop, hqo, hq, (heappop_perm _ _).length_eq]
            · simp [PSched.logAct, PSched.pop, o4]
            · simpa [PSched.logAct, PSched.pop, hqo, (heappop_perm _ _).countP_eq] using hcount
          · rw [if_neg hinf] at hg ⊢
            have hsch : (ops.1.logAct e.ref s.time (.ret d)).schedule H ops.2.1 e.ref
                (some (s.time + effDelay s.interval d)) true
              = ({ ops.1.logAct e.ref s.time (.ret d) with
                    queue := siftup PEntry.lt ⟨s.time + effDelay s.interval d, (H.key e.ref ops.2.1).1, e.ref⟩ (e :: q) },
                 (H.key e.ref ops.2.1).2, false) := by
              simp only [PSched.schedule, if_true, PSched.logAct, hqo, Option.getD_some, heapreplace]
            rw [hsch] at hg ⊢
            simp only [Bool.false_eq_true, if_false] at hg ⊢
            have hgood : GoodReply (.ret d) := by
              obtain ⟨l, hl⟩ := pLoop_log H s.time fuel
                { ops.1.logAct e.ref s.time (.ret d) with
                    queue := siftup PEntry.lt ⟨s.time + effDelay s.interval d, (H.key e.ref ops.2.1).1, e.ref⟩ (e :: q) }
                (H.key e.ref ops.2.1).2
              rw [hl] at hg
              exact hg (.act e.ref s.time (.ret d)) (by simp [PSched.logAct])
            have hw : nextWake s.interval s.time (.ret d) = some (s.time + effDelay s.interval d) := by
              simp [nextWake, hinf]
            obtain ⟨hgt, hni⟩ := nextWake_gt h.iv_pos hgood hw
            have hi := hops.act_replace (rep := .ret d) hqo heo (by rw [o5, o6]; exact hw)
              (by rw [o5]; exact hgt) hni (H.key e.ref ops.2.1).1
            rw [o5] at hi
            have ht : ({ ops.1.logAct e.ref s.time (.ret d) with
                    queue := siftup PEntry.lt ⟨s.time + effDelay s.interval d, (H.key e.ref ops.2.1).1, e.ref⟩ (e :: q) } : PSched).time
                = s.time := o5
            have hpost := ih _ (H.key e.ref ops.2.1).2 hi (by rw [ht]; exact hg)
            rw [ht] at hpost
            refine hpost.cons ht o6 o7 ?_ (r := e.ref) (rep := .ret d) ?_ ?_
            · simp [PSched.logAct, (siftup_perm _ _ _).length_eq, hq]
            · simp [PSched.logAct, o4]
            · have hperm := siftup_perm (lt := PEntry.lt) ⟨s.time + effDelay s.interval d, (H.key e.ref ops.2.1).1, e.ref⟩ e q
              show List.countP _ (siftup PEntry.lt _ (e :: q)) + 1 ≤ _
              rw [hperm.countP_eq, List.countP_cons_of_neg (by simp [ne_of_gt hgt])]
              exact hcount

/-! ### Whole steps and histories -/

theorem PInv.step {s : PSched} (h : PInv s) (hna : NoAdd H) (fuel : Nat) (w : W)
    (hf : s.queue.length ≤ fuel) (hg : GoodLog (s.step H fuel w).1.log) :
    PInv (s.step H fuel w).1 ∧ s.time ≤ (s.step H fuel w).1.time ∧
    (s.step H fuel w).1.interval = s.interval ∧
    (s.step H fuel w).1.queue.length ≤ s.queue.length ∧ (s.step H fuel w).2.2 = .ok ∧
    ∃ l, (s.step H fuel w).1.log = s.log ++ l ∧ (∀ e ∈ l, e.time = s.time ∧ e.isAct = true) ∧
      (s.time ≠ .inf →
        (∀ p ∈ cal s.interval (s.step H fuel w).1.log, s.time < p.2) ∧
        ((s.step H fuel w).1.queue = [] ∧ (s.step H fuel w).1.time = .inf ∧
            (s.step H fuel w).1.running = false ∨
          ∃ e q, (s.step H fuel w).1.queue = e :: q ∧ (s.step H fuel w).1.time = e.when_)) := by
  unfold PSched.step at hg ⊢
  by_cases hinf : s.time = .inf
  · simp only [if_pos hinf]
    exact ⟨h, le_refl _, trivial, le_refl _, trivial, [], by simp [hinf]⟩
  · simp only [if_neg hinf] at hg ⊢
    have hg' : GoodLog (pLoop H s.time fuel s w).1.log := by
      cases hst : (pLoop H s.time fuel s w).2.2.2 <;> simp only [hst] at hg <;> exact hg
    have hp := pLoop_spec H hna fuel s w h hg'
    have hok : (pLoop H s.time fuel s w).2.2.2 = .ok := by
      have h1 := hp.noraise
      have h2 := hp.stuck (List.countP_le_length.trans hf)
      cases hst : (pLoop H s.time fuel s w).2.2.2 <;> simp_all
    simp only [hok]
    obtain ⟨l, hl, hl'⟩ := hp.evs
    have hnext : (∀ x ∈ (pLoop H s.time fuel s w).1.queue, (pLoop H s.time fuel s w).2.2.1 ≤ x.when_)
        ∧ s.time < (pLoop H s.time fuel s w).2.2.1 := by
      rcases hp.ok hok with ⟨hq, hn⟩ | ⟨e, q, hq, hlt, hn⟩
      · rw [hq, hn]
        refine ⟨by simp, ?_⟩
        cases ht : s.time with
        | inf => exact absurd ht hinf
        | fin x => simp
      · rw [hn]
        refine ⟨?_, hlt⟩
        intro x hx
        have hs := hp.inv.heap
        rw [hq] at hs hx
        exact PEntry.le_when (hs.head_le PEntry.weakOrder x hx)
    refine ⟨⟨hp.inv.iv_pos, hp.inv.heap, hp.inv.perm, hp.inv.legal, ?_, hp.inv.fin⟩,
      le_of_lt hnext.2, hp.interval, hp.len, trivial, l, hl, hl', ?_⟩
    · exact hnext.1
    · intro _
      refine ⟨?_, ?_⟩
      · intro p hpm
        have hm : p ∈ ppending (pLoop H s.time fuel s w).1 := by
          apply hp.inv.perm.mem_iff.2
          rw [hp.interval]
          exact hpm
        obtain ⟨x, hx, rfl⟩ := List.mem_map.1 hm
        exact lt_of_lt_of_le hnext.2 (hnext.1 x hx)
      · rcases hp.ok hok with ⟨hq, hn⟩ | ⟨e, q, hq, hlt, hn⟩
        · exact Or.inl ⟨hq, hn, by rw [hn]; simp⟩
        · exact Or.inr ⟨e, q, hq, hn⟩

/-- A command that adds no agents. -/
def Cmd.noAdd : Cmd W → Bool
  | .op (.add _ _) => false
  | _ => true

/-- Between steps the clock is at the earliest pending activation. -/
def PHead (s : PSched) : Prop := s.queue = [] ∨ ∃ e ∈ s.queue, e.when_ = s.time

/-- Once the clock is at infinity nothing is pending. -/
theorem PInv.inf_empty {s : PSched} (h : PInv s) (hh : PHead s) (ht : s.time = .inf) : s.queue = [] := by
  rcases hh with hh | ⟨e, he, hw⟩
  · exact hh
  · exact absurd (hw.trans ht) (h.fin e he)

structure ExecPost (sw sw' : PSched × W) : Prop where
  inv : PInv sw'.1
  head : PHead sw'.1
  le : sw.1.time ≤ sw'.1.time
  interval : sw'.1.interval = sw.1.interval
  len : sw'.1.queue.length ≤ sw.1.queue.length
  evs : ∃ l, sw'.1.log = sw.1.log ++ l ∧ ∀ e ∈ l, e.isAct = true

theorem PInv.exec {sw : PSched × W} (h : PInv sw.1) (hh : PHead sw.1) (hna : NoAdd H) (fuel : Nat)
    (c : Cmd W) (hc : c.noAdd = true) (hf : sw.1.queue.length ≤ fuel)
    (hg : GoodLog (c.pexec H fuel sw).1.log) : ExecPost sw (c.pexec H fuel sw) := by
  cases c with
  | step =>
    obtain ⟨h1, h2, h3, h4, _, l, hl, hl', h5⟩ := h.step H hna fuel sw.2 hf hg
    refine ⟨h1, ?_, h2, h3, h4, l, hl, fun e he => (hl' e he).2⟩
    by_cases ht : sw.1.time = .inf
    · left
      have : (Cmd.pexec H fuel .step sw).1 = sw.1 := by simp [Cmd.pexec, PSched.step, ht]
      rw [this]
      exact h.inf_empty hh ht
    · rcases (h5 ht).2 with ⟨hq, _⟩ | ⟨e, q, hq, hw⟩
      · exact Or.inl hq
      · exact Or.inr ⟨e, by show e ∈ (sw.1.step H fuel sw.2).1.queue; rw [hq]; simp, hw.symm⟩
  | op o =>
    cases o with
    | add => cases hc
    | remove r =>
      exact ⟨h.congr rfl rfl rfl rfl, hh, le_refl _, rfl, le_refl _, [], by simp [Cmd.pexec, PSched.applyOp]⟩
    | stop =>
      exact ⟨h.congr rfl rfl rfl rfl, hh, le_refl _, rfl, le_refl _, [], by simp [Cmd.pexec, PSched.applyOp]⟩
  | world f => exact ⟨h, hh, le_refl _, rfl, le_refl _, [], by simp [Cmd.pexec]⟩

theorem PInv.execAll {sw : PSched × W} (h : PInv sw.1) (hh : PHead sw.1) (hna : NoAdd H) (fuel : Nat)
    (hist : List (Cmd W)) (hc : ∀ c ∈ hist, c.noAdd = true) (hf : sw.1.queue.length ≤ fuel)
    (hg : GoodLog (pexecAll H fuel hist sw).1.log) : ExecPost sw (pexecAll H fuel hist sw) := by
  induction hist generalizing sw with
  | nil => exact ⟨h, hh, le_refl _, rfl, le_refl _, [], by simp [pexecAll]⟩
  | cons c hist ih =>
    have hx : pexecAll H fuel (c :: hist) sw = pexecAll H fuel hist (c.pexec H fuel sw) := rfl
    rw [hx] at hg ⊢
    have hg1 : GoodLog (c.pexec H fuel sw).1.log := by
      obtain ⟨l, hl⟩ := pexecAll_log H fuel hist (c.pexec H fuel sw)
      rw [hl] at hg; exact hg.prefix
    have p1 := h.exec H hh hna fuel c (hc c (by simp)) hf hg1
    have p2 := ih p1.inv p1.head (fun c' hc' => hc c' (by simp [hc'])) (p1.len.trans hf) hg
    obtain ⟨l1, e1, a1⟩ := p1.evs
    obtain ⟨l2, e2, a2⟩ := p2.evs
    refine ⟨p2.inv, p2.head, p1.le.trans p2.le, p2.interval.trans p1.interval, p2.len.trans p1.len,
      l1 ++ l2, by rw [e2, e1, List.append_assoc], ?_⟩
    intro e he
    rcases List.mem_append.1 he with he | he
    · exact a1 e he
    · exact a2 e he

/-- Adding a population at time 0. -/
def popCmds (pop : List Ref) : List (Cmd W) := pop.map (fun r => .op (.add r none))

theorem pop_inv (fuel : Nat) (pop : List Ref) (sw : PSched × W) (h : PInv sw.1) (hh : PHead sw.1)
    (ht : sw.1.time = 0) :
    PInv (pexecAll H fuel (popCmds pop) sw).1 ∧ PHead (pexecAll H fuel (popCmds pop) sw).1 ∧ (pexecAll H fuel (popCmds pop) sw).1.time = 0 ∧
    (pexecAll H fuel (popCmds pop) sw).1.interval = sw.1.interval ∧
    (pexecAll H fuel (popCmds pop) sw).1.queue.length = sw.1.queue.length + pop.length ∧
    (pexecAll H fuel (popCmds pop) sw).1.log = sw.1.log ++ pop.map (Ev.added · 0) := by
  induction pop generalizing sw with
  | nil => exact ⟨h, hh, ht, rfl, rfl, by simp [popCmds, pexecAll]⟩
  | cons r pop ih =>
    have hh : pexecAll H fuel (popCmds (r :: pop)) sw
      = pexecAll H fuel (popCmds pop) (Cmd.pexec H fuel (.op (.add r none)) sw) := rfl
    have hadd : Cmd.pexec H fuel (.op (.add r none)) sw =
        ({ sw.1 with
            queue := heappush PEntry.lt sw.1.queue ⟨0, (H.key r sw.2).1, r⟩
            agents := if r ∈ sw.1.agents then sw.1.agents else sw.1.agents ++ [r]
            log := sw.1.log ++ [.added r 0] }, (H.key r sw.2).2) := by
      simp [Cmd.pexec, PSched.applyOp, PSched.addAgent, PSched.schedule, ht, Time.truthy]
    rw [hh, hadd]
    have hle : ∀ e ∈ heappush PEntry.lt sw.1.queue ⟨0, (H.key r sw.2).1, r⟩, (0 : Time) ≤ e.when_ := by
      intro e he
      rcases List.mem_cons.1 ((heappush_perm _ _).mem_iff.1 he) with rfl | he
      · exact le_refl _
      · rw [← ht]; exact h.ge e he
    have hi : PInv ({ sw.1 with
            queue := heappush PEntry.lt sw.1.queue ⟨0, (H.key r sw.2).1, r⟩
            agents := if r ∈ sw.1.agents then sw.1.agents else sw.1.agents ++ [r]
            log := sw.1.log ++ [.added r 0] } : PSched) := by
      refine ⟨h.iv_pos, heappush_heap PEntry.weakOrder _ _ h.heap, ?_, ?_, ?_, ?_⟩
      · simp only [ppending, cal_append_one, calStep]
        refine ((heappush_perm _ _).map _).trans ?_
        rw [List.map_cons]
        exact (h.perm.cons _).trans (List.perm_append_singleton _ _).symm
      · apply h.legal.snoc
        intro p hp
        obtain ⟨x, hx, rfl⟩ := List.mem_map.1 (h.perm.mem_iff.2 hp)
        rw [← ht]
        exact h.ge x hx
      · intro e he
        show sw.1.time ≤ _
        rw [ht]; exact hle e he
      · intro e he
        rcases List.mem_cons.1 ((heappush_perm _ _).mem_iff.1 he) with rfl | he
        · simp
        · exact h.fin e he
    have hhd : PHead ({ sw.1 with
            queue := heappush PEntry.lt sw.1.queue ⟨0, (H.key r sw.2).1, r⟩
            agents := if r ∈ sw.1.agents then sw.1.agents else sw.1.agents ++ [r]
            log := sw.1.log ++ [.added r 0] } : PSched) :=
      Or.inr ⟨_, (heappush_perm _ _).mem_iff.2 List.mem_cons_self, ht.symm⟩
    obtain ⟨k1, k1', k2, k3, k4, k5⟩ := ih (_, (H.key r sw.2).2) hi hhd ht
    refine ⟨k1, k1', k2, k3, ?_, ?_⟩
    · rw [k4]; simp [(heappush_perm _ _).length_eq]; omega
    · rw [k5]; simp

end Verif
