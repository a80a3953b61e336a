import Verif.Proofs.Refine
import Verif.Props.Simulation

/-!
# C247: simulations with `PQueueActivation` are simulations with `TimedActivation`
-/

namespace Verif
open Spec

variable {W : Type}

/-- The state after `k` steps with `TimedActivation`. -/
def timedRun (U : AgentCode W) (order : Nat → List Ref → List Ref) (perm : ∀ n l, (order n l).Perm l) (iv : Time) (pop : List Ref) (w : W) (k : Nat) : Sched × W × Nat :=
  iterStep (timedStepper (U.timed order perm)) k (timedPop (U.timed order perm) iv pop w)

/-- The state after `k` steps with `PQueueActivation`; `N` bounds the number of activations of one step. -/
def pqueueRun (U : AgentCode W) (keys : Ref → Nat → Rat) (N : Nat) (iv : Time) (pop : List Ref) (w : W) (k : Nat) : PSched × W × Nat :=
  iterStep (pqStepper (U.pqueue keys) N) k (pqueuePop (U.pqueue keys) iv pop w)

/-- An order that begins with the given agents, if there is one. -/
def replan (plan l : List Ref) : List Ref :=
  if plan.Perm l then plan else if (plan ++ l.diff plan).Perm l then plan ++ l.diff plan else l

theorem replan_perm (plan l : List Ref) : (replan plan l).Perm l := by
  unfold replan
  split
  · assumption
  · split
    · assumption
    · exact List.Perm.refl l

theorem replan_eq {plan l : List Ref} (h : plan.Perm l) : replan plan l = plan := if_pos h

theorem replan_sub {plan l : List Ref} (h : List.Subperm plan l) : ∃ rest, replan plan l = plan ++ rest := by
  unfold replan
  split
  · exact ⟨[], by simp⟩
  · rw [if_pos (List.subperm_append_diff_self_of_count_le (List.subperm_ext_iff.1 h))]
    exact ⟨_, rfl⟩

/-- The order in which `PQueueActivation` runs the agents of its `n`-th step. -/
def pqueueOrder (U : AgentCode W) (keys : Ref → Nat → Rat) (N : Nat) (iv : Time) (pop : List Ref) (w : W) (n : Nat) (l : List Ref) : List Ref :=
  replan (actRefs ((pqueueRun U keys N iv pop w (n + 1)).1.log.drop (pqueueRun U keys N iv pop w n).1.log.length)) l

/-- The states of the two schedulers after `k` steps. -/
structure RunSim (N k : Nat) (x : Sched × W × Nat) (y : PSched × W × Nat) : Prop where
  inv : Inv x.1
  pinv : PInv y.1
  head : PHead y.1
  good : GoodLog y.1.log
  some_ : y.1.log ≠ []
  time : x.1.time = y.1.time
  steps : x.1.steps = y.1.steps
  live : x.1.agents = y.1.agents
  interval : x.1.interval = y.1.interval
  log : x.1.log = y.1.log
  running : y.1.running = (x.1.running && decide (x.1.time ≠ .inf))
  world : x.2.1 = y.2.1
  mixed : x.1.queue ≠ [] → x.2.2 = k
  shuffled : x.1.shuffle = true
  len : y.1.queue.length ≤ N

theorem pending_queue {s : Sched} (h : Inv s) (hp : pending s = []) : s.queue = [] := by
  by_contra hq
  obtain ⟨c, q, hc⟩ := List.exists_cons_of_ne_nil hq
  obtain ⟨r, l, hrl⟩ := List.exists_cons_of_ne_nil (h.ne c (by rw [hc]; simp))
  unfold pending at hp
  rw [hc] at hp
  simp [hrl] at hp

theorem same_time {s : Sched} {p : PSched} (h : Inv s) (hp : PInv p) (hh : PHead p) (hi : s.interval = p.interval) (hl : s.log = p.log) (hne : p.log ≠ [])
    (he : p.queue = [] → p.time = .inf) : s.time = p.time ∧ (s.queue = [] ↔ p.queue = []) := by
  have hperm : (pending s).Perm (ppending p) := by
    refine h.pending_perm.trans ?_
    rw [hi, hl]
    exact hp.perm.symm
  have hiff : s.queue = [] ↔ p.queue = [] := by
    constructor
    · intro hq
      have : ppending p = [] := by
        have h1 : pending s = [] := by unfold pending; rw [hq]; rfl
        rw [h1] at hperm
        exact hperm.symm.eq_nil
      exact List.map_eq_nil_iff.1 this
    · intro hq
      have h1 : ppending p = [] := by rw [ppending, hq]; rfl
      rw [h1] at hperm
      exact pending_queue h hperm.eq_nil
  refine ⟨?_, hiff⟩
  rcases hh with hq | ⟨e, he1, he2⟩
  · rw [he hq]
    exact (h.empty (hiff.2 hq)).resolve_left (by rw [hl]; exact hne)
  · have hq : s.queue ≠ [] := by
      intro hc
      rw [hiff.1 hc] at he1
      cases he1
    apply le_antisymm
    · have hm : (e.ref, e.when_) ∈ cal s.interval s.log := by
        rw [hi, hl]
        exact hp.perm.mem_iff.1 (List.mem_map.2 ⟨e, he1, rfl⟩)
      rw [← he2]
      exact h.mid.mem_le _ hm
    · obtain ⟨c, q, hc⟩ := List.exists_cons_of_ne_nil hq
      obtain ⟨r, l, hrl⟩ := List.exists_cons_of_ne_nil (h.ne c (by rw [hc]; simp))
      have ht : c.1 = s.time := by
        have := h.head hq
        rw [hc] at this
        exact this
      have hm : (r, s.time) ∈ pending s := by
        unfold pending
        rw [hc]
        simp [hrl, ht]
      obtain ⟨x, hx, hxe⟩ := List.mem_map.1 (hperm.mem_iff.1 hm)
      rw [← show x.when_ = s.time from congrArg Prod.snd hxe]
      exact hp.ge x hx

/-- What a step of both does. -/
def StepSim (N k : Nat) (T : Host (W × Nat)) (P : PHost (W × Nat)) (x : Sched × W × Nat) (y : PSched × W × Nat) : Prop :=
  (((timedStepper T).step x).2 = false ∧ ((pqStepper P N).step y).2 = false ∧ RunSim N (k + 1) ((timedStepper T).step x).1 ((pqStepper P N).step y).1) ∨
  (((timedStepper T).step x).2 = true ∧ ((pqStepper P N).step y).2 = true ∧ SameSched ((timedStepper T).step x).1.1 ((pqStepper P N).step y).1.1 ∧
    ((timedStepper T).step x).1.2.1 = ((pqStepper P N).step y).1.2.1)

theorem RunSim.step {U : AgentCode W} (hU : U.Plain) {keys : Ref → Nat → Rat} {order : Nat → List Ref → List Ref} {perm : ∀ n l, (order n l).Perm l} {N k : Nat}
    {x : Sched × W × Nat} {y : PSched × W × Nat} (h : RunSim N k x y)
    (ho : ∀ t b q, x.1.queue = (t, b) :: q → List.Subperm (actRefs (((pqStepper (U.pqueue keys) N).step y).1.1.log.drop y.1.log.length)) b →
      ∃ rest, order k b = actRefs (((pqStepper (U.pqueue keys) N).step y).1.1.log.drop y.1.log.length) ++ rest) :
    StepSim N k (U.timed order perm) (U.pqueue keys) x y := by
  obtain ⟨s, w, n⟩ := x
  obtain ⟨p, w', c⟩ := y
  have hw : w = w' := h.world
  subst hw
  have hst := same_time h.inv h.pinv h.head h.interval h.log h.some_
  by_cases hinf : p.time = .inf
  · have hq := h.pinv.inf_empty h.head hinf
    have hqs : s.queue = [] := (hst (fun _ => hinf)).2.2 hq
    refine Or.inl ?_
    have e1 : (timedStepper (U.timed order perm)).step (s, w, n) = ((s, w, n), false) := by
      simp [timedStepper, Sched.step, hqs]
    have e2 : (pqStepper (U.pqueue keys) N).step (p, w, c) = ((p, w, c), false) := by
      simp [pqStepper, PSched.step, hinf]
    rw [e1, e2]
    exact ⟨rfl, rfl, h.inv, h.pinv, h.head, h.good, h.some_, h.time, h.steps, h.live, h.interval, h.log, h.running, h.world, fun hc => absurd hqs hc, h.shuffled, h.len⟩
  · have hqs : s.queue ≠ [] := by
      intro hc
      rcases h.inv.empty hc with h1 | h1
      · exact h.some_ (h.log.symm.trans h1)
      · exact hinf (h.time.symm.trans h1)
    have hn : n = k := h.mixed hqs
    subst hn
    obtain ⟨⟨t, b⟩, q, hq⟩ := List.exists_cons_of_ne_nil hqs
    have ht : t = s.time := by
      have := h.inv.head hqs
      rw [hq] at this
      exact this
    have hb : (dueAt (ppending p) p.time).Perm b := by
      have h1 := h.inv.due s.time
      rw [hq] at h1
      have h2 : bucketAt ((t, b) :: q) s.time = b := by simp [bucketAt, ht]
      rw [h2] at h1
      rw [← h1]
      have h3 := ((h.pinv.perm.filter (fun z => z.2 = p.time)).map Prod.fst)
      have h4 : s.interval = p.interval := h.interval
      have h5 : s.log = p.log := h.log
      have h6 : s.time = p.time := h.time
      rw [h4, h5, h6]
      exact h3
    have hrun : s.running = p.running := by
      have := h.running
      simp only at this
      rw [this, show s.time = p.time from h.time]
      simp [hinf]
    have hsame : SameSched { s with queue := q } p := ⟨h.time, h.steps, h.live, h.interval, hrun, h.log⟩
    have hcnt : p.queue.countP (fun e => decide (e.when_ = p.time)) ≤ N := List.countP_le_length.trans h.len
    have hsim := pLoop_sim hU keys order perm (n + 1) N p w c _ h.pinv hsame hcnt
    have eT : (timedStepper (U.timed order perm)).step (s, w, n) =
        (((finishStep (runBucket (U.timed order perm) s.time (order n b) { s with queue := q } (w, n + 1))).1,
          (finishStep (runBucket (U.timed order perm) s.time (order n b) { s with queue := q } (w, n + 1))).2.1),
          (finishStep (runBucket (U.timed order perm) s.time (order n b) { s with queue := q } (w, n + 1))).2.2) := by
      have hro : runOrder (U.timed order perm) s b (w, n) = (order n b, (w, n + 1)) := by
        unfold runOrder
        rw [if_pos h.shuffled]
        rfl
      simp only [timedStepper]
      rw [h.inv.step_eq (U.timed order perm) (w, n) hq, hro]
    have hplog : (p.step (U.pqueue keys) N (w, c)).1.log = (pLoop (U.pqueue keys) p.time N p (w, c)).1.log := by
      unfold PSched.step
      rw [if_neg hinf]
      simp only
      split <;> rfl
    have hpworld : (p.step (U.pqueue keys) N (w, c)).2.1 = (pLoop (U.pqueue keys) p.time N p (w, c)).2.1 := by
      unfold PSched.step
      rw [if_neg hinf]
      simp only
      split <;> rfl
    obtain ⟨evs, s', h1, h2, h3⟩ := hsim
    have hord : List.Subperm (actRefs evs) b → ∃ rest, order n b = actRefs evs ++ rest := by
      intro hsub
      have := ho t b q hq
      simp only [pqStepper] at this
      rw [hplog, h1, List.drop_left] at this
      exact this hsub
    have hts : s.time = p.time := h.time
    rcases h3 with ⟨a1, a2, a3, a4⟩ | ⟨a1, a2, a3⟩
    · have hb2 : order n b = actRefs evs := by
        obtain ⟨rest, hr⟩ := hord (a3.trans hb).subperm
        have hl := (perm n b).length_eq
        rw [hr, List.length_append, (a3.trans hb).length_eq] at hl
        have : rest = [] := List.length_eq_zero_iff.1 (by omega)
        rw [hr, this, List.append_nil]
      rw [← hts] at a4
      rw [hb2, a4] at eT
      have hgood : GoodLog (p.log ++ evs) := by
        intro e he
        rcases List.mem_append.1 he with he | he
        · exact h.good e he
        · exact a2 e he
      have hpg : GoodLog (p.step (U.pqueue keys) N (w, c)).1.log := by rw [hplog, h1]; exact hgood
      obtain ⟨b1, -, b3, b4, b5, l, b6, b7, b8⟩ := h.pinv.step (U.pqueue keys) (hU.pqueue keys) N (w, c) h.len hpg
      have hstepT : (s.step (U.timed order perm) (w, n)).1 = { s' with steps := s'.steps + 1, time := headTime s'.queue } := by
        have := congrArg (fun z => z.1.1) eT
        simp only [timedStepper, finishStep, Bool.false_eq_true, if_false] at this
        exact this
      have hgT : GoodLog (s.step (U.timed order perm) (w, n)).1.log := by
        rw [hstepT]
        show GoodLog s'.log
        rw [h2.log, h1]
        exact hgood
      obtain ⟨c1, c2, -⟩ := h.inv.step (U.timed order perm) (w, n) hgT
      have hPfst : (p.step (U.pqueue keys) N (w, c)).1 = { (pLoop (U.pqueue keys) p.time N p (w, c)).1 with
            steps := (pLoop (U.pqueue keys) p.time N p (w, c)).1.steps + 1
            time := (pLoop (U.pqueue keys) p.time N p (w, c)).2.2.1
            running := if (pLoop (U.pqueue keys) p.time N p (w, c)).2.2.1 = .inf then false else (pLoop (U.pqueue keys) p.time N p (w, c)).1.running } := by
        unfold PSched.step
        rw [if_neg hinf]
        simp only [a1]
      have hhead : PHead (p.step (U.pqueue keys) N (w, c)).1 := by
        rcases (b8 hinf).2 with ⟨d1, -⟩ | ⟨e, q', d1, d2⟩
        · exact Or.inl d1
        · exact Or.inr ⟨e, by rw [d1]; simp, d2.symm⟩
      have hemp : (p.step (U.pqueue keys) N (w, c)).1.queue = [] → (p.step (U.pqueue keys) N (w, c)).1.time = .inf := by
        intro hc
        rcases (b8 hinf).2 with ⟨-, d2, -⟩ | ⟨e, q', d1, -⟩
        · exact d2
        · rw [hc] at d1; cases d1
      have hint : (s.step (U.timed order perm) (w, n)).1.interval = (p.step (U.pqueue keys) N (w, c)).1.interval := by
        rw [hstepT, hPfst]; exact h2.interval
      have hlog : (s.step (U.timed order perm) (w, n)).1.log = (p.step (U.pqueue keys) N (w, c)).1.log := by
        rw [hstepT, hPfst]; exact h2.log
      have hne : (p.step (U.pqueue keys) N (w, c)).1.log ≠ [] := by
        rw [b6]
        intro hc
        exact h.some_ (List.append_eq_nil_iff.1 hc).1
      have htime := (same_time c1 b1 hhead hint hlog hne hemp).1
      refine Or.inl ⟨c2, ?_, ⟨c1, b1, hhead, hpg, hne, htime, ?_, ?_, hint, hlog, ?_, ?_, ?_, ?_, b4.trans h.len⟩⟩
      · simp only [pqStepper]
        rw [b5]
        rfl
      · simp only [timedStepper, pqStepper]
        rw [hstepT, hPfst]
        simp only [h2.steps]
      · simp only [timedStepper, pqStepper]
        rw [hstepT, hPfst]
        exact h2.live
      · refine Eq.trans ?_ (congrArg (fun t => (s.step (U.timed order perm) (w, n)).1.running && decide (t ≠ Time.inf)) htime.symm)
        simp only [pqStepper]
        have hr : (s.step (U.timed order perm) (w, n)).1.running = s'.running := by rw [hstepT]
        rw [hr, hPfst, h2.running]
        by_cases hi : (pLoop (U.pqueue keys) p.time N p (w, c)).2.2.1 = .inf <;> simp [hi]
      · have e3 := congrArg (fun z => z.1.2.1) eT
        simp only [finishStep, Bool.false_eq_true, if_false] at e3
        rw [e3]
        simp only [pqStepper]
        rw [hpworld, hts]
      · intro _
        have e3 := congrArg (fun z => z.1.2.2) eT
        simp only [finishStep, Bool.false_eq_true, if_false] at e3
        exact e3
      · simp only [timedStepper]
        rw [step_shuffle]
        exact h.shuffled
    · have ha := a2.trans hb.subperm
      obtain ⟨rest, hb2⟩ := hord ha
      rw [← hts] at a3
      rw [hb2, a3] at eT
      have hP : (pqStepper (U.pqueue keys) N).step (p, w, c) = (((pLoop (U.pqueue keys) p.time N p (w, c)).1, (pLoop (U.pqueue keys) p.time N p (w, c)).2.1), true) := by
        simp only [pqStepper]
        unfold PSched.step
        rw [if_neg hinf]
        simp only [a1]
        rfl
      refine Or.inr ?_
      rw [eT, hP]
      exact ⟨rfl, rfl, h2, by rw [hts]; rfl⟩

theorem pop_same (T : Host (W × Nat)) (P : PHost (W × Nat)) (pop : List Ref) (x : Sched × W × Nat) (y : PSched × W × Nat) (h : SameSched x.1 y.1) (ht : y.1.time = 0)
    (hw : x.2.1 = y.2.1) :
    SameSched (execAll T (pop.map (fun r => .op (.add r none))) x).1 (pexecAll P 0 (pop.map (fun r => .op (.add r none))) y).1 ∧
    (execAll T (pop.map (fun r => .op (.add r none))) x).2.1 = (pexecAll P 0 (pop.map (fun r => .op (.add r none))) y).2.1 ∨
    ∃ r w, (P.key r w).2.1 ≠ w.1 := by
  induction pop generalizing x y with
  | nil => exact Or.inl ⟨h, hw⟩
  | cons r pop ih =>
    by_cases hk : ∀ r w, (P.key r w).2.1 = w.1
    · have hadd : Cmd.pexec P 0 (.op (.add r none)) y =
          ({ y.1 with
              queue := heappush PEntry.lt y.1.queue ⟨0, (P.key r y.2).1, r⟩
              agents := if r ∈ y.1.agents then y.1.agents else y.1.agents ++ [r]
              log := y.1.log ++ [.added r 0] }, (P.key r y.2).2) := by
        simp [Cmd.pexec, PSched.applyOp, PSched.addAgent, PSched.schedule, ht, Time.truthy]
      have h2 : SameSched (Cmd.exec T (.op (.add r none)) x).1 (Cmd.pexec P 0 (.op (.add r none)) y).1 := by
        rw [hadd]
        refine ⟨h.time, h.steps, ?_, h.interval, h.running, ?_⟩
        · show (if r ∈ x.1.agents then x.1.agents else x.1.agents ++ [r]) = _
          rw [h.live]
        · show x.1.log ++ [.added r x.1.time] = _
          rw [h.log, h.time, ht]
      have h3 : (Cmd.pexec P 0 (.op (.add r none)) y).1.time = 0 := by rw [hadd]; exact ht
      have h4 : (Cmd.exec T (.op (.add r none)) x).2.1 = (Cmd.pexec P 0 (.op (.add r none)) y).2.1 := by
        rw [hadd]
        exact hw.trans (hk r y.2).symm
      exact ih _ _ h2 h3 h4
    · push Not at hk
      exact Or.inr hk

theorem run_start {U : AgentCode W} (keys : Ref → Nat → Rat) (order : Nat → List Ref → List Ref) (perm : ∀ n l, (order n l).Perm l) (N : Nat) (iv : Time) (hiv : 0 < iv)
    (pop : List Ref) (hpop : pop ≠ []) (hN : pop.length ≤ N) (w : W) :
    RunSim N 0 (timedPop (U.timed order perm) iv pop w) (pqueuePop (U.pqueue keys) iv pop w) := by
  obtain ⟨h1, h2⟩ := (pop_same (U.timed order perm) (U.pqueue keys) pop (Sched.init iv true, (w, 0)) (PSched.init iv, (w, 0)) ⟨rfl, rfl, rfl, rfl, rfl, rfl⟩ rfl rfl).resolve_right
    (by rintro ⟨r, v, hc⟩; exact hc rfl)
  obtain ⟨k1, k1', k2, k3, k4, k5⟩ := pop_inv (U.pqueue keys) 0 pop (PSched.init iv, (w, 0)) (PInv.init hiv) (Or.inl rfl) rfl
  have hg : GoodLog (pexecAll (U.pqueue keys) 0 (popCmds pop) (PSched.init iv, (w, 0))).1.log := by
    rw [k5]
    intro e he
    rcases List.mem_append.1 he with he | he
    · cases he
    · obtain ⟨r, -, rfl⟩ := List.mem_map.1 he
      trivial
  have hlog : (timedPop (U.timed order perm) iv pop w).1.log = (pqueuePop (U.pqueue keys) iv pop w).1.log := h1.log
  have hT := (Inv.init hiv true).execAll (sw := (Sched.init iv true, (w, 0))) (U.timed order perm) (pop.map (fun r => .op (.add r none))) (by
    show GoodLog (timedPop (U.timed order perm) iv pop w).1.log
    rw [hlog]
    exact hg)
  have key : ∀ (l : List Ref) (x : Sched × W × Nat), (execAll (U.timed order perm) (l.map (fun r => Cmd.op (.add r none))) x).2 = x.2 ∧
      (execAll (U.timed order perm) (l.map (fun r => Cmd.op (.add r none))) x).1.shuffle = x.1.shuffle ∧
      (execAll (U.timed order perm) (l.map (fun r => Cmd.op (.add r none))) x).1.running = x.1.running := by
    intro l
    induction l with
    | nil => intro x; exact ⟨rfl, rfl, rfl⟩
    | cons r l ih => intro x; exact ih _
  obtain ⟨d1, d2, d3⟩ := key pop (Sched.init iv true, (w, 0))
  have htime : (timedPop (U.timed order perm) iv pop w).1.time = 0 := h1.time.trans k2
  refine ⟨hT.1, k1, k1', hg, ?_, h1.time, h1.steps, h1.live, h1.interval, h1.log, ?_, h2, ?_, d2, ?_⟩
  · intro hc
    have : (pexecAll (U.pqueue keys) 0 (popCmds pop) (PSched.init iv, (w, 0))).1.log = [] := hc
    rw [k5] at this
    exact hpop (List.map_eq_nil_iff.1 (List.append_eq_nil_iff.1 this).2)
  · refine h1.running.symm.trans ?_
    have : decide ((timedPop (U.timed order perm) iv pop w).1.time ≠ .inf) = true := by
      rw [decide_eq_true_eq, htime]
      exact (nomatch ·)
    simp only [this, Bool.and_true]
    rfl
  · intro _
    exact congrArg Prod.snd d1
  · refine le_trans (le_of_eq ?_) hN
    refine k4.trans ?_
    simp [PSched.init]

theorem run_sim {U : AgentCode W} (hU : U.Plain) (keys : Ref → Nat → Rat) (N : Nat) (iv : Time) (hiv : 0 < iv) (pop : List Ref) (hpop : pop ≠ []) (hN : pop.length ≤ N) (w : W)
    (perm : ∀ n l, (pqueueOrder U keys N iv pop w n l).Perm l) (k : Nat)
    (hk : ∀ m < k, ((pqStepper (U.pqueue keys) N).step (pqueueRun U keys N iv pop w m)).2 = false) :
    RunSim N k (timedRun U (pqueueOrder U keys N iv pop w) perm iv pop w k) (pqueueRun U keys N iv pop w k) ∧
    StepSim N k (U.timed (pqueueOrder U keys N iv pop w) perm) (U.pqueue keys) (timedRun U (pqueueOrder U keys N iv pop w) perm iv pop w k) (pqueueRun U keys N iv pop w k) := by
  have hs : ∀ k, RunSim N k (timedRun U (pqueueOrder U keys N iv pop w) perm iv pop w k) (pqueueRun U keys N iv pop w k) →
      StepSim N k (U.timed (pqueueOrder U keys N iv pop w) perm) (U.pqueue keys) (timedRun U (pqueueOrder U keys N iv pop w) perm iv pop w k)
        (pqueueRun U keys N iv pop w k) := by
    intro k h
    refine h.step hU ?_
    intro t l q _ hsub
    unfold pqueueOrder
    have : pqueueRun U keys N iv pop w (k + 1) = ((pqStepper (U.pqueue keys) N).step (pqueueRun U keys N iv pop w k)).1 := by
      unfold pqueueRun
      rw [iterStep_succ]
    rw [this]
    exact replan_sub hsub
  suffices h : RunSim N k (timedRun U (pqueueOrder U keys N iv pop w) perm iv pop w k) (pqueueRun U keys N iv pop w k) from ⟨h, hs k h⟩
  induction k with
  | zero => exact run_start keys _ perm N iv hiv pop hpop hN w
  | succ k ih =>
    have h := ih (fun m hm => hk m (by omega))
    rcases hs k h with ⟨-, -, h3⟩ | ⟨-, h2, -⟩
    · have e1 : pqueueRun U keys N iv pop w (k + 1) = ((pqStepper (U.pqueue keys) N).step (pqueueRun U keys N iv pop w k)).1 := by
        unfold pqueueRun
        rw [iterStep_succ]
      have e2 : timedRun U (pqueueOrder U keys N iv pop w) perm iv pop w (k + 1) =
          ((timedStepper (U.timed (pqueueOrder U keys N iv pop w) perm)).step (timedRun U (pqueueOrder U keys N iv pop w) perm iv pop w k)).1 := by
        unfold timedRun
        rw [iterStep_succ]
      rw [e1, e2]
      exact h3
    · have := hk k (by omega)
      rw [h2] at this
      cases this

/-- The user code adds no agents during steps, and agents ask for no negative delays. -/
def PlainCode (U : AgentCode W) : Prop :=
  ∀ r t n as w, (∀ q wh, SOp.add q wh ∉ (U r t n as w).2.1) ∧ ∀ d, (U r t n as w).1 = .ret (some d) → 0 ≤ d

theorem PlainCode.plain {U : AgentCode W} (h : PlainCode U) : U.Plain where
  noadd r t n as w := (h r t n as w).1
  good r t n as w := by
    have := (h r t n as w).2
    generalize (U r t n as w).1 = rep at *
    cases rep with
    | ret d => cases d with
      | none => exact Or.inr trivial
      | some d => exact Or.inr (this d rfl)
    | dead => exact Or.inr trivial
    | error => exact Or.inl rfl

/-- C247: whatever the keys are, there are orders of the agents with which `TimedActivation` does exactly the same: after every number of steps, up to the first one
that raises, everything that happened, the time, the number of steps, the agents and all that is outside the scheduler agree; a step raises with one scheduler if and only
if it does with the other one. Only at the end there is a difference: `PQueueActivation` stops the model when nothing is scheduled. -/
theorem C247_refines (U : AgentCode W) (hU : PlainCode U) (keys : Ref → Nat → Rat) (N : Nat) (iv : Time) (hiv : 0 < iv) (pop : List Ref) (hpop : pop ≠ [])
    (hN : pop.length ≤ N) (w : W) :
    ∃ (order : Nat → List Ref → List Ref) (perm : ∀ n l, (order n l).Perm l), ∀ k,
      (∀ m < k, ((pqStepper (U.pqueue keys) N).step (pqueueRun U keys N iv pop w m)).2 = false) →
      (let x := timedRun U order perm iv pop w k
       let y := pqueueRun U keys N iv pop w k
       x.1.log = y.1.log ∧ x.1.time = y.1.time ∧ x.1.steps = y.1.steps ∧ x.1.agents = y.1.agents ∧ x.2.1 = y.2.1 ∧
        (pending x.1).Perm (ppending y.1) ∧ y.1.running = (x.1.running && decide (x.1.time ≠ .inf)) ∧
        ((timedStepper (U.timed order perm)).step x).2 = ((pqStepper (U.pqueue keys) N).step y).2 ∧
        ((timedStepper (U.timed order perm)).step x).1.1.log = ((pqStepper (U.pqueue keys) N).step y).1.1.log ∧
        ((timedStepper (U.timed order perm)).step x).1.2.1 = ((pqStepper (U.pqueue keys) N).step y).1.2.1) := by
  refine ⟨pqueueOrder U keys N iv pop w, fun n l => replan_perm _ _, fun k hk => ?_⟩
  obtain ⟨h, hs⟩ := run_sim hU.plain keys N iv hiv pop hpop hN w (fun n l => replan_perm _ _) k hk
  refine ⟨h.log, h.time, h.steps, h.live, h.world, ?_, h.running, ?_⟩
  · refine h.inv.pending_perm.trans ?_
    rw [h.interval, h.log]
    exact h.pinv.perm.symm
  · rcases hs with ⟨h1, h2, h3⟩ | ⟨h1, h2, h3, h4⟩
    · exact ⟨h1.trans h2.symm, h3.log, h3.world⟩
    · exact ⟨h1.trans h2.symm, h3.log, h4⟩

/-- C247: what is true of every simulation with `TimedActivation`, whatever the orders are, is true of every simulation with `PQueueActivation`, whatever the keys are. -/
theorem C247_transfer (U : AgentCode W) (hU : PlainCode U) (iv : Time) (hiv : 0 < iv) (pop : List Ref) (hpop : pop ≠ []) (w : W)
    (Q : Nat → List Ev → Time → Nat → List Ref → W → Prop)
    (hQ : ∀ order perm k, (∀ m < k, ((timedStepper (U.timed order perm)).step (timedRun U order perm iv pop w m)).2 = false) →
      Q k (timedRun U order perm iv pop w k).1.log (timedRun U order perm iv pop w k).1.time (timedRun U order perm iv pop w k).1.steps
        (timedRun U order perm iv pop w k).1.agents (timedRun U order perm iv pop w k).2.1)
    (keys : Ref → Nat → Rat) (N : Nat) (hN : pop.length ≤ N) (k : Nat)
    (hk : ∀ m < k, ((pqStepper (U.pqueue keys) N).step (pqueueRun U keys N iv pop w m)).2 = false) :
    Q k (pqueueRun U keys N iv pop w k).1.log (pqueueRun U keys N iv pop w k).1.time (pqueueRun U keys N iv pop w k).1.steps
      (pqueueRun U keys N iv pop w k).1.agents (pqueueRun U keys N iv pop w k).2.1 := by
  obtain ⟨order, perm, h⟩ := C247_refines U hU keys N iv hiv pop hpop hN w
  have hk' : ∀ m < k, ((timedStepper (U.timed order perm)).step (timedRun U order perm iv pop w m)).2 = false := by
    intro m hm
    have := (h m (fun j hj => hk j (by omega))).2.2.2.2.2.2.2.1
    exact this.trans (hk m hm)
  have := hQ order perm k hk'
  obtain ⟨h1, h2, h3, h4, h5, -⟩ := h k hk
  rw [h1, h2, h3, h4, h5] at this
  exact this

/-- C247: if no step raises with `TimedActivation`, whatever the orders are, none raises with `PQueueActivation`. -/
theorem C247_safe (U : AgentCode W) (hU : PlainCode U) (iv : Time) (hiv : 0 < iv) (pop : List Ref) (hpop : pop ≠ []) (w : W)
    (hQ : ∀ order perm k, ((timedStepper (U.timed order perm)).step (timedRun U order perm iv pop w k)).2 = false)
    (keys : Ref → Nat → Rat) (N : Nat) (hN : pop.length ≤ N) (k : Nat) :
    ((pqStepper (U.pqueue keys) N).step (pqueueRun U keys N iv pop w k)).2 = false := by
  obtain ⟨order, perm, h⟩ := C247_refines U hU keys N iv hiv pop hpop hN w
  induction k using Nat.strong_induction_on with
  | _ k ih =>
    have := (h k ih).2.2.2.2.2.2.2.1
    rw [← this]
    exact hQ order perm k

/-- The outcomes agree: both ended, both raised, or both are still running, with the same events, time, number of steps, agents and world; unless they raised, the same
is scheduled. -/
def SameOutcome : Outcome (Sched × W × Nat) → Outcome (PSched × W × Nat) → Prop
  | .done x, .done y => (pending x.1).Perm (ppending y.1) ∧ x.1.log = y.1.log ∧ x.1.time = y.1.time ∧ x.1.steps = y.1.steps ∧ x.1.agents = y.1.agents ∧ x.2.1 = y.2.1
  | .raised x, .raised y => x.1.log = y.1.log ∧ x.1.time = y.1.time ∧ x.1.steps = y.1.steps ∧ x.1.agents = y.1.agents ∧ x.2.1 = y.2.1
  | .running x, .running y => (pending x.1).Perm (ppending y.1) ∧ x.1.log = y.1.log ∧ x.1.time = y.1.time ∧ x.1.steps = y.1.steps ∧ x.1.agents = y.1.agents ∧ x.2.1 = y.2.1
  | _, _ => False

theorem RunSim.scheduled {N k : Nat} {x : Sched × W × Nat} {y : PSched × W × Nat} (h : RunSim N k x y) : (pending x.1).Perm (ppending y.1) := by
  refine h.inv.pending_perm.trans ?_
  rw [h.interval, h.log]
  exact h.pinv.perm.symm

theorem runLoop_sim {U : AgentCode W} (hU : U.Plain) (keys : Ref → Nat → Rat) (N : Nat) (iv : Time) (hiv : 0 < iv) (pop : List Ref) (hpop : pop ≠ []) (hN : pop.length ≤ N) (w : W)
    (perm : ∀ n l, (pqueueOrder U keys N iv pop w n l).Perm l) (T : Time) (ms : Option Nat) (fuel k : Nat)
    (hk : ∀ m < k, ((pqStepper (U.pqueue keys) N).step (pqueueRun U keys N iv pop w m)).2 = false) :
    SameOutcome (runLoop (timedStepper (U.timed (pqueueOrder U keys N iv pop w) perm)) (some T) ms fuel (timedRun U (pqueueOrder U keys N iv pop w) perm iv pop w k))
      (runLoop (pqStepper (U.pqueue keys) N) (some T) ms fuel (pqueueRun U keys N iv pop w k)) := by
  have hd : ∀ k, RunSim N k (timedRun U (pqueueOrder U keys N iv pop w) perm iv pop w k) (pqueueRun U keys N iv pop w k) →
      isDone (timedStepper (U.timed (pqueueOrder U keys N iv pop w) perm)) (some T) ms (timedRun U (pqueueOrder U keys N iv pop w) perm iv pop w k) =
        isDone (pqStepper (U.pqueue keys) N) (some T) ms (pqueueRun U keys N iv pop w k) := by
    intro k h
    have e1 : (!(timedRun U (pqueueOrder U keys N iv pop w) perm iv pop w k).1.running || decide (T ≤ (timedRun U (pqueueOrder U keys N iv pop w) perm iv pop w k).1.time)) =
        (!(pqueueRun U keys N iv pop w k).1.running || decide (T ≤ (pqueueRun U keys N iv pop w k).1.time)) := by
      rw [h.running, ← h.time]
      by_cases hi : (timedRun U (pqueueOrder U keys N iv pop w) perm iv pop w k).1.time = .inf
      · simp [hi]
      · simp [hi]
    cases ms with
    | none => exact e1
    | some n =>
      simp only [isDone, timedStepper, pqStepper]
      have e2 : (timedRun U (pqueueOrder U keys N iv pop w) perm iv pop w k).1.steps = (pqueueRun U keys N iv pop w k).1.steps := h.steps
      exact congrArg₂ (fun a (b : Nat) => a || decide (n ≤ b)) e1 e2
  induction fuel generalizing k with
  | zero =>
    obtain ⟨h, -⟩ := run_sim hU keys N iv hiv pop hpop hN w perm k hk
    unfold runLoop
    rw [hd k h]
    split
    · exact ⟨h.scheduled, h.log, h.time, h.steps, h.live, h.world⟩
    · exact ⟨h.scheduled, h.log, h.time, h.steps, h.live, h.world⟩
  | succ fuel ih =>
    obtain ⟨h, hs⟩ := run_sim hU keys N iv hiv pop hpop hN w perm k hk
    unfold runLoop
    rw [hd k h]
    split
    · exact ⟨h.scheduled, h.log, h.time, h.steps, h.live, h.world⟩
    · simp only
      rcases hs with ⟨h1, h2, -⟩ | ⟨h1, h2, h3, h4⟩
      · rw [h1, h2]
        simp only [Bool.false_eq_true, if_false]
        have e1 : ((pqStepper (U.pqueue keys) N).step (pqueueRun U keys N iv pop w k)).1 = pqueueRun U keys N iv pop w (k + 1) := by
          unfold pqueueRun
          rw [iterStep_succ]
        have e2 : ((timedStepper (U.timed (pqueueOrder U keys N iv pop w) perm)).step (timedRun U (pqueueOrder U keys N iv pop w) perm iv pop w k)).1 =
            timedRun U (pqueueOrder U keys N iv pop w) perm iv pop w (k + 1) := by
          unfold timedRun
          rw [iterStep_succ]
        rw [e1, e2]
        refine ih (k + 1) ?_
        intro m hm
        rcases Nat.lt_succ_iff_lt_or_eq.1 hm with hm | rfl
        · exact hk m hm
        · exact h2
      · rw [h1, h2]
        simp only [if_true]
        exact ⟨h3.log, h3.time, h3.steps, h3.live, h4⟩

/-- C247: a simulation with a `max_time` (and any `max_steps`) has with `PQueueActivation` an outcome that it has, for some orders of the agents, with `TimedActivation`
too. (Without `max_time` it may end with the former only, C19.) -/
theorem C247_outcome (U : AgentCode W) (hU : PlainCode U) (keys : Ref → Nat → Rat) (N : Nat) (iv : Time) (hiv : 0 < iv) (pop : List Ref) (hpop : pop ≠ [])
    (hN : pop.length ≤ N) (w : W) (maxTime : Time) (maxSteps : Option Nat) :
    ∃ (order : Nat → List Ref → List Ref) (perm : ∀ n l, (order n l).Perm l), ∀ fuel,
      SameOutcome (runModel (timedStepper (U.timed order perm)) (some maxTime) maxSteps fuel (timedPop (U.timed order perm) iv pop w))
        (runModel (pqStepper (U.pqueue keys) N) (some maxTime) maxSteps fuel (pqueuePop (U.pqueue keys) iv pop w)) := by
  refine ⟨pqueueOrder U keys N iv pop w, fun n l => replan_perm _ _, fun fuel => ?_⟩
  have h := run_start (U := U) keys (pqueueOrder U keys N iv pop w) (fun n l => replan_perm _ _) N iv hiv pop hpop hN w
  have hl := runLoop_sim hU.plain keys N iv hiv pop hpop hN w (fun n l => replan_perm _ _) maxTime maxSteps fuel 0 (by intro m hm; omega)
  unfold runModel
  have : (timedStepper (U.timed (pqueueOrder U keys N iv pop w) fun n l => replan_perm _ _)).noAgents (timedPop (U.timed (pqueueOrder U keys N iv pop w) fun n l => replan_perm _ _) iv pop w) =
      (pqStepper (U.pqueue keys) N).noAgents (pqueuePop (U.pqueue keys) iv pop w) := by
    simp only [timedStepper, pqStepper]
    rw [h.live]
  rw [this]
  split
  · exact ⟨h.log, h.time, h.steps, h.live, h.world⟩
  · exact hl

/-- Everybody dies at once. -/
def doomedCode : AgentCode Unit := fun _ _ _ _ _ => (.dead, [], ())

/-- C247, the difference: without `max_time` a simulation whose agents all die ends with `PQueueActivation` and, whatever the orders are, never with
`TimedActivation`. -/
theorem C247_endless_false :
    PlainCode doomedCode ∧
    (∃ y, runModel (pqStepper (doomedCode.pqueue (fun _ _ => 0)) 2) none none 1 (pqueuePop (doomedCode.pqueue (fun _ _ => 0)) 1 [4, 7] ()) = .done y) ∧
    ∀ order perm maxSteps fuel, ∀ x, maxSteps ≠ some 0 → maxSteps ≠ some 1 →
      runModel (timedStepper (doomedCode.timed order perm)) none maxSteps fuel (timedPop (doomedCode.timed order perm) 1 [4, 7] ()) ≠ .done x := by
  have hp : PlainCode doomedCode := by
    intro r t n as w
    constructor
    · intro q wh h
      cases h
    · intro d h
      cases h
  refine ⟨hp, ⟨(pqueueRun doomedCode (fun _ _ => 0) 2 1 [4, 7] () 1), by decide +kernel⟩, ?_⟩
  intro order perm maxSteps fuel x h0 h1 h
  have het : Eternal (doomedCode.timed order perm) := by
    intro r s w
    refine ⟨?_, ?_⟩
    · intro hc
      cases hc
    · intro hc
      cases hc
  have hrun : ∀ m, (iterStep (timedStepper (doomedCode.timed order perm)) m (timedPop (doomedCode.timed order perm) 1 [4, 7] ())).1.running = true := by
    intro m
    induction m with
    | zero => rfl
    | succ m ih =>
      rw [iterStep_succ]
      exact (step_eternal het _ _).1.trans ih
  have hst : ∀ m, (iterStep (timedStepper (doomedCode.timed order perm)) m (timedPop (doomedCode.timed order perm) 1 [4, 7] ())).1.steps ≤ 1 ∧
      (1 ≤ m → (iterStep (timedStepper (doomedCode.timed order perm)) m (timedPop (doomedCode.timed order perm) 1 [4, 7] ())).1.queue = []) := by
    have hb : ∀ (b : List Ref) (s : Sched) (w : Unit × Nat), (runBucket (doomedCode.timed order perm) 0 b s w).1.queue = s.queue ∧
        (runBucket (doomedCode.timed order perm) 0 b s w).1.steps = s.steps ∧ (runBucket (doomedCode.timed order perm) 0 b s w).2.2 = false := by
      intro b
      induction b with
      | nil => intro s w; exact ⟨rfl, rfl, rfl⟩
      | cons r b ih => intro s w; exact ih _ _
    intro m
    induction m with
    | zero => exact ⟨Nat.zero_le 1, by omega⟩
    | succ m ih =>
      rw [iterStep_succ]
      cases m with
      | zero =>
        obtain ⟨h1, h2, h3⟩ := hb (order 0 [4, 7]) { (timedPop (doomedCode.timed order perm) 1 [4, 7] ()).1 with queue := [] } ((), 1)
        have e : Sched.step (doomedCode.timed order perm) (timedPop (doomedCode.timed order perm) 1 [4, 7] ()).1 (timedPop (doomedCode.timed order perm) 1 [4, 7] ()).2 =
            finishStep (runBucket (doomedCode.timed order perm) 0 (order 0 [4, 7]) { (timedPop (doomedCode.timed order perm) 1 [4, 7] ()).1 with queue := [] } ((), 1)) := rfl
        have e2 : ((timedStepper (doomedCode.timed order perm)).step (iterStep (timedStepper (doomedCode.timed order perm)) 0 (timedPop (doomedCode.timed order perm) 1 [4, 7] ()))).1.1 =
            (finishStep (runBucket (doomedCode.timed order perm) 0 (order 0 [4, 7]) { (timedPop (doomedCode.timed order perm) 1 [4, 7] ()).1 with queue := [] } ((), 1))).1 :=
          congrArg (fun z => z.1) e
        rw [e2]
        unfold finishStep
        rw [h3]
        simp only [Bool.false_eq_true, if_false]
        refine ⟨?_, fun _ => h1⟩
        rw [h2]
        exact Nat.le_refl _
      | succ m =>
        have hq := ih.2 (by omega)
        simp only [timedStepper, Sched.step] at hq ih ⊢
        rw [hq]
        exact ⟨ih.1, fun _ => hq⟩
  unfold runModel at h
  have hno : (timedStepper (doomedCode.timed order perm)).noAgents (timedPop (doomedCode.timed order perm) 1 [4, 7] ()) = false := rfl
  rw [hno, if_neg Bool.false_ne_true] at h
  obtain ⟨n, rfl, hd, -⟩ := runLoop_done _ _ _ h
  cases maxSteps with
  | none =>
    simp only [isDone, timedStepper] at hd
    have := hrun n
    simp only [timedStepper] at this
    rw [this] at hd
    cases hd
  | some ms =>
    simp only [isDone, timedStepper] at hd
    have h2 := hrun n
    have h3 := (hst n).1
    simp only [timedStepper] at h2 h3
    rw [h2] at hd
    have hd := of_decide_eq_true ((Bool.false_or _).symm.trans hd)
    have : ms ≠ 0 := fun hc => h0 (by rw [hc])
    have : ms ≠ 1 := fun hc => h1 (by rw [hc])
    omega

/-- Agents note who is activated; agent 2 dies at its second activation. -/
def notingCode : AgentCode (List Ref) := fun r t _ _ w =>
  if r = 2 ∧ 1 ≤ t then (.dead, [], w ++ [r]) else (.ret none, [], w ++ [r])

example : PlainCode notingCode := by
  intro r t n as w
  unfold notingCode
  split
  · exact ⟨(by intro q wh h; cases h), (by intro d h; cases h)⟩
  · exact ⟨(by intro q wh h; cases h), (by intro d h; cases h)⟩

set_option maxRecDepth 100000 in
/-- Keys that turn the order round in the first two steps: the orders found are the ones of the activations. -/
example : (pqueueRun notingCode (fun r n => if n < 6 then -(r : Rat) else r) 3 1 [0, 1, 2] [] 3).2.1 = [2, 1, 0, 2, 1, 0, 0, 1] ∧
    pqueueOrder notingCode (fun r n => if n < 6 then -(r : Rat) else r) 3 1 [0, 1, 2] [] 0 [0, 1, 2] = [2, 1, 0] ∧
    pqueueOrder notingCode (fun r n => if n < 6 then -(r : Rat) else r) 3 1 [0, 1, 2] [] 2 [1, 0] = [0, 1] ∧
    (timedRun notingCode (pqueueOrder notingCode (fun r n => if n < 6 then -(r : Rat) else r) 3 1 [0, 1, 2] []) (fun _ _ => replan_perm _ _) 1 [0, 1, 2] [] 3).2.1 =
      [2, 1, 0, 2, 1, 0, 0, 1] := by decide +kernel

end Verif
