import Verif.Model.Refine
import Verif.Props.PQueue

/-!
# Steps of `PQueueActivation` are steps of `TimedActivation`
-/

namespace Verif
open Spec

variable {W : Type}

/-- The schedulers agree, up to what is in their queues. -/
structure SameSched (s : Sched) (p : PSched) : Prop where
  time : s.time = p.time
  steps : s.steps = p.steps
  live : s.agents = p.agents
  interval : s.interval = p.interval
  running : s.running = p.running
  log : s.log = p.log

theorem SameSched.ops {s : Sched} {p : PSched} (h : SameSched s p) {V : Type} (H : PHost V) (w : V) (os : List SOp) (hna : ∀ q wh, SOp.add q wh ∉ os) :
    SameSched (s.applyOps os) (p.applyOps H w os).1 := by
  induction os generalizing s p with
  | nil => exact h
  | cons o os ih =>
    have h' : ∀ q wh, SOp.add q wh ∉ os := fun q wh hm => hna q wh (List.mem_cons_of_mem _ hm)
    cases o with
    | add r wh => exact absurd List.mem_cons_self (hna r wh)
    | remove r =>
      exact ih (s := { s with agents := s.agents.erase r }) (p := { p with agents := p.agents.erase r })
        ⟨h.time, h.steps, by rw [h.live], h.interval, h.running, h.log⟩ h'
    | stop => exact ih (s := { s with running := false }) (p := { p with running := false }) ⟨h.time, h.steps, h.live, h.interval, rfl, h.log⟩ h'

theorem SameSched.act {s : Sched} {p p' : PSched} (h : SameSched s p) (r : Ref) (now : Time) (rep : Reply) (h1 : p'.time = p.time) (h2 : p'.steps = p.steps)
    (h3 : p'.agents = p.agents) (h4 : p'.interval = p.interval) (h5 : p'.running = p.running) (h6 : p'.log = p.log ++ [.act r now rep]) :
    SameSched (afterAct s r now rep) p' := by
  refine ⟨(afterAct_time ..).trans (h.time.trans h1.symm), ?_, ?_, (afterAct_interval ..).trans (h.interval.trans h4.symm), ?_, ?_⟩
  · rw [h2, ← h.steps]
    cases rep with
    | ret d => by_cases hh : Time.pyOr d s.interval + now = .inf <;> simp [afterAct, Sched.logAct, Sched.schedule, hh]
    | dead => rfl
    | error => rfl
  · rw [h3, ← h.live]
    cases rep with
    | ret d => by_cases hh : Time.pyOr d s.interval + now = .inf <;> simp [afterAct, Sched.logAct, Sched.schedule, hh]
    | dead => rfl
    | error => rfl
  · rw [h5, ← h.running]
    cases rep with
    | ret d => by_cases hh : Time.pyOr d s.interval + now = .inf <;> simp [afterAct, Sched.logAct, Sched.schedule, hh]
    | dead => rfl
    | error => rfl
  · rw [afterAct_log, h6, h.log]

/-- The user code adds no agents, and asks for no negative delays. -/
structure AgentCode.Plain (U : AgentCode W) : Prop where
  noadd : ∀ r t n as w q wh, SOp.add q wh ∉ (U r t n as w).2.1
  good : ∀ r t n as w, (U r t n as w).1 = .error ∨ GoodReply (U r t n as w).1

theorem AgentCode.Plain.pqueue {U : AgentCode W} (h : U.Plain) (keys : Ref → Nat → Rat) : NoAdd (U.pqueue keys) :=
  fun r s w q wh => h.noadd r s.time s.steps s.agents w.1 q wh

theorem actRefs_act (r : Ref) (t : Time) (rep : Reply) (l : List Ev) : actRefs (.act r t rep :: l) = r :: actRefs l := rfl

/-- What a loop of `PQueueActivation` does, `TimedActivation` does with the agents in the same order. -/
def LoopSim (T : Host (W × Nat)) (p : PSched) (s : Sched) (w : W) (n : Nat) (res : PSched × (W × Nat) × Time × PStatus) : Prop :=
  ∃ evs s', res.1.log = p.log ++ evs ∧ SameSched s' res.1 ∧
    (res.2.2.2 = .ok ∧ GoodLog evs ∧ (actRefs evs).Perm (dueAt (ppending p) p.time) ∧ runBucket T p.time (actRefs evs) s (w, n) = (s', (res.2.1.1, n), false) ∨
     res.2.2.2 = .raised ∧ List.Subperm (actRefs evs) (dueAt (ppending p) p.time) ∧
      ∀ rest, runBucket T p.time (actRefs evs ++ rest) s (w, n) = (s', (res.2.1.1, n), true))

theorem LoopSim.cons {T : Host (W × Nat)} {p p1 : PSched} {s : Sched} {w : W} {n : Nat} {res : PSched × (W × Nat) × Time × PStatus} {r : Ref} {rep : Reply} {w1 : W}
    {ops : List SOp}
    (hs : T.step r s (w, n) = (rep, ops, (w1, n))) (hne : rep ≠ .error) (hg : GoodReply rep) (ht : p1.time = p.time) (hl : p1.log = p.log ++ [.act r p.time rep])
    (hd : (dueAt (ppending p) p.time).Perm (r :: dueAt (ppending p1) p.time))
    (h : LoopSim T p1 (afterAct (s.applyOps ops) r p.time rep) w1 n res) : LoopSim T p s w n res := by
  obtain ⟨evs, s', h1, h2, h3⟩ := h
  rw [ht] at h3
  have hb : ∀ rest, runBucket T p.time (r :: rest) s (w, n) = runBucket T p.time rest (afterAct (s.applyOps ops) r p.time rep) (w1, n) := by
    intro rest
    rw [runBucket_cons]
    simp only [hs, if_neg hne]
  refine ⟨.act r p.time rep :: evs, s', by rw [h1, hl]; simp, h2, ?_⟩
  rcases h3 with ⟨a1, a2, a3, a4⟩ | ⟨a1, a2, a3⟩
  · refine Or.inl ⟨a1, ?_, ?_, ?_⟩
    · intro e he
      rcases List.mem_cons.1 he with rfl | he
      · exact hg
      · exact a2 e he
    · exact (a3.cons r).trans hd.symm
    · rw [actRefs_act, hb, a4]
  · refine Or.inr ⟨a1, ?_, ?_⟩
    · rw [actRefs_act]
      exact (List.subperm_cons r).2 a2 |>.trans hd.symm.subperm
    · intro rest
      rw [actRefs_act, List.cons_append, hb, a3]

theorem LoopSim.done {T : Host (W × Nat)} {p : PSched} {s : Sched} {w : W} {n : Nat} (c : Nat) (hs : SameSched s p) (hq : ∀ e ∈ p.queue, p.time < e.when_) (t : Time) :
    LoopSim T p s w n (p, (w, c), t, .ok) := by
  refine ⟨[], s, by simp, hs, Or.inl ⟨rfl, (by intro e he; cases he), ?_, rfl⟩⟩
  have : dueAt (ppending p) p.time = [] := by
    rw [List.eq_nil_iff_forall_not_mem]
    intro r hr
    obtain ⟨e, he, hx⟩ := List.mem_map.1 (mem_dueAt.1 hr)
    have h1 := hq e he
    have h2 : e.when_ = p.time := congrArg Prod.snd hx
    rw [h2] at h1
    exact lt_irrefl _ h1
  rw [this]
  exact List.Perm.refl _

theorem PInv.all_later {p : PSched} (h : PInv p) {e : PEntry} {q : List PEntry} (hq : p.queue = e :: q) (hlt : p.time < e.when_) : ∀ x ∈ p.queue, p.time < x.when_ := by
  intro x hx
  have hh := h.heap
  rw [hq] at hh hx
  exact lt_of_lt_of_le hlt (PEntry.le_when (hh.head_le PEntry.weakOrder x hx))

theorem pLoop_sim {U : AgentCode W} (hU : U.Plain) (keys : Ref → Nat → Rat) (order : Nat → List Ref → List Ref) (perm : ∀ n l, (order n l).Perm l) (n : Nat)
    (fuel : Nat) (p : PSched) (w : W) (c : Nat) (s : Sched) (h : PInv p) (hs : SameSched s p)
    (hf : p.queue.countP (fun e => decide (e.when_ = p.time)) ≤ fuel) :
    LoopSim (U.timed order perm) p s w n (pLoop (U.pqueue keys) p.time fuel p (w, c)) := by
  induction fuel generalizing p w c s with
  | zero =>
    unfold pLoop
    cases hq : p.queue with
    | nil => exact .done c hs (by rw [hq]; simp) _
    | cons e q =>
      simp only
      by_cases hlt : p.time < e.when_
      · rw [if_pos hlt]
        exact .done c hs (h.all_later hq hlt) _
      · exfalso
        have he : e.when_ = p.time := le_antisymm (not_lt.1 hlt) (h.ge e (by simp [hq]))
        simp [hq, he] at hf
  | succ fuel ih =>
    unfold pLoop
    cases hq : p.queue with
    | nil => exact .done c hs (by rw [hq]; simp) _
    | cons e q =>
      simp only
      by_cases hlt : p.time < e.when_
      · rw [if_pos hlt]
        exact .done c hs (h.all_later hq hlt) _
      · rw [if_neg hlt]
        have he : e.when_ = p.time := le_antisymm (not_lt.1 hlt) (h.ge e (by simp [hq]))
        have hstepT : (U.timed order perm).step e.ref s (w, n) =
            ((U e.ref p.time p.steps p.agents w).1, (U e.ref p.time p.steps p.agents w).2.1, ((U e.ref p.time p.steps p.agents w).2.2, n)) := by
          simp only [AgentCode.timed, hs.time, hs.steps, hs.live]
        have hstepP : (U.pqueue keys).step e.ref p (w, c) =
            ((U e.ref p.time p.steps p.agents w).1, (U e.ref p.time p.steps p.agents w).2.1, ((U e.ref p.time p.steps p.agents w).2.2, c)) := rfl
        have hno := hU.noadd e.ref p.time p.steps p.agents w
        have hgd := hU.good e.ref p.time p.steps p.agents w
        rw [hstepP]
        generalize U e.ref p.time p.steps p.agents w = x at *
        obtain ⟨rep, os, w1⟩ := x
        simp only at hno hgd hstepT ⊢
        obtain ⟨o1, o2, o3, o4, o5, o6, o7⟩ := papplyOps_noadd (U.pqueue keys) p (w1, c) os hno
        have hso := hs.ops (U.pqueue keys) (w1, c) os hno
        rw [o1]
        simp only [Bool.false_eq_true, if_false]
        generalize p.applyOps (U.pqueue keys) (w1, c) os = ops at *
        have hops : PInv ops.1 := h.congr o6 o3 o4 o5
        have hqo : ops.1.queue = e :: q := o3.trans hq
        have heo : e.when_ = ops.1.time := he.trans o5.symm
        have hdue0 : dueAt (ppending p) p.time = e.ref :: dueAt (q.map (fun e => (e.ref, e.when_))) p.time := by
          rw [ppending, hq, List.map_cons, dueAt_cons, if_pos he]
        have hcount : q.countP (fun x => decide (x.when_ = p.time)) + 1 ≤ fuel + 1 := by
          rw [hq, List.countP_cons_of_pos (by simp [he])] at hf
          exact hf
        have hdueP : ∀ q' : List PEntry, q'.Perm q → (dueAt (ppending p) p.time).Perm (e.ref :: dueAt (q'.map (fun e => (e.ref, e.when_))) p.time) := by
          intro q' hp
          rw [hdue0]
          exact (((hp.symm.map _).filter _).map _).cons _
        cases rep with
        | error =>
          refine ⟨[.act e.ref p.time .error], afterAct (s.applyOps os) e.ref p.time .error, ?_, hso.act e.ref p.time .error rfl rfl rfl rfl rfl rfl, Or.inr ⟨rfl, ?_, ?_⟩⟩
          · simp [PSched.logAct, o4]
          · rw [hdue0]
            exact (List.subperm_cons _).2 (List.nil_subperm)
          · intro rest
            rw [actRefs_act, List.cons_append, runBucket_cons]
            simp only [hstepT, if_true]
            rw [o2]
        | dead =>
          simp only
          have hg : GoodReply .dead := trivial
          have hi := hops.act_pop (rep := .dead) hqo heo rfl
          rw [o5] at hi
          have ht : (ops.1.logAct e.ref p.time .dead).pop.time = p.time := o5
          have hqp : (ops.1.logAct e.ref p.time .dead).pop.queue.Perm q := by
            simp only [PSched.pop, PSched.logAct, hqo]; exact heappop_perm e q
          refine LoopSim.cons hstepT (by simp) hg ht (by simp [PSched.logAct, PSched.pop, o4]) (hdueP _ hqp) ?_
          rw [o2]
          have := ih _ w1 c _ hi (hso.act e.ref p.time .dead rfl rfl rfl rfl rfl rfl) (by rw [ht, hqp.countP_eq]; omega)
          rw [ht] at this
          exact this
        | ret d =>
          simp only
          have hg : GoodReply (.ret d) := hgd.resolve_left (by simp)
          have hiv : (ops.1.logAct e.ref p.time (.ret d)).interval = p.interval := o6
          rw [hiv, pyOr_eq_effDelay, time_add_comm]
          by_cases hinf : p.time + effDelay p.interval d = .inf
          · rw [if_pos hinf]
            have hi := hops.act_pop (rep := .ret d) hqo heo (by rw [o5, o6]; simp [nextWake, hinf])
            rw [o5] at hi
            have ht : (ops.1.logAct e.ref p.time (.ret d)).pop.time = p.time := o5
            have hqp : (ops.1.logAct e.ref p.time (.ret d)).pop.queue.Perm q := by
              simp only [PSched.pop, PSched.logAct, hqo]; exact heappop_perm e q
            refine LoopSim.cons hstepT (by simp) hg ht (by simp [PSched.logAct, PSched.pop, o4]) (hdueP _ hqp) ?_
            rw [o2]
            have := ih _ w1 c _ hi (hso.act e.ref p.time (.ret d) rfl rfl rfl rfl rfl rfl) (by rw [ht, hqp.countP_eq]; omega)
            rw [ht] at this
            exact this
          · rw [if_neg hinf]
            have hsch : (ops.1.logAct e.ref p.time (.ret d)).schedule (U.pqueue keys) ops.2.1 e.ref (some (p.time + effDelay p.interval d)) true
              = ({ ops.1.logAct e.ref p.time (.ret d) with
                    queue := siftup PEntry.lt ⟨p.time + effDelay p.interval d, keys e.ref c, e.ref⟩ (e :: q) }, (w1, c + 1), false) := by
              rw [o2]
              simp only [PSched.schedule, if_true, PSched.logAct, hqo, Option.getD_some, heapreplace, AgentCode.pqueue]
            rw [hsch]
            simp only [Bool.false_eq_true, if_false]
            have hw : nextWake p.interval p.time (.ret d) = some (p.time + effDelay p.interval d) := by
              simp [nextWake, hinf]
            obtain ⟨hgt, hni⟩ := nextWake_gt h.iv_pos hg hw
            have hi := hops.act_replace (rep := .ret d) hqo heo (by rw [o5, o6]; exact hw) (by rw [o5]; exact hgt) hni (keys e.ref c)
            rw [o5] at hi
            have hperm := siftup_perm (lt := PEntry.lt) ⟨p.time + effDelay p.interval d, keys e.ref c, e.ref⟩ e q
            have hne : p.time + effDelay p.interval d ≠ p.time := ne_of_gt hgt
            refine LoopSim.cons hstepT (by simp) hg (p1 := { ops.1.logAct e.ref p.time (.ret d) with
                    queue := siftup PEntry.lt ⟨p.time + effDelay p.interval d, keys e.ref c, e.ref⟩ (e :: q) }) o5 (by simp [PSched.logAct, o4]) ?_ ?_
            · have h1 : (dueAt (ppending { ops.1.logAct e.ref p.time (.ret d) with
                    queue := siftup PEntry.lt ⟨p.time + effDelay p.interval d, keys e.ref c, e.ref⟩ (e :: q) }) p.time).Perm
                  (dueAt (q.map (fun e => (e.ref, e.when_))) p.time) := by
                refine (((hperm.map _).filter _).map _).trans ?_
                show (dueAt _ p.time).Perm _
                rw [List.map_cons, dueAt_cons, if_neg hne]
              rw [hdue0]
              exact h1.symm.cons _
            · have := ih { ops.1.logAct e.ref p.time (.ret d) with
                    queue := siftup PEntry.lt ⟨p.time + effDelay p.interval d, keys e.ref c, e.ref⟩ (e :: q) } w1 (c + 1) _ hi
                  (hso.act e.ref p.time (.ret d) rfl rfl rfl rfl rfl rfl) (by
                show List.countP _ (siftup PEntry.lt _ (e :: q)) ≤ fuel
                have ht : ({ ops.1.logAct e.ref p.time (.ret d) with
                    queue := siftup PEntry.lt ⟨p.time + effDelay p.interval d, keys e.ref c, e.ref⟩ (e :: q) } : PSched).time = p.time := o5
                rw [ht, hperm.countP_eq, List.countP_cons_of_neg (by simp [hne])]
                omega)
              have ht : ({ ops.1.logAct e.ref p.time (.ret d) with
                    queue := siftup PEntry.lt ⟨p.time + effDelay p.interval d, keys e.ref c, e.ref⟩ (e :: q) } : PSched).time = p.time := o5
              rw [ht] at this
              exact this

end Verif
