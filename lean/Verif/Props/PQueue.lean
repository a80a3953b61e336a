import Verif.Proofs.PQueue
import Verif.Proofs.Policy
import Verif.Proofs.RunLoop
import Verif.Props.RunLoop

/-!
# Properties of `PQueueActivation` (C11, C12) and agreement with the default scheduler (C13)
-/

namespace Verif
open Spec

variable {W : Type}

/-- The state reached by adding a population at time 0 to a fresh scheduler and then executing a
history; `N` bounds the number of activations of one step. -/
abbrev preach (H : PHost W) (N : Nat) (iv : Time) (w0 : W) (pop : List Ref) (h : List (Cmd W)) : PSched × W :=
  pexecAll H N (popCmds pop ++ h) (PSched.init iv, w0)

theorem preach_post {H : PHost W} (hna : NoAdd H) {N : Nat} {iv : Time} (hiv : 0 < iv) {w0 : W}
    {pop : List Ref} {h : List (Cmd W)} (hh : ∀ c ∈ h, c.noAdd = true) (hN : pop.length ≤ N)
    (hg : GoodLog (preach H N iv w0 pop h).1.log) :
    PInv (preach H N iv w0 pop h).1 ∧ PHead (preach H N iv w0 pop h).1 ∧
    (preach H N iv w0 pop h).1.interval = iv ∧ (preach H N iv w0 pop h).1.queue.length ≤ pop.length ∧
    ∃ l, (preach H N iv w0 pop h).1.log = pop.map (Ev.added · 0) ++ l ∧ ∀ e ∈ l, e.isAct = true := by
  obtain ⟨k1, k1', k2, k3, k4, k5⟩ := pop_inv H N pop (PSched.init iv, w0) (PInv.init hiv) (Or.inl rfl) rfl
  have k4' : (pexecAll H N (popCmds pop) (PSched.init iv, w0)).1.queue.length = pop.length := by
    rw [k4]; simp [PSched.init]
  rw [preach, pexecAll_append] at hg ⊢
  have p := k1.execAll H k1' hna N h hh (k4'.le.trans hN) hg
  obtain ⟨l, hl, hl'⟩ := p.evs
  refine ⟨p.inv, p.head, p.interval.trans k3, p.len.trans k4'.le, l, ?_, hl'⟩
  rw [hl, k5]; simp [PSched.init]

theorem addCount_pop (pop : List Ref) (l : List Ev) (hl : ∀ e ∈ l, e.isAct = true) (r : Ref) :
    addCount r (pop.map (Ev.added · 0) ++ l) = pop.count r := by
  rw [addCount_append]
  have h2 : addCount r l = 0 := by
    rw [addCount, List.countP_eq_zero]
    intro e he
    have := hl e he
    cases e with
    | added => cases this
    | act => simp [Ev.isAdd]
  rw [h2, Nat.add_zero, addCount, List.countP_map, List.count]
  congr 1

theorem filter_pop (pop : List Ref) (r : Ref) (hr : pop.count r = 1) (l : List Ev) :
    (pop.map (Ev.added · 0) ++ l).filter (·.ref = r) = .added r 0 :: l.filter (·.ref = r) := by
  rw [List.filter_append]
  have h1 : (pop.map (Ev.added · 0)).filter (·.ref = r) = [Ev.added r 0] := by
    rw [List.filter_map]
    have : (pop.filter ((fun e => decide (e.ref = r)) ∘ fun x => Ev.added x 0)) = [r] := by
      have h2 : pop.filter (· == r) = List.replicate (pop.count r) r := List.filter_beq r
      rw [hr] at h2
      rw [← show List.replicate 1 r = [r] from rfl, ← h2]
      apply List.filter_congr
      intro x _
      by_cases hx : x = r <;> simp [Ev.ref, hx]
    rw [this]; rfl
  rw [h1]; rfl

/-- An example: agent `r` waits `r + 1`, agent 3 dies at its second activation, keys are drawn
from the world. -/
def exPHost : PHost Nat where
  step r s w := (if r = 3 && s.steps ≥ 1 then .dead else .ret (some (.fin (r + 1 : Nat))),
    if r = 3 then [.remove 3] else [], w + 1)
  key r w := (((w * 7 + r) % 5 : Nat), w + 1)

theorem exPHost_noAdd : NoAdd exPHost := by
  intro r s w q wh
  simp only [exPHost]
  split <;> simp

/-! ### C11 -/

/-- C11: with a population added at time 0, an agent follows exactly its own time line: it acts at
0, and after an activation at `t` with reply `d` next at exactly `t + d`; what is pending for it is
its next wake-up. Moreover no step gets stuck or raises. -/
theorem C11_pqueue_exact_wakeups (H : PHost W) (hna : NoAdd H) (N : Nat) (iv : Time) (hiv : 0 < iv)
    (w0 : W) (pop : List Ref) (h : List (Cmd W)) (hh : ∀ c ∈ h, c.noAdd = true) (hN : pop.length ≤ N)
    (hg : GoodLog (preach H N iv w0 pop h).1.log) (r : Ref) (hr : pop.count r = 1) :
    ∃ due evs, (preach H N iv w0 pop h).1.log.filter (·.ref = r) = .added r 0 :: evs ∧
      Timeline iv (some 0) evs due ∧ (∀ e ∈ evs, e.isAct = true) ∧
      pendingOf (ppending (preach H N iv w0 pop h).1) r = due.toList := by
  obtain ⟨hi, _, hint, _, l, hl, hl'⟩ := preach_post hna hiv hh hN hg
  have hleg := hi.legal
  rw [hint] at hleg
  obtain ⟨due, ht, hp, _⟩ := hleg.timeline r (by rw [hl, addCount_pop _ _ hl']; omega)
  have hfil : (preach H N iv w0 pop h).1.log.filter (·.ref = r)
      = .added r 0 :: l.filter (·.ref = r) := by
    rw [hl, filter_pop pop r hr]
  have ht' : Timeline iv (some 0) (l.filter (·.ref = r)) due := by
    rw [hfil] at ht
    cases ht with
    | add ht => exact ht
  refine ⟨due, l.filter (·.ref = r), hfil, ht', fun e he => hl' e (List.mem_of_mem_filter he), ?_⟩
  have hperm := hi.perm
  rw [hint] at hperm
  have hpp : (pendingOf (ppending (preach H N iv w0 pop h).1) r).Perm due.toList := by
    rw [← hp]
    exact (hperm.filter _).map _
  cases due with
  | none => exact hpp.eq_nil
  | some t => exact List.perm_singleton.1 hpp

example : GoodLog (preach exPHost 3 1 0 [0, 1, 3] [.step, .step, .step, .step, .step]).1.log ∧
    (preach exPHost 3 1 0 [0, 1, 3] [.step, .step, .step, .step, .step]).1.log.filter (·.ref = 1) =
      [.added 1 0, .act 1 0 (.ret (some 2)), .act 1 2 (.ret (some 2)), .act 1 4 (.ret (some 2))] ∧
    (preach exPHost 3 1 0 [0, 1, 3] [.step, .step, .step, .step, .step]).1.log.filter (·.ref = 3) =
      [.added 3 0, .act 3 0 (.ret (some 4)), .act 3 4 .dead] := by
  decide +kernel

/-- C11: a step ends normally, runs all the agents due at the earliest pending time and only those,
once per pending entry, and leaves the clock at the earliest pending time (infinity, and the model
stopped, if there is none). -/
theorem C11_pqueue_step (H : PHost W) (hna : NoAdd H) (N : Nat) (iv : Time) (hiv : 0 < iv)
    (w0 : W) (pop : List Ref) (h : List (Cmd W)) (hh : ∀ c ∈ h, c.noAdd = true) (hN : pop.length ≤ N)
    (hg : GoodLog (preach H N iv w0 pop (h ++ [.step])).1.log) :
    let sw := preach H N iv w0 pop h
    let s' := (preach H N iv w0 pop (h ++ [.step])).1
    (sw.1.step H N sw.2).2.2 = .ok ∧
    (∃ evs, s'.log = sw.1.log ++ evs ∧
      ∀ r t, (r, t) ∈ cal iv sw.1.log → (∀ p ∈ cal iv sw.1.log, t ≤ p.2) →
        (∀ e ∈ evs, e.time = t) ∧ (actRefs evs).Perm (dueAt (cal iv sw.1.log) t)) ∧
    (∀ p ∈ cal iv s'.log, s'.time ≤ p.2) ∧
    ((∃ p ∈ cal iv s'.log, p.2 = s'.time) ∨ cal iv s'.log = []) ∧
    (cal iv sw.1.log ≠ [] → cal iv s'.log = [] → s'.time = .inf ∧ s'.running = false) := by
  intro sw s'
  have hsnoc : preach H N iv w0 pop (h ++ [.step]) = Cmd.pexec H N .step sw := by
    show pexecAll H N (popCmds pop ++ (h ++ [.step])) _ = _
    rw [← List.append_assoc, pexecAll_append]; rfl
  have hs' : s' = (sw.1.step H N sw.2).1 := by show (preach H N iv w0 pop (h ++ [.step])).1 = _; rw [hsnoc]; rfl
  have hgs : GoodLog (sw.1.step H N sw.2).1.log := by rw [← hs']; exact hg
  have hg0 : GoodLog sw.1.log := by
    obtain ⟨l, hl⟩ := pstep_log H N sw.1 sw.2
    rw [hl] at hgs; exact hgs.prefix
  obtain ⟨hi, hhd, hint, hlen, _⟩ := preach_post hna hiv hh hN hg0
  have hint' : sw.1.interval = iv := hint
  obtain ⟨hi', hhd', hint2, _, _⟩ := preach_post (h := h ++ [.step]) hna hiv (by
    intro c hc
    rcases List.mem_append.1 hc with hc | hc
    · exact hh c hc
    · simp at hc; subst hc; rfl) hN hg
  have hint2' : s'.interval = iv := hint2
  obtain ⟨_, _, _, _, hok, evs, hevs, hacts, hpost⟩ := hi.step H hna N sw.2 (hlen.trans hN) hgs
  have hperm := hi.perm
  rw [hint] at hperm
  have hperm' := hi'.perm
  rw [hint2] at hperm'
  have hpend : ∀ r t, (r, t) ∈ cal iv sw.1.log → (∀ p ∈ cal iv sw.1.log, t ≤ p.2) → t = sw.1.time := by
    intro r t hm hmin
    obtain ⟨x, hx, hxe⟩ := List.mem_map.1 (hperm.mem_iff.2 hm)
    have hxt : x.when_ = t := congrArg Prod.snd hxe
    rcases hhd with hq | ⟨e, he, hw⟩
    · rw [hq] at hx; cases hx
    · apply le_antisymm
      · have := hmin (e.ref, e.when_) (hperm.mem_iff.1 (List.mem_map.2 ⟨e, he, rfl⟩))
        rw [← hw]; exact this
      · rw [← hxt]; exact hi.ge x hx
  refine ⟨hok, ⟨evs, by rw [hs']; exact hevs, ?_⟩, ?_, ?_, ?_⟩
  · intro r t hm hmin
    have htt := hpend r t hm hmin
    refine ⟨fun e he => by rw [htt]; exact (hacts e he).1, ?_⟩
    rw [List.perm_iff_count]
    intro q
    have hni : sw.1.time ≠ .inf := by
      intro hinf
      obtain ⟨x, hx, hxe⟩ := List.mem_map.1 (hperm.mem_iff.2 hm)
      have hxt : x.when_ = t := congrArg Prod.snd hxe
      exact hi.fin x hx (by rw [hxt, htt, hinf])
    have hleg : Legal iv (sw.1.log ++ evs) := by
      have := hi'.legal
      rw [hint2] at this
      have e2 : (preach H N iv w0 pop (h ++ [.step])).1.log = sw.1.log ++ evs := by
        show s'.log = _; rw [hs']; exact hevs
      rwa [e2] at this
    have hgood : GoodLog evs := by
      intro e he; exact hgs e (by rw [hevs]; exact List.mem_append_right _ he)
    have hc := count_cal_now (now := sw.1.time) hiv hleg hgood (fun e he => (hacts e he).1) q
    have hz : (cal iv (sw.1.log ++ evs)).count (q, sw.1.time) = 0 := by
      rw [List.count_eq_zero]
      intro hm'
      have := (hpost hni).1 (q, sw.1.time) (by rw [hint, hevs]; exact hm')
      exact lt_irrefl _ this
    have ha : addCount q evs = 0 := by
      rw [addCount, List.countP_eq_zero]
      intro e he
      have := (hacts e he).2
      cases e with
      | added => cases this
      | act => simp [Ev.isAdd]
    rw [count_dueAt, htt]
    omega
  · intro p hp
    obtain ⟨x, hx, rfl⟩ := List.mem_map.1 (hperm'.mem_iff.2 hp)
    exact hi'.ge x hx
  · rcases hhd' with hq | ⟨e, he, hw⟩
    · right
      have : ppending (preach H N iv w0 pop (h ++ [.step])).1 = [] := by rw [ppending, hq]; rfl
      rw [this] at hperm'
      exact hperm'.symm.eq_nil
    · left
      exact ⟨(e.ref, e.when_), hperm'.mem_iff.1 (List.mem_map.2 ⟨e, he, rfl⟩), hw⟩
  · intro hne hnil
    have hni : sw.1.time ≠ .inf := by
      intro hinf
      have hq := hi.inf_empty hhd hinf
      have : ppending sw.1 = [] := by rw [ppending, hq]; rfl
      rw [show ppending (preach H N iv w0 pop h).1 = [] from this] at hperm
      exact hne hperm.symm.eq_nil
    rcases (hpost hni).2 with ⟨_, h2, h3⟩ | ⟨e, q, hq, _⟩
    · rw [hs']; exact ⟨h2, h3⟩
    · exfalso
      have : cal iv (preach H N iv w0 pop (h ++ [.step])).1.log = [] := hnil
      rw [this] at hperm'
      have h2 := hperm'.eq_nil
      rw [ppending] at h2
      have hq2 : (preach H N iv w0 pop (h ++ [.step])).1.queue = e :: q := by
        show s'.queue = _; rw [hs']; exact hq
      rw [hq2] at h2
      cases h2

example : GoodLog (preach exPHost 3 1 0 [0, 1, 3] ([.step, .step] ++ [.step])).1.log ∧
    (cal 1 (preach exPHost 3 1 0 [0, 1, 3] [.step, .step]).1.log = [(3, 4), (1, 2), (0, 2)] ∨
     cal 1 (preach exPHost 3 1 0 [0, 1, 3] [.step, .step]).1.log = [(1, 2), (3, 4), (0, 2)]) := by
  decide +kernel

/-! ### C12 -/

/-- C12 is violated: whenever the clock is not 0, adding an agent evicts the earliest pending
activation of somebody else. -/
theorem C12_add_evicts_false (H : PHost W) (s : PSched) (w : W) (r : Ref) (e : PEntry) (q : List PEntry)
    (ht : s.time ≠ 0) (hq : s.queue = e :: q) :
    (s.addAgent H w r none).2.2 = false ∧
    (ppending (s.addAgent H w r none).1).Perm ((r, s.time) :: (ppending s).erase (e.ref, e.when_)) := by
  have htr : s.time.truthy = true := by simpa [Time.truthy] using ht
  simp only [PSched.addAgent, Option.getD_none, htr, PSched.schedule, if_true, hq, heapreplace, Bool.false_eq_true,
    if_false]
  refine ⟨trivial, ?_⟩
  simp only [ppending, hq, List.map_cons, List.erase_cons_head]
  exact (siftup_perm _ _ _).map _

/-- C12, reachable witness: two agents step every time unit; adding a third at time 1 makes one of
them disappear for ever. -/
def everyUnit : PHost Unit where
  step _ _ _ := (.ret none, [], ())
  key r _ := (r, ())

theorem C12_witness_false :
    let s := (preach everyUnit 5 1 () [0, 1] [.step]).1
    ppending s = [(0, 1), (1, 1)] ∧ ppending (s.addAgent everyUnit () 2 none).1 = [(1, 1), (2, 1)] := by
  decide +kernel

/-- C12 is violated in another way: with nothing pending the addition raises `IndexError` and the
agent is not added. -/
theorem C12_add_raises_false (H : PHost W) (s : PSched) (w : W) (r : Ref)
    (ht : s.time ≠ 0) (hq : s.queue = []) :
    (s.addAgent H w r none).2.2 = true ∧ (s.addAgent H w r none).1 = s := by
  have htr : s.time.truthy = true := by simpa [Time.truthy] using ht
  simp [PSched.addAgent, htr, PSched.schedule, hq, heapreplace]

/-- C12, what holds: at time 0 (and without `when`, or with `when = 0`) the addition keeps
everything that is pending and adds the new agent. Missing: any other time, any other `when`. -/
theorem C12_add_partial (H : PHost W) (s : PSched) (w : W) (r : Ref) (wh : Option Time)
    (ht : s.time = 0) (hw : wh = none ∨ wh = some 0) :
    (s.addAgent H w r wh).2.2 = false ∧
    (ppending (s.addAgent H w r wh).1).Perm ((r, 0) :: ppending s) ∧
    r ∈ (s.addAgent H w r wh).1.agents := by
  have htr : (wh.getD s.time).truthy = false := by
    rcases hw with rfl | rfl <;> simp [ht, Time.truthy]
  simp only [PSched.addAgent, htr, PSched.schedule, Bool.false_eq_true, if_false]
  refine ⟨trivial, ?_, ?_⟩
  · simp only [ppending, Option.getD_none, ht]
    exact (heappush_perm _ _).map _
  · split <;> simp_all

example : (preach everyUnit 5 1 () [0, 1] []).1.time = 0 := by decide +kernel

/-! ### C19 for `PQueueActivation` -/

/-- An environment with a `PQueueActivation` (see `timedStepper`). -/
def pqStepper (H : PHost W) (N : Nat) : Stepper (PSched × W) where
  step sw := (((sw.1.step H N sw.2).1, (sw.1.step H N sw.2).2.1), (sw.1.step H N sw.2).2.2 == .raised)
  time sw := sw.1.time
  steps sw := sw.1.steps
  running sw := sw.1.running
  noAgents sw := sw.1.agents.isEmpty

/-- C19 holds for `PQueueActivation`: the step that leaves nothing pending also stops the model,
and the run returns, whatever the bounds. -/
theorem C19_pqueue_stops (H : PHost W) (hna : NoAdd H) (N : Nat) (iv : Time) (hiv : 0 < iv)
    (w0 : W) (pop : List Ref) (h : List (Cmd W)) (hh : ∀ c ∈ h, c.noAdd = true) (hN : pop.length ≤ N)
    (hg : GoodLog (preach H N iv w0 pop (h ++ [.step])).1.log)
    (hne : cal iv (preach H N iv w0 pop h).1.log ≠ [])
    (hex : cal iv (preach H N iv w0 pop (h ++ [.step])).1.log = [])
    (mt : Option Time) (ms : Option Nat) (fuel : Nat) :
    runLoop (pqStepper H N) mt ms fuel (preach H N iv w0 pop (h ++ [.step]))
      = .done (preach H N iv w0 pop (h ++ [.step])) := by
  have hr := ((C11_pqueue_step H hna N iv hiv w0 pop h hh hN hg).2.2.2.2 hne hex).2
  have hd : isDone (pqStepper H N) mt ms (preach H N iv w0 pop (h ++ [.step])) = true := by
    cases mt <;> cases ms <;> simp [isDone, pqStepper, hr]
  cases fuel <;> simp only [runLoop, hd, if_true]

example : let h : List (Cmd Nat) := [.step]
    GoodLog (preach exPHost 3 1 0 [3] (h ++ [.step])).1.log ∧ cal 1 (preach exPHost 3 1 0 [3] h).1.log ≠ [] ∧
    cal 1 (preach exPHost 3 1 0 [3] (h ++ [.step])).1.log = [] := by
  decide +kernel

/-! ### C17 for `PQueueActivation` -/

theorem papplyOps_steps (H : PHost W) (os : List SOp) (s : PSched) (w : W) : (s.applyOps H w os).1.steps = s.steps := by
  induction os generalizing s w with
  | nil => rfl
  | cons o os ih =>
    have h1 : (s.applyOp H w o).1.steps = s.steps := by
      cases o with
      | remove r => rfl
      | stop => rfl
      | add r wh =>
        have hs : ∀ b, (s.schedule H w r none b).1.steps = s.steps := by
          intro b
          unfold PSched.schedule
          simp only
          split
          · split <;> rfl
          · rfl
        simp only [PSched.applyOp, PSched.addAgent]
        split
        · exact hs _
        · exact hs _
    simp only [PSched.applyOps]
    split
    · exact h1
    · rw [ih]; exact h1

theorem pLoop_steps (H : PHost W) (now : Time) (fuel : Nat) (s : PSched) (w : W) :
    (pLoop H now fuel s w).1.steps = s.steps := by
  induction fuel generalizing s w with
  | zero =>
    unfold pLoop
    split
    · rfl
    · split <;> rfl
  | succ fuel ih =>
    unfold pLoop
    split
    · rfl
    · rename_i e q hq
      split
      · rfl
      · have ho := papplyOps_steps H (H.step e.ref s w).2.1 s (H.step e.ref s w).2.2
        simp only
        generalize (s.applyOps H (H.step e.ref s w).2.2 (H.step e.ref s w).2.1) = ops at *
        generalize hrep : (if ops.2.2 = true then Reply.error else (H.step e.ref s w).1) = rep
        cases rep with
        | error => exact ho
        | dead => simp only; rw [ih]; exact ho
        | ret d =>
          simp only
          split
          · rw [ih]; exact ho
          · have hs : ∀ (s1 : PSched) (w1 : W) wh, (s1.schedule H w1 e.ref wh true).1.steps = s1.steps := by
              intro s1 w1 wh
              unfold PSched.schedule
              simp only [if_true]
              split <;> rfl
            split
            · rw [hs]; exact ho
            · rw [ih, hs]; exact ho

/-- C17 for `PQueueActivation`: every step that returns is counted as one, until the clock is at infinity, from when on steps
are not counted. No assumption on the behaviours. -/
theorem C17_pqueue_counted (H : PHost W) (N : Nat) (sw : PSched × W) (k : Nat)
    (hok : ∀ j < k, ((iterStep (pqStepper H N) j sw).1.step H N (iterStep (pqStepper H N) j sw).2).2.2 = .ok) :
    ((∀ j < k, (iterStep (pqStepper H N) j sw).1.time ≠ .inf) →
      (iterStep (pqStepper H N) k sw).1.steps = sw.1.steps + k) ∧
    (sw.1.time = .inf → iterStep (pqStepper H N) k sw = sw) := by
  induction k with
  | zero => exact ⟨fun _ => rfl, fun _ => rfl⟩
  | succ k ih =>
    have ih := ih (fun j hj => hok j (by omega))
    have hk := hok k (by omega)
    constructor
    · intro ht
      have h0 := ih.1 (fun j hj => ht j (by omega))
      have ht := ht k (by omega)
      rw [iterStep_succ]
      generalize iterStep (pqStepper H N) k sw = x at *
      show (x.1.step H N x.2).1.steps = _
      have hl := pLoop_steps H x.1.time N x.1 x.2
      unfold PSched.step at hk ⊢
      rw [if_neg ht] at hk ⊢
      simp only at hk ⊢
      generalize pLoop H x.1.time N x.1 x.2 = res at *
      cases hst : res.2.2.2 with
      | ok => simp only; omega
      | raised => rw [hst] at hk; cases hk
      | stuck => rw [hst] at hk; cases hk
    · intro ht
      rw [iterStep_succ, ih.2 ht]
      show ((sw.1.step H N sw.2).1, (sw.1.step H N sw.2).2.1) = sw
      unfold PSched.step
      rw [if_pos ht]

/-- C17 for `PQueueActivation`: a run with `max_steps = n` has at most `n` steps, and exactly `n` if nothing else ended it. -/
theorem C17_pqueue_max_steps (H : PHost W) (N : Nat) (sw0 sw : PSched × W) (mt : Option Time) (n fuel : Nat)
    (h0 : sw0.1.steps ≤ n) (hrun : runModel (pqStepper H N) mt (some n) fuel sw0 = .done sw) :
    sw.1.steps ≤ n ∧ (sw.1.running = true → (∀ T, mt = some T → sw.1.time < T) → sw.1.steps = n) := by
  obtain ⟨k, hs, hd, hm⟩ := runLoop_done _ _ _ (runModel_done hrun)
  have hle : sw.1.steps ≤ n := by
    cases k with
    | zero => rw [hs]; exact h0
    | succ k =>
      have hnd := isDone_steps (hm k (by omega)).1
      rw [hs, iterStep_succ]
      generalize iterStep (pqStepper H N) k sw0 = x at *
      have hx : x.1.steps + 1 ≤ n := hnd
      show (x.1.step H N x.2).1.steps ≤ n
      have hl := pLoop_steps H x.1.time N x.1 x.2
      unfold PSched.step
      split
      · simp only; omega
      · simp only
        split
        · simp only; omega
        · simp only; omega
  refine ⟨hle, ?_⟩
  intro hr ht
  apply le_antisymm hle
  cases mt with
  | none =>
    simp only [isDone, pqStepper, hr, Bool.not_true, Bool.false_or] at hd
    exact of_decide_eq_true hd
  | some T =>
    have hT := ht T rfl
    simp only [isDone, pqStepper, hr] at hd
    simp only [Bool.not_true, Bool.false_or, Bool.or_eq_true] at hd
    rcases hd with hd | hd
    · exact absurd (of_decide_eq_true hd) (not_le.2 hT)
    · exact of_decide_eq_true hd

example : (runModel (pqStepper everyUnit 9) none (some 4) 20 (preach everyUnit 9 1 () [0, 1] [])).returned
    (fun sw => decide (sw.1.running = true ∧ sw.1.steps = 4 ∧ sw.1.time = 4)) = true := by
  decide +kernel

/-! ### C13 -/

/-- The log of the default scheduler after a population is added at time 0 and a history without
additions. -/
theorem treach_log (H : Host W) (hna : ∀ r s w q wh, SOp.add q wh ∉ (H.step r s w).2.1)
    (iv : Time) (sh : Bool) (w0 : W) (pop : List Ref) (h : List (Cmd W))
    (hh : ∀ c ∈ h, c.noAdd = true) :
    ∃ l, (reach H iv sh w0 (popCmds pop ++ h)).1.log = pop.map (Ev.added · 0) ++ l ∧
      ∀ e ∈ l, e.isAct = true := by
  have hpop : ∀ (sw : Sched × W), sw.1.time = 0 →
      (execAll H (popCmds pop) sw).1.log = sw.1.log ++ pop.map (Ev.added · 0) := by
    induction pop with
    | nil => intro sw _; simp [popCmds, execAll]
    | cons r pop ih =>
      intro sw ht
      have hx : execAll H (popCmds (r :: pop)) sw = execAll H (popCmds pop) (Cmd.exec H (.op (.add r none)) sw) := rfl
      have ih' := ih (Cmd.exec H (.op (.add r none)) sw) ht
      rw [hx]; refine ih'.trans ?_
      have : (Cmd.exec H (.op (.add r none)) sw).1.log = sw.1.log ++ [.added r sw.1.time] := addAgent_log sw.1 r none
      rw [this, ht]; simp
  have hrest : ∀ (sw : Sched × W), ∃ l, (execAll H h sw).1.log = sw.1.log ++ l ∧ ∀ e ∈ l, e.isAct = true := by
    induction h with
    | nil => intro sw; exact ⟨[], by simp [execAll]⟩
    | cons c h ih =>
      intro sw
      obtain ⟨l2, h2, a2⟩ := ih (fun c' hc' => hh c' (by simp [hc'])) (c.exec H sw)
      have hc : ∃ l1, (c.exec H sw).1.log = sw.1.log ++ l1 ∧ ∀ e ∈ l1, e.isAct = true := by
        have hcn := hh c (by simp)
        cases c with
        | step =>
          obtain ⟨l1, h1, _, h3⟩ := step_sources H sw.1 sw.2
          refine ⟨l1, h1, ?_⟩
          intro e he
          cases e with
          | act => rfl
          | added r t =>
            obtain ⟨q, s', w', wh, hx⟩ := h3 r t he
            exact absurd hx (hna q s' w' r wh)
        | op o =>
          cases o with
          | add => cases hcn
          | remove r => exact ⟨[], by simp [Cmd.exec, Sched.applyOp, Sched.removeAgent]⟩
          | stop => exact ⟨[], by simp [Cmd.exec, Sched.applyOp]⟩
        | world f => exact ⟨[], by simp [Cmd.exec]⟩
      obtain ⟨l1, h1, a1⟩ := hc
      refine ⟨l1 ++ l2, ?_, ?_⟩
      · have hx : execAll H (c :: h) sw = execAll H h (c.exec H sw) := rfl
        rw [hx, h2, h1, List.append_assoc]
      · intro e he
        rcases List.mem_append.1 he with he | he
        · exact a1 e he
        · exact a2 e he
  obtain ⟨l, h1, h2⟩ := hrest (execAll H (popCmds pop) (Sched.init iv sh, w0))
  refine ⟨l, ?_, h2⟩
  rw [reach, execAll_append, h1, hpop _ rfl]
  simp [Sched.init]

/-- C13: the same population, with replies that depend only on an agent's own past, gives every
agent the same events with both schedulers, up to any time both clocks have reached: whatever the
shuffles, the tie-breaking keys and the numbers of steps. -/
theorem C13_same_timeline {W1 W2 : Type} (H1 : Host W1) (H2 : PHost W2) (pol : Policy) (iv : Time)
    (hiv : 0 < iv) (sh : Bool) (w1 : W1) (w2 : W2) (N : Nat) (pop : List Ref)
    (h1 : List (Cmd W1)) (h2 : List (Cmd W2))
    (hna1 : ∀ r s w q wh, SOp.add q wh ∉ (H1.step r s w).2.1) (hna2 : NoAdd H2)
    (hh1 : ∀ c ∈ h1, c.noAdd = true) (hh2 : ∀ c ∈ h2, c.noAdd = true) (hN : pop.length ≤ N)
    (hg1 : GoodLog (reach H1 iv sh w1 (popCmds pop ++ h1)).1.log)
    (hg2 : GoodLog (preach H2 N iv w2 pop h2).1.log)
    (hf1 : Follows pol [] (reach H1 iv sh w1 (popCmds pop ++ h1)).1.log)
    (hf2 : Follows pol [] (preach H2 N iv w2 pop h2).1.log)
    (r : Ref) (hr : pop.count r = 1) (T : Time)
    (hT1 : T ≤ (reach H1 iv sh w1 (popCmds pop ++ h1)).1.time)
    (hT2 : T ≤ (preach H2 N iv w2 pop h2).1.time) :
    ((reach H1 iv sh w1 (popCmds pop ++ h1)).1.log.filter (·.ref = r)).filter (fun e => decide (e.time < T))
      = ((preach H2 N iv w2 pop h2).1.log.filter (·.ref = r)).filter (fun e => decide (e.time < T)) := by
  obtain ⟨l1, e1, a1⟩ := treach_log H1 hna1 iv sh w1 pop h1 hh1
  obtain ⟨hi2, _, hint2, _, l2, e2, a2⟩ := preach_post hna2 hiv hh2 hN hg2
  have hi1 := reach_inv hiv hg1
  have leg1 := hi1.legal
  rw [reach_interval] at leg1
  have leg2 := hi2.legal
  rw [hint2] at leg2
  have f1 := hf1.filter r
  have f2 := hf2.filter r
  obtain ⟨d1, t1, p1, _⟩ := leg1.timeline r (by rw [e1, addCount_pop _ _ a1]; omega)
  obtain ⟨d2, t2, p2, _⟩ := leg2.timeline r (by rw [e2, addCount_pop _ _ a2]; omega)
  have q1 : ∀ t, d1 = some t → T ≤ t := by
    intro t ht
    have hm : (r, t) ∈ cal iv (reach H1 iv sh w1 (popCmds pop ++ h1)).1.log := by
      rw [← mem_pendingOf, p1, ht]; simp
    have := hi1.mid.mem_le
    rw [reach_interval] at this
    exact hT1.trans (this _ hm)
  have q2 : ∀ t, d2 = some t → T ≤ t := by
    intro t ht
    have hm : (r, t) ∈ cal iv (preach H2 N iv w2 pop h2).1.log := by
      rw [← mem_pendingOf, p2, ht]; simp
    have hp := hi2.perm
    rw [hint2] at hp
    obtain ⟨x, hx, hxe⟩ := List.mem_map.1 (hp.mem_iff.2 hm)
    have hxt : x.when_ = t := congrArg Prod.snd hxe
    exact hT2.trans (hxt ▸ hi2.ge x hx)
  have g1 : GoodLog l1 := fun e he => hg1 e (by rw [e1]; exact List.mem_append_right _ he)
  have g2 : GoodLog l2 := fun e he => hg2 e (by rw [e2]; exact List.mem_append_right _ he)
  rw [e1, filter_pop pop r hr] at t1 f1 ⊢
  rw [e2, filter_pop pop r hr] at t2 f2 ⊢
  have fr : ∀ {l : List Ev}, ∀ e ∈ l.filter (·.ref = r), e.ref = r := by
    intro l e he; simpa using (List.mem_filter.1 he).2
  have b1 : ∀ e ∈ l1.filter (·.ref = r), e.isAct = true := fun e he => a1 e (List.mem_of_mem_filter he)
  have b2 : ∀ e ∈ l2.filter (·.ref = r), e.isAct = true := fun e he => a2 e (List.mem_of_mem_filter he)
  cases t1 with
  | add t1 =>
    cases t2 with
    | add t2 =>
      have c1 : Chronological (l1.filter (·.ref = r)) :=
        ((t1.strict hiv (fun e he => g1 e (List.mem_of_mem_filter he)) b1).1).imp (fun h => le_of_lt h)
      have c2 : Chronological (l2.filter (·.ref = r)) :=
        ((t2.strict hiv (fun e he => g2 e (List.mem_of_mem_filter he)) b2).1).imp (fun h => le_of_lt h)
      have := timelines_before (past := [.added r 0]) t1 t2 fr fr b1 b2
        (by intro e he; simp at he; subst he; rfl) f1 f2 c1 c2 q1 q2
      rw [List.filter_cons, List.filter_cons, this]

/-- A policy: the n-th activation of agent `r` asks for `r + n`; agent 3 stops after 2. -/
def exPol : Policy := fun r past _ =>
  if r = 3 ∧ past.length = 2 then .dead else .ret (some (.fin (r + past.length : Nat)))

def polHost : Host Unit where
  step r s _ := (exPol r (s.log.filter (·.ref = r)) s.time, [], ())
  shuffle l _ := (l.reverse, ())
  shuffle_perm l _ := List.reverse_perm l

def polPHost : PHost Unit where
  step r s _ := (exPol r (s.log.filter (·.ref = r)) s.time, [], ())
  key r _ := (r, ())

example :
    let s1 := (reach polHost 1 true () (popCmds [0, 2, 3] ++ [.step, .step, .step, .step, .step])).1
    let s2 := (preach polPHost 3 1 () [0, 2, 3] [.step, .step, .step, .step]).1
    GoodLog s1.log ∧ GoodLog s2.log ∧ Follows exPol [] s1.log ∧ Follows exPol [] s2.log ∧
    (4 : Time) ≤ s1.time ∧ (4 : Time) ≤ s2.time ∧ s1.log ≠ s2.log ∧
    (s1.log.filter (·.ref = 2)).filter (fun e => decide (e.time < 4)) =
      [.added 2 0, .act 2 0 (.ret (some 3)), .act 2 3 (.ret (some 4))] := by
  decide +kernel

end Verif
