import Verif.Proofs.Converse
import Verif.Props.Refine

/-!
# C249: simulations with `TimedActivation` are simulations with `PQueueActivation`
-/

namespace Verif
open Spec

variable {W : Type}

/-- Who is activated in the `k`-th step, in which order. -/
def timedBatch (U : AgentCode W) (order : Nat → List Ref → List Ref) (perm : ∀ n l, (order n l).Perm l) (iv : Time) (pop : List Ref) (w : W) (k : Nat) : List Ref :=
  ((timedRun U order perm iv pop w k).1.queue.head?.elim [] (fun b => order k b.2))

open Classical in
/-- The first number with a property, if there is one. -/
noncomputable def firstOf (P : Nat → Prop) : Nat := if h : ∃ k, P k then Nat.find h else 0

open Classical in
theorem firstOf_eq {P : Nat → Prop} {k : Nat} (h : P k) (hl : ∀ j < k, ¬ P j) : firstOf P = k := by
  have he : ∃ j, P j := ⟨k, h⟩
  unfold firstOf
  rw [dif_pos he]
  exact (Nat.find_eq_iff he).2 ⟨h, hl⟩

/-- The first step from the `k`-th one on in which `r` is activated. -/
noncomputable def nextBatch (B : Nat → List Ref) (k : Nat) (r : Ref) : Nat := firstOf (fun k' => k ≤ k' ∧ r ∈ B k')

/-- Numbers in [0, 1) for the places in an order. -/
def rankOf (i : Nat) : Rat := 1 - 1 / ((i : Rat) + 1)

theorem rankOf_lt {i j : Nat} (h : i < j) : rankOf i < rankOf j := by
  unfold rankOf
  have h1 : (0 : Rat) < (i : Rat) + 1 := by positivity
  have h2 : (i : Rat) + 1 < (j : Rat) + 1 := by exact_mod_cast Nat.succ_lt_succ h
  have := one_div_lt_one_div_of_lt h1 h2
  linarith

theorem rankOf_range (i : Nat) : 0 ≤ rankOf i ∧ rankOf i < 1 := by
  unfold rankOf
  have h1 : (1 : Rat) ≤ (i : Rat) + 1 := by
    have : (0 : Rat) ≤ (i : Rat) := by positivity
    linarith
  have h2 : (0 : Rat) < (i : Rat) + 1 := by linarith
  have h3 : 1 / ((i : Rat) + 1) ≤ 1 := (div_le_one h2).2 h1
  have h4 : 0 < 1 / ((i : Rat) + 1) := by positivity
  exact ⟨by linarith, by linarith⟩

/-- The number for `r`, scheduled before the `k`-th step: its place in the step in which it is activated. -/
noncomputable def placeKey (B : Nat → List Ref) (k : Nat) (r : Ref) : Rat := rankOf ((B (nextBatch B k r)).idxOf r)

/-- The first step before which more than `n` times something has been scheduled. -/
noncomputable def stepOfCount (C : Nat → Nat) (n : Nat) : Nat := firstOf (fun j => n < C j)

theorem nextBatch_now {B : Nat → List Ref} {k : Nat} {r : Ref} (h : r ∈ B k) : nextBatch B k r = k :=
  firstOf_eq ⟨le_refl _, h⟩ (fun m hm hc => absurd hc.1 (by omega))

theorem nextBatch_later {B : Nat → List Ref} {k : Nat} {r : Ref} (h : r ∉ B k) : nextBatch B (k + 1) r = nextBatch B k r := by
  have hp : (fun k' => k + 1 ≤ k' ∧ r ∈ B k') = fun k' => k ≤ k' ∧ r ∈ B k' := by
    funext k'
    apply propext
    constructor
    · rintro ⟨h1, h2⟩
      exact ⟨by omega, h2⟩
    · rintro ⟨h1, h2⟩
      refine ⟨?_, h2⟩
      by_contra hc
      have : k' = k := by omega
      rw [this] at h2
      exact h h2
  exact congrArg firstOf hp

theorem stepOfCount_eq {C : Nat → Nat} {n k : Nat} (h : n < C k) (hl : ∀ j < k, C j ≤ n) : stepOfCount C n = k :=
  firstOf_eq h (fun m hm hc => absurd hc (by have := hl m hm; omega))

theorem pairwise_idxOf {l : List Ref} (h : l.Nodup) : l.Pairwise (fun a b => l.idxOf a < l.idxOf b) := by
  rw [List.pairwise_iff_getElem]
  intro i j hi hj hij
  rw [h.idxOf_getElem i hi, h.idxOf_getElem j hj]
  exact hij

/-- How often something has been scheduled before the `k`-th step. -/
def timedCount (U : AgentCode W) (order : Nat → List Ref → List Ref) (perm : ∀ n l, (order n l).Perm l) (iv : Time) (pop : List Ref) (w : W) (k : Nat) : Nat :=
  schedCount iv (timedRun U order perm iv pop w k).1.log

/-- The tie-breaking numbers. -/
noncomputable def timedKeys (U : AgentCode W) (order : Nat → List Ref → List Ref) (perm : ∀ n l, (order n l).Perm l) (iv : Time) (pop : List Ref) (w : W) (r : Ref) (n : Nat) : Rat :=
  placeKey (timedBatch U order perm iv pop w) (stepOfCount (timedCount U order perm iv pop w) n) r

theorem timedCount_mono (U : AgentCode W) (order : Nat → List Ref → List Ref) (perm : ∀ n l, (order n l).Perm l) (iv : Time) (pop : List Ref) (w : W) {j k : Nat} (h : j ≤ k) :
    timedCount U order perm iv pop w j ≤ timedCount U order perm iv pop w k := by
  induction h with
  | refl => exact le_refl _
  | @step k _ ih =>
    refine le_trans ih ?_
    unfold timedCount timedRun
    rw [iterStep_succ]
    obtain ⟨l, hl⟩ := (Cmd.step (W := W × Nat)).exec_log (U.timed order perm) (iterStep (timedStepper (U.timed order perm)) k (timedPop (U.timed order perm) iv pop w))
    have : ((timedStepper (U.timed order perm)).step (iterStep (timedStepper (U.timed order perm)) k (timedPop (U.timed order perm) iv pop w))).1.1.log =
      (iterStep (timedStepper (U.timed order perm)) k (timedPop (U.timed order perm) iv pop w)).1.log ++ l := hl
    rw [this, schedCount_append]
    omega

/-- The numbers in the heap before the `k`-th step. -/
structure KeyInv (B : Nat → List Ref) (iv : Time) (k : Nat) (y : PSched × W × Nat) : Prop where
  count : y.2.2 = schedCount iv y.1.log
  nodup : (y.1.queue.map PEntry.ref).Nodup
  key : ∀ e ∈ y.1.queue, e.key = placeKey B k e.ref

theorem RunSim.bucket {N k : Nat} {x : Sched × W × Nat} {y : PSched × W × Nat} (h : RunSim N k x y) {t : Time} {b : List Ref} {q} (hq : x.1.queue = (t, b) :: q) :
    (dueAt (ppending y.1) y.1.time).Perm b := by
  have hqs : x.1.queue ≠ [] := by rw [hq]; simp
  have ht : t = x.1.time := by
    have := h.inv.head hqs
    rw [hq] at this
    exact this
  have h1 := h.inv.due x.1.time
  rw [hq] at h1
  have h2 : bucketAt ((t, b) :: q) x.1.time = b := by simp [bucketAt, ht]
  rw [h2] at h1
  rw [← h1]
  have h3 := ((h.pinv.perm.filter (fun z => z.2 = y.1.time)).map Prod.fst)
  rw [h.interval, h.log, h.time]
  exact h3

theorem due_nodup {p : PSched} (hn : (p.queue.map PEntry.ref).Nodup) (t : Time) : (dueAt (ppending p) t).Nodup := by
  unfold dueAt ppending
  have h1 : ((List.map (fun e => (e.ref, e.when_)) p.queue).map Prod.fst).Nodup := by
    rw [List.map_map]
    exact hn
  exact h1.sublist (List.filter_sublist.map _)

/-- The tie-breaking numbers, when it is known who is activated in which step, and how often something has been scheduled before it. -/
noncomputable def keyFun (B : Nat → List Ref) (C : Nat → Nat) (r : Ref) (n : Nat) : Rat := placeKey B (stepOfCount C n) r

theorem KeyInv.stepOf {U : AgentCode W} (hU : U.Plain) {order : Nat → List Ref → List Ref} {perm : ∀ n l, (order n l).Perm l} {N : Nat} {iv : Time} {B : Nat → List Ref}
    {C : Nat → Nat} {k : Nat} {x : Sched × W × Nat} {y : PSched × W × Nat} (h : RunSim N k x y) (hiv : y.1.interval = iv) (hk : KeyInv B iv k y)
    (hB0 : B k = x.1.queue.head?.elim [] (fun b => order k b.2)) (hC0 : ∀ j ≤ k, C j ≤ schedCount iv x.1.log)
    (hC1 : ((timedStepper (U.timed order perm)).step x).2 = false → C (k + 1) = schedCount iv ((timedStepper (U.timed order perm)).step x).1.1.log) :
    StepSim N k (U.timed order perm) (U.pqueue (keyFun B C)) x y ∧
    (((timedStepper (U.timed order perm)).step x).2 = false → KeyInv B iv (k + 1) ((pqStepper (U.pqueue (keyFun B C)) N).step y).1) := by
  obtain ⟨p, v, c⟩ := y
  have hst := same_time h.inv h.pinv h.head h.interval h.log h.some_
  by_cases hinf : p.time = .inf
  · have hq := h.pinv.inf_empty h.head hinf
    have hqs : (x).1.queue = [] := (hst (fun _ => hinf)).2.2 hq
    refine ⟨h.step hU ?_, ?_⟩
    · intro t b q hc
      rw [hqs] at hc
      cases hc
    · intro _
      have e2 : (pqStepper (U.pqueue (keyFun B C)) N).step (p, v, c) = ((p, v, c), false) := by
        simp [pqStepper, PSched.step, hinf]
      rw [e2]
      refine ⟨hk.count, hk.nodup, ?_⟩
      intro e he
      have hq' : p.queue = [] := hq
      have he' : e ∈ p.queue := he
      rw [hq'] at he'
      cases he'
  · have hqs : (x).1.queue ≠ [] := by
      intro hc
      rcases h.inv.empty hc with h1 | h1
      · exact h.some_ (h.log.symm.trans h1)
      · exact hinf (h.time.symm.trans h1)
    obtain ⟨⟨t, b⟩, q, hq⟩ := List.exists_cons_of_ne_nil hqs
    have hB : B k = order k b := by
      rw [hB0, hq]
      rfl
    have hdb : (dueAt (ppending p) p.time).Perm b := h.bucket hq
    have hLp : (dueAt (ppending p) p.time).Perm (order k b) := hdb.trans (perm k b).symm
    have hLn : (order k b).Nodup := hLp.nodup_iff.1 (due_nodup hk.nodup _)
    have hplace : ∀ r ∈ order k b, placeKey (B) k r = rankOf ((order k b).idxOf r) := by
      intro r hr
      unfold placeKey
      rw [nextBatch_now (by rw [hB]; exact hr), hB]
    have hLs : (order k b).Pairwise (fun a b' => placeKey (B) k a < placeKey (B) k b') := by
      refine List.Pairwise.imp_of_mem ?_ (pairwise_idxOf hLn)
      intro a b' ha hb' hlt
      rw [hplace a ha, hplace b' hb']
      exact rankOf_lt hlt
    have hcnt : p.queue.countP (fun e => decide (e.when_ = p.time)) ≤ N := List.countP_le_length.trans h.len
    have hloop := pLoop_follows hU (keyFun B C) (placeKey (B) k) N p v c (order k b) h.pinv hk.nodup hLs hLp
      (fun e he _ => hk.key e he) hcnt
    have hp : (p.step (U.pqueue (keyFun B C)) N (v, c)).1.log = (pLoop (U.pqueue (keyFun B C)) p.time N p (v, c)).1.log ∧
        (p.step (U.pqueue (keyFun B C)) N (v, c)).1.queue = (pLoop (U.pqueue (keyFun B C)) p.time N p (v, c)).1.queue ∧
        (p.step (U.pqueue (keyFun B C)) N (v, c)).2.1 = (pLoop (U.pqueue (keyFun B C)) p.time N p (v, c)).2.1 ∧
        (p.step (U.pqueue (keyFun B C)) N (v, c)).2.2 = (pLoop (U.pqueue (keyFun B C)) p.time N p (v, c)).2.2.2 := by
      unfold PSched.step
      rw [if_neg hinf]
      simp only
      split
      · rename_i hs
        exact ⟨rfl, rfl, rfl, hs.symm⟩
      · exact ⟨rfl, rfl, rfl, rfl⟩
    obtain ⟨p1, p2, p3, p4⟩ := hp
    obtain ⟨evs, rest, l1, l2, l3, l4, l5⟩ := hloop
    have hsim : StepSim N k (U.timed order perm) (U.pqueue (keyFun B C)) (x) (p, v, c) := by
      refine h.step hU ?_
      intro t' b' q' hc _
      rw [hq] at hc
      cases hc
      refine ⟨rest, ?_⟩
      simp only [pqStepper]
      rw [p1, l1, List.drop_left]
      exact l2
    refine ⟨hsim, ?_⟩
    intro hr
    rcases hsim with ⟨-, f2, f3⟩ | ⟨f1, -⟩
    · have hok : (pLoop (U.pqueue (keyFun B C)) p.time N p (v, c)).2.2.2 = .ok := by
        simp only [pqStepper, p4] at f2
        cases hs : (pLoop (U.pqueue (keyFun B C)) p.time N p (v, c)).2.2.2 with
        | ok => rfl
        | raised => rw [hs] at f2; cases f2
        | stuck => exact absurd hs l4
      obtain ⟨m1, m2⟩ := l5 hok
      have hint : p.interval = iv := hiv
      have hcount : c = schedCount iv p.log := hk.count
      have hlog : (p.step (U.pqueue (keyFun B C)) N (v, c)).1.log = p.log ++ evs := p1.trans l1
      have hsum : schedCount iv (p.log ++ evs) = c + schedCount iv evs := by rw [schedCount_append, hcount]
      refine ⟨?_, ?_, ?_⟩
      · simp only [pqStepper]
        rw [hlog, p3, l3, hsum, hint]
      · simp only [pqStepper]
        rw [p2]
        exact m1
      · intro e he
        simp only [pqStepper] at he
        rw [p2] at he
        rcases m2 e he with ⟨d1, d2⟩ | ⟨c', d1, d2, d3⟩
        · have hnot : e.ref ∉ B k := by
            rw [hB]
            intro hc
            obtain ⟨e', he', hee⟩ := List.mem_map.1 (mem_dueAt.1 (hLp.mem_iff.2 hc))
            have h1 : e'.ref = e.ref := congrArg Prod.fst hee
            have h2 : e'.when_ = p.time := congrArg Prod.snd hee
            have h3 := List.inj_on_of_nodup_map hk.nodup he' d1 h1
            rw [h3] at h2
            rw [h2] at d2
            exact lt_irrefl _ d2
          rw [hk.key e d1]
          unfold placeKey
          rw [nextBatch_later hnot]
        · rw [d3]
          unfold keyFun
          have hc1 : C (k + 1) = c + schedCount iv evs := by
            rw [hC1 hr]
            refine (congrArg (schedCount iv) f3.log).trans ?_
            simp only [pqStepper]
            rw [hlog, hsum]
          rw [stepOfCount_eq (k := k + 1) (by rw [hc1]; rw [hint] at d2; exact d2)]
          intro j hj
          have h5 := hC0 j (by omega)
          have h6 : schedCount iv x.1.log = c := by
            rw [h.log]
            exact hcount.symm
          omega
    · rw [f1] at hr
      cases hr

theorem KeyInv.step {U : AgentCode W} (hU : U.Plain) {order : Nat → List Ref → List Ref} {perm : ∀ n l, (order n l).Perm l} {N : Nat} {iv : Time} {pop : List Ref} {w : W}
    {k : Nat} {y : PSched × W × Nat} (h : RunSim N k (timedRun U order perm iv pop w k) y) (hiv : y.1.interval = iv)
    (hk : KeyInv (timedBatch U order perm iv pop w) iv k y) :
    StepSim N k (U.timed order perm) (U.pqueue (timedKeys U order perm iv pop w)) (timedRun U order perm iv pop w k) y ∧
    (((timedStepper (U.timed order perm)).step (timedRun U order perm iv pop w k)).2 = false →
      KeyInv (timedBatch U order perm iv pop w) iv (k + 1) ((pqStepper (U.pqueue (timedKeys U order perm iv pop w)) N).step y).1) :=
  KeyInv.stepOf (C := timedCount U order perm iv pop w) hU h hiv hk rfl (fun _ hj => timedCount_mono U order perm iv pop w hj) (fun _ => by
    unfold timedCount timedRun
    rw [iterStep_succ])

theorem pop_keys (P : PHost (W × Nat)) (keys : Ref → Nat → Rat) (hkey : ∀ r v c, P.key r (v, c) = (keys r c, (v, c + 1))) (pop : List Ref) (y : PSched × W × Nat) (ht : y.1.time = 0) :
    (pexecAll P 0 (pop.map (fun r => .op (.add r none))) y).2.2 = y.2.2 + pop.length ∧
    ((pexecAll P 0 (pop.map (fun r => .op (.add r none))) y).1.queue.map PEntry.ref).Perm (pop ++ y.1.queue.map PEntry.ref) ∧
    ∀ e ∈ (pexecAll P 0 (pop.map (fun r => .op (.add r none))) y).1.queue, e ∈ y.1.queue ∨ ∃ c, c < y.2.2 + pop.length ∧ e.key = keys e.ref c := by
  induction pop generalizing y with
  | nil => exact ⟨rfl, List.Perm.refl _, fun e he => Or.inl he⟩
  | cons r pop ih =>
    obtain ⟨p, v, c⟩ := y
    have hadd : Cmd.pexec P 0 (.op (.add r none)) (p, v, c) =
        ({ p with
            queue := heappush PEntry.lt p.queue ⟨0, keys r c, r⟩
            agents := if r ∈ p.agents then p.agents else p.agents ++ [r]
            log := p.log ++ [.added r 0] }, (v, c + 1)) := by
      have ht' : p.time = 0 := ht
      simp [Cmd.pexec, PSched.applyOp, PSched.addAgent, PSched.schedule, ht', Time.truthy, hkey]
    have e0 : pexecAll P 0 ((r :: pop).map (fun r => .op (.add r none))) (p, v, c) =
        pexecAll P 0 (pop.map (fun r => .op (.add r none))) (Cmd.pexec P 0 (.op (.add r none)) (p, v, c)) := rfl
    rw [e0, hadd]
    obtain ⟨h1, h2, h3⟩ := ih ({ p with
            queue := heappush PEntry.lt p.queue ⟨0, keys r c, r⟩
            agents := if r ∈ p.agents then p.agents else p.agents ++ [r]
            log := p.log ++ [.added r 0] }, (v, c + 1)) ht
    have hperm := heappush_perm (lt := PEntry.lt) p.queue ⟨0, keys r c, r⟩
    refine ⟨?_, ?_, ?_⟩
    · rw [h1]
      simp only [List.length_cons]
      omega
    · refine h2.trans ?_
      have : ((heappush PEntry.lt p.queue ⟨0, keys r c, r⟩).map PEntry.ref).Perm (r :: p.queue.map PEntry.ref) := hperm.map _
      refine (this.append_left pop).trans ?_
      exact List.perm_middle
    · intro e he
      rcases h3 e he with h | ⟨c', h, h'⟩
      · rcases List.mem_cons.1 (hperm.mem_iff.1 h) with rfl | h
        · refine Or.inr ⟨c, ?_, rfl⟩
          simp only [List.length_cons]
          omega
        · exact Or.inl h
      · refine Or.inr ⟨c', ?_, h'⟩
        simp only [List.length_cons] at h ⊢
        omega

theorem schedCount_added (iv : Time) (pop : List Ref) (t : Time) : schedCount iv (pop.map (fun r => Ev.added r t)) = pop.length := by
  induction pop with
  | nil => rfl
  | cons r pop ih => simp only [List.map_cons, schedCount, ih, List.length_cons]

theorem key_start (U : AgentCode W) (order : Nat → List Ref → List Ref) (perm : ∀ n l, (order n l).Perm l) (iv : Time) (hiv : 0 < iv) (pop : List Ref) (hnd : pop.Nodup) (w : W)
    (hpop : pop ≠ []) :
    KeyInv (timedBatch U order perm iv pop w) iv 0 (pqueuePop (U.pqueue (timedKeys U order perm iv pop w)) iv pop w) := by
  obtain ⟨h1, h2, h3⟩ := pop_keys (U.pqueue (timedKeys U order perm iv pop w)) (timedKeys U order perm iv pop w) (fun _ _ _ => rfl) pop (PSched.init iv, (w, 0)) rfl
  obtain ⟨-, -, -, -, -, k5⟩ := pop_inv (U.pqueue (timedKeys U order perm iv pop w)) 0 pop (PSched.init iv, (w, 0)) (PInv.init hiv) (Or.inl rfl) rfl
  have hlog : (pqueuePop (U.pqueue (timedKeys U order perm iv pop w)) iv pop w).1.log = pop.map (fun r => Ev.added r 0) := k5
  have hc : schedCount iv (pqueuePop (U.pqueue (timedKeys U order perm iv pop w)) iv pop w).1.log = pop.length := by
    rw [hlog, schedCount_added]
  refine ⟨?_, ?_, ?_⟩
  · rw [hc]
    exact h1.trans (Nat.zero_add _)
  · refine h2.nodup_iff.2 ?_
    simpa [PSched.init] using hnd
  · intro e he
    rcases h3 e he with h | ⟨c, h, h'⟩
    · cases h
    · rw [h']
      unfold timedKeys
      rw [stepOfCount_eq (k := 0) ?_ (by intro j hj; omega)]
      have hs := run_start (U := U) (timedKeys U order perm iv pop w) order perm pop.length iv hiv pop hpop (le_refl _) w
      have : timedCount U order perm iv pop w 0 = pop.length := by
        have e1 : timedCount U order perm iv pop w 0 = schedCount iv (timedPop (U.timed order perm) iv pop w).1.log := rfl
        rw [e1, hs.log, hc]
      rw [this]
      simpa using h

theorem converse_sim {U : AgentCode W} (hU : U.Plain) (order : Nat → List Ref → List Ref) (perm : ∀ n l, (order n l).Perm l) (N : Nat) (iv : Time) (hiv : 0 < iv) (pop : List Ref)
    (hpop : pop ≠ []) (hnd : pop.Nodup) (hN : pop.length ≤ N) (w : W) (k : Nat)
    (hk : ∀ m < k, ((timedStepper (U.timed order perm)).step (timedRun U order perm iv pop w m)).2 = false) :
    RunSim N k (timedRun U order perm iv pop w k) (pqueueRun U (timedKeys U order perm iv pop w) N iv pop w k) ∧
    StepSim N k (U.timed order perm) (U.pqueue (timedKeys U order perm iv pop w)) (timedRun U order perm iv pop w k)
      (pqueueRun U (timedKeys U order perm iv pop w) N iv pop w k) := by
  suffices h : RunSim N k (timedRun U order perm iv pop w k) (pqueueRun U (timedKeys U order perm iv pop w) N iv pop w k) ∧
      (pqueueRun U (timedKeys U order perm iv pop w) N iv pop w k).1.interval = iv ∧
      KeyInv (timedBatch U order perm iv pop w) iv k (pqueueRun U (timedKeys U order perm iv pop w) N iv pop w k) from ⟨h.1, (KeyInv.step hU h.1 h.2.1 h.2.2).1⟩
  induction k with
  | zero =>
    have h0 := run_start (U := U) (timedKeys U order perm iv pop w) order perm N iv hiv pop hpop hN w
    refine ⟨h0, ?_, key_start U order perm iv hiv pop hnd w hpop⟩
    have := h0.interval
    refine this.symm.trans ?_
    exact execAll_interval (U.timed order perm) (pop.map (fun r => .op (.add r none))) (Sched.init iv true, (w, 0))
  | succ k ih =>
    obtain ⟨h1, h2, h3⟩ := ih (fun m hm => hk m (by omega))
    obtain ⟨g1, g2⟩ := KeyInv.step hU h1 h2 h3
    have hr := hk k (by omega)
    have e1 : pqueueRun U (timedKeys U order perm iv pop w) N iv pop w (k + 1) =
        ((pqStepper (U.pqueue (timedKeys U order perm iv pop w)) N).step (pqueueRun U (timedKeys U order perm iv pop w) N iv pop w k)).1 := by
      unfold pqueueRun
      rw [iterStep_succ]
    have e2 : timedRun U order perm iv pop w (k + 1) = ((timedStepper (U.timed order perm)).step (timedRun U order perm iv pop w k)).1 := by
      unfold timedRun
      rw [iterStep_succ]
    rw [e1]
    rcases g1 with ⟨-, -, f3⟩ | ⟨f1, -⟩
    · refine ⟨?_, ?_, g2 hr⟩
      · rw [e2]
        exact f3
      · rw [← f3.interval]
        have hi := execAll_interval (U.timed order perm) [.step] (timedRun U order perm iv pop w k)
        refine Eq.trans hi ?_
        rw [h1.interval, h2]
    · rw [f1] at hr
      cases hr

/-- C249: whatever the orders of the agents are, there are tie-breaking numbers in [0, 1), as `random.random()` draws them, with which `PQueueActivation` does exactly the
same as `TimedActivation`: after every number of steps, up to the first one that raises, everything that happened, the time, the number of steps, the agents, what is scheduled
and all that is outside the scheduler agree; a step raises with one scheduler if and only if it does with the other one. -/
theorem C249_refines (U : AgentCode W) (hU : PlainCode U) (order : Nat → List Ref → List Ref) (perm : ∀ n l, (order n l).Perm l) (iv : Time) (hiv : 0 < iv) (pop : List Ref)
    (hpop : pop ≠ []) (hnd : pop.Nodup) (w : W) :
    ∃ keys : Ref → Nat → Rat, (∀ r n, 0 ≤ keys r n ∧ keys r n < 1) ∧ ∀ N, pop.length ≤ N → ∀ k,
      (∀ m < k, ((timedStepper (U.timed order perm)).step (timedRun U order perm iv pop w m)).2 = false) →
      (let x := timedRun U order perm iv pop w k
       let y := pqueueRun U keys N iv pop w k
       x.1.log = y.1.log ∧ x.1.time = y.1.time ∧ x.1.steps = y.1.steps ∧ x.1.agents = y.1.agents ∧ x.2.1 = y.2.1 ∧
        (pending x.1).Perm (ppending y.1) ∧ y.1.running = (x.1.running && decide (x.1.time ≠ .inf)) ∧
        ((timedStepper (U.timed order perm)).step x).2 = ((pqStepper (U.pqueue keys) N).step y).2 ∧
        ((timedStepper (U.timed order perm)).step x).1.1.log = ((pqStepper (U.pqueue keys) N).step y).1.1.log ∧
        ((timedStepper (U.timed order perm)).step x).1.2.1 = ((pqStepper (U.pqueue keys) N).step y).1.2.1) := by
  refine ⟨timedKeys U order perm iv pop w, fun r n => rankOf_range _, fun N hN k hk => ?_⟩
  obtain ⟨h, hs⟩ := converse_sim hU.plain order perm N iv hiv pop hpop hnd hN w k hk
  refine ⟨h.log, h.time, h.steps, h.live, h.world, h.scheduled, h.running, ?_⟩
  rcases hs with ⟨h1, h2, h3⟩ | ⟨h1, h2, h3, h4⟩
  · exact ⟨h1.trans h2.symm, h3.log, h3.world⟩
  · exact ⟨h1.trans h2.symm, h3.log, h4⟩

/-- C249: what is true of every simulation with `PQueueActivation` that draws its tie-breaking numbers from [0, 1) is true of every simulation with `TimedActivation`. -/
theorem C249_transfer (U : AgentCode W) (hU : PlainCode U) (iv : Time) (hiv : 0 < iv) (pop : List Ref) (hpop : pop ≠ []) (hnd : pop.Nodup) (w : W)
    (Q : Nat → List Ev → Time → Nat → List Ref → W → Prop)
    (hQ : ∀ keys : Ref → Nat → Rat, (∀ r n, 0 ≤ keys r n ∧ keys r n < 1) → ∀ k,
      (∀ m < k, ((pqStepper (U.pqueue keys) pop.length).step (pqueueRun U keys pop.length iv pop w m)).2 = false) →
      Q k (pqueueRun U keys pop.length iv pop w k).1.log (pqueueRun U keys pop.length iv pop w k).1.time (pqueueRun U keys pop.length iv pop w k).1.steps
        (pqueueRun U keys pop.length iv pop w k).1.agents (pqueueRun U keys pop.length iv pop w k).2.1)
    (order : Nat → List Ref → List Ref) (perm : ∀ n l, (order n l).Perm l) (k : Nat)
    (hk : ∀ m < k, ((timedStepper (U.timed order perm)).step (timedRun U order perm iv pop w m)).2 = false) :
    Q k (timedRun U order perm iv pop w k).1.log (timedRun U order perm iv pop w k).1.time (timedRun U order perm iv pop w k).1.steps
      (timedRun U order perm iv pop w k).1.agents (timedRun U order perm iv pop w k).2.1 := by
  obtain ⟨keys, hr, h⟩ := C249_refines U hU order perm iv hiv pop hpop hnd w
  have h := h pop.length (le_refl _)
  have hk' : ∀ m < k, ((pqStepper (U.pqueue keys) pop.length).step (pqueueRun U keys pop.length iv pop w m)).2 = false := by
    intro m hm
    have := (h m (fun j hj => hk j (by omega))).2.2.2.2.2.2.2.1
    exact this.symm.trans (hk m hm)
  have := hQ keys hr k hk'
  obtain ⟨h1, h2, h3, h4, h5, -⟩ := h k hk
  rw [h1, h2, h3, h4, h5]
  exact this

/-- C249: the two schedulers have the same runs: a sequence of events is one that `TimedActivation` can produce in `k` steps without raising, with some orders, if and only if
`PQueueActivation` can, with some tie-breaking numbers from [0, 1). -/
theorem C249_same_runs (U : AgentCode W) (hU : PlainCode U) (iv : Time) (hiv : 0 < iv) (pop : List Ref) (hpop : pop ≠ []) (hnd : pop.Nodup) (w : W) (k : Nat)
    (log : List Ev) (v : W) :
    (∃ order perm, (∀ m < k, ((timedStepper (U.timed order perm)).step (timedRun U order perm iv pop w m)).2 = false) ∧
      (timedRun U order perm iv pop w k).1.log = log ∧ (timedRun U order perm iv pop w k).2.1 = v) ↔
    ∃ keys : Ref → Nat → Rat, (∀ r n, 0 ≤ keys r n ∧ keys r n < 1) ∧
      (∀ m < k, ((pqStepper (U.pqueue keys) pop.length).step (pqueueRun U keys pop.length iv pop w m)).2 = false) ∧
      (pqueueRun U keys pop.length iv pop w k).1.log = log ∧ (pqueueRun U keys pop.length iv pop w k).2.1 = v := by
  constructor
  · rintro ⟨order, perm, h1, h2, h3⟩
    obtain ⟨keys, hr, h⟩ := C249_refines U hU order perm iv hiv pop hpop hnd w
    have h := h pop.length (le_refl _)
    refine ⟨keys, hr, ?_, ?_, ?_⟩
    · intro m hm
      exact (h m (fun j hj => h1 j (by omega))).2.2.2.2.2.2.2.1.symm.trans (h1 m hm)
    · rw [← h2]
      exact (h k h1).1.symm
    · rw [← h3]
      exact (h k h1).2.2.2.2.1.symm
  · rintro ⟨keys, -, h1, h2, h3⟩
    obtain ⟨order, perm, h⟩ := C247_refines U hU keys pop.length iv hiv pop hpop (le_refl _) w
    refine ⟨order, perm, ?_, ?_, ?_⟩
    · intro m hm
      exact (h m (fun j hj => h1 j (by omega))).2.2.2.2.2.2.2.1.trans (h1 m hm)
    · rw [← h2]
      exact (h k h1).1
    · rw [← h3]
      exact (h k h1).2.2.2.2.1

/-- Every second step the other way round. -/
def turnOrder (n : Nat) (l : List Ref) : List Ref := if n % 2 = 0 then l.reverse else l

theorem turnOrder_perm (n : Nat) (l : List Ref) : (turnOrder n l).Perm l := by
  unfold turnOrder
  split
  · exact List.reverse_perm l
  · exact List.Perm.refl l

set_option maxRecDepth 100000 in
/-- Numbers in [0, 1) that do what these orders do. -/
example : (timedRun notingCode turnOrder turnOrder_perm 1 [0, 1, 2] [] 3).2.1 = [2, 1, 0, 2, 1, 0, 0, 1] ∧
    (pqueueRun notingCode (fun r n => if n < 6 then 1 / ((r : Rat) + 2) else (r : Rat) / 4) 3 1 [0, 1, 2] [] 3).2.1 = [2, 1, 0, 2, 1, 0, 0, 1] ∧
    (timedRun notingCode turnOrder turnOrder_perm 1 [0, 1, 2] [] 3).1.log =
      (pqueueRun notingCode (fun r n => if n < 6 then 1 / ((r : Rat) + 2) else (r : Rat) / 4) 3 1 [0, 1, 2] [] 3).1.log := by decide +kernel

/-- Agents note who is activated; at the time 0 agent 1 waits twice as long as agent 0. -/
def unevenCode : AgentCode (List Ref) := fun r t _ _ w => (.ret (if r = 1 ∧ t = 0 then some 2 else none), [], w ++ [r])

set_option maxRecDepth 100000 in
/-- C249, without shuffling: with `shuffle=False` (`OrderedTimedActivation`, and `PQueueActivation(shuffle=False)`, whose tie-breakers are the ids) the schedulers do not do
the same: agents due at the same time are activated in the order in which they were scheduled by one, and in the order of their ids by the other. -/
theorem C249_ordered_false :
    PlainCode unevenCode ∧
    (iterStep (timedStepper (unevenCode.timed (fun _ l => l) (fun _ l => List.Perm.refl l))) 3
      (execAll (unevenCode.timed (fun _ l => l) (fun _ l => List.Perm.refl l)) ([0, 1].map (fun r => .op (.add r none))) (Sched.init 1 false, ([], 0)))).2.1 = [0, 1, 0, 1, 0] ∧
    (pqueueRun unevenCode (fun r _ => r) 2 1 [0, 1] [] 3).2.1 = [0, 1, 0, 0, 1] := by
  refine ⟨?_, by decide +kernel, by decide +kernel⟩
  intro r t n as w
  unfold unevenCode
  refine ⟨(by intro q wh h; cases h), ?_⟩
  intro d h
  simp only [Reply.ret.injEq] at h
  split at h
  · cases h
    decide +kernel
  · cases h

end Verif
