import Verif.Model.ExProgrammatic
import Verif.Props.Rounds
import Mathlib.Algebra.BigOperators.Ring.Finset
import Mathlib.Algebra.BigOperators.Fin
import Mathlib.Data.Fintype.BigOperators

/-!
# C232: the programmatic example
-/

namespace Verif

/-- What one activation does. -/
def myAgentAct (p : Rat) (src : Nat → Rat) : MesaCode PrWorld := fun r _ _ _ w =>
  match w.agents[r]? with
  | none => w
  | some a => { w with
      agents := w.agents.set r (neutralFn p (src w.pos) a).1
      pos := w.pos + 1
      used := w.used ++ [src w.pos] }

/-- There are `n` agents, in the state `neutral`. -/
def NeutralOk (n : Nat) (w : PrWorld) : Prop :=
  w.agents.length = n ∧ ∀ a ∈ w.agents, a.state = some pNeutral

theorem neutralFn_state (p u : Rat) (a : MyAgent) : (neutralFn p u a).1.state = a.state := by
  unfold neutralFn
  simp only
  split <;> rfl

theorem myAgent_mesa (p : Rat) (src : Nat → Rat) (σ : Nat → List Ref → List Ref) (hσ : ∀ n l, (σ n l).Perm l) (n : Nat) (iv : Rat) :
    MesaHost (myAgentHost p src σ hσ) n iv (myAgentAct p src) (NeutralOk n) where
  step r hr s w t hI _ := by
    have hlt : r < w.agents.length := by rw [hI.1]; exact hr
    have ha : w.agents[r]? = some w.agents[r] := by simp [hlt]
    have hs := hI.2 w.agents[r] (List.getElem_mem hlt)
    have hv : (neutralFn p (src w.pos) w.agents[r]).2 = .none := rfl
    have ho : fsmOutcome (fun _ => none) myAgentCls w.agents[r].state Val.none = (w.agents[r].state, .ret none) := rfl
    simp only [myAgentHost, myAgentAct, ha, hs, hv]
    rw [← hs, ho]
    simp only
    have : (neutralFn p (src w.pos) w.agents[r]).1.state = w.agents[r].state := neutralFn_state _ _ _
    rw [← this]
  inv r hr t k as w hI := by
    have hlt : r < w.agents.length := by rw [hI.1]; exact hr
    have ha : w.agents[r]? = some w.agents[r] := by simp [hlt]
    simp only [myAgentAct, ha]
    refine ⟨by simpa using hI.1, fun b hb => ?_⟩
    rcases List.mem_or_eq_of_mem_set hb with hb | rfl
    · exact hI.2 b hb
    · rw [neutralFn_state]
      exact hI.2 _ (List.getElem_mem hlt)
  shuffle l w hI := hI

/-- Counters, and the numbers drawn. -/
structure DrawsOk (p : Rat) (src : Nat → Rat) (w : PrWorld) : Prop where
  used : w.used = (List.range w.pos).map src
  total : (w.agents.map (·.timesRun)).sum = w.used.countP (fun u => decide (u < p))

theorem sum_set_le (l : List Nat) (r : Nat) (x : Nat) (hr : l[r]? = some x) (y : Nat) : (l.set r (x + y)).sum = l.sum + y := by
  induction l generalizing r with
  | nil => simp at hr
  | cons a l ih =>
    cases r with
    | zero =>
      simp at hr
      subst hr
      simp
      omega
    | succ r =>
      simp at hr
      simp [ih r hr]
      omega

theorem myAgent_act (p : Rat) (src : Nat → Rat) (n : Nat) (r : Ref) (hr : r < n) (t : Rat) (k : Nat) (as : List Ref) (w : PrWorld) (hI : NeutralOk n w)
    (hd : DrawsOk p src w) :
    DrawsOk p src (myAgentAct p src r t k as w) ∧ (myAgentAct p src r t k as w).pos = w.pos + 1 ∧
      ∀ (j : Nat) (a : MyAgent), w.agents[j]? = some a → ∃ a', (myAgentAct p src r t k as w).agents[j]? = some a' ∧ a.timesRun ≤ a'.timesRun ∧
        a'.timesRun ≤ a.timesRun + if r = j then 1 else 0 := by
  have hlt : r < w.agents.length := by rw [hI.1]; exact hr
  have ha : w.agents[r]? = some w.agents[r] := by simp [hlt]
  simp only [myAgentAct, ha]
  refine ⟨⟨?_, ?_⟩, trivial, ?_⟩
  · simp only
    rw [hd.used, List.range_succ, List.map_append]
    rfl
  · simp only
    rw [List.map_set, List.countP_append, ← hd.total]
    have hx : (w.agents.map (·.timesRun))[r]? = some w.agents[r].timesRun := by simp [hlt]
    by_cases hu : src w.pos < p
    · have : (neutralFn p (src w.pos) w.agents[r]).1.timesRun = w.agents[r].timesRun + 1 := by simp [neutralFn, hu]
      rw [this, sum_set_le _ _ _ hx]
      simp [hu]
    · have : (neutralFn p (src w.pos) w.agents[r]).1.timesRun = w.agents[r].timesRun + 0 := by simp [neutralFn, hu]
      rw [this, sum_set_le _ _ _ hx]
      simp [hu]
  · intro j a hj
    by_cases hrj : r = j
    · subst hrj
      rw [ha] at hj
      obtain rfl := Option.some.inj hj
      refine ⟨_, List.getElem?_set_self hlt, ?_, ?_⟩
      · unfold neutralFn; simp only; split <;> simp
      · unfold neutralFn; simp only; split <;> simp
    · rw [List.getElem?_set_ne hrj]
      exact ⟨a, hj, le_refl _, by omega⟩

theorem myAgent_fold (p : Rat) (src : Nat → Rat) (n : Nat) (t : Rat) (k : Nat) (as l : List Ref) (hl : ∀ r ∈ l, r < n) (w : PrWorld) (hI : NeutralOk n w)
    (hd : DrawsOk p src w) :
    DrawsOk p src (l.foldl (fun w r => myAgentAct p src r t k as w) w) ∧ (l.foldl (fun w r => myAgentAct p src r t k as w) w).pos = w.pos + l.length ∧
      ∀ (j : Nat) (a : MyAgent), w.agents[j]? = some a → ∃ a', (l.foldl (fun w r => myAgentAct p src r t k as w) w).agents[j]? = some a' ∧
        a.timesRun ≤ a'.timesRun ∧ a'.timesRun ≤ a.timesRun + l.count j := by
  induction l generalizing w with
  | nil => exact ⟨hd, rfl, fun j a h => ⟨a, h, le_refl _, by simp⟩⟩
  | cons r l ih =>
    have hr := hl r (by simp)
    obtain ⟨h1, h2, h3⟩ := myAgent_act p src n r hr t k as w hI hd
    obtain ⟨g1, g2, g3⟩ := ih (fun q hq => hl q (by simp [hq])) _ ((myAgent_mesa p src (fun _ l => l) (fun _ l => List.Perm.refl l) n 1).inv r hr t k as w hI) h1
    refine ⟨g1, ?_, ?_⟩
    · simp only [List.foldl_cons, List.length_cons]
      rw [g2, h2]
      omega
    · intro j a hj
      obtain ⟨a1, e1, e2, e3⟩ := h3 j a hj
      obtain ⟨a2, f1, f2, f3⟩ := g3 j a1 e1
      refine ⟨a2, f1, le_trans e2 f2, ?_⟩
      rw [List.count_cons]
      by_cases hrj : r = j
      · simp [hrj] at e3 ⊢; omega
      · simp [hrj] at e3 ⊢; omega

theorem programmaticInit_eq (n : Nat) (hn : 0 < n) : programmaticInit n = some ⟨List.replicate n ⟨some pNeutral, 0⟩, 0, 0, []⟩ := by
  have : newMyAgent = some ⟨some pNeutral, 0⟩ := by decide +kernel
  unfold programmaticInit
  rw [if_neg (by omega), this]
  rfl

/-- C232: for any number of nodes, any probability, any random numbers and any shuffles: after `k` steps the agents have used exactly `n·k` random
numbers, the first ones of the sequence; the counters add up to the number of those that are less than the probability; no counter is greater than
the number of steps; and all the agents are still in the state `neutral`. -/
theorem C232_counts (p : Rat) (src : Nat → Rat) (σ : Nat → List Ref → List Ref) (hσ : ∀ n l, (σ n l).Perm l) (n : Nat) (hn : 0 < n) (iv : Rat)
    (hiv : 0 < iv) (sh : Bool) (w0 : PrWorld) (h0 : programmaticInit n = some w0) (k : Nat) :
    let w := (iterStep (timedStepper (myAgentHost p src σ hσ)) k (roundsStart n iv sh w0)).2
    w.agents.length = n ∧ w.used = (List.range (n * k)).map src ∧
    (w.agents.map (·.timesRun)).sum = ((List.range (n * k)).map src).countP (fun u => decide (u < p)) ∧
    ∀ a ∈ w.agents, a.timesRun ≤ k ∧ a.state = some pNeutral := by
  rw [programmaticInit_eq n hn] at h0
  obtain rfl := Option.some.inj h0
  have hI0 : NeutralOk n ⟨List.replicate n ⟨some pNeutral, 0⟩, 0, 0, []⟩ := by
    refine ⟨by simp, fun a ha => ?_⟩
    rw [List.eq_of_mem_replicate ha]
  obtain ⟨ms, e0, h2, h3⟩ := mesa_iter hn hiv (myAgent_mesa p src σ hσ n iv) sh _ hI0
  have main : ∀ k, DrawsOk p src (ms k).world ∧ (ms k).world.pos = n * k ∧ ∀ a ∈ (ms k).world.agents, a.timesRun ≤ k := by
    intro k
    induction k with
    | zero =>
      rw [e0]
      refine ⟨⟨rfl, by simp⟩, rfl, fun a ha => ?_⟩
      rw [List.eq_of_mem_replicate ha]
    | succ k ih =>
      obtain ⟨hk, hrel, -⟩ := h3 k
      have hr := h2 k
      have hex : ∃ (l : List Ref) (w1 : PrWorld), l.Perm (List.range n) ∧ w1.agents = (ms k).world.agents ∧ w1.pos = (ms k).world.pos ∧ DrawsOk p src w1 ∧
          NeutralOk n w1 ∧ (ms (k + 1)).world = l.foldl (fun w r => myAgentAct p src r (ms k).time (ms k).steps (ms k).agents w) w1 := by
        unfold MesaRound at hr
        split at hr
        · obtain ⟨l, hl, he⟩ := hr
          rw [hrel.magents] at hl
          exact ⟨_, { (ms k).world with rng := (ms k).world.rng + 1 }, (hσ (ms k).world.rng l).trans hl, rfl, rfl, ⟨ih.1.used, ih.1.total⟩, hrel.inv,
            by rw [he]; rfl⟩
        · rw [hr]
          exact ⟨List.range n, (ms k).world, List.Perm.refl _, rfl, rfl, ih.1, hrel.inv, by rw [mesaStep]; simp only; rw [hrel.magents]⟩
      obtain ⟨l, w1, hl, hw1, hp1, hd1, hI1, he⟩ := hex
      have hmem : ∀ r ∈ l, r < n := fun r hr => List.mem_range.1 (hl.subset hr)
      obtain ⟨g1, g2, g3⟩ := myAgent_fold p src n (ms k).time (ms k).steps (ms k).agents l hmem w1 hI1 hd1
      rw [← he] at g1 g2 g3
      refine ⟨g1, ?_, ?_⟩
      · rw [g2, hp1, ih.2.1, hl.length_eq, List.length_range]
        ring
      · intro a ha
        obtain ⟨j, hj⟩ := List.mem_iff_getElem?.1 ha
        have hlt : j < w1.agents.length := by
          have h1 := (List.getElem?_eq_some_iff.1 hj).1
          rw [(h3 (k + 1)).2.1.inv.1] at h1
          rw [hI1.1]
          exact h1
        obtain ⟨a', f1, -, f3⟩ := g3 j w1.agents[j] (by simp [hlt])
        rw [hj] at f1
        obtain rfl := Option.some.inj f1
        have hc : l.count j ≤ 1 := by
          rw [hl.count_eq]
          exact List.nodup_iff_count_le_one.1 List.nodup_range j
        have := ih.2.2 w1.agents[j] (by rw [← hw1]; exact List.getElem_mem hlt)
        omega
  intro w
  have hw : w = (ms k).world := (h3 k).2.1.world
  obtain ⟨m1, m2, m3⟩ := main k
  rw [hw]
  have hu := m1.used
  rw [m2] at hu
  refine ⟨(h3 k).2.1.inv.1, hu, ?_, fun a ha => ⟨m3 a ha, (h3 k).2.1.inv.2 a ha⟩⟩
  rw [m1.total, hu]

/-- C232: with `max_time` a natural number (100 in the example) and the default interval, the simulation returns after exactly that number of steps. -/
theorem C232_ends (p : Rat) (src : Nat → Rat) (σ : Nat → List Ref → List Ref) (hσ : ∀ n l, (σ n l).Perm l) (n : Nat) (hn : 0 < n) (sh : Bool)
    (w0 : PrWorld) (h0 : programmaticInit n = some w0) (maxTime fuel : Nat) (hf : maxTime ≤ fuel) :
    runModel (timedStepper (myAgentHost p src σ hσ)) (some (.fin maxTime)) none fuel (roundsStart n 1 sh w0) =
      .done (iterStep (timedStepper (myAgentHost p src σ hσ)) maxTime (roundsStart n 1 sh w0)) := by
  rw [programmaticInit_eq n hn] at h0
  obtain rfl := Option.some.inj h0
  have hI0 : NeutralOk n ⟨List.replicate n ⟨some pNeutral, 0⟩, 0, 0, []⟩ := by
    refine ⟨by simp, fun a ha => ?_⟩
    rw [List.eq_of_mem_replicate ha]
  refine (C230_ends_partial _ n hn 1 (by norm_num) _ _ (myAgent_mesa p src σ hσ n 1) sh _ hI0 fuel maxTime hf).2 _ (by simp) ?_
  intro i hi
  simpa using hi

/-- The average of a number that depends on one of `L` independent draws. -/
theorem sum_over_draws (L N : Nat) (g : Fin N → Nat) (i : Fin L) :
    ∑ f : Fin L → Fin N, g (f i) = N ^ (L - 1) * ∑ v, g v := by
  have h := Finset.prod_univ_sum (ι := Fin L) (R := Nat) (κ := fun _ => Fin N) (fun _ => Finset.univ) (fun j v => if j = i then g v else 1)
  have e1 : ∏ j : Fin L, ∑ v : Fin N, (if j = i then g v else 1) = N ^ (L - 1) * ∑ v, g v := by
    rw [← Finset.mul_prod_erase Finset.univ _ (Finset.mem_univ i)]
    have : ∏ j ∈ Finset.univ.erase i, ∑ v : Fin N, (if j = i then g v else 1) = N ^ (L - 1) := by
      rw [Finset.prod_congr rfl (g := fun _ => N)]
      · simp
      · intro j hj
        simp [Finset.ne_of_mem_erase hj]
    rw [this]
    simp [mul_comm]
  rw [← e1, h]
  rw [Fintype.piFinset_univ]
  apply Finset.sum_congr rfl
  intro f _
  rw [Finset.prod_ite_eq']
  simp

theorem countP_range_fin (L : Nat) (P : Nat → Bool) : (List.range L).countP P = ∑ i : Fin L, if P i.val = true then 1 else 0 := by
  induction L with
  | zero => rfl
  | succ L ih =>
    rw [List.range_succ, List.countP_append, ih, Fin.sum_univ_castSucc]
    simp [List.countP_cons]

theorem sum_lt_fin (N c : Nat) (hc : c ≤ N) : ∑ v : Fin N, (if v.val < c then 1 else 0) = c := by
  rw [Fin.sum_univ_eq_sum_range (fun i => if i < c then 1 else 0) N, ← Finset.card_filter]
  have : (Finset.range N).filter (fun i => i < c) = Finset.range c := by
    ext i
    simp
    omega
  rw [this, Finset.card_range]

/-- C232, "this runs 2/10 times on average" (examples/programmatic/programmatic_sim.py:26): let the random numbers be independent and uniform, that is, the
`n·k` numbers used take each of the `N` values `0, 1/N, …, (N-1)/N` equally often over all the `N^(n·k)` sequences, and let the probability be `c/N`. Then
the counters, summed over all the sequences, are `n·k·c·N^(n·k-1)`: on average a fraction of exactly `c/N` of the activations. -/
theorem C232_average (N c : Nat) (hc : c ≤ N) (hN : 0 < N) (σ : Nat → List Ref → List Ref) (hσ : ∀ n l, (σ n l).Perm l) (n : Nat) (hn : 0 < n) (iv : Rat)
    (hiv : 0 < iv) (sh : Bool) (w0 : PrWorld) (h0 : programmaticInit n = some w0) (k : Nat) :
    ∑ f : Fin (n * k) → Fin N,
      ((iterStep (timedStepper (myAgentHost (c / N) (fun i => if h : i < n * k then ((f ⟨i, h⟩).val : Rat) / N else 0) σ hσ)) k
        (roundsStart n iv sh w0)).2.agents.map (·.timesRun)).sum = n * k * (c * N ^ (n * k - 1)) := by
  have each : ∀ f : Fin (n * k) → Fin N,
      ((iterStep (timedStepper (myAgentHost (c / N) (fun i => if h : i < n * k then ((f ⟨i, h⟩).val : Rat) / N else 0) σ hσ)) k
        (roundsStart n iv sh w0)).2.agents.map (·.timesRun)).sum = ∑ i : Fin (n * k), if (f i).val < c then 1 else 0 := by
    intro f
    obtain ⟨-, -, h3, -⟩ := C232_counts (c / N) (fun i => if h : i < n * k then ((f ⟨i, h⟩).val : Rat) / N else 0) σ hσ n hn iv hiv sh w0 h0 k
    rw [h3]
    have hNpos : (0 : Rat) < N := by exact_mod_cast hN
    rw [List.countP_map, countP_range_fin]
    apply Finset.sum_congr rfl
    intro i _
    have hdiv : ((f i).val : Rat) / N < c / N ↔ (f i).val < c := by
      rw [div_lt_div_iff_of_pos_right hNpos]
      exact_mod_cast Iff.rfl
    simp only [Function.comp, i.isLt, dite_true, Fin.eta, hdiv, decide_eq_true_eq]
  rw [Finset.sum_congr rfl (fun f _ => each f), Finset.sum_comm]
  have : ∀ i : Fin (n * k), ∑ f : Fin (n * k) → Fin N, (if (f i).val < c then 1 else 0) = c * N ^ (n * k - 1) := by
    intro i
    rw [sum_over_draws (n * k) N (fun v => if v.val < c then 1 else 0) i]
    rw [sum_lt_fin N c hc, mul_comm]
  rw [Finset.sum_congr rfl (fun i _ => this i)]
  simp

/-- A source of random numbers: 0, 1/10, …, 9/10, 0, … -/
def tenths (i : Nat) : Rat := ((i % 10 : Nat) : Rat) / 10

set_option maxRecDepth 100000 in
/-- The example with two nodes: after 100 steps, 40 of the 200 numbers were less than 0.2; in this sequence and order, all of them were drawn by the
agents alternately. -/
example : ∃ w0, programmaticInit 2 = some w0 ∧
    (iterStep (timedStepper (myAgentHost (1/5) tenths (fun _ l => l) (fun _ l => List.Perm.refl l))) 100 (roundsStart 2 1 true w0)).2.agents =
      [⟨some pNeutral, 20⟩, ⟨some pNeutral, 20⟩] :=
  ⟨⟨List.replicate 2 ⟨some pNeutral, 0⟩, 0, 0, []⟩, by decide +kernel, by decide +kernel⟩

/-- An empty network does not pass the assertion. -/
example : programmaticInit 0 = none := rfl

end Verif
