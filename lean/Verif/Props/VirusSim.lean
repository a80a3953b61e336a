import Verif.Proofs.VirusSim

/-!
# C223: whole simulations of the virus on a network
-/

namespace Verif
open Spec

theorem virusAfter_succ {S : Type} (H : Host (VWorld S)) (sh : Bool) (st : List S) (k : Nat) :
    virusAfter H sh st (k + 1) = (((virusAfter H sh st k).1.step H (virusAfter H sh st k).2).1,
      ((virusAfter H sh st k).1.step H (virusAfter H sh st k).2).2.1) := by
  simp only [virusAfter, List.replicate_succ', execAll, List.foldl_append, List.foldl_cons, List.foldl_nil]
  rfl

private theorem live_all {st : List VStat} (h0 : ∀ (j : Nat), st[j]? ≠ some .resistant) : live st = List.range st.length := by
  simp [live, isLive, h0]

private theorem virusStart_at (P : VirusParams) (adj : Nat → List Nat) (src : VSource) (sh : Bool) (st : List VStat)
    (h0 : ∀ (j : Nat), st[j]? ≠ some .resistant) :
    VirusAt 0 (List.range st.length) (virusStart (virusHost P adj src) sh st) ∧
    (virusStart (virusHost P adj src) sh st).2 = .init st ∧
    (∀ r, r ∈ (virusStart (virusHost P adj src) sh st).1.agents ↔ r < st.length) := by
  obtain ⟨s', he, h1, h2, h3, h4, h5, h6, h7, h8⟩ := exec_adds (virusHost P adj src) (List.range st.length) [] (Sched.init 1 sh) (.init st) rfl
    (by simp [bucketOf, Sched.init])
  rw [virusStart, he]
  refine ⟨⟨⟨h4, by rw [h1]; simp, fun _ => by rw [h2]; rfl, fun _ => h3⟩, ?_, h6, by rw [h3]; exact Nat.le_refl _, ?_⟩, rfl, ?_⟩
  · rw [show (VWorld.init st).st = st from rfl, live_all h0]
  · rw [h7]
    simp [VWorld.init, Sched.init, actRefs]
  · intro r
    rw [h8]
    simp [Sched.init]

private theorem virusAfter_at (P : VirusParams) (adj : Nat → List Nat) (src : VSource) (sh : Bool) (st : List VStat)
    (h0 : ∀ (j : Nat), st[j]? ≠ some .resistant) : ∀ k,
    ∃ l, VirusAt k l (virusAfter (virusHost P adj src) sh st k) ∧
      (virusAfter (virusHost P adj src) sh st k).2.st = soilVirusRun P adj st (virusAfter (virusHost P adj src) sh st k).2.hist ∧
      (virusAfter (virusHost P adj src) sh st k).2.st.length = st.length ∧
      (∀ r, r ∈ (virusAfter (virusHost P adj src) sh st k).1.agents ↔ r < st.length)
  | 0 => by
    obtain ⟨h1, h2, h3⟩ := virusStart_at P adj src sh st h0
    refine ⟨_, h1, ?_, ?_, h3⟩
    · change (virusStart _ sh st).2.st = soilVirusRun P adj st (virusStart _ sh st).2.hist
      rw [h2]
      rfl
    · change (virusStart _ sh st).2.st.length = _
      rw [h2]
      rfl
  | k + 1 => by
    obtain ⟨l, h1, h2, h3, h4⟩ := virusAfter_at P adj src sh st h0 k
    rw [virusAfter_succ]
    by_cases hl : l = []
    · subst hl
      rw [step_empty _ k _ _ h1.at_]
      exact ⟨[], ⟨⟨h1.at_.interval, by rw [h1.at_.queue]; simp [bucketOf], fun h => absurd rfl h, fun h => absurd rfl h⟩, h1.perm, h1.running,
        Nat.le_succ_of_le h1.steps, h1.hist⟩, h2, h3, h4⟩
    · obtain ⟨l', new, acts, g1, g2, g3, g4, g5, g6, g7, g8, g9, g10, g11⟩ := h1.step (P := P) (adj := adj) (src := src) hl
      refine ⟨l', g1, ?_, g11.trans h3, fun r => by simp only [g4]; exact h4 r⟩
      simp only [g10, g8, h2]
      simp [soilVirusRun, List.foldl_append]

/-- C223: in the benchmark, as long as somebody is not resistant, the `k`-th step of the environment activates exactly the agents that are
not resistant, each of them once, at time `k`; whatever the shuffles and the random numbers. The clock and the counter of steps say `k`. -/
theorem C223_activations (P : VirusParams) (adj : Nat → List Nat) (src : VSource) (sh : Bool) (st : List VStat)
    (h0 : ∀ (j : Nat), st[j]? ≠ some .resistant) (k : Nat) (hk : ∃ (j : Nat), j < st.length ∧
      (virusAfter (virusHost P adj src) sh st k).2.st[j]? ≠ some .resistant) :
    (virusAfter (virusHost P adj src) sh st k).1.time = .fin (k : Rat) ∧ (virusAfter (virusHost P adj src) sh st k).1.steps = k ∧
    ∃ new, (virusAfter (virusHost P adj src) sh st (k + 1)).1.log = (virusAfter (virusHost P adj src) sh st k).1.log ++ new ∧
      (∀ e ∈ new, e.time = .fin (k : Rat) ∧ e.isAct = true) ∧ (actRefs new).Nodup ∧
      ∀ r, r ∈ actRefs new ↔ r < st.length ∧ (virusAfter (virusHost P adj src) sh st k).2.st[r]? ≠ some .resistant := by
  obtain ⟨l, h1, _, h3, _⟩ := virusAfter_at P adj src sh st h0 k
  have hl : l ≠ [] := by
    obtain ⟨j, hj, hr⟩ := hk
    have := h1.perm.mem_iff.2 (mem_live.2 ⟨by rw [h3]; exact hj, hr⟩)
    exact List.ne_nil_of_mem this
  obtain ⟨l', new, acts, g1, g2, g3, g4, g5, g6, g7, g8, g9, g10, g11⟩ := h1.step (P := P) (adj := adj) (src := src) hl
  refine ⟨h1.at_.time hl, h1.at_.steps hl, new, ?_, g7, ?_, ?_⟩
  · rw [virusAfter_succ, g5]
  · exact g6.nodup_iff.2 (h1.perm.nodup_iff.2 (live_nodup _))
  · intro r
    rw [g6.mem_iff, h1.perm.mem_iff, mem_live, h3]

/-- C223: the statuses after any number of steps are those that the activations recorded in the log of the scheduler give one after the
other (see C127); and the three numbers reported add up to the number of agents. -/
theorem C223_total (P : VirusParams) (adj : Nat → List Nat) (src : VSource) (sh : Bool) (st : List VStat)
    (h0 : ∀ (j : Nat), st[j]? ≠ some .resistant) (k : Nat) :
    let x := virusAfter (virusHost P adj src) sh st k
    (∃ h, h.map (·.1) = actRefs x.1.log ∧ x.2.st = soilVirusRun P adj st h) ∧
    numberIn .susceptible x.2.st + numberIn .infected x.2.st + numberIn .resistant x.2.st = st.length := by
  obtain ⟨l, h1, h2, h3, _⟩ := virusAfter_at P adj src sh st h0 k
  refine ⟨⟨_, h1.hist, h2⟩, ?_⟩
  rw [h2]
  exact C127_total P adj st _

/-- mesa's version does nothing with resistant agents. -/
private theorem mesa_idle (P : VirusParams) (adj : Nat → List Nat) (st : List VStat) : ∀ (l : List (Nat × (Nat → Rat))),
    (∀ e ∈ l, st[e.1]? = some .resistant) → mesaVirusRun P adj st l = st
  | [], _ => rfl
  | e :: l, h => by
    have he := C128_resistant_idle P adj st e.1 e.2 (h e (by simp))
    have := mesa_idle P adj st l (fun e he => h e (by simp [he]))
    simp only [mesaVirusRun, List.foldl_cons, he] at this ⊢
    exact this

/-- C223 with C128: for a whole simulation of `soil_step.py`, whatever the shuffles and the random numbers, mesa's version has a run with the same statuses
after every step, in which every step activates every agent once (also the resistant ones, which do nothing). -/
theorem C223_mesa (P : VirusParams) (adj : Nat → List Nat) (src : VSource) (sh : Bool) (st : List VStat)
    (h0 : ∀ (j : Nat), st[j]? ≠ some .resistant) (k : Nat) :
    ∃ orders : List (List (Nat × (Nat → Rat))), orders.length = k ∧ (∀ o ∈ orders, (o.map (·.1)).Perm (List.range st.length)) ∧
      ∀ i ≤ k, (virusAfter (virusHost P adj src) sh st i).2.st = (orders.take i).foldl (mesaRound P adj) st := by
  induction k with
  | zero =>
    refine ⟨[], rfl, by simp, fun i hi => ?_⟩
    obtain rfl : i = 0 := by omega
    change (virusStart _ sh st).2.st = _
    rw [(virusStart_at P adj src sh st h0).2.1]
    rfl
  | succ k ih =>
    obtain ⟨orders, o1, o2, o3⟩ := ih
    suffices hs : ∃ o : List (Nat × (Nat → Rat)), (o.map (·.1)).Perm (List.range st.length) ∧
        (virusAfter (virusHost P adj src) sh st (k + 1)).2.st = mesaRound P adj (virusAfter (virusHost P adj src) sh st k).2.st o by
      obtain ⟨o, p1, p2⟩ := hs
      refine ⟨orders ++ [o], by simp [o1], ?_, ?_⟩
      · intro q hq
        rcases List.mem_append.1 hq with hq | hq
        · exact o2 q hq
        · rw [List.mem_singleton.1 hq]; exact p1
      · intro i hi
        rcases Nat.lt_or_ge i (k + 1) with h | h
        · rw [List.take_append_of_le_length (by omega)]
          exact o3 i (by omega)
        · obtain rfl : i = k + 1 := by omega
          rw [List.take_of_length_le (by simp [o1]), List.foldl_append, p2, o3 k (Nat.le_refl k), List.take_of_length_le (by omega)]
          rfl
    obtain ⟨l, h1, _, h3, _⟩ := virusAfter_at P adj src sh st h0 k
    rw [virusAfter_succ]
    generalize virusAfter (virusHost P adj src) sh st k = x at *
    have hrest : ∀ (acts : List (Nat × (Nat → Rat))), (acts.map Prod.fst).Perm l →
        ((acts ++ ((List.range st.length).filter (fun r => !isLive x.2.st r)).map (fun r => (r, fun _ => 0))).map Prod.fst).Perm
          (List.range st.length) := by
      intro acts ha
      rw [List.map_append, List.map_map, show (Prod.fst ∘ fun r : Nat => (r, fun _ : Nat => (0 : Rat))) = id from rfl, List.map_id]
      refine (((ha.trans h1.perm).append_right _).trans ?_)
      rw [live, h3]
      exact List.filter_append_perm _ _
    have hidle : ∀ st' : List VStat, (∀ (j : Nat), x.2.st[j]? = some .resistant → st'[j]? = some .resistant) →
        mesaVirusRun P adj st' (((List.range st.length).filter (fun r => !isLive x.2.st r)).map (fun r => (r, fun _ => 0))) = st' := by
      intro st' hst
      refine mesa_idle P adj st' _ ?_
      intro e he
      obtain ⟨r, hr, rfl⟩ := List.mem_map.1 he
      have := (List.mem_filter.1 hr).2
      refine hst r ?_
      simpa [isLive] using this
    by_cases hl : l = []
    · subst hl
      refine ⟨_, hrest [] (List.Perm.refl _), ?_⟩
      rw [step_empty _ k _ _ h1.at_]
      exact (hidle x.2.st (fun _ h => h)).symm
    · obtain ⟨l', new, acts, g1, g2, g3, g4, g5, g6, g7, g8, g9, g10, g11⟩ := h1.step (P := P) (adj := adj) (src := src) hl
      refine ⟨_, hrest acts (by rw [show List.map Prod.fst acts = actRefs new from g9]; exact g6), ?_⟩
      simp only [g10, mesaRound]
      have hrun : ∀ a b : List (Nat × (Nat → Rat)), mesaVirusRun P adj x.2.st (a ++ b) = mesaVirusRun P adj (mesaVirusRun P adj x.2.st a) b :=
        fun a b => List.foldl_append
      rw [hrun, ← C128_step_partial P adj x.2.st acts, hidle _ (fun j hj => C127_resistant P adj x.2.st acts j hj)]

private theorem isDone_steps {S : Type} (st : Stepper S) (m : Nat) (s : S) (hr : st.running s = true) :
    isDone st none (some m) s = decide (m ≤ st.steps s) := by
  simp [isDone, hr]

private theorem virusLoop (P : VirusParams) (adj : Nat → List Nat) (src : VSource) (sh : Bool) (st : List VStat)
    (h0 : ∀ (j : Nat), st[j]? ≠ some .resistant) (m : Nat) : ∀ (fuel k : Nat), k ≤ m → m - k ≤ fuel →
    (∀ i < m, ∃ (j : Nat), j < st.length ∧ (virusAfter (virusHost P adj src) sh st i).2.st[j]? ≠ some .resistant) →
    (virusAfter (virusHost P adj src) sh st k).1.steps = k →
    runLoop (timedStepper (virusHost P adj src)) none (some m) fuel (virusAfter (virusHost P adj src) sh st k) =
      .done (virusAfter (virusHost P adj src) sh st m) ∧ (virusAfter (virusHost P adj src) sh st m).1.steps = m := by
  intro fuel
  induction fuel with
  | zero =>
    intro k hk hf hlive hs
    obtain rfl : k = m := by omega
    obtain ⟨l, h1, _⟩ := virusAfter_at P adj src sh st h0 k
    rw [runLoop, isDone_steps _ _ _ h1.running]
    simp [timedStepper, hs]
  | succ fuel ih =>
    intro k hk hf hlive hs
    obtain ⟨l, h1, _, h3, _⟩ := virusAfter_at P adj src sh st h0 k
    rw [runLoop, isDone_steps _ _ _ h1.running]
    rcases Nat.lt_or_ge k m with hlt | hge
    · have hl : l ≠ [] := by
        obtain ⟨j, hj, hr⟩ := hlive k hlt
        exact List.ne_nil_of_mem (h1.perm.mem_iff.2 (mem_live.2 ⟨by rw [h3]; exact hj, hr⟩))
      obtain ⟨l', new, acts, g1, g2, g3, _⟩ := h1.step (P := P) (adj := adj) (src := src) hl
      have hn : ¬ m ≤ k := by omega
      have hsucc := virusAfter_succ (virusHost P adj src) sh st k
      simp only [timedStepper, hs, hn, decide_false, Bool.false_eq_true, if_false, g2, ← hsucc]
      have := ih (k + 1) hlt (by omega) hlive (by rw [hsucc]; simp only; rw [g3, hs])
      simpa [timedStepper] using this
    · obtain rfl : k = m := by omega
      simp [timedStepper, hs]

/-- C223 (partial: if somebody is not resistant before each of the steps): the benchmark stops after exactly the number of steps asked for, as
it asserts in the end. -/
theorem C223_steps_partial (P : VirusParams) (adj : Nat → List Nat) (src : VSource) (sh : Bool) (st : List VStat)
    (h0 : ∀ (j : Nat), st[j]? ≠ some .resistant) (m fuel : Nat) (hf : m ≤ fuel) (hne : st ≠ [])
    (hlive : ∀ i < m, ∃ (j : Nat), j < st.length ∧ (virusAfter (virusHost P adj src) sh st i).2.st[j]? ≠ some .resistant) :
    ∃ x, virusSimulation (virusHost P adj src) sh st m fuel = .done x ∧ x.1.steps = m ∧
      x = virusAfter (virusHost P adj src) sh st m := by
  obtain ⟨l, h1, _, _, h4⟩ := virusAfter_at P adj src sh st h0 0
  have hs : (virusAfter (virusHost P adj src) sh st 0).1.steps = 0 := by
    have := h1.steps; omega
  obtain ⟨r1, r2⟩ := virusLoop P adj src sh st h0 m fuel 0 (Nat.zero_le _) (by omega) hlive hs
  have hag : (virusAfter (virusHost P adj src) sh st 0).1.agents.isEmpty = false := by
    cases hc : (virusAfter (virusHost P adj src) sh st 0).1.agents with
    | nil =>
      have := (h4 0).2 (List.length_pos_iff.2 hne)
      rw [hc] at this
      cases this
    | cons a b => rfl
  refine ⟨_, ?_, r2, rfl⟩
  rw [virusSimulation, runModel]
  change (if (virusAfter (virusHost P adj src) sh st 0).1.agents.isEmpty then _ else _) = _
  rw [hag]
  exact r1

/-- C223 is violated as soon as everybody is resistant before the last step: the scheduler has nobody left, its steps are not counted any more and
nothing stops the loop: the benchmark runs for ever, however long we wait. -/
theorem C223_hangs_false (P : VirusParams) (adj : Nat → List Nat) (src : VSource) (sh : Bool) (st : List VStat)
    (h0 : ∀ (j : Nat), st[j]? ≠ some .resistant) (hne : st ≠ []) (m k : Nat) (hk : k < m)
    (hall : ∀ (j : Nat), j < st.length → (virusAfter (virusHost P adj src) sh st k).2.st[j]? = some .resistant) (fuel : Nat) :
    ∃ x, virusSimulation (virusHost P adj src) sh st m fuel = .running x := by
  obtain ⟨l, h1, _, h3, _⟩ := virusAfter_at P adj src sh st h0 k
  have hl : l = [] := by
    refine List.eq_nil_iff_forall_not_mem.2 ?_
    intro r hr
    obtain ⟨a, b⟩ := mem_live.1 (h1.perm.mem_iff.1 hr)
    exact b (hall r (by rw [← h3]; exact a))
  subst hl
  have hstay : ∀ i, virusAfter (virusHost P adj src) sh st (k + i) = virusAfter (virusHost P adj src) sh st k := by
    intro i
    induction i with
    | zero => rfl
    | succ i ih => rw [← Nat.add_assoc, virusAfter_succ, ih, step_empty _ k _ _ h1.at_]
  have hsteps : ∀ i, (virusAfter (virusHost P adj src) sh st i).1.steps < m := by
    intro i
    rcases Nat.lt_or_ge i k with h | h
    · obtain ⟨_, g, _⟩ := virusAfter_at P adj src sh st h0 i
      exact Nat.lt_of_le_of_lt g.steps (by omega)
    · obtain ⟨j, rfl⟩ := Nat.exists_eq_add_of_le h
      rw [hstay]
      exact Nat.lt_of_le_of_lt h1.steps hk
  have hloop : ∀ fuel i, ∃ x, runLoop (timedStepper (virusHost P adj src)) none (some m) fuel (virusAfter (virusHost P adj src) sh st i) = .running x := by
    intro fuel
    induction fuel with
    | zero =>
      intro i
      obtain ⟨_, g, _⟩ := virusAfter_at P adj src sh st h0 i
      rw [runLoop, isDone_steps _ _ _ g.running]
      have hn : ¬ m ≤ (virusAfter (virusHost P adj src) sh st i).1.steps := Nat.not_le.2 (hsteps i)
      simp [timedStepper, hn]
    | succ fuel ih =>
      intro i
      obtain ⟨l, g, _⟩ := virusAfter_at P adj src sh st h0 i
      rw [runLoop, isDone_steps _ _ _ g.running]
      have hn : ¬ m ≤ (virusAfter (virusHost P adj src) sh st i).1.steps := Nat.not_le.2 (hsteps i)
      have hr : ((virusAfter (virusHost P adj src) sh st i).1.step (virusHost P adj src) (virusAfter (virusHost P adj src) sh st i).2).2.2 = false := by
        by_cases hl : l = []
        · subst hl
          rw [step_empty _ i _ _ g.at_]
        · obtain ⟨_, _, _, _, g2, _⟩ := g.step (P := P) (adj := adj) (src := src) hl
          exact g2
      have hsucc := virusAfter_succ (virusHost P adj src) sh st i
      obtain ⟨x, hx⟩ := ih (i + 1)
      refine ⟨x, ?_⟩
      simp only [timedStepper, hn, decide_false, Bool.false_eq_true, if_false, hr, ← hsucc]
      simpa [timedStepper] using hx
  obtain ⟨l0, g1, _, _, g4⟩ := virusAfter_at P adj src sh st h0 0
  have hag : (virusAfter (virusHost P adj src) sh st 0).1.agents.isEmpty = false := by
    cases hc : (virusAfter (virusHost P adj src) sh st 0).1.agents with
    | nil =>
      have := (g4 0).2 (List.length_pos_iff.2 hne)
      rw [hc] at this
      cases this
    | cons a b => rfl
  obtain ⟨x, hx⟩ := hloop fuel 0
  refine ⟨x, ?_⟩
  rw [virusSimulation, runModel]
  change (if (virusAfter (virusHost P adj src) sh st 0).1.agents.isEmpty then _ else _) = _
  rw [hag]
  exact hx

/-! The version with states. -/

private theorem statesRun_resistant (P : VirusParams) (adj : Nat → List Nat) (j : Nat) : ∀ (h : List (Nat × (Nat → Rat))) (st : List VAgent),
    st[j]?.map (·.state) = some .resistant → (statesVirusRun P adj st h)[j]?.map (·.state) = some .resistant
  | [], _, hj => hj
  | e :: h, st, hj => by
    refine statesRun_resistant P adj j h (statesVirusStep P adj st e.1 e.2).1 ?_
    by_cases he : j = e.1
    · subst he
      cases hq : st[e.1]? with
      | none => simp [hq] at hj
      | some q =>
        have hr : q.state = .resistant := by simpa [hq] using hj
        simp [statesVirusStep, hq, hr]
    · rw [(statesStep_state P adj st e.1 e.2).2.2 j he]
      exact hj

private theorem statesStart_at (P : VirusParams) (adj : Nat → List Nat) (src : VSource) (sh : Bool) (st : List VAgent) :
    StatesAt 0 (List.range st.length) (virusStart (virusStatesHost P adj src) sh st) ∧
    (virusStart (virusStatesHost P adj src) sh st).2 = .init st ∧
    (∀ r, r ∈ (virusStart (virusStatesHost P adj src) sh st).1.agents ↔ r < st.length) := by
  obtain ⟨s', he, h1, h2, h3, h4, h5, h6, h7, h8⟩ := exec_adds (virusStatesHost P adj src) (List.range st.length) [] (Sched.init 1 sh) (.init st) rfl
    (by simp [bucketOf, Sched.init])
  rw [virusStart, he]
  refine ⟨⟨⟨h4, by rw [h1]; simp, fun _ => by rw [h2]; rfl, fun _ => h3⟩, List.nodup_range, h6, by rw [h3]; exact Nat.le_refl _, ?_⟩, rfl, ?_⟩
  · rw [h7]
    simp [VWorld.init, Sched.init, actRefs]
  · intro r
    rw [h8]
    simp [Sched.init]

private theorem statesAfter_at (P : VirusParams) (adj : Nat → List Nat) (src : VSource) (sh : Bool) (st : List VAgent) : ∀ k,
    ∃ l, StatesAt k l (virusAfter (virusStatesHost P adj src) sh st k) ∧
      (virusAfter (virusStatesHost P adj src) sh st k).2.st = statesVirusRun P adj st (virusAfter (virusStatesHost P adj src) sh st k).2.hist ∧
      (virusAfter (virusStatesHost P adj src) sh st k).2.st.length = st.length ∧
      (∀ r, r ∈ (virusAfter (virusStatesHost P adj src) sh st k).1.agents ↔ r < st.length) ∧
      (∀ r, r ∈ l → r < st.length) ∧
      (∀ r, r < st.length → inPlay (virusAfter (virusStatesHost P adj src) sh st k).2.st r = true → r ∈ l) ∧
      ∀ i, k = i + 1 → ∀ r, r ∈ l ↔ r < st.length ∧ inPlay (virusAfter (virusStatesHost P adj src) sh st i).2.st r = true
  | 0 => by
    obtain ⟨h1, h2, h3⟩ := statesStart_at P adj src sh st
    refine ⟨_, h1, ?_, ?_, h3, fun r hr => List.mem_range.1 hr, fun r hr _ => List.mem_range.2 hr, fun i hi => by omega⟩
    · change (virusStart _ sh st).2.st = statesVirusRun P adj st (virusStart _ sh st).2.hist
      rw [h2]
      rfl
    · change (virusStart _ sh st).2.st.length = _
      rw [h2]
      rfl
  | k + 1 => by
    obtain ⟨l, h1, h2, h3, h4, h5, h6, _⟩ := statesAfter_at P adj src sh st k
    have hsucc := virusAfter_succ (virusStatesHost P adj src) sh st k
    by_cases hl : l = []
    · subst hl
      rw [step_empty _ k _ _ h1.at_] at hsucc
      rw [hsucc]
      refine ⟨[], ⟨⟨h1.at_.interval, by rw [h1.at_.queue]; simp [bucketOf], fun h => absurd rfl h, fun h => absurd rfl h⟩, h1.nodup, h1.running,
        Nat.le_succ_of_le h1.steps, h1.hist⟩, h2, h3, h4, h5, h6, fun i hi r => ?_⟩
      obtain rfl : i = k := by omega
      exact ⟨fun h => (nomatch h), fun h => h6 r h.1 h.2⟩
    · obtain ⟨l', new, acts, g1, g0, g2, g3, g4, g5, g6, g7, g8, g9, g10, g11⟩ := h1.step (P := P) (adj := adj) (src := src) hl
      have hmem : ∀ r, r ∈ l' ↔ r < st.length ∧ inPlay (virusAfter (virusStatesHost P adj src) sh st k).2.st r = true := by
        intro r
        rw [g0]
        exact ⟨fun h => ⟨h5 r h.1, h.2⟩, fun h => ⟨h6 r h.1 h.2, h.2⟩⟩
      rw [hsucc]
      refine ⟨l', g1, ?_, g11.trans h3, fun r => by simp only [g4]; exact h4 r, fun r hr => ((hmem r).1 hr).1, ?_, ?_⟩
      · simp only [g10, g8, h2]
        simp [statesVirusRun, List.foldl_append]
      · intro r hr hp
        refine (hmem r).2 ⟨hr, ?_⟩
        rw [inPlay, decide_eq_true_eq] at hp ⊢
        intro hc
        refine hp ?_
        simp only [g10]
        exact statesRun_resistant P adj r acts _ hc
      · intro i hi
        obtain rfl : i = k := by omega
        exact hmem

private theorem inPlay_iff {st : List VAgent} {r : Nat} : inPlay st r = true ↔ st[r]?.map (·.state) ≠ some .resistant := by
  rw [inPlay, decide_eq_true_eq]

/-- C223 for the version with states (`soil_states.py`): the first step activates every agent once; every further step activates, once and at
the time that is the number of steps, exactly the agents that were not resistant before the *previous* step, as long as there are such agents: an agent
that becomes resistant is activated once more, and leaves the scheduler in that activation. The states are those that the activations in the log of
the scheduler give one after the other (see C127). -/
theorem C223_states (P : VirusParams) (adj : Nat → List Nat) (src : VSource) (sh : Bool) (st : List VAgent) (k : Nat) :
    let x := virusAfter (virusStatesHost P adj src) sh st
    (∃ h, h.map (·.1) = actRefs (x k).1.log ∧ (x k).2.st = statesVirusRun P adj st h) ∧
    (st ≠ [] → ∃ new, (x 1).1.log = (x 0).1.log ++ new ∧ (actRefs new).Perm (List.range st.length) ∧ ∀ e ∈ new, e.time = 0 ∧ e.isAct = true) ∧
    ((∃ (j : Nat), j < st.length ∧ (x k).2.st[j]?.map (·.state) ≠ some .resistant) →
      (x (k + 1)).1.time = .fin ((k + 1 : Nat) : Rat) ∧ (x (k + 1)).1.steps = k + 1 ∧
      ∃ new, (x (k + 2)).1.log = (x (k + 1)).1.log ++ new ∧ (∀ e ∈ new, e.time = .fin ((k + 1 : Nat) : Rat) ∧ e.isAct = true) ∧ (actRefs new).Nodup ∧
        ∀ r, r ∈ actRefs new ↔ r < st.length ∧ (x k).2.st[r]?.map (·.state) ≠ some .resistant) := by
  intro x
  refine ⟨?_, ?_, ?_⟩
  · obtain ⟨l, h1, h2, _⟩ := statesAfter_at P adj src sh st k
    exact ⟨_, h1.hist, h2⟩
  · intro hne
    obtain ⟨h1, _, _⟩ := statesStart_at P adj src sh st
    obtain ⟨l', new, acts, g1, g0, g2, g3, g4, g5, g6, g7, _⟩ := h1.step (P := P) (adj := adj) (src := src)
      (by simpa using hne)
    refine ⟨new, ?_, g6, ?_⟩
    · change (virusAfter (virusStatesHost P adj src) sh st (0 + 1)).1.log = _
      rw [virusAfter_succ]
      exact g5
    · intro e he
      obtain ⟨a, b⟩ := g7 e he
      exact ⟨a, b⟩
  · rintro ⟨j, hj, hr⟩
    obtain ⟨l, h1, _, h3, _, _, _, h7⟩ := statesAfter_at P adj src sh st (k + 1)
    have hmem := h7 k rfl
    have hl : l ≠ [] := List.ne_nil_of_mem ((hmem j).2 ⟨hj, inPlay_iff.2 hr⟩)
    obtain ⟨l', new, acts, g1, g0, g2, g3, g4, g5, g6, g7, _⟩ := h1.step (P := P) (adj := adj) (src := src) hl
    refine ⟨h1.at_.time hl, h1.at_.steps hl, new, ?_, g7, g6.nodup_iff.2 h1.nodup, ?_⟩
    · change (virusAfter (virusStatesHost P adj src) sh st (k + 1 + 1)).1.log = _
      rw [virusAfter_succ]
      exact g5
    · intro r
      rw [g6.mem_iff, hmem, inPlay_iff]

/-- C223 is violated in the same way by the version with states, one step later. -/
theorem C223_states_hangs_false (P : VirusParams) (adj : Nat → List Nat) (src : VSource) (sh : Bool) (st : List VAgent) (hne : st ≠ [])
    (m k : Nat) (hk : k + 1 < m)
    (hall : ∀ (j : Nat), j < st.length → (virusAfter (virusStatesHost P adj src) sh st k).2.st[j]?.map (·.state) = some .resistant) (fuel : Nat) :
    ∃ x, virusSimulation (virusStatesHost P adj src) sh st m fuel = .running x := by
  obtain ⟨l, h1, _, h3, _, _, _, h7⟩ := statesAfter_at P adj src sh st (k + 1)
  have hl : l = [] := by
    refine List.eq_nil_iff_forall_not_mem.2 ?_
    intro r hr
    obtain ⟨a, b⟩ := (h7 k rfl r).1 hr
    exact (inPlay_iff.1 b) (hall r a)
  subst hl
  have hstay : ∀ i, virusAfter (virusStatesHost P adj src) sh st (k + 1 + i) = virusAfter (virusStatesHost P adj src) sh st (k + 1) := by
    intro i
    induction i with
    | zero => rfl
    | succ i ih => rw [← Nat.add_assoc, virusAfter_succ, ih, step_empty _ (k + 1) _ _ h1.at_]
  have hsteps : ∀ i, (virusAfter (virusStatesHost P adj src) sh st i).1.steps < m := by
    intro i
    rcases Nat.lt_or_ge i (k + 1) with h | h
    · obtain ⟨_, g, _⟩ := statesAfter_at P adj src sh st i
      exact Nat.lt_of_le_of_lt g.steps (by omega)
    · obtain ⟨j, rfl⟩ := Nat.exists_eq_add_of_le h
      rw [hstay]
      exact Nat.lt_of_le_of_lt h1.steps hk
  have hloop : ∀ fuel i, ∃ x, runLoop (timedStepper (virusStatesHost P adj src)) none (some m) fuel
      (virusAfter (virusStatesHost P adj src) sh st i) = .running x := by
    intro fuel
    induction fuel with
    | zero =>
      intro i
      obtain ⟨_, g, _⟩ := statesAfter_at P adj src sh st i
      rw [runLoop, isDone_steps _ _ _ g.running]
      have hn : ¬ m ≤ (virusAfter (virusStatesHost P adj src) sh st i).1.steps := Nat.not_le.2 (hsteps i)
      simp [timedStepper, hn]
    | succ fuel ih =>
      intro i
      obtain ⟨l, g, _⟩ := statesAfter_at P adj src sh st i
      rw [runLoop, isDone_steps _ _ _ g.running]
      have hn : ¬ m ≤ (virusAfter (virusStatesHost P adj src) sh st i).1.steps := Nat.not_le.2 (hsteps i)
      have hr : ((virusAfter (virusStatesHost P adj src) sh st i).1.step (virusStatesHost P adj src)
          (virusAfter (virusStatesHost P adj src) sh st i).2).2.2 = false := by
        by_cases hl : l = []
        · subst hl
          rw [step_empty _ i _ _ g.at_]
        · obtain ⟨_, _, _, _, _, g2, _⟩ := g.step (P := P) (adj := adj) (src := src) hl
          exact g2
      have hsucc := virusAfter_succ (virusStatesHost P adj src) sh st i
      obtain ⟨x, hx⟩ := ih (i + 1)
      refine ⟨x, ?_⟩
      simp only [timedStepper, hn, decide_false, Bool.false_eq_true, if_false, hr, ← hsucc]
      simpa [timedStepper] using hx
  obtain ⟨l0, g1, _, _, g4, _⟩ := statesAfter_at P adj src sh st 0
  have hag : (virusAfter (virusStatesHost P adj src) sh st 0).1.agents.isEmpty = false := by
    cases hc : (virusAfter (virusStatesHost P adj src) sh st 0).1.agents with
    | nil =>
      have := (g4 0).2 (List.length_pos_iff.2 hne)
      rw [hc] at this
      cases this
    | cons a b => rfl
  obtain ⟨x, hx⟩ := hloop fuel 0
  refine ⟨x, ?_⟩
  rw [virusSimulation, runModel]
  change (if (virusAfter (virusStatesHost P adj src) sh st 0).1.agents.isEmpty then _ else _) = _
  rw [hag]
  exact hx

/-! Examples: three agents in a row, of which the middle one is infected in the beginning; always the same random number; the "shuffle" reverses. -/

/-- The same random number over and over. -/
private def exSource (q : Rat) : VSource where
  draws _ _ := q
  perm _ l := l.reverse
  perm_ok _ l := List.reverse_perm l

/-- Three agents in a row. -/
private def exRow : Nat → List Nat
  | 0 => [1]
  | 1 => [0, 2]
  | 2 => [1]
  | _ => []

private def exVirusParams : VirusParams := ⟨1 / 2, 1 / 4, 1 / 4, 1 / 4⟩

set_option maxRecDepth 100000 in
example : (virusAfter (virusHost exVirusParams exRow (exSource (1 / 3))) true [.susceptible, .infected, .susceptible] 3).2.st =
      [.infected, .infected, .infected] ∧
    (virusAfter (virusHost exVirusParams exRow (exSource (1 / 3))) true [.susceptible, .infected, .susceptible] 3).1.time = 3 := by decide +kernel

set_option maxRecDepth 100000 in
/-- With small numbers everybody is resistant after two steps: the condition of `C223_hangs_false` for any larger number of steps. -/
example : (virusAfter (virusHost exVirusParams exRow (exSource (1 / 5))) true [.susceptible, .infected, .susceptible] 2).2.st =
      [.resistant, .resistant, .resistant] ∧
    (virusAfter (virusHost exVirusParams exRow (exSource (1 / 5))) true [.susceptible, .infected, .susceptible] 2).1.time = .inf ∧
    actRefs (virusAfter (virusHost exVirusParams exRow (exSource (1 / 5))) true [.susceptible, .infected, .susceptible] 5).1.log = [2, 1, 0, 2] := by
  decide +kernel

set_option maxRecDepth 100000 in
/-- The states with the same numbers: everybody is resistant after three steps, and each agent is activated once more after that. -/
example : (virusAfter (virusStatesHost exVirusParams exRow (exSource (1 / 5))) true [⟨.susceptible, false⟩, ⟨.infected, false⟩, ⟨.susceptible, false⟩] 3).2.st.map
      (·.state) = [.resistant, .resistant, .resistant] ∧
    actRefs (virusAfter (virusStatesHost exVirusParams exRow (exSource (1 / 5))) true
      [⟨.susceptible, false⟩, ⟨.infected, false⟩, ⟨.susceptible, false⟩] 6).1.log = [2, 1, 0, 0, 1, 2, 2, 0, 2] := by
  decide +kernel

end Verif
