import Verif.Proofs.Simulation
import Verif.Props.RunLoop

/-!
# Properties of simulations: limits, parameters, seeds, results, exporters, deferred runs (C20, C49-C56)
-/

namespace Verif

/-! ### C20: limits on the command line -/

/-- What the user expects: the option if given, else the value in the simulation. -/
def expectedLimit (flag own : Option Rat) : Option Rat :=
  match flag with
  | some f => some f
  | none => own

/-- The user code neither raises nor stops the model. -/
def Eternal {W : Type} (H : Host W) : Prop :=
  ∀ r s w, (H.step r s w).1 ≠ .error ∧ SOp.stop ∉ (H.step r s w).2.1

theorem applyOps_running (s : Sched) (os : List SOp) (h : SOp.stop ∉ os) :
    (s.applyOps os).running = s.running := by
  unfold Sched.applyOps
  induction os generalizing s with
  | nil => rfl
  | cons o os ih =>
    rw [List.foldl_cons, ih _ (fun hm => h (by simp [hm]))]
    cases o with
    | add r w => rfl
    | remove r => rfl
    | stop => exact absurd (by simp) h

theorem runBucket_eternal {W : Type} {H : Host W} (hH : Eternal H) (now : Time) (b : List Ref) (s : Sched)
    (w : W) : (runBucket H now b s w).1.running = s.running ∧ (runBucket H now b s w).2.2 = false := by
  induction b generalizing s w with
  | nil => exact ⟨rfl, rfl⟩
  | cons r b ih =>
    obtain ⟨h1, h2⟩ := hH r s w
    have hr := applyOps_running s _ h2
    simp only [runBucket]
    split
    · rename_i he; exact absurd he h1
    · refine ⟨(ih _ _).1.trans hr, (ih _ _).2⟩
    · refine ⟨(ih _ _).1.trans ?_, (ih _ _).2⟩
      split
      · exact hr
      · exact hr

theorem step_eternal {W : Type} {H : Host W} (hH : Eternal H) (s : Sched) (w : W) :
    (s.step H w).1.running = s.running ∧ (s.step H w).2.2 = false := by
  unfold Sched.step
  split
  · exact ⟨rfl, rfl⟩
  · split
    · exact ⟨rfl, rfl⟩
    · rename_i t b q _ _
      obtain ⟨h1, h2⟩ := runBucket_eternal hH s.time (runOrder H s b w).1 { s with queue := q } (runOrder H s b w).2
      simp only [finishStep, h2, Bool.false_eq_true, if_false]
      exact ⟨h1, trivial⟩

/-- C20 is violated: whatever limits a simulation has, when it is run through the command line without
`--max_time` and `--max_steps` the run of every model that does not stop by itself never returns. -/
theorem C20_cli_drops_limits_false {W : Type} (H : Host W) (hH : Eternal H) (s : Sim) (sw : Sched × W)
    (hr : sw.1.running = true) (ha : sw.1.agents ≠ []) (fuel : Nat) :
    ∃ sw', (cliSim s ⟨none, none⟩).runEnv (timedStepper H) fuel sw = .running sw' := by
  refine ⟨iterStep (timedStepper H) fuel sw, ?_⟩
  unfold Sim.runEnv runModel
  rw [if_neg (by simpa [timedStepper] using ha)]
  apply runLoop_running
  have hrun : ∀ m, (iterStep (timedStepper H) m sw).1.running = true := by
    intro m
    induction m with
    | zero => exact hr
    | succ m ih =>
      rw [iterStep_succ]
      exact (step_eternal hH _ _).1.trans ih
  intro m _
  refine ⟨?_, ?_⟩
  · have h1 : (timedStepper H).running (iterStep (timedStepper H) m sw) = true := hrun m
    simp [isDone, cliSim, h1]
  · exact (step_eternal hH _ _).2

/-- An agent that acts once per time unit for ever. -/
def tickHost : Host Unit where
  step _ _ _ := (.ret none, [], ())
  shuffle l _ := (l, ())
  shuffle_perm l _ := List.Perm.refl l

/-- The witness: with `max_time=3` the simulation returns at time 3 when run from Python; run through the
command line it never returns. -/
theorem C20_witness_false : ∃ (H : Host Unit) (s : Sim) (h : List (Cmd Unit)),
    (s.runEnv (timedStepper H) 10 (reach H 1 true () h)).returned (fun sw => decide (sw.1.time = 3)) = true ∧
    ∀ fuel, ∃ sw, (cliSim s ⟨none, none⟩).runEnv (timedStepper H) fuel (reach H 1 true () h) = .running sw := by
  refine ⟨tickHost, { maxTime := some 3 }, exPop, by decide +kernel, fun fuel => ?_⟩
  exact C20_cli_drops_limits_false tickHost (fun r s w => by simp [tickHost]) _ _ (by decide +kernel)
    (by decide +kernel) fuel

/-- C20, what holds: a limit is as expected if the option is given or the simulation has no such limit.
Missing: simulations with limits of their own. -/
theorem C20_cli_limits_partial (s : Sim) (a : CliArgs) :
    (a.maxTime.isSome ∨ s.maxTime = none → (cliSim s a).maxTime = expectedLimit a.maxTime s.maxTime) ∧
    (a.maxSteps.isSome ∨ s.maxSteps = none → (cliSim s a).maxSteps = expectedLimit a.maxSteps s.maxSteps) ∧
    { cliSim s a with maxTime := s.maxTime, maxSteps := s.maxSteps } = s := by
  refine ⟨?_, ?_, rfl⟩
  · rcases h : a.maxTime with _ | t
    · simp [cliSim, expectedLimit, h, eq_comm]
    · simp [cliSim, expectedLimit, h]
  · rcases h : a.maxSteps with _ | t
    · simp [cliSim, expectedLimit, h, eq_comm]
    · simp [cliSim, expectedLimit, h]

example : (cliSim { maxTime := some 10, maxSteps := none } ⟨some 5, none⟩).maxTime = some 5 := by
  decide +kernel

/-- C17 for the limit as it is given to a simulation, any number `r` (`steps >= max_steps`): the run ends with the first whole
number of steps that is at least `r`. -/
theorem C17_simulation_max_steps {W : Type} (H : Host W) (s : Sim) (r : Rat) (hr : s.maxSteps = some r) (fuel : Nat)
    (sw0 sw : Sched × W) (h0 : (sw0.1.steps : Rat) < r) (hrun : s.runEnv (timedStepper H) fuel sw0 = .done sw) :
    (sw.1.steps : Rat) < r + 1 ∧
    (sw.1.running = true → (∀ T, s.maxTime = some T → sw.1.time < .fin T) → r ≤ sw.1.steps) := by
  have hpos : 0 < r := lt_of_le_of_lt (Nat.cast_nonneg _) h0
  have hle : r ≤ r.ceil := Rat.le_ceil
  have hlt : (r.ceil : Rat) < r + 1 := Rat.ceil_lt
  have hc : ((r.ceil.toNat : Nat) : Rat) = (r.ceil : Rat) := by
    have h1 : (0 : Int) ≤ r.ceil := by
      have : (0 : Rat) < (r.ceil : Rat) := lt_of_lt_of_le hpos hle
      exact_mod_cast this.le
    have h2 : ((r.ceil.toNat : Nat) : Int) = r.ceil := Int.toNat_of_nonneg h1
    exact_mod_cast congrArg (Int.cast (R := Rat)) h2
  unfold Sim.runEnv at hrun
  rw [hr] at hrun
  have h0' : sw0.1.steps ≤ r.ceil.toNat := by
    have : (sw0.1.steps : Rat) ≤ (r.ceil.toNat : Nat) := by rw [hc]; exact le_trans h0.le hle
    exact_mod_cast this
  obtain ⟨k1, k2⟩ := C17_max_steps_exact H sw0 sw _ _ fuel h0' hrun
  constructor
  · have : (sw.1.steps : Rat) ≤ (r.ceil.toNat : Nat) := by exact_mod_cast k1
    rw [hc] at this
    exact lt_of_le_of_lt this hlt
  · intro hrr ht
    have := k2 hrr (by
      intro T hT
      cases hm : s.maxTime with
      | none => rw [hm] at hT; cases hT
      | some T' => rw [hm] at hT; cases hT; exact ht T' hm)
    rw [this, hc]
    exact hle

example : (Sim.runEnv { maxSteps := some (5 / 2) } (timedStepper tickHost) 9 (reach tickHost 1 true () exPop)).returned
    (fun sw => decide (sw.1.running = true ∧ sw.1.steps = 3)) = true := by
  decide +kernel

/-! ### C49, C50: parameter combinations -/

/-- Specification: `c` assigns to every parameter of the matrix, in order, one of its values. -/
def IsCombination (m : Dict String (List PV)) (c : Params) : Prop :=
  List.Forall₂ (fun kv kl => kv.1 = kl.1 ∧ kv.2 ∈ kl.2) c m

theorem mem_matrixCombos {m : Dict String (List PV)} (hm : Dict.WF m) (c : Params) :
    c ∈ matrixCombos m ↔ IsCombination m c := by
  unfold matrixCombos
  rw [List.mem_map]
  have hlen : ∀ v, v ∈ product (m.map Prod.snd) → v.length = (Dict.keys m).length := by
    intro v hv
    have := (mem_product.1 hv).length_eq
    simpa [Dict.keys] using this
  have key : ∀ (m : Dict String (List PV)) (c : Params), IsCombination m c ↔
      ∃ v, List.Forall₂ (fun a l => a ∈ l) v (m.map Prod.snd) ∧ (m.map Prod.fst).zip v = c := by
    intro m
    induction m with
    | nil =>
      intro c
      simp only [IsCombination, List.forall₂_nil_right_iff, List.map_nil, List.zip_nil_left]
      exact ⟨fun h => ⟨[], rfl, h.symm⟩, fun ⟨_, _, h⟩ => h.symm⟩
    | cons kl m ih =>
      intro c
      constructor
      · intro h
        cases h with
        | @cons kv _ c' _ h1 h2 =>
          obtain ⟨v, hv, hz⟩ := (ih c').1 h2
          refine ⟨kv.2 :: v, List.Forall₂.cons h1.2 hv, ?_⟩
          simp only [List.map_cons, List.zip_cons_cons, hz, ← h1.1]
      · rintro ⟨v, hv, hz⟩
        simp only [List.map_cons] at hv hz
        cases hv with
        | @cons a _ v' _ h1 h2 =>
          subst hz
          exact List.Forall₂.cons ⟨rfl, h1⟩ ((ih _).2 ⟨v', h2, rfl⟩)
  rw [key]
  constructor
  · rintro ⟨v, hv, rfl⟩
    exact ⟨v, mem_product.1 hv, (dictZip_eq hm (hlen v hv)).symm⟩
  · rintro ⟨v, hv, rfl⟩
    have hv' := mem_product.2 hv
    exact ⟨v, hv', dictZip_eq hm (hlen v hv')⟩

/-- C49: a simulation configured only by a matrix runs exactly for the combinations of one value per
parameter, as many times as there are combinations, without repetition if no parameter lists the same
value twice; a simulation with neither parameters nor matrix runs once, without parameters. -/
theorem C49_matrix_product (s : Sim) (hp : s.parameters = []) (hm : Dict.WF s.matrix) :
    (s.matrix = [] → collectParams s = [[]]) ∧
    (s.matrix ≠ [] → (∀ kl ∈ s.matrix, kl.2 ≠ []) →
      (∀ c, c ∈ collectParams s ↔ IsCombination s.matrix c) ∧
      (collectParams s).length = (s.matrix.map fun kl => kl.2.length).prod ∧
      ((∀ kl ∈ s.matrix, kl.2.Nodup) → (collectParams s).Nodup)) := by
  refine ⟨fun h => by simp [collectParams, hp, h], fun hne hvals => ?_⟩
  have hlen : (matrixCombos s.matrix).length = (s.matrix.map fun kl => kl.2.length).prod := by
    rw [matrixCombos, List.length_map, product_length, List.map_map]; rfl
  have hpos : (s.matrix.map fun kl => kl.2.length).prod ≠ 0 := by
    rw [Ne, nat_prod_eq_zero]
    intro h
    obtain ⟨kl, hk, h0⟩ := List.mem_map.1 h
    exact hvals kl hk (List.length_eq_zero_iff.1 h0)
  have hmc : matrixCombos s.matrix ≠ [] := by
    intro h; rw [h] at hlen; exact hpos hlen.symm
  have e : collectParams s = matrixCombos s.matrix := by
    simp [collectParams, hp, hne, hmc]
  rw [e]
  refine ⟨mem_matrixCombos hm, hlen, fun hnd => ?_⟩
  unfold matrixCombos
  refine List.Nodup.map_on ?_ (product_nodup ?_)
  · intro a ha b hb hab
    have la : a.length = (Dict.keys s.matrix).length := by
      simpa [Dict.keys] using (mem_product.1 ha).length_eq
    have lb : b.length = (Dict.keys s.matrix).length := by
      simpa [Dict.keys] using (mem_product.1 hb).length_eq
    rw [dictZip_eq hm la, dictZip_eq hm lb] at hab
    exact zip_injective la lb hab
  · intro l hl
    obtain ⟨kl, hk, rfl⟩ := List.mem_map.1 hl
    exact hnd kl hk

/-- A 2 x 3 matrix. -/
def exSim : Sim :=
  { iterations := 2, matrix := [("a", [.val 1, .val 2]), ("b", [.val 3, .val 4, .val 5])], exporters := 2 }

example : Dict.WF exSim.matrix ∧ (∀ kl ∈ exSim.matrix, kl.2 ≠ []) ∧
    (collectParams exSim).length = 6 ∧ [("a", PV.val 2), ("b", .val 4)] ∈ collectParams exSim := by
  decide +kernel

/-- A matrix with a parameter without values has no combination; the code then runs once without any
parameter. -/
theorem C49_empty_axis (s : Sim) (hp : s.parameters = []) (kl : String × List PV) (hk : kl ∈ s.matrix)
    (he : kl.2 = []) : collectParams s = [[]] := by
  have : matrixCombos s.matrix = [] := by
    apply List.length_eq_zero_iff.1
    rw [matrixCombos, List.length_map, product_length, nat_prod_eq_zero]
    exact List.mem_map.2 ⟨[], List.mem_map.2 ⟨kl, hk, he⟩, rfl⟩
  simp [collectParams, hp, this]

example : collectParams { matrix := [("a", [PV.val 1]), ("b", [])] } = [[]] := by decide +kernel

/-- Specification of C50: every combination is run together with the fixed parameters. -/
def FixedEverywhere (s : Sim) : Prop :=
  ∀ c ∈ collectParams s, ∀ kv ∈ s.parameters, Dict.has s.matrix kv.1 = false →
    Dict.get? c kv.1 = some kv.2

/-- C50 is violated: the fixed parameters are one combination of their own, without the matrix, and no
matrix combination contains them. -/
theorem C50_fixed_false (s : Sim) (hp : s.parameters ≠ []) (hm : s.matrix ≠ []) :
    collectParams s = s.parameters :: matrixCombos s.matrix := by
  simp [collectParams, hp, hm]

theorem C50_witness_false : ∃ s : Sim, Dict.WF s.parameters ∧ Dict.WF s.matrix ∧ ¬ FixedEverywhere s := by
  refine ⟨{ parameters := [("n", .val 7)], matrix := [("a", [.val 1])] }, by decide +kernel,
    by decide +kernel, ?_⟩
  intro h
  have := h [("a", .val 1)] (by decide +kernel) ("n", .val 7) (by decide +kernel) (by decide +kernel)
  exact absurd this (by decide +kernel)

/-- In general: a fixed parameter that is not in the matrix is missing from every matrix combination. -/
theorem C50_missing_false (s : Sim) (hm : Dict.WF s.matrix) (k : String) (hk : Dict.has s.matrix k = false) :
    ∀ c ∈ matrixCombos s.matrix, Dict.get? c k = none := by
  intro c hc
  have hcomb := (mem_matrixCombos hm c).1 hc
  have hkeys : Dict.keys c = Dict.keys s.matrix := by
    unfold IsCombination at hcomb
    clear hc hk hm
    generalize s.matrix = m at hcomb
    induction hcomb with
    | nil => rfl
    | cons h _ ih => simp only [Dict.keys, List.map_cons] at ih ⊢; rw [h.1, ih]
  rw [Dict.get?_none_iff, hkeys, ← Dict.get?_none_iff]
  simpa [Dict.has] using hk

example : ∀ c ∈ matrixCombos exSim.matrix, Dict.get? c "n" = none :=
  C50_missing_false exSim (by decide +kernel) "n" (by decide +kernel)

/-- C50, what holds: with no matrix the fixed parameters are run. Missing: with a matrix. -/
theorem C50_fixed_partial (s : Sim) (hp : Dict.WF s.parameters) (hm : s.matrix = []) : FixedEverywhere s := by
  intro c hc kv hkv _
  have hne : s.parameters ≠ [] := by intro h; rw [h] at hkv; cases hkv
  have : c = s.parameters := by simpa [collectParams, hm, hne] using hc
  subst this
  exact Dict.get?_of_mem hp hkv

example : Dict.WF [("n", PV.val 7), ("m", PV.val 8)] := by decide +kernel

/-! ### C51: seeds -/

theorem toDigits_inj {i j : Nat} (h : Nat.toDigits 10 i = Nat.toDigits 10 j) : i = j := by
  have := congrArg (Nat.ofDigitChars 10 · 0) h
  simpa [Nat.ofDigitChars_ten_toDigits] using this

/-- If two lists agree, end in tails without `c`, and have a `c` before the tails, the tails agree. -/
theorem last_sep {α : Type} {c : α} {a b x y : List α} (h : a ++ c :: x = b ++ c :: y) (hx : c ∉ x) (hy : c ∉ y) :
    a = b ∧ x = y := by
  induction a generalizing b with
  | nil =>
    cases b with
    | nil => simpa using h
    | cons d b =>
      simp only [List.nil_append, List.cons_append, List.cons.injEq] at h
      exact absurd (by rw [h.2]; simp) hx
  | cons d a ih =>
    cases b with
    | nil =>
      simp only [List.nil_append, List.cons_append, List.cons.injEq] at h
      exact absurd (by rw [← h.2]; simp) hy
    | cons e b =>
      simp only [List.cons_append, List.cons.injEq] at h
      obtain ⟨h1, h2⟩ := ih h.2
      exact ⟨by rw [h.1, h1], h2⟩

/-- C51: the seed determines the pair (seed of the simulation, iteration): different pairs never share a
seed; and it is a function of the pair. -/
theorem C51_seeds_distinct (a b : String) (i j : Nat) (h : iterSeed a i = iterSeed b j) : a = b ∧ i = j := by
  have h' := congrArg String.toList h
  unfold iterSeed at h'
  simp only [String.toList_append] at h'
  have e : "_iteration_".toList = "_iteration".toList ++ ['_'] := by decide
  have hi : ∀ n : Nat, (toString n).toList = Nat.toDigits 10 n := fun n => Nat.toList_repr
  rw [e, hi, hi] at h'
  have h2 : (a.toList ++ "_iteration".toList) ++ '_' :: Nat.toDigits 10 i
      = (b.toList ++ "_iteration".toList) ++ '_' :: Nat.toDigits 10 j := by
    simpa [List.append_assoc] using h'
  obtain ⟨h3, h4⟩ := last_sep h2 Nat.underscore_not_in_toDigits Nat.underscore_not_in_toDigits
  exact ⟨String.toList_injective (List.append_cancel_right h3), toDigits_inj h4⟩

example : iterSeed "x_iteration_1" 1 ≠ iterSeed "x" 11 := by
  intro h; exact absurd (C51_seeds_distinct _ _ _ _ h).2 (by decide)

/-- C51 for whole runs: every environment of a run is built with the seed of its iteration, whatever its
parameters. -/
theorem C51_run_seeds (s : Sim) (B : Build) : ∀ a ∈ (s.run B).results, a.seed = iterSeed s.seed a.id := by
  have key : ∀ a ∈ (runCombos s B (collectParams s) ⟨s.modelReporters, s.agentReporters,
      (List.range s.exporters).map SEv.simStart, [], false⟩).results, a.seed = iterSeed s.seed a.id := by
    intro a ha
    by_cases hd : s.dryRun = true
    · rw [runCombos_dry s B hd] at ha; cases ha
    · obtain ⟨rs, h⟩ := runCombos_part s B (by simpa using hd) (collectParams s) ⟨s.modelReporters,
        s.agentReporters, (List.range s.exporters).map SEv.simStart, [], false⟩ rfl
      rw [h.results] at ha
      exact h.seeds a (by simpa using ha)
  intro a ha
  apply key a
  unfold Sim.run at ha
  simp only at ha
  split at ha
  · exact ha
  · exact ha

/-! ### C52, C53: results and exporters -/

/-- Shape of a whole run that is not dry. -/
theorem run_shape (s : Sim) (B : Build) (hd : s.dryRun = false) :
    ∃ rs, (s.run B).results = rs ∧
      rs.map (fun a => (a.params, a.id)) <+: s.jobs.map (fun j => (stripReps j.1, j.2)) ∧
      ((s.run B).failed = false → rs.length = s.jobs.length) ∧
      (s.run B).trace = (List.range s.exporters).map SEv.simStart ++ rs.flatMap (block s.exporters)
        ++ (if (s.run B).failed then [] else (List.range s.exporters).map SEv.simEnd) := by
  obtain ⟨rs, h⟩ := runCombos_part s B hd (collectParams s) ⟨s.modelReporters,
        s.agentReporters, (List.range s.exporters).map SEv.simStart, [], false⟩ rfl
  refine ⟨rs, ?_, h.jobs_prefix, ?_, ?_⟩
  · unfold Sim.run; simp only
    split <;> simpa using h.results
  · intro hf
    apply h.done
    unfold Sim.run at hf; simp only at hf
    split at hf
    · exact hf
    · rename_i hn; simpa using hn
  · unfold Sim.run; simp only
    by_cases hf : (runCombos s B (collectParams s) ⟨s.modelReporters, s.agentReporters,
      (List.range s.exporters).map SEv.simStart, [], false⟩).failed = true
    · rw [if_pos hf, if_pos hf, List.append_nil]; exact h.trace
    · rw [if_neg hf, if_neg hf]; simp only [h.trace]

/-- C52: a run that ends without an exception returns exactly one environment for every combination and
iteration, in that order: the `k`-th combination's iterations `0, 1, ...` follow one another. The
environment gets the combination's parameters (without the reporters). A dry run returns nothing. -/
theorem C52_results (s : Sim) (B : Build) (hf : (s.run B).failed = false) :
    (s.dryRun = false → (s.run B).results.map (fun a => (a.params, a.id)) =
      (collectParams s).flatMap fun p => (List.range s.iterations).map (stripReps p, ·)) ∧
    (s.dryRun = true → (s.run B).results = []) := by
  refine ⟨fun hd => ?_, fun hd => ?_⟩
  · obtain ⟨rs, h1, h2, h3, _⟩ := run_shape s B hd
    rw [h1, h2.eq_of_length (by simpa using h3 hf), Sim.jobs, List.map_flatMap]
    simp [Function.comp_def]
  · unfold Sim.run
    simp only [runCombos_dry s B hd]
    split <;> rfl

/-- ... so there are (number of combinations) * (iterations) of them. -/
theorem C52_results_count (s : Sim) (B : Build) (hf : (s.run B).failed = false) (hd : s.dryRun = false) :
    (s.run B).results.length = (collectParams s).length * s.iterations := by
  have h := congrArg List.length ((C52_results s B hf).1 hd)
  rw [List.length_map] at h
  rw [h, List.length_flatMap]
  simp

example : (exSim.run fun _ _ => true).failed = false ∧ exSim.dryRun = false ∧
    (exSim.run fun _ _ => true).results.length = 12 := by decide +kernel

/-- The events of exporter `i` (with the environments it is told about), and the environments finishing. -/
def exporterView (i : Nat) : SEv → Bool
  | .simStart j => i == j
  | .iterEnd j _ => i == j
  | .simEnd j => i == j
  | .ran _ => true

theorem filter_range_eq {n i : Nat} (hi : i < n) : (List.range n).filter (fun j => i == j) = [i] := by
  induction n with
  | zero => omega
  | succ n ih =>
    rw [List.range_succ, List.filter_append]
    by_cases h : i = n
    · subst h
      have : (List.range i).filter (fun j => i == j) = [] := by
        rw [List.filter_eq_nil_iff]
        intro a ha
        have := List.mem_range.1 ha
        simp; omega
      simp [this]
    · rw [ih (by omega)]
      simp [h]

/-- C53: in a run that ends without an exception, every exporter sees: `sim_start`; then, for every
environment in order, `iteration_end` directly after that environment finished; then `sim_end`; nothing
else. (In a dry run there are no environments.) -/
theorem C53_exporter_protocol (s : Sim) (B : Build) (hf : (s.run B).failed = false) (i : Nat)
    (hi : i < s.exporters) :
    (s.run B).trace.filter (exporterView i) =
      .simStart i :: ((s.run B).results.flatMap fun a => [.ran a, .iterEnd i a]) ++ [.simEnd i] := by
  have hstart : ((List.range s.exporters).map SEv.simStart).filter (exporterView i) = [.simStart i] := by
    rw [List.filter_map, show (exporterView i ∘ SEv.simStart) = (fun j => i == j) from rfl, filter_range_eq hi]
    rfl
  have hend : ((List.range s.exporters).map SEv.simEnd).filter (exporterView i) = [.simEnd i] := by
    rw [List.filter_map, show (exporterView i ∘ SEv.simEnd) = (fun j => i == j) from rfl, filter_range_eq hi]
    rfl
  have hblock : ∀ a, (block s.exporters a).filter (exporterView i) = [.ran a, .iterEnd i a] := by
    intro a
    unfold block
    rw [List.filter_cons_of_pos (by rfl), List.filter_map,
      show (exporterView i ∘ fun x => SEv.iterEnd x a) = (fun j => i == j) from rfl, filter_range_eq hi]
    rfl
  by_cases hd : s.dryRun = true
  · have hr := (C52_results s B hf).2 hd
    rw [hr]
    have ht : (s.run B).trace = (List.range s.exporters).map SEv.simStart ++ (List.range s.exporters).map SEv.simEnd := by
      unfold Sim.run; simp [runCombos_dry s B hd]
    rw [ht, List.filter_append, hstart, hend]
    rfl
  · obtain ⟨rs, h1, _, _, h4⟩ := run_shape s B (by simpa using hd)
    rw [h4, h1, hf]
    simp only [Bool.false_eq_true, if_false, List.filter_append, List.filter_flatMap, hstart, hend]
    have : (fun a => List.filter (exporterView i) (block s.exporters a)) = fun a => [.ran a, .iterEnd i a] :=
      funext hblock
    rw [this]
    rfl

example : (exSim.run fun _ _ => true).failed = false ∧ 1 < exSim.exporters := by decide +kernel

/-- When an environment raises, the exporters have been told about the environments finished before it, and
`sim_end` is never sent. -/
theorem C53_exception (s : Sim) (B : Build) (hf : (s.run B).failed = true) (i : Nat) (hi : i < s.exporters) :
    (s.run B).trace.filter (exporterView i) =
      .simStart i :: ((s.run B).results.flatMap fun a => [.ran a, .iterEnd i a]) := by
  have hd : s.dryRun = false := by
    by_contra h
    have hd : s.dryRun = true := by simpa using h
    unfold Sim.run at hf
    simp [runCombos_dry s B hd] at hf
  have hstart : ((List.range s.exporters).map SEv.simStart).filter (exporterView i) = [.simStart i] := by
    rw [List.filter_map, show (exporterView i ∘ SEv.simStart) = (fun j => i == j) from rfl, filter_range_eq hi]
    rfl
  have hblock : (fun a => List.filter (exporterView i) (block s.exporters a)) = fun a => [.ran a, .iterEnd i a] := by
    funext a
    unfold block
    rw [List.filter_cons_of_pos (by rfl), List.filter_map,
      show (exporterView i ∘ fun x => SEv.iterEnd x a) = (fun j => i == j) from rfl, filter_range_eq hi]
    rfl
  obtain ⟨rs, h1, _, _, h4⟩ := run_shape s B hd
  rw [h4, h1, hf]
  simp only [if_true, List.append_nil, List.filter_append, List.filter_flatMap, hstart, hblock]
  rfl

example : (exSim.run fun _ n => n != 4).failed = true ∧ (exSim.run fun _ n => n != 4).results.length = 4 := by
  decide +kernel

/-! ### C54: deferred runs -/

/-- What running a list of simulations builds. -/
def jobsOf (l : List Sim) : List (Params × Nat) := l.flatMap Sim.jobs

/-- What a file that only calls `sim.run()` yields, for any simulation: one simulation per combination, each
with the whole matrix again. -/
theorem C54_deferred_exact (s : Sim) :
    iterFromPy [.call s] [] = (some ((collectParams s).map fun p => { s with parameters := p }), []) := by
  have hne := collectParams_ne_nil s
  simp [iterFromPy, execPy, hne]

/-- C54 is violated: for a matrix with `n` combinations (and no fixed parameters) `n * (n + 1)` combinations
are run instead of `n`. -/
theorem C54_count_false (s : Sim) (hp : s.parameters = []) (hm : s.matrix ≠ [])
    (hv : ∀ kl ∈ s.matrix, kl.2 ≠ []) (hw : Dict.WF s.matrix) :
    ∃ sims, iterFromPy [.call s] [] = (some sims, []) ∧
      (jobsOf sims).length = s.jobs.length * ((collectParams s).length + 1) := by
  refine ⟨_, C54_deferred_exact s, ?_⟩
  have hc := ((C49_matrix_product s hp hw).2 hm hv)
  have hlen := hc.2.1
  have hmc : (matrixCombos s.matrix).length = (collectParams s).length := by
    rw [hlen, matrixCombos, List.length_map, product_length, List.map_map]; rfl
  have each : ∀ p ∈ collectParams s, ({ s with parameters := p } : Sim).jobs.length
      = ((collectParams s).length + 1) * s.iterations := by
    intro p hpm
    have hpne : p ≠ [] := by
      intro h
      have := (hc.1 p).1 hpm
      rw [h] at this
      unfold IsCombination at this
      exact hm (List.forall₂_nil_left_iff.1 this)
    have e : collectParams { s with parameters := p } = p :: matrixCombos s.matrix :=
      C50_fixed_false _ hpne hm
    rw [Sim.jobs, e, List.length_flatMap]
    simp [hmc]
    ring
  have hj : s.jobs.length = (collectParams s).length * s.iterations := by
    rw [Sim.jobs, List.length_flatMap]; simp
  rw [jobsOf, List.flatMap_map, List.length_flatMap, hj]
  have : (collectParams s).map (fun p => ({ s with parameters := p } : Sim).jobs.length)
      = (collectParams s).map (fun _ => ((collectParams s).length + 1) * s.iterations) :=
    List.map_congr_left each
  rw [this]
  simp
  ring

example : exSim.jobs.length = 12 ∧ (iterFromPy [.call exSim] []).1.map (fun l => (jobsOf l).length) = some 84 := by
  decide +kernel

/-- C54 is violated in a second way: a file that binds the simulation to a name and calls `run` on it runs
everything twice (here without any matrix). -/
theorem C54_bound_twice_false (s : Sim) (name : String) (hm : s.matrix = []) :
    iterFromPy [.bind name s, .call s] [] = (some [s, s], []) := by
  simp only [iterFromPy, execPy, collectParams_nomatrix s hm]
  rfl

/-- C54, what holds: for files that only call `run` on simulations without matrix, the simulations come back
unchanged and in order, so exactly the configured runs are performed. Missing: matrices and names. -/
theorem C54_deferred_partial (sims : List Sim) (hne : sims ≠ []) (hm : ∀ s ∈ sims, s.matrix = []) :
    iterFromPy (sims.map .call) [] = (some sims, []) := by
  have one : ∀ s : Sim, s.matrix = [] → ((collectParams s).map (s, ·)).map
      (fun cp : Sim × Params => { cp.1 with parameters := cp.2 }) = [s] := by
    intro s hm
    rw [collectParams_nomatrix s hm]
    rfl
  have key : ∀ (sims : List Sim) (q : Queued), (∀ s ∈ sims, s.matrix = []) →
      ∃ q', execPy (sims.map .call) [] q = ([], q ++ q', true) ∧
        q'.map (fun cp : Sim × Params => { cp.1 with parameters := cp.2 }) = sims := by
    intro sims
    induction sims with
    | nil => intro q _; exact ⟨[], by simp [execPy], rfl⟩
    | cons s sims ih =>
      intro q hm
      obtain ⟨q', h1, h2⟩ := ih (q ++ (collectParams s).map (s, ·)) (fun t ht => hm t (by simp [ht]))
      refine ⟨(collectParams s).map (s, ·) ++ q', ?_, ?_⟩
      · rw [List.map_cons, execPy, h1, List.append_assoc]
      · rw [List.map_append, one s (hm s (by simp)), h2]; rfl
  obtain ⟨q', h1, h2⟩ := key sims [] hm
  simp only [iterFromPy, h1, List.nil_append, List.map_nil, h2, if_true]
  simp [hne]

example : iterFromPy ([{ seed := "a" }, { seed := "b", parameters := [("n", .val 3)] }].map PyStmt.call) []
    = (some [{ seed := "a" }, { seed := "b", parameters := [("n", .val 3)] }], []) := by decide +kernel

/-! ### C55: broken files -/

/-- Specification of C55: a failed load leaves no trace: the next load behaves as if it had never happened. -/
def NoResidue (q : Queued) (file : List PyStmt) : Prop :=
  (iterFromPy file q).1 = none → ∀ next, iterFromPy next (iterFromPy file q).2 = iterFromPy next q

/-- C55 is violated: a file that calls `run` and then raises leaves its simulation queued; it comes back when
the next file is loaded. -/
theorem C55_broken_file_false (s t : Sim) :
    (iterFromPy [.call s, .raise] []).1 = none ∧
    iterFromPy [.call t] (iterFromPy [.call s, .raise] []).2 =
      (some (((collectParams s).map fun p => { s with parameters := p }) ++
        (collectParams t).map fun p => { t with parameters := p }), []) := by
  have hne := collectParams_ne_nil t
  refine ⟨rfl, ?_⟩
  simp [iterFromPy, execPy, hne, Function.comp_def]

theorem C55_witness_false : ∃ file, ¬ NoResidue [] file := by
  refine ⟨[.call {}, .raise], fun h => ?_⟩
  have := h (by decide +kernel) [.call { seed := "t" }]
  exact absurd this (by decide +kernel)

/-- C55, what holds: a file that calls no `run` before it fails leaves no trace. Missing: files that do. -/
theorem C55_no_calls_partial (q : Queued) (pre post : List PyStmt) (h : ∀ st ∈ pre, ∀ s, st ≠ .call s) :
    NoResidue q (pre ++ .raise :: post) := by
  have key : ∀ (pre : List PyStmt) (m : Dict String Sim), (∀ st ∈ pre, ∀ s, st ≠ .call s) →
      (execPy (pre ++ .raise :: post) m q).2 = (q, false) := by
    intro pre
    induction pre with
    | nil => intro m _; rfl
    | cons st pre ih =>
      intro m h
      cases st with
      | bind n s => exact ih _ (fun x hx => h x (by simp [hx]))
      | call s => exact absurd rfl (h (.call s) (by simp) s)
      | raise => rfl
  intro _ next
  have e := key pre [] h
  simp [iterFromPy, e]

example : NoResidue [({}, [])] ([.bind "a" {}] ++ .raise :: [.call {}]) :=
  C55_no_calls_partial _ _ _ (by simp)

/-- C55, what holds: a load that does not raise leaves the queue empty. -/
theorem C55_successful_load_partial (q : Queued) (file : List PyStmt) (hr : PyStmt.raise ∉ file) :
    (iterFromPy file q).2 = [] := by
  have key : ∀ (file : List PyStmt) (m : Dict String Sim) (q : Queued), PyStmt.raise ∉ file →
      (execPy file m q).2.2 = true := by
    intro file
    induction file with
    | nil => intro m q _; rfl
    | cons st file ih =>
      intro m q h
      have h' : PyStmt.raise ∉ file := fun hm => h (by simp [hm])
      cases st with
      | bind n s => exact ih _ _ h'
      | call s => exact ih _ _ h'
      | raise => exact absurd (by simp) h
  simp [iterFromPy, key file [] q hr]

example : (iterFromPy [.call exSim] [({}, [])]).2 = [] ∧ PyStmt.raise ∉ [PyStmt.call exSim] := by decide +kernel

/-! ### C56: reporters -/

/-- C56 is violated: an environment of the second combination gets the reporters of the first one. -/
theorem C56_reporters_leak_false : ∃ (s : Sim) (B : Build), (s.run B).failed = false ∧
    ∃ a ∈ (s.run B).results, ∃ p ∈ collectParams s, a.params = stripReps p ∧
      Dict.get? p "model_reporters" = none ∧ s.modelReporters = [] ∧
      Dict.get? a.modelReporters "x" = some "f" := by
  refine ⟨{ parameters := [("n", .val 1), ("model_reporters", .reps [("x", "f")])], matrix := [("a", [.val 1])] },
    fun _ _ => true, by decide +kernel, ⟨0, "default_iteration_0", [("a", .val 1)],
      [("x", "f"), ("agent_count", "<agent_count>"), ("time", "<time>")], []⟩, by decide +kernel,
      [("a", .val 1)], by decide +kernel, by decide +kernel, by decide +kernel, by decide +kernel, by decide +kernel⟩

/-- C56, what holds: if no combination brings reporters, every environment gets exactly the reporters of the
simulation (up to the two built-in ones, `agent_count` and `time`). Missing: combinations with reporters,
where the reporters of all earlier combinations are added. -/
theorem C56_reporters_partial (s : Sim) (B : Build)
    (h : ∀ p ∈ collectParams s, Dict.get? p "agent_reporters" = none ∧ Dict.get? p "model_reporters" = none) :
    ∀ a ∈ (s.run B).results, a.agentReporters = s.agentReporters ∧
      ∀ k, k ≠ "agent_count" → k ≠ "time" → Dict.get? a.modelReporters k = Dict.get? s.modelReporters k := by
  have hk := runCombos_repsOk (s := s) (B := B) (ps := collectParams s) (x := ⟨s.modelReporters,
        s.agentReporters, (List.range s.exporters).map SEv.simStart, [], false⟩) (ar := s.agentReporters)
        (mr := s.modelReporters) (old := []) ⟨rfl, fun _ _ _ => rfl, by simp⟩ h
  intro a ha
  have ha' : a ∈ (runCombos s B (collectParams s) ⟨s.modelReporters, s.agentReporters,
      (List.range s.exporters).map SEv.simStart, [], false⟩).results := by
    unfold Sim.run at ha
    simp only at ha
    split at ha <;> exact ha
  rcases hk.2.2 a ha' with h | h
  · cases h
  · exact h

example : ∀ p ∈ collectParams { exSim with modelReporters := [("x", "f")] },
    Dict.get? p "agent_reporters" = none ∧ Dict.get? p "model_reporters" = none := by decide +kernel

end Verif
