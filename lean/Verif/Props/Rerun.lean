import Verif.Props.Simulation

/-!
# C94: running the same `Simulation` object again
-/

namespace Verif

/-- The simulation object after a run: `_get_env` updates its dictionaries of reporters (soil/simulation.py:220-223). -/
def Sim.after (s : Sim) (B : Build) : Sim :=
  { s with modelReporters := (s.run B).modelReporters, agentReporters := (s.run B).agentReporters }

theorem has_set {V : Type} (d : Dict String V) (a k : String) (v : V) : Dict.has (Dict.set d a v) k = true ↔ a = k ∨ Dict.has d k = true := by
  unfold Dict.has
  rw [Dict.get?_set]
  by_cases h : a = k <;> simp [h]

theorem has_update {V : Type} (d e : Dict String V) (k : String) :
    Dict.has (Dict.update d e) k = true ↔ Dict.has d k = true ∨ Dict.has e k = true := by
  induction e generalizing d with
  | nil => simp [Dict.update, Dict.has]
  | cons p e ih =>
    obtain ⟨a, v⟩ := p
    have : Dict.update d ((a, v) :: e) = Dict.update (Dict.set d a v) e := rfl
    rw [this, ih, has_set]
    have : Dict.has ((a, v) :: e) k = true ↔ a = k ∨ Dict.has e k = true := by
      unfold Dict.has
      simp only [Dict.get?]
      by_cases h : a = k <;> simp [h]
    rw [this]
    tauto

theorem has_collectorTouch (d : Dict String String) (k : String) (h : Dict.has d k = true) : Dict.has (collectorTouch d) k = true := by
  unfold collectorTouch
  split
  · exact h
  · simp only
    split <;> split <;> simp [has_set, h]

/-- The reporter `k` is there, and the environments beyond `old` have it. -/
def HasRep (k : String) (old : Nat) (x : RState) : Prop :=
  Dict.has x.modelReporters k = true ∧ ∀ a ∈ x.results.drop old, Dict.has a.modelReporters k = true

theorem oneIter_hasRep {s : Sim} {B : Build} {p : Params} {i : Nat} {x : RState} {k : String} {old : Nat} (h : HasRep k old x)
    (hl : old ≤ x.results.length) : HasRep k old (oneIter s B p i x) := by
  obtain ⟨h1, h2⟩ := h
  unfold oneIter
  split
  · exact ⟨h1, h2⟩
  · simp only
    split
    · exact ⟨h1, h2⟩
    · rename_i mr p2 _
      have hu : Dict.has (Dict.update x.modelReporters mr) k = true := (has_update _ _ _).2 (Or.inl h1)
      split
      · refine ⟨has_collectorTouch _ _ hu, ?_⟩
        intro a ha
        simp only [List.drop_append_of_le_length hl] at ha
        rcases List.mem_append.1 ha with ha | ha
        · exact h2 a ha
        · simp at ha; subst ha; exact hu
      · exact ⟨has_collectorTouch _ _ hu, h2⟩

theorem oneIter_length (s : Sim) (B : Build) (p : Params) (i : Nat) (x : RState) :
    x.results.length ≤ (oneIter s B p i x).results.length := by
  unfold oneIter
  split
  · exact le_refl _
  · simp only
    split
    · exact le_refl _
    · split
      · simp
      · exact le_refl _

theorem runIters_hasRep {s : Sim} {B : Build} {p : Params} {is : List Nat} {x : RState} {k : String} {old : Nat} (h : HasRep k old x)
    (hl : old ≤ x.results.length) : HasRep k old (runIters s B p is x) ∧ old ≤ (runIters s B p is x).results.length := by
  induction is generalizing x with
  | nil => exact ⟨h, hl⟩
  | cons i is ih =>
    simp only [runIters]
    split
    · exact ih h hl
    · have h' := oneIter_hasRep (s := s) (B := B) (p := p) (i := i) h hl
      have hl' := le_trans hl (oneIter_length s B p i x)
      split
      · exact ⟨h', hl'⟩
      · exact ih h' hl'

theorem runCombos_hasRep {s : Sim} {B : Build} {ps : List Params} {x : RState} {k : String} {old : Nat} (h : HasRep k old x)
    (hl : old ≤ x.results.length) : HasRep k old (runCombos s B ps x) := by
  induction ps generalizing x with
  | nil => exact h
  | cons p ps ih =>
    simp only [runCombos]
    obtain ⟨h1, h2⟩ := runIters_hasRep (s := s) (B := B) (p := p) (is := List.range s.iterations) h hl
    split
    · exact h1
    · exact ih h1 h2

/-- A combination that brings a reporter leaves it behind. -/
theorem runIters_adds {s : Sim} {B : Build} {p : Params} {n : Nat} {x : RState} {k : String} {d : Dict String String}
    (hd : s.dryRun = false) (hp : Dict.WF p) (hm : Dict.get? p "model_reporters" = some (.reps d)) (hk : Dict.has d k = true)
    (hn : 0 < n) (hx : (runIters s B p (List.range n) x).failed = false) :
    Dict.has (runIters s B p (List.range n) x).modelReporters k = true := by
  obtain ⟨m, rfl⟩ : ∃ m, n = m + 1 := ⟨n - 1, by omega⟩
  rw [List.range_succ_eq_map] at hx ⊢
  simp only [runIters, hd, Bool.false_eq_true, if_false] at hx ⊢
  have h0 : (oneIter s B p 0 x).failed = false → Dict.has (oneIter s B p 0 x).modelReporters k = true := by
    unfold oneIter
    split
    · intro h; cases h
    · rename_i ar p1 h1
      simp only
      have hm1 : Dict.get? p1 "model_reporters" = some (.reps d) := by
        rw [popReps_del h1, Dict.get?_del p hp, if_neg (by decide), hm]
      have e2 : popReps p1 "model_reporters" = some (d, Dict.del p1 "model_reporters") := by simp [popReps, hm1]
      rw [e2]
      simp only
      have : Dict.has (collectorTouch (Dict.update x.modelReporters d)) k = true :=
        has_collectorTouch _ _ ((has_update _ _ _).2 (Or.inr hk))
      split
      · intro _; exact this
      · intro h; cases h
  by_cases hf : (oneIter s B p 0 x).failed = true
  · rw [if_pos hf] at hx
    rw [hf] at hx; cases hx
  · rw [if_neg hf] at hx ⊢
    exact (runIters_hasRep (k := k) (old := (oneIter s B p 0 x).results.length) ⟨h0 (by simpa using hf), by simp⟩ (le_refl _)).1.1

theorem runCombos_adds {s : Sim} {B : Build} {ps : List Params} {x : RState} {k : String} {d : Dict String String} {p : Params}
    (hd : s.dryRun = false) (hpm : p ∈ ps) (hp : Dict.WF p) (hm : Dict.get? p "model_reporters" = some (.reps d))
    (hk : Dict.has d k = true) (hn : 0 < s.iterations) (hx : (runCombos s B ps x).failed = false) :
    Dict.has (runCombos s B ps x).modelReporters k = true := by
  induction ps generalizing x with
  | nil => cases hpm
  | cons q ps ih =>
    simp only [runCombos] at hx ⊢
    by_cases hf : (runIters s B q (List.range s.iterations) x).failed = true
    · rw [if_pos hf] at hx
      rw [hf] at hx; cases hx
    · rw [if_neg hf] at hx ⊢
      rcases List.mem_cons.1 hpm with rfl | hpm
      · have := runIters_adds hd hp hm hk hn (by simpa using hf)
        exact (runCombos_hasRep (k := k) (old := (runIters s B p (List.range s.iterations) x).results.length)
          ⟨this, by simp⟩ (le_refl _)).1
      · exact ih hpm hx

theorem run_failed (s : Sim) (B : Build) : (s.run B).failed =
    (runCombos s B (collectParams s) ⟨s.modelReporters, s.agentReporters, (List.range s.exporters).map SEv.simStart, [], false⟩).failed := by
  unfold Sim.run
  simp only
  split <;> simp_all

theorem run_results (s : Sim) (B : Build) : (s.run B).results =
    (runCombos s B (collectParams s) ⟨s.modelReporters, s.agentReporters, (List.range s.exporters).map SEv.simStart, [], false⟩).results := by
  unfold Sim.run
  simp only
  split <;> rfl

theorem run_modelReporters (s : Sim) (B : Build) : (s.run B).modelReporters =
    (runCombos s B (collectParams s) ⟨s.modelReporters, s.agentReporters, (List.range s.exporters).map SEv.simStart, [], false⟩).modelReporters := by
  unfold Sim.run
  simp only
  split <;> rfl

/-- C94 is violated: after a run without exceptions in which some combination brings the reporter `k`, a second run gives `k` to every
environment, those of other combinations too. -/
theorem C94_rerun_false (s : Sim) (B B' : Build) (hd : s.dryRun = false) (hn : 0 < s.iterations) (p : Params) (hpm : p ∈ collectParams s)
    (hp : Dict.WF p) (d : Dict String String) (hm : Dict.get? p "model_reporters" = some (.reps d)) (k : String)
    (hk : Dict.has d k = true) (hf : (s.run B).failed = false) :
    ∀ a ∈ ((s.after B).run B').results, Dict.has a.modelReporters k = true := by
  have h0 : Dict.has (s.after B).modelReporters k = true := by
    show Dict.has (s.run B).modelReporters k = true
    rw [run_modelReporters]
    rw [run_failed] at hf
    exact runCombos_adds hd hpm hp hm hk hn hf
  intro a ha
  rw [run_results] at ha
  have := runCombos_hasRep (s := s.after B) (B := B') (ps := collectParams (s.after B)) (k := k) (old := 0)
    (x := ⟨(s.after B).modelReporters, (s.after B).agentReporters, (List.range (s.after B).exporters).map SEv.simStart, [], false⟩)
    ⟨h0, by simp⟩ (Nat.zero_le _)
  exact this.2 a (by simpa using ha)

/-- ... which can differ from the first run. -/
theorem C94_witness_false : ∃ (s : Sim) (B : Build), (s.run B).failed = false ∧ ((s.after B).run B).failed = false ∧
    ∃ a a', (s.run B).results[0]? = some a ∧ ((s.after B).run B).results[0]? = some a' ∧
      Dict.has a.modelReporters "x" = false ∧ Dict.has a'.modelReporters "x" = true := by
  refine ⟨{ matrix := [("model_reporters", [.reps [], .reps [("x", "f")]])] }, fun _ _ => true, by decide +kernel, by decide +kernel,
    ⟨0, "default_iteration_0", [], [], []⟩,
    ⟨0, "default_iteration_0", [], [("x", "f"), ("agent_count", "<agent_count>"), ("time", "<time>")], []⟩,
    by decide +kernel, by decide +kernel, by decide +kernel, by decide +kernel⟩

/-- C94, what holds: if no combination brings reporters, the second run builds the same environments in the same order, with the same
seeds, parameters and reporters (up to the built-in ones, `agent_count` and `time`). Missing: combinations with reporters. -/
theorem C94_rerun_partial (s : Sim) (B B' : Build)
    (h : ∀ p ∈ collectParams s, Dict.get? p "agent_reporters" = none ∧ Dict.get? p "model_reporters" = none)
    (hf : (s.run B).failed = false) (hf' : ((s.after B).run B').failed = false) :
    List.Forall₂ (fun a a' => a.id = a'.id ∧ a.seed = a'.seed ∧ a.params = a'.params ∧ a.agentReporters = a'.agentReporters ∧
        ∀ k, k ≠ "agent_count" → k ≠ "time" → Dict.get? a.modelReporters k = Dict.get? a'.modelReporters k)
      (s.run B).results ((s.after B).run B').results := by
  have hc : collectParams (s.after B) = collectParams s := rfl
  have hreps : (s.after B).agentReporters = s.agentReporters ∧ SameUserReps (s.after B).modelReporters s.modelReporters := by
    have hk := runCombos_repsOk (s := s) (B := B) (ps := collectParams s) (x := ⟨s.modelReporters,
        s.agentReporters, (List.range s.exporters).map SEv.simStart, [], false⟩) (ar := s.agentReporters)
        (mr := s.modelReporters) (old := []) ⟨rfl, fun _ _ _ => rfl, by simp⟩ h
    have e : (s.run B).agentReporters = (runCombos s B (collectParams s)
        ⟨s.modelReporters, s.agentReporters, (List.range s.exporters).map SEv.simStart, [], false⟩).agentReporters := by
      unfold Sim.run
      simp only
      split <;> rfl
    refine ⟨?_, ?_⟩
    · show (s.run B).agentReporters = _
      rw [e]; exact hk.1
    · show SameUserReps (s.run B).modelReporters _
      rw [run_modelReporters]; exact hk.2.1
  have r1 := C56_reporters_partial s B h
  have r2 := C56_reporters_partial (s.after B) B' (by rw [hc]; exact h)
  have s1 := C51_run_seeds s B
  have s2 := C51_run_seeds (s.after B) B'
  have hj : (s.run B).results.map (fun a => (a.params, a.id)) = ((s.after B).run B').results.map (fun a => (a.params, a.id)) := by
    cases hd : s.dryRun with
    | false =>
      rw [(C52_results s B hf).1 hd, (C52_results (s.after B) B' hf').1 hd]
      rfl
    | true =>
      rw [(C52_results s B hf).2 hd, (C52_results (s.after B) B' hf').2 hd]
  rw [List.forall₂_iff_get]
  have hlen : (s.run B).results.length = ((s.after B).run B').results.length := by simpa using congrArg List.length hj
  refine ⟨hlen, fun i h1 h2 => ?_⟩
  have hi := congrArg (fun l => l[i]?) hj
  simp only [List.getElem?_map, List.getElem?_eq_getElem h1, List.getElem?_eq_getElem h2, Option.map_some, Option.some.injEq,
    Prod.mk.injEq] at hi
  have m1 := List.getElem_mem h1
  have m2 := List.getElem_mem h2
  simp only [List.get_eq_getElem]
  refine ⟨hi.2, ?_, hi.1, ?_, ?_⟩
  · rw [s1 _ m1, s2 _ m2, hi.2]; rfl
  · rw [(r1 _ m1).1, (r2 _ m2).1, hreps.1]
  · intro k k1 k2
    rw [(r1 _ m1).2 k k1 k2, (r2 _ m2).2 k k1 k2, hreps.2 k k1 k2]

example : (∀ p ∈ collectParams { exSim with modelReporters := [("x", "f")] },
      Dict.get? p "agent_reporters" = none ∧ Dict.get? p "model_reporters" = none) ∧
    ({ exSim with modelReporters := [("x", "f")] }.run fun _ _ => true).failed = false ∧
    (({ exSim with modelReporters := [("x", "f")] }.after fun _ _ => true).run fun _ _ => true).failed = false := by
  decide +kernel

end Verif
