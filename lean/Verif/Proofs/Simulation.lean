import Verif.Model.Simulation
import Mathlib.Algebra.BigOperators.Group.List.Basic

/-!
# Lemmas about products, parameter combinations and runs
-/

namespace Verif

/-! ### Products -/

theorem mem_product {α : Type} {ls : List (List α)} {x : List α} :
    x ∈ product ls ↔ List.Forall₂ (fun a l => a ∈ l) x ls := by
  induction ls generalizing x with
  | nil => simp [product]
  | cons l ls ih =>
    simp only [product, List.mem_flatMap, List.mem_map, ih]
    constructor
    · rintro ⟨a, ha, y, hy, rfl⟩
      exact List.Forall₂.cons ha hy
    · intro h
      cases h with
      | cons ha hy => exact ⟨_, ha, _, hy, rfl⟩

theorem product_length {α : Type} (ls : List (List α)) :
    (product ls).length = (ls.map List.length).prod := by
  induction ls with
  | nil => rfl
  | cons l ls ih =>
    simp only [product, List.map_cons, List.prod_cons, List.length_flatMap, List.length_map, ← ih]
    simp

theorem product_nodup {α : Type} {ls : List (List α)} (h : ∀ l ∈ ls, l.Nodup) : (product ls).Nodup := by
  induction ls with
  | nil => simp [product]
  | cons l ls ih =>
    simp only [product]
    have h2 := ih (fun l' hl' => h l' (by simp [hl']))
    have h1 := h l (by simp)
    rw [List.nodup_flatMap]
    refine ⟨?_, ?_⟩
    · intro x _
      exact h2.map (fun a b e => by simpa using e)
    · apply h1.imp
      intro a b hab
      rw [Function.onFun, List.disjoint_left]
      intro x hx hy
      obtain ⟨y, _, rfl⟩ := List.mem_map.1 hx
      obtain ⟨z, _, hz⟩ := List.mem_map.1 hy
      injection hz with e _
      exact hab e.symm

/-! ### Combinations of a matrix -/

theorem dictZip_eq {V : Type} {ks : List String} {vs : List V} (hk : ks.Nodup) (hl : vs.length = ks.length) :
    dictZip ks vs = ks.zip vs := by
  unfold dictZip
  rw [Dict.update_of_disjoint]
  · rfl
  · have : Dict.keys ([] ++ ks.zip vs) = ks := by
      simp only [List.nil_append, Dict.keys]
      rw [List.map_fst_zip (by omega)]
    rw [this]; exact hk

theorem zip_injective {α β : Type} {ks : List α} {a b : List β} (ha : a.length = ks.length)
    (hb : b.length = ks.length) (h : ks.zip a = ks.zip b) : a = b := by
  have := congrArg (List.map Prod.snd) h
  rwa [List.map_snd_zip (by omega), List.map_snd_zip (by omega)] at this

theorem nat_prod_eq_zero {l : List Nat} : l.prod = 0 ↔ 0 ∈ l := by
  induction l with
  | nil => simp
  | cons a l ih => simp [ih, eq_comm]

theorem collectParams_ne_nil (s : Sim) : collectParams s ≠ [] := by
  unfold collectParams
  simp only
  intro h
  split_ifs at h <;> simp_all

theorem collectParams_nomatrix (s : Sim) (hm : s.matrix = []) : collectParams s = [s.parameters] := by
  by_cases hp : s.parameters = [] <;> simp [collectParams, hm, hp]

/-! ### Runs -/

/-- What is left of a combination after the reporters are taken out. -/
def stripReps (p : Params) : Params := Dict.del (Dict.del p "agent_reporters") "model_reporters"

theorem popReps_del {d : Params} {k : String} {r : Dict String String} {d' : Params}
    (h : popReps d k = some (r, d')) : d' = Dict.del d k := by
  unfold popReps at h
  split at h
  · rename_i hn
    cases h
    exact (Dict.del_of_absent hn).symm
  · cases h; rfl
  · cases h

/-- The trace of one environment. -/
def block (n : Nat) (a : RunArgs) : List SEv := .ran a :: (List.range n).map (SEv.iterEnd · a)

/-- What an iteration does to the state. -/
theorem oneIter_spec (s : Sim) (B : Build) (p : Params) (i : Nat) (x : RState) (hx : x.failed = false) :
    ((oneIter s B p i x).failed = true ∧ (oneIter s B p i x).trace = x.trace ∧
      (oneIter s B p i x).results = x.results) ∨
    ((oneIter s B p i x).failed = false ∧ ∃ a : RunArgs, a.id = i ∧ a.params = stripReps p ∧
      a.seed = iterSeed s.seed i ∧
      (oneIter s B p i x).results = x.results ++ [a] ∧
      (oneIter s B p i x).trace = x.trace ++ block s.exporters a) := by
  unfold oneIter
  split
  · left; exact ⟨rfl, rfl, rfl⟩
  · rename_i ar p1 h1
    simp only
    split
    · left; exact ⟨rfl, rfl, rfl⟩
    · rename_i mr p2 h2
      split
      · right
        refine ⟨hx, _, rfl, ?_, rfl, rfl, rfl⟩
        show p2 = _
        rw [popReps_del h2, popReps_del h1]; rfl
      · left; exact ⟨rfl, rfl, rfl⟩

/-- Description of a part of a run: `rs` are the environments produced. -/
structure Part (s : Sim) (jobs : List (Params × Nat)) (x x' : RState) (rs : List RunArgs) : Prop where
  results : x'.results = x.results ++ rs
  trace : x'.trace = x.trace ++ rs.flatMap (block s.exporters)
  jobs_prefix : rs.map (fun a => (a.params, a.id)) <+: jobs.map (fun j => (stripReps j.1, j.2))
  done : x'.failed = false → rs.length = jobs.length
  seeds : ∀ a ∈ rs, a.seed = iterSeed s.seed a.id

theorem Part.nil (s : Sim) (x : RState) : Part s [] x x [] :=
  ⟨by simp, by simp, by simp, by simp, by simp⟩

theorem Part.append {s : Sim} {j1 j2 : List (Params × Nat)} {x y z : RState} {r1 r2 : List RunArgs}
    (h1 : Part s j1 x y r1) (hf : y.failed = false) (h2 : Part s j2 y z r2) :
    Part s (j1 ++ j2) x z (r1 ++ r2) := by
  have hl := h1.done hf
  refine ⟨by rw [h2.results, h1.results, List.append_assoc], ?_, ?_, ?_, ?_⟩
  · rw [h2.trace, h1.trace, List.flatMap_append, List.append_assoc]
  · have e : r1.map (fun a => (a.params, a.id)) = j1.map (fun j => (stripReps j.1, j.2)) :=
      h1.jobs_prefix.eq_of_length (by simpa using hl)
    rw [List.map_append, List.map_append, e]
    exact (List.prefix_append_right_inj _).2 h2.jobs_prefix
  · intro hz
    rw [List.length_append, List.length_append, hl, h2.done hz]
  · intro a ha
    rcases List.mem_append.1 ha with ha | ha
    · exact h1.seeds a ha
    · exact h2.seeds a ha

theorem Part.failed_append {s : Sim} {j1 j2 : List (Params × Nat)} {x y : RState} {r1 : List RunArgs}
    (h1 : Part s j1 x y r1) (hf : y.failed = true) : Part s (j1 ++ j2) x y r1 :=
  ⟨h1.results, h1.trace, by rw [List.map_append]; exact h1.jobs_prefix.trans (List.prefix_append _ _),
    by simp [hf], h1.seeds⟩

theorem oneIter_part (s : Sim) (B : Build) (p : Params) (i : Nat) (x : RState) (hx : x.failed = false) :
    ∃ rs, Part s [(p, i)] x (oneIter s B p i x) rs := by
  rcases oneIter_spec s B p i x hx with ⟨h1, h2, h3⟩ | ⟨h1, a, ha1, ha2, ha3, h2, h3⟩
  · exact ⟨[], by simp [h3], by simp [h2], by simp, by simp [h1], by simp⟩
  · refine ⟨[a], h2, by simp [h3], by simp [ha1, ha2], by simp, ?_⟩
    intro b hb
    simp at hb; subst hb
    rw [ha3, ha1]

theorem runIters_part (s : Sim) (B : Build) (hd : s.dryRun = false) (p : Params) (is : List Nat) (x : RState)
    (hx : x.failed = false) :
    ∃ rs, Part s (is.map (p, ·)) x (runIters s B p is x) rs := by
  induction is generalizing x with
  | nil => exact ⟨[], Part.nil s x⟩
  | cons i is ih =>
    simp only [runIters, hd, Bool.false_eq_true, if_false]
    obtain ⟨r1, h1⟩ := oneIter_part s B p i x hx
    split
    · rename_i hf
      exact ⟨r1, h1.failed_append (j2 := is.map (p, ·)) hf⟩
    · rename_i hf
      have hf' : (oneIter s B p i x).failed = false := by simpa using hf
      obtain ⟨r2, h2⟩ := ih (oneIter s B p i x) hf'
      exact ⟨r1 ++ r2, h1.append hf' h2⟩

theorem runCombos_part (s : Sim) (B : Build) (hd : s.dryRun = false) (ps : List Params) (x : RState)
    (hx : x.failed = false) :
    ∃ rs, Part s (ps.flatMap fun p => (List.range s.iterations).map (p, ·)) x (runCombos s B ps x) rs := by
  induction ps generalizing x with
  | nil => exact ⟨[], Part.nil s x⟩
  | cons p ps ih =>
    simp only [runCombos, List.flatMap_cons]
    obtain ⟨r1, h1⟩ := runIters_part s B hd p (List.range s.iterations) x hx
    split
    · rename_i hf
      exact ⟨r1, h1.failed_append hf⟩
    · rename_i hf
      have hf' : (runIters s B p (List.range s.iterations) x).failed = false := by simpa using hf
      obtain ⟨r2, h2⟩ := ih _ hf'
      exact ⟨r1 ++ r2, h1.append hf' h2⟩

theorem runIters_dry (s : Sim) (B : Build) (hd : s.dryRun = true) (p : Params) (is : List Nat) (x : RState) :
    runIters s B p is x = x := by
  induction is with
  | nil => rfl
  | cons i is ih => simp [runIters, hd, ih]

theorem runCombos_dry (s : Sim) (B : Build) (hd : s.dryRun = true) (ps : List Params) (x : RState)
    : runCombos s B ps x = x := by
  induction ps with
  | nil => rfl
  | cons p ps ih =>
    simp only [runCombos, runIters_dry s B hd, ih]
    split <;> rfl

/-! ### Reporters -/

theorem oneIter_reps (s : Sim) (B : Build) (p : Params) (i : Nat) (x : RState)
    (h1 : Dict.get? p "agent_reporters" = none) (h2 : Dict.get? p "model_reporters" = none) :
    (oneIter s B p i x).agentReporters = x.agentReporters ∧
    (oneIter s B p i x).modelReporters = collectorTouch x.modelReporters ∧
    ∀ a ∈ (oneIter s B p i x).results, a ∈ x.results ∨
      (a.agentReporters = x.agentReporters ∧ a.modelReporters = x.modelReporters) := by
  have e1 : popReps p "agent_reporters" = some ([], p) := by simp [popReps, h1]
  have e2 : popReps p "model_reporters" = some ([], p) := by simp [popReps, h2]
  unfold oneIter
  simp only [e1, e2, Dict.update, List.foldl_nil]
  by_cases hB : B ⟨i, iterSeed s.seed i, p, x.modelReporters, x.agentReporters⟩ x.results.length
  all_goals simp only [hB, if_true, if_false, Bool.false_eq_true]
  · refine ⟨trivial, trivial, ?_⟩
    intro a ha
    rcases List.mem_append.1 ha with ha | ha
    · exact Or.inl ha
    · simp at ha; subst ha; exact Or.inr ⟨rfl, rfl⟩
  · exact ⟨trivial, trivial, fun a ha => Or.inl ha⟩

/-- Same reporters up to the built-in ones. -/
def SameUserReps (d e : Dict String String) : Prop :=
  ∀ k, k ≠ "agent_count" → k ≠ "time" → Dict.get? d k = Dict.get? e k

theorem collectorTouch_same (d : Dict String String) : SameUserReps (collectorTouch d) d := by
  intro k h1 h2
  unfold collectorTouch
  split
  · rfl
  · simp only
    split <;> split <;> simp [Dict.get?_set, Ne.symm h1, Ne.symm h2]

/-- All results so far (beyond `old`) have the reporters `ar`/`mr`, and so has the state. -/
def RepsOk (ar mr : Dict String String) (old : List RunArgs) (x : RState) : Prop :=
  x.agentReporters = ar ∧ SameUserReps x.modelReporters mr ∧
  ∀ a ∈ x.results, a ∈ old ∨ (a.agentReporters = ar ∧ SameUserReps a.modelReporters mr)

theorem oneIter_repsOk {s : Sim} {B : Build} {p : Params} {i : Nat} {x : RState}
    {ar mr : Dict String String} {old : List RunArgs} (h : RepsOk ar mr old x)
    (h1 : Dict.get? p "agent_reporters" = none) (h2 : Dict.get? p "model_reporters" = none) :
    RepsOk ar mr old (oneIter s B p i x) := by
  obtain ⟨k1, k2, k3⟩ := oneIter_reps s B p i x h1 h2
  obtain ⟨a1, a2, a3⟩ := h
  refine ⟨k1.trans a1, ?_, ?_⟩
  · intro k hk hk'
    rw [k2, collectorTouch_same _ k hk hk', a2 k hk hk']
  · intro a ha
    rcases k3 a ha with h | ⟨h, h'⟩
    · exact a3 a h
    · exact Or.inr ⟨h.trans a1, h' ▸ a2⟩

theorem runIters_repsOk {s : Sim} {B : Build} {p : Params} {is : List Nat} {x : RState}
    {ar mr : Dict String String} {old : List RunArgs} (h : RepsOk ar mr old x)
    (h1 : Dict.get? p "agent_reporters" = none) (h2 : Dict.get? p "model_reporters" = none) :
    RepsOk ar mr old (runIters s B p is x) := by
  induction is generalizing x with
  | nil => exact h
  | cons i is ih =>
    simp only [runIters]
    split
    · exact ih h
    · split
      · exact oneIter_repsOk h h1 h2
      · exact ih (oneIter_repsOk h h1 h2)

theorem runCombos_repsOk {s : Sim} {B : Build} {ps : List Params} {x : RState}
    {ar mr : Dict String String} {old : List RunArgs} (h : RepsOk ar mr old x)
    (hp : ∀ p ∈ ps, Dict.get? p "agent_reporters" = none ∧ Dict.get? p "model_reporters" = none) :
    RepsOk ar mr old (runCombos s B ps x) := by
  induction ps generalizing x with
  | nil => exact h
  | cons p ps ih =>
    simp only [runCombos]
    obtain ⟨h1, h2⟩ := hp p (by simp)
    split
    · exact runIters_repsOk h h1 h2
    · exact ih (runIters_repsOk h h1 h2) (fun q hq => hp q (by simp [hq]))

end Verif
