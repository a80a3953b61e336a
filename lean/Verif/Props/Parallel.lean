import Verif.Model.Parallel
import Verif.Proofs.Simulation

/-!
# C91: parameters reach the model; C92, C93: processes
-/

namespace Verif

variable {α : Type}

/-! ### C91 -/

/-- The names that the calls between a simulation and its model class use for themselves. -/
def Spec.taken : List String :=
  ["func", "iterable", "self", "iteration_id", "id", "seed", "dir_path", "logger", "tables"]

/-- Deleting other keys does not change whether a key is there. -/
theorem has_del_ne (d : Params) (hd : Dict.WF d) (k k' : String) (h : k ≠ k') : Dict.has (Dict.del d k) k' = Dict.has d k' := by
  unfold Dict.has
  rw [Dict.get?_del d hd, if_neg h]

theorem popReps_get {d d' : Params} (hd : Dict.WF d) {k : String} {r : Dict String String} (h : popReps d k = some (r, d'))
    (k' : String) (hk : k' ≠ k) : Dict.get? d' k' = Dict.get? d k' := by
  rw [popReps_del h, Dict.get?_del d hd, if_neg (Ne.symm hk)]

/-- `passParams` in one formula. -/
theorem passParams_eq (s : Sim) (i : Nat) (p : Params) (hp : Dict.WF p) (mr ar : Dict String String) (a : RunArgs)
    (h : passParams s i p mr ar = some a) :
    (∀ n ∈ Spec.taken, Dict.has p n = false) ∧ a.id = i ∧ a.seed = iterSeed s.seed i ∧
    ∀ k, Dict.get? a.params k =
      if k = "num_processes" ∨ k = "agent_reporters" ∨ k = "model_reporters" then none else Dict.get? p k := by
  unfold passParams callRunParallel at h
  by_cases h1 : (Dict.has p "func" || Dict.has p "iterable") = true
  · rw [if_pos h1] at h; cases h
  rw [if_neg h1] at h
  simp only [callRunModel] at h
  by_cases h2 : (Dict.has (Dict.del p "num_processes") "self" || Dict.has (Dict.del p "num_processes") "iteration_id") = true
  · rw [if_pos h2] at h; cases h
  rw [if_neg h2] at h
  simp only [callModel] at h
  have hp0 : Dict.WF (Dict.del p "num_processes") := hp.del _
  cases h3 : popReps (Dict.del p "num_processes") "agent_reporters" with
  | none => rw [h3] at h; cases h
  | some r1 =>
    obtain ⟨ar', p1⟩ := r1
    rw [h3] at h
    simp only at h
    have e1 := popReps_del h3
    have hp1 : Dict.WF p1 := by rw [e1]; exact hp0.del _
    cases h4 : popReps p1 "model_reporters" with
    | none => rw [h4] at h; cases h
    | some r2 =>
      obtain ⟨mr', p2⟩ := r2
      rw [h4] at h
      simp only at h
      have e2 := popReps_del h4
      have hp2 : Dict.WF p2 := by rw [e2]; exact hp1.del _
      have hget : ∀ k, Dict.get? p2 k =
          if k = "num_processes" ∨ k = "agent_reporters" ∨ k = "model_reporters" then none else Dict.get? p k := by
        intro k
        rw [e2, Dict.get?_del p1 hp1, e1, Dict.get?_del _ hp0, Dict.get?_del p hp]
        by_cases k1 : k = "num_processes"
        · subst k1; simp
        · by_cases k2 : k = "agent_reporters"
          · subst k2; simp
          · by_cases k3 : k = "model_reporters"
            · subst k3; simp
            · simp [k1, k2, k3, Ne.symm k1, Ne.symm k2, Ne.symm k3]
      by_cases h5 : ["id", "seed", "dir_path", "logger", "tables"].any (Dict.has p2) = true
      · rw [if_pos h5] at h; cases h
      rw [if_neg h5] at h
      cases h
      refine ⟨?_, rfl, rfl, hget⟩
      rw [has_del_ne p hp _ _ (by decide), has_del_ne p hp _ _ (by decide)] at h2
      simp only [Bool.or_eq_true, not_or, Bool.not_eq_true] at h1 h2
      have h5' : ∀ n ∈ ["id", "seed", "dir_path", "logger", "tables"], Dict.has p2 n = false := by
        intro n hn
        by_contra hc
        exact h5 (List.any_eq_true.2 ⟨n, hn, by simpa using hc⟩)
      intro n hn
      simp only [Spec.taken, List.mem_cons, List.not_mem_nil, or_false] at hn
      have h6 : ∀ n, n ∈ ["id", "seed", "dir_path", "logger", "tables"] → ¬ (n = "num_processes" ∨ n = "agent_reporters" ∨ n = "model_reporters") →
          Dict.has p n = false := by
        intro n hn hne
        have := h5' n hn
        unfold Dict.has at this ⊢
        rw [hget n, if_neg hne] at this
        exact this
      rcases hn with rfl | rfl | rfl | rfl | hn
      · exact h1.1
      · exact h1.2
      · exact h2.1
      · exact h2.2
      · refine h6 n (by simpa using hn) ?_
        rcases hn with rfl | rfl | rfl | rfl | rfl <;> decide

/-- C91: with ordinary parameter names the model class is called, with every parameter of the combination and nothing else (the
reporters are passed separately). -/
theorem C91_passed_partial (s : Sim) (i : Nat) (p : Params) (hp : Dict.WF p) (mr ar : Dict String String)
    (hn : ∀ n ∈ Spec.taken, Dict.has p n = false) (hnp : Dict.has p "num_processes" = false)
    (hr : ∀ k v, (k = "agent_reporters" ∨ k = "model_reporters") → Dict.get? p k = some v → ∃ d, v = .reps d) :
    ∃ a, passParams s i p mr ar = some a ∧ a.id = i ∧ a.seed = iterSeed s.seed i ∧
      ∀ k, k ≠ "agent_reporters" → k ≠ "model_reporters" → Dict.get? a.params k = Dict.get? p k := by
  have hnpn : Dict.get? p "num_processes" = none := by simpa [Dict.has] using hnp
  have hdel : Dict.del p "num_processes" = p := Dict.del_of_absent hnpn
  have hsome : ∃ a, passParams s i p mr ar = some a := by
    have t : ∀ n ∈ Spec.taken, Dict.get? p n = none := fun n h => by simpa [Dict.has] using hn n h
    unfold passParams callRunParallel
    rw [hn "func" (by decide), hn "iterable" (by decide)]
    simp only [Bool.or_self, Bool.false_eq_true, if_false, hdel, callRunModel]
    rw [hn "self" (by decide), hn "iteration_id" (by decide)]
    simp only [Bool.or_self, Bool.false_eq_true, if_false, callModel]
    have q1 : ∃ r p1, popReps p "agent_reporters" = some (r, p1) := by
      unfold popReps
      cases h : Dict.get? p "agent_reporters" with
      | none => exact ⟨_, _, rfl⟩
      | some v =>
        obtain ⟨d, rfl⟩ := hr _ v (Or.inl rfl) h
        exact ⟨_, _, rfl⟩
    obtain ⟨r1, p1, q1⟩ := q1
    rw [q1]
    simp only
    have e1 := popReps_del q1
    have hp1 : Dict.WF p1 := by rw [e1]; exact hp.del _
    have q2 : ∃ r p2, popReps p1 "model_reporters" = some (r, p2) := by
      unfold popReps
      cases h : Dict.get? p1 "model_reporters" with
      | none => exact ⟨_, _, rfl⟩
      | some v =>
        rw [e1, Dict.get?_del p hp, if_neg (by decide)] at h
        obtain ⟨d, rfl⟩ := hr _ v (Or.inr rfl) h
        exact ⟨_, _, rfl⟩
    obtain ⟨r2, p2, q2⟩ := q2
    rw [q2]
    simp only
    rw [if_neg]
    · exact ⟨_, rfl⟩
    · intro hc
      obtain ⟨n, hn1, hn2⟩ := List.any_eq_true.1 hc
      unfold Dict.has at hn2
      have hne : n ≠ "model_reporters" ∧ n ≠ "agent_reporters" ∧ n ∈ Spec.taken := by
        simp only [List.mem_cons, List.not_mem_nil, or_false] at hn1
        rcases hn1 with rfl | rfl | rfl | rfl | rfl <;> decide
      rw [popReps_get hp1 q2 n hne.1, popReps_get hp q1 n hne.2.1, t n hne.2.2] at hn2
      cases hn2
  obtain ⟨a, ha⟩ := hsome
  obtain ⟨_, h1, h2, h3⟩ := passParams_eq s i p hp mr ar a ha
  refine ⟨a, ha, h1, h2, fun k k1 k2 => ?_⟩
  rw [h3 k]
  by_cases k3 : k = "num_processes"
  · subst k3; simp [hnpn]
  · simp [k1, k2, k3]

/-- C91 is violated by names that the calls use themselves: the run fails (`TypeError`) although the model may well have a parameter
of that name. -/
theorem C91_taken_false (s : Sim) (i : Nat) (p : Params) (hp : Dict.WF p) (mr ar : Dict String String) (n : String)
    (hn : n ∈ Spec.taken) (hh : Dict.has p n = true) : passParams s i p mr ar = none := by
  cases h : passParams s i p mr ar with
  | none => rfl
  | some a =>
    have := (passParams_eq s i p hp mr ar a h).1 n hn
    rw [hh] at this; cases this

/-- C91 is violated by a parameter called `num_processes`: the model never gets it. -/
theorem C91_num_processes_false (s : Sim) (i : Nat) (p : Params) (hp : Dict.WF p) (mr ar : Dict String String) (a : RunArgs)
    (h : passParams s i p mr ar = some a) : Dict.get? a.params "num_processes" = none := by
  rw [(passParams_eq s i p hp mr ar a h).2.2.2]
  simp

/-- The model of a run used for C49-C56 passes the parameters on in one go; it agrees with the calls one by one. -/
theorem C91_agrees (s : Sim) (B : Build) (i : Nat) (p : Params) (x : RState) (hx : x.failed = false)
    (hnp : Dict.has p "num_processes" = false) (a : RunArgs)
    (h : passParams s i p x.modelReporters x.agentReporters = some a) :
    (oneIter s B p i x).results = (if B a x.results.length then x.results ++ [a] else x.results) ∧
    (oneIter s B p i x).failed = !B a x.results.length := by
  have hdel : Dict.del p "num_processes" = p := Dict.del_of_absent (by simpa [Dict.has] using hnp)
  unfold passParams callRunParallel at h
  split at h
  · cases h
  rename_i kw heq
  split at heq
  · cases heq
  simp only [hdel, Option.some.injEq, Prod.mk.injEq] at heq
  obtain ⟨_, rfl⟩ := heq
  simp only [callRunModel] at h
  split at h
  · cases h
  rename_i kw' heq
  split at heq
  · cases heq
  simp only [Option.some.injEq] at heq
  subst heq
  unfold callModel at h
  unfold oneIter
  cases h3 : popReps p "agent_reporters" with
  | none => rw [h3] at h; cases h
  | some r1 =>
    obtain ⟨ar', p1⟩ := r1
    rw [h3] at h
    simp only at h ⊢
    cases h4 : popReps p1 "model_reporters" with
    | none => rw [h4] at h; cases h
    | some r2 =>
      obtain ⟨mr', p2⟩ := r2
      rw [h4] at h
      simp only at h ⊢
      split at h
      · cases h
      · cases h
        by_cases hb : B ⟨i, iterSeed s.seed i, p2, Dict.update x.modelReporters mr', Dict.update x.agentReporters ar'⟩ x.results.length = true
        · simp [hb, hx]
        · simp [hb]

def exPassParams : Params := [("n", .val 3), ("model_reporters", .reps [("r", "f")]), ("p", .val 5)]

example : passParams {} 2 exPassParams [("x", "g")] [] =
      some ⟨2, "default_iteration_2", [("n", .val 3), ("p", .val 5)], [("x", "g"), ("r", "f")], []⟩ ∧
    passParams {} 2 (("num_processes", .val 4) :: exPassParams) [("x", "g")] [] = passParams {} 2 exPassParams [("x", "g")] [] ∧
    passParams {} 2 (("id", .val 4) :: exPassParams) [] [] = none ∧
    passParams {} 2 (("iteration_id", .val 4) :: exPassParams) [] [] = none := by
  decide +kernel

/-! ### C92 -/

/-- C92: in one process, the results are those of the iterations in order, up to the first that fails, whose exception reaches the
caller. -/
theorem C92_sequential (f : Nat → Option α) (it arrival : List Nat) (np cpu : Int) (debug : Bool) (h : np ≤ 1 ∨ debug = true) :
    (runParallel f it np cpu debug arrival).1.map some = (it.map f).takeWhile Option.isSome ∧
    ((runParallel f it np cpu debug arrival).2 = true ↔ ∃ i ∈ it, f i = none) := by
  have hp : poolSize np cpu debug = none := by
    unfold poolSize
    rw [if_neg]
    rintro ⟨h1, h2⟩
    rcases h with h | h
    · omega
    · rw [h] at h2; cases h2
  unfold runParallel
  rw [hp]
  simp only
  induction it with
  | nil => simp [runSeq]
  | cons i it ih =>
    simp only [runSeq]
    cases hf : f i with
    | none => simp [hf]
    | some v => simp [hf, ih.1, ih.2]

/-- C92: when no iteration fails, the number of processes does not matter except for the order. -/
theorem C92_parallel_same_partial (f : Nat → Option α) (it arrival : List Nat) (np np' cpu : Int) (debug : Bool)
    (ha : arrival.Perm it) (hok : ∀ i ∈ it, (f i).isSome = true) :
    (runParallel f it np cpu debug arrival).1.Perm (runParallel f it np' cpu debug arrival).1 ∧
    (runParallel f it np cpu debug arrival).2 = false := by
  have hseq : ∀ l : List Nat, (∀ i ∈ l, (f i).isSome = true) → runSeq f l = (l.filterMap f, false) := by
    intro l
    induction l with
    | nil => intro _; rfl
    | cons i l ih =>
      intro h
      obtain ⟨v, hv⟩ := Option.isSome_iff_exists.1 (h i (by simp))
      simp [runSeq, hv, ih (fun j hj => h j (by simp [hj]))]
  have key : ∀ np, (runParallel f it np cpu debug arrival).1.Perm (it.filterMap f) ∧
      (runParallel f it np cpu debug arrival).2 = false := by
    intro np
    unfold runParallel
    cases poolSize np cpu debug with
    | none => simp only [hseq it hok]; exact ⟨List.Perm.refl _, trivial⟩
    | some m => exact ⟨ha.filterMap f, rfl⟩
  exact ⟨(key np).1.trans (key np').1.symm, (key np).2⟩

/-- C92 is violated when iterations fail: with several processes no exception ever reaches the caller, and exactly the results of the
failing iterations are missing. -/
theorem C92_failures_hidden_false (f : Nat → Option α) (it arrival : List Nat) (np cpu : Int) (ha : arrival.Perm it) (hnp : 1 < np) :
    (runParallel f it np cpu false arrival).2 = false ∧
    (runParallel f it np cpu false arrival).1.length + (it.filter (fun i => (f i).isNone)).length = it.length := by
  have hp : poolSize np cpu false = some np := by
    unfold poolSize
    rw [if_pos ⟨hnp, rfl⟩, if_neg (by omega)]
  unfold runParallel
  rw [hp]
  refine ⟨rfl, ?_⟩
  simp only
  rw [(ha.filterMap f).length_eq]
  induction it generalizing arrival with
  | nil => rfl
  | cons i it ih =>
    have ih := ih it (List.Perm.refl _)
    cases hf : f i <;> simp [hf] <;> omega

example : runParallel (fun i => if i = 2 then none else some (10 * i)) [0, 1, 2, 3] 1 8 false [] = ([0, 10], true) ∧
    runParallel (fun i => if i = 2 then none else some (10 * i)) [0, 1, 2, 3] 3 8 false [1, 3, 2, 0] = ([10, 30, 0], false) := by
  decide

/-! ### C93 -/

/-- C93 is violated: a `num_processes` of 0 or less never uses a pool, whatever the number of processors (the line that computes
their number is never reached). -/
theorem C93_all_processors_false (np cpu : Int) (debug : Bool) (h : np < 1) : poolSize np cpu debug = none := by
  unfold poolSize
  rw [if_neg (by omega)]

/-- C93: a pool has exactly the number of processes asked for; there is one exactly if more than one is asked for and debugging is
off. -/
theorem C93_exact_partial (np cpu : Int) (debug : Bool) (m : Int) : poolSize np cpu debug = some m ↔ m = np ∧ 1 < np ∧ debug = false := by
  unfold poolSize
  by_cases h : np > 1 ∧ debug = false
  · rw [if_pos h, if_neg (by omega)]
    simp only [Option.some.injEq]
    exact ⟨fun e => ⟨e.symm, h⟩, fun e => e.1.symm⟩
  · rw [if_neg h]
    simp only [reduceCtorEq, false_iff]
    rintro ⟨_, h2⟩
    exact h h2

/-- C93 is violated: the field `num_processes` of a simulation has no effect; without a parameter of that name there is no pool. -/
theorem C93_field_ignored_false (field : Nat) (hf : 1 < field) (p : Params) (hp : Dict.has p "num_processes" = false) :
    processes field p = some 1 ∨ processes field p = none := by
  unfold processes callRunParallel
  by_cases h : (Dict.has p "func" || Dict.has p "iterable") = true
  · rw [if_pos h]; exact Or.inr rfl
  · rw [if_neg h, show Dict.get? p "num_processes" = none by simpa [Dict.has] using hp]
    exact Or.inl rfl

example : processes 4 [("n", .val 3)] = some 1 ∧ processes 1 [("num_processes", .val 3)] = some 3 := by decide +kernel

example : poolSize 4 8 false = some 4 ∧ poolSize 0 8 false = none ∧ poolSize 4 8 true = none := by decide

end Verif
