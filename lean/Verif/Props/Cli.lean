import Verif.Model.Cli

/-!
# C101-C103: the command line
-/

namespace Verif

theorem cliOpts_wf (m : MainArgs) (o : CliGiven) (d : Dict String CliVal) (h : cliOpts m o = some d) : Dict.WF d := by
  unfold cliOpts at h
  split at h
  · cases h
  have h0 : Dict.WF (cliFixed m o) := by
    unfold Dict.WF cliFixed Dict.keys
    simp
  have h1 : Dict.WF (Dict.update (cliFixed m o) m.kwargs) := h0.update _
  rw [← Option.some.inj h]
  cases o.seed <;> cases o.iterations <;> simp only
  · exact h1
  · exact h1.set _ _
  · exact h1.set _ _
  · exact (h1.set _ _).set _ _

theorem cliOpts_get (m : MainArgs) (o : CliGiven) (hk : Dict.WF m.kwargs) (d : Dict String CliVal) (h : cliOpts m o = some d)
    (k : String) :
    Dict.get? d k =
      if k = "iterations" ∧ o.iterations.isSome = true then o.iterations.map .num
      else if k = "seed" ∧ o.seed.isSome = true then o.seed.map .str
      else (Dict.get? m.kwargs k).or (Dict.get? (cliFixed m o) k) := by
  unfold cliOpts at h
  split at h
  · cases h
  rw [← Option.some.inj h]
  have hu : Dict.get? (Dict.update (cliFixed m o) m.kwargs) k = (Dict.get? m.kwargs k).or (Dict.get? (cliFixed m o) k) := by
    rw [Dict.get?_update _ _ hk]
  cases hs : o.seed <;> cases hi : o.iterations <;> simp only [Option.isSome_some, Option.isSome_none, and_true, and_false,
    Bool.false_eq_true, if_false, Dict.get?_set, hu, Option.map_some, eq_comm (a := "seed"), eq_comm (a := "iterations")]

/-! ### C101 -/

/-- The settings that the command line always overwrites. -/
def Spec.overwritten : List String :=
  ["dry_run", "dump", "debug", "exporters", "num_processes", "level", "outdir", "exporter_params"]

theorem cliFixed_keys (m : MainArgs) (o : CliGiven) : Dict.keys (cliFixed m o) = Spec.overwritten := rfl

/-- C101, what holds: every other setting that is not given on the command line (nor to `main`) keeps its value. -/
theorem C101_kept_partial (m : MainArgs) (o : CliGiven) (hk : Dict.WF m.kwargs) (s s' : Dict String CliVal)
    (h : cliApply m o s = some s') (k : String) (h1 : k ∉ Spec.overwritten) (h2 : Dict.get? m.kwargs k = none)
    (h3 : k = "seed" → o.seed = none) (h4 : k = "iterations" → o.iterations = none) : Dict.get? s' k = Dict.get? s k := by
  unfold cliApply at h
  cases hd : cliOpts m o with
  | none => rw [hd] at h; cases h
  | some d =>
    rw [hd] at h
    rw [← Option.some.inj h, Dict.get?_update _ _ (cliOpts_wf m o d hd), cliOpts_get m o hk d hd]
    have hfix : Dict.get? (cliFixed m o) k = none := by
      rw [Dict.get?_none_iff, cliFixed_keys]; exact h1
    rw [if_neg, if_neg, h2, hfix]
    · rfl
    · rintro ⟨e, hs⟩; rw [h3 e] at hs; cases hs
    · rintro ⟨e, hs⟩; rw [h4 e] at hs; cases hs

/-- C101 is violated for eight settings: whatever the simulation says, they are replaced, also when nothing at all is given. -/
theorem C101_overwritten_false (m : MainArgs) (o : CliGiven) (hk : Dict.WF m.kwargs) (s₁ s₂ s₁' s₂' : Dict String CliVal)
    (h₁ : cliApply m o s₁ = some s₁') (h₂ : cliApply m o s₂ = some s₂') (k : String) (hk8 : k ∈ Spec.overwritten) :
    Dict.get? s₁' k = Dict.get? s₂' k ∧ (Dict.get? s₁' k).isSome = true := by
  unfold cliApply at h₁ h₂
  cases hd : cliOpts m o with
  | none => rw [hd] at h₁; cases h₁
  | some d =>
    rw [hd] at h₁ h₂
    have hsome : (Dict.get? d k).isSome = true := by
      rw [cliOpts_get m o hk d hd]
      have hfix : (Dict.get? (cliFixed m o) k).isSome = true := by
        rw [← Dict.mem_keys, cliFixed_keys]; exact hk8
      split
      · rename_i h; simpa using h.2
      split
      · rename_i h; simpa using h.2
      · cases Dict.get? m.kwargs k <;> simp [hfix]
    obtain ⟨v, hv⟩ := Option.isSome_iff_exists.1 hsome
    rw [← Option.some.inj h₁, ← Option.some.inj h₂, Dict.get?_update _ _ (cliOpts_wf m o d hd),
      Dict.get?_update _ _ (cliOpts_wf m o d hd), hv]
    exact ⟨rfl, rfl⟩

/-- Without any option, a simulation that was not to write anything, with its own exporters and folder, writes to `soil_output`. -/
theorem C101_witness_false : cliApply {} {} [("dump", .bool false), ("exporters", .strs ["csv"]), ("outdir", .str "mine"), ("seed", .str "s")] =
    some [("dump", .bool true), ("exporters", .strs ["default"]), ("outdir", .str "soil_output"), ("seed", .str "s"),
      ("dry_run", .bool false), ("debug", .bool false), ("num_processes", .num 1), ("level", .num 20),
      ("exporter_params", .emptyDict)] := by
  decide +kernel

/-! ### C102 -/

/-- C102, what holds: `--dry-run`, `--no-dump`, `--debug`, `--level`, `--seed` and `--iterations` take effect, as do the other arguments
of `main`. Missing: `--output`, see below. -/
theorem C102_given_partial (m : MainArgs) (o : CliGiven) (hk : Dict.WF m.kwargs) (s s' : Dict String CliVal)
    (h : cliApply m o s = some s') :
    Dict.get? s' "dry_run" = some (.bool o.dryRun) ∧ Dict.get? s' "dump" = some (.bool (!o.noDump)) ∧
    Dict.get? s' "debug" = some (.bool (m.debug || o.debug)) ∧
    (∀ n, o.level = some n → Dict.get? s' "level" = some (.num n)) ∧
    (∀ x, o.seed = some x → Dict.get? s' "seed" = some (.str x)) ∧
    (∀ n, o.iterations = some n → Dict.get? s' "iterations" = some (.num n)) ∧
    (∀ k v, Dict.get? m.kwargs k = some v → (k = "seed" → o.seed = none) → (k = "iterations" → o.iterations = none) →
      Dict.get? s' k = some v) := by
  unfold cliApply at h
  cases hd : cliOpts m o with
  | none => rw [hd] at h; cases h
  | some d =>
    rw [hd] at h
    have hnone : ∀ k ∈ Spec.overwritten, Dict.get? m.kwargs k = none := by
      intro k hk8
      unfold cliOpts at hd
      split at hd
      · cases hd
      rename_i hany
      cases hg : Dict.get? m.kwargs k with
      | none => rfl
      | some v =>
        exfalso
        apply hany
        rw [List.any_eq_true]
        refine ⟨(k, v), Dict.get?_mem hg, ?_⟩
        rw [Dict.has, ← Dict.mem_keys, cliFixed_keys]; exact hk8
    have key : ∀ k v, Dict.get? d k = some v → Dict.get? s' k = some v := by
      intro k v hv
      rw [← Option.some.inj h, Dict.get?_update _ _ (cliOpts_wf m o d hd), hv]; rfl
    have fixed : ∀ k v, k ∈ Spec.overwritten → Dict.get? (cliFixed m o) k = some v → Dict.get? s' k = some v := by
      intro k v hk8 hv
      apply key
      rw [cliOpts_get m o hk d hd, hnone k hk8, hv, if_neg, if_neg]
      · rfl
      · rintro ⟨rfl, _⟩; exact absurd hk8 (by decide)
      · rintro ⟨rfl, _⟩; exact absurd hk8 (by decide)
    refine ⟨fixed _ _ (by decide) rfl, fixed _ _ (by decide) rfl, fixed _ _ (by decide) rfl, ?_, ?_, ?_, ?_⟩
    · intro n hn
      refine fixed _ _ (by decide) ?_
      simp [cliFixed, Dict.get?, hn]
    · intro x hx
      apply key
      rw [cliOpts_get m o hk d hd, if_neg (by simp), if_pos (by simp [hx]), hx]; rfl
    · intro n hn
      apply key
      rw [cliOpts_get m o hk d hd, if_pos (by simp [hn]), hn]; rfl
    · intro k v hv h1 h2
      apply key
      rw [cliOpts_get m o hk d hd, if_neg, if_neg, hv]
      · rfl
      · rintro ⟨e, hs⟩; rw [h1 e] at hs; cases hs
      · rintro ⟨e, hs⟩; rw [h2 e] at hs; cases hs

/-- C102 is violated: unless the caller of `main` passes `output=None`, `--output` has no effect at all. -/
theorem C102_output_false (m : MainArgs) (o : CliGiven) (hm : m.output ≠ none) (out : Option String) (s : Dict String CliVal) :
    cliApply m { o with output := out } s = cliApply m o s := by
  cases hx : m.output with
  | none => exact absurd hx hm
  | some x =>
    have : ∀ o : CliGiven, cliOutdir m o = x := fun o => by simp [cliOutdir, hx]
    have hf : cliFixed m { o with output := out } = cliFixed m o := by
      unfold cliFixed
      rw [this, this]
      rfl
    unfold cliApply cliOpts
    rw [hf]

/-- ... and with `output=None` it has. -/
theorem C102_output_partial (m : MainArgs) (o : CliGiven) (hk : Dict.WF m.kwargs) (hm : m.output = none) (x : String)
    (ho : o.output = some x) (s s' : Dict String CliVal) (h : cliApply m o s = some s') :
    Dict.get? s' "outdir" = some (.str x) := by
  unfold cliApply at h
  cases hd : cliOpts m o with
  | none => rw [hd] at h; cases h
  | some d =>
    rw [hd] at h
    have hkw : Dict.get? m.kwargs "outdir" = none := by
      unfold cliOpts at hd
      split at hd
      · cases hd
      rename_i hany
      cases hg : Dict.get? m.kwargs "outdir" with
      | none => rfl
      | some v =>
        exfalso
        apply hany
        rw [List.any_eq_true]
        exact ⟨("outdir", v), Dict.get?_mem hg, by rw [Dict.has, ← Dict.mem_keys, cliFixed_keys]; simp [Spec.overwritten]⟩
    have : Dict.get? d "outdir" = some (.str x) := by
      rw [cliOpts_get m o hk d hd, if_neg (by simp), if_neg (by simp), hkw]
      simp [cliFixed, Dict.get?, cliOutdir, hm, ho]
    rw [← Option.some.inj h, Dict.get?_update _ _ (cliOpts_wf m o d hd), this]; rfl

/-! ### C103 -/

theorem addMissing_spec (es l : List String) (hl : l.Nodup) :
    (es.foldl (fun l e => if e ∈ l then l else l ++ [e]) l).Nodup ∧
    l <+: es.foldl (fun l e => if e ∈ l then l else l ++ [e]) l ∧
    ∀ e, e ∈ es.foldl (fun l e => if e ∈ l then l else l ++ [e]) l ↔ e ∈ l ∨ e ∈ es := by
  induction es generalizing l with
  | nil => simp [hl]
  | cons x es ih =>
    simp only [List.foldl_cons]
    by_cases hx : x ∈ l
    · rw [if_pos hx]
      obtain ⟨h1, h2, h3⟩ := ih l hl
      refine ⟨h1, h2, fun e => ?_⟩
      rw [h3]
      constructor
      · rintro (h | h)
        · exact Or.inl h
        · exact Or.inr (by simp [h])
      · rintro (h | h)
        · exact Or.inl h
        · rcases List.mem_cons.1 h with rfl | h
          · exact Or.inl hx
          · exact Or.inr h
    · rw [if_neg hx]
      obtain ⟨h1, h2, h3⟩ := ih (l ++ [x]) (by
        rw [List.nodup_append]
        refine ⟨hl, by simp, ?_⟩
        intro a ha b hb
        simp only [List.mem_singleton] at hb
        subst hb
        rintro rfl
        exact hx ha)
      refine ⟨h1, (List.prefix_append _ _).trans h2, fun e => ?_⟩
      rw [h3]
      simp [or_assoc]

/-- What the exporters start from: those of the caller, or the default one. -/
def Spec.initialExporters (m : MainArgs) : List String :=
  match m.exporters with
  | some (e :: l) => e :: l
  | _ => ["default"]

theorem cliExporters_eq (m : MainArgs) (o : CliGiven) : cliExporters m o =
    o.exporter.foldl (fun l e => if e ∈ l then l else l ++ [e]) (Spec.initialExporters m) ++
      ((if o.csv then ["csv"] else []) ++ (if o.graph then ["gexf"] else [])) := by
  unfold cliExporters Spec.initialExporters
  rcases m.exporters with _ | _ | ⟨e, l⟩ <;> cases o.csv <;> cases o.graph <;> simp

/-- C103, what holds: the exporters are those of the caller (or the default one) followed by those asked for; each is there once if
the options `--csv` and `--graph` do not repeat one of the others. -/
theorem C103_exporters_partial (m : MainArgs) (o : CliGiven) (hm : (Spec.initialExporters m).Nodup) :
    Spec.initialExporters m <+: cliExporters m o ∧
    (∀ e, e ∈ cliExporters m o ↔ e ∈ Spec.initialExporters m ∨ e ∈ o.exporter ∨ (o.csv = true ∧ e = "csv") ∨
      (o.graph = true ∧ e = "gexf")) ∧
    ((o.csv = true → "csv" ∉ Spec.initialExporters m ∧ "csv" ∉ o.exporter) →
      (o.graph = true → "gexf" ∉ Spec.initialExporters m ∧ "gexf" ∉ o.exporter) → (cliExporters m o).Nodup) := by
  obtain ⟨h1, h2, h3⟩ := addMissing_spec o.exporter (Spec.initialExporters m) hm
  rw [cliExporters_eq]
  refine ⟨h2.trans (List.prefix_append _ _), ?_, ?_⟩
  · intro e
    rw [List.mem_append, h3, or_assoc]
    cases o.csv <;> cases o.graph <;> simp
  · intro hc hg
    have hcsv : o.csv = true → ∀ a ∈ o.exporter.foldl (fun l e => if e ∈ l then l else l ++ [e]) (Spec.initialExporters m), a ≠ "csv" := by
      rintro h a ha rfl
      rcases (h3 _).1 ha with h' | h'
      · exact (hc h).1 h'
      · exact (hc h).2 h'
    have hgr : o.graph = true → ∀ a ∈ o.exporter.foldl (fun l e => if e ∈ l then l else l ++ [e]) (Spec.initialExporters m), a ≠ "gexf" := by
      rintro h a ha rfl
      rcases (h3 _).1 ha with h' | h'
      · exact (hg h).1 h'
      · exact (hg h).2 h'
    rw [List.nodup_append]
    cases hcv : o.csv <;> cases hgv : o.graph
    · simp [h1]
    · refine ⟨h1, by simp, ?_⟩
      intro a ha b hb
      simp at hb
      subst hb
      exact hgr hgv a ha
    · refine ⟨h1, by simp, ?_⟩
      intro a ha b hb
      simp at hb
      subst hb
      exact hcsv hcv a ha
    · refine ⟨h1, by simp, ?_⟩
      intro a ha b hb
      simp at hb
      rcases hb with rfl | rfl
      · exact hcsv hcv a ha
      · exact hgr hgv a ha

/-- C103 is violated: with `-e csv --csv` (or `--csv` and `csv` among the caller's exporters) everything is written twice. -/
theorem C103_twice_false (m : MainArgs) (o : CliGiven) (hm : (Spec.initialExporters m).Nodup) (hc : o.csv = true)
    (h : "csv" ∈ Spec.initialExporters m ∨ "csv" ∈ o.exporter) : 2 ≤ (cliExporters m o).count "csv" := by
  obtain ⟨_, _, h3⟩ := addMissing_spec o.exporter (Spec.initialExporters m) hm
  have hmem := (h3 "csv").2 h
  have := List.count_pos_iff.2 hmem
  rw [cliExporters_eq, List.count_append, List.count_append, if_pos hc]
  simp only [List.count_singleton, beq_self_eq_true, if_true]
  omega

/-- C103 is violated: the list of the caller grows, so that a second call of `main` with the same list uses the options of the first. -/
theorem C103_caller_list_false (e : String) (l : List String) (m : MainArgs) (o : CliGiven) (hm : m.exporters = some (e :: l))
    (x : String) (hx : x ∈ o.exporter) :
    ∃ l', exportersAfter m o = some l' ∧ x ∈ cliExporters { m with exporters := some l' } {} := by
  have hi : Spec.initialExporters m = e :: l := by simp [Spec.initialExporters, hm]
  have hgen : ∀ (es l : List String), x ∈ l ∨ x ∈ es → x ∈ es.foldl (fun l e => if e ∈ l then l else l ++ [e]) l := by
    intro es
    induction es with
    | nil => intro l h; simpa using h
    | cons y es ih =>
      intro l h
      simp only [List.foldl_cons]
      apply ih
      rcases h with h | h
      · left; split <;> simp [h]
      · rcases List.mem_cons.1 h with rfl | h
        · left; split
          · assumption
          · simp
        · exact Or.inr h
  have hpre : ∀ (es l : List String), l ≠ [] → es.foldl (fun l e => if e ∈ l then l else l ++ [e]) l ≠ [] := by
    intro es
    induction es with
    | nil => intro l h; exact h
    | cons y es ih =>
      intro l h
      simp only [List.foldl_cons]
      apply ih
      split <;> simp [h]
  have hxm : x ∈ cliExporters m o := by
    have : x ∈ o.exporter.foldl (fun l e => if e ∈ l then l else l ++ [e]) (e :: l) := hgen _ _ (Or.inr hx)
    unfold cliExporters
    simp only [hm]
    split <;> split <;> simp [this]
  refine ⟨cliExporters m o, by simp [exportersAfter, hm], ?_⟩
  cases hc : cliExporters m o with
  | nil => rw [hc] at hxm; cases hxm
  | cons a b =>
    rw [hc] at hxm
    simpa [cliExporters] using hxm

example : cliExporters { exporters := some ["summary"] } { exporter := ["csv", "summary", "x"], graph := true } =
    ["summary", "csv", "x", "gexf"] ∧
    cliExporters {} { exporter := ["csv"], csv := true } = ["default", "csv", "csv"] := by decide +kernel

example : (cliApply { kwargs := [("skip_test", .bool true)] }
    { seed := some "x", output := some "o", numProcesses := some "4" } [("seed", .str "y"), ("name", .str "n")]).map
      (fun s => (Dict.get? s "seed", Dict.get? s "outdir", Dict.get? s "name", Dict.get? s "skip_test")) =
    some (some (.str "x"), some (.str "soil_output"), some (.str "n"), some (.bool true)) := by decide +kernel

example : cliApply { kwargs := [("dump", .bool true)] } {} [] = none := by decide +kernel

end Verif
