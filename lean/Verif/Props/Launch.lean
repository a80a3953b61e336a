import Verif.Model.Launch

/-!
# C251: all ways to launch a simulation
-/

namespace Verif

/-- The defaults of the class that matter here (soil/simulation.py:80-107), and a working directory that is an absolute path. -/
structure LWorld.Std (w : LWorld) : Prop where
  cwd : isAbs w.cwd = true
  name : w.defaults "name" = .none
  iterations : w.defaults "iterations" = .other true 1
  processes : w.defaults "num_processes" = .other true 1
  dump : w.defaults "dump" = .other false 0

/-- The fields of a simulation after `__post_init__`: the name is a text, the model is not, and the source file is an absolute path if there is one. -/
structure Settled (f : LFields) : Prop where
  name : ∃ s, f "name" = .text s
  model : ∀ s, f "model" ≠ .text s
  source : (f "source_file").truthy = true → ∃ s, f "source_file" = .text s ∧ isAbs s = true

private theorem isAbs_append {a : Str} (h : isAbs a = true) (b : Str) : isAbs (a ++ b) = true := by
  cases a with
  | nil => cases h
  | cons c a => exact h

private theorem absDir_abs {w : LWorld} (hw : isAbs w.cwd = true) (s : Str) : isAbs (absDir w s) = true := by
  unfold absDir joinDir
  split
  · assumption
  · split
    · exact isAbs_append hw s
    · exact isAbs_append hw _

private theorem launchSource_abs {w : LWorld} (hw : isAbs w.cwd = true) {f : LFields} {v : LVal} (h : launchSource w f = .ok v) :
    v.truthy = true → ∃ s, v = .text s ∧ isAbs s = true := by
  intro ht
  unfold launchSource at h
  split at h
  · split at h
    · rename_i s _
      split at h
      · cases h; exact ⟨s, rfl, by assumption⟩
      · split at h
        · cases h; exact ⟨_, rfl, absDir_abs hw _⟩
        · cases h
    · cases h
  · rename_i hn
    cases h
    exact absurd ht hn

private theorem launchModel_class {w : LWorld} {src : LVal} {f : LFields} {v : LVal} (h : launchModel w src f = .ok v) : ∀ s, v ≠ .text s := by
  intro s hc
  unfold launchModel at h
  split at h
  · split at h
    · cases h; cases hc
    · cases h
  · rename_i hn
    cases h
    exact hn s hc

/-- What `__post_init__` does to the fields, in one line. -/
theorem postInit_iff {w : LWorld} {f g : LFields} : postInit w f = .ok g ↔
    ∃ n src m, launchName f = .ok n ∧ launchSource w f = .ok src ∧ launchModel w src f = .ok m ∧
      g = fun k => if k = "name" then .text n else if k = "source_file" then src else if k = "model" then m else f k := by
  unfold postInit
  cases h1 : launchName f with
  | error e => simp
  | ok n =>
    cases h2 : launchSource w f with
    | error e => simp
    | ok src =>
      cases h3 : launchModel w src f with
      | error e => simp [h3]
      | ok m => simp [h3, eq_comm]

theorem postInit_settled {w : LWorld} (hw : isAbs w.cwd = true) {f g : LFields} (h : postInit w f = .ok g) : Settled g := by
  obtain ⟨n, src, m, -, h2, h3, rfl⟩ := postInit_iff.1 h
  exact ⟨⟨n, by simp⟩, fun s hc => launchModel_class h3 s (by simpa using hc), fun ht => launchSource_abs hw h2 (by simpa using ht)⟩

theorem Settled.postInit {w : LWorld} {f : LFields} (h : Settled f) : postInit w f = .ok f := by
  obtain ⟨⟨n, hn⟩, hm, hs⟩ := h
  refine postInit_iff.2 ⟨n, f "source_file", f "model", ?_, ?_, ?_, ?_⟩
  · unfold launchName
    rw [hn]
  · unfold launchSource
    split
    · rename_i ht
      obtain ⟨s, e, ha⟩ := hs ht
      rw [e]
      simp [ha]
    · rfl
  · unfold launchModel
    split
    · rename_i s e
      exact absurd e (hm s)
    · rfl
  · funext k
    by_cases h1 : k = "name"
    · subst h1; simp [hn]
    · by_cases h2 : k = "source_file"
      · subst h2; simp
      · by_cases h3 : k = "model"
        · subst h3; simp
        · simp [h1, h2, h3]

/-- All arguments are fields. -/
def OnlyFields (kw : Dict String LVal) : Prop := ∀ k, Dict.has kw k = true → k ∈ simFieldNames

theorem onlyFields_iff (kw : Dict String LVal) : kw.all (fun p => decide (p.1 ∈ simFieldNames)) = true ↔ OnlyFields kw := by
  rw [List.all_eq_true]
  constructor
  · intro h k hk
    have : k ∈ Dict.keys kw := (Dict.mem_keys kw k).2 hk
    obtain ⟨p, hp, rfl⟩ := List.mem_map.1 this
    exact of_decide_eq_true (h p hp)
  · intro h p hp
    exact decide_eq_true (h p.1 ((Dict.mem_keys kw p.1).1 (List.mem_map.2 ⟨p, hp, rfl⟩)))

/-- C251, what is made of the arguments: a simulation can be constructed only from fields, and its name, its source file and its model are settled; all other fields are as
given, or the default. -/
theorem C251_construct (w : LWorld) (hw : w.Std) (kw : Dict String LVal) (g : LFields) (h : construct w kw = .ok g) :
    OnlyFields kw ∧ Settled g ∧ ∀ k, k ≠ "name" → k ≠ "source_file" → k ≠ "model" → g k = (Dict.get? kw k).getD (w.defaults k) := by
  unfold construct at h
  split at h
  · rename_i hk
    refine ⟨(onlyFields_iff kw).1 hk, postInit_settled hw.cwd h, ?_⟩
    intro k h1 h2 h3
    obtain ⟨n, src, m, -, -, -, rfl⟩ := postInit_iff.1 h
    simp [h1, h2, h3, override]
  · cases h

/-- C251: the name of a simulation is the one given, and otherwise the text or the name of its class. -/
theorem C251_name (w : LWorld) (kw : Dict String LVal) (hw : w.Std) (g : LFields) (h : construct w kw = .ok g) :
    (∀ s, Dict.get? kw "name" = some (.text s) → g "name" = .text s) ∧
    ((Dict.get? kw "name").getD .none = .none → ∀ s n, Dict.get? kw "model" = some (.cls s n) → g "name" = .text s ∧ g "model" = .cls s n) := by
  unfold construct at h
  split at h
  · obtain ⟨n, src, m, h1, h2, h3, rfl⟩ := postInit_iff.1 h
    constructor
    · intro s hs
      simp only [launchName, override, hs, Option.getD_some] at h1
      cases h1
      simp
    · intro hn s c hm
      have e : override w.defaults kw "name" = .none := by
        unfold override
        cases hg : Dict.get? kw "name" with
        | none => simp [hw.name]
        | some v => rw [hg] at hn; simpa using hn
      simp only [launchName, e] at h1
      simp only [override, hm, Option.getD_some] at h1
      cases h1
      simp only [launchModel, override, hm, Option.getD_some] at h3
      cases h3
      simp
  · cases h

/-- C251: a relative source file is looked for in the directory of the simulation, and a relative directory in the working directory; an absolute one is not changed. A model that is
described by a text is what is found for it with this file among the sources. -/
theorem C251_source (w : LWorld) (hw : w.Std) (hc : w.cwd.getLast? ≠ some '/') (kw : Dict String LVal) (g : LFields) (h : construct w kw = .ok g) :
    (∀ s, s ≠ [] → Dict.get? kw "source_file" = some (.text s) →
      (isAbs s = true → g "source_file" = .text s) ∧
      (isAbs s = false → ∀ d, d ≠ [] → d.getLast? ≠ some '/' → Dict.get? kw "dir_path" = some (.text d) →
        g "source_file" = .text (if isAbs d then d ++ '/' :: s else w.cwd ++ '/' :: (d ++ '/' :: s)))) ∧
    (∀ m, Dict.get? kw "model" = some (.text m) → ∃ name n, w.find (g "source_file") m = some (name, n) ∧ g "model" = .cls name n) := by
  unfold construct at h
  split at h
  · obtain ⟨n, src, m, h1, h2, h3, rfl⟩ := postInit_iff.1 h
    constructor
    · intro s hs he
      have htr : (LVal.text s).truthy = true := by
        cases s with
        | nil => exact absurd rfl hs
        | cons => rfl
      have e0 : override w.defaults kw "source_file" = .text s := by simp [override, he]
      unfold launchSource at h2
      rw [e0, if_pos htr] at h2
      simp only at h2
      constructor
      · intro ha
        rw [if_pos ha] at h2
        cases h2
        simp
      · intro ha d hd hl hdp
        have e1 : override w.defaults kw "dir_path" = .text d := by simp [override, hdp]
        rw [if_neg (by simp [ha]), e1] at h2
        simp only at h2
        cases h2
        have hcw : w.cwd ≠ [] := by
          intro hz
          have := hw.cwd
          simp [hz, isAbs] at this
        have hj : joinDir d s = d ++ '/' :: s := by
          unfold joinDir
          rw [if_neg (by simp [ha]), if_neg (by simp [hd, hl])]
        have hab : isAbs (d ++ '/' :: s) = isAbs d := by
          cases d with
          | nil => exact absurd rfl hd
          | cons a d => rfl
        simp only [hj, absDir]
        unfold joinDir
        rw [hab]
        by_cases hda : isAbs d = true
        · simp [hda]
        · simp [hda, hcw, hc]
    · intro mt hm
      have e2 : override w.defaults kw "model" = .text mt := by simp [override, hm]
      unfold launchModel at h3
      rw [e2] at h3
      simp only at h3
      split at h3
      · rename_i c hf
        cases h3
        exact ⟨c.1, c.2, by simpa using hf, by simp⟩
      · cases h3
  · cases h

/-- C251: a simulation that is run with settings is run with exactly these settings, and everything else is as it was; without settings it is run as it is. So running it with
the settings that it has is running it. -/
theorem C251_launch (w : LWorld) (f : LFields) (hf : Settled f) (kw : Dict String LVal) (hkw : OnlyFields kw) (g : LFields) (h : launch w f kw = .ok g) :
    (∀ k, Dict.get? kw k = none → g k = f k) ∧
    (∀ k v, k ≠ "name" → k ≠ "source_file" → k ≠ "model" → Dict.get? kw k = some v → g k = v) ∧
    (∀ s, Dict.get? kw "name" = some (.text s) → g "name" = .text s) ∧
    (∀ s n, Dict.get? kw "model" = some (.cls s n) → g "model" = .cls s n) ∧
    (∀ s, isAbs s = true → Dict.get? kw "source_file" = some (.text s) → g "source_file" = .text s) := by
  unfold launch at h
  split at h
  · rename_i he
    cases h
    have : kw = [] := List.isEmpty_iff.1 he
    subst this
    simp
  · unfold replaceWith at h
    rw [if_pos ((onlyFields_iff kw).2 hkw)] at h
    obtain ⟨n, src, m, h1, h2, h3, rfl⟩ := postInit_iff.1 h
    obtain ⟨⟨n0, hn0⟩, hm0, hs0⟩ := hf
    refine ⟨?_, ?_, ?_, ?_, ?_⟩
    · intro k hk
      have e : override f kw k = f k := by simp [override, hk]
      by_cases k1 : k = "name"
      · subst k1
        simp only [launchName, e, hn0] at h1
        cases h1
        simp [hn0]
      · by_cases k2 : k = "source_file"
        · subst k2
          simp only [launchSource, e] at h2
          split at h2
          · rename_i ht
            obtain ⟨s, es, ha⟩ := hs0 ht
            rw [es] at h2
            simp only [ha, if_true] at h2
            cases h2
            simp [es]
          · cases h2
            simp
        · by_cases k3 : k = "model"
          · subst k3
            simp only [launchModel, e] at h3
            cases h3
            simp
          · simp [k1, k2, k3, e]
    · intro k v k1 k2 k3 hk
      simp [k1, k2, k3, override, hk]
    · intro s hs
      simp only [launchName, override, hs, Option.getD_some] at h1
      cases h1
      simp
    · intro s c hm
      simp only [launchModel, override, hm, Option.getD_some] at h3
      cases h3
      simp
    · intro s ha hs
      simp only [launchSource, override, hs, Option.getD_some, ha, if_true] at h2
      have : src = .text s := by
        split at h2
        · cases h2; rfl
        · cases h2; rfl
      simp [this]

/-- Arguments that `__post_init__` leaves as they are. -/
def PlainArgs (kw : Dict String LVal) : Prop :=
  (∀ v, Dict.get? kw "name" = some v → ∃ s, v = .text s) ∧ (∀ s, Dict.get? kw "model" ≠ some (.text s)) ∧
    ∀ v, Dict.get? kw "source_file" = some v → v.truthy = true → ∃ s, v = .text s ∧ isAbs s = true

/-- C251: settings can be given in several steps: replacing some and then others is replacing all of them at once, the later ones winning. -/
theorem C251_compose (w : LWorld) (f : LFields) (hf : Settled f) (a b : Dict String LVal) (hb : Dict.WF b) (ha : OnlyFields a) (hp : PlainArgs a) :
    replaceWith w f a = .ok (override f a) ∧ replaceWith w (override f a) b = replaceWith w f (Dict.update a b) := by
  have hset : Settled (override f a) := by
    obtain ⟨⟨n0, hn0⟩, hm0, hs0⟩ := hf
    obtain ⟨p1, p2, p3⟩ := hp
    refine ⟨?_, ?_, ?_⟩
    · unfold override
      cases h : Dict.get? a "name" with
      | none => exact ⟨n0, hn0⟩
      | some v => exact p1 v h
    · intro s hc
      unfold override at hc
      cases h : Dict.get? a "model" with
      | none => rw [h] at hc; exact hm0 s hc
      | some v => rw [h] at hc; cases hc; exact p2 s h
    · unfold override
      cases h : Dict.get? a "source_file" with
      | none => exact hs0
      | some v => exact p3 v h
  refine ⟨?_, ?_⟩
  · unfold replaceWith
    rw [if_pos ((onlyFields_iff a).2 ha)]
    exact hset.postInit
  · have e : override (override f a) b = override f (Dict.update a b) := by
      funext k
      unfold override
      rw [Dict.get?_update a b hb k]
      cases Dict.get? b k <;> simp
    have k : OnlyFields b ↔ OnlyFields (Dict.update a b) := by
      have hh : ∀ k, Dict.has (Dict.update a b) k = (Dict.has b k || Dict.has a k) := by
        intro k
        unfold Dict.has
        rw [Dict.get?_update a b hb k]
        cases Dict.get? b k <;> simp
      constructor
      · intro h k hk
        rw [hh, Bool.or_eq_true] at hk
        exact hk.elim (h k) (ha k)
      · intro h k hk
        exact h k (by rw [hh, hk]; rfl)
    unfold replaceWith
    rw [e]
    by_cases hk : OnlyFields b
    · rw [if_pos ((onlyFields_iff b).2 hk), if_pos ((onlyFields_iff _).2 (k.1 hk))]
    · rw [if_neg (fun hc => hk ((onlyFields_iff b).1 hc)), if_neg (fun hc => hk (k.2 ((onlyFields_iff _).1 hc)))]

private theorem postInit_congr {w : LWorld} {f g : LFields} (h : ∀ k, k ≠ "name" → f k = g k) (hn : launchName f = launchName g) : postInit w f = postInit w g := by
  have e1 : launchSource w f = launchSource w g := by
    unfold launchSource
    rw [h "source_file" (by decide), h "dir_path" (by decide)]
  have e2 : ∀ src, launchModel w src f = launchModel w src g := by
    intro src
    unfold launchModel
    rw [h "model" (by decide)]
  unfold postInit
  rw [hn, e1]
  cases launchName g with
  | error e => rfl
  | ok n =>
    cases launchSource w g with
    | error e => rfl
    | ok src =>
      simp only [e2]
      cases launchModel w src g with
      | error e => rfl
      | ok m =>
        refine congrArg Except.ok (funext fun k => ?_)
        by_cases k1 : k = "name"
        · simp [k1]
        · simp [k1, h k k1]

/-- Two ways to give arguments are the same if they give the same fields (or the defaults of the class). -/
private theorem construct_congr {w : LWorld} {a b : Dict String LVal} (hk : OnlyFields a ↔ OnlyFields b)
    (h : ∀ k, k ≠ "name" → override w.defaults a k = override w.defaults b k) (hn : launchName (override w.defaults a) = launchName (override w.defaults b)) :
    construct w a = construct w b := by
  unfold construct
  rw [postInit_congr h hn]
  by_cases h1 : OnlyFields a
  · rw [if_pos ((onlyFields_iff a).2 h1), if_pos ((onlyFields_iff b).2 (hk.1 h1))]
  · rw [if_neg (fun hc => h1 ((onlyFields_iff a).1 hc)), if_neg (fun hc => h1 (hk.2 ((onlyFields_iff b).1 hc)))]

/-- C251: `cls.run(**kwargs)` runs the simulation `Simulation(model=cls, **kwargs)`, whatever the arguments are, and raises if that raises. (Unless the name given is false and not
`None`: `C251_empty_name_false`.) -/
theorem C251_class_partial (w : LWorld) (hw : w.Std) (name : Str) (n : Nat) (kw : Dict String LVal) (hkw : Dict.WF kw) (hm : Dict.get? kw "model" = none)
    (hname : ∀ v, Dict.get? kw "name" = some v → v = .none ∨ v.truthy = true) :
    launchClass w name n kw = construct w (Dict.set kw "model" (.cls name n)) := by
  have hm' : Dict.has kw "model" = false := by simp [Dict.has, hm]
  unfold launchClass
  rw [if_neg (by rw [hm']; decide)]
  have w3 : Dict.WF (Dict.del (Dict.del (Dict.del kw "name") "iterations") "num_processes") := ((hkw.del _).del _).del _
  have g3 : ∀ k, Dict.get? (Dict.del (Dict.del (Dict.del kw "name") "iterations") "num_processes") k =
      if "num_processes" = k then none else if "iterations" = k then none else if "name" = k then none else Dict.get? kw k := by
    intro k
    rw [Dict.get?_del _ ((hkw.del _).del _), Dict.get?_del _ (hkw.del _), Dict.get?_del _ hkw]
  refine construct_congr ?_ ?_ ?_
  · constructor
    · intro h k hk
      unfold Dict.has at hk
      rw [Dict.get?_set] at hk
      by_cases k1 : "model" = k
      · subst k1; decide
      · rw [if_neg k1] at hk
        by_cases k2 : "num_processes" = k
        · subst k2; decide
        · by_cases k3 : "iterations" = k
          · subst k3; decide
          · by_cases k4 : "name" = k
            · subst k4; decide
            · refine h k ?_
              unfold Dict.has
              rw [Dict.get?_update _ _ w3, g3, if_neg k2, if_neg k3, if_neg k4]
              cases hg : Dict.get? kw k with
              | none => rw [hg] at hk; cases hk
              | some v => rfl
    · intro h k hk
      unfold Dict.has at hk
      rw [Dict.get?_update _ _ w3, g3] at hk
      by_cases k1 : "model" = k
      · subst k1; decide
      · by_cases k2 : "num_processes" = k
        · subst k2; decide
        · by_cases k3 : "iterations" = k
          · subst k3; decide
          · by_cases k4 : "name" = k
            · subst k4; decide
            · refine h k ?_
              unfold Dict.has
              rw [Dict.get?_set, if_neg k1]
              rw [if_neg k2, if_neg k3, if_neg k4] at hk
              simp only [Dict.get?, if_neg k1, if_neg k2, if_neg k3, if_neg k4, Option.or_none] at hk
              exact hk
  · intro k hk
    unfold override
    rw [Dict.get?_update _ _ w3, g3, Dict.get?_set]
    by_cases k1 : "model" = k
    · subst k1
      simp [hm, Dict.get?]
    · rw [if_neg k1]
      by_cases k2 : "num_processes" = k
      · subst k2
        rw [if_pos rfl]
        simp [Dict.get?, hw.processes]
      · by_cases k3 : "iterations" = k
        · subst k3
          rw [if_neg k2, if_pos rfl]
          simp [Dict.get?, hw.iterations]
        · rw [if_neg k2, if_neg k3, if_neg (Ne.symm hk)]
          simp only [Dict.get?, if_neg k1, if_neg k2, if_neg k3, if_neg (Ne.symm hk), Option.or_none]
  · unfold launchName override
    rw [Dict.get?_update _ _ w3, g3, Dict.get?_update _ _ w3, g3, Dict.get?_set, Dict.get?_set]
    cases hg : Dict.get? kw "name" with
    | none => simp [Dict.get?, hm, hw.name, LVal.truthy]
    | some v =>
      rcases hname v hg with rfl | ht
      · simp [Dict.get?, hm, LVal.truthy]
      · simp [Dict.get?, ht, hm]

/-- C251: `soil.simulation.run(env, name=…, **kwargs)` runs the simulation `Simulation(model=env, name=…, **kwargs)`, whatever the arguments are. -/
theorem C251_run_partial (w : LWorld) (hw : w.Std) (env : LVal) (kw : Dict String LVal) (hkw : Dict.WF kw) (hm : Dict.get? kw "model" = none)
    (hname : Dict.has kw "name" = true) : launchRun w env kw = construct w (Dict.set kw "model" env) := by
  have hm' : Dict.has kw "model" = false := by simp [Dict.has, hm]
  unfold launchRun
  rw [if_neg (by rw [hm']; decide)]
  have w3 : Dict.WF (Dict.del (Dict.del (Dict.del (Dict.del kw "name") "iterations") "num_processes") "dump") := (((hkw.del _).del _).del _).del _
  have g3 : ∀ k, Dict.get? (Dict.del (Dict.del (Dict.del (Dict.del kw "name") "iterations") "num_processes") "dump") k =
      if "dump" = k then none else if "num_processes" = k then none else if "iterations" = k then none else if "name" = k then none else Dict.get? kw k := by
    intro k
    rw [Dict.get?_del _ (((hkw.del _).del _).del _), Dict.get?_del _ ((hkw.del _).del _), Dict.get?_del _ (hkw.del _), Dict.get?_del _ hkw]
  obtain ⟨v, hv⟩ := Option.isSome_iff_exists.1 hname
  refine construct_congr ?_ ?_ ?_
  · constructor
    · intro h k hk
      unfold Dict.has at hk
      rw [Dict.get?_set] at hk
      by_cases k1 : "model" = k
      · subst k1; decide
      · rw [if_neg k1] at hk
        by_cases k0 : "dump" = k
        · subst k0; decide
        · by_cases k2 : "num_processes" = k
          · subst k2; decide
          · by_cases k3 : "iterations" = k
            · subst k3; decide
            · by_cases k4 : "name" = k
              · subst k4; decide
              · refine h k ?_
                unfold Dict.has
                rw [Dict.get?_update _ _ w3, g3, if_neg k0, if_neg k2, if_neg k3, if_neg k4]
                cases hg : Dict.get? kw k with
                | none => rw [hg] at hk; cases hk
                | some v => rfl
    · intro h k hk
      unfold Dict.has at hk
      rw [Dict.get?_update _ _ w3, g3] at hk
      by_cases k1 : "model" = k
      · subst k1; decide
      · by_cases k0 : "dump" = k
        · subst k0; decide
        · by_cases k2 : "num_processes" = k
          · subst k2; decide
          · by_cases k3 : "iterations" = k
            · subst k3; decide
            · by_cases k4 : "name" = k
              · subst k4; decide
              · refine h k ?_
                unfold Dict.has
                rw [Dict.get?_set, if_neg k1]
                rw [if_neg k0, if_neg k2, if_neg k3, if_neg k4] at hk
                simp only [Dict.get?, if_neg k0, if_neg k1, if_neg k2, if_neg k3, if_neg k4, Option.or_none] at hk
                exact hk
  · intro k hk
    unfold override
    rw [Dict.get?_update _ _ w3, g3, Dict.get?_set]
    by_cases k1 : "model" = k
    · subst k1
      simp [hm, Dict.get?]
    · rw [if_neg k1]
      by_cases k0 : "dump" = k
      · subst k0
        rw [if_pos rfl]
        simp [Dict.get?, hw.dump]
      · by_cases k2 : "num_processes" = k
        · subst k2
          rw [if_neg k0, if_pos rfl]
          simp [Dict.get?, hw.processes]
        · by_cases k3 : "iterations" = k
          · subst k3
            rw [if_neg k0, if_neg k2, if_pos rfl]
            simp [Dict.get?, hw.iterations]
          · rw [if_neg k0, if_neg k2, if_neg k3, if_neg (Ne.symm hk)]
            simp only [Dict.get?, if_neg k0, if_neg k1, if_neg k2, if_neg k3, if_neg (Ne.symm hk), Option.or_none]
  · unfold launchName override
    rw [Dict.get?_update _ _ w3, g3, Dict.get?_update _ _ w3, g3, Dict.get?_set, Dict.get?_set, hv]
    simp [Dict.get?, hm]

/-- A working directory, the defaults of the class, and two models that can be found by name. -/
def exLaunch : LWorld where
  cwd := "/work".toList
  defaults k := match k with
    | "iterations" => .other true 1
    | "num_processes" => .other true 1
    | "dump" => .other false 0
    | "dir_path" => .text "/work".toList
    | "model" => .text "soil.Environment".toList
    | "seed" => .text "default".toList
    | _ => .none
  find src s := if s = "soil.Environment".toList then some ("Environment".toList, 0) else if src = .text "/work/sims/city.py".toList ∧ s = "City".toList then some ("City".toList, 1) else none

example : exLaunch.Std := ⟨by decide, by decide, by decide, by decide, by decide⟩

/-- C251 is violated: `cls.run(name="")` does not run `Simulation(model=cls, name="")`: the name is replaced by that of the class. -/
theorem C251_empty_name_false : ∃ (w : LWorld) (kw : Dict String LVal) (g h : LFields), w.Std ∧ launchClass w "City".toList 1 kw = .ok g ∧
    construct w (Dict.set kw "model" (.cls "City".toList 1)) = .ok h ∧ g "name" = .text "City".toList ∧ h "name" = .text [] := by
  refine ⟨exLaunch, [("name", .text [])], _, _, ⟨by decide, by decide, by decide, by decide, by decide⟩, rfl, rfl, by decide, by decide⟩

/-- C251 is violated: with `soil.simulation.run` all simulations without a name are called `test`, whatever the model is. -/
theorem C251_test_name_false (w : LWorld) (name : Str) (n : Nat) (kw : Dict String LVal) (hkw : Dict.WF kw) (hn : Dict.get? kw "name" = none) (g : LFields)
    (h : launchRun w (.cls name n) kw = .ok g) : g "name" = .text "test".toList := by
  unfold launchRun at h
  split at h
  · cases h
  · unfold construct at h
    split at h
    · obtain ⟨m, src, c, h1, -, -, rfl⟩ := postInit_iff.1 h
      have w3 : Dict.WF (Dict.del (Dict.del (Dict.del (Dict.del kw "name") "iterations") "num_processes") "dump") := (((hkw.del _).del _).del _).del _
      have e : Dict.get? (Dict.del (Dict.del (Dict.del (Dict.del kw "name") "iterations") "num_processes") "dump") "name" = none := by
        rw [Dict.get?_del _ (((hkw.del _).del _).del _), Dict.get?_del _ ((hkw.del _).del _), Dict.get?_del _ (hkw.del _), Dict.get?_del _ hkw]
        simp
      unfold launchName override at h1
      rw [Dict.get?_update _ _ w3, e] at h1
      simp only [Dict.get?, hn, Option.none_or, Option.getD_some, Option.getD_none] at h1
      simp at h1
      simp [← h1]
    · cases h

/-- C251 is violated: a simulation that was given no name has the name of its model, but not when it is run with another model: it keeps the name of the first one, so that the results
of one model are written under the name of another. -/
theorem C251_other_model_false (w : LWorld) (hw : w.Std) (a b : Str) (n m : Nat) (hne : a ≠ b) (g : LFields) (hg : construct w [("model", .cls a n)] = .ok g) (h : LFields)
    (hh : launch w g [("model", .cls b m)] = .ok h) : g "name" = .text a ∧ h "model" = .cls b m ∧ h "name" = .text a ∧ h "name" ≠ .text b := by
  have h1 := (C251_name w _ hw g hg).2 rfl a n rfl
  have hs := (C251_construct w hw _ g hg).2.1
  have h2 := C251_launch w g hs [("model", .cls b m)] (by
    intro k hk
    by_cases e : "model" = k
    · subst e; decide
    · simp [Dict.has, Dict.get?, e] at hk) h hh
  have h3 : h "name" = .text a := (h2.1 "name" rfl).trans h1.1
  exact ⟨h1.1, h2.2.2.2.1 b m rfl, h3, by rw [h3]; intro hc; cases hc; exact hne rfl⟩

/-- C251 is violated in an example: `sim.run(parallel=False)` (examples/pubcrawl/pubcrawl_sim.py:195) raises `TypeError` for every simulation, since there is no such setting. -/
theorem C251_pubcrawl_false (w : LWorld) (f : LFields) (v : LVal) : launch w f [("parallel", v)] = .error .typeError := by
  simp [launch, replaceWith, simFieldNames]

/-- A simulation with a source file next to it: the path is made absolute, the model is found there, and the name is the text given. -/
def exCity : Dict String LVal := [("source_file", .text "city.py".toList), ("dir_path", .text "sims".toList), ("model", .text "City".toList), ("seed", .text "a".toList)]

set_option maxRecDepth 100000 in
example : (match construct exLaunch exCity with
    | .ok g => some (g "name", g "model", g "source_file", g "seed", g "iterations")
    | .error _ => none) = some (.text "City".toList, .cls "City".toList 1, .text "/work/sims/city.py".toList, .text "a".toList, .other true 1) ∧
    (match construct exLaunch exCity with
    | .ok g => (match launch exLaunch g [("seed", .text "b".toList), ("dir_path", .text "elsewhere".toList)] with
      | .ok h => some (h "name", h "model", h "source_file", h "seed", h "iterations")
      | .error _ => none)
    | .error _ => none) = some (.text "City".toList, .cls "City".toList 1, .text "/work/sims/city.py".toList, .text "b".toList, .other true 1) ∧
    (match launchClass exLaunch "City".toList 1 [("seed", .text "b".toList), ("iterations", .other true 7)] with
    | .ok h => some (h "name", h "model", h "source_file", h "seed", h "iterations")
    | .error _ => none) = some (.text "City".toList, .cls "City".toList 1, .none, .text "b".toList, .other true 7) := by
  decide +kernel

end Verif
