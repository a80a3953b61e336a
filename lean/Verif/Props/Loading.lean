import Verif.Model.Loading
import Mathlib.Tactic.Tauto

/-!
# C96-C100: loading simulations
-/

namespace Verif

/-! ### What is in a Python file -/

/-- The last binding of a name. -/
def Spec.bound (code : List LoadStmt) (n : String) : Option Member :=
  code.reverse.findSome? (fun
    | .bind m s => if m = n then some (.sim s) else none
    | .cls m c => if m = n then some (.cls c) else none
    | _ => none)

/-- The runs a file asks for. -/
def Spec.calls (combos : SimFields → List FieldVal) (code : List LoadStmt) : List (SimFields × FieldVal) :=
  code.flatMap (fun
    | .call s => (combos s).map (s, ·)
    | _ => [])

/-- What `k` should be: the value given explicitly, else the one of the file. -/
def Spec.overridden (kw s : SimFields) (k : String) : Option FieldVal := (Dict.get? kw k).or (Dict.get? s k)

theorem Spec.bound_append (a b : List LoadStmt) (n : String) :
    Spec.bound (a ++ b) n = (Spec.bound b n).or (Spec.bound a n) := by
  simp [Spec.bound, List.findSome?_append]

theorem execLoad_spec (combos : SimFields → List FieldVal) (code pre : List LoadStmt) (m : Dict String Member)
    (q : List (SimFields × FieldVal)) (hm : Dict.WF m) (hp : ∀ n, Dict.get? m n = Spec.bound pre n)
    (h : (execLoad combos code m q).2.2 = none) :
    Dict.WF (execLoad combos code m q).1 ∧
    (∀ n, Dict.get? (execLoad combos code m q).1 n = Spec.bound (pre ++ code) n) ∧
    (execLoad combos code m q).2.1 = q ++ Spec.calls combos code := by
  induction code generalizing pre m q with
  | nil => simpa [execLoad, Spec.calls] using ⟨hm, hp⟩
  | cons c code ih =>
    have step : ∀ (m' : Dict String Member) q', Dict.WF m' → (∀ n, Dict.get? m' n = Spec.bound (pre ++ [c]) n) →
        execLoad combos (c :: code) m q = execLoad combos code m' q' → q' = q ++ Spec.calls combos [c] →
        Dict.WF (execLoad combos (c :: code) m q).1 ∧
        (∀ n, Dict.get? (execLoad combos (c :: code) m q).1 n = Spec.bound (pre ++ c :: code) n) ∧
        (execLoad combos (c :: code) m q).2.1 = q ++ Spec.calls combos (c :: code) := by
      intro m' q' hm' hp' he hq
      rw [he] at h
      obtain ⟨h1, h2, h3⟩ := ih (pre ++ [c]) m' q' hm' hp' h
      rw [he]
      refine ⟨h1, fun n => by rw [h2 n]; simp, ?_⟩
      rw [h3, hq]
      simp [Spec.calls]
    cases c with
    | bind n s =>
      refine step (Dict.set m n (.sim s)) q (hm.set n _) ?_ rfl (by simp [Spec.calls])
      intro k
      rw [Dict.get?_set, Spec.bound_append, hp]
      by_cases hk : n = k <;> simp [Spec.bound, hk, eq_comm]
    | cls n s =>
      refine step (Dict.set m n (.cls s)) q (hm.set n _) ?_ rfl (by simp [Spec.calls])
      intro k
      rw [Dict.get?_set, Spec.bound_append, hp]
      by_cases hk : n = k <;> simp [Spec.bound, hk, eq_comm]
    | call s =>
      refine step m (q ++ (combos s).map (s, ·)) hm ?_ rfl (by simp [Spec.calls])
      intro k
      rw [Spec.bound_append, hp]
      simp [Spec.bound]
    | raise v => simp [execLoad] at h

instance : Std.Total (fun a b : String × Member => a.1 ≤ b.1) := ⟨fun a b => String.le_total a.1 b.1⟩
instance : IsTrans (String × Member) (fun a b => a.1 ≤ b.1) := ⟨fun _ _ _ h h' => String.le_trans h h'⟩

/-- Members of a kind, by the names they are bound to, in alphabetical order. -/
def Spec.Members {α : Type} (code : List LoadStmt) (f : Member → Option α) (l : List α) : Prop :=
  ∃ names : List String, names.Pairwise (· < ·) ∧ (∀ n, n ∈ names ↔ ∃ x, (Spec.bound code n).bind f = some x) ∧
    l = names.filterMap (fun n => (Spec.bound code n).bind f)

theorem members_sorted {α : Type} (code : List LoadStmt) (f : Member → Option α) (m : Dict String Member) (hm : Dict.WF m)
    (hb : ∀ n, Dict.get? m n = Spec.bound code n) :
    Spec.Members code f ((m.insertionSort (fun a b => a.1 ≤ b.1)).filterMap (fun p => f p.2)) := by
  have hperm := List.perm_insertionSort (fun a b : String × Member => a.1 ≤ b.1) m
  have hs := List.pairwise_insertionSort (fun a b : String × Member => a.1 ≤ b.1) m
  generalize m.insertionSort (fun a b => a.1 ≤ b.1) = l at hperm hs
  have hnd : (l.map Prod.fst).Nodup := (hperm.map Prod.fst).nodup_iff.2 hm
  have hget : ∀ p ∈ l, Spec.bound code p.1 = some p.2 := fun p hp => by
    rw [← hb]; exact Dict.get?_of_mem hm (hperm.mem_iff.1 hp)
  refine ⟨(l.filter (fun p => (f p.2).isSome)).map Prod.fst, ?_, ?_, ?_⟩
  · have hs' : (l.map Prod.fst).Pairwise (· ≤ ·) := by
      rw [List.pairwise_map]; exact hs
    have : (l.map Prod.fst).Pairwise (· < ·) := by
      have h2 := hs'.and hnd
      refine h2.imp ?_
      intro a b h
      exact Decidable.byContradiction (fun hc => h.2 (String.le_antisymm h.1 (String.not_lt.1 hc)))
    exact this.sublist (List.filter_sublist.map _)
  · intro n
    simp only [List.mem_map, List.mem_filter]
    constructor
    · rintro ⟨p, ⟨hp, hf⟩, rfl⟩
      obtain ⟨x, hx⟩ := Option.isSome_iff_exists.1 hf
      exact ⟨x, by rw [hget p hp]; exact hx⟩
    · rintro ⟨x, hx⟩
      cases h : Spec.bound code n with
      | none => rw [h] at hx; cases hx
      | some v =>
        rw [h] at hx
        have hx' : f v = some x := hx
        exact ⟨(n, v), ⟨hperm.mem_iff.2 (Dict.get?_mem ((hb n).trans h)), by simp [hx']⟩, rfl⟩
  · clear hs hnd hperm
    induction l with
    | nil => rfl
    | cons p l ih =>
      have h1 : Spec.bound code p.1 = some p.2 := hget p (by simp)
      have h2 := ih (fun q hq => hget q (by simp [hq]))
      cases hf : f p.2 with
      | none => simpa [List.filter_cons, hf] using h2
      | some x => simpa [List.filter_cons, hf, h1] using h2

/-! ### C96 -/

theorem update_override (s kw : SimFields) (hk : Dict.WF kw) (k : String) :
    Dict.get? (Dict.update s kw) k = Spec.overridden kw s k := by
  rw [Dict.get?_update s kw hk k]
  unfold Spec.overridden
  cases Dict.get? kw k <;> rfl

theorem mapM_forall2 {α β : Type} (f : α → Option β) (l : List α) (r : List β) (h : l.mapM f = some r) :
    List.Forall₂ (fun a b => f a = some b) l r := by
  induction l generalizing r with
  | nil =>
    have : r = [] := by simpa using h.symm
    subst this; exact .nil
  | cons a l ih =>
    rw [List.mapM_cons] at h
    cases ha : f a with
    | none => rw [ha] at h; cases h
    | some b =>
      cases hl : l.mapM f with
      | none => rw [ha, hl] at h; cases h
      | some r' =>
        rw [ha, hl] at h
        have : r = b :: r' := by simpa using h.symm
        subst this
        exact .cons ha (ih r' hl)

theorem mapM_none_mem {α β : Type} (f : α → Option β) (l : List α) (h : l.mapM f = none) : ∃ a ∈ l, f a = none := by
  induction l with
  | nil => simp at h
  | cons a l ih =>
    rw [List.mapM_cons] at h
    cases ha : f a with
    | none => exact ⟨a, by simp, ha⟩
    | some b =>
      cases hl : l.mapM f with
      | none => obtain ⟨x, hx, hf⟩ := ih hl; exact ⟨x, by simp [hx], hf⟩
      | some r' => rw [ha, hl] at h; cases h

/-- The simulations in a Python file: those bound to names, in alphabetical order, then the deferred runs (with those deferred before
the file was loaded), each with its own parameters. -/
def Spec.InFile (w : LoadWorld) (file : SrcPath) (g : Interp) (found : List SimFields) : Prop :=
  ∃ l, Spec.Members (w.code file) (fun | .sim s => some s | .cls _ => none) l ∧
    found = l ++ (g.queued ++ Spec.calls w.combos (w.code file)).map (fun sp => Dict.set sp.1 "parameters" sp.2)

/-- C96 for Python files: if loading succeeds, the result is one simulation for each one in the file, with the explicit arguments and
otherwise unchanged; if there is none in the file, one for each environment class in it, with the explicit arguments and otherwise the
defaults. -/
theorem C96_python (w : LoadWorld) (file : SrcPath) (kw : SimFields) (hkw : Dict.WF kw) (g g' : Interp) (l : List SimFields)
    (h : iterPy w file kw g = (.ok l, g')) :
    ∃ found, Spec.InFile w file g found ∧
      (found ≠ [] → List.Forall₂ (fun s s' => ∀ k, Dict.get? s' k = Spec.overridden kw s k) found l) ∧
      (found = [] → l ≠ [] ∧ Dict.get? kw "model" = none ∧
        ∃ cs, Spec.Members (w.code file) (fun | .sim _ => none | .cls c => some c) cs ∧
          List.Forall₂ (fun c s' => ∀ k, Dict.get? s' k =
            if k = "model" then some c else Spec.overridden kw w.defaults k) cs l) := by
  unfold iterPy at h
  by_cases ha : g.avoid = true
  · rw [if_pos ha] at h; cases h
  rw [if_neg ha] at h
  by_cases hp : w.isPython file = false
  · simp only [if_pos hp] at h; cases h
  simp only [if_neg hp] at h
  cases hx : (execLoad w.combos (w.code file) [] g.queued).2.2 with
  | some v => simp only [hx] at h; cases h
  | none =>
  simp only [hx] at h
  obtain ⟨hwf, hb, hq⟩ := execLoad_spec w.combos (w.code file) [] [] g.queued (by simp [Dict.WF, Dict.keys])
    (by simp [Spec.bound]) hx
  simp only [List.nil_append] at hb
  generalize hr : execLoad w.combos (w.code file) [] g.queued = r at *
  have hm1 := members_sorted (w.code file) (fun | .sim s => some s | .cls _ => none) r.1 hwf hb
  have hm2 := members_sorted (w.code file) (fun | .sim _ => none | .cls c => some c) r.1 hwf hb
  refine ⟨simMembers r.1 ++ r.2.1.map (fun sp => Dict.set sp.1 "parameters" sp.2), ⟨_, hm1, by rw [hq]; rfl⟩, ?_, ?_⟩
  · intro hne
    have : (simMembers r.1 ++ r.2.1.map (fun sp => Dict.set sp.1 "parameters" sp.2)).isEmpty = false := by
      simpa using hne
    simp only [this, if_false, Bool.false_eq_true] at h
    split at h
    · cases h
    · rename_i l' hl'
      have : l' = l := by simpa using (Prod.ext_iff.1 h).1
      subst this
      refine (mapM_forall2 _ _ _ hl').imp ?_
      intro s s' hs k
      unfold replaceSim at hs
      split at hs
      · rw [← Option.some.inj hs]; exact update_override s kw hkw k
      · cases hs
  · intro he
    have : (simMembers r.1 ++ r.2.1.map (fun sp => Dict.set sp.1 "parameters" sp.2)).isEmpty = true := by
      simpa using he
    simp only [this, if_true] at h
    cases henv : envSims w kw (clsMembers r.1) with
    | none => rw [henv] at h; cases h
    | some sims =>
    rw [henv] at h
    simp only at h
    by_cases hse : sims.isEmpty = true
    · rw [if_pos hse] at h; cases h
    rw [if_neg hse] at h
    split at h
    · cases h
    rename_i l' hl'
    have : l' = l := by simpa using (Prod.ext_iff.1 h).1
    subst this
    have h1 := mapM_forall2 _ _ _ henv
    have h2 := mapM_forall2 _ _ _ hl'
    have hcs : clsMembers r.1 ≠ [] := by
      intro hc
      rw [hc] at h1; cases h1
      exact hse rfl
    have hmod : Dict.get? kw "model" = none := by
      cases hcc : clsMembers r.1 with
      | nil => exact absurd hcc hcs
      | cons c cs =>
        rw [hcc] at h1
        cases h1 with
        | cons h1 _ =>
          by_cases hh : Dict.has kw "model" = true
          · rw [if_pos hh] at h1; cases h1
          · simpa [Dict.has] using hh
    refine ⟨?_, hmod, _, hm2, ?_⟩
    · intro hl0
      subst hl0
      cases h2
      exact hse rfl
    · have hcomp : ∀ (cs : List FieldVal) (sims l' : List SimFields),
          List.Forall₂ (fun c s => (if Dict.has kw "model" = true then none else newSim w (Dict.set kw "model" c)) = some s) cs sims →
          List.Forall₂ (fun s s' => replaceSim s kw = some s') sims l' →
          List.Forall₂ (fun c s' => ∀ k, Dict.get? s' k =
            if k = "model" then some c else Spec.overridden kw w.defaults k) cs l' := by
        intro cs sims l' a b
        induction a generalizing l' with
        | nil => cases b; exact .nil
        | @cons c s cs sims ha _ ih =>
          cases b with
          | @cons _ s' _ l'' hb hbs =>
          refine .cons ?_ (ih l'' hbs)
          intro k
          rw [if_neg (by simp [Dict.has, hmod])] at ha
          unfold newSim at ha
          split at ha
          swap
          · cases ha
          unfold replaceSim at hb
          split at hb
          swap
          · cases hb
          rw [← Option.some.inj hb, update_override _ kw hkw, Spec.overridden, ← Option.some.inj ha,
            Dict.get?_update _ _ (hkw.set "model" c) k]
          by_cases hk : k = "model"
          · subst hk
            rw [hmod, Dict.get?_set_self]; simp
          · rw [Dict.get?_set_ne kw c (fun e => hk e.symm), if_neg hk, Spec.overridden]
            cases Dict.get? kw k <;> rfl
      exact hcomp _ _ _ h1 h2

/-- The configurations of the files that a pattern finds. -/
theorem loadFiles_spec (w : LoadWorld) (fs : List SrcPath) (p p' : List (List String)) (l : List (SimFields × SrcPath))
    (h : loadFiles w fs p = (some l, p')) :
    l = fs.flatMap (fun f => ((w.configs f).getD []).map (·, f)) ∧ ∀ f ∈ fs, (w.configs f).isSome = true := by
  induction fs generalizing p p' l with
  | nil => simpa [loadFiles] using (Prod.ext_iff.1 h).1.symm
  | cons f fs ih =>
    simp only [loadFiles] at h
    cases hc : w.configs f with
    | none => rw [hc] at h; cases h
    | some docs =>
      rw [hc] at h
      simp only at h
      generalize hr : loadFiles w fs (if f.dir ∈ p then p else p ++ [f.dir]) = r at h
      obtain ⟨a, b⟩ := r
      cases a with
      | none => cases h
      | some l' =>
        obtain ⟨h1, h2⟩ := ih _ _ _ hr
        have : l = docs.map (·, f) ++ l' := by simpa using (Prod.ext_iff.1 h).1.symm
        subst this
        refine ⟨by simp [hc, ← h1], ?_⟩
        intro x hx
        rcases List.mem_cons.1 hx with rfl | hx
        · simp [hc]
        · exact h2 x hx

/-- What a field of a simulation made from a configuration should be. -/
def Spec.fromConfigField (w : LoadWorld) (kw doc : SimFields) (folder : List String) (k : String) : Option FieldVal :=
  match Spec.overridden kw doc k with
  | some v => some v
  | none => if k = "dir_path" then some (.folder folder) else Dict.get? w.defaults k

theorem fromDoc_spec (w : LoadWorld) (kw doc : SimFields) (hkw : Dict.WF kw) (hdoc : Dict.WF doc) (folder : List String)
    (s : SimFields) (h : fromDoc w kw folder doc = some s) (k : String) :
    Dict.get? s k = Spec.fromConfigField w kw doc folder k := by
  have hw : Dict.WF (Dict.update doc kw) := hdoc.update kw
  have hs : s = Dict.update w.defaults (if Dict.has (Dict.update doc kw) "dir_path" then Dict.update doc kw
      else Dict.set (Dict.update doc kw) "dir_path" (.folder folder)) := by
    unfold fromDoc newSim at h
    simp only at h
    generalize (if Dict.has (Dict.update doc kw) "dir_path" then Dict.update doc kw
      else Dict.set (Dict.update doc kw) "dir_path" (.folder folder)) = X at h ⊢
    split at h
    · exact (Option.some.inj h).symm
    · cases h
  rw [hs]
  unfold Spec.fromConfigField
  by_cases hd : Dict.has (Dict.update doc kw) "dir_path" = true
  · rw [if_pos hd, Dict.get?_update _ _ hw, update_override doc kw hkw]
    cases ho : Spec.overridden kw doc k with
    | some v => rfl
    | none =>
      have hk : k ≠ "dir_path" := by
        rintro rfl
        rw [Dict.has, update_override doc kw hkw, ho] at hd
        cases hd
      simp [hk]
  · rw [if_neg hd, Dict.get?_update _ _ (hw.set _ _), Dict.get?_set]
    by_cases hk : k = "dir_path"
    · subst hk
      have : Spec.overridden kw doc "dir_path" = none := by
        rw [Dict.has, update_override doc kw hkw] at hd
        simpa using hd
      simp [this]
    · rw [if_neg (fun e => hk e.symm), update_override doc kw hkw]
      cases Spec.overridden kw doc k with
      | some v => rfl
      | none => simp [hk]

/-- C96 for configuration files: one simulation for each configuration in the files found, with the explicit arguments, then the
values of the configuration, then the folder of the file (`dir_path`) and the defaults. -/
theorem C96_config (w : LoadWorld) (hw : ∀ f docs d, w.configs f = some docs → d ∈ docs → Dict.WF d) (file : SrcPath) (kw : SimFields)
    (hkw : Dict.WF kw) (g g' : Interp) (l : List SimFields) (h : iterConfigFile w file kw g = (.ok l, g')) :
    List.Forall₂ (fun (dp : SimFields × SrcPath) s => ∀ k, Dict.get? s k = Spec.fromConfigField w kw dp.1 dp.2.dir k)
      ((w.glob file).flatMap (fun f => ((w.configs f).getD []).map (·, f))) l := by
  unfold iterConfigFile at h
  generalize hr : loadFiles w (w.glob file) g.path = r at h
  obtain ⟨a, p⟩ := r
  cases a with
  | none => cases h
  | some docs =>
    obtain ⟨h1, h2⟩ := loadFiles_spec w _ _ _ _ hr
    simp only at h
    split at h
    · cases h
    rename_i sims hs
    have : sims = l := by simpa using (Prod.ext_iff.1 h).1
    subst this
    rw [← h1]
    have hwf : ∀ dp ∈ docs, Dict.WF dp.1 := by
      intro dp hdp
      rw [h1] at hdp
      obtain ⟨f, _, hd⟩ := List.mem_flatMap.1 hdp
      cases hc : w.configs f with
      | none => rw [hc] at hd; simp at hd
      | some ds =>
        rw [hc] at hd
        obtain ⟨d, hd', rfl⟩ := List.mem_map.1 hd
        exact hw f ds d hc hd'
    have hf := mapM_forall2 _ _ _ hs
    clear hs h1 h2 hr h
    induction hf with
    | nil => exact .nil
    | @cons dp s docs sims ha _ ih =>
      exact .cons (fun k => fromDoc_spec w kw dp.1 hkw (hwf dp (by simp)) dp.2.dir s ha k)
        (ih (fun x hx => hwf x (by simp [hx])))

/-! ### C97 -/

/-- C97: the simulations of a configuration file that does not say otherwise look for files in the folder of that file. -/
theorem C97_file_partial (w : LoadWorld) (hw : ∀ f docs d, w.configs f = some docs → d ∈ docs → Dict.WF d) (file : SrcPath)
    (docs : List SimFields) (hg : w.glob file = [file]) (hc : w.configs file = some docs)
    (hd : ∀ d ∈ docs, Dict.get? d "dir_path" = none) (g g' : Interp) (l : List SimFields)
    (h : iterConfigFile w file [] g = (.ok l, g')) :
    l.length = docs.length ∧ ∀ s ∈ l, Dict.get? s "dir_path" = some (.folder file.dir) := by
  have hf := C96_config w hw file [] (by simp [Dict.WF, Dict.keys]) g g' l h
  rw [hg] at hf
  simp only [List.flatMap_cons, List.flatMap_nil, List.append_nil, hc, Option.getD_some] at hf
  refine ⟨by simpa using hf.length_eq.symm, ?_⟩
  clear hc h hg
  induction docs generalizing l with
  | nil => cases hf; simp
  | cons d docs ih =>
    cases hf with
    | @cons _ s _ l' h1 h2 =>
    intro x hx
    rcases List.mem_cons.1 hx with rfl | hx
    · rw [h1 "dir_path"]
      simp [Spec.fromConfigField, Spec.overridden, hd d (by simp)]
    · exact ih (fun y hy => hd y (by simp [hy])) l' h2 x hx

/-- C97 is violated for configurations given as dictionaries: their simulation looks for files in the parent of the working
directory. -/
theorem C97_dict_false (w : LoadWorld) (doc kw : SimFields) (hkw : Dict.WF kw) (hdoc : Dict.WF doc)
    (hd : Dict.get? doc "dir_path" = none) (hk : Dict.get? kw "dir_path" = none) (l : List SimFields)
    (h : iterConfigDict w doc kw = .ok l) : ∃ s, l = [s] ∧ Dict.get? s "dir_path" = some (.folder w.cwd.dropLast) := by
  unfold iterConfigDict at h
  cases hs : fromDoc w kw w.cwd.dropLast doc with
  | none => rw [hs] at h; cases h
  | some s =>
    rw [hs] at h
    refine ⟨s, by simpa using h.symm, ?_⟩
    rw [fromDoc_spec w kw doc hkw hdoc _ s hs]
    simp [Spec.fromConfigField, Spec.overridden, hd, hk]

/-! ### C98 -/

theorem loadFiles_path (w : LoadWorld) (fs : List SrcPath) (p : List (List String)) : p <+: (loadFiles w fs p).2 := by
  induction fs generalizing p with
  | nil => exact List.prefix_rfl
  | cons f fs ih =>
    have h1 : p <+: (if f.dir ∈ p then p else p ++ [f.dir]) := by
      split
      · exact List.prefix_rfl
      · exact List.prefix_append _ _
    simp only [loadFiles]
    cases w.configs f with
    | none => exact h1
    | some docs =>
      simp only
      have h2 := h1.trans (ih (if f.dir ∈ p then p else p ++ [f.dir]))
      generalize loadFiles w fs (if f.dir ∈ p then p else p ++ [f.dir]) = r at h2 ⊢
      obtain ⟨a, b⟩ := r
      cases a <;> exact h2

theorem iterConfigFile_state (w : LoadWorld) (file : SrcPath) (kw : SimFields) (g : Interp) :
    (iterConfigFile w file kw g).2 = { g with path := (loadFiles w (w.glob file) g.path).2 } := by
  unfold iterConfigFile
  generalize loadFiles w (w.glob file) g.path = r
  obtain ⟨a, p⟩ := r
  cases a with
  | none => rfl
  | some l =>
    simp only
    split <;> rfl

theorem iterPy_avoid (w : LoadWorld) (file : SrcPath) (kw : SimFields) (g : Interp) : (iterPy w file kw g).2.avoid = g.avoid := by
  unfold iterPy
  by_cases ha : g.avoid = true
  · rw [if_pos ha]
  rw [if_neg ha]
  by_cases hp : w.isPython file = false
  · simp only [if_pos hp]
  simp only [if_neg hp]
  cases (execLoad w.combos (w.code file) [] g.queued).2.2 with
  | some v => rfl
  | none =>
    simp only
    split
    · rfl
    split
    · rfl
    split <;> rfl

/-- C98, what holds in general: however loading ends, runs are no longer deferred, so that later calls of `run` run. -/
theorem C98_not_deferred (w : LoadWorld) (kw : SimFields) (fs : List SrcPath) (g : Interp) :
    (fromFile w kw fs g).2.avoid = g.avoid := by
  induction fs generalizing g with
  | nil => rfl
  | cons f fs ih =>
    have h1 : (iterFile1 w f kw g).2.avoid = g.avoid := by
      have h0 := iterPy_avoid w f kw g
      unfold iterFile1
      generalize iterPy w f kw g = r at h0 ⊢
      obtain ⟨a, g1⟩ := r
      cases a with
      | ok l => exact h0
      | error e =>
        simp only
        split
        · rw [iterConfigFile_state]; exact h0
        · exact h0
    unfold fromFile
    generalize iterFile1 w f kw g = r at h1 ⊢
    obtain ⟨a, g1⟩ := r
    cases a with
    | error e => exact h1
    | ok l =>
      simp only
      have h2 := ih g1
      generalize fromFile w kw fs g1 = r at h2 ⊢
      obtain ⟨a, g2⟩ := r
      cases a with
      | error e => exact h2.trans h1
      | ok l => exact h2.trans h1

/-- C96 for several files: the simulations of all of them, in the order of the files, each loaded in the interpreter as the previous
file left it. -/
theorem C96_files (w : LoadWorld) (kw : SimFields) (fs : List SrcPath) (g : Interp) (l : List SimFields)
    (h : (fromFile w kw fs g).1 = .ok l) :
    ∃ (parts : List (List SimFields)) (gs : Nat → Interp), l = parts.flatten ∧ parts.length = fs.length ∧ gs 0 = g ∧
      ∀ (i : Nat) f, fs[i]? = some f → ∃ part, parts[i]? = some part ∧ iterFile1 w f kw (gs i) = (.ok part, gs (i + 1)) := by
  induction fs generalizing g l with
  | nil =>
    simp only [fromFile, Except.ok.injEq] at h
    exact ⟨[], fun _ => g, by simp [← h], rfl, rfl, by simp⟩
  | cons f fs ih =>
    unfold fromFile at h
    rcases h1 : iterFile1 w f kw g with ⟨a, g1⟩
    rw [h1] at h
    cases a with
    | error e => cases h
    | ok l1 =>
      simp only at h
      rcases h2 : fromFile w kw fs g1 with ⟨b, g2⟩
      rw [h2] at h
      cases b with
      | error e => cases h
      | ok l2 =>
        simp only [Except.ok.injEq] at h
        obtain ⟨parts, gs, hp, hl, hg, hi⟩ := ih g1 l2 (by rw [h2])
        refine ⟨l1 :: parts, fun i => match i with | 0 => g | i + 1 => gs i, by simp [← h, hp], by simp [hl], rfl, ?_⟩
        intro i f' hf
        cases i with
        | zero =>
          simp only [List.getElem?_cons_zero, Option.some.injEq] at hf
          subst hf
          exact ⟨l1, rfl, by rw [h1]; exact congrArg _ hg.symm⟩
        | succ i => exact hi i f' hf

/-- C96 for several files: the first one that fails determines the error. -/
theorem C96_files_error (w : LoadWorld) (kw : SimFields) (fs rest : List SrcPath) (f : SrcPath) (g g1 : Interp) (l : List SimFields)
    (e : LoadErr) (h1 : fromFile w kw fs g = (.ok l, g1)) (h2 : (iterFile1 w f kw g1).1 = .error e) :
    (fromFile w kw (fs ++ f :: rest) g).1 = .error e := by
  induction fs generalizing g l with
  | nil =>
    cases h1
    rw [List.nil_append, fromFile]
    rcases h3 : iterFile1 w f kw g1 with ⟨a, g2⟩
    rw [h3] at h2
    cases h2
    rfl
  | cons f' fs ih =>
    rw [List.cons_append, fromFile]
    rw [fromFile] at h1
    rcases h3 : iterFile1 w f' kw g with ⟨a, g2⟩
    rw [h3] at h1
    cases a with
    | error e => cases h1
    | ok l1 =>
      simp only at h1 ⊢
      rcases h4 : fromFile w kw fs g2 with ⟨b, g3⟩
      rw [h4] at h1
      cases b with
      | error e => cases h1
      | ok l2 =>
        simp only [Prod.mk.injEq] at h1
        obtain ⟨_, rfl⟩ := h1
        have := ih g2 l2 h4
        rcases h5 : fromFile w kw (fs ++ f :: rest) g2 with ⟨b, g4⟩
        rw [h5] at this
        cases this
        rfl

/-- C98, what holds for Python files: if loading succeeds, `sys.path` and `sys.modules` are as before, and nothing is deferred any
longer. Missing: files that fail, and configuration files, see below. -/
theorem C98_python_partial (w : LoadWorld) (file : SrcPath) (kw : SimFields) (g g' : Interp) (hi : g.imported = false)
    (l : List SimFields) (h : iterPy w file kw g = (.ok l, g')) : g' = { g with queued := [] } := by
  unfold iterPy at h
  by_cases ha : g.avoid = true
  · rw [if_pos ha] at h; cases h
  rw [if_neg ha] at h
  by_cases hp : w.isPython file = false
  · simp only [if_pos hp] at h; cases h
  simp only [if_neg hp] at h
  cases hx : (execLoad w.combos (w.code file) [] g.queued).2.2 with
  | some v => simp only [hx] at h; cases h
  | none =>
  simp only [hx] at h
  split at h
  · cases h
  split at h
  · cases h
  split at h
  · cases h
  have := (Prod.ext_iff.1 h).2
  simp only at this
  rw [← this]
  by_cases hd : file.dir ∈ g.path
  · simp [hd, ← hi]
  · simp [hd, ← hi, List.erase_append_right]

/-- C98 is violated by every configuration file: its folder stays in `sys.path`, whether it can be read or not. -/
theorem C98_config_false (w : LoadWorld) (file : SrcPath) (kw : SimFields) (g : Interp) (ha : g.avoid = false)
    (hp : w.isPython file = false) (hd : file.dir ∉ g.path) :
    (g.path ++ [file.dir]) <+: (iterFile1 w file kw g).2.path := by
  unfold iterFile1 iterPy
  rw [if_neg (by simp [ha]), if_pos hp]
  simp only [LoadErr.isValueError, if_true, iterConfigFile_state, if_neg hd]
  exact loadFiles_path w _ _

/-- C98 is violated by every Python file that raises an exception: its folder stays in `sys.path`, and the half-executed module stays in
`sys.modules`. -/
theorem C98_raising_false (w : LoadWorld) (file : SrcPath) (kw : SimFields) (g : Interp) (ha : g.avoid = false)
    (hp : w.isPython file = true) (hd : file.dir ∉ g.path) (v : Bool)
    (hx : (execLoad w.combos (w.code file) [] g.queued).2.2 = some v) :
    (iterPy w file kw g).2.path = g.path ++ [file.dir] ∧ (iterPy w file kw g).2.imported = true := by
  unfold iterPy
  rw [if_neg (by simp [ha]), if_neg (by simp [hp])]
  simp only [hx, if_neg hd, and_self]

/-- C98 is violated by a Python file without simulations and environments: its folder stays in `sys.path`. -/
theorem C98_nothing_false (w : LoadWorld) (file : SrcPath) (kw : SimFields) (g : Interp) (ha : g.avoid = false)
    (hp : w.isPython file = true) (hd : file.dir ∉ g.path) (hc : w.code file = []) (hq : g.queued = []) :
    iterPy w file kw g = (.error .noConfigurations, { g with path := g.path ++ [file.dir], imported := false }) := by
  unfold iterPy
  rw [if_neg (by simp [ha]), if_neg (by simp [hp])]
  simp [hc, hq, execLoad, simMembers, clsMembers, envSims, hd]

/-! ### C99 -/

/-- C99 is violated: a file that does not exist (or whose name contains a wildcard, so that `glob` does not find it) yields no
simulation and no error. -/
theorem C99_missing_false (w : LoadWorld) (file : SrcPath) (kw : SimFields) (g : Interp) (ha : g.avoid = false)
    (hp : w.isPython file = false) (hg : w.glob file = []) : (fromFile w kw [file] g).1 = .ok [] := by
  have : (iterFile1 w file kw g).1 = .ok [] := by
    unfold iterFile1 iterPy
    rw [if_neg (by simp [ha]), if_pos hp]
    simp [LoadErr.isValueError, iterConfigFile, hg, loadFiles]
  unfold fromFile
  generalize iterFile1 w file kw g = r at this ⊢
  obtain ⟨a, g1⟩ := r
  cases this
  rfl

/-- C99 is violated when the code of a Python file raises a `ValueError`: the outcome is that of reading the code as a
configuration file, and the exception of the file is gone. -/
theorem C99_value_error_false (w : LoadWorld) (file : SrcPath) (kw : SimFields) (g : Interp) (ha : g.avoid = false)
    (hp : w.isPython file = true) (hx : (execLoad w.combos (w.code file) [] g.queued).2.2 = some true) :
    (iterFile1 w file kw g).1 ≠ .error (.raised true) ∧
    (w.glob file = [file] → w.configs file = none → (iterFile1 w file kw g).1 = .error .notConfig) := by
  have h : (iterFile1 w file kw g).1 = (iterConfigFile w file kw (iterPy w file kw g).2).1 := by
    unfold iterFile1
    have : (iterPy w file kw g).1 = .error (.raised true) := by
      unfold iterPy
      rw [if_neg (by simp [ha]), if_neg (by simp [hp])]
      simp only [hx]
    generalize iterPy w file kw g = r at this ⊢
    obtain ⟨a, g1⟩ := r
    cases this
    rfl
  rw [h]
  constructor
  · unfold iterConfigFile
    generalize loadFiles w (w.glob file) _ = r
    obtain ⟨a, p⟩ := r
    cases a with
    | none => simp
    | some l =>
      simp only
      split <;> simp
  · intro hg hc
    simp [iterConfigFile, hg, loadFiles, hc]

/-- C99: every other exception of the code, and the absence of simulations, reaches the caller, and no file after it is loaded. -/
theorem C99_reported_partial (w : LoadWorld) (file : SrcPath) (fs : List SrcPath) (kw : SimFields) (g : Interp) (e : LoadErr)
    (he : (iterPy w file kw g).1 = .error e) (hv : e.isValueError = false) : (fromFile w kw (file :: fs) g).1 = .error e := by
  unfold fromFile iterFile1
  generalize iterPy w file kw g = r at he ⊢
  obtain ⟨a, g1⟩ := r
  cases he
  simp [hv]

/-- C99: `from_config` returns a simulation exactly if there is exactly one, and otherwise raises. -/
theorem C99_exactly_one (w : LoadWorld) (file : SrcPath) (g : Interp) (s : SimFields) :
    fromConfig (iterConfigFile w file [] g).1 = .ok s ↔ (iterConfigFile w file [] g).1 = .ok [s] := by
  generalize (iterConfigFile w file [] g).1 = r
  unfold fromConfig
  split <;> simp

/-- The fields of a simulation, in the order of its documentation (soil/simulation.py:56-76) and then those that it does not mention. -/
def Spec.simFields : List String :=
  ["version", "name", "description", "group", "model", "parameters", "matrix", "seed", "dir_path", "max_time", "max_steps", "iterations",
    "num_processes", "tables", "agent_reporters", "model_reporters", "dry_run", "backup", "overwrite", "source_file"] ++
  ["dump", "exporters", "outdir", "exporter_params", "level", "skip_test", "debug"]

private theorem mem_keys_update (e : SimFields) : ∀ (d : SimFields) (k : String), k ∈ Dict.keys (Dict.update d e) ↔ k ∈ Dict.keys d ∨ k ∈ Dict.keys e := by
  unfold Dict.update
  induction e with
  | nil => intro d k; simp [Dict.keys]
  | cons p e ih =>
    intro d k
    rw [List.foldl_cons, ih, Dict.keys_set]
    have hc : k ∈ Dict.keys (p :: e) ↔ k = p.1 ∨ k ∈ Dict.keys e := by simp [Dict.keys]
    rw [hc]
    by_cases h : p.1 ∈ Dict.keys d
    · rw [if_pos h]
      constructor
      · rintro (h1 | h1)
        · exact Or.inl h1
        · exact Or.inr (Or.inr h1)
      · rintro (h1 | h1 | h1)
        · exact Or.inl h1
        · subst h1; exact Or.inl h
        · exact Or.inr h1
    · rw [if_neg h]
      simp only [List.mem_append, List.mem_singleton, or_assoc]

/-- C99: a configuration is refused exactly if it, or the arguments, have a name that is not a field of a simulation. -/
theorem C99_unknown_fields (w : LoadWorld) (doc kw : SimFields) :
    (∃ e, iterConfigDict w doc kw = .error e) ↔ ∃ k, (k ∈ Dict.keys doc ∨ k ∈ Dict.keys kw) ∧ k ∉ Spec.simFields := by
  have hnames : ∀ k, k ∈ simFieldNames ↔ k ∈ Spec.simFields := by
    intro k
    simp only [simFieldNames, Spec.simFields, List.mem_append, List.mem_cons, List.not_mem_nil, or_false]
    tauto
  have hare : ∀ d : SimFields, areFields d = true ↔ ∀ k ∈ Dict.keys d, k ∈ Spec.simFields := by
    intro d
    unfold areFields
    rw [List.all_eq_true]
    constructor
    · intro h k hk
      obtain ⟨p, hp, rfl⟩ := List.mem_map.1 hk
      exact (hnames _).1 (by simpa using h p hp)
    · intro h p hp
      simpa using (hnames _).2 (h p.1 (List.mem_map.2 ⟨p, hp, rfl⟩))
  have hsome : (∃ s, fromDoc w kw w.cwd.dropLast doc = some s) ↔ ∀ k, k ∈ Dict.keys doc ∨ k ∈ Dict.keys kw → k ∈ Spec.simFields := by
    unfold fromDoc newSim
    simp only
    have hd : areFields (if Dict.has (Dict.update doc kw) "dir_path" then Dict.update doc kw
        else Dict.set (Dict.update doc kw) "dir_path" (.folder w.cwd.dropLast)) = true ↔ ∀ k, k ∈ Dict.keys doc ∨ k ∈ Dict.keys kw → k ∈ Spec.simFields := by
      rw [hare]
      split
      · exact ⟨fun h k hk => h k ((mem_keys_update kw doc k).2 hk), fun h k hk => h k ((mem_keys_update kw doc k).1 hk)⟩
      · rw [Dict.keys_set]
        constructor
        · intro h k hk
          refine h k ?_
          split
          · exact (mem_keys_update kw doc k).2 hk
          · exact List.mem_append_left _ ((mem_keys_update kw doc k).2 hk)
        · intro h k hk
          split at hk
          · exact h k ((mem_keys_update kw doc k).1 hk)
          · rcases List.mem_append.1 hk with hk | hk
            · exact h k ((mem_keys_update kw doc k).1 hk)
            · rw [List.mem_singleton.1 hk]; decide
    constructor
    · rintro ⟨s, hs⟩
      refine hd.1 ?_
      by_contra h
      rw [if_neg h] at hs
      cases hs
    · intro h
      rw [if_pos (hd.2 h)]
      exact ⟨_, rfl⟩
  unfold iterConfigDict
  cases hf : fromDoc w kw w.cwd.dropLast doc with
  | none =>
    refine ⟨fun _ => ?_, fun _ => ⟨_, rfl⟩⟩
    by_contra hc
    have := hsome.2 (fun k hk => by
      by_contra hn
      exact hc ⟨k, hk, hn⟩)
    rw [hf] at this
    obtain ⟨s, hs⟩ := this
    cases hs
  | some s =>
    refine ⟨fun ⟨e, he⟩ => (nomatch he), ?_⟩
    rintro ⟨k, hk, hn⟩
    exact absurd (hsome.1 ⟨s, hf⟩ k hk) hn

/-! ### C100 -/

/-- C100 is violated: `run_from_file` never runs a simulation; if the files contain any, it raises `AttributeError`. -/
theorem C100_run_from_file_false (l : List SimFields) :
    (runLoaded l).1 = [] ∧ (l ≠ [] → (runLoaded l).2 = some .noAttribute) := by
  cases l with
  | nil => simp [runLoaded]
  | cons s l =>
    unfold runLoaded
    rw [if_neg (by decide)]
    simp

/-! ### Examples -/

/-- A Python file with two simulations and a deferred run, one without any, one that raises a `ValueError`, one with an environment
class, and a configuration file. -/
def exLoad : LoadWorld where
  isPython f := decide (f.base ≠ "c.yml")
  code f :=
    if f.base = "a.py" then
      [.bind "z" [("seed", .other 1)], .cls "Env" (.other 7), .bind "b" [("seed", .other 2)], .call [("seed", .other 3)],
        .bind "z" [("seed", .other 4)]]
    else if f.base = "e.py" then [.raise true]
    else if f.base = "env.py" then [.cls "Env" (.other 7)]
    else []
  configs f := if f.base = "c.yml" then some [[("seed", .other 5)], [("dir_path", .folder ["q"])]] else none
  glob f := if f.base = "missing.yml" then [] else [f]
  defaults := [("seed", .other 0), ("model", .other 0)]
  cwd := ["home", "me"]
  combos _ := [.other 10, .other 11]

def exInterp : Interp := ⟨[["lib"]], false, false, []⟩

example : iterPy exLoad ⟨["d"], "a.py"⟩ [("iterations", .other 3)] exInterp =
    (.ok [[("seed", .other 2), ("iterations", .other 3)], [("seed", .other 4), ("iterations", .other 3)],
      [("seed", .other 3), ("parameters", .other 10), ("iterations", .other 3)],
      [("seed", .other 3), ("parameters", .other 11), ("iterations", .other 3)]], exInterp) := by decide +kernel

example : iterFile1 exLoad ⟨["d"], "env.py"⟩ [("seed", .other 9)] exInterp =
    (.ok [[("seed", .other 9), ("model", .other 7)]], exInterp) := by decide +kernel

example : iterFile1 exLoad ⟨["d"], "c.yml"⟩ [] exInterp =
    (.ok [[("seed", .other 5), ("model", .other 0), ("dir_path", .folder ["d"])],
      [("seed", .other 0), ("model", .other 0), ("dir_path", .folder ["q"])]],
      { exInterp with path := [["lib"], ["d"]] }) := by decide +kernel

example : iterConfigDict exLoad [("seed", .other 5)] [] =
    .ok [[("seed", .other 5), ("model", .other 0), ("dir_path", .folder ["home"])]] := by decide +kernel

example : iterFile1 exLoad ⟨["d"], "e.py"⟩ [] exInterp =
    (.error .notConfig, { exInterp with path := [["lib"], ["d"]], imported := true }) := by decide +kernel

example : ((fromFile exLoad [] [⟨["d"], "a.py"⟩, ⟨["d"], "c.yml"⟩] exInterp).1.toOption.map (·.length)) =
    some (((iterFile1 exLoad ⟨["d"], "a.py"⟩ [] exInterp).1.toOption.map (·.length)).getD 0 +
      ((iterFile1 exLoad ⟨["d"], "c.yml"⟩ [] exInterp).1.toOption.map (·.length)).getD 0) ∧
    0 < ((iterFile1 exLoad ⟨["d"], "c.yml"⟩ [] exInterp).1.toOption.map (·.length)).getD 0 := by
  decide +kernel

example : iterConfigDict exLoad [("seed", .other 5)] [("matrix", .other 1)] ≠ .error .typeError ∧
    iterConfigDict exLoad [("seed", .other 5)] [("interval", .other 1)] = .error .typeError := by decide +kernel

example : (fromFile exLoad [] [⟨["d"], "a.py"⟩, ⟨["d"], "x.py"⟩, ⟨["d"], "c.yml"⟩] exInterp).1 = .error .noConfigurations := by
  decide +kernel

end Verif
