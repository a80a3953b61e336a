import Verif.Model.Serialization
import Verif.Proofs.Simulation
import Verif.Props.Nested

/-!
# Properties C60–C62: source files, names of classes, templates
-/

namespace Verif

/-! ### C60 -/

/-- No file is used by a block inside a block that uses it. -/
def SrcProg.Nested (opened : List String) : SrcProg → Prop
  | .skip => True
  | .raise => True
  | .seq a b => a.Nested opened ∧ b.Nested opened
  | .tryExcept a => a.Nested opened
  | .get _ _ => True
  | .withSource file _ _ body => file ∉ opened ∧ body.Nested (file :: opened)

/-- Names of modules used for files are exactly the first ones. -/
structure Registry.Good (R : Registry) : Prop where
  wfFiles : Dict.WF R.files
  wfKnown : Dict.WF R.known
  exact : ∀ n, (Dict.get? R.known (.imported n)).isSome ↔ n < R.files.length

/-- The program imports a module of that name. -/
def SrcProg.imports (name : String) : SrcProg → Bool
  | .skip => false
  | .raise => false
  | .seq a b => a.imports name || b.imports name
  | .tryExcept a => a.imports name
  | .get n _ => n == name
  | .withSource _ _ _ body => body.imports name

theorem del_set_absent {K V : Type} [DecidableEq K] (d : Dict K V) (k : K) (v : V) (h : Dict.get? d k = none) :
    Dict.del (Dict.set d k v) k = d := by
  induction d with
  | nil => simp [Dict.set, Dict.del]
  | cons p d ih =>
    obtain ⟨a, b⟩ := p
    simp only [Dict.get?] at h
    split at h
    · cases h
    · rename_i hne
      simp [Dict.set, Dict.del, hne, ih h]

/-- What a well-nested program does to the registry: files as before, modules of files as before, other modules as before
except for imports. -/
structure Restores (p : SrcProg) (R R' : Registry) : Prop where
  files : R'.files = R.files
  imported : ∀ n, Dict.get? R'.known (.imported n) = Dict.get? R.known (.imported n)
  named : ∀ s, p.imports s = false → Dict.get? R'.known (.named s) = Dict.get? R.known (.named s)
  kept : ∀ s m, Dict.get? R.known (.named s) = some (some m) → Dict.get? R'.known (.named s) = some (some m)
  good : R'.Good

theorem Registry.Good.get {R : Registry} (h : R.Good) (name : String) (m : Option Nat) :
    Restores (.get name m) R (R.get name m).1 := by
  unfold Registry.get
  have same : Restores (.get name m) R R := ⟨rfl, fun _ => rfl, fun _ _ => rfl, fun _ _ h => h, h⟩
  have upd : ∀ m' : Nat, (∀ x, Dict.get? R.known (.named name) ≠ some (some x)) →
      Restores (.get name m) R { R with known := Dict.set R.known (.named name) (some m') } := by
    intro m' hno
    refine ⟨rfl, fun n => Dict.get?_set_ne _ _ (by simp), ?_, ?_, ?_⟩
    · intro s hs
      have hne : name ≠ s := by simpa [SrcProg.imports] using hs
      exact Dict.get?_set_ne _ _ (by simpa using hne)
    · intro s x hx
      have hne : name ≠ s := by rintro rfl; exact hno x hx
      simp only
      rw [Dict.get?_set_ne _ _ (by simpa using hne)]; exact hx
    · exact ⟨h.wfFiles, h.wfKnown.set _ _, fun n => by
        simp only
        rw [Dict.get?_set_ne _ _ (by simp)]; exact h.exact n⟩
  cases hk : Dict.get? R.known (.named name) with
  | none =>
    cases m with
    | none => exact same
    | some m' => exact upd m' (by simp [hk])
  | some x =>
    cases x with
    | some y => exact same
    | none =>
      cases m with
      | none => exact same
      | some m' => exact upd m' (by simp [hk])

/-- Entering a block. -/
theorem Registry.Good.add {R : Registry} (h : R.Good) (file : String) (m : Nat) (hf : file ∉ Dict.keys R.files) :
    R.add file m true = (⟨Dict.set R.files file R.files.length, Dict.set R.known (.imported R.files.length) (some m)⟩, false) ∧
    R.add file m false = (R, true) ∧
    (R.add file m true).1.Good ∧ (R.add file m true).1.moduleOf file = some m := by
  have hhas : Dict.has R.files file = false := by
    unfold Dict.has
    rw [(Dict.get?_none_iff _ _).2 hf]; rfl
  have e1 : R.add file m true =
      (⟨Dict.set R.files file R.files.length, Dict.set R.known (.imported R.files.length) (some m)⟩, false) := by
    simp [Registry.add, hhas]
  refine ⟨e1, by simp [Registry.add, hhas], ?_, ?_⟩
  · rw [e1]
    refine ⟨h.wfFiles.set _ _, h.wfKnown.set _ _, ?_⟩
    intro n
    simp only
    have hlen : (Dict.set R.files file R.files.length).length = R.files.length + 1 := by
      rw [Dict.set_of_absent hf]; simp
    rw [hlen, Dict.get?_set]
    by_cases hn : ModName.imported R.files.length = ModName.imported n
    · rw [if_pos hn]
      cases hn
      simp
    · rw [if_neg hn, h.exact]
      have : R.files.length ≠ n := fun e => hn (by rw [e])
      omega
  · rw [e1]; simp [Registry.moduleOf]

/-- C60: after any well-nested program on files that are not registered, the registry is as it was (apart from ordinary
imports), whether the program ends normally or with an exception, and whatever files fail to load. -/
theorem C60_restored (p : SrcProg) (R : Registry) (hR : R.Good) (hp : p.Nested (Dict.keys R.files)) :
    Restores p R (p.exec R).1 := by
  induction p generalizing R with
  | skip => exact ⟨rfl, fun _ => rfl, fun _ _ => rfl, fun _ _ h => h, hR⟩
  | raise => exact ⟨rfl, fun _ => rfl, fun _ _ => rfl, fun _ _ h => h, hR⟩
  | seq a b iha ihb =>
    have h1 := iha R hR hp.1
    simp only [SrcProg.exec]
    by_cases hr : (a.exec R).2 = true
    · rw [if_pos hr]
      exact ⟨h1.files, h1.imported, fun s hs => h1.named s (by
        simp only [SrcProg.imports, Bool.or_eq_false_iff] at hs; exact hs.1), h1.kept, h1.good⟩
    · rw [if_neg hr]
      have h2 := ihb (a.exec R).1 h1.good (by rw [h1.files]; exact hp.2)
      refine ⟨h2.files.trans h1.files, fun n => (h2.imported n).trans (h1.imported n), ?_,
        fun s m h => h2.kept s m (h1.kept s m h), h2.good⟩
      intro s hs
      simp only [SrcProg.imports, Bool.or_eq_false_iff] at hs
      exact (h2.named s hs.2).trans (h1.named s hs.1)
  | tryExcept a iha =>
    have h1 := iha R hR hp
    exact ⟨h1.files, h1.imported, h1.named, h1.kept, h1.good⟩
  | get name m => exact hR.get name m
  | withSource file m loads body ih =>
    obtain ⟨hnew, hbody⟩ := hp
    obtain ⟨e1, e2, hg1, _⟩ := hR.add file m hnew
    have hn : Dict.get? R.files file = none := (Dict.get?_none_iff _ _).2 hnew
    simp only [SrcProg.exec]
    cases loads with
    | false => rw [e2]; exact ⟨rfl, fun _ => rfl, fun _ _ => rfl, fun _ _ h => h, hR⟩
    | true =>
      rw [e1] at hg1 ⊢
      simp only [Bool.false_eq_true, if_false] at hg1 ⊢
      generalize hR1 : (⟨Dict.set R.files file R.files.length,
        Dict.set R.known (.imported R.files.length) (some m)⟩ : Registry) = R1 at hg1
      have hf1 : R1.files = Dict.set R.files file R.files.length := by rw [← hR1]
      have hk1 : R1.known = Dict.set R.known (.imported R.files.length) (some m) := by rw [← hR1]
      have hperm : ∀ (a b : List String) (q : SrcProg), (∀ x, x ∈ a ↔ x ∈ b) → q.Nested a → q.Nested b := by
        intro a b q
        induction q generalizing a b with
        | skip => exact fun _ h => h
        | raise => exact fun _ h => h
        | seq c d ihc ihd => exact fun hab h => ⟨ihc a b hab h.1, ihd a b hab h.2⟩
        | tryExcept c ihc => exact fun hab h => ihc a b hab h
        | get _ _ => exact fun _ h => h
        | withSource f m l c ihc =>
          exact fun hab h => ⟨fun hm => h.1 ((hab f).2 hm), ihc (f :: a) (f :: b) (fun x => by simp [hab x]) h.2⟩
      have h2 := ih R1 hg1 (hperm _ _ _ (fun x => by
        rw [hf1, Dict.keys_set, if_neg hnew]; simp [or_comm]) hbody)
      generalize body.exec R1 = q at h2
      obtain ⟨R2, r2⟩ := q
      simp only at h2 ⊢
      have hget : Dict.get? R2.files file = some R.files.length := by rw [h2.files, hf1]; simp
      have hgetk : Dict.get? R2.known (.imported R.files.length) = some (some m) := by
        rw [h2.imported, hk1]; simp
      have hz : R2.remove file = (⟨Dict.del R2.files file, Dict.del R2.known (.imported R.files.length)⟩, false) := by
        simp [Registry.remove, hget, hgetk]
      rw [hz]
      simp only
      have hfiles : Dict.del R2.files file = R.files := by
        rw [h2.files, hf1]; exact del_set_absent _ _ _ hn
      have habs : Dict.get? R.known (.imported R.files.length) = none := by
        have := (hR.exact R.files.length).not.2 (by omega)
        simpa using this
      have himp : ∀ n, Dict.get? (Dict.del R2.known (.imported R.files.length)) (.imported n) =
          Dict.get? R.known (.imported n) := by
        intro n
        rw [Dict.get?_del _ h2.good.wfKnown, h2.imported, hk1, Dict.get?_set]
        by_cases hn : ModName.imported R.files.length = ModName.imported n
        · rw [if_pos hn]
          cases hn
          exact habs.symm
        · rw [if_neg hn, if_neg hn]
      refine ⟨hfiles, himp, ?_, ?_, ?_⟩
      · intro s hs
        simp only
        rw [Dict.get?_del _ h2.good.wfKnown, if_neg (by simp), h2.named s hs, hk1, Dict.get?_set_ne _ _ (by simp)]
      · intro s x hx
        simp only
        rw [Dict.get?_del _ h2.good.wfKnown, if_neg (by simp)]
        exact h2.kept s x (by rw [hk1, Dict.get?_set_ne _ _ (by simp)]; exact hx)
      · refine ⟨by rw [hfiles]; exact hR.wfFiles, h2.good.wfKnown.del _, ?_⟩
        intro n
        simp only
        rw [himp, hfiles]
        exact hR.exact n

/-- C60: inside its block the module of a file is available, at the start and after any well-nested program that has been
executed inside the block. Leaving the block raises nothing of its own. -/
theorem C60_available (p : SrcProg) (R : Registry) (hR : R.Good) (file : String) (m : Nat) (hf : file ∉ Dict.keys R.files)
    (hp : p.Nested (Dict.keys (R.add file m true).1.files)) :
    (R.add file m true).2 = false ∧ (R.add file m true).1.moduleOf file = some m ∧
    (p.exec (R.add file m true).1).1.moduleOf file = some m ∧
    ((p.exec (R.add file m true).1).1.remove file).2 = false := by
  obtain ⟨e1, _, hg, hm⟩ := hR.add file m hf
  have h := C60_restored p _ hg hp
  refine ⟨by rw [e1], hm, ?_, ?_⟩
  · rw [← hm]
    unfold Registry.moduleOf
    rw [h.files]
    split
    · rfl
    · rw [h.imported]
  · unfold Registry.remove
    have hi := h.imported R.files.length
    have hf' := h.files
    rw [e1] at hi hf' ⊢
    simp only [Dict.get?_set_self] at hi hf' ⊢
    rw [hf']
    simp only [Dict.get?_set_self, hi]

/-- The condition that files differ is needed: with a file used inside its own block, leaving the outer block raises
`ValueError` although nothing failed. -/
theorem C60_same_file_false (R : Registry) (hR : R.Good) (file : String) (m m' : Nat) (hf : file ∉ Dict.keys R.files) :
    ((SrcProg.withSource file m true (.withSource file m' true .skip)).exec R).2 = true := by
  obtain ⟨e1, _, hg, _⟩ := hR.add file m hf
  have hlen : R.files.length ≠ R.files.length + 1 := by omega
  have habs : Dict.get? R.files file = none := (Dict.get?_none_iff _ _).2 hf
  simp only [SrcProg.exec, e1, Bool.false_eq_true, if_false]
  have hrm : Registry.remove ⟨Dict.set R.files file R.files.length, Dict.set R.known (.imported R.files.length) (some m)⟩ file =
      (⟨R.files, Dict.del (Dict.set R.known (.imported R.files.length) (some m)) (.imported R.files.length)⟩, false) := by
    simp [Registry.remove, del_set_absent _ _ _ habs]
  have hadd : Registry.add ⟨Dict.set R.files file R.files.length, Dict.set R.known (.imported R.files.length) (some m)⟩
      file m' true = (⟨Dict.set R.files file R.files.length,
        Dict.set (Dict.del (Dict.set R.known (.imported R.files.length) (some m)) (.imported R.files.length))
          (.imported R.files.length) (some m')⟩, false) := by
    have hh : Dict.has (Dict.set R.files file R.files.length) file = true := by simp [Dict.has]
    simp only [Registry.add, hh, if_true, hrm]
    simp
  rw [hadd]
  simp only [Bool.false_eq_true, if_false]
  have hrm2 : (Registry.remove ⟨Dict.set R.files file R.files.length,
        Dict.set (Dict.del (Dict.set R.known (.imported R.files.length) (some m)) (.imported R.files.length))
          (.imported R.files.length) (some m')⟩ file).1.files = R.files := by
    simp [Registry.remove, del_set_absent _ _ _ habs]
  generalize Registry.remove ⟨Dict.set R.files file R.files.length,
        Dict.set (Dict.del (Dict.set R.known (.imported R.files.length) (some m)) (.imported R.files.length))
          (.imported R.files.length) (some m')⟩ file = z at hrm2
  have hz : (z.1.remove file).2 = true := by
    simp [Registry.remove, hrm2, habs]
  rw [hz]; simp

/-- The condition on nesting is needed: if the first of two files is removed before the second, the next file gets the name of
the second one's module, which is lost. -/
theorem C60_unnested_false (R : Registry) (hR : R.Good) (f g h : String) (a b c : Nat) (hf : f ∉ Dict.keys R.files)
    (hg : g ∉ Dict.keys R.files) (hh : h ∉ Dict.keys R.files) (hfg : f ≠ g) (hgh : g ≠ h) (hbc : b ≠ c) :
    let R1 := ((R.add f a true).1.add g b true).1
    let R2 := ((R1.remove f).1.add h c true).1
    R1.moduleOf g = some b ∧ R2.moduleOf g = some c := by
  intro R1 R2
  obtain ⟨e1, _, hg1, _⟩ := hR.add f a hf
  have hlen1 : (R.add f a true).1.files.length = R.files.length + 1 := by
    rw [e1]; simp [Dict.set_of_absent hf]
  have hkeys1 : Dict.keys (R.add f a true).1.files = Dict.keys R.files ++ [f] := by
    rw [e1]; simp only [Dict.keys_set, if_neg hf]
  obtain ⟨e2, _, _, hm⟩ := hg1.add g b (by rw [hkeys1]; simp [hg, Ne.symm hfg])
  refine ⟨hm, ?_⟩
  rw [hlen1] at e2
  have hR1 : R1 = ⟨Dict.set (R.add f a true).1.files g (R.files.length + 1),
      Dict.set (R.add f a true).1.known (.imported (R.files.length + 1)) (some b)⟩ := by
    simp only [R1, e2]
  have habs : Dict.get? R.files f = none := (Dict.get?_none_iff _ _).2 hf
  have hgetf : Dict.get? R1.files f = some R.files.length := by
    rw [hR1]; simp only; rw [Dict.get?_set_ne _ _ (Ne.symm hfg), e1]; simp
  have hgetk : Dict.get? R1.known (.imported R.files.length) = some (some a) := by
    rw [hR1]; simp only; rw [Dict.get?_set_ne _ _ (by simp), e1]; simp
  have hrm : R1.remove f = (⟨Dict.del R1.files f, Dict.del R1.known (.imported R.files.length)⟩, false) := by
    simp [Registry.remove, hgetf, hgetk]
  have hfiles : Dict.keys R1.files = Dict.keys R.files ++ [f] ++ [g] := by
    rw [hR1]; simp only [Dict.keys_set, hkeys1]
    rw [if_neg (by simp [hg, Ne.symm hfg])]
  have hwf1 : Dict.WF R1.files := by rw [hR1]; exact hg1.wfFiles.set _ _
  have hlen2 : (Dict.del R1.files f).length = R.files.length + 1 := by
    have hd : ∀ (d : Dict String Nat), f ∈ Dict.keys d → (Dict.del d f).length + 1 = d.length := by
      intro d
      induction d with
      | nil => intro h; cases h
      | cons p d ih =>
        obtain ⟨k, v⟩ := p
        intro hm
        simp only [Dict.del]
        by_cases hk : k = f
        · simp [hk]
        · rw [if_neg hk]
          have : f ∈ Dict.keys d := by
            simp [Dict.keys, Ne.symm hk] at hm ⊢; exact hm
          simp [ih this]
    have h1 := hd R1.files (by rw [hfiles]; simp)
    have h2 : R1.files.length = R.files.length + 2 := by
      have := congrArg List.length hfiles
      simpa [Dict.keys] using this
    omega
  have hhas : Dict.has (Dict.del R1.files f) h = false ∨ h = f := by
    by_cases hf : h = f
    · exact Or.inr hf
    · left
      unfold Dict.has
      rw [Dict.get?_del _ hwf1, if_neg (Ne.symm hf)]
      have : Dict.get? R1.files h = none := by
        rw [Dict.get?_none_iff, hfiles]; simp [hh, hf, Ne.symm hgh]
      rw [this]; rfl
  have hhas' : Dict.has (Dict.del R1.files f) h = false := by
    rcases hhas with h1 | h1
    · exact h1
    · subst h1
      unfold Dict.has
      rw [Dict.get?_del _ hwf1, if_pos rfl]; rfl
  have hR2 : R2 = ⟨Dict.set (Dict.del R1.files f) h (R.files.length + 1),
      Dict.set (Dict.del R1.known (.imported R.files.length)) (.imported (R.files.length + 1)) (some c)⟩ := by
    simp only [R2, hrm, Registry.add, hhas', Bool.false_eq_true, if_false, if_true, hlen2]
  have hgg : Dict.get? R2.files g = some (R.files.length + 1) := by
    rw [hR2]; simp only
    rw [Dict.get?_set_ne _ _ (Ne.symm hgh), Dict.get?_del _ hwf1, if_neg hfg, hR1]
    simp
  rw [Registry.moduleOf, hgg, hR2]
  simp

/-- Three nested files; the innermost block raises. -/
def exSrcProg : SrcProg :=
  .tryExcept (.withSource "a" 1 true (.withSource "b" 2 true
    (.seq (.get "numpy" (some 9)) (.withSource "c" 3 true .raise))))

example : exSrcProg.exec ⟨[], [(.named "soil", none)]⟩ = (⟨[], [(.named "soil", none), (.named "numpy", some 9)]⟩, false) ∧
    exSrcProg.Nested [] := by
  refine ⟨by decide +kernel, ?_⟩
  simp [exSrcProg, SrcProg.Nested]

/-! ### C61 -/

/-- Names of attributes do not contain dots. -/
def PyWorld.NoDots (w : PyWorld) : Prop := ∀ m d k, w.modules m = some d → k ∈ Dict.keys d → '.' ∉ k

theorem firstOption_eq (w : PyWorld) (c : PyClass) (l : List (Str × Str)) (n : Nat)
    (h1 : ∀ mt ∈ l, ∀ x, w.attr mt.1 mt.2 = some x → x = n) (h2 : ∃ mt ∈ l, w.attr mt.1 mt.2 = some n) :
    firstOption w l = some (w.finish n) := by
  induction l with
  | nil => obtain ⟨_, h, _⟩ := h2; cases h
  | cons mt l ih =>
    obtain ⟨m, t⟩ := mt
    simp only [firstOption]
    cases ha : w.attr m t with
    | some x => rw [h1 (m, t) (by simp) x ha]
    | none =>
      obtain ⟨mt', hm, hx⟩ := h2
      rcases List.mem_cons.1 hm with e | hm
      · subst e; rw [ha] at hx; cases hx
      · exact ih (fun mt h => h1 mt (by simp [h])) ⟨mt', hm, hx⟩

/-- What comes back for the name of a class, if it is what its module has under its name, its name is not the name of a builtin, it
is not defined in `__main__`, and no known module has something else under that name. -/
theorem name_found (w : PyWorld) (hnd : w.NoDots) (known : List Str) (hk : ∀ m ∈ known, m ≠ [] ∧ (w.modules m).isSome)
    (c : PyClass) (hb : w.isBuiltin c.name = false) (hb2 : w.isBuiltin (c.module ++ '.' :: c.name) = false)
    (hmain : c.module ≠ "__main__".toList)
    (hown : w.attr c.module c.name = some c.obj)
    (hother : ∀ m ∈ known, ∀ x, w.attr m c.name = some x → x = c.obj) (y : Nat) (hfin : w.finish c.obj = y) :
    ∃ t, className w known c = some t ∧ deserializeName w known t = some (.obj y) := by
  have hdot : '.' ∉ c.name := by
    unfold PyWorld.attr at hown
    cases hm : w.modules c.module with
    | none => rw [hm] at hown; cases hown
    | some d =>
      rw [hm] at hown
      exact hnd c.module d c.name hm ((Dict.mem_keys d c.name).2 (by simp only at hown; rw [hown]; rfl))
  -- the two possible names
  have short : (∃ m ∈ known, w.attr m c.name = some c.obj) →
      deserializeName w known c.name = some (.obj y) := by
    intro hex
    unfold deserializeName
    rw [hb]
    simp only [Bool.false_eq_true, if_false, rsplit_none c.name hdot, List.append_nil]
    rw [firstOption_eq w c _ c.obj]
    · rw [hfin]
    · intro mt hmt x hx
      obtain ⟨m, hm, rfl⟩ := List.mem_map.1 hmt
      exact hother m (List.mem_of_mem_filter hm) x hx
    · obtain ⟨m, hm, hx⟩ := hex
      refine ⟨(m, c.name), List.mem_map.2 ⟨m, ?_, rfl⟩, hx⟩
      rw [List.mem_filter]
      refine ⟨hm, ?_⟩
      have := (hk m hm).1
      cases m with
      | nil => exact absurd rfl this
      | cons a l => rfl
  have long : deserializeName w known (c.module ++ '.' :: c.name) = some (.obj y) := by
    unfold deserializeName
    rw [hb2]
    simp only [Bool.false_eq_true, if_false, rsplit_some c.module c.name hdot]
    rw [firstOption_eq w c _ c.obj]
    · rw [hfin]
    · intro mt hmt x hx
      rcases List.mem_append.1 hmt with hmt | hmt
      · obtain ⟨m, hm, rfl⟩ := List.mem_map.1 hmt
        exfalso
        unfold PyWorld.attr at hx
        cases hmm : w.modules m with
        | none => rw [hmm] at hx; cases hx
        | some d =>
          rw [hmm] at hx
          exact hnd m d _ hmm ((Dict.mem_keys d _).2 (by simp only at hx; rw [hx]; rfl)) (by simp)
      · rw [List.mem_singleton] at hmt
        subst hmt
        simp only at hx
        rw [hown] at hx
        exact (Option.some.inj hx).symm
    · exact ⟨(c.module, c.name), by simp, hown⟩
  have hnameIn : ∀ l : List Str, (∀ m ∈ l, m ∈ known) →
      (nameIn w c l = some c.name ∧ ∃ m ∈ known, w.attr m c.name = some c.obj) ∨
      nameIn w c l = some (c.module ++ '.' :: c.name) := by
    intro l
    induction l with
    | nil => intro _; exact Or.inr rfl
    | cons m l ih =>
      intro hl
      have hm := hl m (by simp)
      simp only [nameIn]
      cases hmm : w.modules m with
      | none => have := (hk m hm).2; rw [hmm] at this; cases this
      | some d =>
        simp only
        by_cases hd : Dict.has d c.name = true
        · rw [if_pos hd]
          left
          refine ⟨rfl, m, hm, ?_⟩
          unfold Dict.has at hd
          obtain ⟨x, hx⟩ := Option.isSome_iff_exists.1 hd
          have ha : w.attr m c.name = some x := by unfold PyWorld.attr; rw [hmm]; exact hx
          rw [ha, hother m hm x ha]
        · rw [if_neg hd]
          exact ih (fun m h => hl m (by simp [h]))
  have hmain' : ¬ c.module = mainName := hmain
  unfold className
  rw [hb]
  simp only [Bool.false_eq_true, if_false, if_neg hmain']
  by_cases hmk : c.module ∈ known
  · rw [if_pos hmk]
    exact ⟨_, rfl, short ⟨_, hmk, hown⟩⟩
  · rw [if_neg hmk]
    rcases hnameIn known (fun _ h => h) with ⟨h1, h2⟩ | h1
    · exact ⟨_, h1, short h2⟩
    · exact ⟨_, h1, long⟩

/-- C61, what holds: the class is found again if it is what its module has under its name, its name is not the name of a
builtin, it is not defined in `__main__`, no known module has something else under that name, and it has no attribute
`deserialize`. Missing: the other cases, see below. -/
theorem C61_round_trip_partial (w : PyWorld) (hnd : w.NoDots) (known : List Str) (hk : ∀ m ∈ known, m ≠ [] ∧ (w.modules m).isSome)
    (c : PyClass) (hb : w.isBuiltin c.name = false) (hb2 : w.isBuiltin (c.module ++ '.' :: c.name) = false)
    (hmain : c.module ≠ "__main__".toList)
    (hown : w.attr c.module c.name = some c.obj)
    (hother : ∀ m ∈ known, ∀ x, w.attr m c.name = some x → x = c.obj) (hdes : w.deserializeAttr c.obj = none) :
    ∃ t, className w known c = some t ∧ deserializeName w known t = some (.obj c.obj) :=
  name_found w hnd known hk c hb hb2 hmain hown hother c.obj (by simp [PyWorld.finish, hdes])

/-- C61 is violated for classes with an attribute `deserialize`: this comes back instead. -/
theorem C61_deserialize_false (w : PyWorld) (hnd : w.NoDots) (known : List Str) (hk : ∀ m ∈ known, m ≠ [] ∧ (w.modules m).isSome)
    (c : PyClass) (hb : w.isBuiltin c.name = false) (hb2 : w.isBuiltin (c.module ++ '.' :: c.name) = false)
    (hmain : c.module ≠ "__main__".toList)
    (hown : w.attr c.module c.name = some c.obj)
    (hother : ∀ m ∈ known, ∀ x, w.attr m c.name = some x → x = c.obj) (f : Nat) (hdes : w.deserializeAttr c.obj = some f)
    (hf : f ≠ c.obj) :
    ∃ t, className w known c = some t ∧ deserializeName w known t = some (.obj f) ∧
      deserializeName w known t ≠ some (.obj c.obj) := by
  obtain ⟨t, h1, h2⟩ := name_found w hnd known hk c hb hb2 hmain hown hother f (by simp [PyWorld.finish, hdes])
  refine ⟨t, h1, h2, ?_⟩
  rw [h2]
  intro h
  injection h with h
  injection h with h
  exact hf h

/-- C61 is violated by every class named like a builtin: what comes back is a function that evaluates literals. -/
theorem C61_builtin_false (w : PyWorld) (known : List Str) (c : PyClass) (hb : w.isBuiltin c.name = true) :
    ∃ t, className w known c = some t ∧ deserializeName w known t = some (.builtin c.name) := by
  refine ⟨c.name, by simp [className, hb], by simp [deserializeName, hb]⟩

/-- C61 is violated when an earlier known module has something else under the name of the class: this is what comes back. -/
theorem C61_shadowed_false (w : PyWorld) (k : Str) (known : List Str) (c : PyClass) (x : Nat)
    (hb : w.isBuiltin c.name = false) (hk : k ≠ []) (hx : w.attr k c.name = some x) :
    ∃ t, className w (k :: known) c = some t ∧ deserializeName w (k :: known) t = some (.obj (w.finish x)) := by
  refine ⟨c.name, ?_, ?_⟩
  · unfold className
    rw [hb]
    simp only [Bool.false_eq_true, if_false]
    split
    · rfl
    · split
      · rfl
      · unfold PyWorld.attr at hx
        simp only [nameIn]
        cases hm : w.modules k with
        | none => rw [hm] at hx; cases hx
        | some d =>
          rw [hm] at hx
          simp only at hx ⊢
          rw [if_pos (by simp [Dict.has, hx])]
  · unfold deserializeName
    rw [hb]
    have : (k :: known).filter (fun m => !m.isEmpty) = k :: known.filter (fun m => !m.isEmpty) := by
      cases k with
      | nil => exact absurd rfl hk
      | cons a l => rfl
    simp only [Bool.false_eq_true, if_false, this, List.map_cons, List.cons_append, firstOption, hx]

/-- C61 is violated by classes of the script (`__main__`) that no known module has: there is an error, unless `eval` finds
that name in `soil.serialization`. -/
theorem C61_main_false (w : PyWorld) (known : List Str) (c : PyClass) (hb : w.isBuiltin c.name = false)
    (hdot : '.' ∉ c.name) (hmain : c.module = "__main__".toList) (hno : ∀ m ∈ known, w.attr m c.name = none)
    (he : w.evalName c.name = none) :
    ∃ t, className w known c = some t ∧ deserializeName w known t = none := by
  have hmain' : c.module = mainName := hmain
  refine ⟨c.name, by simp [className, hb, hmain'], ?_⟩
  unfold deserializeName
  rw [hb]
  simp only [Bool.false_eq_true, if_false, rsplit_none c.name hdot, List.append_nil]
  have : ∀ l : List Str, (∀ m ∈ l, m ∈ known) → firstOption w (l.map (fun m => (m, c.name))) = none := by
    intro l
    induction l with
    | nil => intro _; rfl
    | cons m l ih =>
      intro hl
      simp only [List.map_cons, firstOption, hno m (hl m (by simp))]
      exact ih (fun m h => hl m (by simp [h]))
  rw [this _ (fun m h => List.mem_of_mem_filter h)]
  simp [he]

/-- `soil` has `Environment`, `networkx` has `Graph`, and `mine` has another `Environment` and `int`. -/
def exWorld : PyWorld where
  isBuiltin := fun s => s == "int".toList
  modules := fun m =>
    if m = "soil".toList then some [("Environment".toList, 1), ("name".toList, 7)]
    else if m = "networkx".toList then some [("Graph".toList, 2)]
    else if m = "mine".toList then some [("Environment".toList, 3), ("int".toList, 4)]
    else none
  deserializeAttr := fun _ => none
  evalName := fun _ => none

example : className exWorld ["soil".toList] ⟨"Graph".toList, "networkx".toList, 2⟩ = some "networkx.Graph".toList ∧
    deserializeName exWorld ["soil".toList] "networkx.Graph".toList = some (.obj 2) ∧
    className exWorld ["soil".toList] ⟨"Environment".toList, "soil".toList, 1⟩ = some "Environment".toList ∧
    deserializeName exWorld ["soil".toList] "Environment".toList = some (.obj 1) ∧
    className exWorld ["soil".toList] ⟨"Environment".toList, "mine".toList, 3⟩ = some "Environment".toList ∧
    deserializeName exWorld ["soil".toList] "int".toList = some (.builtin "int".toList) ∧
    deserializeName exWorld ["soil".toList] "Mine".toList = none := by decide +kernel

/-- The hypotheses of `C61_round_trip_partial` hold for `networkx.Graph`. -/
example : ∃ t, className exWorld ["soil".toList] ⟨"Graph".toList, "networkx".toList, 2⟩ = some t ∧
    deserializeName exWorld ["soil".toList] t = some (.obj 2) := by
  refine C61_round_trip_partial exWorld ?_ ["soil".toList] (by decide +kernel) ⟨"Graph".toList, "networkx".toList, 2⟩ rfl
    (by decide +kernel) (by decide +kernel) (by decide +kernel) ?_ rfl
  · intro m d k hm hk
    simp only [exWorld] at hm
    split at hm
    · cases hm; revert k; decide +kernel
    · split at hm
      · cases hm; revert k; decide +kernel
      · split at hm
        · cases hm; revert k; decide +kernel
        · cases hm
  · intro m hm x hx
    rw [List.mem_singleton] at hm
    subst hm
    exact absurd hx (by
      have : exWorld.attr "soil".toList "Graph".toList = none := by decide +kernel
      rw [this]; simp)

/-! ### C62 -/

/-- C62: one dictionary per combination and sample. -/
theorem C62_count {V : Type} (lists : Dict String (List V)) (bounds : List String) (samples : List (List V)) :
    (templateParams lists bounds samples).length = (lists.map (fun kl => kl.2.length)).prod * samples.length := by
  simp only [templateParams, List.length_map, List.length_flatMap]
  have h := product_length (lists.map Prod.snd)
  rw [List.map_map] at h
  have h2 : (List.map (List.length ∘ Prod.snd) lists) = lists.map (fun kl => kl.2.length) := rfl
  rw [h2] at h
  rw [← h]
  simp

/-- C62: the dictionaries are exactly those that give every variable of `lists` one of its values and the variables of
`bounds` the values of one sample. -/
theorem C62_values {V : Type} (lists : Dict String (List V)) (bounds : List String) (samples : List (List V))
    (hn : (Dict.keys lists ++ bounds).Nodup) (hs : ∀ s ∈ samples, s.length = bounds.length) (ps : Dict String V) :
    ps ∈ templateParams lists bounds samples ↔
      Dict.keys ps = Dict.keys lists ++ bounds ∧
      (∀ k l, (k, l) ∈ lists → ∃ v ∈ l, Dict.get? ps k = some v) ∧
      ∃ s ∈ samples, ∀ i (hi : i < bounds.length), Dict.get? ps bounds[i] = s[i]? := by
  simp only [templateParams, List.mem_map, List.mem_flatMap]
  have hcl : ∀ c, c ∈ product (lists.map Prod.snd) → c.length = lists.length := by
    intro c hc
    have := (mem_product.1 hc).length_eq
    simpa using this
  have hkl : (Dict.keys lists).length = lists.length := by simp [Dict.keys]
  constructor
  · rintro ⟨_, ⟨c, hc, s, hsm, rfl⟩, rfl⟩
    have hl : (c ++ s).length = (Dict.keys lists ++ bounds).length := by
      simp [hcl c hc, hs s hsm, hkl]
    rw [dictZip_eq hn hl]
    have hkeys : Dict.keys ((Dict.keys lists ++ bounds).zip (c ++ s)) = Dict.keys lists ++ bounds := by
      unfold Dict.keys
      rw [List.map_fst_zip (by rw [hl]; exact Nat.le_refl _)]
    have hwf : Dict.WF ((Dict.keys lists ++ bounds).zip (c ++ s)) := by
      unfold Dict.WF; rw [hkeys]; exact hn
    have hget : ∀ i (h1 : i < (Dict.keys lists ++ bounds).length) (h2 : i < (c ++ s).length),
        Dict.get? ((Dict.keys lists ++ bounds).zip (c ++ s)) (Dict.keys lists ++ bounds)[i] = some (c ++ s)[i] := by
      intro i h1 h2
      apply Dict.get?_of_mem hwf
      rw [List.mem_iff_getElem]
      exact ⟨i, by simp only [List.length_zip]; omega, by simp⟩
    refine ⟨hkeys, ?_, s, hsm, ?_⟩
    · intro k l hkl'
      obtain ⟨i, hi, he⟩ := List.mem_iff_getElem.1 hkl'
      have hci : i < c.length := by rw [hcl c hc]; exact hi
      have hf := mem_product.1 hc
      have hcl' := List.forall₂_iff_get.1 hf
      have hmem := hcl'.2 i hci (by simpa using hi)
      refine ⟨c[i], ?_, ?_⟩
      · simpa [he] using hmem
      · have := hget i (by simp [hkl]; omega) (by simp; omega)
        rw [List.getElem_append_left (by rw [hkl]; exact hi), List.getElem_append_left hci] at this
        rw [← this]
        congr 1
        simp [Dict.keys, he]
    · intro i hi
      have := hget (lists.length + i) (by simp [hkl]; omega) (by simp [hcl c hc, hs s hsm]; omega)
      rw [List.getElem_append_right (by omega), List.getElem_append_right (by rw [hcl c hc]; omega)] at this
      have hsi : i < s.length := by rw [hs s hsm]; exact hi
      rw [List.getElem?_eq_getElem hsi]
      have e1 : lists.length + i - (Dict.keys lists).length = i := by rw [hkl]; omega
      have e2 : lists.length + i - c.length = i := by rw [hcl c hc]; omega
      simp only [e1, e2] at this
      exact this
  · rintro ⟨hkeys, hl, s, hsm, hb⟩
    have hwf : Dict.WF ps := by unfold Dict.WF; rw [hkeys]; exact hn
    have hpl : ps.length = lists.length + bounds.length := by
      have := congrArg List.length hkeys
      simpa [Dict.keys] using this
    let vs := ps.map Prod.snd
    have hgv : ∀ i (h : i < ps.length), Dict.get? ps ((Dict.keys lists ++ bounds)[i]'(by simp [hkl]; omega)) =
        some (vs[i]'(by simpa [vs] using h)) := by
      intro i h
      have hk : (Dict.keys lists ++ bounds)[i]'(by simp [hkl]; omega) = ps[i].1 := by
        simp only [← hkeys]; simp [Dict.keys]
      rw [hk]
      apply Dict.get?_of_mem hwf
      rw [List.mem_iff_getElem]
      exact ⟨i, h, by simp [vs]⟩
    have hvl : vs.length = lists.length + bounds.length := by simp [vs, hpl]
    refine ⟨vs, ⟨vs.take lists.length, ?_, s, hsm, ?_⟩, ?_⟩
    · rw [mem_product, List.forall₂_iff_get]
      refine ⟨by simp [hvl], ?_⟩
      intro i h1 h2
      have hi : i < lists.length := by simpa using h2
      obtain ⟨v, hv, hg⟩ := hl lists[i].1 lists[i].2 (by simp)
      have := hgv i (by omega)
      rw [List.getElem_append_left (by rw [hkl]; exact hi)] at this
      have hk : (Dict.keys lists)[i]'(by rw [hkl]; exact hi) = lists[i].1 := by simp [Dict.keys]
      rw [hk, hg] at this
      simp only [List.get_eq_getElem, List.getElem_take, List.getElem_map]
      rw [← Option.some.inj this]
      exact hv
    · have hdrop : vs.drop lists.length = s := by
        apply List.ext_getElem
        · simp [hvl, hs s hsm]
        · intro i h1 h2
          have hi : i < bounds.length := by rw [← hs s hsm]; exact h2
          have := hgv (lists.length + i) (by omega)
          rw [List.getElem_append_right (by omega)] at this
          have e1 : lists.length + i - (Dict.keys lists).length = i := by rw [hkl]; omega
          simp only [e1] at this
          rw [hb i hi, List.getElem?_eq_getElem h2] at this
          simp only [List.getElem_drop]
          exact (Option.some.inj this).symm
      rw [← hdrop]; simp
    · rw [dictZip_eq hn (by simp [hvl, hkl]), ← hkeys]
      have : ∀ d : Dict String V, (Dict.keys d).zip (d.map Prod.snd) = d := by
        intro d; induction d with
        | nil => rfl
        | cons p d ih => simp only [Dict.keys, List.map_cons, List.zip_cons_cons] at ih ⊢; rw [ih]
      exact this ps

/-- C62: a template that yields one configuration per rendering gives one configuration per combination and sample, each the
rendering of its dictionary. There is an error if and only if there is no combination, or the rendering with all variables 0 has
not exactly one configuration, or this has a name. -/
theorem C62_expand {V C : Type} (lists : Dict String (List V)) (bounds : List String) (samples : List (List V))
    (blankCount : Nat) (blankNamed : Bool) (render : Dict String V → List C) (one : Dict String V → C)
    (h1 : ∀ ps, render ps = [one ps]) :
    let r := expandTemplate lists bounds samples blankCount blankNamed render
    (r = none ↔ ((∃ kl ∈ lists, kl.2 = []) ∨ samples = []) ∨ blankCount ≠ 1 ∨ blankNamed = true) ∧
    ∀ cs, r = some cs → cs = (templateParams lists bounds samples).map one ∧
        cs.length = (lists.map (fun kl => kl.2.length)).prod * samples.length ∧ cs ≠ [] := by
  intro r
  have hlen := C62_count lists bounds samples
  have hzero : (templateParams lists bounds samples).length = 0 ↔ ((∃ kl ∈ lists, kl.2 = []) ∨ samples = []) := by
    rw [hlen, Nat.mul_eq_zero, nat_prod_eq_zero]
    simp [List.length_eq_zero_iff]
  have hr : render = fun ps => [one ps] := funext h1
  rw [← hzero]
  simp only [r, expandTemplate]
  cases ht : templateParams lists bounds samples with
  | nil => simp
  | cons p ps =>
    rw [ht] at hlen
    simp only
    by_cases hb : blankCount ≠ 1 ∨ blankNamed = true
    · simp [if_pos hb, hb]
    · rw [if_neg hb]
      refine ⟨by simp [hb], ?_⟩
      intro cs hcs
      obtain rfl := Option.some.inj hcs
      have hm : (p :: ps).flatMap render = (p :: ps).map one := by rw [hr, ← List.map_eq_flatMap]
      rw [hm]
      exact ⟨rfl, by rw [List.length_map, hlen], by simp⟩

example : templateParams [("n", [1, 2]), ("m", [5])] ["x", "y"] [[7, 8], [9, 10]] =
    [[("n", 1), ("m", 5), ("x", 7), ("y", 8)], [("n", 1), ("m", 5), ("x", 9), ("y", 10)],
     [("n", 2), ("m", 5), ("x", 7), ("y", 8)], [("n", 2), ("m", 5), ("x", 9), ("y", 10)]] := by decide +kernel

/-- The condition on names is needed: with a variable in both, the value of the list is lost, and there are equal
dictionaries. -/
example : templateParams [("n", [1, 2])] ["n"] [[7]] = [[("n", 7)], [("n", 7)]] := by decide +kernel

/-! ### C73 -/

/-- C73 is violated: expanding a template takes the method out of its configuration, so that a second expansion uses the
default sampler (with the arguments of the other one). -/
theorem C73_method_false (sampler : Dict String String) (hwf : Dict.WF sampler) (m : String)
    (hm : Dict.get? sampler "method" = some m) (hne : m ≠ "SALib.sample.morris.sample") :
    (takeMethod sampler).1 = m ∧ (takeMethod sampler).2 ≠ sampler ∧
    (takeMethod (takeMethod sampler).2).1 = "SALib.sample.morris.sample" ∧
    (takeMethod (takeMethod sampler).2).1 ≠ (takeMethod sampler).1 := by
  have h1 : (takeMethod sampler).1 = m := by simp [takeMethod, hm]
  have h2 : Dict.get? (takeMethod sampler).2 "method" = none := by
    simp only [takeMethod]; rw [Dict.get?_del _ hwf, if_pos rfl]
  have h3 : (takeMethod (takeMethod sampler).2).1 = "SALib.sample.morris.sample" := by
    unfold takeMethod; simp only [takeMethod] at h2; rw [h2]; rfl
  refine ⟨h1, ?_, h3, by rw [h3, h1]; exact Ne.symm hne⟩
  intro e
  rw [e, hm] at h2
  cases h2

/-- C73, what holds: nothing else changes, and nothing at all without a method. -/
theorem C73_others_partial (sampler : Dict String String) (hwf : Dict.WF sampler) :
    (∀ k, k ≠ "method" → Dict.get? (takeMethod sampler).2 k = Dict.get? sampler k) ∧
    (Dict.get? sampler "method" = none → (takeMethod (takeMethod sampler).2) = takeMethod sampler) := by
  constructor
  · intro k hk
    simp only [takeMethod]; rw [Dict.get?_del _ hwf, if_neg (Ne.symm hk)]
  · intro h
    have : Dict.del sampler "method" = sampler := by
      have hd : ∀ d : Dict String String, Dict.get? d "method" = none → Dict.del d "method" = d := by
        intro d
        induction d with
        | nil => intro _; rfl
        | cons p d ih =>
          obtain ⟨k, v⟩ := p
          intro h
          simp only [Dict.get?] at h
          split at h
          · cases h
          · rename_i hne
            simp [Dict.del, hne, ih h]
      exact hd sampler h
    simp [takeMethod, this]

example : takeMethod [("method", "SALib.sample.saltelli.sample"), ("N", "10")] =
    ("SALib.sample.saltelli.sample", [("N", "10")]) ∧
    takeMethod [("N", "10")] = ("SALib.sample.morris.sample", [("N", "10")]) := by decide +kernel

end Verif
