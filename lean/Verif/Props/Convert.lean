import Verif.Model.Convert
import Verif.Props.Serialization
import Verif.Props.NetCreate

/-!
# Properties of writing the configuration of a simulation
-/

namespace Verif

/-! ## What stays the same -/

/-- `serialize_dict` on a value of a dictionary. -/
def serializeValue (N : Names) : CVal → CVal
  | .dict e => serializeDict N (.dict e)
  | .list l => .list (l.map (serializeDict N))
  | .atom (.cls c) => .atom (.text (N.name c))
  | .atom a => .atom a

theorem serializeDict_dict (N : Names) (x : CVal) (d : Dict CAtom CVal) (h : dictOf x = some d) :
    serializeDict N x = .dict (d.map (fun kv => (kv.1, serializeValue N kv.2))) := by
  rw [serializeDict]
  split
  · rename_i h'; rw [h] at h'; cases h'
  · rename_i d' h'
    rw [h] at h'
    injection h' with h'
    subst h'
    congr 1
    rw [List.map_attach_eq_pmap, List.pmap_eq_map_attach]
    conv => rhs; rw [← List.attach_map_subtype_val d, List.map_map]
    apply List.map_congr_left
    intro kv _
    obtain ⟨⟨k, v⟩, hkv⟩ := kv
    simp only [Function.comp]
    congr 1
    cases v with
    | dict e => rfl
    | list l => simp [serializeValue]
    | atom a => cases a <;> rfl

theorem serializeDict_none (N : Names) (x : CVal) (h : dictOf x = none) :
    serializeDict N x = match x with | .atom (.text s) => .atom (.text s) | x => .atom (.text (N.repr x)) := by
  rw [serializeDict]
  split
  · rfl
  · rename_i h'; rw [h] at h'; cases h'

/-- Values without classes whose lists contain nothing but texts that are not empty, and dictionaries of such values. -/
inductive PlainConf : CVal → Prop
  | atom (a : CAtom) (h : ∀ c, a ≠ .cls c) : PlainConf (.atom a)
  | dict (d : List (CAtom × CVal)) (h : ∀ kv ∈ d, PlainConf kv.2) : PlainConf (.dict d)
  | list (l : List CVal) (h : ∀ y ∈ l, (∃ c s, y = .atom (.text (c :: s))) ∨ (∃ d, y = .dict d)) (h' : ∀ y ∈ l, PlainConf y) :
      PlainConf (.list l)

private theorem map_self_iff {α : Type} (f : α → α) (l : List α) : l.map f = l ↔ ∀ x ∈ l, f x = x := by
  induction l with
  | nil => simp
  | cons a l ih => simp [ih]

private theorem sv_aux (N : Names) : ∀ n, ∀ x : CVal, sizeOf x ≤ n →
    (serializeValue N x = x ↔ PlainConf x) := by
  intro n
  induction n using Nat.strongRecOn with
  | ind n IH =>
  intro x hx
  -- dictionaries
  have hdict : ∀ d : List (CAtom × CVal), sizeOf (CVal.dict d) ≤ n → (serializeDict N (.dict d) = .dict d ↔ PlainConf (.dict d)) := by
    intro d hd
    rw [serializeDict_dict N (.dict d) d rfl]
    constructor
    · intro h
      injection h with h
      refine .dict d (fun kv hkv => ?_)
      have := (map_self_iff _ d).1 h kv hkv
      have hs := List.sizeOf_lt_of_mem hkv
      obtain ⟨k, v⟩ := kv
      simp only [Prod.mk.sizeOf_spec, CVal.dict.sizeOf_spec] at hs hd
      exact (IH (sizeOf v) (by omega) v (Nat.le_refl _)).1 (congrArg Prod.snd this)
    · intro h
      cases h with
      | dict _ h =>
      congr 1
      refine (map_self_iff _ d).2 (fun kv hkv => ?_)
      have hs := List.sizeOf_lt_of_mem hkv
      have hp := h kv hkv
      obtain ⟨k, v⟩ := kv
      simp only [Prod.mk.sizeOf_spec, CVal.dict.sizeOf_spec] at hs hd
      rw [(IH (sizeOf v) (by omega) v (Nat.le_refl _)).2 hp]
  cases x with
  | dict d => exact hdict d hx
  | atom a =>
    cases a with
    | cls c =>
      constructor
      · intro h; simp [serializeValue] at h
      · intro h; cases h with | atom _ h => exact absurd rfl (h c)
    | none => exact ⟨fun _ => .atom _ (by simp), fun _ => rfl⟩
    | bool b => exact ⟨fun _ => .atom _ (by simp), fun _ => rfl⟩
    | num q => exact ⟨fun _ => .atom _ (by simp), fun _ => rfl⟩
    | text s => exact ⟨fun _ => .atom _ (by simp), fun _ => rfl⟩
  | list l =>
    have hsz : ∀ y ∈ l, sizeOf y < n := by
      intro y hy
      have := List.sizeOf_lt_of_mem hy
      simp only [CVal.list.sizeOf_spec] at hx
      omega
    have hitem : ∀ y ∈ l, (serializeDict N y = y ↔ ((∃ c s, y = .atom (.text (c :: s))) ∨ (∃ d, y = .dict d)) ∧ PlainConf y) := by
      intro y hy
      have hy' := hsz y hy
      cases y with
      | dict d =>
        rw [show serializeDict N (.dict d) = serializeValue N (.dict d) from rfl, IH _ hy' (.dict d) (Nat.le_refl _)]
        simp
      | list l' =>
        constructor
        · intro h
          cases hd : dictOf (.list l') with
          | none => rw [serializeDict_none N _ hd] at h; simp at h
          | some d => rw [serializeDict_dict N _ d hd] at h; simp at h
        · rintro ⟨h | h, _⟩ <;> simp at h
      | atom a =>
        cases a with
        | text s =>
          cases s with
          | nil => rw [serializeDict_dict N _ [] rfl]; simp
          | cons c s =>
            rw [serializeDict_none N _ (by simp [dictOf])]
            simp only [true_iff]
            exact ⟨Or.inl ⟨c, s, rfl⟩, .atom _ (by simp)⟩
        | none => rw [serializeDict_none N _ rfl]; simp
        | bool b => rw [serializeDict_none N _ rfl]; simp
        | num q => rw [serializeDict_none N _ rfl]; simp
        | cls c => rw [serializeDict_none N _ rfl]; simp
    constructor
    · intro h
      simp only [serializeValue, CVal.list.injEq] at h
      have h := (map_self_iff _ l).1 h
      exact .list l (fun y hy => ((hitem y hy).1 (h y hy)).1) (fun y hy => ((hitem y hy).1 (h y hy)).2)
    · intro h
      cases h with
      | list _ h h' =>
      simp only [serializeValue, CVal.list.injEq]
      exact (map_self_iff _ l).2 (fun y hy => (hitem y hy).2 ⟨h y hy, h' y hy⟩)

/-- C183, what holds: `to_dict` (and with it the YAML file) has the fields of the simulation, unchanged, exactly if there are no classes and the
lists, at any depth, contain nothing but texts that are not empty, and dictionaries. Missing: the other configurations, see below. -/
theorem C183_exactly_partial (N : Names) (fields : Dict CAtom CVal) :
    simToDict N fields = .dict fields ↔ ∀ kv ∈ fields, PlainConf kv.2 := by
  have := sv_aux N _ (.dict fields) (Nat.le_refl _)
  rw [show simToDict N fields = serializeValue N (.dict fields) from rfl, this]
  constructor
  · intro h; cases h with | dict _ h => exact h
  · exact .dict fields

/-- C183 is violated for lists of numbers, as in every matrix: the numbers come back as texts. -/
theorem C183_numbers_false (N : Names) (p : Str) (qs : List Rat) (hq : qs ≠ []) :
    simToDict N [(.text "matrix".toList, .dict [(.text p, .list (qs.map (fun q => .atom (.num q))))])] =
      .dict [(.text "matrix".toList, .dict [(.text p, .list (qs.map (fun q => .atom (.text (N.repr (.atom (.num q)))))))])] ∧
    simToDict N [(.text "matrix".toList, .dict [(.text p, .list (qs.map (fun q => .atom (.num q))))])] ≠
      .dict [(.text "matrix".toList, .dict [(.text p, .list (qs.map (fun q => .atom (.num q))))])] := by
  constructor
  · unfold simToDict
    rw [serializeDict_dict N _ _ rfl]
    simp only [List.map_cons, List.map_nil, serializeValue]
    rw [serializeDict_dict N _ _ rfl]
    simp only [List.map_cons, List.map_nil, serializeValue, List.map_map]
    have : (serializeDict N ∘ fun q : Rat => CVal.atom (.num q)) = fun q => .atom (.text (N.repr (.atom (.num q)))) := by
      funext q
      simp only [Function.comp]
      rw [serializeDict_none N _ rfl]
    rw [this]
  · intro h
    have h := (C183_exactly_partial N _).1 h _ (List.mem_singleton.2 rfl)
    cases h with
    | dict _ h =>
    have h := h _ (List.mem_singleton.2 rfl)
    cases h with
    | list _ h _ =>
    obtain ⟨q, hq⟩ := List.exists_mem_of_ne_nil _ hq
    simpa using h (.atom (.num q)) (List.mem_map.2 ⟨q, hq, rfl⟩)

/-- C183 is violated for lists of lists of pairs: they come back as dictionaries, where the second of two equal keys wins; and an empty text in
a list comes back as an empty dictionary. -/
theorem C183_pairs_false (N : Names) (a b c : Rat) :
    simToDict N [(.text "parameters".toList, .dict [(.text ['e'], .list
        [.list [.list [.atom (.num a), .atom (.num b)], .list [.atom (.num a), .atom (.num c)]], .atom (.text [])])])] =
      .dict [(.text "parameters".toList, .dict [(.text ['e'], .list [.dict [(.num a, .atom (.num c))], .dict []])])] ∧
    [(CAtom.text ['e'], CVal.list [.dict [(.num a, .atom (.num c))], .dict []])] ≠ [(.text ['e'], .list
        [.list [.list [.atom (.num a), .atom (.num b)], .list [.atom (.num a), .atom (.num c)]], .atom (.text [])])] := by
  refine ⟨?_, by simp⟩
  unfold simToDict
  rw [serializeDict_dict N _ _ rfl]
  simp only [List.map_cons, List.map_nil, serializeValue]
  rw [serializeDict_dict N _ _ rfl]
  simp only [List.map_cons, List.map_nil, serializeValue]
  rw [serializeDict_dict N (.list _) [(.num a, .atom (.num c))] (by simp [dictOf, pairOf, Dict.update, Dict.set]),
    serializeDict_dict N (.atom (.text [])) [] rfl]
  simp [serializeValue]

/-- C183 is violated for classes in parameters: the model gets a text instead. -/
theorem C183_classes_false (N : Names) (k : Str) (c : PyClass) :
    simToDict N [(.text "parameters".toList, .dict [(.text k, .atom (.cls c))])] =
      .dict [(.text "parameters".toList, .dict [(.text k, .atom (.text (N.name c)))])] ∧ CAtom.text (N.name c) ≠ .cls c := by
  refine ⟨?_, by simp⟩
  unfold simToDict
  rw [serializeDict_dict N _ _ rfl]
  simp only [List.map_cons, List.map_nil, serializeValue]
  rw [serializeDict_dict N _ _ rfl]
  simp [serializeValue]

/-! ## Classes -/

private theorem get?_map_val (g : CVal → CVal) (d : Dict CAtom CVal) (k : CAtom) :
    Dict.get? (d.map (fun kv => (kv.1, g kv.2))) k = (Dict.get? d k).map g := by
  induction d with
  | nil => rfl
  | cons kv d ih =>
    simp only [List.map_cons, Dict.get?]
    split
    · rfl
    · exact ih

private theorem cutEnd_repr (q : Str) : cutEnd ('>' :: '\'' :: q) = some q := by simp [cutEnd]

theorem classText_repr (c : PyClass) : classText (classRepr c) = some (c.module ++ '.' :: c.name) := by
  unfold classText classRepr
  rw [if_pos ⟨_, by rw [List.append_assoc]⟩]
  have : ("<class '".toList ++ (c.module ++ '.' :: c.name) ++ "'>".toList).drop 8 = (c.module ++ '.' :: c.name) ++ ['\'', '>'] := by
    rw [List.append_assoc, List.drop_append_of_le_length (by decide)]
    rfl
  rw [this, List.reverse_append]
  simp only [List.reverse_cons, List.reverse_nil, List.nil_append, List.cons_append, cutEnd_repr, Option.map_some]
  simp

private theorem classText_name (t : Str) (h : '<' ∉ t) : classText t = none := by
  unfold classText
  rw [if_neg]
  rintro ⟨r, rfl⟩
  exact h (by simp)

/-- A class that can be found by its module and its name, which is not the name of a builtin, and without an attribute `deserialize`. -/
structure Findable (w : PyWorld) (c : PyClass) : Prop where
  own : w.attr c.module c.name = some c.obj
  noDot : '.' ∉ c.name
  noAngle : '<' ∉ c.module ++ c.name
  notBuiltin : w.isBuiltin c.name = false
  notBuiltin2 : w.isBuiltin (c.module ++ '.' :: c.name) = false
  notBuiltin3 : w.isBuiltin (classRepr c) = false
  plain : w.deserializeAttr c.obj = none

/-- C184, what holds: if the exporters of a simulation are classes that can be found, or texts that are not empty, then after writing and
reading there are as many exporters, they stand for the same objects, in the same order. If the model is a class that can be found, is not
defined in `__main__`, and no known module has another object with its name, then the model that is read is the same class. Missing: the other
classes, see below. -/
theorem C184_objects_partial (w : PyWorld) (hnd : w.NoDots) (N : Names) (known kx : List Str)
    (hk : ∀ m ∈ known, m ≠ [] ∧ (w.modules m).isSome)
    (hrepr : ∀ c, N.repr (.atom (.cls c)) = classRepr c) (hname : ∀ c t, className w known c = some t → N.name c = t)
    (fields : Dict CAtom CVal) (es : List CVal) (c : PyClass)
    (hes : Dict.get? fields (.text "exporters".toList) = some (.list es))
    (hes' : ∀ e ∈ es, (∃ a s, e = .atom (.text (a :: s))) ∨ ∃ c, e = .atom (.cls c) ∧ Findable w c)
    (hm : Dict.get? fields (.text "model".toList) = some (.atom (.cls c))) (hc : Findable w c) (hmain : c.module ≠ "__main__".toList)
    (hother : ∀ m ∈ known, ∀ x, w.attr m c.name = some x → x = c.obj) :
    ∃ d es' v, simToDict N fields = .dict d ∧ Dict.get? d (.text "exporters".toList) = some (.list es') ∧
      es'.map (objectOf w kx) = es.map (objectOf w kx) ∧ (∀ e ∈ es, objectOf w kx e ≠ none ∨ ∃ s, e = .atom (.text s)) ∧
      Dict.get? d (.text "model".toList) = some v ∧ objectOf w known v = some (.obj c.obj) := by
  refine ⟨_, es.map (serializeDict N), .atom (.text (N.name c)), serializeDict_dict N (.dict fields) fields rfl, ?_, ?_, ?_, ?_, ?_⟩
  · rw [get?_map_val, hes]; rfl
  · rw [List.map_map]
    apply List.map_congr_left
    intro e he
    simp only [Function.comp]
    rcases hes' e he with ⟨a, s, rfl⟩ | ⟨c, rfl, hc⟩
    · rw [serializeDict_none N _ (by simp [dictOf])]
    · rw [serializeDict_none N _ rfl]
      simp only [hrepr, objectOf, deserializeText, hc.notBuiltin3, classText_repr, rsplit_some _ _ hc.noDot, hc.own, PyWorld.finish]
      simp [hc.plain]
  · intro e he
    rcases hes' e he with ⟨a, s, rfl⟩ | ⟨c, rfl, hc⟩
    · exact Or.inr ⟨_, rfl⟩
    · exact Or.inl (by simp [objectOf])
  · rw [get?_map_val, hm]; rfl
  · obtain ⟨t, ht, hd⟩ := C61_round_trip_partial w hnd known hk c hc.notBuiltin hc.notBuiltin2 hmain hc.own hother hc.plain
    have : t = c.name ∨ t = c.module ++ '.' :: c.name := by
      have hn : ∀ l, nameIn w c l = some t → t = c.name ∨ t = c.module ++ '.' :: c.name := by
        intro l
        induction l with
        | nil => intro h; simp only [nameIn, Option.some.injEq] at h; exact Or.inr h.symm
        | cons m l ih =>
          intro h
          simp only [nameIn] at h
          split at h
          · cases h
          · split at h
            · injection h with h; exact Or.inl h.symm
            · exact ih h
      unfold className at ht
      split at ht
      · injection ht with ht; exact Or.inl ht.symm
      · split at ht
        · injection ht with ht; exact Or.inl ht.symm
        · split at ht
          · injection ht with ht; exact Or.inl ht.symm
          · exact hn _ ht
    have hlt : '<' ∉ t := by
      have := hc.noAngle
      simp only [List.mem_append, not_or] at this
      rcases this with ⟨h1, h2⟩
      rcases ‹t = c.name ∨ _› with h | h
      · rw [h]; exact h2
      · rw [h]; simp [h1, h2]
    have hb : w.isBuiltin t = false := by
      rcases ‹t = c.name ∨ _› with h | h
      · rw [h]; exact hc.notBuiltin
      · rw [h]; exact hc.notBuiltin2
    simp only [objectOf, deserializeText, hname c t ht, hb, classText_name t hlt]
    simpa using hd

/-- C184 is violated for exporters that are classes of a module that cannot be imported by its name, such as those in the source file of a
simulation (their module is only known while the file is being used): the simulation that is written has them, the one that is read does not. -/
theorem C184_source_false (w : PyWorld) (N : Names) (kx : List Str) (hrepr : ∀ c, N.repr (.atom (.cls c)) = classRepr c) (c : PyClass)
    (hdot : '.' ∉ c.name) (hb : w.isBuiltin (classRepr c) = false) (hmod : w.modules c.module = none) :
    simToDict N [(.text "exporters".toList, .list [.atom (.cls c)])] =
      .dict [(.text "exporters".toList, .list [.atom (.text (classRepr c))])] ∧
    objectOf w kx (.atom (.cls c)) = some (.obj c.obj) ∧ objectOf w kx (.atom (.text (classRepr c))) = none := by
  refine ⟨?_, rfl, ?_⟩
  · unfold simToDict
    rw [serializeDict_dict N _ _ rfl]
    simp only [List.map_cons, List.map_nil, serializeValue]
    rw [serializeDict_none N _ rfl, ← hrepr c]
  · simp [objectOf, deserializeText, hb, classText_repr, rsplit_some _ _ hdot, PyWorld.attr, hmod]

/-! ## Lists are copied -/

/-- All lists in a value are from `k` on. -/
inductive RefsGe (k : Nat) : HCVal → Prop
  | atom (a : CAtom) : RefsGe k (.atom a)
  | list (r : Nat) (h : k ≤ r) : RefsGe k (.list r)
  | dict (d : List (CAtom × HCVal)) (h : ∀ kv ∈ d, RefsGe k kv.2) : RefsGe k (.dict d)

/-- The lists from `k` on contain no others. -/
private def HeapGe (k : Nat) (h : LHeap) : Prop := ∀ (r : Nat) (l : List HCVal), k ≤ r → h[r]? = some l → ∀ y ∈ l, RefsGe k y

private theorem mapS_inv {α β σ : Type} (f : α → σ → Option (β × σ)) (A : α → Prop) (Q : β → Prop) (I : σ → Prop) (R : σ → σ → Prop)
    (hr : ∀ s, R s s) (ht : ∀ a b c, R a b → R b c → R a c)
    (hf : ∀ a s b s', A a → I s → f a s = some (b, s') → I s' ∧ R s s' ∧ Q b) :
    ∀ l s bs s', (∀ a ∈ l, A a) → I s → mapS f l s = some (bs, s') → I s' ∧ R s s' ∧ ∀ b ∈ bs, Q b := by
  intro l
  induction l with
  | nil =>
    intro s bs s' _ hi h
    simp only [mapS, Option.some.injEq, Prod.mk.injEq] at h
    obtain ⟨rfl, rfl⟩ := h
    exact ⟨hi, hr _, by simp⟩
  | cons a l ih =>
    intro s bs s' ha hi h
    simp only [mapS] at h
    cases h1 : f a s with
    | none => simp [h1] at h
    | some x =>
      obtain ⟨b, s1⟩ := x
      simp only [h1] at h
      cases h2 : mapS f l s1 with
      | none => simp [h2] at h
      | some y =>
        obtain ⟨bs', s2⟩ := y
        simp only [h2, Option.some.injEq, Prod.mk.injEq] at h
        obtain ⟨rfl, rfl⟩ := h
        obtain ⟨i1, r1, q1⟩ := hf a s b s1 (ha a List.mem_cons_self) hi h1
        obtain ⟨i2, r2, q2⟩ := ih s1 bs' s2 (fun a h => ha a (List.mem_cons_of_mem _ h)) i1 h2
        refine ⟨i2, ht _ _ _ r1 r2, ?_⟩
        intro b' hb'
        rcases List.mem_cons.1 hb' with h | h
        · rw [h]; exact q1
        · exact q2 b' h

private def Grows (h h' : LHeap) : Prop := h.length ≤ h'.length ∧ ∀ r, r < h.length → h'[r]? = h[r]?

private theorem grows_trans (a b c : LHeap) (h1 : Grows a b) (h2 : Grows b c) : Grows a c :=
  ⟨Nat.le_trans h1.1 h2.1, fun r hr => by rw [h2.2 r (by have := h1.1; omega), h1.2 r hr]⟩

private theorem hcopy_inv (k : Nat) : ∀ n v h y h', k ≤ h.length ∧ HeapGe k h → hcopy n v h = some (y, h') →
    (k ≤ h'.length ∧ HeapGe k h') ∧ Grows h h' ∧ RefsGe k y := by
  intro n
  induction n with
  | zero => intro v h y h' _ hc; simp [hcopy] at hc
  | succ n ih =>
    intro v h y h' hi hc
    cases v with
    | atom a =>
      simp only [hcopy, Option.some.injEq, Prod.mk.injEq] at hc
      obtain ⟨rfl, rfl⟩ := hc
      exact ⟨hi, ⟨Nat.le_refl _, fun _ _ => rfl⟩, .atom a⟩
    | list r =>
      simp only [hcopy] at hc
      cases hr : h[r]? with
      | none => simp [hr] at hc
      | some l =>
        simp only [hr] at hc
        cases hm : mapS (hcopy n) l h with
        | none => simp [hm] at hc
        | some x =>
          obtain ⟨l', h1⟩ := x
          simp only [hm, Option.some.injEq, Prod.mk.injEq] at hc
          obtain ⟨rfl, rfl⟩ := hc
          obtain ⟨i1, r1, q1⟩ := mapS_inv (hcopy n) (fun _ => True) (RefsGe k) (fun h => k ≤ h.length ∧ HeapGe k h) Grows
            (fun s => ⟨Nat.le_refl _, fun _ _ => rfl⟩) grows_trans (fun a s b s' _ hi h => ih a s b s' hi h) l h l' h1 (by simp) hi hm
          refine ⟨⟨by simp; omega, ?_⟩, ⟨by have := r1.1; simp; omega, ?_⟩, .list _ i1.1⟩
          · intro r l hkr hl y hy
            rw [List.getElem?_append] at hl
            split at hl
            · exact i1.2 r l hkr hl y hy
            · rename_i hlt
              have : l = l' := by
                cases hd : r - h1.length with
                | zero => rw [hd] at hl; simpa using hl.symm
                | succ m => rw [hd] at hl; simp at hl
              exact q1 y (this ▸ hy)
          · intro r hr
            rw [List.getElem?_append_left (by have := r1.1; omega), r1.2 r hr]
    | dict d =>
      simp only [hcopy] at hc
      cases hm : mapS (fun kv h => (hcopy n kv.2 h).map (fun x => ((kv.1, x.1), x.2))) d h with
      | none => simp [hm] at hc
      | some x =>
        obtain ⟨d', h1⟩ := x
        simp only [hm, Option.some.injEq, Prod.mk.injEq] at hc
        obtain ⟨rfl, rfl⟩ := hc
        obtain ⟨i1, r1, q1⟩ := mapS_inv (fun (kv : CAtom × HCVal) h => (hcopy n kv.2 h).map (fun x => ((kv.1, x.1), x.2))) (fun _ => True)
          (fun kv => RefsGe k kv.2) (fun h => k ≤ h.length ∧ HeapGe k h) Grows
          (fun s => ⟨Nat.le_refl _, fun _ _ => rfl⟩) grows_trans
          (fun a s b s' _ hi h => by
            cases hx : hcopy n a.2 s with
            | none => simp [hx] at h
            | some x =>
              obtain ⟨v, s1⟩ := x
              simp only [hx, Option.map_some, Option.some.injEq, Prod.mk.injEq] at h
              obtain ⟨rfl, rfl⟩ := h
              exact ih a.2 s v s1 hi hx) d h d' h1 (by simp) hi hm
        exact ⟨i1, r1, .dict d' q1⟩

private theorem hdictOf_refs (k : Nat) (h : LHeap) (hh : HeapGe k h) (x : HCVal) (hx : RefsGe k x) (d : Dict CAtom HCVal)
    (hd : hdictOf h x = some d) : ∀ kv ∈ d, RefsGe k kv.2 := by
  cases x with
  | atom a =>
    cases a with
    | text s =>
      simp only [hdictOf] at hd
      split at hd
      · injection hd with hd; subst hd; simp
      · cases hd
    | none => simp [hdictOf] at hd
    | bool b => simp [hdictOf] at hd
    | num q => simp [hdictOf] at hd
    | cls c => simp [hdictOf] at hd
  | dict e =>
    simp only [hdictOf, Option.some.injEq] at hd
    subst hd
    cases hx with | dict _ h => exact h
  | list r =>
    cases hx with | list _ hr =>
    simp only [hdictOf] at hd
    cases hl : h[r]? with
    | none => simp [hl] at hd
    | some l =>
      simp only [hl] at hd
      have hlr := hh r l hr hl
      have hpair : ∀ y kv, RefsGe k y → hpairOf h y = some kv → RefsGe k kv.2 := by
        intro y kv hy hp
        unfold hpairOf at hp
        split at hp
        · rename_i r'
          cases hy with | list _ hr' =>
          split at hp
          · rename_i k' v hv
            injection hp with hp; subst hp
            exact hh r' _ hr' hv v (by simp)
          · cases hp
        · injection hp with hp; subst hp; exact .atom _
        · injection hp with hp; subst hp; exact .atom _
        · cases hp
      have hall : ∀ (l : List HCVal) (ps : List (CAtom × HCVal)), (∀ y ∈ l, RefsGe k y) → l.mapM (hpairOf h) = some ps →
          ∀ kv ∈ ps, RefsGe k kv.2 := by
        intro l
        induction l with
        | nil => intro ps _ h kv hk; simp at h; subst h; simp at hk
        | cons y l ih =>
          intro ps hy hps kv hk
          simp only [List.mapM_cons, Option.bind_eq_bind, Option.pure_def] at hps
          cases hp : hpairOf h y with
          | none => simp [hp] at hps
          | some p => cases hq : l.mapM (hpairOf h) with
            | none => simp [hp, hq] at hps
            | some ps' =>
              simp only [hp, hq, Option.bind_some, Option.some.injEq] at hps
              subst hps
              rcases List.mem_cons.1 hk with hk | hk
              · rw [hk]; exact hpair y p (hy y List.mem_cons_self) hp
              · exact ih ps' (fun y h => hy y (List.mem_cons_of_mem _ h)) hq kv hk
      cases hps : l.mapM (hpairOf h) with
      | none => simp [hps] at hd
      | some ps =>
        simp only [hps, Option.map_some, Option.some.injEq] at hd
        subst hd
        intro kv hkv
        rcases confMem_update hkv with h' | ⟨kv', h1, h2⟩
        · simp at h'
        · rw [← h2]; exact hall l ps hlr hps kv' h1

private def Keeps (k : Nat) (h h' : LHeap) : Prop := ∀ r, r < k → h'[r]? = h[r]?

private theorem hloop_inv (k : Nat) (f : HCVal → LHeap → Option (HCVal × LHeap)) (r : Nat) (hr : k ≤ r)
    (hf : ∀ y h y' h', RefsGe k y → HeapGe k h → f y h = some (y', h') → HeapGe k h' ∧ Keeps k h h' ∧ RefsGe k y') :
    ∀ c ix h h', HeapGe k h → hloop f r c ix h = some h' → HeapGe k h' ∧ Keeps k h h' := by
  intro c
  induction c with
  | zero =>
    intro ix h h' hi hl
    simp only [hloop, Option.some.injEq] at hl
    subst hl
    exact ⟨hi, fun _ _ => rfl⟩
  | succ c ih =>
    intro ix h h' hi hl
    simp only [hloop] at hl
    cases h1 : h[r]? with
    | none => simp [h1] at hl
    | some l =>
      simp only [h1] at hl
      cases h2 : l[ix]? with
      | none => simp [h2] at hl
      | some y =>
        simp only [h2] at hl
        cases h3 : f y h with
        | none => simp [h3] at hl
        | some x =>
          obtain ⟨y', hh⟩ := x
          simp only [h3] at hl
          obtain ⟨i1, k1, q1⟩ := hf y h y' hh (hi r l hr h1 y (List.mem_of_getElem? h2)) hi h3
          have i2 : HeapGe k (hh.modify r (fun l => l.set ix y')) := by
            intro r' l' hr' hl' z hz
            rw [List.getElem?_modify] at hl'
            cases h4 : hh[r']? with
            | none => simp [h4] at hl'
            | some l0 =>
              simp only [h4, Option.map_eq_map, Option.map_some, Option.some.injEq] at hl'
              split at hl'
              · subst hl'
                rcases List.mem_or_eq_of_mem_set hz with h | h
                · exact i1 r' l0 hr' h4 z h
                · rw [h]; exact q1
              · subst hl'; exact i1 r' l0 hr' h4 z hz
          obtain ⟨i3, k3⟩ := ih (ix + 1) _ h' i2 hl
          refine ⟨i3, fun q hq => ?_⟩
          rw [k3 q hq, List.getElem?_modify, ← k1 q hq]
          have : r ≠ q := by omega
          simp [this]

private theorem hser_inv (name : PyClass → Str) (rep : HCVal → LHeap → Str) (k : Nat) : ∀ n x h y h', RefsGe k x → HeapGe k h →
    hser name rep n x h = some (y, h') → HeapGe k h' ∧ Keeps k h h' ∧ RefsGe k y := by
  intro n
  induction n with
  | zero => intro x h y h' _ _ hs; simp [hser] at hs
  | succ n ih =>
    intro x h y h' hx hi hs
    simp only [hser] at hs
    cases hd : hdictOf h x with
    | none =>
      simp only [hd] at hs
      split at hs <;>
      · simp only [Option.some.injEq, Prod.mk.injEq] at hs
        obtain ⟨rfl, rfl⟩ := hs
        exact ⟨hi, fun _ _ => rfl, .atom _⟩
    | some d =>
      simp only [hd, Option.map_eq_some_iff] at hs
      obtain ⟨⟨bs, h1⟩, hm, he⟩ := hs
      simp only [Prod.mk.injEq] at he
      obtain ⟨rfl, rfl⟩ := he
      have hrefs := hdictOf_refs k h hi x hx d hd
      obtain ⟨i1, r1, q1⟩ := mapS_inv _ (fun kv : CAtom × HCVal => RefsGe k kv.2) (fun kv : CAtom × HCVal => RefsGe k kv.2) (HeapGe k) (Keeps k)
        (fun _ _ _ => rfl) (fun a b c h1 h2 r hr => by rw [h2 r hr, h1 r hr])
        (fun a s b s' ha hi hf => by
          cases hv : a.2 with
          | dict e =>
            simp only [hv, Option.map_eq_some_iff] at hf
            obtain ⟨⟨v, s1⟩, hx, he⟩ := hf
            simp only [Prod.mk.injEq] at he
            obtain ⟨rfl, rfl⟩ := he
            exact ih _ s v s1 (hv ▸ ha) hi hx
          | list r =>
            simp only [hv] at hf
            cases hl : s[r]? with
            | none => simp [hl] at hf
            | some l =>
              simp only [hl, Option.map_eq_some_iff] at hf
              obtain ⟨s1, hx, he⟩ := hf
              simp only [Prod.mk.injEq] at he
              obtain ⟨rfl, rfl⟩ := he
              rw [hv] at ha
              cases ha with | list _ hr =>
              have := hloop_inv k _ r hr (fun y h y' h' => ih y h y' h') _ _ s s1 hi hx
              exact ⟨this.1, this.2, .list r hr⟩
          | atom c =>
            rw [hv] at hf
            cases c <;>
            · simp only [Option.some.injEq, Prod.mk.injEq] at hf
              obtain ⟨rfl, rfl⟩ := hf
              exact ⟨hi, fun _ _ => rfl, .atom _⟩) d.reverse h bs h1 (fun a ha => hrefs a (List.mem_reverse.1 ha)) hi hm
      exact ⟨i1, r1, .dict _ (fun kv hkv => q1 kv (List.mem_reverse.1 hkv))⟩

/-- C185: `to_dict` does not change any list of the simulation (or any other list that there is), and its result shares no list with them.
Without `asdict`, lists would be changed, see below. -/
theorem C185_unchanged (name : PyClass → Str) (rep : HCVal → LHeap → Str) (n : Nat) (fields : List (CAtom × HCVal)) (h : LHeap) (y : HCVal)
    (h' : LHeap) (hs : hToDict name rep n fields h = some (y, h')) :
    (∀ r, r < h.length → h'[r]? = h[r]?) ∧ RefsGe h.length y := by
  unfold hToDict at hs
  cases hc : hcopy n (.dict fields) h with
  | none => simp [hc] at hs
  | some x =>
    obtain ⟨v, h1⟩ := x
    simp only [hc] at hs
    have hi : HeapGe h.length h := by
      intro r l hr hl
      rw [List.getElem?_eq_none (by omega)] at hl
      cases hl
    obtain ⟨⟨_, i1⟩, g1, q1⟩ := hcopy_inv h.length n _ h v h1 ⟨Nat.le_refl _, hi⟩ hc
    obtain ⟨_, k2, q2⟩ := hser_inv name rep h.length n v h1 y h' q1 i1 hs
    exact ⟨fun r hr => by rw [k2 r hr, g1.2 r hr], q2⟩

private theorem mapS_each {α β σ : Type} (f : α → σ → Option (β × σ)) : ∀ (l : List α) (h : σ) (bs : List β) (h' : σ),
    mapS f l h = some (bs, h') → List.Forall₂ (fun a b => ∃ s s', f a s = some (b, s')) l bs := by
  intro l
  induction l with
  | nil =>
    intro h bs h' hm
    simp only [mapS, Option.some.injEq, Prod.mk.injEq] at hm
    rw [← hm.1]
    exact .nil
  | cons a l ih =>
    intro h bs h' hm
    simp only [mapS] at hm
    cases hf : f a h with
    | none => simp [hf] at hm
    | some x =>
      obtain ⟨b, h1⟩ := x
      simp only [hf] at hm
      cases hl : mapS f l h1 with
      | none => simp [hl] at hm
      | some y =>
        obtain ⟨bs', h2⟩ := y
        simp only [hl, Option.some.injEq, Prod.mk.injEq] at hm
        rw [← hm.1]
        exact .cons ⟨h, h1, hf⟩ (ih h1 bs' h2 hl)

/-- What `to_dict` makes of a field that is neither a list nor a dictionary. -/
def AtomWritten (name : PyClass → Str) (a b : CAtom × HCVal) : Prop :=
  b.1 = a.1 ∧ (∀ c, a.2 = .atom (.cls c) → b.2 = .atom (.text (name c))) ∧
  ∀ v, a.2 = .atom v → (∀ c, v ≠ .cls c) → b.2 = .atom v

/-- C185, C183: `to_dict` has the fields of the simulation in the same order; classes are written as their names, numbers, texts and so on
as they are. -/
theorem C185_fields (name : PyClass → Str) (rep : HCVal → LHeap → Str) (n : Nat) (fields : List (CAtom × HCVal)) (h : LHeap) (y : HCVal)
    (h' : LHeap) (hs : hToDict name rep n fields h = some (y, h')) :
    ∃ d, y = .dict d ∧ List.Forall₂ (AtomWritten name) fields d := by
  unfold hToDict at hs
  cases n with
  | zero => simp [hcopy] at hs
  | succ n =>
    simp only [hcopy] at hs
    cases hc : mapS (fun (kv : CAtom × HCVal) h => (hcopy n kv.2 h).map (fun x => ((kv.1, x.1), x.2))) fields h with
    | none => simp [hc] at hs
    | some x =>
      obtain ⟨d1, h1⟩ := x
      simp only [hc, hser, hdictOf, Option.map_eq_some_iff] at hs
      obtain ⟨⟨bs, h2⟩, hm, he⟩ := hs
      simp only [Prod.mk.injEq] at he
      obtain ⟨rfl, rfl⟩ := he
      refine ⟨bs.reverse, rfl, ?_⟩
      have f1 := mapS_each _ _ _ _ _ hc
      have f2 := List.rel_reverse (mapS_each _ _ _ _ _ hm)
      rw [List.reverse_reverse] at f2
      have f3 : List.Forall₂ (fun a b : CAtom × HCVal => b.1 = a.1 ∧ ∀ v, a.2 = .atom v → b.2 = .atom v) fields d1 := by
        refine f1.imp ?_
        rintro a b ⟨s, s', hab⟩
        simp only [Option.map_eq_some_iff] at hab
        obtain ⟨x, hx, he⟩ := hab
        simp only [Prod.mk.injEq] at he
        obtain ⟨rfl, rfl⟩ := he
        refine ⟨rfl, fun v hv => ?_⟩
        rw [hv] at hx
        cases n with
        | zero => simp [hcopy] at hx
        | succ n =>
          simp only [hcopy, Option.some.injEq] at hx
          rw [← hx]
      clear f1 hc hm
      generalize bs.reverse = d2 at f2
      induction f3 generalizing d2 with
      | nil => cases f2; exact .nil
      | @cons a b l1 l2 hab _ ih =>
        cases f2 with
        | @cons _ c _ l3 hbc f2 =>
          refine .cons ?_ (ih l3 f2)
          obtain ⟨s, s', hbc⟩ := hbc
          obtain ⟨hk, hv⟩ := hab
          cases hb : b.2 with
          | atom v =>
            rw [hb] at hbc
            cases v with
            | cls k =>
              simp only [Option.some.injEq, Prod.mk.injEq] at hbc
              obtain ⟨rfl, rfl⟩ := hbc
              refine ⟨hk, fun k' hk' => ?_, fun v hv' hne => ?_⟩
              · have := hv _ hk'
                rw [hb] at this
                cases this
                rfl
              · have := hv _ hv'
                rw [hb] at this
                cases this
                exact absurd rfl (hne k)
            | _ =>
              simp only [Option.some.injEq, Prod.mk.injEq] at hbc
              obtain ⟨rfl, rfl⟩ := hbc
              refine ⟨hk, fun k' hk' => ?_, fun v hv' hne => ?_⟩
              · have := hv _ hk'
                rw [hb] at this
                cases this
              · have := hv _ hv'
                rw [hb] at this
                cases this
                rfl
          | list r =>
            have hc1 : c.1 = b.1 := by
              simp only [hb] at hbc
              split at hbc
              · cases hbc
              · simp only [Option.map_eq_some_iff] at hbc
                obtain ⟨x, _, he⟩ := hbc
                simp only [Prod.mk.injEq] at he
                rw [← he.1]
            refine ⟨hc1.trans hk, fun k' hk' => ?_, fun v hv' hne => ?_⟩
            · have := hv _ hk'; rw [hb] at this; cases this
            · have := hv _ hv'; rw [hb] at this; cases this
          | dict e =>
            have hc1 : c.1 = b.1 := by
              simp only [hb, Option.map_eq_some_iff] at hbc
              obtain ⟨x, _, he⟩ := hbc
              simp only [Prod.mk.injEq] at he
              rw [← he.1]
            refine ⟨hc1.trans hk, fun k' hk' => ?_, fun v hv' hne => ?_⟩
            · have := hv _ hk'; rw [hb] at this; cases this
            · have := hv _ hv'; rw [hb] at this; cases this

/-- `serialize_dict` itself does change the lists that it is given. -/
theorem C185_serialize_false (name : PyClass → Str) (rep : HCVal → LHeap → Str) (k : CAtom) (q : Rat) :
    ∃ y h', hser name rep 2 (.dict [(k, .list 0)]) [[.atom (.num q)]] = some (y, h') ∧
      h' = [[.atom (.text (rep (.atom (.num q)) [[.atom (.num q)]]))]] ∧ h' ≠ [[.atom (.num q)]] := by
  refine ⟨.dict [(k, .list 0)], _, ?_, rfl, by simp⟩
  simp only [hser, hdictOf, List.reverse_cons, List.reverse_nil, List.nil_append, mapS]
  simp [hloop, hser, hdictOf]

/-- C184 is violated for built-in types: their names stand for them, but what is written for them in a list, `<class 'int'>`, is not found when
it is read. -/
theorem C184_builtin_false (w : PyWorld) (known : List Str) (q : Str) (hdot : '.' ∉ q) (hq : w.isBuiltin q = true)
    (hb : w.isBuiltin ("<class '".toList ++ q ++ "'>".toList) = false) :
    deserializeText w known q = some (.builtin q) ∧ deserializeText w known ("<class '".toList ++ q ++ "'>".toList) = none := by
  refine ⟨by simp [deserializeText, hq], ?_⟩
  have hc : classText ("<class '".toList ++ q ++ "'>".toList) = some q := by
    have h1 : "<class '".toList <+: ("<class '".toList ++ q ++ "'>".toList) := by rw [List.append_assoc]; exact List.prefix_append _ _
    unfold classText
    rw [if_pos h1]
    have h2 : List.drop 8 ("<class '".toList ++ q ++ "'>".toList) = q ++ "'>".toList := by
      rw [List.append_assoc]
      rfl
    rw [h2, List.reverse_append]
    show Option.map List.reverse (cutEnd ('>' :: '\'' :: q.reverse)) = some q
    simp [cutEnd]
  unfold deserializeText
  rw [hb, hc]
  simp [rsplit_none _ hdot]

/-- With the types of Python. -/
example : let w : PyWorld := ⟨fun t => t == "int".toList, fun _ => none, fun _ => none, fun _ => none⟩
    deserializeText w [] "int".toList = some (.builtin "int".toList) ∧ deserializeText w [] "<class 'int'>".toList = none :=
  C184_builtin_false _ _ _ (by decide) (by decide) (by decide)

/-! ## Examples -/

/-- A way of writing. -/
private def exNames : Names := ⟨fun x => match x with | .atom (.cls c) => classRepr c | .atom (.num _) => "0.5".toList | _ => "...".toList,
  fun c => c.name⟩

/-- A configuration with a list of texts and nested dictionaries is plain. -/
example : simToDict exNames [(.text "name".toList, .atom (.text "x".toList)), (.text "exporters".toList, .list [.atom (.text "csv".toList)]),
      (.text "parameters".toList, .dict [(.text ['p'], .atom (.num (1 / 2))), (.text ['q'], .dict [(.num 3, .list [.dict []])])])] =
    .dict [(.text "name".toList, .atom (.text "x".toList)), (.text "exporters".toList, .list [.atom (.text "csv".toList)]),
      (.text "parameters".toList, .dict [(.text ['p'], .atom (.num (1 / 2))), (.text ['q'], .dict [(.num 3, .list [.dict []])])])] := by
  refine (C183_exactly_partial _ _).2 ?_
  intro kv hkv
  simp only [List.mem_cons, List.not_mem_nil, or_false] at hkv
  rcases hkv with rfl | rfl | rfl
  · exact .atom _ (by simp)
  · refine .list _ (by simp) (fun y hy => ?_)
    rw [List.mem_singleton.1 hy]
    exact .atom _ (by simp)
  · refine .dict _ (fun kv hkv => ?_)
    simp only [List.mem_cons, List.not_mem_nil, or_false] at hkv
    rcases hkv with rfl | rfl
    · exact .atom _ (by simp)
    · refine .dict _ (fun kv hkv => ?_)
      rw [List.mem_singleton.1 hkv]
      refine .list _ (by simp) (fun y hy => ?_)
      rw [List.mem_singleton.1 hy]
      exact .dict _ (by simp)

/-- A matrix of two numbers becomes two texts. -/
example : simToDict exNames [(.text "matrix".toList, .dict [(.text ['p'], .list [.atom (.num (1 / 2)), .atom (.num (1 / 2))])])] =
    .dict [(.text "matrix".toList, .dict [(.text ['p'], .list [.atom (.text "0.5".toList), .atom (.text "0.5".toList)])])] :=
  (C183_numbers_false exNames ['p'] [1 / 2, 1 / 2] (by simp)).1

example : classText "<class 'soil.exporters.default'>".toList = some "soil.exporters.default".toList ∧
    classText "<class 'a'>b'>".toList = some "a'>b".toList ∧ classText "soil.Environment".toList = none ∧
    objectOf exWorld [] (.atom (.text "<class 'networkx.Graph'>".toList)) = some (.obj 2) ∧
    objectOf exWorld [] (.atom (.text "<class 'int'>".toList)) = none := by decide +kernel

/-- The hypotheses of `C184_objects_partial` hold for a simulation of the model `networkx.Graph` with two exporters. -/
example : ∃ d es' v, simToDict ⟨fun x => match x with | .atom (.cls c) => classRepr c | _ => [],
        fun c => (className exWorld ["soil".toList] c).getD []⟩
        [(.text "model".toList, .atom (.cls ⟨"Graph".toList, "networkx".toList, 2⟩)),
         (.text "exporters".toList, .list [.atom (.cls ⟨"Graph".toList, "networkx".toList, 2⟩), .atom (.text "csv".toList)])] = .dict d ∧
      Dict.get? d (.text "exporters".toList) = some (.list es') ∧
      es'.map (objectOf exWorld []) = [some (.obj 2), none] ∧
      Dict.get? d (.text "model".toList) = some v ∧ objectOf exWorld ["soil".toList] v = some (.obj 2) := by
  have hnd : exWorld.NoDots := by
    intro m d k hm hk
    simp only [exWorld] at hm
    split at hm
    · injection hm with hm; subst hm; revert k; decide +kernel
    · split at hm
      · injection hm with hm; subst hm; revert k; decide +kernel
      · split at hm
        · injection hm with hm; subst hm; revert k; decide +kernel
        · cases hm
  have hf : Findable exWorld ⟨"Graph".toList, "networkx".toList, 2⟩ := by
    constructor <;> decide +kernel
  obtain ⟨d, es', v, h1, h2, h3, _, h5, h6⟩ := C184_objects_partial exWorld hnd
    ⟨fun x => match x with | .atom (.cls c) => classRepr c | _ => [], fun c => (className exWorld ["soil".toList] c).getD []⟩
    ["soil".toList] [] (by decide +kernel) (fun _ => rfl) (fun c t h => by simp only [h, Option.getD_some])
    [(.text "model".toList, .atom (.cls ⟨"Graph".toList, "networkx".toList, 2⟩)),
     (.text "exporters".toList, .list [.atom (.cls ⟨"Graph".toList, "networkx".toList, 2⟩), .atom (.text "csv".toList)])]
    [.atom (.cls ⟨"Graph".toList, "networkx".toList, 2⟩), .atom (.text "csv".toList)] ⟨"Graph".toList, "networkx".toList, 2⟩ rfl
    (by
      intro e he
      simp only [List.mem_cons, List.not_mem_nil, or_false] at he
      rcases he with rfl | rfl
      · exact Or.inr ⟨_, rfl, hf⟩
      · exact Or.inl ⟨'c', ['s', 'v'], rfl⟩) rfl hf (by decide +kernel)
    (by
      intro m hm x hx
      rw [List.mem_singleton.1 hm] at hx
      have : exWorld.attr "soil".toList "Graph".toList = none := by decide +kernel
      exact absurd (this.symm.trans hx) (by simp))
  refine ⟨d, es', v, h1, h2, ?_, h5, h6⟩
  rw [h3]
  decide +kernel

/-- A simulation with a list of numbers: the copy is changed, the list itself is not. -/
example : (hToDict (fun c => c.name) (fun _ _ => "0.5".toList) 5 [(.text ['p'], .list 0)] [[.atom (.num (1 / 2))]]).map (fun x => x.2.length) =
    some 2 := by decide +kernel

end Verif
