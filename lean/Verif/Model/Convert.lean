import Verif.Model.Serialization
import Mathlib.Algebra.Order.Ring.Rat

/-!
# Writing the configuration of a simulation (soil/simulation.py: to_dict, to_yaml; soil/serialization.py: serialize_dict)
-/

namespace Verif

/-! ## Values -/

/-- Values that are not containers, which are also the keys of dictionaries. Simplifications: no tuples, no other objects; `True` and `1` are
different keys. -/
inductive CAtom where
  | none
  | bool (b : Bool)
  | num (q : Rat)
  | text (s : Str)
  | cls (c : PyClass)
deriving DecidableEq, Repr

/-- A value in a configuration. -/
inductive CVal where
  | atom (a : CAtom)
  | list (l : List CVal)
  | dict (d : List (CAtom × CVal))
deriving Repr

/-- What `dict(...)` makes of one item of a sequence: it has to be something with two items, and the first one has to be hashable. -/
def pairOf : CVal → Option (CAtom × CVal)
  | .list [.atom k, v] => some (k, v)
  | .atom (.text [a, b]) => some (.text [a], .atom (.text [b]))
  | .dict [(k, _), (k', _)] => some (k, .atom k')
  | _ => none

/-- `dict(x)`; `none`: `ValueError` or `TypeError`. -/
def dictOf : CVal → Option (Dict CAtom CVal)
  | .dict d => some d
  | .atom (.text s) => if s = [] then some [] else none
  | .atom _ => none
  | .list l => (l.mapM pairOf).map (Dict.update [])

theorem confMem_set {K V : Type} [DecidableEq K] {d : Dict K V} {k : K} {v : V} {kv : K × V} (h : kv ∈ Dict.set d k v) :
    kv ∈ d ∨ kv.2 = v := by
  induction d with
  | nil =>
    simp only [Dict.set, List.mem_singleton] at h
    exact Or.inr (by rw [h])
  | cons x d ih =>
    obtain ⟨k', v'⟩ := x
    unfold Dict.set at h
    split at h
    · rcases List.mem_cons.1 h with h | h
      · exact Or.inr (by rw [h])
      · exact Or.inl (List.mem_cons_of_mem _ h)
    · rcases List.mem_cons.1 h with h | h
      · exact Or.inl (by rw [h]; exact List.mem_cons_self)
      · rcases ih h with h | h
        · exact Or.inl (List.mem_cons_of_mem _ h)
        · exact Or.inr h

theorem confMem_update {K V : Type} [DecidableEq K] {e d : Dict K V} {kv : K × V} (h : kv ∈ Dict.update d e) :
    kv ∈ d ∨ ∃ kv' ∈ e, kv'.2 = kv.2 := by
  induction e generalizing d with
  | nil => exact Or.inl h
  | cons x e ih =>
    rcases ih (d := Dict.set d x.1 x.2) h with h | ⟨kv', h1, h2⟩
    · rcases confMem_set h with h | h
      · exact Or.inl h
      · exact Or.inr ⟨x, List.mem_cons_self, h.symm⟩
    · exact Or.inr ⟨kv', List.mem_cons_of_mem _ h1, h2⟩

private theorem pairOf_small {x : CVal} {kv : CAtom × CVal} (h : pairOf x = some kv) : (∃ a, kv.2 = .atom a) ∨ sizeOf kv.2 < sizeOf x := by
  unfold pairOf at h
  split at h
  · injection h with h; subst h
    right
    simp only [CVal.list.sizeOf_spec, List.cons.sizeOf_spec]
    omega
  · injection h with h; subst h; exact Or.inl ⟨_, rfl⟩
  · injection h with h; subst h; exact Or.inl ⟨_, rfl⟩
  · simp at h

/-- Containers in `dict(x)` are parts of `x`: the recursion of `serialize_dict` ends. -/
theorem dictOf_small {x : CVal} {d : Dict CAtom CVal} (h : dictOf x = some d) {kv : CAtom × CVal} (hkv : kv ∈ d) :
    (∃ a, kv.2 = .atom a) ∨ sizeOf kv.2 < sizeOf x := by
  unfold dictOf at h
  split at h
  · injection h with h; subst h
    right
    have := List.sizeOf_lt_of_mem hkv
    obtain ⟨k, v⟩ := kv
    simp only [Prod.mk.sizeOf_spec, CVal.dict.sizeOf_spec] at *
    omega
  · split at h
    · injection h with h; subst h; simp at hkv
    · simp at h
  · simp at h
  · rename_i l
    cases hm : l.mapM pairOf with
    | none => simp [hm] at h
    | some ps =>
      simp only [hm, Option.map_some, Option.some.injEq] at h
      subst h
      rcases confMem_update hkv with h | ⟨kv', h1, h2⟩
      · simp at h
      · have : ∀ (l : List CVal) (ps : List (CAtom × CVal)), l.mapM pairOf = some ps → ∀ kv ∈ ps, ∃ y ∈ l, pairOf y = some kv := by
          intro l
          induction l with
          | nil => intro ps h kv hk; simp at h; subst h; simp at hk
          | cons y l ih =>
            intro ps h kv hk
            simp only [List.mapM_cons, Option.bind_eq_bind, Option.pure_def] at h
            cases hy : pairOf y with
            | none => simp [hy] at h
            | some p => cases hl : l.mapM pairOf with
              | none => simp [hy, hl] at h
              | some ps' =>
                simp only [hy, hl, Option.bind_some, Option.some.injEq] at h
                subst h
                rcases List.mem_cons.1 hk with hk | hk
                · exact ⟨y, List.mem_cons_self, by rw [hy, hk]⟩
                · obtain ⟨z, hz, hz'⟩ := ih ps' hl kv hk
                  exact ⟨z, List.mem_cons_of_mem _ hz, hz'⟩
        obtain ⟨y, hy, hy'⟩ := this l ps hm kv' h1
        rw [← h2]
        rcases pairOf_small hy' with h | h
        · exact Or.inl h
        · right
          have := List.sizeOf_lt_of_mem hy
          simp only [CVal.list.sizeOf_spec]
          omega

/-- How things are written: `repr`, and the name of a class (soil/serialization.py:165-183). -/
structure Names where
  repr : CVal → Str
  name : PyClass → Str

/-- `serialize_dict` (soil/serialization.py:199-212), without the changes of the lists that it is given (see `hser` for them). What is no
dictionary becomes its `serialize(d)[0]` (186-196): texts stay, for the rest it is `repr`. -/
def serializeDict (N : Names) (x : CVal) : CVal :=
  match h : dictOf x with
  | none =>
    match x with
    | .atom (.text s) => .atom (.text s)
    | x => .atom (.text (N.repr x))
  | some d =>
    .dict (d.attach.map (fun kv => (kv.1.1,
      match hv : kv.1.2 with
      | .dict e => serializeDict N (.dict e)
      | .list l => .list (l.attach.map (fun y => serializeDict N y.1))
      | .atom (.cls c) => .atom (.text (N.name c))
      | .atom a => .atom a)))
termination_by sizeOf x
decreasing_by
  · have := dictOf_small h kv.2
    rw [hv] at this
    simpa using this
  · have := dictOf_small h kv.2
    rw [hv] at this
    have h2 := List.sizeOf_lt_of_mem y.2
    simp only [reduceCtorEq, exists_false, false_or, CVal.list.sizeOf_spec] at this
    omega

/-- `Simulation.to_dict` (soil/simulation.py:282-284) for the fields of a simulation: `asdict` copies them. `to_yaml` (286-287) writes the
result; reading plain YAML values gives the same values. -/
def simToDict (N : Names) (fields : Dict CAtom CVal) : CVal := serializeDict N (.dict fields)

/-! ## Classes -/

/-- The text before the last `'>`; the argument is reversed. -/
def cutEnd : Str → Option Str
  | [] => none
  | c :: rest => if c = '>' ∧ rest.head? = some '\'' then some rest.tail else cutEnd rest

/-- `IS_CLASS.match(t).group(1)` (soil/serialization.py:215, 229-231); `none`: no match. -/
def classText (t : Str) : Option Str :=
  if "<class '".toList <+: t then (cutEnd (t.drop 8).reverse).map List.reverse else none

/-- `repr` of a class that is defined in a module (not in another class or function). -/
def classRepr (c : PyClass) : Str := "<class '".toList ++ (c.module ++ '.' :: c.name) ++ "'>".toList

/-- `deserialize(t)` (soil/serialization.py:218-234, 257-273), with texts of the form `<class '...'>`; `none`: an exception. -/
def deserializeText (w : PyWorld) (known : List Str) (t : Str) : Option Des :=
  if w.isBuiltin t then some (.builtin t)
  else match classText t with
    | none => deserializeName w known t
    | some q => match pyRsplit1 '.' q with
      | (none, _) => none
      | (some m, n) => (w.attr m n).map (fun x => .obj (w.finish x))

/-- The object that a value stands for if it is deserialized: the model (soil/simulation.py:121-122), an exporter (soil/simulation.py:142-151,
soil/serialization.py:276-282). -/
def objectOf (w : PyWorld) (known : List Str) : CVal → Option Des
  | .atom (.text t) => deserializeText w known t
  | .atom (.cls c) => some (.obj c.obj)
  | _ => none

/-! ## With the identity of lists -/

/-- A value; lists are references. Dictionaries are not: `serialize_dict` only changes its own copies of them. -/
inductive HCVal where
  | atom (a : CAtom)
  | list (r : Nat)
  | dict (d : List (CAtom × HCVal))
deriving Repr

/-- The lists. -/
abbrev LHeap := List (List HCVal)

/-- A loop with a state. -/
def mapS {α β σ : Type} (f : α → σ → Option (β × σ)) : List α → σ → Option (List β × σ)
  | [], h => some ([], h)
  | a :: l, h => match f a h with
    | none => none
    | some (b, h) => match mapS f l h with
      | none => none
      | some (bs, h) => some (b :: bs, h)

/-- `dataclasses.asdict` on a value: lists and dictionaries are copied, with their items. `none`: the recursion is too deep. -/
def hcopy : Nat → HCVal → LHeap → Option (HCVal × LHeap)
  | 0, _, _ => none
  | _ + 1, .atom a, h => some (.atom a, h)
  | n + 1, .list r, h => match h[r]? with
    | none => none
    | some l => match mapS (hcopy n) l h with
      | none => none
      | some (l', h) => some (.list h.length, h ++ [l'])
  | n + 1, .dict d, h => match mapS (fun kv h => (hcopy n kv.2 h).map (fun x => ((kv.1, x.1), x.2))) d h with
    | none => none
    | some (d', h) => some (.dict d', h)

/-- `pairOf` with references. -/
def hpairOf (h : LHeap) : HCVal → Option (CAtom × HCVal)
  | .list r => match h[r]? with
    | some [.atom k, v] => some (k, v)
    | _ => none
  | .atom (.text [a, b]) => some (.text [a], .atom (.text [b]))
  | .dict [(k, _), (k', _)] => some (k, .atom k')
  | _ => none

/-- `dictOf` with references. -/
def hdictOf (h : LHeap) : HCVal → Option (Dict CAtom HCVal)
  | .dict d => some d
  | .atom (.text s) => if s = [] then some [] else none
  | .atom _ => none
  | .list r => match h[r]? with
    | none => none
    | some l => (l.mapM (hpairOf h)).map (Dict.update [])

/-- `for ix in range(len(v)): v[ix] = f(v[ix])` (soil/serialization.py:207-209) for the list `r`: `k` items from `ix` on. -/
def hloop (f : HCVal → LHeap → Option (HCVal × LHeap)) (r : Nat) : Nat → Nat → LHeap → Option LHeap
  | 0, _, h => some h
  | k + 1, ix, h => match h[r]? with
    | none => none
    | some l => match l[ix]? with
      | none => none
      | some y => match f y h with
        | none => none
        | some (y', h) => hloop f r k (ix + 1) (h.modify r (fun l => l.set ix y'))

/-- `serialize_dict` (soil/serialization.py:199-212), with the changes of lists. `rep`: `repr` of a value. `none`: the recursion is too deep. -/
def hser (name : PyClass → Str) (rep : HCVal → LHeap → Str) : Nat → HCVal → LHeap → Option (HCVal × LHeap)
  | 0, _, _ => none
  | n + 1, x, h => match hdictOf h x with
    | none => match x with
      | .atom (.text s) => some (.atom (.text s), h)
      | x => some (.atom (.text (rep x h)), h)
    | some d =>
      (mapS (fun (kv : CAtom × HCVal) h => match kv.2 with
        | .dict e => (hser name rep n (.dict e) h).map (fun x => ((kv.1, x.1), x.2))
        | .list r => match h[r]? with
          | none => none
          | some l => (hloop (hser name rep n) r l.length 0 h).map (fun h => ((kv.1, .list r), h))
        | .atom (.cls c) => some ((kv.1, .atom (.text (name c))), h)
        | .atom a => some ((kv.1, .atom a), h)) d.reverse h).map (fun x => (.dict x.1.reverse, x.2))

/-- `Simulation.to_dict` (soil/simulation.py:282-284). -/
def hToDict (name : PyClass → Str) (rep : HCVal → LHeap → Str) (n : Nat) (fields : List (CAtom × HCVal)) (h : LHeap) :
    Option (HCVal × LHeap) :=
  match hcopy n (.dict fields) h with
  | none => none
  | some (x, h) => hser name rep n x h

end Verif
