import Mathlib.Data.List.Basic
import Mathlib.Data.List.Nodup

/-!
# Python dictionaries

Insertion-ordered dictionaries as association lists; `d[k] = v` keeps the position of an existing key.
-/

namespace Verif

/-- A Python `dict` (insertion ordered). Well-formed when the keys are distinct (`Dict.WF`). -/
abbrev Dict (K V : Type) := List (K × V)

namespace Dict
variable {K V : Type} [DecidableEq K]

/-- `d.get(k)`. -/
def get? (d : Dict K V) (k : K) : Option V :=
  match d with
  | [] => none
  | (k', v) :: d => if k' = k then some v else get? d k

/-- `k in d`. -/
def has (d : Dict K V) (k : K) : Bool := (get? d k).isSome

/-- `d[k] = v`. -/
def set (d : Dict K V) (k : K) (v : V) : Dict K V :=
  match d with
  | [] => [(k, v)]
  | (k', v') :: d => if k' = k then (k, v) :: d else (k', v') :: set d k v

/-- `del d[k]` / `d.pop(k)`. -/
def del (d : Dict K V) (k : K) : Dict K V :=
  match d with
  | [] => []
  | (k', v') :: d => if k' = k then d else (k', v') :: del d k

/-- `d.update(e)`. -/
def update (d e : Dict K V) : Dict K V := e.foldl (fun d kv => set d kv.1 kv.2) d

/-- `list(d.keys())`. -/
def keys (d : Dict K V) : List K := d.map Prod.fst

/-- The keys are distinct. -/
def WF (d : Dict K V) : Prop := (keys d).Nodup

instance (d : Dict K V) : Decidable (WF d) := inferInstanceAs (Decidable (List.Nodup _))

@[simp] theorem get?_nil (k : K) : get? ([] : Dict K V) k = none := rfl

theorem get?_set (d : Dict K V) (k k' : K) (v : V) :
    get? (set d k v) k' = if k = k' then some v else get? d k' := by
  induction d with
  | nil => simp [set, get?]
  | cons p d ih =>
    obtain ⟨a, b⟩ := p
    simp only [set]
    by_cases h : a = k
    · subst h
      by_cases h2 : a = k' <;> simp [get?, h2]
    · simp only [if_neg h, get?, ih]
      by_cases h2 : a = k'
      · subst h2; simp [Ne.symm h]
      · simp [h2]

@[simp] theorem get?_set_self (d : Dict K V) (k : K) (v : V) : get? (set d k v) k = some v := by
  simp [get?_set]

theorem get?_set_ne (d : Dict K V) {k k' : K} (v : V) (h : k ≠ k') : get? (set d k v) k' = get? d k' := by
  simp [get?_set, h]

theorem mem_keys (d : Dict K V) (k : K) : k ∈ keys d ↔ (get? d k).isSome := by
  induction d with
  | nil => simp [keys]
  | cons p d ih =>
    obtain ⟨a, b⟩ := p
    by_cases h : a = k
    · simp [keys, get?, h]
    · have h' : ¬ k = a := fun e => h e.symm
      simp only [keys, List.map_cons, List.mem_cons, h', false_or, get?, if_neg h]
      exact ih

theorem get?_none_iff (d : Dict K V) (k : K) : get? d k = none ↔ k ∉ keys d := by
  rw [mem_keys]; cases get? d k <;> simp

theorem get?_mem {d : Dict K V} {k : K} {v : V} (h : get? d k = some v) : (k, v) ∈ d := by
  induction d with
  | nil => simp at h
  | cons p d ih =>
    obtain ⟨a, b⟩ := p
    simp only [get?] at h
    split at h
    · rename_i hk; subst hk; cases h; simp
    · exact List.mem_cons_of_mem _ (ih h)

theorem get?_of_mem {d : Dict K V} (hd : WF d) {k : K} {v : V} (h : (k, v) ∈ d) : get? d k = some v := by
  induction d with
  | nil => cases h
  | cons p d ih =>
    obtain ⟨a, b⟩ := p
    have hd' : a ∉ keys d ∧ WF d := by simpa [WF, keys] using hd
    rcases List.mem_cons.1 h with h | h
    · cases h; simp [get?]
    · have hne : ¬ a = k := by
        rintro rfl
        exact hd'.1 (List.mem_map.2 ⟨_, h, rfl⟩)
      simp only [get?, if_neg hne]
      exact ih hd'.2 h

theorem keys_set (d : Dict K V) (k : K) (v : V) :
    keys (set d k v) = if k ∈ keys d then keys d else keys d ++ [k] := by
  induction d with
  | nil => simp [set, keys]
  | cons p d ih =>
    obtain ⟨a, b⟩ := p
    simp only [set]
    by_cases h : a = k
    · subst h; simp [keys]
    · have h' : ¬ k = a := fun e => h e.symm
      have : keys ((a, b) :: set d k v) = a :: keys (set d k v) := rfl
      simp only [if_neg h, this, ih]
      have hk : keys ((a, b) :: d) = a :: keys d := rfl
      simp only [hk, List.mem_cons, h', false_or]
      split <;> simp

theorem WF.set {d : Dict K V} (h : WF d) (k : K) (v : V) : WF (set d k v) := by
  unfold WF
  rw [keys_set]
  split
  · exact h
  · rename_i hk
    rw [List.nodup_append]
    refine ⟨h, by simp, ?_⟩
    intro a ha b hb
    simp at hb; subst hb
    rintro rfl
    exact hk ha

theorem WF.update {d : Dict K V} (h : WF d) (e : Dict K V) : WF (update d e) := by
  unfold Dict.update
  induction e generalizing d with
  | nil => exact h
  | cons p e ih => exact ih (h.set p.1 p.2)

theorem get?_update (d e : Dict K V) (he : WF e) (k : K) :
    get? (update d e) k = (get? e k).or (get? d k) := by
  unfold Dict.update
  induction e generalizing d with
  | nil => simp
  | cons p e ih =>
    obtain ⟨a, b⟩ := p
    have he' : a ∉ keys e ∧ WF e := by simpa [WF, keys] using he
    rw [List.foldl_cons, ih _ he'.2]
    simp only [get?_set, get?]
    by_cases h : a = k
    · subst h
      have : get? e a = none := (get?_none_iff _ _).2 he'.1
      simp [this]
    · simp [h]

theorem get?_del (d : Dict K V) (hd : WF d) (k k' : K) :
    get? (del d k) k' = if k = k' then none else get? d k' := by
  induction d with
  | nil => simp [del]
  | cons p d ih =>
    obtain ⟨a, b⟩ := p
    have hd' : a ∉ keys d ∧ WF d := by simpa [WF, keys] using hd
    simp only [del]
    by_cases h : a = k
    · subst h
      by_cases h2 : a = k'
      · subst h2
        simp [(get?_none_iff _ _).2 hd'.1]
      · simp [get?, h2]
    · simp only [if_neg h, get?, ih hd'.2]
      by_cases h2 : a = k'
      · subst h2; simp [Ne.symm h]
      · simp [h2]

theorem keys_del_sublist (d : Dict K V) (k : K) : (keys (del d k)).Sublist (keys d) := by
  induction d with
  | nil => exact List.Sublist.slnil
  | cons p d ih =>
    obtain ⟨a, b⟩ := p
    simp only [del]
    split
    · exact (List.Sublist.refl _).cons _
    · exact ih.cons_cons _

theorem WF.del {d : Dict K V} (h : WF d) (k : K) : WF (del d k) :=
  List.Nodup.sublist (keys_del_sublist d k) h

theorem del_of_absent {d : Dict K V} {k : K} (h : get? d k = none) : del d k = d := by
  induction d with
  | nil => rfl
  | cons p d ih =>
    obtain ⟨a, b⟩ := p
    simp only [get?] at h
    split at h
    · cases h
    · rename_i hne
      simp only [del, if_neg hne, ih h]

theorem set_of_absent {d : Dict K V} {k : K} (h : k ∉ keys d) (v : V) : set d k v = d ++ [(k, v)] := by
  induction d with
  | nil => rfl
  | cons p d ih =>
    obtain ⟨a, b⟩ := p
    have h' : ¬ k = a ∧ k ∉ keys d := by simpa [keys] using h
    simp only [set, if_neg (fun e => h'.1 (Eq.symm e)), ih h'.2, List.cons_append]

theorem update_of_disjoint {d e : Dict K V} (h : (keys (d ++ e)).Nodup) : update d e = d ++ e := by
  unfold Dict.update
  induction e generalizing d with
  | nil => simp
  | cons p e ih =>
    obtain ⟨a, b⟩ := p
    have hk : a ∉ keys d := by
      intro hm
      have hn : (d.map Prod.fst ++ (a :: e.map Prod.fst)).Nodup := by simpa [keys] using h
      rw [List.nodup_append] at hn
      exact hn.2.2 a hm a (by simp) rfl
    rw [List.foldl_cons, set_of_absent hk, ih (by simpa using h)]
    simp

end Dict
end Verif
