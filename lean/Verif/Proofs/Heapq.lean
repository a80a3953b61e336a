import Verif.Model.Heapq
import Mathlib.Data.List.Perm.Basic

/-!
# Correctness of `heapq`
-/

namespace Verif

variable {α : Type}

/-- `lt` is the strict part of a total preorder. -/
structure WeakOrder (lt : α → α → Bool) : Prop where
  asymm : ∀ a b, lt a b = true → lt b a = false
  trans : ∀ a b c, lt b a = false → lt c b = false → lt c a = false

/-- No element is less than its parent. -/
def IsHeap (lt : α → α → Bool) (h : List α) : Prop :=
  ∀ i a b, 0 < i → h[(i - 1) / 2]? = some a → h[i]? = some b → lt b a = false

theorem IsHeap.nil (lt : α → α → Bool) : IsHeap lt [] := by
  intro i a b _ _ h; simp at h

variable {lt : α → α → Bool}

theorem WeakOrder.refl (ho : WeakOrder lt) (a : α) : lt a a = false := by
  cases h : lt a a with
  | false => rfl
  | true => have := ho.asymm a a h; rw [h] at this; exact this

/-- The first element of a heap is a least one. -/
theorem IsHeap.head_le (ho : WeakOrder lt) {e : α} {q : List α} (h : IsHeap lt (e :: q)) :
    ∀ x ∈ e :: q, lt x e = false := by
  have key : ∀ (i : Nat) x, (e :: q)[i]? = some x → lt x e = false := by
    intro i
    induction i using Nat.strongRecOn with
    | _ i ih =>
      intro x hx
      by_cases hi : i = 0
      · subst hi
        simp at hx
        subst hx
        exact ho.refl _
      · have hlt : i < (e :: q).length := by
          rw [List.getElem?_eq_some_iff] at hx
          exact hx.1
        have hp : (i - 1) / 2 < (e :: q).length := by omega
        have h1 := h i ((e :: q)[(i - 1) / 2]) x (by omega) (List.getElem?_eq_getElem hp) hx
        exact ho.trans _ _ _ (ih ((i - 1) / 2) (by omega) _ (List.getElem?_eq_getElem hp)) h1
  intro x hx
  obtain ⟨i, hi⟩ := List.mem_iff_getElem?.1 hx
  exact key i x hi

theorem set_swap_perm (h : List α) (i j : Nat) (x y : α) (hij : i ≠ j) (hi : i < h.length) (hj : h[j]? = some y) :
    ((h.set i y).set j x).Perm (h.set i x) := by
  obtain ⟨hj1, hj2⟩ := List.getElem?_eq_some_iff.1 hj
  have := List.set_set_perm (as := h.set i x) (i := i) (j := j) (by simpa using hi) (by simpa using hj1)
  simp only [List.getElem_set_self, List.getElem_set_ne hij, hj2, List.set_set] at this
  exact this

theorem siftdown_perm (item : α) (heap : List α) (start pos : Nat) (hp : pos < heap.length) :
    (siftdown lt item heap start pos).Perm (heap.set pos item) := by
  induction pos using Nat.strongRecOn generalizing heap with
  | _ pos ih =>
    unfold siftdown
    by_cases h : start < pos
    · rw [if_pos h]
      have hpp : (pos - 1) / 2 < heap.length := by omega
      rw [List.getElem?_eq_getElem hpp]
      simp only
      by_cases hl : lt item heap[(pos - 1) / 2] = true
      · rw [if_pos hl]
        refine (ih _ (by omega) _ (by simpa using hpp)).trans ?_
        exact set_swap_perm heap pos ((pos - 1) / 2) item _ (by omega) hp (List.getElem?_eq_getElem hpp)
      · rw [if_neg hl]
    · rw [if_neg h]

theorem smallerChild_cases (heap : List α) (c : Nat) (hc : c < heap.length) :
    smallerChild lt heap c < heap.length ∧ (smallerChild lt heap c = c ∨ smallerChild lt heap c = c + 1) := by
  unfold smallerChild
  split
  · rename_i l r h1 h2
    have := (List.getElem?_eq_some_iff.1 h2).1
    split <;> omega
  · exact ⟨hc, Or.inl rfl⟩

theorem siftupLoop_perm (item : α) (heap : List α) (pos : Nat) (hp : pos < heap.length) :
    (siftupLoop lt heap pos).1.length = heap.length ∧ (siftupLoop lt heap pos).2 < heap.length ∧
    ((siftupLoop lt heap pos).1.set (siftupLoop lt heap pos).2 item).Perm (heap.set pos item) := by
  induction hn : heap.length - pos using Nat.strongRecOn generalizing heap pos with
  | _ n ih =>
    unfold siftupLoop
    by_cases h : 2 * pos + 1 < heap.length
    · rw [if_pos h]
      obtain ⟨h1, h2⟩ := smallerChild_cases (lt := lt) heap (2 * pos + 1) h
      generalize smallerChild lt heap (2 * pos + 1) = c at *
      rw [List.getElem?_eq_getElem h1]
      simp only
      have := ih (heap.length - c) (by omega) (heap.set pos heap[c]) c (by simpa using h1) (by simp)
      simp only [List.length_set] at this
      refine ⟨this.1, this.2.1, this.2.2.trans ?_⟩
      exact set_swap_perm heap pos c item _ (by omega) hp (List.getElem?_eq_getElem h1)
    · rw [if_neg h]
      exact ⟨rfl, hp, List.Perm.refl _⟩

theorem siftup_perm (item e : α) (q : List α) : (siftup lt item (e :: q)).Perm (item :: q) := by
  obtain ⟨h1, h2, h3⟩ := siftupLoop_perm (lt := lt) item (e :: q) 0 (by simp)
  unfold siftup
  refine (siftdown_perm item _ 0 _ (by rw [h1]; exact h2)).trans ?_
  simpa using h3

/-- Everything but the relations of the element at `pos`, which may be replaced by something not greater than its children. -/
structure HoleHeap (lt : α → α → Bool) (h : List α) (pos : Nat) : Prop where
  pairs : ∀ i a b, 0 < i → i ≠ pos → (i - 1) / 2 ≠ pos → h[(i - 1) / 2]? = some a → h[i]? = some b → lt b a = false
  skip : ∀ i a b, 0 < i → 0 < pos → (i - 1) / 2 = pos → h[(pos - 1) / 2]? = some a → h[i]? = some b → lt b a = false

theorem siftdown_heap (ho : WeakOrder lt) (item : α) (heap : List α) (pos : Nat) (hp : pos < heap.length)
    (hh : HoleHeap lt heap pos)
    (hc : ∀ i b, 0 < i → (i - 1) / 2 = pos → heap[i]? = some b → lt b item = false) :
    IsHeap lt (siftdown lt item heap 0 pos) := by
  induction pos using Nat.strongRecOn generalizing heap with
  | _ pos ih =>
    -- the heap after the final assignment
    have final : (∀ a, 0 < pos → heap[(pos - 1) / 2]? = some a → lt item a = false) → IsHeap lt (heap.set pos item) := by
      intro hpar i a b hi ha hb
      by_cases h1 : i = pos
      · subst h1
        rw [List.getElem?_set_self hp] at hb
        cases hb
        rw [List.getElem?_set_ne (by omega)] at ha
        exact hpar a hi ha
      · rw [List.getElem?_set_ne (by omega)] at hb
        by_cases h2 : (i - 1) / 2 = pos
        · rw [h2, List.getElem?_set_self hp] at ha
          cases ha
          exact hc i b hi h2 hb
        · rw [List.getElem?_set_ne (by omega)] at ha
          exact hh.pairs i a b hi h1 h2 ha hb
    unfold siftdown
    by_cases h : 0 < pos
    · rw [if_pos h]
      have hpp : (pos - 1) / 2 < heap.length := by omega
      rw [List.getElem?_eq_getElem hpp]
      simp only
      by_cases hl : lt item heap[(pos - 1) / 2] = true
      · rw [if_pos hl]
        have hpar : heap[(pos - 1) / 2]? = some heap[(pos - 1) / 2] := List.getElem?_eq_getElem hpp
        generalize heap[(pos - 1) / 2] = par at *
        apply ih _ (by omega) _ (by simpa using hpp)
        · constructor
          · intro i a b hi h1 h2 ha hb
            by_cases h3 : i = pos
            · subst h3; exact absurd rfl h2
            · rw [List.getElem?_set_ne (by omega)] at hb
              by_cases h4 : (i - 1) / 2 = pos
              · rw [h4, List.getElem?_set_self hp] at ha
                cases ha
                exact hh.skip i par b hi h h4 hpar hb
              · rw [List.getElem?_set_ne (by omega)] at ha
                exact hh.pairs i a b hi h3 h4 ha hb
          · intro i a b hi hpp0 h1 ha hb
            rw [List.getElem?_set_ne (by omega)] at ha
            have hap : lt par a = false :=
              hh.pairs ((pos - 1) / 2) a par hpp0 (by omega) (by omega) ha hpar
            by_cases h3 : i = pos
            · subst h3
              rw [List.getElem?_set_self hp] at hb
              cases hb
              exact hap
            · rw [List.getElem?_set_ne (by omega)] at hb
              have : lt b par = false := hh.pairs i par b hi h3 (by omega) (by rw [h1]; exact hpar) hb
              exact ho.trans _ _ _ hap this
        · intro i b hi h1 hb
          by_cases h3 : i = pos
          · subst h3
            rw [List.getElem?_set_self hp] at hb
            cases hb
            exact ho.asymm _ _ hl
          · rw [List.getElem?_set_ne (by omega)] at hb
            have : lt b par = false := hh.pairs i par b hi h3 (by omega) (by rw [h1]; exact hpar) hb
            exact ho.trans _ _ _ (ho.asymm _ _ hl) this
      · rw [if_neg hl]
        apply final
        intro a _ ha
        rw [List.getElem?_eq_getElem hpp] at ha
        cases ha
        simpa using hl
    · rw [if_neg h]
      apply final
      intro a h0
      omega

theorem smallerChild_least (ho : WeakOrder lt) (heap : List α) (pos : Nat) (i : Nat) (b c : α) (hi : 0 < i) (hip : (i - 1) / 2 = pos)
    (hb : heap[i]? = some b) (hc : heap[smallerChild lt heap (2 * pos + 1)]? = some c) : lt b c = false := by
  have hcases : i = 2 * pos + 1 ∨ i = 2 * pos + 2 := by omega
  unfold smallerChild at hc
  cases h1 : heap[2 * pos + 1]? with
  | none =>
    rw [h1] at hc
    simp only at hc
    rw [h1] at hc
    cases hc
  | some l =>
    cases h2 : heap[2 * pos + 1 + 1]? with
    | none =>
      rw [h1, h2] at hc
      simp only at hc
      rw [h1] at hc
      cases hc
      rcases hcases with rfl | rfl
      · rw [h1] at hb; cases hb; exact ho.refl _
      · rw [h2] at hb; cases hb
    | some r =>
      rw [h1, h2] at hc
      simp only at hc
      by_cases hl : lt l r = true
      · rw [if_pos hl, h1] at hc
        cases hc
        rcases hcases with rfl | rfl
        · rw [h1] at hb; cases hb; exact ho.refl _
        · rw [h2] at hb; cases hb; exact ho.asymm _ _ hl
      · rw [if_neg hl, h2] at hc
        cases hc
        rcases hcases with rfl | rfl
        · rw [h1] at hb; cases hb; simpa using hl
        · rw [h2] at hb; cases hb; exact ho.refl _

theorem siftupLoop_heap (ho : WeakOrder lt) (heap : List α) (pos : Nat) (hp : pos < heap.length) (hh : HoleHeap lt heap pos) :
    HoleHeap lt (siftupLoop lt heap pos).1 (siftupLoop lt heap pos).2 ∧
    (siftupLoop lt heap pos).1.length ≤ 2 * (siftupLoop lt heap pos).2 + 1 := by
  induction hn : heap.length - pos using Nat.strongRecOn generalizing heap pos with
  | _ n ih =>
    unfold siftupLoop
    by_cases h : 2 * pos + 1 < heap.length
    · rw [if_pos h]
      obtain ⟨h1, h2⟩ := smallerChild_cases (lt := lt) heap (2 * pos + 1) h
      have hleast := smallerChild_least ho heap pos
      generalize smallerChild lt heap (2 * pos + 1) = c at *
      have hv : heap[c]? = some heap[c] := List.getElem?_eq_getElem h1
      rw [hv]
      simp only
      generalize heap[c] = v at *
      have := ih (heap.length - c) (by omega) (heap.set pos v) c (by simpa using h1) ?_ (by simp)
      · exact this
      · constructor
        · intro i a b hi hic hpc ha hb
          by_cases h3 : i = pos
          · subst h3
            rw [List.getElem?_set_self hp] at hb
            cases hb
            rw [List.getElem?_set_ne (by omega)] at ha
            exact hh.skip c a v (by omega) hi (by omega) ha hv
          · rw [List.getElem?_set_ne (by omega)] at hb
            by_cases h4 : (i - 1) / 2 = pos
            · rw [h4, List.getElem?_set_self hp] at ha
              cases ha
              exact hleast i b v hi h4 hb hv
            · rw [List.getElem?_set_ne (by omega)] at ha
              exact hh.pairs i a b hi h3 h4 ha hb
        · intro i a b hi _ h3 ha hb
          have : (c - 1) / 2 = pos := by omega
          rw [this, List.getElem?_set_self hp] at ha
          cases ha
          rw [List.getElem?_set_ne (by omega)] at hb
          exact hh.pairs i v b hi (by omega) (by omega) (by rw [h3]; exact hv) hb
    · rw [if_neg h]
      exact ⟨hh, by simp only; omega⟩

theorem siftup_heap (ho : WeakOrder lt) (item : α) (heap : List α) (hn : heap ≠ [])
    (hh : ∀ i a b, 0 < i → (i - 1) / 2 ≠ 0 → heap[(i - 1) / 2]? = some a → heap[i]? = some b → lt b a = false) :
    IsHeap lt (siftup lt item heap) := by
  have hlen : 0 < heap.length := List.length_pos_iff.2 hn
  obtain ⟨h1, h2, _⟩ := siftupLoop_perm (lt := lt) item heap 0 hlen
  obtain ⟨h3, h4⟩ := siftupLoop_heap ho heap 0 hlen
    ⟨fun i a b hi _ hp ha hb => hh i a b hi hp ha hb, fun _ _ _ _ h => absurd h (Nat.lt_irrefl 0)⟩
  apply siftdown_heap ho item _ _ (by rw [h1]; exact h2) h3
  intro i b hi hp hb
  have := (List.getElem?_eq_some_iff.1 hb).1
  omega

/-! ### The operations -/

theorem heappush_perm (heap : List α) (item : α) : (heappush lt heap item).Perm (item :: heap) := by
  unfold heappush
  refine (siftdown_perm item _ 0 _ (by simp)).trans ?_
  rw [List.set_append_right _ _ (Nat.le_refl _)]
  simp [List.perm_append_singleton]

theorem heappush_heap (ho : WeakOrder lt) (heap : List α) (item : α) (hh : IsHeap lt heap) :
    IsHeap lt (heappush lt heap item) := by
  unfold heappush
  have hlt : ∀ i b, i ≠ heap.length → (heap ++ [item])[i]? = some b → heap[i]? = some b := by
    intro i b hi hb
    have hl := (List.getElem?_eq_some_iff.1 hb).1
    simp only [List.length_append, List.length_singleton] at hl
    rw [List.getElem?_append_left (by omega)] at hb
    exact hb
  have hout : ∀ i b, heap.length < i → (heap ++ [item])[i]? = some b → False := by
    intro i b hi hb
    have hl := (List.getElem?_eq_some_iff.1 hb).1
    simp only [List.length_append, List.length_singleton] at hl
    omega
  apply siftdown_heap ho item _ _ (by simp)
  · constructor
    · intro i a b hi h1 h2 ha hb
      exact hh i a b hi (hlt _ _ h2 ha) (hlt _ _ h1 hb)
    · intro i a b hi hp h1 _ hb
      exact (hout i b (by omega) hb).elim
  · intro i b hi h1 hb
    exact (hout i b (by omega) hb).elim

theorem heappop_perm (e : α) (q : List α) : (heappop lt (e :: q)).Perm q := by
  unfold heappop
  cases q with
  | nil => simp
  | cons x q =>
    have h1 : (e :: x :: q).getLast? = some ((x :: q).getLast (by simp)) := by
      rw [List.getLast?_cons_cons, List.getLast?_eq_some_getLast (by simp)]
    have h2 : (e :: x :: q).dropLast = e :: (x :: q).dropLast := rfl
    rw [h1, h2]
    simp only
    refine (siftup_perm _ _ _).trans ?_
    refine (List.perm_append_singleton _ _).symm.trans ?_
    rw [List.dropLast_append_getLast]

theorem heappop_heap (ho : WeakOrder lt) (heap : List α) (hh : IsHeap lt heap) : IsHeap lt (heappop lt heap) := by
  unfold heappop
  split
  · exact IsHeap.nil lt
  · split
    · exact IsHeap.nil lt
    · rename_i hne
      apply siftup_heap ho _ _ hne
      intro i a b hi _ ha hb
      have hget : ∀ (j : Nat) c, heap.dropLast[j]? = some c → heap[j]? = some c := by
        intro j c hc
        have hl := (List.getElem?_eq_some_iff.1 hc).1
        rw [List.length_dropLast] at hl
        rw [List.getElem?_dropLast, if_pos hl] at hc
        exact hc
      exact hh i a b hi (hget _ _ ha) (hget _ _ hb)

theorem heapreplace_perm (e : α) (q : List α) (item : α) :
    ∃ h, heapreplace lt (e :: q) item = some h ∧ h.Perm (item :: q) :=
  ⟨_, rfl, siftup_perm item e q⟩

theorem heapreplace_heap (ho : WeakOrder lt) (heap h : List α) (item : α) (hh : IsHeap lt heap)
    (hr : heapreplace lt heap item = some h) : IsHeap lt h := by
  unfold heapreplace at hr
  cases heap with
  | nil => cases hr
  | cons e q =>
    cases hr
    exact siftup_heap ho item _ (by simp) (fun i a b hi _ ha hb => hh i a b hi ha hb)

end Verif
