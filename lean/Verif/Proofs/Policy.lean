import Verif.Spec.Policy
import Verif.Proofs.Calendar

/-!
# A policy determines the time line of an agent
-/

namespace Verif.Spec

variable {iv : Time}

/-- Following a policy only concerns an agent's own events. -/
theorem Follows.filter {pol : Policy} {past l : List Ev} (h : Follows pol past l) (r : Ref) :
    Follows pol (past.filter (·.ref = r)) (l.filter (·.ref = r)) := by
  induction l generalizing past with
  | nil => trivial
  | cons e l ih =>
    have hpast : ∀ e : Ev, e.ref = r → (past ++ [e]).filter (·.ref = r) = past.filter (·.ref = r) ++ [e] := by
      intro e he; simp [List.filter_append, he]
    have hpast' : ∀ e : Ev, ¬ e.ref = r → (past ++ [e]).filter (·.ref = r) = past.filter (·.ref = r) := by
      intro e he; simp [List.filter_append, he]
    cases e with
    | added q t =>
      have h2 := ih h
      by_cases hq : q = r
      · rw [List.filter_cons_of_pos (by simp [Ev.ref, hq])]
        rw [hpast _ (by simp [Ev.ref, hq])] at h2
        exact h2
      · rw [List.filter_cons_of_neg (by simp [Ev.ref, hq])]
        rw [hpast' _ (by simp [Ev.ref, hq])] at h2
        exact h2
    | act q t rep =>
      have h2 := ih h.2
      by_cases hq : q = r
      · rw [List.filter_cons_of_pos (by simp [Ev.ref, hq])]
        rw [hpast _ (by simp [Ev.ref, hq])] at h2
        refine ⟨?_, h2⟩
        subst hq
        rw [List.filter_filter]
        simpa using h.1
      · rw [List.filter_cons_of_neg (by simp [Ev.ref, hq])]
        rw [hpast' _ (by simp [Ev.ref, hq])] at h2
        exact h2

/-- Two time lines of the same agent, with the same pending wake-up, under the same policy: one
extends the other, and what the longer one has in addition starts at the wake-up the shorter one
still has pending. -/
theorem timelines_agree {pol : Policy} {r : Ref} {a b1 b2 : Option Time} {past l1 l2 : List Ev}
    (h1 : Timeline iv a l1 b1) (h2 : Timeline iv a l2 b2)
    (hr1 : ∀ e ∈ l1, e.ref = r) (hr2 : ∀ e ∈ l2, e.ref = r)
    (ha1 : ∀ e ∈ l1, e.isAct = true) (ha2 : ∀ e ∈ l2, e.isAct = true)
    (hp : ∀ e ∈ past, e.ref = r)
    (f1 : Follows pol past l1) (f2 : Follows pol past l2) :
    (∃ x, l2 = l1 ++ x ∧ ∀ e y, x = e :: y → b1 = some e.time) ∨
    (∃ x, l1 = l2 ++ x ∧ ∀ e y, x = e :: y → b2 = some e.time) := by
  induction h1 generalizing l2 past with
  | nil due =>
    left
    refine ⟨l2, rfl, ?_⟩
    rintro e y rfl
    cases h2 with
    | add => have := ha2 _ List.mem_cons_self; cases this
    | act => rfl
  | add => have := ha1 _ List.mem_cons_self; cases this
  | @act q t rep l due' h1 ih =>
    cases h2 with
    | nil =>
      right
      refine ⟨_, rfl, ?_⟩
      rintro e y he
      cases he
      rfl
    | @act q2 _ rep2 l2 _ h2 =>
      have e1 : q = r := hr1 _ List.mem_cons_self
      have e2 : q2 = r := hr2 _ List.mem_cons_self
      subst e1; subst e2
      have hrep : rep = rep2 := f1.1.trans f2.1.symm
      subst hrep
      have := ih h2 (fun e he => hr1 e (by simp [he])) (fun e he => hr2 e (by simp [he]))
        (fun e he => ha1 e (by simp [he])) (fun e he => ha2 e (by simp [he]))
        (past := past ++ [.act q2 t rep]) (by
          intro e he
          rcases List.mem_append.1 he with he | he
          · exact hp e he
          · simp at he; subst he; rfl) f1.2 f2.2
      rcases this with ⟨x, hx, hx'⟩ | ⟨x, hx, hx'⟩
      · exact Or.inl ⟨x, by rw [hx]; rfl, hx'⟩
      · exact Or.inr ⟨x, by rw [hx]; rfl, hx'⟩

/-- The same, comparing everything that happened before a time `T` that neither has passed over. -/
theorem timelines_before {pol : Policy} {r : Ref} {a b1 b2 : Option Time} {past l1 l2 : List Ev} {T : Time}
    (h1 : Timeline iv a l1 b1) (h2 : Timeline iv a l2 b2)
    (hr1 : ∀ e ∈ l1, e.ref = r) (hr2 : ∀ e ∈ l2, e.ref = r)
    (ha1 : ∀ e ∈ l1, e.isAct = true) (ha2 : ∀ e ∈ l2, e.isAct = true)
    (hp : ∀ e ∈ past, e.ref = r)
    (f1 : Follows pol past l1) (f2 : Follows pol past l2)
    (c1 : Chronological l1) (c2 : Chronological l2)
    (T1 : ∀ t, b1 = some t → T ≤ t) (T2 : ∀ t, b2 = some t → T ≤ t) :
    l1.filter (fun e => decide (e.time < T)) = l2.filter (fun e => decide (e.time < T)) := by
  have key : ∀ (l x : List Ev) (b : Option Time), Chronological (l ++ x) →
      (∀ e y, x = e :: y → b = some e.time) → (∀ t, b = some t → T ≤ t) →
      (l ++ x).filter (fun e => decide (e.time < T)) = l.filter (fun e => decide (e.time < T)) := by
    intro l x b hc hx hT
    rw [List.filter_append]
    have : x.filter (fun e => decide (e.time < T)) = [] := by
      rw [List.filter_eq_nil_iff]
      intro z hz
      cases x with
      | nil => cases hz
      | cons e y =>
        have ht := hT _ (hx e y rfl)
        have hle : e.time ≤ z.time := by
          rcases List.mem_cons.1 hz with rfl | hz
          · exact le_refl _
          · have := (List.pairwise_append.1 hc).2.1
            exact (List.pairwise_cons.1 this).1 z hz
        simpa using le_trans ht hle
    rw [this, List.append_nil]
  rcases timelines_agree h1 h2 hr1 hr2 ha1 ha2 hp f1 f2 with ⟨x, rfl, hx⟩ | ⟨x, rfl, hx⟩
  · exact (key l1 x b1 c2 hx T1).symm
  · exact key l2 x b2 c1 hx T2

end Verif.Spec
