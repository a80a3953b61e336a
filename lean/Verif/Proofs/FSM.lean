import Verif.Model.FSM

/-!
# Lemmas about FSM classes
-/

namespace Verif

/-- Every state is stored under its own name, and the initial state's name is declared. -/
structure FsmClass.Good (c : FsmClass) : Prop where
  names : ∀ kd ∈ c.states, kd.2.name = kd.1
  init_declared : ∀ d, c.init = some d → d.name ∈ Dict.keys c.states
  wf : Dict.WF c.states

theorem Dict.mem_set {K V : Type} [DecidableEq K] {d : Dict K V} {k : K} {v : V} {p : K × V}
    (h : p ∈ Dict.set d k v) : p = (k, v) ∨ p ∈ d := by
  induction d with
  | nil => simp [Dict.set] at h; exact Or.inl h
  | cons q d ih =>
    obtain ⟨a, b⟩ := q
    simp only [Dict.set] at h
    split at h
    · rcases List.mem_cons.1 h with h | h
      · exact Or.inl h
      · exact Or.inr (by simp [h])
    · rcases List.mem_cons.1 h with h | h
      · exact Or.inr (by simp [h])
      · rcases ih h with h | h
        · exact Or.inl h
        · exact Or.inr (by simp [h])

theorem Dict.mem_keys_set {K V : Type} [DecidableEq K] {d : Dict K V} {k k' : K} {v : V} :
    k' ∈ Dict.keys (Dict.set d k v) ↔ k' = k ∨ k' ∈ Dict.keys d := by
  have h1 : ∀ e : Dict K V, k' ∈ Dict.keys e ↔ Dict.get? e k' ≠ none := by
    intro e
    rw [Ne, Dict.get?_none_iff]
    simp
  rw [h1, h1, Dict.get?_set]
  by_cases h : k = k'
  · simp [h]
  · simp [h, Ne.symm h]

theorem FsmClass.addState_good {c : FsmClass} (h : c.Good) {id : String} {d : StateDef} (hd : d.name = id) :
    (c.addState id d).Good := by
  refine ⟨?_, ?_, h.wf.set _ _⟩
  · intro kd hkd
    rcases Dict.mem_set hkd with rfl | hkd
    · exact hd
    · exact h.names kd hkd
  · intro e he
    simp only [FsmClass.addState] at he ⊢
    rw [Dict.mem_keys_set]
    split at he
    · cases he; exact Or.inl hd
    · exact Or.inr (h.init_declared e he)

theorem FsmClass.addBase_good {c b : FsmClass} (hc : c.Good) (hb : b.Good) : (c.addBase b).Good := by
  have key : ∀ (l : Dict String StateDef), (∀ kd ∈ l, kd.2.name = kd.1) → ∀ c : FsmClass, c.Good →
      (l.foldl (fun c kd => c.addState kd.1 kd.2) c).Good := by
    intro l
    induction l with
    | nil => intro _ c hc; exact hc
    | cons kd l ih =>
      intro hl c hc
      exact ih (fun x hx => hl x (by simp [hx])) _ (FsmClass.addState_good hc (hl kd (by simp)))
  exact key b.states hb.names c hc

theorem mkFsm_good {bases : List FsmClass} (hb : ∀ b ∈ bases, b.Good) (ns : List StateDef) :
    (mkFsm bases ns).Good := by
  have h1 : (bases.foldl FsmClass.addBase ⟨[], none⟩).Good := by
    have key : ∀ (l : List FsmClass), (∀ b ∈ l, b.Good) → ∀ c : FsmClass, c.Good →
        (l.foldl FsmClass.addBase c).Good := by
      intro l
      induction l with
      | nil => intro _ c hc; exact hc
      | cons b l ih =>
        intro hl c hc
        exact ih (fun x hx => hl x (by simp [hx])) _ (FsmClass.addBase_good hc (hl b (by simp)))
    exact key bases hb _ ⟨by simp, by simp, by simp [Dict.WF, Dict.keys]⟩
  unfold mkFsm
  generalize bases.foldl FsmClass.addBase ⟨[], none⟩ = c at h1
  induction ns generalizing c with
  | nil => exact h1
  | cons d ns ih => exact ih _ (FsmClass.addState_good h1 rfl)

/-! ### Lookup -/

theorem addNs_get? (ns : List StateDef) (c : FsmClass) (k : String) :
    Dict.get? (ns.foldl (fun c d => c.addState d.name d) c).states k =
      match ns.reverse.find? (fun d => d.name = k) with
      | some d => some d
      | none => Dict.get? c.states k := by
  induction ns generalizing c with
  | nil => rfl
  | cons d ns ih =>
    rw [List.foldl_cons, ih, List.reverse_cons, List.find?_append]
    cases h : ns.reverse.find? (fun d => d.name = k) with
    | some e => simp
    | none =>
      simp only [FsmClass.addState, Dict.get?_set, Option.none_or]
      by_cases hd : d.name = k <;> simp [hd]

theorem addBase_get? (b c : FsmClass) (hb : Dict.WF b.states) (k : String) :
    Dict.get? (c.addBase b).states k =
      match Dict.get? b.states k with
      | some d => some d
      | none => Dict.get? c.states k := by
  unfold FsmClass.addBase
  generalize hl : b.states = l at hb
  clear hl b
  induction l generalizing c with
  | nil => rfl
  | cons kd l ih =>
    obtain ⟨a, d⟩ := kd
    have hw : Dict.WF l := (List.nodup_cons.1 hb).2
    have ha : a ∉ Dict.keys l := (List.nodup_cons.1 hb).1
    rw [List.foldl_cons, ih _ hw]
    simp only [FsmClass.addState, Dict.get?, Dict.get?_set]
    by_cases h : a = k
    · subst h
      rw [(Dict.get?_none_iff _ _).2 ha]
      simp
    · simp [h]

theorem addNs_init (ns : List StateDef) (c : FsmClass) :
    (ns.foldl (fun c d => c.addState d.name d) c).init =
      match ns.reverse.find? (fun d => d.dflt) with
      | some d => some d
      | none => c.init := by
  induction ns generalizing c with
  | nil => rfl
  | cons d ns ih =>
    rw [List.foldl_cons, ih, List.reverse_cons, List.find?_append]
    cases h : ns.reverse.find? (fun d => d.dflt) with
    | some e => simp
    | none =>
      simp only [FsmClass.addState, Option.none_or]
      cases hd : d.dflt <;> simp [hd]

theorem addBase_init (b c : FsmClass) :
    (c.addBase b).init = match (b.states.map Prod.snd).reverse.find? (fun d => d.dflt) with
      | some d => some d
      | none => c.init := by
  unfold FsmClass.addBase
  generalize b.states = l
  induction l generalizing c with
  | nil => rfl
  | cons kd l ih =>
    rw [List.foldl_cons, ih, List.map_cons, List.reverse_cons, List.find?_append]
    cases h : (l.map Prod.snd).reverse.find? (fun d => d.dflt) with
    | some e => simp
    | none =>
      simp only [FsmClass.addState, Option.none_or]
      cases hd : kd.2.dflt <;> simp [hd]

theorem addBases_get? (bases : List FsmClass) (hb : ∀ b ∈ bases, Dict.WF b.states) (c : FsmClass) (k : String) :
    Dict.get? (bases.foldl FsmClass.addBase c).states k =
      match bases.reverse.findSome? (fun b => Dict.get? b.states k) with
      | some d => some d
      | none => Dict.get? c.states k := by
  induction bases generalizing c with
  | nil => rfl
  | cons b bases ih =>
    rw [List.foldl_cons, ih (fun x hx => hb x (by simp [hx])), List.reverse_cons, List.findSome?_append]
    cases h : bases.reverse.findSome? (fun b => Dict.get? b.states k) with
    | some e => simp
    | none =>
      rw [addBase_get? b c (hb b (by simp))]
      cases h2 : Dict.get? b.states k <;> simp [h2]

end Verif
