import Verif.Props.Nested

/-!
# Property C104: `unflatten_dict` loses no value
-/

namespace Verif

/-- Reading `out[k1][k2]…` (specification): `none` if a key is missing or something on the way is not a dictionary. -/
def NTree.at : NTree → List Str → Option NTree
  | t, [] => some t
  | .leaf _, _ :: _ => none
  | .node d, k :: ks => match Dict.get? d k with
    | none => none
    | some t => t.at ks

/-- The path of a key. -/
def pathOf (k : Str) : List Str := pySplit '.' k

theorem insertPath_single (out : List (Str × NTree)) (k : Str) (v : Nat) :
    insertPath out [k] v = some (Dict.set out k (.leaf v)) := by simp [insertPath]

/-- After a value has been stored it is found at its path. -/
theorem insertPath_at (p : List Str) (v : Nat) : ∀ (out out' : List (Str × NTree)), insertPath out p v = some out' →
    (NTree.node out').at p = some (.leaf v) := by
  induction p with
  | nil => intro out out' h; simp [insertPath] at h
  | cons k p ih =>
    intro out out' h
    cases p with
    | nil =>
      rw [insertPath_single] at h
      obtain rfl := Option.some.inj h
      simp [NTree.at]
    | cons k' ks =>
      have key : ∀ e, (insertPath e (k' :: ks) v).map (fun d => Dict.set out k (NTree.node d)) = some out' →
          (NTree.node out').at (k :: k' :: ks) = some (.leaf v) := by
        intro e he
        obtain ⟨d, hd, rfl⟩ := Option.map_eq_some_iff.1 he
        have := ih e d hd
        simp only [NTree.at, Dict.get?_set_self]
        simpa only [NTree.at] using this
      unfold insertPath at h
      split at h
      · exact key [] h
      · exact key _ h
      · exact absurd h (by simp)

/-- Storing a value keeps the other values, except those below its own path. -/
theorem insertPath_keeps (p : List Str) (v w : Nat) : ∀ (q : List Str) (out out' : List (Str × NTree)),
    insertPath out p v = some out' → (NTree.node out).at q = some (.leaf w) → ¬ p <+: q →
    (NTree.node out').at q = some (.leaf w) := by
  induction p with
  | nil => intro q out out' h; simp [insertPath] at h
  | cons k p ih =>
    intro q out out' h hq hpq
    cases q with
    | nil => simp [NTree.at] at hq
    | cons j q =>
      by_cases hjk : j = k
      · subst hjk
        have hpq' : ¬ p <+: q := by
          intro hc; exact hpq (by simpa using hc)
        cases p with
        | nil => exact absurd (List.nil_prefix) hpq'
        | cons k' ks =>
          unfold insertPath at h
          split at h
          · rename_i hn
            simp [NTree.at, hn] at hq
          · rename_i e he
            obtain ⟨d, hd, rfl⟩ := Option.map_eq_some_iff.1 h
            simp only [NTree.at, he] at hq
            have := ih q e d hd hq hpq'
            simpa only [NTree.at, Dict.get?_set_self] using this
          · exact absurd h (by simp)
      · have hkeep : ∀ t, (NTree.node (Dict.set out k t)).at (j :: q) = some (.leaf w) := by
          intro t
          have : Dict.get? (Dict.set out k t) j = Dict.get? out j := Dict.get?_set_ne out t (Ne.symm hjk)
          simpa only [NTree.at, this] using hq
        cases p with
        | nil =>
          rw [insertPath_single] at h
          obtain rfl := Option.some.inj h
          exact hkeep _
        | cons k' ks =>
          unfold insertPath at h
          split at h
          · obtain ⟨d, _, rfl⟩ := Option.map_eq_some_iff.1 h; exact hkeep _
          · obtain ⟨d, _, rfl⟩ := Option.map_eq_some_iff.1 h; exact hkeep _
          · exact absurd h (by simp)

/-- Nothing can be stored below a value. -/
theorem insertPath_below (p : List Str) (v w : Nat) : ∀ (q : List Str) (out : List (Str × NTree)),
    (NTree.node out).at q = some (.leaf w) → q <+: p → q ≠ p → insertPath out p v = none := by
  induction p with
  | nil => intro q out hq hp hne; exact absurd (List.prefix_nil.1 hp) hne
  | cons k p ih =>
    intro q out hq hp hne
    cases q with
    | nil => simp [NTree.at] at hq
    | cons j q =>
      obtain ⟨rfl, hp'⟩ : j = k ∧ q <+: p := by simpa [List.cons_prefix_cons] using hp
      have hne' : q ≠ p := fun hc => hne (by rw [hc])
      cases p with
      | nil => exact absurd (List.prefix_nil.1 hp') hne'
      | cons k' ks =>
        unfold insertPath
        split
        · rename_i hn; simp [NTree.at, hn] at hq
        · rename_i e he
          simp only [NTree.at, he] at hq
          simp [ih q e hq hp' hne']
        · rfl

theorem unflatten_cons_keeps (d : Dict Str Nat) (w : Nat) (q : List Str) : ∀ (out out' : List (Str × NTree)),
    d.foldlM (fun out kv => insertPath out (pySplit '.' kv.1) kv.2) out = some out' →
    (NTree.node out).at q = some (.leaf w) → (∀ kv ∈ d, ¬ pathOf kv.1 <+: q) →
    (NTree.node out').at q = some (.leaf w) := by
  induction d with
  | nil => intro out out' h hq _; simp at h; subst h; exact hq
  | cons kv d ih =>
    intro out out' h hq hd
    rw [List.foldlM_cons] at h
    obtain ⟨o1, h1, h2⟩ := Option.bind_eq_some_iff.1 h
    exact ih o1 out' h2 (insertPath_keeps _ _ _ _ _ _ h1 hq (hd kv (by simp))) (fun x hx => hd x (by simp [hx]))

/-- C104, for a value that no later key (a prefix of its own key, or the same path) replaces: it is found at its path. -/
theorem C104_kept_partial (d₁ d₂ : Dict Str Nat) (k : Str) (v : Nat) (out : List (Str × NTree))
    (h : unflattenDict (d₁ ++ (k, v) :: d₂) = some out) (hlater : ∀ kv ∈ d₂, ¬ pathOf kv.1 <+: pathOf k) :
    (NTree.node out).at (pathOf k) = some (.leaf v) := by
  unfold unflattenDict at h
  rw [List.foldlM_append] at h
  obtain ⟨o1, _, h2⟩ := Option.bind_eq_some_iff.1 h
  rw [List.foldlM_cons] at h2
  obtain ⟨o2, h3, h4⟩ := Option.bind_eq_some_iff.1 h2
  exact unflatten_cons_keeps d₂ v _ o2 out h4 (insertPath_at _ _ _ _ h3) hlater

/-- C104: a later key below a value is an error, the value is not replaced silently. -/
theorem C104_conflict (d₁ d₂ d₃ : Dict Str Nat) (k k' : Str) (v v' : Nat)
    (hmid : ∀ kv ∈ d₂, ¬ pathOf kv.1 <+: pathOf k) (hp : pathOf k <+: pathOf k') (hne : pathOf k ≠ pathOf k') :
    unflattenDict (d₁ ++ (k, v) :: d₂ ++ (k', v') :: d₃) = none := by
  cases h : unflattenDict (d₁ ++ (k, v) :: d₂ ++ (k', v') :: d₃) with
  | none => rfl
  | some out =>
    unfold unflattenDict at h
    rw [List.foldlM_append] at h
    obtain ⟨o1, h1, h2⟩ := Option.bind_eq_some_iff.1 h
    have hat := C104_kept_partial d₁ d₂ k v o1 h1 hmid
    rw [List.foldlM_cons] at h2
    obtain ⟨o2, h3, _⟩ := Option.bind_eq_some_iff.1 h2
    have h5 := insertPath_below _ v' v _ o1 hat hp hne
    exact absurd (h5.symm.trans h3) (by simp)

/-- C104 is violated when a key is followed by one of its prefixes (`{"a.b": 1, "a": 2}`): the first value disappears, without
an error. -/
theorem C104_lost_false (a b : Str) (ha : '.' ∉ a) (hb : '.' ∉ b) (v w : Nat) :
    unflattenDict [(joinDots [a, b], v), (a, w)] = some [(a, .leaf w)] ∧
    (NTree.node [(a, .leaf w)]).at (pathOf (joinDots [a, b])) = none := by
  have h1 : pySplit '.' (joinDots [a, b]) = [a, b] :=
    List.splitOn_intercalate '.' (ls := [a, b]) (by
      intro l hl; simp at hl; rcases hl with rfl | rfl <;> assumption) (by simp)
  have h2 : pySplit '.' a = [a] := by
    have := List.splitOn_intercalate '.' (ls := [a]) (by simpa using ha) (by simp)
    simpa [pySplit] using this
  constructor
  · simp [unflattenDict, h1, h2, insertPath, Dict.get?, Dict.set]
  · simp [pathOf, h1, NTree.at, Dict.get?]

/-- The paths of the two keys are different paths, one inside the other. -/
example : pathOf "a".toList <+: pathOf "a.b".toList ∧ pathOf "a".toList ≠ pathOf "a.b".toList := by decide +kernel

/-- Values next to each other are both kept. -/
example : ∃ out, unflattenDict [("a.b".toList, 1), ("a.c".toList, 2)] = some out ∧
    (NTree.node out).at (pathOf "a.b".toList) = some (.leaf 1) ∧ (NTree.node out).at (pathOf "a.c".toList) = some (.leaf 2) := by
  refine ⟨[(['a'], .node [(['b'], .leaf 1), (['c'], .leaf 2)])], rfl, rfl, rfl⟩

end Verif
