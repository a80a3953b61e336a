import Verif.Model.Nested
import Verif.Proofs.Network

/-!
# Properties C59 and C67: nested dictionaries
-/

namespace Verif

/-! ### C59 -/

/-- A key that can be flattened: not empty and without dots. -/
def GoodKey (k : Str) : Prop := k ≠ [] ∧ '.' ∉ k

mutual
/-- The dictionaries of C59 below the top: not empty, with good, distinct keys. -/
def NTree.Good : NTree → Prop
  | .leaf _ => True
  | .node d => d ≠ [] ∧ goodItems d

/-- Good, distinct keys at this level and everything below good. -/
def goodItems : List (Str × NTree) → Prop
  | [] => True
  | (k, t) :: d => GoodKey k ∧ k ∉ d.map Prod.fst ∧ t.Good ∧ goodItems d
end

mutual
/-- Paths to the leaves of a tree, with their values. -/
def leavesT : NTree → List (List Str × Nat)
  | .leaf v => [([], v)]
  | .node d => leavesItems d

def leavesItems : List (Str × NTree) → List (List Str × Nat)
  | [] => []
  | (k, t) :: d => (leavesT t).map (fun pv => (k :: pv.1, pv.2)) ++ leavesItems d
end

/-- `".".join(p)`. -/
def joinDots (p : List Str) : Str := ['.'].intercalate p

/-- The prefix for items below the path `p`. -/
def prefixOf (p : List Str) : Str := if p = [] then [] else joinDots p ++ ['.']

theorem joinDots_snoc (p : List Str) (k : Str) : joinDots (p ++ [k]) = prefixOf p ++ k := by
  unfold prefixOf joinDots
  induction p with
  | nil => simp
  | cons a p ih =>
    cases p with
    | nil => simp [List.intercalate_cons_cons]
    | cons b p =>
      simp only [List.cons_append, List.intercalate_cons_cons, reduceCtorEq, if_false] at ih ⊢
      rw [ih]; simp

theorem joinDots_ne_nil (p : List Str) (hne : p ≠ []) (h : ∀ k ∈ p, GoodKey k) : joinDots p ≠ [] := by
  cases p with
  | nil => exact absurd rfl hne
  | cons a p =>
    have ha := (h a (by simp)).1
    cases p with
    | nil => simpa [joinDots] using ha
    | cons b p => simp [joinDots, List.intercalate_cons_cons, ha]

theorem split_joinDots (p : List Str) (hne : p ≠ []) (h : ∀ k ∈ p, GoodKey k) : pySplit '.' (joinDots p) = p :=
  List.splitOn_intercalate '.' (fun l hl => (h l hl).2) hne

mutual
theorem flattenFrom_eq (t : NTree) (ht : t.Good) (p : List Str) (hne : p ≠ []) (hp : ∀ k ∈ p, GoodKey k) :
    flattenFrom (joinDots p) t = (leavesT t).map (fun pv => (joinDots (p ++ pv.1), pv.2)) := by
  cases t with
  | leaf v => simp [flattenFrom, leavesT]
  | node d =>
    simp only [flattenFrom, leavesT]
    have h1 : (joinDots p).isEmpty = false := by
      have := joinDots_ne_nil p hne hp
      cases hj : joinDots p with
      | nil => exact absurd hj this
      | cons a l => rfl
    have h2 : prefixOf p = joinDots p ++ ['.'] := by simp [prefixOf, hne]
    rw [h1]
    simp only [Bool.false_eq_true, if_false]
    rw [← h2]
    simp only [NTree.Good] at ht
    exact flattenItems_eq d ht.2 p hp

theorem flattenItems_eq (d : List (Str × NTree)) (hd : goodItems d) (p : List Str) (hp : ∀ k ∈ p, GoodKey k) :
    flattenItems (prefixOf p) d = (leavesItems d).map (fun pv => (joinDots (p ++ pv.1), pv.2)) := by
  cases d with
  | nil => simp [flattenItems, leavesItems]
  | cons kt d =>
    obtain ⟨k, t⟩ := kt
    simp only [goodItems] at hd
    obtain ⟨hk, _, ht, hd⟩ := hd
    simp only [flattenItems, leavesItems, List.map_append, List.map_map]
    rw [← joinDots_snoc, flattenFrom_eq t ht (p ++ [k]) (by simp) (by
      intro x hx
      rcases List.mem_append.1 hx with h | h
      · exact hp x h
      · simp at h; subst h; exact hk), flattenItems_eq d hd p hp]
    congr 1
    apply List.map_congr_left
    intro pv _
    simp
end

mutual
theorem leavesT_good (t : NTree) (ht : t.Good) : ∀ pv ∈ leavesT t, ∀ k ∈ pv.1, GoodKey k := by
  cases t with
  | leaf v => intro pv h; simp [leavesT] at h; subst h; simp
  | node d =>
    simp only [leavesT]
    simp only [NTree.Good] at ht
    exact fun pv h => (leavesItems_good d ht.2 pv h).2

theorem leavesItems_good (d : List (Str × NTree)) (hd : goodItems d) :
    ∀ pv ∈ leavesItems d, (∃ k ∈ d.map Prod.fst, ∃ q, pv.1 = k :: q) ∧ ∀ k ∈ pv.1, GoodKey k := by
  cases d with
  | nil => intro pv h; simp [leavesItems] at h
  | cons kt d =>
    obtain ⟨k, t⟩ := kt
    simp only [goodItems] at hd
    obtain ⟨hk, _, ht, hd⟩ := hd
    intro pv h
    simp only [leavesItems, List.mem_append, List.mem_map] at h
    rcases h with ⟨q, hq, rfl⟩ | h
    · refine ⟨⟨k, by simp, q.1, rfl⟩, ?_⟩
      intro x hx
      rcases List.mem_cons.1 hx with h | h
      · subst h; exact hk
      · exact leavesT_good t ht q hq x h
    · obtain ⟨⟨k', hk', q, e⟩, g⟩ := leavesItems_good d hd pv h
      exact ⟨⟨k', by simp at hk' ⊢; exact Or.inr hk', q, e⟩, g⟩
end

mutual
theorem leavesT_nodup (t : NTree) (ht : t.Good) : ((leavesT t).map Prod.fst).Nodup := by
  cases t with
  | leaf v => simp [leavesT]
  | node d =>
    simp only [leavesT]
    simp only [NTree.Good] at ht
    exact leavesItems_nodup d ht.2

theorem leavesItems_nodup (d : List (Str × NTree)) (hd : goodItems d) : ((leavesItems d).map Prod.fst).Nodup := by
  cases d with
  | nil => simp [leavesItems]
  | cons kt d =>
    obtain ⟨k, t⟩ := kt
    simp only [goodItems] at hd
    obtain ⟨hk, hnk, ht, hd⟩ := hd
    simp only [leavesItems, List.map_append, List.map_map]
    rw [List.nodup_append]
    refine ⟨?_, leavesItems_nodup d hd, ?_⟩
    · have h1 := leavesT_nodup t ht
      have : (leavesT t).map (Prod.fst ∘ fun pv => (k :: pv.1, pv.2)) = ((leavesT t).map Prod.fst).map (fun q => k :: q) := by
        rw [List.map_map]; rfl
      rw [this]
      exact List.Nodup.map (fun a b h => by simpa using h) h1
    · intro a ha b hb
      rintro rfl
      simp only [List.mem_map] at ha hb
      obtain ⟨q, _, rfl⟩ := ha
      obtain ⟨pv, hpv, e⟩ := hb
      obtain ⟨⟨k', hk', q', e'⟩, _⟩ := leavesItems_good d hd pv hpv
      rw [e'] at e
      simp at e
      exact hnk (e.1 ▸ hk')
end

theorem Dict.set_set {K V : Type} [DecidableEq K] (d : Dict K V) (k : K) (a b : V) :
    Dict.set (Dict.set d k a) k b = Dict.set d k b := by
  induction d with
  | nil => simp [Dict.set]
  | cons p d ih =>
    obtain ⟨k', v'⟩ := p
    simp only [Dict.set]
    by_cases h : k' = k
    · simp [h, Dict.set]
    · simp [h, Dict.set, ih]

/-- Insertion of several leaves. -/
def insertAll (out : List (Str × NTree)) (l : List (List Str × Nat)) : Option (List (Str × NTree)) :=
  l.foldlM (fun out pv => insertPath out pv.1 pv.2) out

theorem insertAll_append (out : List (Str × NTree)) (l m : List (List Str × Nat)) :
    insertAll out (l ++ m) = (insertAll out l).bind (fun o => insertAll o m) := by
  unfold insertAll; rw [List.foldlM_append]; rfl

theorem insertAll_below (k : Str) (l : List (List Str × Nat)) (hne : ∀ pv ∈ l, pv.1 ≠ []) (out e g : List (Str × NTree))
    (hget : Dict.get? out k = some (.node e)) (h : insertAll e l = some g) :
    insertAll out (l.map (fun pv => (k :: pv.1, pv.2))) = some (Dict.set out k (.node g)) := by
  induction l generalizing out e with
  | nil =>
    simp only [insertAll, List.foldlM_nil, List.map_nil] at h ⊢
    cases h
    rw [Dict.set_same hget]; rfl
  | cons pv l ih =>
    obtain ⟨p, v⟩ := pv
    have hp : p ≠ [] := hne (p, v) (by simp)
    obtain ⟨a, q, rfl⟩ := List.exists_cons_of_ne_nil hp
    simp only [insertAll, List.foldlM_cons, List.map_cons] at h ⊢
    cases hi : insertPath e (a :: q) v with
    | none => rw [hi] at h; cases h
    | some e' =>
      rw [hi] at h
      have h1 : insertPath out (k :: a :: q) v = some (Dict.set out k (.node e')) := by
        simp [insertPath, hget, hi]
      rw [h1]
      have := ih (fun pv hpv => hne pv (by simp [hpv])) (Dict.set out k (.node e')) e' (Dict.get?_set_self _ _ _) h
      rw [Dict.set_set] at this
      exact this

theorem insertAll_new (k : Str) (l : List (List Str × Nat)) (hne : ∀ pv ∈ l, pv.1 ≠ []) (out g : List (Str × NTree))
    (hl : l ≠ []) (hget : Dict.get? out k = none) (h : insertAll [] l = some g) :
    insertAll out (l.map (fun pv => (k :: pv.1, pv.2))) = some (Dict.set out k (.node g)) := by
  cases l with
  | nil => exact absurd rfl hl
  | cons pv l =>
    obtain ⟨p, v⟩ := pv
    have hp : p ≠ [] := hne (p, v) (by simp)
    obtain ⟨a, q, rfl⟩ := List.exists_cons_of_ne_nil hp
    simp only [insertAll, List.foldlM_cons, List.map_cons] at h ⊢
    cases hi : insertPath [] (a :: q) v with
    | none => rw [hi] at h; cases h
    | some e' =>
      rw [hi] at h
      have h1 : insertPath out (k :: a :: q) v = some (Dict.set out k (.node e')) := by
        simp [insertPath, hget, hi]
      rw [h1]
      have := insertAll_below k l (fun pv hpv => hne pv (by simp [hpv])) (Dict.set out k (.node e')) e' g
        (Dict.get?_set_self _ _ _) h
      rw [Dict.set_set] at this
      exact this

theorem leavesItems_ne_nil (t : NTree) (ht : t.Good) : leavesT t ≠ [] := by
  match t, ht with
  | .leaf v, _ => simp [leavesT]
  | .node ((k, t) :: d), ht =>
    simp only [NTree.Good, goodItems] at ht
    simp only [leavesT, leavesItems]
    have := leavesItems_ne_nil t ht.2.2.2.1
    intro h
    simp at h
    exact this h.1
  | .node [], ht => simp [NTree.Good] at ht

theorem insertAll_leaves (d : List (Str × NTree)) (hd : goodItems d) (out : List (Str × NTree))
    (hdis : ∀ k ∈ d.map Prod.fst, k ∉ out.map Prod.fst) : insertAll out (leavesItems d) = some (out ++ d) := by
  match d, hd, hdis with
  | [], _, _ => simp [leavesItems, insertAll]
  | (k, .leaf v) :: d, hd, hdis =>
    simp only [goodItems] at hd
    have hk : k ∉ Dict.keys out := hdis k (by simp)
    simp only [leavesItems, leavesT, List.map_cons, List.map_nil, List.singleton_append]
    have h1 : insertAll out ((([k] : List Str), v) :: leavesItems d) = insertAll (out ++ [(k, .leaf v)]) (leavesItems d) := by
      simp [insertAll, insertPath, Dict.set_of_absent hk]
    rw [h1, insertAll_leaves d hd.2.2.2]
    · simp
    · intro k' hk'
      have := hdis k' (by simp at hk' ⊢; exact Or.inr hk')
      simp only [List.map_append, List.map_cons, List.map_nil, List.mem_append, List.mem_singleton, not_or]
      refine ⟨this, ?_⟩
      rintro rfl
      exact hd.2.1 hk'
  | (k, .node g) :: d, hd, hdis =>
    simp only [goodItems] at hd
    obtain ⟨_, hnk, ht, hd'⟩ := hd
    have ht' := ht
    simp only [NTree.Good] at ht
    have hk : k ∉ Dict.keys out := hdis k (by simp)
    simp only [leavesItems, leavesT]
    have hg := insertAll_leaves g ht.2 [] (by simp)
    rw [insertAll_append, insertAll_new k (leavesItems g) (fun pv hpv => by
      obtain ⟨⟨_, _, q, e⟩, _⟩ := leavesItems_good g ht.2 pv hpv
      rw [e]; simp) out g (leavesItems_ne_nil (.node g) ht') ((Dict.get?_none_iff _ _).2 hk) (by simpa using hg),
      Dict.set_of_absent hk]
    simp only [Option.bind_some]
    rw [insertAll_leaves d hd']
    · simp
    · intro k' hk'
      have := hdis k' (by simp at hk' ⊢; exact Or.inr hk')
      simp only [List.map_append, List.map_cons, List.map_nil, List.mem_append, List.mem_singleton, not_or]
      refine ⟨this, ?_⟩
      rintro rfl
      exact hnk hk'

/-- C59: `unflatten_dict(flatten_dict(d)) == d`, even with the same order of keys. -/
theorem C59_round_trip (d : List (Str × NTree)) (hd : goodItems d) : unflattenDict (flattenDict d) = some d := by
  have h1 : flattenFrom [] (.node d) = (leavesItems d).map (fun pv => (joinDots pv.1, pv.2)) := by
    have := flattenItems_eq d hd [] (by simp)
    simpa [flattenFrom, prefixOf] using this
  have hgood := leavesItems_good d hd
  have hsplit : ∀ pv ∈ leavesItems d, pySplit '.' (joinDots pv.1) = pv.1 := by
    intro pv hpv
    obtain ⟨⟨k, _, q, e⟩, g⟩ := hgood pv hpv
    exact split_joinDots _ (by rw [e]; simp) g
  have hnd : (Dict.keys ((leavesItems d).map (fun pv => (joinDots pv.1, pv.2)))).Nodup := by
    have h2 : Dict.keys ((leavesItems d).map (fun pv => (joinDots pv.1, pv.2))) = ((leavesItems d).map Prod.fst).map joinDots := by
      simp [Dict.keys, Function.comp_def]
    rw [h2]
    refine List.Nodup.map_on ?_ (leavesItems_nodup d hd)
    intro a ha b hb hab
    obtain ⟨pa, hpa, rfl⟩ := List.mem_map.1 ha
    obtain ⟨pb, hpb, rfl⟩ := List.mem_map.1 hb
    rw [← hsplit pa hpa, ← hsplit pb hpb, hab]
  have h3 : flattenDict d = (leavesItems d).map (fun pv => (joinDots pv.1, pv.2)) := by
    unfold flattenDict
    rw [h1, Dict.update_of_disjoint (by simpa using hnd)]
    simp
  rw [h3]
  unfold unflattenDict
  have h4 : ∀ (l : List (List Str × Nat)) (out : List (Str × NTree)), (∀ pv ∈ l, pySplit '.' (joinDots pv.1) = pv.1) →
      (l.map (fun pv => (joinDots pv.1, pv.2))).foldlM (fun out kv => insertPath out (pySplit '.' kv.1) kv.2) out =
        insertAll out l := by
    intro l
    induction l with
    | nil => intro out _; rfl
    | cons pv l ih =>
      intro out h
      simp only [insertAll, List.map_cons, List.foldlM_cons]
      rw [h pv (by simp)]
      cases insertPath out pv.1 pv.2 with
      | none => rfl
      | some o => exact ih o (fun pv hpv => h pv (by simp [hpv]))
  rw [h4 _ _ hsplit, insertAll_leaves d hd [] (by simp)]
  simp

/-- The conditions of C59 are needed: empty dictionaries vanish, and keys with dots turn into nested dictionaries. -/
theorem C59_conditions_needed :
    unflattenDict (flattenDict [(['a'], .node [])]) = some [] ∧
    unflattenDict (flattenDict [(['a', '.', 'b'], .leaf 1)]) = some [(['a'], .node [(['b'], .leaf 1)])] := by
  constructor <;> rfl

/-- A dictionary with three levels. -/
def exNTree : List (Str × NTree) :=
  [("net".toList, .node [("params".toList, .node [("n".toList, .leaf 10), ("p".toList, .leaf 2)]), ("seed".toList, .leaf 7)]),
   ("name".toList, .leaf 5)]

example : flattenDict exNTree = [("net.params.n".toList, 10), ("net.params.p".toList, 2), ("net.seed".toList, 7),
    ("name".toList, 5)] := by
  decide +kernel

example : goodItems exNTree := by
  simp [exNTree, goodItems, NTree.Good, GoodKey]

/-! ### C67 -/

theorem rsplit_none (k : Str) (h : '.' ∉ k) : pyRsplit1 '.' k = (none, k) := by
  unfold pyRsplit1
  have : k.reverse.dropWhile (· ≠ '.') = [] := by
    have hall : ∀ x ∈ k.reverse, decide (x ≠ '.') = true := by
      intro x hx
      simp at hx ⊢
      rintro rfl
      exact h hx
    have := List.dropWhile_append_of_pos (l₂ := []) hall
    simpa using this
  simp only [this]

theorem rsplit_some (a k : Str) (h : '.' ∉ k) : pyRsplit1 '.' (a ++ '.' :: k) = (some a, k) := by
  unfold pyRsplit1
  have hr : (a ++ '.' :: k).reverse = k.reverse ++ '.' :: a.reverse := by simp
  have hall : ∀ x ∈ k.reverse, decide (x ≠ '.') = true := by
    intro x hx
    simp at hx ⊢
    rintro rfl
    exact h hx
  have hd : (a ++ '.' :: k).reverse.dropWhile (· ≠ '.') = '.' :: a.reverse := by
    rw [hr, List.dropWhile_append_of_pos hall]
    simp
  have ht : (a ++ '.' :: k).reverse.takeWhile (· ≠ '.') = k.reverse := by
    rw [hr, List.takeWhile_append_of_pos hall]
    simp
  simp only [hd, ht, List.reverse_reverse]

theorem readPath_append (h : PHeap) (o : Nat) (p q : List Str) (o' : Nat) (hp : readPath h o p = some (.dict o')) :
    readPath h o (p ++ q) = readPath h o' q := by
  induction p generalizing o with
  | nil => simp [readPath] at hp; subst hp; rfl
  | cons k p ih =>
    simp only [readPath, List.cons_append] at hp ⊢
    cases hg : Dict.get? (h o) k with
    | none => rw [hg] at hp; cases hp
    | some x =>
      rw [hg] at hp
      cases x with
      | leaf v => simp only at hp; split at hp <;> cases hp
      | dict o1 => exact ih o1 hp

theorem setWalk_eq (isAttr : Str → Bool) (h : PHeap) (o : Nat) (p : List Str) (hp : ∀ k ∈ p, isAttr k = false) (o' : Nat)
    (hr : readPath h o p = some (.dict o')) : setWalk isAttr h o p = some o' := by
  induction p generalizing o with
  | nil => simp [readPath] at hr; subst hr; rfl
  | cons k p ih =>
    simp only [readPath, setWalk] at hr ⊢
    rw [hp k (by simp)]
    simp only [Bool.false_eq_true, if_false]
    cases hg : Dict.get? (h o) k with
    | none => rw [hg] at hr; cases hr
    | some x =>
      rw [hg] at hr
      cases x with
      | leaf v => simp only at hr; split at hr <;> cases hr
      | dict o1 => exact ih o1 (fun k hk => hp k (by simp [hk])) hr

theorem cliSet_eq (isAttr : Str → Bool) (h : PHeap) (root : Nat) (parts : List Str) (tail : Str) (v : PVal)
    (hparts : ∀ k ∈ parts, isAttr k = false ∧ '.' ∉ k) (htail : '.' ∉ tail) (o : Nat)
    (hr : readPath h root parts = some (.dict o)) :
    cliSet isAttr h root (joinDots (parts ++ [tail])) v = some (h.set o tail v) := by
  unfold cliSet
  by_cases hne : parts = []
  · subst hne
    simp [readPath] at hr
    subst hr
    have : joinDots ([] ++ [tail]) = tail := by simp [joinDots]
    rw [this]
    simp only [rsplit_none tail htail]
  · have hj : joinDots (parts ++ [tail]) = joinDots parts ++ '.' :: tail := by
      rw [joinDots_snoc, prefixOf, if_neg hne]; simp
    rw [hj]
    simp only [rsplit_some (joinDots parts) tail htail]
    have hs : pySplit '.' (joinDots parts) = parts :=
      List.splitOn_intercalate '.' (fun l hl => (hparts l hl).2) hne
    rw [hs, setWalk_eq isAttr h root parts (fun k hk => (hparts k hk).1) o hr]
    rfl

/-- C67: if the dictionary that contains the parameter exists and is used only once in the parameters, and no part of its
path is the name of an attribute of dictionaries, then afterwards the parameter has the new value and everything else is
as before. Missing: attribute names and shared dictionaries, see the theorems below. -/
theorem C67_set_partial (isAttr : Str → Bool) (h : PHeap) (root : Nat) (parts : List Str) (tail : Str) (v : PVal)
    (hparts : ∀ k ∈ parts, isAttr k = false ∧ '.' ∉ k) (htail : '.' ∉ tail) (o : Nat)
    (hr : readPath h root parts = some (.dict o))
    (hunique : ∀ p, readPath h root p = some (.dict o) → p = parts) :
    ∃ h', cliSet isAttr h root (joinDots (parts ++ [tail])) v = some h' ∧
      readPath h' root (parts ++ [tail]) = some v ∧
      ∀ p, ¬ (parts ++ [tail]) <+: p → readPath h' root p = readPath h root p := by
  refine ⟨h.set o tail v, cliSet_eq isAttr h root parts tail v hparts htail o hr, ?_⟩
  have key : ∀ (q pre : List Str) (o1 : Nat), readPath h root pre = some (.dict o1) →
      ¬ (parts ++ [tail]) <+: (pre ++ q) → readPath (h.set o tail v) o1 q = readPath h o1 q := by
    intro q
    induction q with
    | nil => intro pre o1 _ _; rfl
    | cons k q ih =>
      intro pre o1 hpre hnp
      have hget : Dict.get? (h.set o tail v o1) k = Dict.get? (h o1) k := by
        unfold PHeap.set
        by_cases ho : o1 = o
        · subst ho
          have := hunique pre hpre
          subst this
          rw [if_pos rfl, Dict.get?_set_ne]
          rintro rfl
          exact hnp ⟨q, by simp⟩
        · rw [if_neg ho]
      simp only [readPath, hget]
      cases hg : Dict.get? (h o1) k with
      | none => rfl
      | some x =>
        cases x with
        | leaf w => rfl
        | dict o2 =>
          refine ih (pre ++ [k]) o2 ?_ (by simpa using hnp)
          rw [readPath_append h root pre [k] o1 hpre]
          simp [readPath, hg]
  constructor
  · have h1 : readPath (h.set o tail v) root parts = some (.dict o) := by
      rw [key parts [] root rfl (by
        intro hp
        have := hp.length_le
        simp at this), hr]
    rw [readPath_append _ root parts [tail] o h1]
    simp only [readPath, PHeap.set, if_true, Dict.get?_set_self]
    cases v <;> simp
  · intro p hp
    exact key p [] root rfl (by simpa using hp)

/-- C67 is violated for shared dictionaries (YAML anchors, Python objects used twice): the parameter changes in all of the
places. -/
theorem C67_shared_false (isAttr : Str → Bool) (h : PHeap) (root o : Nat) (a b x : Str) (v : PVal)
    (ha : isAttr a = false ∧ '.' ∉ a) (hx : '.' ∉ x) (hne : o ≠ root)
    (hra : Dict.get? (h root) a = some (.dict o)) (hrb : Dict.get? (h root) b = some (.dict o)) :
    ∃ h', cliSet isAttr h root (joinDots [a, x]) v = some h' ∧
      readPath h' root [a, x] = some v ∧ readPath h' root [b, x] = some v := by
  refine ⟨h.set o x v, cliSet_eq isAttr h root [a] x v (by simpa using ha) hx o (by simp [readPath, hra]), ?_⟩
  have hr : h.set o x v root = h root := by simp [PHeap.set, Ne.symm hne]
  have ho : Dict.get? (h.set o x v o) x = some v := by simp [PHeap.set]
  constructor
  · simp only [readPath, hr, hra, ho]; cases v <;> simp
  · simp only [readPath, hr, hrb, ho]; cases v <;> simp

/-- C67 is violated for parameters below a key such as `items` or `values`: it cannot be set. -/
theorem C67_attribute_false (isAttr : Str → Bool) (h : PHeap) (root : Nat) (a x : Str) (v : PVal)
    (ha : isAttr a = true) (hda : '.' ∉ a) (hx : '.' ∉ x) : cliSet isAttr h root (joinDots [a, x]) v = none := by
  have hj : joinDots [a, x] = a ++ '.' :: x := by simp [joinDots, List.intercalate_cons_cons]
  have hs : pySplit '.' a = [a] := by
    have := List.splitOn_intercalate '.' (ls := [a]) (by simpa using hda) (by simp)
    simpa [pySplit] using this
  simp [cliSet, hj, rsplit_some a x hx, hs, setWalk, ha]

/-- The option itself is split at its first `=`. -/
theorem C67_split (k v : Str) (hk : '=' ∉ k) : splitEq (k ++ '=' :: v) = some (k, v) := by
  have hall : ∀ x ∈ k, decide (x ≠ '=') = true := by
    intro x hx
    simp
    rintro rfl
    exact hk hx
  unfold splitEq
  have hd : (k ++ '=' :: v).dropWhile (· ≠ '=') = '=' :: v := by
    rw [List.dropWhile_append_of_pos hall]; simp
  have ht : (k ++ '=' :: v).takeWhile (· ≠ '=') = k := by
    rw [List.takeWhile_append_of_pos hall]; simp
  simp only [hd, ht]

/-- Parameters `{"a": {"b": 1, "c": 2}, "d": 3}`. -/
def exParams : PHeap
  | 0 => [(['a'], .dict 1), (['d'], .leaf 3)]
  | 1 => [(['b'], .leaf 1), (['c'], .leaf 2)]
  | _ => []

example : ((cliSetAll (fun k => k == "items".toList) (fun _ => some (.leaf 9)) 0 ["a.b=9".toList] exParams).1 1 =
      [(['b'], .leaf 9), (['c'], .leaf 2)]) ∧
    ((cliSetAll (fun k => k == "items".toList) (fun _ => some (.leaf 9)) 0 ["a.b=9".toList] exParams).1 0 = exParams 0) := by
  decide +kernel

/-- C67 for several options: parameters at the top level have the value of the last option for them, and all others are as
before. -/
theorem C67_all_options (isAttr : Str → Bool) (ev : Str → Option PVal) (root : Nat) (opts : List (Str × Str × PVal))
    (hk : ∀ o ∈ opts, '.' ∉ o.1 ∧ '=' ∉ o.1 ∧ ev o.2.1 = some o.2.2) (h : PHeap) :
    let r := cliSetAll isAttr ev root (opts.map (fun o => o.1 ++ '=' :: o.2.1)) h
    r.2 = true ∧ (∀ o, o ≠ root → r.1 o = h o) ∧
    (∀ pre k e v post, opts = pre ++ (k, e, v) :: post → (∀ o ∈ post, o.1 ≠ k) → Dict.get? (r.1 root) k = some v) ∧
    ∀ k, (∀ o ∈ opts, o.1 ≠ k) → Dict.get? (r.1 root) k = Dict.get? (h root) k := by
  induction opts generalizing h with
  | nil =>
    refine ⟨rfl, fun _ _ => rfl, ?_, fun _ _ => rfl⟩
    intro pre k e v post hp
    simp at hp
  | cons o opts ih =>
    obtain ⟨k0, e0, v0⟩ := o
    obtain ⟨hd, he, hv⟩ := hk (k0, e0, v0) (by simp)
    simp only at hd he hv
    have hset : cliSet isAttr h root k0 v0 = some (h.set root k0 v0) := by
      unfold cliSet
      simp only [rsplit_none k0 hd]
    obtain ⟨i1, i2, i3, i4⟩ := ih (fun o ho => hk o (by simp [ho])) (h.set root k0 v0)
    have hstep : cliSetAll isAttr ev root (((k0, e0, v0) :: opts).map (fun o => o.1 ++ '=' :: o.2.1)) h =
        cliSetAll isAttr ev root (opts.map (fun o => o.1 ++ '=' :: o.2.1)) (h.set root k0 v0) := by
      simp only [List.map_cons, cliSetAll, C67_split k0 e0 he, hv, hset]
    intro r
    simp only [r]
    rw [hstep]
    refine ⟨i1, ?_, ?_, ?_⟩
    · intro o ho
      rw [i2 o ho]
      simp [PHeap.set, ho]
    · intro pre k e v post hp hpost
      cases pre with
      | nil =>
        simp only [List.nil_append, List.cons.injEq, Prod.mk.injEq] at hp
        obtain ⟨⟨rfl, rfl, rfl⟩, rfl⟩ := hp
        rw [i4 k0 hpost]
        simp [PHeap.set]
      | cons x pre =>
        simp only [List.cons_append, List.cons.injEq] at hp
        exact i3 pre k e v post hp.2 hpost
    · intro k hnk
      rw [i4 k (fun o ho => hnk o (by simp [ho]))]
      have : k0 ≠ k := hnk (k0, e0, v0) (by simp)
      simp [PHeap.set, Dict.get?_set_ne _ _ this]

end Verif
