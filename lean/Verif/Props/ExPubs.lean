import Verif.Model.ExPubs
import Mathlib.Data.List.Basic

/-!
# The pub crawl

C120 (capacity), C121 (occupancy), C122 (friends), C123 (the life of a patron), C124 (going home).
-/

namespace Verif

/-- The patrons in a pub. -/
def City.inside (c : City) (p : Nat) : Nat := c.patrons.countP (fun q => decide (q.pub = some p))

/-! ### Counting -/

theorem countP_modify_le {α : Type} (P : α → Bool) (f : α → α) (l : List α) (i : Nat) :
    (l.modify i f).countP P ≤ l.countP P + 1 := by
  induction l generalizing i with
  | nil => cases i <;> simp [List.modify]
  | cons a l ih =>
    cases i with
    | zero =>
      rw [List.modify_zero_cons, List.countP_cons, List.countP_cons]
      split <;> split <;> omega
    | succ i =>
      rw [List.modify_succ_cons, List.countP_cons, List.countP_cons]
      have := ih i
      omega

theorem countP_modify_le_of {α : Type} (P : α → Bool) (f : α → α) (hf : ∀ a, P (f a) = true → P a = true)
    (l : List α) (i : Nat) : (l.modify i f).countP P ≤ l.countP P := by
  induction l generalizing i with
  | nil => cases i <;> simp [List.modify]
  | cons a l ih =>
    cases i with
    | zero =>
      rw [List.modify_zero_cons, List.countP_cons, List.countP_cons]
      have := hf a
      split <;> split <;> simp_all
    | succ i =>
      rw [List.modify_succ_cons, List.countP_cons, List.countP_cons]
      have := ih i
      omega

theorem countP_modify_eq {α : Type} (P : α → Bool) (f : α → α) (hf : ∀ a, P (f a) = P a)
    (l : List α) (i : Nat) : (l.modify i f).countP P = l.countP P := by
  induction l generalizing i with
  | nil => cases i <;> simp [List.modify]
  | cons a l ih =>
    cases i with
    | zero => rw [List.modify_zero_cons, List.countP_cons, List.countP_cons, hf]
    | succ i => rw [List.modify_succ_cons, List.countP_cons, List.countP_cons, ih]

theorem countP_modify_new {α : Type} (P : α → Bool) (f : α → α) {l : List α} {i : Nat} {a : α}
    (h : l[i]? = some a) (h1 : P a = false) (h2 : P (f a) = true) :
    (l.modify i f).countP P = l.countP P + 1 := by
  induction l generalizing i with
  | nil => simp at h
  | cons b l ih =>
    cases i with
    | zero =>
      simp only [List.getElem?_cons_zero, Option.some.injEq] at h
      subst h
      rw [List.modify_zero_cons, List.countP_cons, List.countP_cons, h1, h2]
      simp
    | succ i =>
      simp only [List.getElem?_cons_succ] at h
      rw [List.modify_succ_cons, List.countP_cons, List.countP_cons, ih h]
      omega

/-! ### What the steps do -/

/-- What entering does to the number of patrons inside. -/
theorem moveAll_inside (pub p : Nat) (nodes : List Nat) (ps : List Patron) :
    (nodes.foldl (fun ps i => ps.modify i (fun q => { q with pub := some pub })) ps).countP
        (fun q => decide (q.pub = some p)) ≤
      ps.countP (fun q => decide (q.pub = some p)) + if p = pub then nodes.length else 0 := by
  induction nodes generalizing ps with
  | nil => simp
  | cons i nodes ih =>
    rw [List.foldl_cons]
    refine le_trans (ih _) ?_
    by_cases hp : p = pub
    · simp only [hp, if_true, List.length_cons]
      have := countP_modify_le (fun q : Patron => decide (q.pub = some pub))
        (fun q => { q with pub := some pub }) ps i
      omega
    · simp only [hp, if_false, Nat.add_zero]
      refine countP_modify_le_of _ _ ?_ ps i
      intro q h
      simp only [decide_eq_true_eq, Option.some.injEq] at h
      exact absurd h.symm hp

/-- A step that changes neither the pubs nor who is in which. -/
structure City.SamePubs (c c' : City) : Prop where
  pubs : c'.pubs = c.pubs
  inside : ∀ p, c'.inside p = c.inside p

theorem City.SamePubs.refl (c : City) : City.SamePubs c c := ⟨rfl, fun _ => rfl⟩

theorem City.SamePubs.trans {a b c : City} (h1 : City.SamePubs a b) (h2 : City.SamePubs b c) :
    City.SamePubs a c := ⟨h2.pubs.trans h1.pubs, fun p => (h2.inside p).trans (h1.inside p)⟩

theorem City.samePubs_modify (c : City) (i : Nat) (f : Patron → Patron) (hf : ∀ q, (f q).pub = q.pub) :
    City.SamePubs c { c with patrons := c.patrons.modify i f } :=
  ⟨rfl, fun p => countP_modify_eq _ _ (fun q => by rw [hf]) _ _⟩

theorem City.samePubs_edges (c : City) (e : List (Nat × Nat)) : City.SamePubs c { c with edges := e } :=
  ⟨rfl, fun _ => rfl⟩

theorem City.befriend_cases (c : City) (i j : Nat) (force : Bool) (r : Rat) :
    c.befriend i j force r = (c, false) ∨
      (c.befriend i j force r = (c.addEdge i i, true) ∧ ∃ p, c.patrons[i]? = some p ∧ (force = true ∨ r < p.openness)) := by
  unfold City.befriend
  cases h : c.patrons[i]? with
  | none => exact Or.inl rfl
  | some p =>
    simp only
    split
    · rename_i hb
      exact Or.inr ⟨rfl, p, rfl, by simpa using hb⟩
    · exact Or.inl rfl

/-- Looking for friends only adds edges from a patron to itself. -/
theorem City.tryLoop_spec (i : Nat) (draw : Nat → Rat) (js : List Nat) (c : City) :
    (City.tryLoop i draw js c).1.pubs = c.pubs ∧ (City.tryLoop i draw js c).1.patrons = c.patrons ∧
      (∀ e ∈ c.edges, e ∈ (City.tryLoop i draw js c).1.edges) ∧
      (∀ e ∈ (City.tryLoop i draw js c).1.edges, e ∈ c.edges ∨ e.1 = e.2) ∧
      ((City.tryLoop i draw js c).2 = true → ∃ j ∈ js, j ≠ i ∧ ∃ q, c.patrons[j]? = some q ∧
        draw j < q.openness ∧ (j, j) ∈ (City.tryLoop i draw js c).1.edges ∧
        (i < c.patrons.length → (i, i) ∈ (City.tryLoop i draw js c).1.edges)) := by
  induction js generalizing c with
  | nil => exact ⟨rfl, rfl, fun _ h => h, fun _ h => Or.inl h, by simp [City.tryLoop]⟩
  | cons j js ih =>
    unfold City.tryLoop
    by_cases hj : j = i
    · rw [if_pos hj]
      obtain ⟨h1, h2, h3, h4, h5⟩ := ih c
      exact ⟨h1, h2, h3, h4, fun h => by
        obtain ⟨k, hk, h⟩ := h5 h
        exact ⟨k, by simp [hk], h⟩⟩
    · rw [if_neg hj]
      rcases c.befriend_cases j i false (draw j) with hb | ⟨hb, q, hq, ho⟩
      · simp only [hb]
        obtain ⟨h1, h2, h3, h4, h5⟩ := ih c
        exact ⟨h1, h2, h3, h4, fun h => by
          obtain ⟨k, hk, h⟩ := h5 h
          exact ⟨k, by simp [hk], h⟩⟩
      · simp only [hb, if_true]
        have ho : draw j < q.openness := by simpa using ho
        have hb2 : ∃ c2, ((c.addEdge j j).befriend i j true 0).1 = c2 ∧ c2.pubs = c.pubs ∧
            c2.patrons = c.patrons ∧ (∀ e ∈ c.edges, e ∈ c2.edges) ∧ (j, j) ∈ c2.edges ∧
            (∀ e ∈ c2.edges, e ∈ c.edges ∨ e.1 = e.2) ∧ (i < c.patrons.length → (i, i) ∈ c2.edges) := by
          refine ⟨_, rfl, ?_⟩
          unfold City.befriend
          cases hi : (c.addEdge j j).patrons[i]? with
          | none =>
            simp only
            refine ⟨rfl, rfl, fun e he => by simp [City.addEdge, he], by simp [City.addEdge], ?_, ?_⟩
            · intro e he
              simp only [City.addEdge, List.mem_append, List.mem_singleton] at he
              rcases he with he | rfl
              · exact Or.inl he
              · exact Or.inr rfl
            · intro hl
              have : c.patrons[i]? = none := hi
              rw [List.getElem?_eq_none_iff] at this
              omega
          | some p =>
            simp only [Bool.true_or, if_true]
            refine ⟨rfl, rfl, fun e he => by simp [City.addEdge, he], by simp [City.addEdge], ?_,
              fun _ => by simp [City.addEdge]⟩
            intro e he
            simp only [City.addEdge, List.mem_append, List.mem_singleton] at he
            rcases he with (he | rfl) | rfl
            · exact Or.inl he
            · exact Or.inr rfl
            · exact Or.inr rfl
        obtain ⟨c2, hc2, p1, p2, p3, p4, p5, p6⟩ := hb2
        simp only [hc2]
        obtain ⟨h1, h2, h3, h4, h5⟩ := ih c2
        refine ⟨h1.trans p1, h2.trans p2, fun e he => h3 e (p3 e he), ?_, fun _ => ?_⟩
        · intro e he
          rcases h4 e he with he | he
          · exact p5 e he
          · exact Or.inr he
        · exact ⟨j, by simp, hj, q, hq, ho, h3 _ p4, fun hl => h3 _ (p6 hl)⟩

/-- Entering the first pub that lets the group in. -/
theorem City.tryPubs_cases (i : Nat) (group ps : List Nat) (c : City) :
    City.tryPubs i group ps c = c ∨
      ∃ p ∈ ps, ∃ c', c.enter p (i :: group) = some (true, c') ∧ City.tryPubs i group ps c = c'.goto i .sober := by
  induction ps with
  | nil => exact Or.inl rfl
  | cons p ps ih =>
    unfold City.tryPubs
    split
    · rename_i c' he
      exact Or.inr ⟨p, by simp, c', he, rfl⟩
    · rcases ih with h | ⟨p', hp, c', h1, h2⟩
      · exact Or.inl h
      · exact Or.inr ⟨p', by simp [hp], c', h1, h2⟩

theorem City.enter_true {c c' : City} {pub : Nat} {nodes : List Nat} (h : c.enter pub nodes = some (true, c')) :
    ∃ p, c.pubs[pub]? = some p ∧ p.isOpen = true ∧ nodes.length + p.occupancy ≤ p.capacity ∧
      c' = { c with
        pubs := c.pubs.modify pub (fun p => { p with occupancy := p.occupancy + nodes.length })
        patrons := nodes.foldl (fun ps i => ps.modify i (fun q => { q with pub := some pub })) c.patrons } := by
  unfold City.enter at h
  cases hp : c.pubs[pub]? with
  | none => rw [hp] at h; cases h
  | some p =>
    rw [hp] at h
    simp only at h
    split at h
    · cases h
    · rename_i hc
      simp only [Option.some.injEq, Prod.mk.injEq, true_and] at h
      simp only [Bool.or_eq_true, Bool.not_eq_true', decide_eq_true_eq, not_or, not_lt] at hc
      exact ⟨p, rfl, by simpa using hc.1, hc.2, h.symm⟩

/-! ### C120 -/

/-- Every pub is within its capacity and has counted at least those who are inside. -/
def City.PubsOk (c : City) : Prop :=
  ∀ p pub, c.pubs[p]? = some pub → pub.occupancy ≤ pub.capacity ∧ c.inside p ≤ pub.occupancy

theorem City.PubsOk.same {c c' : City} (h : c.PubsOk) (hs : City.SamePubs c c') : c'.PubsOk := by
  intro p pub hp
  rw [hs.pubs] at hp
  rw [hs.inside]
  exact h p pub hp

theorem City.PubsOk.enter {c c' : City} (h : c.PubsOk) {pub : Nat} {nodes : List Nat}
    (he : c.enter pub nodes = some (true, c')) : c'.PubsOk := by
  obtain ⟨q, hq, _, hcap, rfl⟩ := City.enter_true he
  intro p x hx
  have hm := moveAll_inside pub p nodes c.patrons
  simp only [List.getElem?_modify] at hx
  by_cases hp : pub = p
  · subst hp
    rw [hq] at hx
    simp only [if_true, Option.map_eq_map, Option.map_some, Option.some.injEq] at hx
    subst hx
    have := h pub q hq
    rw [if_pos rfl] at hm
    refine ⟨by simp only; omega, ?_⟩
    simp only [City.inside] at this ⊢
    omega
  · have := h p x (by simpa [hp] using hx)
    rw [if_neg (fun h => hp h.symm)] at hm
    simp only [City.inside] at this ⊢
    omega

theorem City.goto_same (c : City) (i : Nat) (s : PState) : City.SamePubs c (c.goto i s) :=
  c.samePubs_modify i _ (fun _ => rfl)

theorem City.PubsOk.ev {c : City} (h : c.PubsOk) (e : PubEv) : (c.ev e).PubsOk := by
  cases e with
  | police =>
    refine h.same ⟨rfl, fun p => ?_⟩
    simp only [City.inside, City.ev, City.police, List.countP_map]
    congr 1
    funext q
    simp only [Function.comp]
    split <;> rfl
  | patron i sh d =>
    simp only [City.ev, City.patronStep]
    cases hp : c.patrons[i]? with
    | none => exact h
    | some p =>
      simp only
      cases hs : p.state with
      | friends =>
        simp only
        split
        · exact h.same (c.goto_same i _)
        · obtain ⟨h1, h2, _⟩ := City.tryLoop_spec i d ((sh c.lookingForFriends).take (10 * p.openness).floor.toNat) c
          have : City.SamePubs c (City.tryLoop i d ((sh c.lookingForFriends).take (10 * p.openness).floor.toNat) c).1 :=
            ⟨h1, fun p => by simp only [City.inside, h2]⟩
          split
          · exact h.same (this.trans (City.goto_same _ i _))
          · exact h.same this
      | seekPub =>
        simp only
        split
        · exact h.same (c.goto_same i _)
        · rcases City.tryPubs_cases i (c.neighbors i) c.available c with he | ⟨p, _, c', he, h2⟩
          · rw [he]; exact h
          · rw [h2]; exact (h.enter he).same (City.goto_same _ i _)
      | sober =>
        simp only
        have := c.samePubs_modify i (fun q => { q with pints := q.pints + 1 }) (fun _ => rfl)
        split
        · exact h.same (this.trans (City.goto_same _ i _))
        · exact h.same this
      | drunkInPub =>
        simp only
        have := c.samePubs_modify i (fun q => { q with drunk := true }) (fun _ => rfl)
        split
        · exact h.same (this.trans (City.goto_same _ i _))
        · exact h.same this
      | home => exact h

theorem City.PubsOk.run {c : City} (h : c.PubsOk) (es : List PubEv) : (c.run es).PubsOk := by
  induction es generalizing c with
  | nil => exact h
  | cons e es ih => exact ih (h.ev e)

theorem City.init_inside (caps : List Nat) (ps : List (Rat × Nat)) (edges : List (Nat × Nat)) (p : Nat) :
    (City.init caps ps edges).inside p = 0 := by
  simp only [City.inside, City.init, List.countP_map]
  rw [List.countP_eq_zero]
  intro x _
  simp [Patron.new]

theorem City.init_ok (caps : List Nat) (ps : List (Rat × Nat)) (edges : List (Nat × Nat)) :
    (City.init caps ps edges).PubsOk := by
  intro p pub hp
  rw [City.init_inside]
  simp only [City.init, List.getElem?_map, Option.map_eq_some_iff] at hp
  obtain ⟨c, _, rfl⟩ := hp
  exact ⟨Nat.zero_le _, Nat.le_refl _⟩

/-- C120: whatever the network, the schedule and the random numbers, no pub ever counts more patrons than its
capacity, and there are never more inside than that. -/
theorem C120_capacity (caps : List Nat) (ps : List (Rat × Nat)) (edges : List (Nat × Nat)) (h : List PubEv)
    (p : Nat) (pub : Pub) (hp : ((City.init caps ps edges).run h).pubs[p]? = some pub) :
    pub.occupancy ≤ pub.capacity ∧ ((City.init caps ps edges).run h).inside p ≤ pub.capacity := by
  obtain ⟨h1, h2⟩ := (City.init_ok caps ps edges).run h p pub hp
  exact ⟨h1, le_trans h2 h1⟩

/-! ### C121, C122 -/

/-- What is invariant when the network has no edges in the beginning (as in the example). -/
structure City.Loops (c : City) : Prop where
  loops : ∀ e ∈ c.edges, e.1 = e.2
  life : ∀ (i : Nat) q, c.patrons[i]? = some q →
    (q.state = .friends → q.pub = none) ∧ (q.state = .seekPub → q.pub = none ∧ (i, i) ∈ c.edges) ∧
    (q.state = .sober ∨ q.state = .drunkInPub ∨ q.state = .home → q.pub.isSome)
  occ : ∀ p pub, c.pubs[p]? = some pub → pub.occupancy = 2 * c.inside p

theorem getElem?_modify' {α : Type} (f : α → α) (l : List α) (i j : Nat) :
    (l.modify i f)[j]? = if i = j then l[j]?.map f else l[j]? := by
  rw [List.getElem?_modify]
  by_cases h : i = j
  · simp only [h, if_true]; rfl
  · simp only [h, if_false]; cases l[j]? <;> rfl

theorem City.Loops.neighbors {c : City} (h : c.Loops) {i : Nat} (hi : i < c.patrons.length)
    (he : (i, i) ∈ c.edges) : c.neighbors i = [i] := by
  unfold City.neighbors
  have : (List.range c.patrons.length).filter (fun j => decide ((i, j) ∈ c.edges ∨ (j, i) ∈ c.edges)) =
      (List.range c.patrons.length).filter (fun j => j == i) := by
    refine List.filter_congr ?_
    intro j _
    by_cases hj : i = j
    · subst hj; simp [he]
    · have h1 : (i, j) ∉ c.edges := fun hm => hj (h.loops _ hm)
      have h2 : (j, i) ∉ c.edges := fun hm => hj (h.loops _ hm).symm
      simp [Ne.symm hj, h1, h2]
  rw [this, List.filter_beq, List.Nodup.count List.nodup_range, if_pos (List.mem_range.2 hi)]
  rfl

theorem City.Loops.neighbors_sub {c : City} (h : c.Loops) {i j : Nat} (hj : j ∈ c.neighbors i) : j = i := by
  unfold City.neighbors at hj
  rw [List.mem_filter] at hj
  rcases of_decide_eq_true hj.2 with he | he
  · exact (h.loops _ he).symm
  · exact h.loops _ he

/-- A change of one patron that does not concern the pub. -/
theorem City.Loops.modify {c : City} (h : c.Loops) (i : Nat) (f : Patron → Patron) (hf : ∀ q, (f q).pub = q.pub)
    (hl : ∀ q, c.patrons[i]? = some q →
      ((f q).state = .friends → q.pub = none) ∧ ((f q).state = .seekPub → q.pub = none ∧ (i, i) ∈ c.edges) ∧
      ((f q).state = .sober ∨ (f q).state = .drunkInPub ∨ (f q).state = .home → q.pub.isSome)) :
    City.Loops { c with patrons := c.patrons.modify i f } := by
  refine ⟨h.loops, ?_, ?_⟩
  · intro j q hq
    rw [getElem?_modify'] at hq
    split at hq
    · rename_i hij
      subst hij
      obtain ⟨q', hq', rfl⟩ := Option.map_eq_some_iff.1 hq
      rw [hf]
      exact hl q' hq'
    · exact h.life j q hq
  · intro p pub hp
    rw [h.occ p pub hp, (c.samePubs_modify i f hf).inside]

theorem City.Loops.goto {c : City} (h : c.Loops) (i : Nat) (s : PState)
    (hl : ∀ q, c.patrons[i]? = some q →
      (s = .friends → q.pub = none) ∧ (s = .seekPub → q.pub = none ∧ (i, i) ∈ c.edges) ∧
      (s = .sober ∨ s = .drunkInPub ∨ s = .home → q.pub.isSome)) : (c.goto i s).Loops :=
  h.modify i _ (fun _ => rfl) hl

theorem City.Loops.patron {c : City} (h : c.Loops) (i : Nat) (sh : List Nat → List Nat) (d : Nat → Rat) :
    (c.patronStep i sh d).Loops := by
  unfold City.patronStep
  cases hp : c.patrons[i]? with
  | none => exact h
  | some p =>
    have hlen : i < c.patrons.length := (List.getElem?_eq_some_iff.1 hp).1
    obtain ⟨l1, l2, l3⟩ := h.life i p hp
    simp only
    cases hs : p.state with
    | friends =>
      have hpub := l1 hs
      have hmem : i ∈ c.lookingForFriends := by
        unfold City.lookingForFriends
        rw [List.mem_filter]
        exact ⟨List.mem_range.2 hlen, by simp [hp, hs, hpub]⟩
      have hne : c.lookingForFriends.isEmpty = false := by
        cases hl : c.lookingForFriends with
        | nil => rw [hl] at hmem; simp at hmem
        | cons => rfl
      simp only [hne]
      obtain ⟨h1, h2, h3, h4, h5⟩ :=
        City.tryLoop_spec i d ((sh c.lookingForFriends).take (10 * p.openness).floor.toNat) c
      generalize City.tryLoop i d ((sh c.lookingForFriends).take (10 * p.openness).floor.toNat) c = r at *
      have hr : r.1.Loops := by
        refine ⟨?_, ?_, ?_⟩
        · intro e he
          rcases h4 e he with he | he
          · exact h.loops e he
          · exact he
        · intro j q hq
          rw [h2] at hq
          obtain ⟨m1, m2, m3⟩ := h.life j q hq
          exact ⟨m1, fun hs => ⟨(m2 hs).1, h3 _ (m2 hs).2⟩, m3⟩
        · intro q pub hq
          rw [h1] at hq
          simp only [City.inside, h2]
          exact h.occ q pub hq
      split
      · simp at *
      · split
        · rename_i hb
          refine hr.goto i _ ?_
          intro q hq
          rw [h2, hp] at hq
          cases hq
          obtain ⟨j, _, _, q', _, _, _, hii⟩ := h5 hb
          refine ⟨fun h => (by cases h), fun _ => ⟨hpub, hii hlen⟩, fun h => ?_⟩
          rcases h with h | h | h <;> cases h
        · exact hr
    | seekPub =>
      obtain ⟨hpub, hloop⟩ := l2 hs
      simp only
      rw [if_neg (by simp [hpub]), h.neighbors hlen hloop]
      rcases City.tryPubs_cases i [i] c.available c with he | ⟨p', _, c', he, h2⟩
      · rw [he]; exact h
      · rw [h2]
        obtain ⟨x, hx, _, _, rfl⟩ := City.enter_true he
        have hmod : [i, i].foldl (fun ps i => ps.modify i (fun q => { q with pub := some p' })) c.patrons =
            c.patrons.modify i (fun q => { q with pub := some p' }) := by
          simp only [List.foldl_cons, List.foldl_nil]
          refine List.ext_getElem? ?_
          intro j
          rw [getElem?_modify', getElem?_modify']
          by_cases hij : i = j
          · simp only [hij, if_true]
            cases c.patrons[j]? <;> rfl
          · simp only [hij, if_false]
        rw [hmod]
        refine ⟨h.loops, ?_, ?_⟩
        · intro j q hq
          simp only [City.goto] at hq
          rw [getElem?_modify', getElem?_modify'] at hq
          by_cases hij : i = j
          · subst hij
            simp only [if_true, hp, Option.map_some, Option.some.injEq] at hq
            subst hq
            exact ⟨fun h => (by cases h), fun h => (by cases h), fun _ => rfl⟩
          · simp only [hij, if_false] at hq
            exact h.life j q hq
        · intro k pub hk
          have hin : ∀ k, (City.goto { c with
                pubs := c.pubs.modify p' (fun p => { p with occupancy := p.occupancy + [i, i].length })
                patrons := c.patrons.modify i (fun q => { q with pub := some p' }) } i .sober).inside k =
              c.inside k + if k = p' then 1 else 0 := by
            intro k
            rw [(City.goto_same _ i .sober).inside]
            simp only [City.inside]
            by_cases hk : k = p'
            · rw [if_pos hk]
              exact countP_modify_new _ _ hp (by simp [hpub]) (by simp [hk])
            · rw [if_neg hk]
              -- `i` was nowhere and now is somewhere else
              have : ∀ (l : List Patron) (i : Nat) q, l[i]? = some q → q.pub = none →
                  (l.modify i (fun q => { q with pub := some p' })).countP (fun q => decide (q.pub = some k)) =
                    l.countP (fun q => decide (q.pub = some k)) := by
                intro l
                induction l with
                | nil => intro i q hq; simp at hq
                | cons a l ih =>
                  intro i q hq hn
                  cases i with
                  | zero =>
                    simp only [List.getElem?_cons_zero, Option.some.injEq] at hq
                    subst hq
                    rw [List.modify_zero_cons, List.countP_cons, List.countP_cons]
                    simp [hn, Ne.symm hk]
                  | succ i =>
                    rw [List.modify_succ_cons, List.countP_cons, List.countP_cons, ih i q hq hn]
              exact this _ _ _ hp hpub
          rw [hin]
          simp only [City.goto] at hk
          rw [getElem?_modify'] at hk
          by_cases hkp : p' = k
          · subst hkp
            simp only [if_true, hx, Option.map_some, Option.some.injEq] at hk
            subst hk
            have := h.occ p' x hx
            simp only [List.length_cons, List.length_nil, if_true]
            omega
          · simp only [hkp, if_false] at hk
            rw [if_neg (Ne.symm hkp), h.occ k pub hk]
            omega
    | sober =>
      have hpub := l3 (Or.inl hs)
      simp only
      have h1 : City.Loops { c with patrons := c.patrons.modify i (fun q => { q with pints := q.pints + 1 }) } :=
        h.modify i _ (fun _ => rfl) (fun q hq => h.life i q hq)
      split
      · refine h1.goto i _ ?_
        intro q hq
        rw [getElem?_modify', if_pos rfl, hp] at hq
        cases hq
        exact ⟨fun h => (by cases h), fun h => (by cases h), fun _ => hpub⟩
      · exact h1
    | drunkInPub =>
      have hpub := l3 (Or.inr (Or.inl hs))
      simp only
      have h1 : City.Loops { c with patrons := c.patrons.modify i (fun q => { q with drunk := true }) } :=
        h.modify i _ (fun _ => rfl) (fun q hq => h.life i q hq)
      split
      · refine h1.goto i _ ?_
        intro q hq
        rw [getElem?_modify', if_pos rfl, hp] at hq
        cases hq
        exact ⟨fun h => (by cases h), fun h => (by cases h), fun _ => hpub⟩
      · exact h1
    | home => exact h

theorem City.Loops.ev {c : City} (h : c.Loops) (e : PubEv) : (c.ev e).Loops := by
  cases e with
  | patron i sh d => exact h.patron i sh d
  | police =>
    refine ⟨h.loops, ?_, ?_⟩
    · intro i q hq
      simp only [City.ev, City.police, List.getElem?_map, Option.map_eq_some_iff] at hq
      obtain ⟨q', hq', rfl⟩ := hq
      have := h.life i q' hq'
      split <;> exact this
    · intro p pub hp
      rw [h.occ p pub hp]
      congr 1
      simp only [City.inside, City.ev, City.police, List.countP_map]
      congr 1
      funext q
      simp only [Function.comp]
      split <;> rfl

theorem City.Loops.run {c : City} (h : c.Loops) (es : List PubEv) : (c.run es).Loops := by
  induction es generalizing c with
  | nil => exact h
  | cons e es ih => exact ih (h.ev e)

theorem City.init_loops (caps : List Nat) (ps : List (Rat × Nat)) : (City.init caps ps []).Loops := by
  refine ⟨by simp [City.init], ?_, ?_⟩
  · intro i q hq
    simp only [City.init, List.getElem?_map, Option.map_eq_some_iff] at hq
    obtain ⟨x, _, rfl⟩ := hq
    refine ⟨fun _ => rfl, fun h => (by cases h), fun h => ?_⟩
    rcases h with h | h | h <;> cases h
  · intro p pub hp
    rw [City.init_inside]
    simp only [City.init, List.getElem?_map, Option.map_eq_some_iff] at hp
    obtain ⟨c, _, rfl⟩ := hp
    rfl

/-- C121 is violated: in the example (a network without edges in the beginning), whatever the schedule and the
random numbers, every patron inside a pub is counted twice: the occupancy is not the number of patrons inside
unless the pub is empty. -/
theorem C121_occupancy_false (caps : List Nat) (ps : List (Rat × Nat)) (h : List PubEv)
    (p : Nat) (pub : Pub) (hp : ((City.init caps ps []).run h).pubs[p]? = some pub) :
    pub.occupancy = 2 * ((City.init caps ps []).run h).inside p ∧
      (pub.occupancy = ((City.init caps ps []).run h).inside p → ((City.init caps ps []).run h).inside p = 0) := by
  have := ((City.init_loops caps ps).run h).occ p pub hp
  exact ⟨this, fun h => by omega⟩

/-- C121 (partial): for any network, nobody is inside without being counted. -/
theorem C121_counted_partial (caps : List Nat) (ps : List (Rat × Nat)) (edges : List (Nat × Nat)) (h : List PubEv)
    (p : Nat) (pub : Pub) (hp : ((City.init caps ps edges).run h).pubs[p]? = some pub) :
    ((City.init caps ps edges).run h).inside p ≤ pub.occupancy :=
  ((City.init_ok caps ps edges).run h p pub hp).2

/-- C122 is violated: in the example two different patrons never become neighbours, whoever befriends whom. -/
theorem C122_friends_false (caps : List Nat) (ps : List (Rat × Nat)) (h : List PubEv) (i j : Nat) (hij : i ≠ j) :
    j ∉ ((City.init caps ps []).run h).neighbors i :=
  fun hm => hij (((City.init_loops caps ps).run h).neighbors_sub hm).symm

/-- C122 (partial: both get an edge, but to themselves): a patron only goes on to look for a pub if some other
patron, who is looking for friends outside of pubs, was open enough; then both have an edge. -/
theorem C122_accepted_partial (c : City) (i : Nat) (sh : List Nat → List Nat) (hsh : ∀ l, (sh l).Perm l) (d : Nat → Rat) (p p' : Patron)
    (hp : c.patrons[i]? = some p) (hs : p.state = .friends)
    (hp' : (c.patronStep i sh d).patrons[i]? = some p') (hs' : p'.state = .seekPub) :
    ∃ j, j ≠ i ∧ ∃ q, c.patrons[j]? = some q ∧ d j < q.openness ∧
      q.state = .friends ∧ q.pub = none ∧
      (j, j) ∈ (c.patronStep i sh d).edges ∧ (i, i) ∈ (c.patronStep i sh d).edges := by
  have hlook : ∀ (j : Nat) (q : Patron), c.patrons[j]? = some q → j ∈ c.lookingForFriends → q.state = .friends ∧ q.pub = none := by
    intro j q hq hj
    have := (List.mem_filter.1 hj).2
    rw [hq] at this
    simpa using this
  have hlen : i < c.patrons.length := (List.getElem?_eq_some_iff.1 hp).1
  unfold City.patronStep at hp' ⊢
  simp only [hp, hs] at hp' ⊢
  split at hp'
  · simp only [City.goto, getElem?_modify', if_true, hp, Option.map_some, Option.some.injEq] at hp'
    subst hp'
    cases hs'
  · rename_i hne
    rw [if_neg hne]
    obtain ⟨h1, h2, h3, h4, h5⟩ :=
      City.tryLoop_spec i d ((sh c.lookingForFriends).take (10 * p.openness).floor.toNat) c
    generalize City.tryLoop i d ((sh c.lookingForFriends).take (10 * p.openness).floor.toNat) c = r at *
    split at hp'
    · rename_i hb
      rw [if_pos hb]
      obtain ⟨j, hj, hji, q, hq, hd, e1, e2⟩ := h5 hb
      obtain ⟨l1, l2⟩ := hlook j q hq ((hsh _).subset (List.mem_of_mem_take hj))
      exact ⟨j, hji, q, hq, hd, l1, l2, e1, e2 hlen⟩
    · rw [h2, hp] at hp'
      cases hp'
      rw [hs] at hs'
      cases hs'

/-! ### C123 -/

/-- What a patron has had to drink, by state. -/
def Patron.LifeOk (q : Patron) : Prop :=
  match q.state with
  | .friends => q.pints = 0 ∧ q.drunk = false ∧ q.kicked = false
  | .seekPub => q.pints = 0 ∧ q.drunk = false ∧ q.kicked = false
  | .sober => q.pints ≤ q.maxPints ∧ q.drunk = false ∧ q.kicked = false
  | .drunkInPub => q.pints = q.maxPints + 1 ∧ (q.kicked = true → q.drunk = true)
  | .home => (q.pints = q.maxPints + 1 ∧ q.drunk = true ∧ q.kicked = true) ∨
      (q.pints = 0 ∧ q.drunk = false ∧ q.kicked = false)

/-- The order of the states. -/
def PState.rank : PState → Nat
  | .friends => 0
  | .seekPub => 1
  | .sober => 2
  | .drunkInPub => 3
  | .home => 4

/-- How a patron may change in one step of the simulation: it stays what it is, moves on, or drinks. -/
structure Patron.Next (q q' : Patron) : Prop where
  rank : q.state.rank ≤ q'.state.rank
  max : q'.maxPints = q.maxPints
  open_ : q'.openness = q.openness
  pints : q.pints ≤ q'.pints
  life : q.LifeOk → q'.LifeOk

theorem Patron.Next.refl (q : Patron) : Patron.Next q q := ⟨Nat.le_refl _, rfl, rfl, Nat.le_refl _, id⟩

theorem Patron.Next.trans {a b c : Patron} (h1 : Patron.Next a b) (h2 : Patron.Next b c) : Patron.Next a c :=
  ⟨le_trans h1.rank h2.rank, h2.max.trans h1.max, h2.open_.trans h1.open_, le_trans h1.pints h2.pints,
    fun h => h2.life (h1.life h)⟩

/-- Every patron of one city becomes the patron of the other in the same place. -/
def City.Next (c c' : City) : Prop :=
  c'.patrons.length = c.patrons.length ∧
    ∀ (i : Nat) q, c.patrons[i]? = some q → ∃ q', c'.patrons[i]? = some q' ∧ Patron.Next q q'

theorem City.Next.refl (c : City) : City.Next c c := ⟨rfl, fun _ q h => ⟨q, h, .refl q⟩⟩

theorem City.Next.trans {a b c : City} (h1 : City.Next a b) (h2 : City.Next b c) : City.Next a c :=
  ⟨h2.1.trans h1.1, fun i q hq => by
    obtain ⟨q1, e1, n1⟩ := h1.2 i q hq
    obtain ⟨q2, e2, n2⟩ := h2.2 i q1 e1
    exact ⟨q2, e2, n1.trans n2⟩⟩

theorem City.Next.modify {c c' : City} {i : Nat} {f : Patron → Patron} (hc : c'.patrons = c.patrons.modify i f)
    (h : ∀ q, c.patrons[i]? = some q → Patron.Next q (f q)) : City.Next c c' := by
  refine ⟨by rw [hc, List.length_modify], ?_⟩
  intro j q hq
  rw [hc, getElem?_modify']
  by_cases hij : i = j
  · subst hij
    rw [if_pos rfl, hq]
    exact ⟨f q, rfl, h q hq⟩
  · rw [if_neg hij]
    exact ⟨q, hq, .refl q⟩

theorem City.Next.same {c c' : City} (hc : c'.patrons = c.patrons) : City.Next c c' :=
  ⟨by rw [hc], fun i q hq => ⟨q, by rw [hc, hq], .refl q⟩⟩

theorem Patron.Next.pub (q : Patron) (p : Option Nat) : Patron.Next q { q with pub := p } :=
  ⟨Nat.le_refl _, rfl, rfl, Nat.le_refl _, fun h => h⟩

theorem City.Next.enter {c c' : City} {pub : Nat} {nodes : List Nat} (h : c.enter pub nodes = some (true, c')) :
    City.Next c c' := by
  obtain ⟨_, _, _, _, rfl⟩ := City.enter_true h
  have : ∀ (nodes : List Nat) (c1 : City), City.Next c1 { c1 with
      patrons := nodes.foldl (fun ps i => ps.modify i (fun q => { q with pub := some pub })) c1.patrons } := by
    intro nodes
    induction nodes with
    | nil => intro c1; exact .refl c1
    | cons i nodes ih =>
      intro c1
      have h1 : City.Next c1 { c1 with patrons := c1.patrons.modify i (fun q => { q with pub := some pub }) } :=
        .modify rfl (fun q _ => .pub q _)
      exact h1.trans (ih _)
  exact (this nodes c).trans (.same rfl)

theorem City.enter_get {c c' : City} {pub : Nat} {nodes : List Nat} (h : c.enter pub nodes = some (true, c'))
    {i : Nat} {q : Patron} (hq : c'.patrons[i]? = some q) :
    ∃ q0 x, c.patrons[i]? = some q0 ∧ q = { q0 with pub := x } := by
  have key : ∀ (nodes : List Nat) (ps : List Patron),
      (nodes.foldl (fun ps i => ps.modify i (fun q => { q with pub := some pub })) ps)[i]? = some q →
      ∃ q0 x, ps[i]? = some q0 ∧ q = { q0 with pub := x } := by
    intro nodes
    induction nodes with
    | nil => intro ps hq; exact ⟨q, q.pub, hq, rfl⟩
    | cons j nodes ih =>
      intro ps hq
      rw [List.foldl_cons] at hq
      obtain ⟨q1, x, h1, rfl⟩ := ih _ hq
      rw [getElem?_modify'] at h1
      split at h1
      · obtain ⟨q0, h0, rfl⟩ := Option.map_eq_some_iff.1 h1
        exact ⟨q0, x, h0, rfl⟩
      · exact ⟨q1, x, h1, rfl⟩
  obtain ⟨_, _, _, _, rfl⟩ := City.enter_true h
  exact key nodes _ hq

theorem City.Next.ev (c : City) (e : PubEv) : City.Next c (c.ev e) := by
  cases e with
  | police =>
    refine ⟨by simp [City.ev, City.police], ?_⟩
    intro i q hq
    have he : (c.ev .police).patrons[i]? =
        some (if q.drunk && decide (q.state = .drunkInPub) then { q with kicked := true } else q) := by
      simp only [City.ev, City.police, List.getElem?_map, hq, Option.map_some]
    refine ⟨_, he, ?_⟩
    split
    · rename_i hd
      simp only [Bool.and_eq_true, decide_eq_true_eq] at hd
      refine ⟨Nat.le_refl _, rfl, rfl, Nat.le_refl _, ?_⟩
      intro hl
      simp only [Patron.LifeOk, hd.2] at hl ⊢
      exact ⟨hl.1, fun _ => hd.1⟩
    · exact .refl q
  | patron i sh d =>
    simp only [City.ev, City.patronStep]
    cases hp : c.patrons[i]? with
    | none => exact .refl c
    | some p =>
      simp only
      cases hs : p.state with
      | friends =>
        simp only
        split
        · refine .modify rfl ?_
          intro q hq
          rw [hp] at hq; cases hq
          refine ⟨by rw [hs]; exact Nat.zero_le _, rfl, rfl, Nat.le_refl _, ?_⟩
          intro hl
          simp only [Patron.LifeOk, hs] at hl ⊢
          exact Or.inr hl
        · obtain ⟨h1, h2, _⟩ :=
            City.tryLoop_spec i d ((sh c.lookingForFriends).take (10 * p.openness).floor.toNat) c
          generalize City.tryLoop i d ((sh c.lookingForFriends).take (10 * p.openness).floor.toNat) c = r at *
          split
          · refine (City.Next.same h2).trans (.modify rfl ?_)
            intro q hq
            rw [h2, hp] at hq; cases hq
            refine ⟨by rw [hs]; exact Nat.zero_le _, rfl, rfl, Nat.le_refl _, ?_⟩
            intro hl
            simp only [Patron.LifeOk, hs] at hl ⊢
            exact hl
          · exact .same h2
      | seekPub =>
        simp only
        split
        · refine .modify rfl ?_
          intro q hq
          rw [hp] at hq; cases hq
          refine ⟨by rw [hs]; simp [PState.rank], rfl, rfl, Nat.le_refl _, ?_⟩
          intro hl
          simp only [Patron.LifeOk, hs] at hl ⊢
          exact ⟨by omega, hl.2⟩
        · rcases City.tryPubs_cases i (c.neighbors i) c.available c with he | ⟨p', _, c', he, h2⟩
          · rw [he]; exact .refl c
          · rw [h2]
            refine (City.Next.enter he).trans (.modify rfl ?_)
            intro q hq
            obtain ⟨q0, x, h0, rfl⟩ := City.enter_get he hq
            rw [hp] at h0; cases h0
            refine ⟨by simp only [hs]; simp [PState.rank], rfl, rfl, Nat.le_refl _, ?_⟩
            intro hl
            simp only [Patron.LifeOk, hs] at hl ⊢
            exact ⟨by omega, hl.2⟩
      | sober =>
        simp only
        split
        · rename_i hm
          refine .modify (c := c) (i := i) (f := fun q => { q with pints := q.pints + 1, state := .drunkInPub }) ?_ ?_
          · simp only [City.goto]
            refine List.ext_getElem? ?_
            intro j
            rw [getElem?_modify', getElem?_modify', getElem?_modify']
            by_cases hij : i = j
            · simp only [hij, if_true]; cases c.patrons[j]? <;> rfl
            · simp only [hij, if_false]
          · intro q hq
            rw [hp] at hq; cases hq
            refine ⟨by rw [hs]; simp [PState.rank], rfl, rfl, by simp, ?_⟩
            intro hl
            simp only [Patron.LifeOk, hs] at hl ⊢
            exact ⟨by omega, fun hk => by rw [hl.2.2] at hk; cases hk⟩
        · rename_i hm
          refine .modify rfl ?_
          intro q hq
          rw [hp] at hq; cases hq
          refine ⟨by rw [hs], rfl, rfl, by simp, ?_⟩
          intro hl
          simp only [Patron.LifeOk, hs] at hl ⊢
          exact ⟨by omega, hl.2⟩
      | drunkInPub =>
        simp only
        split
        · rename_i hk
          refine .modify (c := c) (i := i) (f := fun q => { q with drunk := true, state := .home }) ?_ ?_
          · simp only [City.goto]
            refine List.ext_getElem? ?_
            intro j
            rw [getElem?_modify', getElem?_modify', getElem?_modify']
            by_cases hij : i = j
            · simp only [hij, if_true]; cases c.patrons[j]? <;> rfl
            · simp only [hij, if_false]
          · intro q hq
            rw [hp] at hq; cases hq
            refine ⟨by rw [hs]; simp [PState.rank], rfl, rfl, Nat.le_refl _, ?_⟩
            intro hl
            simp only [Patron.LifeOk, hs] at hl ⊢
            exact Or.inl ⟨hl.1, trivial, hk⟩
        · refine .modify rfl ?_
          intro q hq
          rw [hp] at hq; cases hq
          refine ⟨by rw [hs], rfl, rfl, Nat.le_refl _, ?_⟩
          intro hl
          simp only [Patron.LifeOk, hs] at hl ⊢
          exact ⟨hl.1, fun _ => trivial⟩
      | home => exact .refl c

theorem City.Next.run (c : City) (es : List PubEv) : City.Next c (c.run es) := by
  induction es generalizing c with
  | nil => exact .refl c
  | cons e es ih => exact (City.Next.ev c e).trans (ih (c.ev e))

theorem City.run_append (c : City) (h1 h2 : List PubEv) : c.run (h1 ++ h2) = (c.run h1).run h2 := by
  simp [City.run, List.foldl_append]

theorem City.life (caps : List Nat) (ps : List (Rat × Nat)) (edges : List (Nat × Nat)) (h : List PubEv)
    (i : Nat) (q : Patron) (hq : ((City.init caps ps edges).run h).patrons[i]? = some q) :
    q.LifeOk ∧ ∃ p, ps[i]? = some p ∧ q.maxPints = p.2 := by
  obtain ⟨hl, hn⟩ := City.Next.run (City.init caps ps edges) h
  have hlt : i < (City.init caps ps edges).patrons.length := by
    rw [← hl]; exact (List.getElem?_eq_some_iff.1 hq).1
  obtain ⟨q', h1, h2⟩ := hn i _ (List.getElem?_eq_getElem hlt)
  rw [hq] at h1
  cases h1
  have hlt' : i < ps.length := by simpa [City.init] using hlt
  have h0 : (City.init caps ps edges).patrons[i] = Patron.new ps[i].1 ps[i].2 := by simp [City.init]
  rw [h0] at h2
  exact ⟨h2.life ⟨rfl, rfl, rfl⟩, ps[i], List.getElem?_eq_getElem hlt', h2.max⟩

/-- C123: whatever the network, the schedule and the random numbers, patrons go through the states in order
(friends, pub, sober, drunk, home) and never back; they never drink more than `max_pints + 1` pints; whoever is
drunk in the pub has had exactly that many; whoever is at home either has as well and was kicked out, or has had
nothing. -/
theorem C123_life (caps : List Nat) (ps : List (Rat × Nat)) (edges : List (Nat × Nat)) (h h' : List PubEv)
    (i : Nat) (q q' : Patron) (hq : ((City.init caps ps edges).run h).patrons[i]? = some q)
    (hq' : ((City.init caps ps edges).run (h ++ h')).patrons[i]? = some q') :
    q.state.rank ≤ q'.state.rank ∧ q.pints ≤ q'.pints ∧ q.pints ≤ q.maxPints + 1 ∧
      (q.state = .drunkInPub → q.pints = q.maxPints + 1) ∧
      (q.drunk = true → q.pints = q.maxPints + 1) ∧
      (q.state = .home → (q.pints = q.maxPints + 1 ∧ q.drunk = true ∧ q.kicked = true) ∨ q.pints = 0) ∧
      (q.kicked = true → q.drunk = true) := by
  obtain ⟨hl, _⟩ := City.life caps ps edges h i q hq
  rw [City.run_append] at hq'
  obtain ⟨q2, e2, n⟩ := (City.Next.run ((City.init caps ps edges).run h) h').2 i q hq
  rw [hq'] at e2
  cases e2
  refine ⟨n.rank, n.pints, ?_⟩
  simp only [Patron.LifeOk] at hl
  cases hs : q.state <;> simp only [hs] at hl ⊢
  · obtain ⟨a, b, c⟩ := hl; simp [a, b, c]
  · obtain ⟨a, b, c⟩ := hl; simp [a, b, c]
  · obtain ⟨a, b, c⟩ := hl; simp [b, c]; omega
  · obtain ⟨a, b⟩ := hl; simp [a]; exact b
  · rcases hl with ⟨a, b, c⟩ | ⟨a, b, c⟩ <;> simp [a, b, c]

/-- C123: in the example nobody goes home without having been drunk: a patron who looks for friends finds at least
itself, so "Life sucks and I'm alone!" is never said. -/
theorem C123_never_alone (caps : List Nat) (ps : List (Rat × Nat)) (h : List PubEv) (i : Nat) (sh : List Nat → List Nat)
    (d : Nat → Rat) (q q' : Patron) (hq : ((City.init caps ps []).run h).patrons[i]? = some q) (hs : q.state = .friends)
    (hq' : (((City.init caps ps []).run h).patronStep i sh d).patrons[i]? = some q') : q'.state ≠ .home := by
  have hl := (City.init_loops caps ps).run h
  intro hh
  -- at home one has a pub, but a patron who looked for friends has none and gets none
  have h1 := ((hl.patron i sh d).life i q' hq').2.2 (Or.inr (Or.inr hh))
  have h0 := (hl.life i q hq).1 hs
  generalize (City.init caps ps []).run h = c at *
  unfold City.patronStep at hq'
  simp only [hq, hs] at hq'
  split at hq'
  · simp only [City.goto, getElem?_modify', if_true, hq, Option.map_some, Option.some.injEq] at hq'
    subst hq'
    rw [h0] at h1
    cases h1
  · obtain ⟨_, h2, _⟩ := City.tryLoop_spec i d ((sh c.lookingForFriends).take (10 * q.openness).floor.toNat) c
    split at hq'
    · simp only [City.goto, getElem?_modify', if_true, h2, hq, Option.map_some, Option.some.injEq] at hq'
      subst hq'
      cases hh
    · rw [h2, hq] at hq'
      cases hq'
      rw [hs] at hh
      cases hh

/-! ### C124 -/

/-- C124 is violated: in the example whoever is at home is still in a pub, and still counted there. -/
theorem C124_leaves_false (caps : List Nat) (ps : List (Rat × Nat)) (h : List PubEv) (i : Nat) (q : Patron)
    (hq : ((City.init caps ps []).run h).patrons[i]? = some q) (hs : q.state = .home) : q.pub.isSome :=
  (((City.init_loops caps ps).run h).life i q hq).2.2 (Or.inr (Or.inr hs))

/-- C124 is violated: leaving (`CityPubs.exit`) raises for every patron. -/
theorem C124_exit_false (c : City) (pub i : Nat) (nodes : List Nat) : c.exit pub (i :: nodes) = none := by
  unfold City.exit
  cases c.pubs[pub]? <;> rfl

theorem City.occupancy_le (c : City) (e : PubEv) (p : Nat) (a : Pub) (ha : c.pubs[p]? = some a) :
    ∃ b, (c.ev e).pubs[p]? = some b ∧ a.occupancy ≤ b.occupancy ∧ b.capacity = a.capacity := by
  have hsame : ∀ c' : City, c'.pubs = c.pubs →
      ∃ b, c'.pubs[p]? = some b ∧ a.occupancy ≤ b.occupancy ∧ b.capacity = a.capacity :=
    fun c' h => ⟨a, by rw [h, ha], Nat.le_refl _, rfl⟩
  cases e with
  | police => exact hsame _ rfl
  | patron i sh d =>
    simp only [City.ev, City.patronStep]
    cases hp : c.patrons[i]? with
    | none => exact hsame _ rfl
    | some q =>
      simp only
      cases hs : q.state with
      | friends =>
        simp only
        obtain ⟨h1, _⟩ := City.tryLoop_spec i d ((sh c.lookingForFriends).take (10 * q.openness).floor.toNat) c
        split
        · exact hsame _ rfl
        · split
          · exact hsame _ h1
          · exact hsame _ h1
      | seekPub =>
        simp only
        split
        · exact hsame _ rfl
        · rcases City.tryPubs_cases i (c.neighbors i) c.available c with he | ⟨p', _, c', he, h2⟩
          · rw [he]; exact hsame _ rfl
          · rw [h2]
            obtain ⟨x, hx, _, _, rfl⟩ := City.enter_true he
            simp only [City.goto]
            rw [getElem?_modify']
            by_cases hk : p' = p
            · subst hk
              rw [if_pos rfl, ha]
              exact ⟨_, rfl, Nat.le_add_right _ _, rfl⟩
            · rw [if_neg hk]
              exact ⟨a, ha, Nat.le_refl _, rfl⟩
      | sober => simp only; split <;> exact hsame _ rfl
      | drunkInPub => simp only; split <;> exact hsame _ rfl
      | home => exact hsame _ rfl

/-- C124 is violated, for any network: the occupancy of a pub never decreases, so that a pub that is full stays full
whoever goes home. -/
theorem C124_stays_full_false (c : City) (h : List PubEv) (p : Nat) (a : Pub) (ha : c.pubs[p]? = some a) :
    ∃ b, (c.run h).pubs[p]? = some b ∧ a.occupancy ≤ b.occupancy ∧ b.capacity = a.capacity := by
  induction h generalizing c a with
  | nil => exact ⟨a, ha, Nat.le_refl _, rfl⟩
  | cons e h ih =>
    obtain ⟨b, hb, h1, h2⟩ := c.occupancy_le e p a ha
    obtain ⟨b', hb', h3, h4⟩ := ih (c.ev e) b hb
    exact ⟨b', hb', le_trans h1 h3, h4.trans h2⟩

/-- C124 (partial): the police gets drunk patrons home: after the police and the patron have been activated, the patron is at home. -/
theorem C124_home_partial (c : City) (i : Nat) (q : Patron) (hq : c.patrons[i]? = some q) (hs : q.state = .drunkInPub)
    (hd : q.drunk = true) (sh : List Nat → List Nat) (d : Nat → Rat) :
    ∃ q', (c.run [.police, .patron i sh d]).patrons[i]? = some q' ∧ q'.state = .home := by
  have h1 : c.police.patrons[i]? = some { q with kicked := true } := by
    simp [City.police, hq, hd, hs]
  refine ⟨{ q with kicked := true, drunk := true, state := .home }, ?_, rfl⟩
  show (c.police.patronStep i sh d).patrons[i]? = _
  unfold City.patronStep
  simp only [h1, hs, if_true]
  simp only [City.goto, getElem?_modify', if_true, h1, Option.map_some]

/-- The example with one pub for four and three patrons: two of them become friends, get in (and fill the pub), get drunk and are
taken home. The third one stays outside for ever. -/
def exCrawl : List PubEv :=
  [.patron 0 id (fun _ => 0), .patron 1 id (fun _ => 0), .patron 2 id (fun _ => 0), .patron 0 id (fun _ => 0),
   .patron 1 id (fun _ => 0), .patron 2 id (fun _ => 0), .patron 0 id (fun _ => 0), .patron 0 id (fun _ => 0),
   .patron 0 id (fun _ => 0), .police, .patron 0 id (fun _ => 0)]

example : ((City.init [4] [(1, 1), (1, 1), (1, 1)] []).run exCrawl).pubs = [⟨true, 4, 4⟩] ∧
    ((City.init [4] [(1, 1), (1, 1), (1, 1)] []).run exCrawl).inside 0 = 2 ∧
    ((City.init [4] [(1, 1), (1, 1), (1, 1)] []).run exCrawl).patrons.map (·.state) = [.home, .sober, .friends] ∧
    ((City.init [4] [(1, 1), (1, 1), (1, 1)] []).run exCrawl).neighbors 0 = [0] ∧
    ((City.init [4] [(1, 1), (1, 1), (1, 1)] []).run exCrawl).exit 0 [0] = none := by
  decide +kernel

end Verif
