import Verif.Model.ExNews
import Mathlib.Tactic.Linarith

/-!
# C136 (news spreads from viewers to neighbours), C137 (cured viewers), C138 (default probabilities)
-/

namespace Verif

/-- What one activation of `i` may do to the viewers. -/
structure NewsStep (P : NewsParams) (adj : Nat → List Nat) (i : Nat) (vs vs' : List Viewer) : Prop where
  same : ∀ (j : Nat) v, vs[j]? = some v → ∃ v', vs'[j]? = some v' ∧ v'.kind = v.kind ∧ v'.tv = v.tv
  back : ∀ j : Nat, vs[j]? = none → vs'[j]? = none
  /-- Whoever has the mark has had it before or is a neighbour of the infected viewer `i`. -/
  flag : ∀ (j : Nat) v v', vs[j]? = some v → vs'[j]? = some v' → v'.flag = true → v.flag = false →
    j ∈ adj i ∧ v.state = .neutral ∧ ∃ w, vs[i]? = some w ∧ w.state = .infected
  flagged : ∀ (j : Nat) v v', vs[j]? = some v → vs'[j]? = some v' → v.flag = true → v'.flag = true
  /-- Only `i` itself may change its state. -/
  state : ∀ (j : Nat) v v', vs[j]? = some v → vs'[j]? = some v' → v'.state ≠ v.state →
    j = i ∧ ((v.state = .neutral ∧ v'.state = .infected ∧ (v.flag = true ∨ v.tv = true)) ∨
      (v.state = .infected ∧ v'.state = .cured ∧ v.kind = .wise ∧ v.curedFlag = true))
  cured : ∀ (j : Nat) v v', vs[j]? = some v → vs'[j]? = some v' → v'.curedFlag = true → v.curedFlag = false →
    j ∈ adj i ∧ v.kind = .wise ∧ v.state = .infected ∧ ∃ w, vs[i]? = some w ∧ w.state = .cured

theorem NewsStep.refl (P : NewsParams) (adj : Nat → List Nat) (i : Nat) (vs : List Viewer) : NewsStep P adj i vs vs := by
  refine ⟨fun j v h => ⟨v, h, rfl, rfl⟩, fun _ h => h, ?_, ?_, ?_, ?_⟩ <;> intro j v v' h h' <;> rw [h] at h' <;> cases h'
  · intro a b; rw [a] at b; cases b
  · exact fun h => h
  · exact fun h => absurd rfl h
  · intro a b; rw [a] at b; cases b

theorem getElem?_modify_view (l : List Viewer) (i j : Nat) (f : Viewer → Viewer) :
    (l.modify i f)[j]? = if i = j then l[j]?.map f else l[j]? := by
  rw [List.getElem?_modify]
  by_cases h : i = j
  · simp only [h, if_true]; rfl
  · simp only [h, if_false]; cases l[j]? <;> rfl

theorem mem_viewersIn {adj : Nat → List Nat} {vs : List Viewer} {i j : Nat} {s : ViewerState} (h : j ∈ viewersIn adj vs i s) :
    j ∈ adj i ∧ ∃ v, vs[j]? = some v ∧ v.state = s := by
  obtain ⟨h1, h2⟩ := List.mem_filter.1 h
  refine ⟨h1, ?_⟩
  cases hv : vs[j]? with
  | none => rw [hv] at h2; cases h2
  | some v => rw [hv] at h2; exact ⟨v, rfl, by simpa using h2⟩

/-- Marking neutral neighbours. -/
structure Marks (js : List Nat) (vs vs' : List Viewer) : Prop where
  same : ∀ (j : Nat) v, vs[j]? = some v → vs'[j]? = some v ∨ (j ∈ js ∧ vs'[j]? = some { v with flag := true })
  back : ∀ j : Nat, vs[j]? = none → vs'[j]? = none

theorem Marks.refl (js : List Nat) (vs : List Viewer) : Marks js vs vs := ⟨fun _ _ h => Or.inl h, fun _ h => h⟩

theorem Marks.trans {js : List Nat} {a b c : List Viewer} (h : Marks js a b) (h' : Marks js b c) : Marks js a c := by
  refine ⟨?_, fun j hj => h'.back j (h.back j hj)⟩
  intro j v hv
  rcases h.same j v hv with h1 | ⟨hj, h1⟩
  · exact h'.same j v h1
  · rcases h'.same j _ h1 with h2 | ⟨_, h2⟩
    · exact Or.inr ⟨hj, h2⟩
    · exact Or.inr ⟨hj, h2⟩

theorem Marks.mono {js js' : List Nat} {a b : List Viewer} (h : Marks js a b) (hs : ∀ j ∈ js, j ∈ js') : Marks js' a b :=
  ⟨fun j v hv => (h.same j v hv).imp_right (fun x => ⟨hs j x.1, x.2⟩), h.back⟩

theorem Marks.one (j : Nat) (vs : List Viewer) : Marks [j] vs (vs.modify j (fun v => { v with flag := true })) := by
  refine ⟨?_, ?_⟩
  · intro k v hv
    rw [getElem?_modify_view]
    by_cases h : j = k
    · subst h
      right
      simp [hv]
    · left; simp [h, hv]
  · intro k hk
    rw [getElem?_modify_view]
    split <;> simp [hk]

theorem infectViewer_marks (P : NewsParams) (adj : Nat → List Nat) (d : NewsDraws) (vs : List Viewer) (j : Nat) :
    Marks [j] vs (infectViewer P adj d vs j).1 := by
  unfold infectViewer
  split
  · exact Marks.refl _ _
  · split
    · exact Marks.one j vs
    · split
      · exact Marks.refl _ _
      · split
        · exact Marks.refl _ _
        · split
          · exact Marks.one j vs
          · exact Marks.refl _ _

theorem spreadNews_marks (P : NewsParams) (adj : Nat → List Nat) (d : NewsDraws) (js : List Nat) (vs : List Viewer) :
    Marks js vs (spreadNews P adj d js vs).1 := by
  induction js generalizing vs with
  | nil => exact Marks.refl _ _
  | cons j js ih =>
    simp only [spreadNews]
    have h1 := (infectViewer_marks P adj d vs j).mono (js' := j :: js) (by simp)
    split
    · exact Marks.refl _ _
    · split
      · split
        · exact h1
        · exact h1.trans ((ih _).mono (by intro x hx; simp [hx]))
      · exact (ih vs).mono (by intro x hx; simp [hx])

theorem cureNews_get (P : NewsParams) (d : NewsDraws) (js : List Nat) (vs : List Viewer) (j : Nat) :
    (∀ v, vs[j]? = some v → (cureNews P d js vs).1[j]? = some v ∨
      (j ∈ js ∧ v.kind = .wise ∧ (cureNews P d js vs).1[j]? = some { v with curedFlag := true })) ∧
    (vs[j]? = none → (cureNews P d js vs).1[j]? = none) := by
  induction js generalizing vs with
  | nil => exact ⟨fun v h => Or.inl h, fun h => h⟩
  | cons k js ih =>
    simp only [cureNews]
    split
    · exact ⟨fun v h => Or.inl h, fun h => h⟩
    · split
      · have hget := getElem?_modify_view vs k j (fun v => if v.kind = .wise then { v with curedFlag := true } else v)
        obtain ⟨h1, h2⟩ := ih (vs.modify k (fun v => if v.kind = .wise then { v with curedFlag := true } else v))
        constructor
        · intro v hv
          by_cases hkj : k = j
          · subst hkj
            simp only [if_true, hv, Option.map_some] at hget
            rcases h1 _ hget with h | ⟨h, hw, h'⟩
            · by_cases hw : v.kind = .wise
              · right
                rw [if_pos hw] at h
                exact ⟨by simp, hw, h⟩
              · left
                simpa [hw] using h
            · by_cases hw' : v.kind = .wise
              · right
                rw [if_pos hw'] at h'
                exact ⟨by simp, hw', h'⟩
              · simp [hw'] at hw
          · simp only [hkj, if_false, hv] at hget
            rcases h1 _ hget with h | ⟨h, hw, h'⟩
            · exact Or.inl h
            · exact Or.inr ⟨by simp [h], hw, h'⟩
        · intro hn
          refine h2 ?_
          rw [hget]
          split <;> simp [hn]
      · obtain ⟨h1, h2⟩ := ih vs
        exact ⟨fun v hv => (h1 v hv).imp_right (fun x => ⟨by simp [x.1], x.2⟩), h2⟩

/-- What one activation does. -/
theorem actViewer_step (P : NewsParams) (adj : Nat → List Nat) (vs : List Viewer) (i : Nat) (d : NewsDraws) :
    NewsStep P adj i vs (actViewer P adj vs i d).1 := by
  have self : ∀ (w : Viewer) (s : ViewerState), vs[i]? = some w →
      ((w.state = .neutral ∧ s = .infected ∧ (w.flag = true ∨ w.tv = true)) ∨
        (w.state = .infected ∧ s = .cured ∧ w.kind = .wise ∧ w.curedFlag = true)) →
      NewsStep P adj i vs (vs.modify i (fun v => { v with state := s })) := by
    intro w s hw hs
    have key : ∀ (j : Nat) v v', vs[j]? = some v → (vs.modify i (fun v => { v with state := s }))[j]? = some v' →
        (j = i ∧ v = w ∧ v' = { v with state := s }) ∨ (j ≠ i ∧ v' = v) := by
      intro j v v' hv hv'
      rw [getElem?_modify_view] at hv'
      by_cases hij : i = j
      · subst hij
        left
        simp only [if_true, hv, Option.map_some, Option.some.injEq] at hv'
        rw [hv] at hw
        cases hw
        exact ⟨rfl, rfl, hv'.symm⟩
      · right
        simp only [hij, if_false, hv, Option.some.injEq] at hv'
        exact ⟨fun e => hij e.symm, hv'.symm⟩
    refine ⟨?_, ?_, ?_, ?_, ?_, ?_⟩
    · intro j v hv
      rw [getElem?_modify_view]
      by_cases hij : i = j
      · exact ⟨{ v with state := s }, by simp [hij, hv], rfl, rfl⟩
      · exact ⟨v, by simp [hij, hv], rfl, rfl⟩
    · intro j hj
      rw [getElem?_modify_view]
      split <;> simp [hj]
    · intro j v v' hv hv' h h'
      rcases key j v v' hv hv' with ⟨_, _, rfl⟩ | ⟨_, rfl⟩ <;> exact absurd (h.symm.trans h') (by decide)
    · intro j v v' hv hv' h
      rcases key j v v' hv hv' with ⟨_, _, rfl⟩ | ⟨_, rfl⟩ <;> exact h
    · intro j v v' hv hv' h
      rcases key j v v' hv hv' with ⟨hj, rfl, rfl⟩ | ⟨_, rfl⟩
      · refine ⟨hj, ?_⟩
        rcases hs with ⟨a, b, c⟩ | ⟨a, b, c, e⟩
        · exact Or.inl ⟨a, b, c⟩
        · exact Or.inr ⟨a, b, c, e⟩
      · exact absurd rfl h
    · intro j v v' hv hv' h h'
      rcases key j v v' hv hv' with ⟨_, _, rfl⟩ | ⟨_, rfl⟩ <;> exact absurd (h.symm.trans h') (by decide)
  unfold actViewer
  cases hw : vs[i]? with
  | none => exact NewsStep.refl P adj i vs
  | some w =>
    simp only
    cases hst : w.state with
    | neutral =>
      simp only
      split
      · rename_i htv
        split
        · exact NewsStep.refl P adj i vs
        · split
          · exact self w _ hw (Or.inl ⟨hst, rfl, Or.inr htv⟩)
          · split
            · rename_i hf
              exact self w _ hw (Or.inl ⟨hst, rfl, Or.inl hf⟩)
            · exact NewsStep.refl P adj i vs
      · split
        · rename_i hf
          exact self w _ hw (Or.inl ⟨hst, rfl, Or.inl hf⟩)
        · exact NewsStep.refl P adj i vs
    | infected =>
      have hm : NewsStep P adj i vs (spreadNews P adj d (viewersIn adj vs i .neutral) vs).1 := by
        have hM := spreadNews_marks P adj d (viewersIn adj vs i .neutral) vs
        have key : ∀ (j : Nat) v v', vs[j]? = some v → (spreadNews P adj d (viewersIn adj vs i .neutral) vs).1[j]? = some v' →
            v' = v ∨ (j ∈ viewersIn adj vs i .neutral ∧ v' = { v with flag := true }) := by
          intro j v v' hv hv'
          rcases hM.same j v hv with h | ⟨hj, h⟩ <;> rw [h] at hv' <;> cases hv'
          · exact Or.inl rfl
          · exact Or.inr ⟨hj, rfl⟩
        refine ⟨?_, hM.back, ?_, ?_, ?_, ?_⟩
        · intro j v hv
          rcases hM.same j v hv with h | ⟨_, h⟩
          · exact ⟨v, h, rfl, rfl⟩
          · exact ⟨_, h, rfl, rfl⟩
        · intro j v v' hv hv' h h'
          rcases key j v v' hv hv' with rfl | ⟨hj, rfl⟩
          · rw [h] at h'; cases h'
          · obtain ⟨h1, v2, h2, h3⟩ := mem_viewersIn hj
            rw [hv] at h2
            cases h2
            exact ⟨h1, h3, w, hw, hst⟩
        · intro j v v' hv hv' h
          rcases key j v v' hv hv' with rfl | ⟨_, rfl⟩
          · exact h
          · rfl
        · intro j v v' hv hv' h
          rcases key j v v' hv hv' with rfl | ⟨_, rfl⟩ <;> exact absurd rfl h
        · intro j v v' hv hv' h h'
          rcases key j v v' hv hv' with rfl | ⟨_, rfl⟩ <;> exact absurd (h.symm.trans h') (by decide)
      cases hk : w.kind with
      | dumb => exact hm
      | herd => exact hm
      | wise =>
        simp only
        split
        · rename_i hc
          exact self w _ hw (Or.inr ⟨hst, rfl, hk, hc⟩)
        · exact NewsStep.refl P adj i vs
    | cured =>
      simp only
      have hM := cureNews_get P d (viewersIn adj vs i .infected) vs
      have key : ∀ (j : Nat) v v', vs[j]? = some v → (cureNews P d (viewersIn adj vs i .infected) vs).1[j]? = some v' →
          v' = v ∨ (j ∈ viewersIn adj vs i .infected ∧ v.kind = .wise ∧ v' = { v with curedFlag := true }) := by
        intro j v v' hv hv'
        rcases (hM j).1 v hv with h | ⟨hj, hk, h⟩ <;> rw [h] at hv' <;> cases hv'
        · exact Or.inl rfl
        · exact Or.inr ⟨hj, hk, rfl⟩
      refine ⟨?_, fun j hj => (hM j).2 hj, ?_, ?_, ?_, ?_⟩
      · intro j v hv
        rcases (hM j).1 v hv with h | ⟨_, _, h⟩
        · exact ⟨v, h, rfl, rfl⟩
        · exact ⟨_, h, rfl, rfl⟩
      · intro j v v' hv hv' h h'
        rcases key j v v' hv hv' with rfl | ⟨_, _, rfl⟩ <;> exact absurd (h.symm.trans h') (by decide)
      · intro j v v' hv hv' h
        rcases key j v v' hv hv' with rfl | ⟨_, _, rfl⟩ <;> exact h
      · intro j v v' hv hv' h
        rcases key j v v' hv hv' with rfl | ⟨_, _, rfl⟩ <;> exact absurd rfl h
      · intro j v v' hv hv' h h'
        rcases key j v v' hv hv' with rfl | ⟨hj, hk, rfl⟩
        · rw [h] at h'; cases h'
        · obtain ⟨h1, v2, h2, h3⟩ := mem_viewersIn hj
          rw [hv] at h2
          cases h2
          exact ⟨h1, hk, h3, w, hw, hst⟩

theorem runNews_induct (P : NewsParams) (adj : Nat → List Nat) (Q : List Viewer → Prop) (h : List (Nat × NewsDraws))
    (hs : ∀ vs i vs', Q vs → NewsStep P adj i vs vs' → Q vs') (vs : List Viewer) (h0 : Q vs) : Q (runNews P adj h vs).1 := by
  induction h generalizing vs with
  | nil => exact h0
  | cons e h ih =>
    obtain ⟨i, d⟩ := e
    simp only [runNews]
    have h1 := hs vs i _ h0 (actViewer_step P adj vs i d)
    split
    · exact h1
    · exact ih _ h1

/-- C136: the news spreads only along edges: if, in a group of viewers into which no edge leads from outside, nobody has a TV set and
nobody is infected or marked in the beginning, then nobody in it is ever infected, whatever the schedule and the random numbers. -/
theorem C136_closed (P : NewsParams) (adj : Nat → List Nat) (G : Nat → Prop) (hG : ∀ i j, j ∈ adj i → G j → G i)
    (h : List (Nat × NewsDraws)) (vs : List Viewer)
    (h0 : ∀ (j : Nat) v, G j → vs[j]? = some v → v.state = .neutral ∧ v.flag = false ∧ v.tv = false) (j : Nat) (v : Viewer) (hj : G j)
    (hv : (runNews P adj h vs).1[j]? = some v) : v.state = .neutral := by
  have := runNews_induct P adj
    (fun vs => ∀ (j : Nat) v, G j → vs[j]? = some v → v.state = .neutral ∧ v.flag = false ∧ v.tv = false) h ?_ vs h0
  · exact (this j v hj hv).1
  · intro vs i vs' hQ hst j v' hj hv'
    cases hv : vs[j]? with
    | none => rw [hst.back j hv] at hv'; cases hv'
    | some v =>
      obtain ⟨h1, h2, h3⟩ := hQ j v hj hv
      obtain ⟨v2, e, _, htv⟩ := hst.same j v hv
      rw [hv'] at e
      cases e
      refine ⟨?_, ?_, by rw [htv]; exact h3⟩
      · by_contra hne
        obtain ⟨_, hc⟩ := hst.state j v v' hv hv' (by rw [h1]; exact hne)
        rcases hc with ⟨_, _, hc | hc⟩ | ⟨hc, _⟩
        · rw [h2] at hc; cases hc
        · rw [h3] at hc; cases hc
        · rw [h1] at hc; cases hc
      · by_contra hne
        obtain ⟨hadj, _, w, hw, hs⟩ := hst.flag j v v' hv hv' (by simpa using hne) h2
        have := (hQ i w (hG i j hadj hj) hw).1
        rw [this] at hs
        cases hs

/-- C136: in particular, viewers without TV sets are never infected: in the simulations of the example, which never set `has_tv`,
nothing ever happens and no exception is raised. -/
theorem C136_no_tv (P : NewsParams) (adj : Nat → List Nat) (kinds : List ViewerKind) (h : List (Nat × NewsDraws)) :
    runNews P adj h (kinds.map (Viewer.new · false)) = (kinds.map (Viewer.new · false), false) := by
  induction h with
  | nil => rfl
  | cons e h ih =>
    obtain ⟨i, d⟩ := e
    have : actViewer P adj (kinds.map (Viewer.new · false)) i d = (kinds.map (Viewer.new · false), false) := by
      unfold actViewer
      cases hk : kinds[i]? with
      | none => simp [hk]
      | some k => simp [hk, Viewer.new]
    simp only [runNews, this]
    exact ih

/-- C136: a viewer is never infected but by its TV set or by an infected neighbour before: states only go from neutral to infected (with
a TV set or marked) and from infected to cured (wise viewers). -/
theorem C136_order (P : NewsParams) (adj : Nat → List Nat) (vs : List Viewer) (i j : Nat) (d : NewsDraws) (v v' : Viewer)
    (hv : vs[j]? = some v) (hv' : (actViewer P adj vs i d).1[j]? = some v') :
    (v'.state ≠ v.state → j = i ∧ ((v.state = .neutral ∧ v'.state = .infected ∧ (v.flag = true ∨ v.tv = true)) ∨
      (v.state = .infected ∧ v'.state = .cured ∧ v.kind = .wise))) ∧
    (v'.flag = true → v.flag = false → j ∈ adj i ∧ v.state = .neutral ∧ ∃ w, vs[i]? = some w ∧ w.state = .infected) := by
  have hs := actViewer_step P adj vs i d
  refine ⟨?_, hs.flag j v v' hv hv'⟩
  intro hne
  obtain ⟨hj, h⟩ := hs.state j v v' hv hv' hne
  exact ⟨hj, h.imp_right (fun x => ⟨x.1, x.2.1, x.2.2.1⟩)⟩

/-- C136: dumb and herd viewers that are infected stay infected. -/
theorem C136_stays (P : NewsParams) (adj : Nat → List Nat) (h : List (Nat × NewsDraws)) (vs : List Viewer) (j : Nat) (v : Viewer)
    (hv : vs[j]? = some v) (hk : v.kind ≠ .wise) (hi : v.state = .infected) :
    ∃ v', (runNews P adj h vs).1[j]? = some v' ∧ v'.state = .infected := by
  have := runNews_induct P adj (fun vs => ∃ v', vs[j]? = some v' ∧ v'.state = .infected ∧ v'.kind ≠ .wise) h ?_ vs ⟨v, hv, hi, hk⟩
  · obtain ⟨v', h1, h2, _⟩ := this
    exact ⟨v', h1, h2⟩
  · rintro vs i vs' ⟨v, hv, hi, hk⟩ hst
    obtain ⟨v', hv', hk', _⟩ := hst.same j v hv
    refine ⟨v', hv', ?_, by rw [hk']; exact hk⟩
    by_contra hne
    obtain ⟨_, hc⟩ := hst.state j v v' hv hv' (by rw [hi]; exact hne)
    rcases hc with ⟨hc, _⟩ | ⟨_, _, hc, _⟩
    · rw [hi] at hc; cases hc
    · exact hk hc

/-- C136: a marked viewer without a TV set is infected by its next activation; a viewer with a TV set is infected exactly if the number
drawn is below the probability or it is marked. -/
theorem C136_neutral (P : NewsParams) (adj : Nat → List Nat) (vs : List Viewer) (i : Nat) (d : NewsDraws) (v : Viewer) (p : Rat)
    (hv : vs[i]? = some v) (hn : v.state = .neutral) (hp : P.tvSpread = some p) :
    actViewer P adj vs i d = (if v.flag = true ∨ (v.tv = true ∧ d.own < p)
      then vs.modify i (fun v => { v with state := .infected }) else vs, false) := by
  unfold actViewer
  rw [hv]
  simp only [hn, hp]
  by_cases htv : v.tv = true <;> by_cases hf : v.flag = true <;> by_cases hd : d.own < p <;> simp [htv, hf, hd]

/-- C137 is false: with viewers as they are made by the environment, nobody is ever cured, and every activation of an infected wise
viewer raises (`has_been_cured` is not defined). -/
theorem C137_cured_false (P : NewsParams) (adj : Nat → List Nat) (ks : List (ViewerKind × Bool)) (h : List (Nat × NewsDraws))
    (j : Nat) (v : Viewer) (hv : (runNews P adj h (ks.map (fun k => Viewer.new k.1 k.2))).1[j]? = some v) :
    v.state ≠ .cured ∧ (v.kind = .wise → v.state = .infected →
      ∀ d, (actViewer P adj (runNews P adj h (ks.map (fun k => Viewer.new k.1 k.2))).1 j d).2 = true) := by
  have := runNews_induct P adj (fun vs => ∀ (j : Nat) v, vs[j]? = some v → v.state ≠ .cured ∧ v.curedFlag = false) h ?_
    (ks.map (fun k => Viewer.new k.1 k.2)) ?_
  · refine ⟨(this j v hv).1, ?_⟩
    intro hk hi d
    unfold actViewer
    rw [hv]
    simp [hi, hk, (this j v hv).2]
  · intro vs i vs' hQ hst j v' hv'
    cases hv : vs[j]? with
    | none => rw [hst.back j hv] at hv'; cases hv'
    | some v =>
      obtain ⟨h1, h2⟩ := hQ j v hv
      constructor
      · intro hc
        have hne : v'.state ≠ v.state := by rw [hc]; exact fun e => h1 e.symm
        rcases (hst.state j v v' hv hv' hne).2 with ⟨_, h3, _⟩ | ⟨_, _, _, h3⟩
        · rw [hc] at h3; cases h3
        · rw [h2] at h3; cases h3
      · by_contra hne
        obtain ⟨_, _, _, w, hw, hs⟩ := hst.cured j v v' hv hv' (by simpa using hne) h2
        exact (hQ i w hw).1 hs
  · intro j v hv
    rw [List.getElem?_map] at hv
    obtain ⟨k, _, rfl⟩ := Option.map_eq_some_iff.1 hv
    simp [Viewer.new]

/-- C137 (partial: `has_been_cured` set, which the code only does from the state `cured`): the next activation of an infected wise
viewer cures it. -/
theorem C137_cure_partial (P : NewsParams) (adj : Nat → List Nat) (vs : List Viewer) (i : Nat) (d : NewsDraws) (v : Viewer)
    (hv : vs[i]? = some v) (hk : v.kind = .wise) (hi : v.state = .infected) (hc : v.curedFlag = true) :
    actViewer P adj vs i d = (vs.modify i (fun v => { v with state := .cured }), false) := by
  unfold actViewer
  rw [hv]
  simp [hk, hi, hc]

/-- C138 is false: if `prob_neighbor_spread` is not given, an infected viewer (not wise) with a neutral neighbour raises `TypeError` when
it is activated, whatever is drawn; if `prob_tv_spread` is not given, so does a neutral viewer with a TV set. -/
theorem C138_defaults_false (P : NewsParams) (adj : Nat → List Nat) (vs : List Viewer) (i : Nat) (d : NewsDraws) (v : Viewer)
    (hv : vs[i]? = some v) :
    (P.spread = none → v.kind ≠ .wise → v.state = .infected → viewersIn adj vs i .neutral ≠ [] → (actViewer P adj vs i d).2 = true) ∧
    (P.tvSpread = none → v.state = .neutral → v.tv = true → (actViewer P adj vs i d).2 = true) := by
  constructor
  · intro hp hk hi hne
    unfold actViewer
    rw [hv]
    simp only [hi]
    obtain ⟨j, js, hjs⟩ := List.exists_cons_of_ne_nil hne
    cases hk' : v.kind with
    | wise => exact absurd hk' hk
    | dumb => simp only [hjs, spreadNews, hp]
    | herd => simp only [hjs, spreadNews, hp]
  · intro hp hn htv
    unfold actViewer
    rw [hv]
    simp [hn, htv, hp]

/-- C138 (partial: all three probabilities given; the neighbours of the viewer have neighbours, as in every network without directions): only wise viewers raise. -/
theorem C138_given_partial (P : NewsParams) (adj : Nat → List Nat) (vs : List Viewer) (i : Nat) (d : NewsDraws)
    (h1 : P.tvSpread ≠ none) (h2 : P.spread ≠ none) (h3 : P.cure ≠ none) (hadj : ∀ j ∈ adj i, adj j ≠ [])
    (hr : (actViewer P adj vs i d).2 = true) : ∃ v, vs[i]? = some v ∧ v.kind = .wise ∧ v.state = .infected ∧ v.curedFlag = false := by
  have inf : ∀ vs j, adj j ≠ [] → (infectViewer P adj d vs j).2 = false := by
    intro vs j hj
    obtain ⟨p, hp⟩ := Option.ne_none_iff_exists'.1 h2
    unfold infectViewer
    have : (adj j).length ≠ 0 := by
      rw [ne_eq, List.length_eq_zero_iff]
      exact hj
    split
    · rfl
    · split
      · rfl
      · simp only [hp]
        rw [if_neg this]
        split <;> rfl
  have spr : ∀ js, (∀ j ∈ js, adj j ≠ []) → ∀ vs, (spreadNews P adj d js vs).2 = false := by
    intro js hjs
    obtain ⟨p, hp⟩ := Option.ne_none_iff_exists'.1 h2
    induction js with
    | nil => exact fun _ => rfl
    | cons j js ih =>
      intro vs
      replace ih := ih (fun j hj => hjs j (List.mem_cons_of_mem _ hj))
      simp only [spreadNews, hp, inf _ j (hjs j (List.mem_cons_self ..))]
      split
      · simpa using ih _
      · exact ih _
  have cur : ∀ js vs, (cureNews P d js vs).2 = false := by
    intro js
    obtain ⟨p, hp⟩ := Option.ne_none_iff_exists'.1 h3
    induction js with
    | nil => exact fun _ => rfl
    | cons j js ih =>
      intro vs
      simp only [cureNews, hp]
      split <;> exact ih _
  obtain ⟨p, hp⟩ := Option.ne_none_iff_exists'.1 h1
  unfold actViewer at hr
  cases hv : vs[i]? with
  | none => rw [hv] at hr; cases hr
  | some v =>
    rw [hv] at hr
    simp only at hr
    refine ⟨v, rfl, ?_⟩
    cases hs : v.state with
    | neutral =>
      rw [hs] at hr
      simp only [hp] at hr
      by_cases htv : v.tv = true <;> by_cases hf : v.flag = true <;> by_cases hd : d.own < p <;> simp [htv, hf, hd] at hr
    | infected =>
      rw [hs] at hr
      cases hk : v.kind with
      | dumb => rw [hk] at hr; simp only [spr _ (fun j hj => hadj j (mem_viewersIn hj).1)] at hr; cases hr
      | herd => rw [hk] at hr; simp only [spr _ (fun j hj => hadj j (mem_viewersIn hj).1)] at hr; cases hr
      | wise =>
        rw [hk] at hr
        refine ⟨rfl, rfl, ?_⟩
        cases hc : v.curedFlag with
        | false => rfl
        | true => simp [hc] at hr
    | cured => rw [hs] at hr; simp only [cur] at hr; cases hr

/-- C136: `infect` marks a dumb viewer always, a herd or wise viewer exactly if the number drawn is below the probability times the
share of infected neighbours. -/
theorem C136_infect (P : NewsParams) (adj : Nat → List Nat) (d : NewsDraws) (vs : List Viewer) (j : Nat) (v : Viewer) (p : Rat)
    (hv : vs[j]? = some v) (hp : P.spread = some p) (hadj : adj j ≠ []) :
    infectViewer P adj d vs j =
      (if v.kind = .dumb ∨ d.herd j * (adj j).length < p * (viewersIn adj vs j .infected).length
        then vs.modify j (fun v => { v with flag := true }) else vs, false) := by
  have hlen : (0 : Rat) < (adj j).length := by
    have : 0 < (adj j).length := List.length_pos_iff.2 hadj
    exact_mod_cast this
  have hne : (adj j).length ≠ 0 := by
    rw [ne_eq, List.length_eq_zero_iff]
    exact hadj
  unfold infectViewer
  rw [hv]
  have hiff := lt_div_iff₀ (a := d.herd j) (b := p * (viewersIn adj vs j .infected).length) hlen
  cases hk : v.kind with
  | dumb =>
    simp only [hk, true_or, if_true]
  | herd =>
    simp only [hk, hp, reduceCtorEq, false_or]
    rw [if_neg hne]
    by_cases h : d.herd j * (adj j).length < p * (viewersIn adj vs j .infected).length
    · rw [if_pos (hiff.2 h), if_pos h]
    · rw [if_neg (fun x => h (hiff.1 x)), if_neg h]
  | wise =>
    simp only [hk, hp, reduceCtorEq, false_or]
    rw [if_neg hne]
    by_cases h : d.herd j * (adj j).length < p * (viewersIn adj vs j .infected).length
    · rw [if_pos (hiff.2 h), if_pos h]
    · rw [if_neg (fun x => h (hiff.1 x)), if_neg h]

theorem viewersIn_congr (adj : Nat → List Nat) {vs vs' : List Viewer} (h : ∀ k : Nat, (vs'[k]?).map Viewer.state = (vs[k]?).map Viewer.state)
    (i : Nat) (s : ViewerState) : viewersIn adj vs' i s = viewersIn adj vs i s := by
  unfold viewersIn
  congr 1
  funext k
  have := h k
  cases h1 : vs[k]? <;> cases h2 : vs'[k]? <;> simp_all

/-- The loop over the neighbours marks exactly those for which the numbers drawn are below the probabilities. -/
theorem spreadNews_exact (P : NewsParams) (adj : Nat → List Nat) (d : NewsDraws) (p : Rat) (hp : P.spread = some p)
    (js : List Nat) (hadj : ∀ j ∈ js, adj j ≠ []) (vs : List Viewer) :
    (spreadNews P adj d js vs).2 = false ∧ ∀ j : Nat, (spreadNews P adj d js vs).1[j]? = (vs[j]?).map (fun v => { v with flag := (v.flag ||
      decide (j ∈ js ∧ d.per j < p ∧ (v.kind = .dumb ∨ d.herd j * (adj j).length < p * (viewersIn adj vs j .infected).length))) }) := by
  induction js generalizing vs with
  | nil =>
    refine ⟨rfl, fun j => ?_⟩
    simp only [spreadNews]
    cases vs[j]? <;> simp
  | cons k js ih =>
    replace ih := ih (fun j hj => hadj j (List.mem_cons_of_mem _ hj))
    simp only [spreadNews, hp]
    by_cases hk : d.per k < p
    · rw [if_pos hk]
      cases hv : vs[k]? with
      | none =>
        have : infectViewer P adj d vs k = (vs, false) := by simp [infectViewer, hv]
        rw [this]
        simp only [Bool.false_eq_true, if_false]
        refine ⟨(ih vs).1, fun j => ?_⟩
        rw [(ih vs).2]
        cases hj : vs[j]? with
        | none => rfl
        | some v =>
          have : j ≠ k := by rintro rfl; rw [hv] at hj; cases hj
          simp [this]
      | some v =>
        rw [C136_infect P adj d vs k v p hv hp (hadj k (List.mem_cons_self ..))]
        simp only [Bool.false_eq_true, if_false]
        by_cases hc : v.kind = .dumb ∨ d.herd k * (adj k).length < p * (viewersIn adj vs k .infected).length
        · rw [if_pos hc]
          refine ⟨(ih _).1, fun j => ?_⟩
          rw [(ih _).2]
          have hst : ∀ q : Nat, ((vs.modify k (fun v => { v with flag := true }))[q]?).map Viewer.state = (vs[q]?).map Viewer.state := by
            intro q
            rw [List.getElem?_modify]
            by_cases hq : k = q
            · cases vs[q]? <;> simp [hq]
            · cases vs[q]? <;> simp [hq]
          rw [viewersIn_congr adj hst, List.getElem?_modify]
          by_cases hq : k = j
          · subst hq
            rw [hv]
            simp [hk, hc]
          · have hq' : ¬ j = k := fun h => hq h.symm
            cases vs[j]? <;> simp [hq, hq']
        · rw [if_neg hc]
          refine ⟨(ih _).1, fun j => ?_⟩
          rw [(ih _).2]
          by_cases hq : j = k
          · subst hq
            rw [hv]
            simp only [Option.map_some, hc, and_false, decide_false, Bool.or_false]
          · cases vs[j]? <;> simp [hq]
    · rw [if_neg hk]
      refine ⟨(ih _).1, fun j => ?_⟩
      rw [(ih _).2]
      by_cases hq : j = k
      · subst hq
        cases vs[j]? <;> simp [hk]
      · cases vs[j]? <;> simp [hq]

/-- C136: an infected viewer that is not wise marks exactly those of its neutral neighbours for which the number drawn is below
`prob_neighbor_spread` and, unless they are dumb, the second number is below that probability times the infected part of their own
neighbours; nothing else changes. -/
theorem C136_spread (P : NewsParams) (adj : Nat → List Nat) (d : NewsDraws) (p : Rat) (hp : P.spread = some p)
    (vs : List Viewer) (i : Nat) (hadj : ∀ j ∈ adj i, adj j ≠ []) (v : Viewer) (hv : vs[i]? = some v) (hk : v.kind ≠ .wise) (hi : v.state = .infected) :
    (actViewer P adj vs i d).2 = false ∧ ∀ j : Nat, (actViewer P adj vs i d).1[j]? = (vs[j]?).map (fun u => { u with flag := (u.flag ||
      decide (j ∈ adj i ∧ u.state = .neutral ∧ d.per j < p ∧
        (u.kind = .dumb ∨ d.herd j * (adj j).length < p * (viewersIn adj vs j .infected).length))) }) := by
  have : actViewer P adj vs i d = spreadNews P adj d (viewersIn adj vs i .neutral) vs := by
    unfold actViewer
    rw [hv]
    cases hkk : v.kind <;> simp_all
  rw [this]
  have hadj' : ∀ j ∈ viewersIn adj vs i .neutral, adj j ≠ [] := fun j hj => hadj j (mem_viewersIn hj).1
  refine ⟨(spreadNews_exact P adj d p hp _ hadj' vs).1, fun j => ?_⟩
  rw [(spreadNews_exact P adj d p hp _ hadj' vs).2]
  cases hj : vs[j]? with
  | none => rfl
  | some u =>
    have : j ∈ viewersIn adj vs i .neutral ↔ j ∈ adj i ∧ u.state = .neutral := by
      simp [viewersIn, hj]
    simp [this, and_assoc]

/-- Viewer 0 is infected; of its neighbours 1 (dumb), 2 (dumb), 3 (herd) those with low numbers are marked. -/
example : (actViewer ⟨some 0, some (1 / 2), some 0⟩ (fun i => if i = 0 then [1, 2, 3] else [0])
      [⟨.dumb, true, true, false, .infected⟩, .new .dumb false, .new .dumb false, .new .herd false] 0
      ⟨0, fun j => if j = 2 then 3 / 4 else 1 / 4, fun _ => 1 / 3⟩).1.map Viewer.flag = [true, true, false, true] := by decide +kernel

/-! ## Examples -/

/-- A line of three viewers: dumb with TV, herd, wise. -/
def newsLine : Nat → List Nat := fun i => if i = 0 then [1] else if i = 1 then [0, 2] else [1]

def newsStart : List Viewer := [Viewer.new .dumb true, Viewer.new .herd false, Viewer.new .wise false]

/-- Everything below the probabilities. -/
def lowDraws : NewsDraws := ⟨0, fun _ => 0, fun _ => 0⟩

/-- The news reaches the wise viewer, whose next activation raises. -/
example : let h := [(0, lowDraws), (0, lowDraws), (1, lowDraws), (1, lowDraws), (2, lowDraws)]
    (runNews ⟨some (1/10), some (1/10), some (1/20)⟩ newsLine h newsStart).2 = false ∧
    (runNews ⟨some (1/10), some (1/10), some (1/20)⟩ newsLine h newsStart).1.map (·.state) = [.infected, .infected, .infected] ∧
    (runNews ⟨some (1/10), some (1/10), some (1/20)⟩ newsLine (h ++ [(2, lowDraws)]) newsStart).2 = true := by decide +kernel

/-- Without `prob_neighbor_spread` the second activation of the first viewer raises. -/
example : (runNews ⟨some (1/10), none, none⟩ newsLine [(0, lowDraws), (0, lowDraws)] newsStart).2 = true ∧
    (runNews ⟨some (1/10), none, none⟩ newsLine [(0, lowDraws)] newsStart).2 = false := by decide +kernel

/-- A herd viewer with one infected neighbour out of two, and 6/10 drawn: not marked with probability 1. -/
example : (actViewer ⟨some 1, some 1, some 1⟩ newsLine [⟨.dumb, true, false, false, .infected⟩, Viewer.new .herd false, Viewer.new .wise false]
    0 ⟨0, fun _ => 1/2, fun _ => 6/10⟩).1[1]?.map (·.flag) = some false := by decide +kernel

end Verif
