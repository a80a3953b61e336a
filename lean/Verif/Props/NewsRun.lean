import Verif.Model.NewsRun
import Verif.Props.ExNews
import Verif.Props.PRounds
import Verif.Props.BuiltinRun
import Verif.Props.Raises

/-!
# C240: whole simulations of the news example
-/

namespace Verif
open Spec

namespace Spec

/-- At most `k` edges away from a viewer with a TV set. -/
def newsNear (adj : Nat → List Nat) (vs : List Viewer) : Nat → Nat → Prop
  | 0, j => ∃ v, vs[j]? = some v ∧ v.tv = true
  | k + 1, j => newsNear adj vs k j ∨ ∃ i, newsNear adj vs k i ∧ j ∈ adj i

/-- Random numbers are between 0 and 1. -/
structure NewsIsDraw (d : NewsDraws) : Prop where
  own : IsDraw d.own
  per : ∀ j, IsDraw (d.per j)
  herd : ∀ j, IsDraw (d.herd j)

/-- In a network without directions, neighbours have neighbours. -/
def NewsSym (adj : Nat → List Nat) : Prop := ∀ i j, j ∈ adj i → i ∈ adj j

/-- All viewers have their turn once, in some order, and nothing is raised. -/
def NewsRound (P : NewsParams) (adj : Nat → List Nat) (n : Nat) (vs vs' : List Viewer) : Prop :=
  ∃ h : List (Nat × NewsDraws), (h.map Prod.fst).Perm (List.range n) ∧ (∀ e ∈ h, NewsIsDraw e.2) ∧ runNews P adj h vs = (vs', false)

end Spec

/-- Nobody is wise. -/
def NoWise (vs : List Viewer) : Prop := ∀ (j : Nat) v, vs[j]? = some v → v.kind ≠ .wise

theorem newsStep_back {P : NewsParams} {adj : Nat → List Nat} {i : Nat} {vs vs' : List Viewer} (h : NewsStep P adj i vs vs') {j : Nat} {v' : Viewer}
    (hv' : vs'[j]? = some v') : ∃ v, vs[j]? = some v ∧ v'.kind = v.kind ∧ v'.tv = v.tv := by
  cases hv : vs[j]? with
  | none => rw [h.back j hv] at hv'; cases hv'
  | some v =>
    obtain ⟨u, h1, h2, h3⟩ := h.same j v hv
    rw [h1] at hv'
    cases hv'
    exact ⟨v, rfl, h2, h3⟩

theorem NoWise.step {P : NewsParams} {adj : Nat → List Nat} {i : Nat} {vs vs' : List Viewer} (hn : NoWise vs) (h : NewsStep P adj i vs vs') : NoWise vs' := by
  intro j v' hv'
  obtain ⟨v, h1, h2, -⟩ := newsStep_back h hv'
  rw [h2]
  exact hn j v h1

/-- What is assumed of the model: the probabilities are given (see C138), and the network has no directions. -/
structure NewsGiven (P : NewsParams) (adj : Nat → List Nat) : Prop where
  tv : P.tvSpread ≠ none
  spread : P.spread ≠ none
  sym : NewsSym adj

theorem news_quiet {P : NewsParams} {adj : Nat → List Nat} (hP : NewsGiven P adj) {vs : List Viewer} (hn : NoWise vs) (hc : ∀ (j : Nat) v, vs[j]? = some v → v.state ≠ .cured)
    (i : Nat) (d : NewsDraws) : (actViewer P adj vs i d).2 = false := by
  obtain ⟨p, hp⟩ := Option.ne_none_iff_exists'.1 hP.spread
  obtain ⟨q, hq⟩ := Option.ne_none_iff_exists'.1 hP.tv
  cases hv : vs[i]? with
  | none => simp [actViewer, hv]
  | some v =>
    cases hs : v.state with
    | neutral => rw [C136_neutral P adj vs i d v q hv hs hq]
    | infected =>
      refine (C136_spread P adj d p hp vs i (fun j hj => ?_) v hv (hn i v hv) hs).1
      exact List.ne_nil_of_mem (hP.sym i j hj)
    | cured => exact absurd hs (hc i v hv)

/-- Nobody is wise, nor cured. -/
structure NewsOk (vs : List Viewer) : Prop where
  wise : NoWise vs
  cured : ∀ (j : Nat) v, vs[j]? = some v → v.state ≠ .cured

theorem NewsOk.step {P : NewsParams} {adj : Nat → List Nat} {i : Nat} {vs vs' : List Viewer} (hn : NewsOk vs) (h : NewsStep P adj i vs vs') : NewsOk vs' := by
  refine ⟨hn.wise.step h, ?_⟩
  intro j v' hv' hc
  obtain ⟨v, h1, h2, -⟩ := newsStep_back h hv'
  have h0 := hn.cured j v h1
  have := (h.state j v v' h1 hv' (by rw [hc]; exact fun e => h0 e.symm)).2
  rcases this with ⟨-, h3, -⟩ | ⟨-, -, h3, -⟩
  · rw [hc] at h3; cases h3
  · exact hn.wise j v h1 h3

/-- Turns one after the other are a history. -/
theorem news_fold {P : NewsParams} {adj : Nat → List Nat} (hP : NewsGiven P adj) (f : NewsWorld → Ref → NewsWorld)
    (hf : ∀ w r, ∃ d, NewsIsDraw d ∧ (f w r).viewers = (actViewer P adj w.viewers r d).1) (l : List Ref) (w : NewsWorld) (hw : NewsOk w.viewers) :
    ∃ h : List (Nat × NewsDraws), h.map Prod.fst = l ∧ (∀ e ∈ h, NewsIsDraw e.2) ∧ runNews P adj h w.viewers = ((l.foldl f w).viewers, false) := by
  induction l generalizing w with
  | nil => exact ⟨[], rfl, by simp, rfl⟩
  | cons r l ih =>
    obtain ⟨d, hd, hv⟩ := hf w r
    have hq := news_quiet hP hw.wise hw.cured r d
    obtain ⟨h, h1, h2, h3⟩ := ih (f w r) (by rw [hv]; exact hw.step (actViewer_step P adj w.viewers r d))
    refine ⟨(r, d) :: h, by simp [h1], ?_, ?_⟩
    · intro e he
      rcases List.mem_cons.1 he with rfl | he
      · exact hd
      · exact h2 e he
    · simp only [runNews, hq, Bool.false_eq_true, if_false, List.foldl_cons]
      rw [← hv]
      exact h3

/-! ### Rounds -/

theorem runNews_append (P : NewsParams) (adj : Nat → List Nat) (h1 h2 : List (Nat × NewsDraws)) (vs : List Viewer) (vs' : List Viewer)
    (h : runNews P adj (h1 ++ h2) vs = (vs', false)) : ∃ u, runNews P adj h1 vs = (u, false) ∧ runNews P adj h2 u = (vs', false) := by
  induction h1 generalizing vs with
  | nil => exact ⟨vs, rfl, h⟩
  | cons e h1 ih =>
    obtain ⟨i, d⟩ := e
    simp only [List.cons_append, runNews] at h ⊢
    split at h
    · rename_i hb
      rw [h] at hb
      cases hb
    · rename_i hb
      rw [if_neg hb]
      exact ih _ h

/-- In a round every viewer has a turn. -/
theorem newsRound_split {P : NewsParams} {adj : Nat → List Nat} {n : Nat} {vs vs' : List Viewer} (h : NewsRound P adj n vs vs') {i : Nat} (hi : i < n) :
    ∃ h1 h2 d u u', NewsIsDraw d ∧ runNews P adj h1 vs = (u, false) ∧ actViewer P adj u i d = (u', false) ∧ runNews P adj h2 u' = (vs', false) := by
  obtain ⟨h, hp, hd, hr⟩ := h
  have hm : i ∈ h.map Prod.fst := hp.mem_iff.2 (List.mem_range.2 hi)
  obtain ⟨e, he, rfl⟩ := List.mem_map.1 hm
  obtain ⟨h1, h2, rfl⟩ := List.append_of_mem he
  obtain ⟨u, hu1, hu2⟩ := runNews_append P adj h1 (e :: h2) vs vs' hr
  obtain ⟨i, d⟩ := e
  simp only [runNews] at hu2
  split at hu2
  · rename_i hb
    rw [hu2] at hb
    cases hb
  · rename_i hb
    refine ⟨h1, h2, d, u, _, hd _ he, hu1, Prod.ext rfl ?_, hu2⟩
    simpa using hb

/-- Whoever is marked or infected stays so. -/
def newsHeard (vs : List Viewer) (j : Nat) : Prop := ∃ v, vs[j]? = some v ∧ (v.flag = true ∨ v.state = .infected)

/-- Infected. -/
def newsInfected (vs : List Viewer) (j : Nat) : Prop := ∃ v, vs[j]? = some v ∧ v.state = .infected

theorem infected_step {P : NewsParams} {adj : Nat → List Nat} {i : Nat} {vs vs' : List Viewer} (hn : NoWise vs) (h : NewsStep P adj i vs vs') {j : Nat}
    (hj : newsInfected vs j) : newsInfected vs' j := by
  obtain ⟨v, h1, h2⟩ := hj
  obtain ⟨v', h3, -⟩ := h.same j v h1
  refine ⟨v', h3, ?_⟩
  by_contra hne
  rcases (h.state j v v' h1 h3 (by rw [h2]; exact hne)).2 with ⟨h4, -⟩ | ⟨-, -, h4, -⟩
  · rw [h2] at h4; cases h4
  · exact hn j v h1 h4

theorem heard_step {P : NewsParams} {adj : Nat → List Nat} {i : Nat} {vs vs' : List Viewer} (hn : NoWise vs) (h : NewsStep P adj i vs vs') {j : Nat}
    (hj : newsHeard vs j) : newsHeard vs' j := by
  obtain ⟨v, h1, h2 | h2⟩ := hj
  · obtain ⟨v', h3, -⟩ := h.same j v h1
    exact ⟨v', h3, Or.inl (h.flagged j v v' h1 h3 h2)⟩
  · obtain ⟨v', h3, h4⟩ := infected_step hn h ⟨v, h1, h2⟩
    exact ⟨v', h3, Or.inr h4⟩

theorem news_run_keeps {P : NewsParams} {adj : Nat → List Nat} (h : List (Nat × NewsDraws)) {vs vs' : List Viewer} (hr : runNews P adj h vs = (vs', false))
    (hn : NewsOk vs) : NewsOk vs' ∧ (∀ j, newsInfected vs j → newsInfected vs' j) ∧ (∀ j, newsHeard vs j → newsHeard vs' j) ∧
      ∀ (j : Nat) v, vs[j]? = some v → ∃ v', vs'[j]? = some v' ∧ v'.kind = v.kind ∧ v'.tv = v.tv := by
  have : ∀ Q : List Viewer → Prop, (∀ us i us', NewsOk us → Q us → NewsStep P adj i us us' → Q us') → Q vs → Q vs' := by
    intro Q hQ h0
    have := (runNews_induct P adj (fun us => NewsOk us ∧ Q us) h (fun us i us' hu hs => ⟨hu.1.step hs, hQ us i us' hu.1 hu.2 hs⟩) vs ⟨hn, h0⟩).2
    rw [hr] at this
    exact this
  refine ⟨this NewsOk (fun us i us' hu _ hs => hu.step hs) hn, fun j hj => this (newsInfected · j) (fun us i us' hu h hs => infected_step hu.wise hs h) hj,
    fun j hj => this (newsHeard · j) (fun us i us' hu h hs => heard_step hu.wise hs h) hj, fun j v hv => ?_⟩
  refine this (fun us => ∃ v', us[j]? = some v' ∧ v'.kind = v.kind ∧ v'.tv = v.tv) ?_ ⟨v, hv, rfl, rfl⟩
  rintro us i us' hu ⟨v', h1, h2, h3⟩ hs
  obtain ⟨v'', h4, h5, h6⟩ := hs.same j v' h1
  exact ⟨v'', h4, h5.trans h2, h6.trans h3⟩

/-- Who has heard of it is infected after the round, and so is, if the probability of the TV is 1, who has a TV set. -/
theorem round_infects {P : NewsParams} {adj : Nat → List Nat} {n : Nat} {vs vs' : List Viewer} (hP : NewsGiven P adj) (h : NewsRound P adj n vs vs') (hn : NewsOk vs) {j : Nat}
    (hj : j < n) (hh : newsHeard vs j ∨ ((∃ v, vs[j]? = some v ∧ v.tv = true) ∧ ∃ q, P.tvSpread = some q ∧ 1 ≤ q)) : newsInfected vs' j := by
  obtain ⟨h1, h2, d, u, u', hd, g1, g2, g3⟩ := newsRound_split h hj
  obtain ⟨k1, k2, k3, k4⟩ := news_run_keeps h1 g1 hn
  obtain ⟨q, hq⟩ := Option.ne_none_iff_exists'.1 hP.tv
  have hu : newsInfected u' j := by
    have hact := actViewer_step P adj u j d
    have e : (actViewer P adj u j d).1 = u' := by rw [g2]
    rw [e] at hact
    have key : ∀ v, u[j]? = some v → (v.flag = true ∨ v.state = .infected ∨ (v.tv = true ∧ 1 ≤ q)) → newsInfected u' j := by
      intro v hv hc
      by_cases hi : v.state = .infected
      · exact infected_step k1.wise hact ⟨v, hv, hi⟩
      · have hneu : v.state = .neutral := by
          cases hs : v.state with
          | neutral => rfl
          | infected => exact absurd hs hi
          | cured => exact absurd hs (k1.cured j v hv)
        have := C136_neutral P adj u j d v q hv hneu hq
        rw [if_pos, g2] at this
        · obtain ⟨this, -⟩ := Prod.mk.inj this
          refine ⟨{ v with state := .infected }, ?_, rfl⟩
          rw [this, getElem?_modify_view, if_pos rfl, hv]
          rfl
        · rcases hc with hc | hc | ⟨hc, hq1⟩
          · exact Or.inl hc
          · exact absurd hc hi
          · exact Or.inr ⟨hc, lt_of_lt_of_le hd.own.2 hq1⟩
    rcases hh with hh | ⟨⟨v, hv, htv⟩, q', hq', hq1⟩
    · obtain ⟨v, hv, hc⟩ := k3 j hh
      exact key v hv (hc.elim Or.inl (fun x => Or.inr (Or.inl x)))
    · obtain ⟨v', hv', -, ht'⟩ := k4 j v hv
      rw [hq] at hq'
      cases hq'
      exact key v' hv' (Or.inr (Or.inr ⟨ht'.trans htv, hq1⟩))
  have ok' : NewsOk u' := by
    have hact := actViewer_step P adj u j d
    rw [g2] at hact
    exact k1.step hact
  exact (news_run_keeps h2 g3 ok').2.1 j hu

/-- If the probability is 1, the neighbours of infected viewers have heard of it after the round, if they are dumb. -/
theorem round_marks {P : NewsParams} {adj : Nat → List Nat} {n : Nat} {vs vs' : List Viewer} (hP : NewsGiven P adj) (h : NewsRound P adj n vs vs') (hn : NewsOk vs)
    (p : Rat) (hp : P.spread = some p) (hp1 : 1 ≤ p) {i j : Nat} (hi : i < n) (hinf : newsInfected vs i) (hj : j ∈ adj i) (hdumb : ∃ v, vs[j]? = some v ∧ v.kind = .dumb) :
    newsHeard vs' j := by
  obtain ⟨h1, h2, d, u, u', hd, g1, g2, g3⟩ := newsRound_split h hi
  obtain ⟨k1, k2, k3, k4⟩ := news_run_keeps h1 g1 hn
  obtain ⟨v, hv, hs⟩ := k2 i hinf
  obtain ⟨w0, hw0, hk0⟩ := hdumb
  obtain ⟨w, hw, hk, -⟩ := k4 j w0 hw0
  rw [hk0] at hk
  have hsp := (C136_spread P adj d p hp u i (fun j hj => List.ne_nil_of_mem (hP.sym i j hj)) v hv (k1.wise i v hv) hs).2 j
  rw [g2, hw] at hsp
  have hu : newsHeard u' j := by
    refine ⟨_, hsp, ?_⟩
    cases hws : w.state with
    | neutral =>
      left
      have : j ∈ adj i ∧ w.state = .neutral ∧ d.per j < p ∧
          (w.kind = .dumb ∨ d.herd j * (adj j).length < p * (viewersIn adj u j .infected).length) :=
        ⟨hj, hws, lt_of_lt_of_le (hd.per j).2 hp1, Or.inl hk⟩
      simp only [Bool.or_eq_true, decide_eq_true_eq]
      exact Or.inr this
    | infected => exact Or.inr rfl
    | cured => exact absurd hws (k1.cured j w hw)
  have ok' : NewsOk u' := by
    have hact := actViewer_step P adj u i d
    rw [g2] at hact
    exact k1.step hact
  exact (news_run_keeps h2 g3 ok').2.2.1 j hu

/-- Near viewers exist, if the network consists of viewers. -/
theorem newsNear_lt {adj : Nat → List Nat} {vs : List Viewer} (hadj : ∀ i j, j ∈ adj i → j < vs.length) {k j : Nat} (h : newsNear adj vs k j) : j < vs.length := by
  induction k generalizing j with
  | zero =>
    obtain ⟨v, hv, -⟩ := h
    exact (List.getElem?_eq_some_iff.1 hv).1
  | succ k ih =>
    rcases h with h | ⟨i, -, h⟩
    · exact ih h
    · exact hadj i j h

/-- The news in rounds, if all probabilities are 1 and everybody is dumb. -/
theorem rounds_reach {P : NewsParams} {adj : Nat → List Nat} (hP : NewsGiven P adj) (q : Rat) (hq : P.tvSpread = some q) (hq1 : 1 ≤ q) (p : Rat) (hp : P.spread = some p)
    (hp1 : 1 ≤ p) (seq : Nat → List Viewer) (hdumb : ∀ (j : Nat) v, (seq 0)[j]? = some v → v.kind = .dumb) (hc : ∀ (j : Nat) v, (seq 0)[j]? = some v → v.state ≠ .cured)
    (hadj : ∀ i j, j ∈ adj i → j < (seq 0).length) (hr : ∀ k, NewsRound P adj (seq 0).length (seq k) (seq (k + 1))) (k m j : Nat) (hm : 2 * k + 1 ≤ m)
    (hj : newsNear adj (seq 0) k j) : newsInfected (seq m) j := by
  have hall : ∀ m, NewsOk (seq m) ∧ ∀ (j : Nat) v, (seq 0)[j]? = some v → ∃ v', (seq m)[j]? = some v' ∧ v'.kind = v.kind ∧ v'.tv = v.tv := by
    intro m
    induction m with
    | zero => exact ⟨⟨fun j v hv => by rw [hdumb j v hv]; decide, hc⟩, fun j v hv => ⟨v, hv, rfl, rfl⟩⟩
    | succ m ih =>
      obtain ⟨h, -, -, hrn⟩ := hr m
      obtain ⟨k1, -, -, k4⟩ := news_run_keeps h hrn ih.1
      refine ⟨k1, fun j v hv => ?_⟩
      obtain ⟨v', h1, h2, h3⟩ := ih.2 j v hv
      obtain ⟨v'', h4, h5, h6⟩ := k4 j v' h1
      exact ⟨v'', h4, h5.trans h2, h6.trans h3⟩
  have mono : ∀ m m', m ≤ m' → ∀ j, newsInfected (seq m) j → newsInfected (seq m') j := by
    intro m m' hle j hj
    induction hle with
    | refl => exact hj
    | step _ ih =>
      obtain ⟨h, -, -, hrn⟩ := hr _
      exact (news_run_keeps h hrn (hall _).1).2.1 j ih
  refine mono _ _ hm j ?_
  clear hm m
  induction k generalizing j with
  | zero =>
    obtain ⟨v, hv, htv⟩ := hj
    exact round_infects hP (hr 0) (hall 0).1 (List.getElem?_eq_some_iff.1 hv).1 (Or.inr ⟨⟨v, hv, htv⟩, q, hq, hq1⟩)
  | succ k ih =>
    rcases hj with hj | ⟨i, hi, hj⟩
    · exact mono (2 * k + 1) _ (by omega) j (ih j hj)
    · have hjn := hadj i j hj
      obtain ⟨v', h1, h2, -⟩ := (hall (2 * k + 1)).2 j _ (List.getElem?_eq_getElem hjn)
      have := round_marks hP (hr (2 * k + 1)) (hall _).1 p hp hp1 (newsNear_lt hadj hi) (ih i hi) hj ⟨v', h1, h2.trans (hdumb j _ (List.getElem?_eq_getElem hjn))⟩
      exact round_infects hP (hr (2 * k + 1 + 1)) (hall _).1 hjn (Or.inl this)

/-! ### The speed of the news -/

theorem newsNear_mono {adj : Nat → List Nat} {vs : List Viewer} {k m j : Nat} (h : newsNear adj vs k j) (hm : k ≤ m) : newsNear adj vs m j := by
  induction hm with
  | refl => exact h
  | step _ ih => exact Or.inl ih

/-- Near in fewer than `k` edges. -/
def nearBefore (adj : Nat → List Nat) (vs : List Viewer) (k j : Nat) : Prop := ∃ m < k, newsNear adj vs m j

/-- A round, one turn after the other: `acted` are those who have had their turn. -/
theorem speed_turns {P : NewsParams} {adj : Nat → List Nat} (vs0 : List Viewer) (k : Nat) (h : List (Nat × NewsDraws)) (acted : List Nat) (vs vs' : List Viewer)
    (hnd : (acted ++ h.map Prod.fst).Nodup) (hr : runNews P adj h vs = (vs', false)) (hn : NewsOk vs)
    (htv : ∀ (j : Nat) v, vs[j]? = some v → v.tv = true → ∃ v0, vs0[j]? = some v0 ∧ v0.tv = true)
    (h1 : ∀ (j : Nat) v, vs[j]? = some v → v.flag = true ∨ v.state = .infected → nearBefore adj vs0 (k + 1) j)
    (h2 : ∀ (j : Nat) v, vs[j]? = some v → j ∉ acted → v.state = .infected → nearBefore adj vs0 k j) :
    ∀ (j : Nat) v, vs'[j]? = some v → v.flag = true ∨ v.state = .infected → nearBefore adj vs0 (k + 1) j := by
  induction h generalizing acted vs with
  | nil =>
    cases hr
    exact h1
  | cons e h ih =>
    obtain ⟨i, d⟩ := e
    simp only [runNews] at hr
    split at hr
    · rename_i hb
      rw [hr] at hb
      cases hb
    · have hst := actViewer_step P adj vs i d
      simp only [List.map_cons] at hnd
      have hni : i ∉ acted := fun hm => (List.disjoint_of_nodup_append hnd) hm (List.mem_cons_self ..)
      refine ih (acted ++ [i]) _ (by simpa using hnd) hr (hn.step hst) ?_ ?_ ?_
      · intro j v hv ht
        obtain ⟨u, hu, -, hut⟩ := newsStep_back hst hv
        exact htv j u hu (hut ▸ ht)
      · intro j v hv hc
        obtain ⟨u, hu, -, hut⟩ := newsStep_back hst hv
        by_cases hold : u.flag = true ∨ u.state = .infected
        · exact h1 j u hu hold
        · rw [not_or] at hold
          rcases hc with hc | hc
          · obtain ⟨hji, -, w, hw, hws⟩ := hst.flag j u v hu hv hc (by simpa using hold.1)
            obtain ⟨m, hm, hne⟩ := h2 i w hw hni hws
            exact ⟨m + 1, by omega, Or.inr ⟨i, hne, hji⟩⟩
          · obtain ⟨-, ⟨-, -, hft⟩ | ⟨-, hcc, -⟩⟩ := hst.state j u v hu hv (by rw [hc]; exact fun e => hold.2 e.symm)
            · rcases hft with hft | hft
              · exact absurd hft hold.1
              · exact ⟨0, by omega, htv j u hu hft⟩
            · rw [hc] at hcc; cases hcc
      · intro j v hv hja hc
        simp only [List.mem_append, List.mem_singleton, not_or] at hja
        obtain ⟨u, hu, -⟩ := newsStep_back hst hv
        have : u.state = .infected := by
          by_contra hne
          exact hja.2 (hst.state j u v hu hv (by rw [hc]; exact fun e => hne e.symm)).1
        exact h2 j u hu hja.1 this

theorem rounds_speed {P : NewsParams} {adj : Nat → List Nat} (seq : Nat → List Viewer) (n : Nat) (hok : NewsOk (seq 0))
    (h0 : ∀ (j : Nat) v, (seq 0)[j]? = some v → v.state = .neutral ∧ v.flag = false) (hr : ∀ k, NewsRound P adj n (seq k) (seq (k + 1))) (k j : Nat) (v : Viewer)
    (hv : (seq k)[j]? = some v) (hi : v.state = .infected) : nearBefore adj (seq 0) k j := by
  have main : ∀ k, NewsOk (seq k) ∧ (∀ (j : Nat) v, (seq k)[j]? = some v → v.tv = true → ∃ v0, (seq 0)[j]? = some v0 ∧ v0.tv = true) ∧
      ∀ (j : Nat) v, (seq k)[j]? = some v → v.flag = true ∨ v.state = .infected → nearBefore adj (seq 0) k j := by
    intro k
    induction k with
    | zero =>
      refine ⟨hok, fun j v hv ht => ⟨v, hv, ht⟩, ?_⟩
      intro j v hv hc
      obtain ⟨h1, h2⟩ := h0 j v hv
      rcases hc with hc | hc
      · rw [h2] at hc; cases hc
      · rw [h1] at hc; cases hc
    | succ k ih =>
      obtain ⟨i1, i2, i3⟩ := ih
      obtain ⟨h, hp, -, hrn⟩ := hr k
      refine ⟨(news_run_keeps h hrn i1).1, ?_, ?_⟩
      · have := runNews_induct P adj (fun us => ∀ (j : Nat) v, us[j]? = some v → v.tv = true → ∃ v0, (seq 0)[j]? = some v0 ∧ v0.tv = true) h ?_ (seq k) i2
        · rw [hrn] at this
          exact this
        · intro us i us' hu hs j v hv ht
          obtain ⟨u, h1, -, h3⟩ := newsStep_back hs hv
          exact hu j u h1 (h3 ▸ ht)
      · refine speed_turns (seq 0) k h [] (seq k) (seq (k + 1)) ?_ hrn i1 i2 ?_ ?_
        · rw [List.nil_append]
          exact hp.nodup_iff.2 List.nodup_range
        · intro j v hv hc
          obtain ⟨m, hm, hne⟩ := i3 j v hv hc
          exact ⟨m, by omega, hne⟩
        · intro j v hv _ hc
          exact i3 j v hv (Or.inr hc)
  exact (main k).2.2 j v hv (Or.inr hi)

/-! ### Inside the schedulers -/

/-- The simulation with the default scheduler after `k` steps. -/
def newsRunT (N : NewsNet) (iv : Rat) (sh : Bool) (w : NewsWorld) (k : Nat) : Sched × NewsWorld :=
  iterStep (timedStepper (newsHost N)) k (roundsStart w.viewers.length iv sh w)

/-- The simulation with `PQueueActivation` after `k` steps. -/
def newsRunP (N : NewsNet) (iv : Rat) (loop : Nat) (w : NewsWorld) (k : Nat) : PSched × NewsWorld :=
  iterStep (pqStepper (newsPHost N) loop) k (roundsPStart (newsPHost N) w.viewers.length iv w)

theorem news_mesa {N : NewsNet} (hP : NewsGiven N.P N.adj) (n : Nat) (iv : Rat) :
    MesaHost (newsHost N) n iv (fun r _ _ _ w => (newsTurn N r w).2) (fun w => NewsOk w.viewers) where
  step r _ s w t hw _ := by
    have := news_quiet hP hw.wise hw.cured r (N.draws w.used)
    simp only [newsHost, newsTurn, this, Bool.false_eq_true, if_false]
  inv r _ _ _ _ w hw := hw.step (actViewer_step N.P N.adj w.viewers r (N.draws w.used))
  shuffle _ _ hw := hw

theorem news_mesaP {N : NewsNet} (hP : NewsGiven N.P N.adj) (n : Nat) (iv : Rat) :
    MesaPHost (newsPHost N) n iv (fun r _ _ _ w => (newsTurn N r w).2) (fun w => NewsOk w.viewers) where
  step r _ s w t hw _ := by
    have := news_quiet hP hw.wise hw.cured r (N.draws w.used)
    simp only [newsPHost, newsTurn, this, Bool.false_eq_true, if_false]
  inv r _ _ _ _ w hw := hw.step (actViewer_step N.P N.adj w.viewers r (N.draws w.used))
  key _ _ hw := hw

/-- With both schedulers the simulation consists of rounds. -/
theorem news_rounds {N : NewsNet} (hP : NewsGiven N.P N.adj) (hd : ∀ u, NewsIsDraw (N.draws u)) (iv : Rat) (hiv : 0 < iv) (sh : Bool) (loop : Nat) (w : NewsWorld)
    (hn : 0 < w.viewers.length) (hl : w.viewers.length ≤ loop) (hw : NewsOk w.viewers) :
    ((newsRunT N iv sh w 0).2.viewers = w.viewers ∧ ∀ k, NewsRound N.P N.adj w.viewers.length (newsRunT N iv sh w k).2.viewers (newsRunT N iv sh w (k + 1)).2.viewers) ∧
    ((newsRunP N iv loop w 0).2.viewers = w.viewers ∧ ∀ k, NewsRound N.P N.adj w.viewers.length (newsRunP N iv loop w k).2.viewers (newsRunP N iv loop w (k + 1)).2.viewers) := by
  refine ⟨⟨rfl, fun k => ?_⟩, ?_, fun k => ?_⟩
  · obtain ⟨order, w1, h1, h2, h3⟩ := mesa_order hn hiv (news_mesa hP w.viewers.length iv) sh w hw k
    have hv : w1.viewers = (newsRunT N iv sh w k).2.viewers := by
      rcases h2 with ⟨-, -, rfl⟩ | ⟨l, rfl⟩
      · rfl
      · rfl
    have ok : NewsOk w1.viewers := by
      rw [hv]
      exact mesa_inv hn hiv (news_mesa hP w.viewers.length iv) sh w hw k
    obtain ⟨h, g1, g2, g3⟩ := news_fold hP (fun w r => (newsTurn N r w).2) (fun w r => ⟨N.draws w.used, hd _, rfl⟩) order w1 ok
    refine ⟨h, by rw [g1]; exact h1, g2, ?_⟩
    rw [hv] at g3
    rw [g3]
    show _ = ((iterStep (timedStepper (newsHost N)) (k + 1) (roundsStart w.viewers.length iv sh w)).2.viewers, false)
    rw [h3]
  · obtain ⟨s0, w1, e0, h0, hw1, -⟩ := prounds_start (newsPHost N) (fun w => NewsOk w.viewers) (news_mesaP hP w.viewers.length iv).key w.viewers.length iv w hw
    have : (newsRunP N iv loop w 0).2 = w1 := by simp [newsRunP, iterStep, roundsPStart, e0]
    rw [this, hw1]
    have : ∀ (l : List Ref) (w : NewsWorld), (l.foldl (fun w r => ((newsPHost N).key r w).2) w).viewers = w.viewers := by
      intro l
      induction l with
      | nil => exact fun _ => rfl
      | cons r l ih => exact fun w => ih _
    exact this _ _
  · obtain ⟨-, -, -, -, order, h1, h2, -⟩ := C230_pqueue_partial (newsPHost N) w.viewers.length hn iv hiv _ _ (news_mesaP hP w.viewers.length iv) loop hl w hw k
    have ok : NewsOk (newsRunP N iv loop w k).2.viewers :=
      (prounds_iter hn hiv (news_mesaP hP w.viewers.length iv) loop hl w hw k).inv
    obtain ⟨h, g1, g2, g3⟩ := news_fold hP (turnWith (newsPHost N) (fun r _ _ _ w => (newsTurn N r w).2) k k (List.range w.viewers.length))
      (fun w r => ⟨N.draws w.used, hd _, rfl⟩) order (newsRunP N iv loop w k).2 ok
    refine ⟨h, by rw [g1]; exact h1, g2, ?_⟩
    rw [g3]
    show _ = ((iterStep (pqStepper (newsPHost N) loop) (k + 1) (roundsPStart (newsPHost N) w.viewers.length iv w)).2.viewers, false)
    rw [h2]
    rfl

/-- C240 (partial: probabilities given, nobody wise): nothing is raised, with either scheduler; the clock is at `k` intervals after `k` steps; and a simulation with
`max_steps` returns after exactly that number of steps. -/
theorem C240_runs_partial (N : NewsNet) (hP : NewsGiven N.P N.adj) (iv : Rat) (hiv : 0 < iv) (sh : Bool) (loop : Nat) (w : NewsWorld)
    (hn : 0 < w.viewers.length) (hl : w.viewers.length ≤ loop) (hw : NewsOk w.viewers) (k fuel : Nat) (hf : k ≤ fuel) :
    (newsRunT N iv sh w k).1.time = .fin (k * iv) ∧ ((newsRunT N iv sh w k).1.step (newsHost N) (newsRunT N iv sh w k).2).2.2 = false ∧
    (newsRunP N iv loop w k).1.time = .fin (k * iv) ∧ ((newsRunP N iv loop w k).1.step (newsPHost N) loop (newsRunP N iv loop w k).2).2.2 = .ok ∧
    runModel (timedStepper (newsHost N)) none (some k) fuel (roundsStart w.viewers.length iv sh w) = .done (newsRunT N iv sh w k) ∧
    runModel (pqStepper (newsPHost N) loop) none (some k) fuel (roundsPStart (newsPHost N) w.viewers.length iv w) = .done (newsRunP N iv loop w k) := by
  obtain ⟨ms, -, -, h3⟩ := mesa_iter hn hiv (news_mesa hP w.viewers.length iv) sh w hw
  have ht := (h3 k).2.1.round.time
  rw [(h3 k).1] at ht
  obtain ⟨p1, -, -, p4, -⟩ := C230_pqueue_partial (newsPHost N) w.viewers.length hn iv hiv _ _ (news_mesaP hP w.viewers.length iv) loop hl w hw k
  exact ⟨ht, (h3 k).2.2, p1, p4, (C230_ends_partial (newsHost N) w.viewers.length hn iv hiv _ _ (news_mesa hP w.viewers.length iv) sh w hw fuel k hf).1,
    (C230_pqueue_ends_partial (newsPHost N) w.viewers.length hn iv hiv _ _ (news_mesaP hP w.viewers.length iv) loop hl w hw fuel k hf).1⟩

/-- C240 (partial: everybody dumb): if the probabilities are 1, everybody who is at most `k` edges away from a TV set is infected after `2k + 1` steps, and stays so:
with either scheduler, with or without shuffling. -/
theorem C240_reach_partial (N : NewsNet) (hsym : NewsSym N.adj) (hd : ∀ u, NewsIsDraw (N.draws u)) (q p : Rat) (hq : N.P.tvSpread = some q) (hq1 : 1 ≤ q)
    (hp : N.P.spread = some p) (hp1 : 1 ≤ p) (iv : Rat) (hiv : 0 < iv) (sh : Bool) (loop : Nat) (w : NewsWorld) (hl : w.viewers.length ≤ loop)
    (hw : ∀ v ∈ w.viewers, v.kind = .dumb ∧ v.state ≠ .cured) (hadj : ∀ i j, j ∈ N.adj i → j < w.viewers.length) (k m j : Nat) (hm : 2 * k + 1 ≤ m)
    (hj : newsNear N.adj w.viewers k j) :
    (∃ v, (newsRunT N iv sh w m).2.viewers[j]? = some v ∧ v.state = .infected) ∧ ∃ v, (newsRunP N iv loop w m).2.viewers[j]? = some v ∧ v.state = .infected := by
  have hP : NewsGiven N.P N.adj := ⟨by rw [hq]; simp, by rw [hp]; simp, hsym⟩
  have hw1 : ∀ (j : Nat) v, w.viewers[j]? = some v → v.kind = .dumb := fun j v hv => (hw v (List.mem_of_getElem? hv)).1
  have hw2 : ∀ (j : Nat) v, w.viewers[j]? = some v → v.state ≠ .cured := fun j v hv => (hw v (List.mem_of_getElem? hv)).2
  have hok : NewsOk w.viewers := ⟨fun j v hv => by rw [hw1 j v hv]; decide, hw2⟩
  have hn : 0 < w.viewers.length := Nat.lt_of_le_of_lt (Nat.zero_le _) (newsNear_lt hadj hj)
  obtain ⟨⟨a1, a2⟩, b1, b2⟩ := news_rounds hP hd iv hiv sh loop w hn hl hok
  constructor
  · refine rounds_reach hP q hq hq1 p hp hp1 (fun k => (newsRunT N iv sh w k).2.viewers) ?_ ?_ ?_ ?_ k m j hm ?_
    · rw [a1]; exact hw1
    · rw [a1]; exact hw2
    · rw [a1]; exact hadj
    · rw [a1]; exact a2
    · rw [a1]; exact hj
  · refine rounds_reach hP q hq hq1 p hp hp1 (fun k => (newsRunP N iv loop w k).2.viewers) ?_ ?_ ?_ ?_ k m j hm ?_
    · rw [b1]; exact hw1
    · rw [b1]; exact hw2
    · rw [b1]; exact hadj
    · rw [b1]; exact b2
    · rw [b1]; exact hj

/-- C240 (partial: nobody wise): whatever the probabilities and the random numbers are, the news travels at most one edge per step: who is infected after `k` steps is
fewer than `k` edges away from a TV set. -/
theorem C240_speed_partial (N : NewsNet) (hP : NewsGiven N.P N.adj) (hd : ∀ u, NewsIsDraw (N.draws u)) (iv : Rat) (hiv : 0 < iv) (sh : Bool) (loop : Nat)
    (w : NewsWorld) (hl : w.viewers.length ≤ loop) (hw : ∀ v ∈ w.viewers, v.kind ≠ .wise ∧ v.state = .neutral ∧ v.flag = false) (k j : Nat) :
    (∀ v, (newsRunT N iv sh w k).2.viewers[j]? = some v → v.state = .infected → ∃ m < k, newsNear N.adj w.viewers m j) ∧
    (∀ v, (newsRunP N iv loop w k).2.viewers[j]? = some v → v.state = .infected → ∃ m < k, newsNear N.adj w.viewers m j) := by
  have hok : NewsOk w.viewers := ⟨fun j v hv => (hw v (List.mem_of_getElem? hv)).1, fun j v hv => by rw [(hw v (List.mem_of_getElem? hv)).2.1]; decide⟩
  have h0 : ∀ (j : Nat) v, w.viewers[j]? = some v → v.state = .neutral ∧ v.flag = false := fun j v hv => (hw v (List.mem_of_getElem? hv)).2
  by_cases hn : 0 < w.viewers.length
  · obtain ⟨⟨a1, a2⟩, b1, b2⟩ := news_rounds hP hd iv hiv sh loop w hn hl hok
    constructor
    · intro v hv hi
      have := rounds_speed (P := N.P) (adj := N.adj) (fun k => (newsRunT N iv sh w k).2.viewers) w.viewers.length (by rw [a1]; exact hok) (by rw [a1]; exact h0) a2 k j v hv hi
      rw [a1] at this
      exact this
    · intro v hv hi
      have := rounds_speed (P := N.P) (adj := N.adj) (fun k => (newsRunP N iv loop w k).2.viewers) w.viewers.length (by rw [b1]; exact hok) (by rw [b1]; exact h0) b2 k j v hv hi
      rw [b1] at this
      exact this
  · have hnil : w.viewers = [] := List.length_eq_zero_iff.1 (Nat.eq_zero_of_not_pos hn)
    have hT : ∀ k, (newsRunT N iv sh w k).1.queue = [] ∧ (newsRunT N iv sh w k).2.viewers = [] := by
      intro k
      induction k with
      | zero => exact ⟨by simp [newsRunT, iterStep, roundsStart, hnil, Sched.applyOps, Sched.init], hnil⟩
      | succ k ih =>
        unfold newsRunT at ih ⊢
        rw [iterStep_succ]
        simp only [timedStepper, Sched.step] at ih ⊢
        rw [ih.1]
        exact ih
    have hQ : ∀ k, (newsRunP N iv loop w k).1.queue = [] ∧ (newsRunP N iv loop w k).2.viewers = [] := by
      intro k
      induction k with
      | zero => exact ⟨by simp [newsRunP, iterStep, roundsPStart, hnil, PSched.applyOps, PSched.init], by simp [newsRunP, iterStep, roundsPStart, hnil, PSched.applyOps]⟩
      | succ k ih =>
        unfold newsRunP at ih ⊢
        rw [iterStep_succ]
        simp only [pqStepper, PSched.step] at ih ⊢
        split
        · exact ih
        · unfold pLoop
          rw [ih.1]
          exact ih
    constructor
    · intro v hv
      rw [(hT k).2] at hv
      cases hv
    · intro v hv
      rw [(hQ k).2] at hv
      cases hv

/-! ### Wise viewers -/

/-- Nobody is or has been cured. -/
def NoCure (vs : List Viewer) : Prop := ∀ (j : Nat) v, vs[j]? = some v → v.state ≠ .cured ∧ v.curedFlag = false

theorem NoCure.step {P : NewsParams} {adj : Nat → List Nat} {i : Nat} {vs vs' : List Viewer} (hn : NoCure vs) (h : NewsStep P adj i vs vs') : NoCure vs' := by
  intro j v' hv'
  obtain ⟨v, h1, -⟩ := newsStep_back h hv'
  obtain ⟨hs, hf⟩ := hn j v h1
  constructor
  · intro hc
    rcases (h.state j v v' h1 hv' (by rw [hc]; exact fun e => hs e.symm)).2 with ⟨-, h3, -⟩ | ⟨-, -, -, h3⟩
    · rw [hc] at h3; cases h3
    · rw [hf] at h3; cases h3
  · cases hc : v'.curedFlag with
    | false => rfl
    | true =>
      obtain ⟨-, -, -, w, hw, hws⟩ := h.cured j v v' h1 hv' hc hf
      exact absurd hws (hn i w hw).1

/-- C240 is violated by wise viewers: if one of them has a TV set and the probability of the TV is 1, every simulation raises in the first two steps, with either scheduler, whoever
the other viewers are (`has_been_cured` is not defined, see C137). -/
theorem C240_wise_false (N : NewsNet) (hd : ∀ u, NewsIsDraw (N.draws u)) (q : Rat) (hq : N.P.tvSpread = some q) (hq1 : 1 ≤ q) (iv : Rat) (hiv : 0 < iv)
    (sh : Bool) (ks : List (ViewerKind × Bool)) (loop : Nat) (hl : ks.length ≤ loop) (u r : Nat) (hr : ks[r]? = some (.wise, true)) (steps fuel : Nat) (hs : 2 ≤ steps) (hf : 2 ≤ fuel) :
    (∃ x, runModel (timedStepper (newsHost N)) none (some steps) fuel (roundsStart ks.length iv sh ⟨ks.map (fun k => Viewer.new k.1 k.2), u⟩) = .raised x) ∧
    ∃ x, runModel (pqStepper (newsPHost N) loop) none (some steps) fuel (roundsPStart (newsPHost N) ks.length iv ⟨ks.map (fun k => Viewer.new k.1 k.2), u⟩) = .raised x := by
  have hrn : r < ks.length := (List.getElem?_eq_some_iff.1 hr).1
  let Q : Nat → NewsWorld → Prop := fun k w => NoCure w.viewers ∧ ∃ v, w.viewers[r]? = some v ∧ v.kind = .wise ∧ if k = 0 then v.tv = true else v.state = .infected
  have hQ : ∀ k a w, Q k w → Q k (newsTurn N a w).2 := by
    rintro k a w ⟨hc, v, hv, hk, ht⟩
    have hst := actViewer_step N.P N.adj w.viewers a (N.draws w.used)
    obtain ⟨v', h1, h2, h3⟩ := hst.same r v hv
    refine ⟨hc.step hst, v', h1, h2.trans hk, ?_⟩
    split
    · rename_i h0
      rw [if_pos h0] at ht
      exact h3.trans ht
    · rename_i h0
      rw [if_neg h0] at ht
      by_contra hne
      rcases (hst.state r v v' hv h1 (by rw [ht]; exact hne)).2 with ⟨h4, -⟩ | ⟨-, -, -, h4⟩
      · rw [ht] at h4; cases h4
      · rw [(hc r v hv).2] at h4; cases h4
  have hmake : ∀ w, Q 0 w → Q 1 (newsTurn N r w).2 := by
    rintro w ⟨hc, v, hv, hk, ht⟩
    rw [if_pos rfl] at ht
    by_cases hi : v.state = .infected
    · exact hQ 1 r w ⟨hc, v, hv, hk, by rw [if_neg (by decide)]; exact hi⟩
    · have hneu : v.state = .neutral := by
        cases hvs : v.state with
        | neutral => rfl
        | infected => exact absurd hvs hi
        | cured => exact absurd hvs (hc r v hv).1
      have hst := actViewer_step N.P N.adj w.viewers r (N.draws w.used)
      have := C136_neutral N.P N.adj w.viewers r (N.draws w.used) v q hv hneu hq
      rw [if_pos (Or.inr ⟨ht, lt_of_lt_of_le (hd _).own.2 hq1⟩)] at this
      refine ⟨hc.step hst, { v with state := .infected }, ?_, hk, by rw [if_neg (by decide)]⟩
      show (actViewer N.P N.adj w.viewers r (N.draws w.used)).1[r]? = _
      rw [this]
      show (w.viewers.modify r _)[r]? = _
      rw [getElem?_modify_view, if_pos rfl, hv]
      rfl
  have hraise : ∀ w, Q 1 w → (newsTurn N r w).1 = .error := by
    rintro w ⟨hc, v, hv, hk, hi⟩
    rw [if_neg (by decide)] at hi
    have hcf := (hc r v hv).2
    have : (actViewer N.P N.adj w.viewers r (N.draws w.used)).2 = true := by
      simp [actViewer, hv, hk, hi, hcf]
    simp [newsTurn, this]
  have hplain : ∀ a w, (newsTurn N a w).1 = .error ∨ (newsTurn N a w).1 = .ret none := by
    intro a w
    simp only [newsTurn]
    split
    · exact Or.inl rfl
    · exact Or.inr rfl
  have hstart : Q 0 ⟨ks.map (fun k => Viewer.new k.1 k.2), u⟩ := by
    refine ⟨?_, Viewer.new .wise true, by simp [hr], rfl, rfl⟩
    intro j v hv
    simp only [List.getElem?_map] at hv
    cases hk : ks[j]? with
    | none => rw [hk] at hv; cases hv
    | some k => rw [hk] at hv; cases hv; exact ⟨by simp [Viewer.new], rfl⟩
  have hmake' : ∀ k < 1, ∀ w, Q k w → (newsTurn N r w).1 = .error ∨ Q (k + 1) (newsTurn N r w).2 := by
    intro k hk w hw
    have : k = 0 := by omega
    subst this
    exact Or.inr (hmake w hw)
  constructor
  · exact stages_raise (H := newsHost N) (fun a _ w => (hplain a w).imp id (fun h => ⟨h, rfl⟩)) Q 1 (fun k a _ w => hQ k a w) (fun _ _ _ h => h) ks.length r hrn
      (fun k hk _ w => hmake' k hk w) (fun _ w => hraise w) iv hiv sh _ hstart steps fuel hs hf
  · exact pstages_raise (H := newsPHost N) (fun a _ w => (hplain a w).imp id (fun h => ⟨h, rfl⟩)) Q 1 (fun k a _ w => hQ k a w) (fun _ _ _ h => h) ks.length r hrn
      (fun k hk _ w => hmake' k hk w) (fun _ w => hraise w) ⟨fun a w => (newsTurn N a w).2, fun _ _ _ => rfl⟩ iv hiv loop hl _ hstart steps fuel hs hf

/-- C240 is violated by the simulations of the example: they never set `has_tv`, and then nothing ever happens, whatever the probabilities: after any number of steps all
viewers are as they were made; the run of `max_steps` steps returns. -/
theorem C240_silent_false (N : NewsNet) (iv : Rat) (hiv : 0 < iv) (sh : Bool) (loop : Nat) (kinds : List ViewerKind) (hn : kinds ≠ []) (hl : kinds.length ≤ loop) (u k fuel : Nat) (hf : k ≤ fuel) :
    let w : NewsWorld := ⟨kinds.map (Viewer.new · false), u⟩
    (newsRunT N iv sh w k).2.viewers = w.viewers ∧ (newsRunP N iv loop w k).2.viewers = w.viewers ∧
    runModel (timedStepper (newsHost N)) none (some k) fuel (roundsStart kinds.length iv sh w) = .done (newsRunT N iv sh w k) := by
  intro w
  have hlen : w.viewers.length = kinds.length := by simp [w]
  have hn0 : 0 < kinds.length := List.length_pos_iff.2 hn
  have hact : ∀ i d, actViewer N.P N.adj w.viewers i d = (w.viewers, false) := by
    intro i d
    have := C136_no_tv N.P N.adj kinds [(i, d)]
    simp only [runNews] at this
    rcases hv : actViewer N.P N.adj w.viewers i d with ⟨vs, e⟩
    have hv' : actViewer N.P N.adj (kinds.map (Viewer.new · false)) i d = (vs, e) := hv
    rw [hv'] at this
    cases e <;> simp_all [w]
  have h1 : MesaHost (newsHost N) kinds.length iv (fun r _ _ _ x => (newsTurn N r x).2) (fun x => x.viewers = w.viewers) := by
    refine ⟨?_, ?_, fun l x hx => hx⟩
    · intro r _ s x t hx _
      simp [newsHost, newsTurn, hx, hact]
    · intro r t st ag _ x hx
      simp [newsTurn, hx, hact]
  have h2 : MesaPHost (newsPHost N) kinds.length iv (fun r _ _ _ x => (newsTurn N r x).2) (fun x => x.viewers = w.viewers) := by
    refine ⟨?_, ?_, fun r x hx => hx⟩
    · intro r _ s x t hx _
      simp [newsPHost, newsTurn, hx, hact]
    · intro r t st ag _ x hx
      simp [newsTurn, hx, hact]
  unfold newsRunT newsRunP
  rw [hlen]
  exact ⟨mesa_inv hn0 hiv h1 sh w rfl k, (prounds_iter hn0 hiv h2 loop hl w rfl k).inv, (C230_ends_partial (newsHost N) kinds.length hn0 iv hiv _ _ h1 sh w rfl fuel k hf).1⟩

/-! ## Examples -/

/-- A line of three viewers, with the highest probabilities and the highest numbers. -/
def newsLineNet : NewsNet where
  P := ⟨some 1, some 1, some 1⟩
  adj i := if i = 0 then [1] else if i = 1 then [0, 2] else if i = 2 then [1] else []
  draws _ := ⟨9 / 10, fun _ => 9 / 10, fun _ => 9 / 10⟩
  shuf u l := (l.reverse, u + 1)
  shuf_perm _ l := l.reverse_perm
  key _ := 1 / 2

example : NewsSym newsLineNet.adj ∧ NewsGiven newsLineNet.P newsLineNet.adj ∧ ∀ u, NewsIsDraw (newsLineNet.draws u) := by
  have h : NewsSym newsLineNet.adj := by
    intro i j
    simp only [newsLineNet]
    by_cases a : i = 0 <;> by_cases b : i = 1 <;> by_cases c : j = 0 <;> by_cases d : j = 1 <;> by_cases e : i = 2 <;> by_cases f : j = 2 <;> simp_all
  exact ⟨h, ⟨by simp [newsLineNet], by simp [newsLineNet], h⟩, fun u => ⟨by norm_num [newsLineNet, IsDraw], fun _ => by norm_num [newsLineNet, IsDraw], fun _ => by norm_num [newsLineNet, IsDraw]⟩⟩

/-- The third viewer is two edges away from the TV set: it is infected after three steps at the earliest, and after five at the latest. Shuffled (here: reversed each
time) it is after five; in the order of the agents after three. -/
example : newsNear newsLineNet.adj [.new .dumb true, .new .dumb false, .new .dumb false] 2 2 := by
  exact Or.inr ⟨1, Or.inr ⟨0, ⟨_, rfl, rfl⟩, by decide⟩, by decide⟩

set_option maxRecDepth 100000 in
example : let w : NewsWorld := ⟨[.new .dumb true, .new .dumb false, .new .dumb false], 0⟩
    (newsRunT newsLineNet 1 false w 2).2.viewers.map (·.state) = [.infected, .infected, .neutral] ∧
    (newsRunT newsLineNet 1 false w 3).2.viewers.map (·.state) = [.infected, .infected, .infected] ∧
    (newsRunT newsLineNet 1 true w 5).2.viewers.map (·.state) = [.infected, .infected, .infected] ∧
    (newsRunP newsLineNet 1 3 w 5).2.viewers.map (·.state) = [.infected, .infected, .infected] := by decide +kernel

set_option maxRecDepth 100000 in
/-- With herd viewers, and the wise one raises. -/
example : let w : NewsWorld := ⟨[.new .dumb true, .new .herd false, .new .herd false], 0⟩
    let v : NewsWorld := ⟨[.new .dumb false, .new .wise true, .new .herd false], 0⟩
    (newsRunT newsLineNet 1 false w 1).2.viewers.map (·.state) = [.infected, .neutral, .neutral] ∧
    ((newsRunT newsLineNet 1 false w 7).1.time = .fin 7) ∧
    ((newsRunT newsLineNet 1 false v 1).1.step (newsHost newsLineNet) (newsRunT newsLineNet 1 false v 1).2).2.2 = true ∧
    (newsRunT newsLineNet 1 false v 1).2.viewers.map (·.state) = [.neutral, .infected, .neutral] := by decide +kernel

end Verif
