import Verif.Model.ExVirus
import Mathlib.Tactic.Linarith

/-!
# The virus on a network

C127 (safety), C128 (the versions agree).
-/

namespace Verif

/-- What one activation of agent `i` may do to the statuses. -/
structure VStepOk (P : VirusParams) (adj : Nat → List Nat) (i : Nat) (d : Nat → Rat) (a b : List VStat) : Prop where
  len : b.length = a.length
  /-- Resistant agents stay resistant. -/
  res : ∀ (j : Nat), a[j]? = some .resistant → b[j]? = some .resistant
  /-- Only the agent itself can get rid of the virus, by recovering. -/
  inf : ∀ (j : Nat), a[j]? = some .infected → b[j]? = some .infected ∨ (j = i ∧ ∃ k, d k < P.recovery)
  /-- Only susceptible neighbours of an infected agent are infected. -/
  new : ∀ (j : Nat), b[j]? = some .infected → a[j]? = some .infected ∨
    (a[j]? = some .susceptible ∧ a[i]? = some .infected ∧ j ∈ adj i ∧ ∃ k, d k < P.spread)

theorem getElem?_set' {α : Type} (l : List α) (i j : Nat) (x : α) :
    (l.set i x)[j]? = if i = j then l[j]?.map (fun _ => x) else l[j]? := by
  rw [List.getElem?_set]
  by_cases h : i = j
  · subst h
    simp only [if_true]
    by_cases hl : i < l.length
    · simp [hl]
    · simp [hl]
  · simp [h]

/-- The loop over the neighbours. -/
theorem infectLoop_spec (p : Rat) (d : Nat → Rat) (l : List Nat) (k : Nat) (st : List VStat) :
    (infectLoop p d l k st).1.length = st.length ∧
    (∀ (j : Nat), j ∉ l → (infectLoop p d l k st).1[j]? = st[j]?) ∧
    (∀ (j : Nat), (infectLoop p d l k st).1[j]? = st[j]? ∨
      (j ∈ l ∧ j < st.length ∧ (infectLoop p d l k st).1[j]? = some .infected ∧ ∃ m, d m < p)) := by
  induction l generalizing k st with
  | nil => exact ⟨rfl, fun _ _ => rfl, fun _ => Or.inl rfl⟩
  | cons a l ih =>
    simp only [infectLoop]
    obtain ⟨h1, h2, h3⟩ := ih (k + 1) (if d k < p then st.set a .infected else st)
    have hl : (if d k < p then st.set a .infected else st).length = st.length := by split <;> simp
    have hs : ∀ (j : Nat), j ≠ a → (if d k < p then st.set a .infected else st)[j]? = st[j]? := by
      intro j hj
      split
      · rw [getElem?_set', if_neg (Ne.symm hj)]
      · rfl
    refine ⟨h1.trans hl, ?_, ?_⟩
    · intro j hj
      rw [List.mem_cons, not_or] at hj
      rw [h2 j hj.2, hs j hj.1]
    · intro j
      rcases h3 j with h | ⟨h4, h5, h6, h7⟩
      · rw [h]
        by_cases hj : j = a
        · subst hj
          by_cases hd : d k < p
          · rw [if_pos hd, getElem?_set', if_pos rfl]
            by_cases hlt : j < st.length
            · exact Or.inr ⟨by simp, hlt, by rw [List.getElem?_eq_getElem hlt]; rfl, k, hd⟩
            · left
              rw [List.getElem?_eq_none (by omega)]
              rfl
          · rw [if_neg hd]
            exact Or.inl rfl
        · exact Or.inl (hs j hj)
      · exact Or.inr ⟨by simp [h4], by rw [← hl]; exact h5, h6, h7⟩

theorem mem_suscNeighbors {adj : Nat → List Nat} {st : List VStat} {i j : Nat} :
    j ∈ suscNeighbors adj st i ↔ j ∈ adj i ∧ st[j]? = some .susceptible := by
  simp [suscNeighbors]

/-- The check at the end of an activation changes at most the status of the agent itself, which must be infected. -/
theorem soilCheck_spec (P : VirusParams) (d : Nat → Rat) (k : Nat) (st : List VStat) (i : Nat) :
    (soilCheckSituation P d k st i).1 = st ∨
      (st[i]? = some .infected ∧ (∃ m, d m < P.recovery) ∧
        ((soilCheckSituation P d k st i).1 = st.set i .susceptible ∨
          ((soilCheckSituation P d k st i).1 = st.set i .resistant ∧ (soilCheckSituation P d k st i).2 = true))) := by
  unfold soilCheckSituation
  split
  · split
    · rename_i hi
      unfold soilRemoveInfection
      split
      · rename_i hr
        right
        refine ⟨hi, ⟨_, hr⟩, ?_⟩
        unfold soilGainResistance
        split
        · right
          exact ⟨by rw [List.set_set], rfl⟩
        · exact Or.inl rfl
      · exact Or.inl rfl
    · exact Or.inl rfl
  · exact Or.inl rfl

theorem VStepOk.refl (P : VirusParams) (adj : Nat → List Nat) (i : Nat) (d : Nat → Rat) (a : List VStat) : VStepOk P adj i d a a :=
  ⟨rfl, fun _ h => h, fun _ h => Or.inl h, fun _ h => Or.inl h⟩

theorem soilStep_ok (P : VirusParams) (adj : Nat → List Nat) (st : List VStat) (i : Nat) (d : Nat → Rat) :
    VStepOk P adj i d st (soilVirusStep P adj st i d).1 := by
  unfold soilVirusStep
  simp only
  by_cases hi : st[i]? = some .infected
  · rw [if_pos hi]
    obtain ⟨h1, h2, h3⟩ := infectLoop_spec P.spread d (suscNeighbors adj st i) 0 st
    have hii : (infectLoop P.spread d (suscNeighbors adj st i) 0 st).1[i]? = some .infected := by
      rcases h3 i with h | ⟨_, _, h, _⟩
      · rw [h]; exact hi
      · exact h
    have hc := soilCheck_spec P d (infectLoop P.spread d (suscNeighbors adj st i) 0 st).2
      (infectLoop P.spread d (suscNeighbors adj st i) 0 st).1 i
    generalize infectLoop P.spread d (suscNeighbors adj st i) 0 st = r at *
    have hb : VStepOk P adj i d st r.1 := by
      refine ⟨h1, ?_, ?_, ?_⟩
      · intro j hj
        rw [h2 j (by rw [mem_suscNeighbors, hj]; simp)]
        exact hj
      · intro j hj
        rw [h2 j (by rw [mem_suscNeighbors, hj]; simp)]
        exact Or.inl hj
      · intro j hj
        rcases h3 j with h | ⟨h4, _, _, h5⟩
        · rw [h] at hj; exact Or.inl hj
        · obtain ⟨h6, h7⟩ := mem_suscNeighbors.1 h4
          exact Or.inr ⟨h7, hi, h6, h5⟩
    rcases hc with hc | ⟨_, hr, hc⟩
    · rw [hc]; exact hb
    · have key : ∀ s : VStat, s ≠ .infected → VStepOk P adj i d st (r.1.set i s) := by
        intro s hs
        refine ⟨by rw [List.length_set]; exact hb.len, ?_, ?_, ?_⟩
        · intro j hj
          have hne : i ≠ j := by rintro rfl; rw [hi] at hj; cases hj
          rw [getElem?_set', if_neg hne]
          exact hb.res j hj
        · intro j hj
          by_cases hij : j = i
          · exact Or.inr ⟨hij, hr⟩
          · rw [getElem?_set', if_neg (Ne.symm hij)]
            exact hb.inf j hj
        · intro j hj
          rw [getElem?_set'] at hj
          split at hj
          · rename_i hij
            cases hrj : r.1[j]? with
            | none => rw [hrj] at hj; cases hj
            | some x => rw [hrj] at hj; simp at hj; exact absurd hj hs
          · exact hb.new j hj
      rcases hc with hc | ⟨hc, _⟩
      · rw [hc]; exact key _ (by decide)
      · rw [hc]; exact key _ (by decide)
  · rw [if_neg hi]
    rcases soilCheck_spec P d 0 st i with hc | ⟨h, _⟩
    · show VStepOk P adj i d st (soilCheckSituation P d 0 st i).1
      rw [hc]
      exact VStepOk.refl ..
    · exact absurd h hi

/-- C127 (one activation, `soil_step.py`): the number of agents stays the same, resistant agents stay resistant, only susceptible
neighbours of the agent are infected, if it is infected itself; nobody but the agent recovers. -/
theorem C127_activation (P : VirusParams) (adj : Nat → List Nat) (st : List VStat) (i : Nat) (d : Nat → Rat) :
    let b := (soilVirusStep P adj st i d).1
    b.length = st.length ∧ (∀ (j : Nat), st[j]? = some .resistant → b[j]? = some .resistant) ∧
      (∀ (j : Nat), st[j]? = some .infected → b[j]? = some .infected ∨ (j = i ∧ ∃ k, d k < P.recovery)) ∧
      (∀ (j : Nat), b[j]? = some .infected → st[j]? = some .infected ∨
        (st[j]? = some .susceptible ∧ st[i]? = some .infected ∧ j ∈ adj i ∧ ∃ k, d k < P.spread)) ∧
      ((soilVirusStep P adj st i d).2 = true ↔ (st[i]? = some .infected ∧ b[i]? = some .resistant)) := by
  obtain ⟨h1, h2, h3, h4⟩ := soilStep_ok P adj st i d
  refine ⟨h1, h2, h3, h4, ?_⟩
  unfold soilVirusStep
  simp only
  by_cases hi : st[i]? = some .infected
  · rw [if_pos hi]
    obtain ⟨g1, g2, g3⟩ := infectLoop_spec P.spread d (suscNeighbors adj st i) 0 st
    have hii : (infectLoop P.spread d (suscNeighbors adj st i) 0 st).1[i]? = some .infected := by
      rcases g3 i with h | ⟨_, _, h, _⟩
      · rw [h]; exact hi
      · exact h
    generalize infectLoop P.spread d (suscNeighbors adj st i) 0 st = r at *
    unfold soilCheckSituation soilRemoveInfection soilGainResistance
    simp only [hii, hi, if_true, true_and]
    split
    · split
      · split
        · simp [List.set_set, getElem?_set', hii]
        · simp [getElem?_set', hii]
      · simp [hii]
    · simp [hii]
  · rw [if_neg hi]
    unfold soilCheckSituation
    simp only [hi, if_false, false_and, iff_false]
    split <;> simp

/-- Runs preserve what activations preserve. -/
theorem soilRun_induct {P : VirusParams} {adj : Nat → List Nat} (Q : List VStat → Prop)
    (h : List (Nat × (Nat → Rat))) (st : List VStat) (h0 : Q st)
    (hs : ∀ st e, e ∈ h → Q st → Q (soilVirusStep P adj st e.1 e.2).1) : Q (soilVirusRun P adj st h) := by
  induction h generalizing st with
  | nil => exact h0
  | cons e h ih => exact ih _ (hs st e (by simp) h0) (fun st e' he => hs st e' (by simp [he]))

/-- C127 (`soil_step.py`): whatever the schedule and the random numbers: the three numbers reported always add up to the number of
agents. -/
theorem C127_total (P : VirusParams) (adj : Nat → List Nat) (st : List VStat) (h : List (Nat × (Nat → Rat))) :
    numberIn .susceptible (soilVirusRun P adj st h) + numberIn .infected (soilVirusRun P adj st h) +
      numberIn .resistant (soilVirusRun P adj st h) = st.length := by
  have hlen : (soilVirusRun P adj st h).length = st.length :=
    soilRun_induct (fun s => s.length = st.length) h st rfl
      (fun s e _ hs => (soilStep_ok P adj s e.1 e.2).len.trans hs)
  rw [← hlen]
  generalize soilVirusRun P adj st h = l
  induction l with
  | nil => rfl
  | cons a l ih =>
    simp only [numberIn, List.countP_cons, List.length_cons] at ih ⊢
    cases a <;> simp <;> omega

/-- C127 (`soil_step.py`): resistant agents stay resistant for ever. -/
theorem C127_resistant (P : VirusParams) (adj : Nat → List Nat) (st : List VStat) (h : List (Nat × (Nat → Rat))) (j : Nat)
    (hj : st[j]? = some .resistant) : (soilVirusRun P adj st h)[j]? = some .resistant :=
  soilRun_induct (fun s => s[j]? = some .resistant) h st hj (fun s e _ hs => (soilStep_ok P adj s e.1 e.2).res j hs)

/-- C127 (`soil_step.py`): the virus only spreads along edges: a group of agents that nobody outside has an edge to is never
infected if nobody in it is in the beginning. -/
theorem C127_spread (P : VirusParams) (adj : Nat → List Nat) (G : Nat → Prop) (hG : ∀ i j, j ∈ adj i → G j → G i)
    (st : List VStat) (h0 : ∀ (j : Nat), G j → st[j]? ≠ some .infected) (h : List (Nat × (Nat → Rat))) :
    ∀ (j : Nat), G j → (soilVirusRun P adj st h)[j]? ≠ some .infected := by
  refine soilRun_induct (fun s => ∀ (j : Nat), G j → s[j]? ≠ some .infected) h st h0 ?_
  intro s e _ hs j hj hi
  rcases (soilStep_ok P adj s e.1 e.2).new j hi with h | ⟨_, h, hadj, _⟩
  · exact hs j hj h
  · exact hs e.1 (hG _ _ hadj hj) h

/-- C127 (`soil_step.py`): with recovery chance 0, infected agents stay infected; with spread chance 0, nobody else gets infected. -/
theorem C127_chances (P : VirusParams) (adj : Nat → List Nat) (st : List VStat) (h : List (Nat × (Nat → Rat)))
    (hd : ∀ e ∈ h, ∀ k, 0 ≤ e.2 k) (j : Nat) :
    (P.recovery ≤ 0 → st[j]? = some .infected → (soilVirusRun P adj st h)[j]? = some .infected) ∧
    (P.spread ≤ 0 → st[j]? ≠ some .infected → (soilVirusRun P adj st h)[j]? ≠ some .infected) := by
  constructor
  · intro hp hj
    refine soilRun_induct (fun s => s[j]? = some .infected) h st hj ?_
    intro s e he hs
    rcases (soilStep_ok P adj s e.1 e.2).inf j hs with h | ⟨_, k, hk⟩
    · exact h
    · have := hd e he k
      linarith
  · intro hp hj
    refine soilRun_induct (fun s => s[j]? ≠ some .infected) h st hj ?_
    intro s e he hs hi
    rcases (soilStep_ok P adj s e.1 e.2).new j hi with h | ⟨_, _, _, k, hk⟩
    · exact hs h
    · have := hd e he k
      linarith

/-! ### The version with states -/

theorem getElem?_modify_v (f : VAgent → VAgent) (l : List VAgent) (i j : Nat) :
    (l.modify i f)[j]? = if i = j then l[j]?.map f else l[j]? := by
  rw [List.getElem?_modify]
  by_cases h : i = j
  · simp only [h, if_true]; rfl
  · simp only [h, if_false]; cases l[j]? <;> rfl

theorem flagLoop_spec (p : Rat) (d : Nat → Rat) (l : List Nat) (k : Nat) (st : List VAgent) :
    (flagLoop p d l k st).1.length = st.length ∧
    (∀ (j : Nat), j ∉ l → (flagLoop p d l k st).1[j]? = st[j]?) ∧
    (∀ (j : Nat), (flagLoop p d l k st).1[j]? = st[j]? ∨
      (∃ q, j ∈ l ∧ st[j]? = some q ∧ (flagLoop p d l k st).1[j]? = some { q with just := true } ∧ ∃ m, d m < p)) := by
  induction l generalizing k st with
  | nil => exact ⟨rfl, fun _ _ => rfl, fun _ => Or.inl rfl⟩
  | cons a l ih =>
    simp only [flagLoop]
    obtain ⟨h1, h2, h3⟩ := ih (k + 1) (if d k < p then st.modify a (fun q => { q with just := true }) else st)
    have hl : (if d k < p then st.modify a (fun q => { q with just := true }) else st).length = st.length := by split <;> simp
    have hs : ∀ (j : Nat), j ≠ a → (if d k < p then st.modify a (fun q => { q with just := true }) else st)[j]? = st[j]? := by
      intro j hj
      split
      · rw [getElem?_modify_v, if_neg (Ne.symm hj)]
      · rfl
    refine ⟨h1.trans hl, ?_, ?_⟩
    · intro j hj
      rw [List.mem_cons, not_or] at hj
      rw [h2 j hj.2, hs j hj.1]
    · intro j
      by_cases hj : j = a
      · subst hj
        by_cases hd : d k < p
        · simp only [if_pos hd] at h3 ⊢
          have hm : (st.modify j (fun q => { q with just := true }))[j]? = st[j]?.map (fun q => { q with just := true }) := by
            rw [getElem?_modify_v, if_pos rfl]
          cases hq : st[j]? with
          | none =>
            left
            rcases h3 j with h | ⟨q, _, hq', _⟩
            · rw [h, hm, hq]; rfl
            · rw [hm, hq] at hq'; cases hq'
          | some q =>
            right
            refine ⟨q, by simp, rfl, ?_, k, hd⟩
            rcases h3 j with h | ⟨q', _, hq', h, _⟩
            · rw [h, hm, hq]; rfl
            · rw [hm, hq] at hq'
              simp only [Option.map_some, Option.some.injEq] at hq'
              rw [h, ← hq']
        · simp only [if_neg hd] at h3 ⊢
          rcases h3 j with h | ⟨q, hq, hh⟩
          · exact Or.inl h
          · exact Or.inr ⟨q, by simp, hh⟩
      · rcases h3 j with h | ⟨q, hq, hq', hh⟩
        · left; rw [h, hs j hj]
        · right
          rw [hs j hj] at hq'
          exact ⟨q, by simp [hq], hq', hh⟩

theorem mem_suscAgents {adj : Nat → List Nat} {st : List VAgent} {i j : Nat} :
    j ∈ suscAgents adj st i ↔ j ∈ adj i ∧ ∃ q, st[j]? = some q ∧ q.state = .susceptible := by
  simp [suscAgents]

/-- What one activation may do, in the version with states. -/
structure VStatesOk (P : VirusParams) (adj : Nat → List Nat) (i : Nat) (a b : List VAgent) : Prop where
  len : b.length = a.length
  res : ∀ (j : Nat) (q : VAgent), a[j]? = some q → q.state = .resistant → b[j]? = some q
  flag : ∀ (j : Nat) (q : VAgent), b[j]? = some q → q.just = true → a[j]? = some q ∨
    (q.state = .susceptible ∧ ∃ p, a[j]? = some p ∧ p.state = .susceptible ∧ ∃ r, a[i]? = some r ∧ r.state = .infected ∧ j ∈ adj i)
  new : ∀ (j : Nat) (q : VAgent), b[j]? = some q → q.state = .infected → ∃ p, a[j]? = some p ∧ (p.state = .infected ∨
    (p.state = .susceptible ∧ p.just = true ∧ q.just = false))

theorem statesStep_ok (P : VirusParams) (adj : Nat → List Nat) (st : List VAgent) (i : Nat) (d : Nat → Rat)
    (hflag : ∀ (j : Nat) q, st[j]? = some q → q.just = true → q.state = .susceptible) :
    VStatesOk P adj i st (statesVirusStep P adj st i d).1 := by
  have hrefl : VStatesOk P adj i st st :=
    ⟨rfl, fun _ _ h _ => h, fun _ _ h _ => Or.inl h, fun _ q h hs => ⟨q, h, Or.inl hs⟩⟩
  unfold statesVirusStep
  cases hi : st[i]? with
  | none => exact hrefl
  | some q =>
    simp only
    cases hs : q.state with
    | resistant => exact hrefl
    | susceptible =>
      simp only
      split
      · rename_i hj
        refine ⟨by simp, ?_, ?_, ?_⟩
        · intro j p hp hps
          have hne : i ≠ j := by rintro rfl; rw [hi] at hp; cases hp; rw [hs] at hps; cases hps
          rw [getElem?_set', if_neg hne]
          exact hp
        · intro j p hp hpj
          rw [getElem?_set'] at hp
          split at hp
          · rename_i hij
            subst hij
            rw [hi] at hp
            simp only [Option.map_some, Option.some.injEq] at hp
            subst hp
            cases hpj
          · exact Or.inl hp
        · intro j p hp hps
          rw [getElem?_set'] at hp
          split at hp
          · rename_i hij
            subst hij
            rw [hi] at hp
            simp only [Option.map_some, Option.some.injEq] at hp
            subst hp
            exact ⟨q, hi, Or.inr ⟨hs, hj, rfl⟩⟩
          · exact ⟨p, hp, Or.inl hps⟩
      · exact hrefl
    | infected =>
      simp only
      obtain ⟨h1, h2, h3⟩ := flagLoop_spec P.spread d (suscAgents adj st i) 0 st
      have hni : i ∉ suscAgents adj st i := by
        rw [mem_suscAgents]
        rintro ⟨_, q', hq', hs'⟩
        rw [hi] at hq'
        cases hq'
        rw [hs] at hs'
        cases hs'
      have hii := (h2 i hni).trans hi
      generalize flagLoop P.spread d (suscAgents adj st i) 0 st = r at *
      have hb : VStatesOk P adj i st r.1 := by
        refine ⟨h1, ?_, ?_, ?_⟩
        · intro j p hp hps
          rw [h2 j (by rw [mem_suscAgents]; rintro ⟨_, p', hp', hs'⟩; rw [hp] at hp'; cases hp'; rw [hps] at hs'; cases hs')]
          exact hp
        · intro j p hp hpj
          rcases h3 j with h | ⟨p', hm, hp', h, _⟩
          · rw [h] at hp; exact Or.inl hp
          · obtain ⟨hadj, p'', hp'', hs''⟩ := mem_suscAgents.1 hm
            rw [hp'] at hp''
            cases hp''
            rw [h] at hp
            cases hp
            exact Or.inr ⟨hs'', p', hp', hs'', q, hi, hs, hadj⟩
        · intro j p hp hps
          rcases h3 j with h | ⟨p', hm, hp', h, _⟩
          · rw [h] at hp; exact ⟨p, hp, Or.inl hps⟩
          · obtain ⟨_, p'', hp'', hs''⟩ := mem_suscAgents.1 hm
            rw [hp'] at hp''
            cases hp''
            rw [h] at hp
            cases hp
            rw [hs''] at hps
            cases hps
      have hqj : q.just = false := by
        cases hj : q.just with
        | false => rfl
        | true => have := hflag i q hi hj; rw [hs] at this; cases this
      have key : ∀ s : VStat, VStatesOk P adj i st (r.1.modify i (fun q => { q with state := s })) := by
        intro s
        refine ⟨by rw [List.length_modify]; exact hb.len, ?_, ?_, ?_⟩
        · intro j p hp hps
          have hne : i ≠ j := by rintro rfl; rw [hi] at hp; cases hp; rw [hs] at hps; cases hps
          rw [getElem?_modify_v, if_neg hne]
          exact hb.res j p hp hps
        · intro j p hp hpj
          rw [getElem?_modify_v] at hp
          split at hp
          · rename_i hij
            subst hij
            rw [hii] at hp
            simp only [Option.map_some, Option.some.injEq] at hp
            subst hp
            simp only at hpj
            rw [hqj] at hpj
            cases hpj
          · exact hb.flag j p hp hpj
        · intro j p hp hps
          rw [getElem?_modify_v] at hp
          split at hp
          · rename_i hij
            subst hij
            exact ⟨q, hi, Or.inl hs⟩
          · exact hb.new j p hp hps
      split
      · split
        · split
          · exact key _
          · exact key _
        · exact key _
      · exact hb

/-- The invariant of the version with states: only susceptible agents are marked. -/
def MarkedOk (st : List VAgent) : Prop := ∀ (j : Nat) q, st[j]? = some q → q.just = true → q.state = .susceptible

theorem MarkedOk.step {P : VirusParams} {adj : Nat → List Nat} {st : List VAgent} (h : MarkedOk st) (i : Nat) (d : Nat → Rat) :
    MarkedOk (statesVirusStep P adj st i d).1 := by
  intro j q hq hj
  rcases (statesStep_ok P adj st i d h).flag j q hq hj with h' | ⟨h', _⟩
  · exact h j q h' hj
  · exact h'

theorem statesRun_induct {P : VirusParams} {adj : Nat → List Nat} (Q : List VAgent → Prop)
    (h : List (Nat × (Nat → Rat))) (st : List VAgent) (hm : MarkedOk st) (h0 : Q st)
    (hs : ∀ st e, e ∈ h → MarkedOk st → Q st → Q (statesVirusStep P adj st e.1 e.2).1) :
    Q (statesVirusRun P adj st h) ∧ MarkedOk (statesVirusRun P adj st h) := by
  induction h generalizing st with
  | nil => exact ⟨h0, hm⟩
  | cons e h ih => exact ih _ (hm.step e.1 e.2) (hs st e (by simp) hm h0) (fun st e' he => hs st e' (by simp [he]))

/-- C127 (`soil_states.py`): the same for the version with states, started with any statuses and no marks: as many agents as in the
beginning, resistant agents stay resistant, the virus only spreads along edges, and only susceptible agents are marked as just
infected. -/
theorem C127_states (P : VirusParams) (adj : Nat → List Nat) (st0 : List VStat) (h : List (Nat × (Nat → Rat)))
    (G : Nat → Prop) (hG : ∀ i j, j ∈ adj i → G j → G i) (h0 : ∀ (j : Nat), G j → st0[j]? ≠ some .infected) :
    let st := statesVirusRun P adj (st0.map (fun s => ⟨s, false⟩)) h
    st.length = st0.length ∧
      (∀ (j : Nat), st0[j]? = some .resistant → st[j]? = some ⟨.resistant, false⟩) ∧
      (∀ (j : Nat) (q : VAgent), G j → st[j]? = some q → q.state ≠ .infected ∧ q.just = false) ∧
      (∀ (j : Nat) (q : VAgent), st[j]? = some q → q.just = true → q.state = .susceptible) := by
  have hm : MarkedOk (st0.map (fun s => (⟨s, false⟩ : VAgent))) := by
    intro j q hq hj
    rw [List.getElem?_map] at hq
    obtain ⟨s, _, rfl⟩ := Option.map_eq_some_iff.1 hq
    cases hj
  refine ⟨?_, ?_, ?_, ?_⟩
  · exact (statesRun_induct (fun s => s.length = st0.length) h _ hm (by simp)
      (fun s e _ hm hs => (statesStep_ok P adj s e.1 e.2 hm).len.trans hs)).1
  · intro j hj
    exact (statesRun_induct (fun s => s[j]? = some ⟨.resistant, false⟩) h _ hm (by simp [hj])
      (fun s e _ hm hs => (statesStep_ok P adj s e.1 e.2 hm).res j _ hs rfl)).1
  · have := (statesRun_induct (P := P) (adj := adj)
      (fun s => ∀ (j : Nat) q, G j → s[j]? = some q → q.state ≠ .infected ∧ q.just = false) h _ hm ?_ ?_).1
    · exact this
    · intro j q hj hq
      rw [List.getElem?_map] at hq
      obtain ⟨s, hs, rfl⟩ := Option.map_eq_some_iff.1 hq
      exact ⟨fun e => h0 j hj (by rw [hs]; exact congrArg some e), rfl⟩
    · intro s e _ hm hs j q hj hq
      have ok := statesStep_ok P adj s e.1 e.2 hm
      constructor
      · intro hi
        obtain ⟨p, hp, hp' | ⟨_, hp', _⟩⟩ := ok.new j q hq hi
        · exact (hs j p hj hp).1 hp'
        · rw [(hs j p hj hp).2] at hp'; cases hp'
      · cases hjust : q.just with
        | false => rfl
        | true =>
          rcases ok.flag j q hq hjust with h | ⟨_, _, _, _, r, hr, hri, hadj⟩
          · rw [(hs j q hj h).2] at hjust; cases hjust
          · exact absurd hri (hs e.1 r (hG _ _ hadj hj) hr).1
  · exact (statesRun_induct (fun _ => True) h _ hm trivial (fun _ _ _ _ _ => trivial)).2

/-- A triangle with a fourth agent apart: the second agent is infected by the first one, which then becomes resistant. -/
example : soilVirusRun ⟨1 / 2, 1 / 2, 1 / 2, 1 / 2⟩ (fun i => if i < 3 then (List.range 3).filter (· ≠ i) else [])
      (virusInit 4 [0]) [(0, fun k => if k = 1 then 1 else 0), (3, fun _ => 0), (2, fun _ => 1)] =
        [.resistant, .infected, .susceptible, .susceptible] ∧
    statesVirusRun ⟨1 / 2, 1 / 2, 1 / 2, 1 / 2⟩ (fun i => if i < 3 then (List.range 3).filter (· ≠ i) else [])
      (virusInitStates 4 [0]) [(0, fun k => if k = 1 then 1 else 0), (3, fun _ => 0), (2, fun _ => 1), (1, fun _ => 0)] =
        [⟨.resistant, false⟩, ⟨.infected, false⟩, ⟨.susceptible, false⟩, ⟨.susceptible, false⟩] := by
  decide +kernel

/-! ### C128 -/

theorem mesaStep_eq (P : VirusParams) (adj : Nat → List Nat) (st : List VStat) (i : Nat) (d : Nat → Rat) :
    mesaVirusStep P adj st i d = (soilVirusStep P adj st i d).1 := by
  have hc : ∀ k (s : List VStat), mesaCheckSituation P d k s i = (soilCheckSituation P d k s i).1 := by
    intro k s
    unfold mesaCheckSituation soilCheckSituation
    split
    · split
      · rename_i hi
        unfold mesaRemoveInfection soilRemoveInfection
        split
        · unfold mesaGainResistance soilGainResistance
          split <;> rfl
        · refine List.ext_getElem? ?_
          intro j
          rw [getElem?_set']
          split
          · rename_i hij; subst hij; rw [hi]; rfl
          · rfl
      · rfl
    · rfl
  unfold mesaVirusStep soilVirusStep
  cases hi : st[i]? with
  | none => simp [hc]
  | some s => cases s <;> simp [hc]

/-- C128 (partial: the version without states): with the same schedule and the same random numbers, `soil_step.py` does exactly what
mesa's version does. -/
theorem C128_step_partial (P : VirusParams) (adj : Nat → List Nat) (st : List VStat) (h : List (Nat × (Nat → Rat))) :
    soilVirusRun P adj st h = mesaVirusRun P adj st h := by
  unfold soilVirusRun mesaVirusRun
  congr 1
  funext s e
  exact (mesaStep_eq P adj s e.1 e.2).symm

/-- An agent that soil does not schedule any more because it is resistant would not do anything in mesa's version, where it is still
activated: leaving out the activations of resistant agents makes no difference. -/
theorem C128_resistant_idle (P : VirusParams) (adj : Nat → List Nat) (st : List VStat) (i : Nat) (d : Nat → Rat)
    (hi : st[i]? = some .resistant) : mesaVirusStep P adj st i d = st := by
  unfold mesaVirusStep mesaCheckSituation
  simp only [hi]
  split <;> simp

theorem infectLoop_count (p : Rat) (d : Nat → Rat) (l : List Nat) (k : Nat) (st : List VStat) : (infectLoop p d l k st).2 = k + l.length := by
  induction l generalizing k st with
  | nil => rfl
  | cons a l ih =>
    simp only [infectLoop, ih, List.length_cons]
    omega

theorem flagLoop_count (p : Rat) (d : Nat → Rat) (l : List Nat) (k : Nat) (st : List VAgent) : (flagLoop p d l k st).2 = k + l.length := by
  induction l generalizing k st with
  | nil => rfl
  | cons a l ih =>
    simp only [flagLoop, ih, List.length_cons]
    omega

/-- C128 (partial: the version with states, what becomes of an infected agent itself): with the same random numbers it gets over the virus,
with or without resistance, exactly when it does in the other versions. -/
theorem C128_fate_partial (P : VirusParams) (adj : Nat → List Nat) (st : List VAgent) (i : Nat) (d : Nat → Rat) (q : VAgent)
    (hq : st[i]? = some q) (hi : q.state = .infected) :
    ((statesVirusStep P adj st i d).1[i]?).map (·.state) = (soilVirusStep P adj (st.map (·.state)) i d).1[i]? := by
  have hsi : (st.map (·.state))[i]? = some .infected := by rw [List.getElem?_map, hq, ← hi]; rfl
  have hl : suscNeighbors adj (st.map (·.state)) i = suscAgents adj st i := by
    unfold suscNeighbors suscAgents
    simp only [List.getElem?_map]
  have hni : i ∉ suscAgents adj st i := by
    unfold suscAgents
    intro hx
    have := of_decide_eq_true (List.mem_filter.1 hx).2
    rw [hq] at this
    simp [hi] at this
  obtain ⟨f1, f2, _⟩ := flagLoop_spec P.spread d (suscAgents adj st i) 0 st
  have f3 := flagLoop_count P.spread d (suscAgents adj st i) 0 st
  obtain ⟨g1, g2, _⟩ := infectLoop_spec P.spread d (suscAgents adj st i) 0 (st.map (·.state))
  have g3 := infectLoop_count P.spread d (suscAgents adj st i) 0 (st.map (·.state))
  have f4 := f2 i hni
  have g4 := g2 i hni
  unfold statesVirusStep soilVirusStep
  simp only [hq, hi, hsi, if_true, hl]
  generalize flagLoop P.spread d (suscAgents adj st i) 0 st = F at *
  generalize infectLoop P.spread d (suscAgents adj st i) 0 (st.map (·.state)) = G at *
  rw [hq] at f4
  rw [hsi] at g4
  have hF : ∀ s, (F.1.modify i (fun q => { q with state := s }))[i]? = some { q with state := s } := by
    intro s
    rw [getElem?_modify_v, if_pos rfl, f4]
    rfl
  have hlt := (List.getElem?_eq_some_iff.1 g4).1
  have hG : ∀ s, (G.1.set i s)[i]? = some s := fun s => by rw [List.getElem?_set]; simp [hlt]
  unfold soilCheckSituation soilRemoveInfection soilGainResistance
  simp only [f3, g3, g4, if_true]
  by_cases h1 : d (0 + (suscAgents adj st i).length) < P.check
  · simp only [if_pos h1]
    by_cases h2 : d (0 + (suscAgents adj st i).length + 1) < P.recovery
    · simp only [if_pos h2]
      by_cases h3 : d (0 + (suscAgents adj st i).length + 2) < P.resistance
      · have h3' : d (0 + (suscAgents adj st i).length + 1 + 1) < P.resistance := h3
        simp only [if_pos h3, if_pos h3', hF, List.set_set, hG, Option.map_some]
      · have h3' : ¬ d (0 + (suscAgents adj st i).length + 1 + 1) < P.resistance := h3
        simp only [if_neg h3, if_neg h3', hF, hG, Option.map_some]
    · simp only [if_neg h2, hF, g4, Option.map_some]
  · simp only [if_neg h1, f4, g4, Option.map_some, hi]

/-- C128 is violated by the version with states: an agent that is infected only counts as infected after its own next activation
(an agent that was already activated in this step is reported as susceptible). For a pair of agents, when the first one is infected and
passes the virus on, the other versions report two infected agents and this one reports one. -/
theorem C128_states_false (P : VirusParams) (hs : 0 < P.spread) (hc : P.check ≤ 0) :
    soilVirusRun P (fun i => [1 - i]) (virusInit 2 [0]) [(0, fun _ => 0)] = [.infected, .infected] ∧
    statesVirusRun P (fun i => [1 - i]) (virusInitStates 2 [0]) [(0, fun _ => 0)] = [⟨.infected, false⟩, ⟨.susceptible, true⟩] := by
  have e1 : virusInit 2 [0] = [.infected, .susceptible] := by decide
  have hc' : ¬ (0 : Rat) < P.check := not_lt.2 hc
  constructor
  · rw [e1]
    simp [soilVirusRun, soilVirusStep, suscNeighbors, infectLoop, soilCheckSituation, hs, hc']
  · simp [virusInitStates, e1, statesVirusRun, statesVirusStep, suscAgents, flagLoop, hs, hc']

/-- The fate of an infected agent that recovers and gains resistance, in both versions. -/
example : (statesVirusStep ⟨1 / 2, 1 / 2, 1 / 2, 1 / 2⟩ (fun i => [1 - i]) [⟨.infected, false⟩, ⟨.susceptible, false⟩] 0
      (fun k => if k = 0 then 1 else 0)).1.map (·.state) = [.resistant, .susceptible] ∧
    (soilVirusStep ⟨1 / 2, 1 / 2, 1 / 2, 1 / 2⟩ (fun i => [1 - i]) [.infected, .susceptible] 0 (fun k => if k = 0 then 1 else 0)).1 =
      [.resistant, .susceptible] := by decide +kernel

end Verif
