import Verif.Model.ExRabbits
import Mathlib.Tactic.Linarith
import Mathlib.Tactic.Ring
import Mathlib.Data.Rat.Floor

/-!
# Rabbits

C129 (litters), C130 (births), C131 (one litter per mating), C132 (age), C133 (network and accidents).
-/

namespace Verif

theorem Warren.upd_get (w : Warren) (i j : Nat) (f : Rab → Rab) :
    (w.upd i f).rabs[j]? = if i = j then w.rabs[j]?.map f else w.rabs[j]? := by
  simp only [Warren.upd]
  rw [List.getElem?_modify]
  by_cases h : i = j
  · simp only [h, if_true]; rfl
  · simp only [h, if_false]; cases w.rabs[j]? <;> rfl

/-- The longest life. -/
def RabParams.oldest (P : RabParams) : Nat := max (max P.maturity P.life) 1

/-- What holds for every rabbit at every time. -/
structure RabOk (P : RabParams) (q : Rab) : Prop where
  mate : 0 ≤ q.pregnancy → q.mate.isSome ∧ 8 ≤ q.babies ∧ q.babies ≤ 11
  preg : q.state = .pregnant → 0 ≤ q.pregnancy
  litters : q.litters + (if 0 ≤ q.pregnancy then 1 else 0) ≤ q.matings
  young : q.state = .newborn ∨ q.state = .youngling → q.age = 0 ∨ q.age < P.maturity
  adult : q.state = .fertile ∨ q.state = .pregnant → q.age ≤ P.oldest
  old : q.age ≤ P.oldest + 1

/-- What holds after an exception. -/
structure RabWeak (P : RabParams) (q : Rab) : Prop where
  litters : q.litters ≤ q.matings
  babies : 0 ≤ q.pregnancy → 8 ≤ q.babies ∧ q.babies ≤ 11
  old : q.age ≤ P.oldest + 1

theorem RabOk.weak {P : RabParams} {q : Rab} (h : RabOk P q) : RabWeak P q :=
  ⟨by have := h.litters; split at this <;> omega, fun hp => (h.mate hp).2, h.old⟩

theorem RabOk.new (P : RabParams) (m : Bool) : RabOk P (Rab.new m) :=
  ⟨by simp [Rab.new], by simp [Rab.new], by simp [Rab.new], by simp [Rab.new], by simp [Rab.new], by simp [Rab.new]⟩

def Warren.Ok (P : RabParams) (w : Warren) : Prop := ∀ (j : Nat) (q : Rab), w.rabs[j]? = some q → RabOk P q

theorem Warren.Ok.upd {P : RabParams} {w : Warren} (h : w.Ok P) (i : Nat) (f : Rab → Rab)
    (hf : ∀ q, w.rabs[i]? = some q → RabOk P (f q)) : (w.upd i f).Ok P := by
  intro j q hq
  rw [Warren.upd_get] at hq
  split at hq
  · rename_i hij
    subst hij
    obtain ⟨q', hq', rfl⟩ := Option.map_eq_some_iff.1 hq
    exact hf q' hq'
  · exact h j q hq

theorem Warren.Ok.of_rabs {P : RabParams} {w w' : Warren} (h : w.Ok P) (he : w'.rabs = w.rabs) : w'.Ok P := by
  intro j q hq
  rw [he] at hq
  exact h j q hq

theorem Warren.Ok.add {P : RabParams} {w : Warren} (h : w.Ok P) (m : Bool) : (w.add m).Ok P := by
  intro j q hq
  simp only [Warren.add, List.getElem?_append] at hq
  split at hq
  · exact h j q hq
  · rw [List.getElem?_singleton] at hq
    split at hq
    · cases hq; exact RabOk.new P m
    · cases hq

theorem Warren.Ok.kill {P : RabParams} {w : Warren} (h : w.Ok P) (i : Nat) : (w.kill i).Ok P := by
  unfold Warren.kill
  cases hq : w.rabs[i]? with
  | none => exact h
  | some q =>
    simp only
    split
    · have := h.upd i (fun q => { q with alive := false }) (fun q' hq' => by
        have ok := h i q' hq'
        exact ⟨ok.mate, ok.preg, ok.litters, ok.young, ok.adult, ok.old⟩)
      exact this
    · exact h

theorem litterSize_bounds (r : Rat) (h0 : 0 ≤ r) (h1 : r < 1) : 8 ≤ litterSize r ∧ litterSize r ≤ 11 := by
  have a : (8 : Int) ≤ (8 + 4 * r).floor := Rat.le_floor_iff.2 (by push_cast; linarith)
  have b : (8 + 4 * r).floor < 12 := Rat.floor_lt_iff.2 (by push_cast; linarith)
  unfold litterSize
  omega

theorem Warren.Ok.impregnate {P : RabParams} {w : Warren} (h : w.Ok P) (f male : Nat) (r : Rat) (h0 : 0 ≤ r) (h1 : r < 1) :
    (w.impregnate f male r).Ok P := by
  refine h.upd f _ ?_
  intro q hq
  have ok := h f q hq
  refine ⟨fun _ => ⟨rfl, litterSize_bounds r h0 h1⟩, fun _ => Int.le_refl 0, ?_, ok.young, ok.adult, ok.old⟩
  have := ok.litters
  simp only [Int.le_refl, if_true]
  split at this <;> omega

theorem Warren.mateLoop_or (p : Rat) (male : Nat) (d : Nat → Rat) (r : Rat) (l : List Nat) (k : Nat) (w : Warren) :
    Warren.mateLoop p male d r l k w = w ∨ ∃ f ∈ l, Warren.mateLoop p male d r l k w = w.impregnate f male r := by
  induction l generalizing k with
  | nil => exact Or.inl rfl
  | cons f l ih =>
    simp only [Warren.mateLoop]
    split
    · exact Or.inr ⟨f, by simp, rfl⟩
    · rcases ih (k + 1) with h | ⟨g, hg, h⟩
      · exact Or.inl h
      · exact Or.inr ⟨g, by simp [hg], h⟩

theorem Warren.births_ok {P : RabParams} (i : Nat) (mate : Option Nat) (sex : Nat → Bool) (n k : Nat) (w : Warren) (h : w.Ok P) :
    (Warren.births i mate sex n k w).1.Ok P := by
  induction n generalizing k w with
  | zero => exact h
  | succ n ih =>
    simp only [Warren.births]
    have h2 : ({ w.add (sex k) with edges := (w.add (sex k)).edges ++ [(w.rabs.length, i)] } : Warren).Ok P :=
      (h.add (sex k)).of_rabs rfl
    cases mate with
    | none => exact h2
    | some m =>
      simp only
      split
      · exact h2.of_rabs rfl
      · refine ih (k + 1) _ (h2.upd i _ ?_)
        intro q hq
        have ok := h2 i q hq
        exact ⟨ok.mate, ok.preg, ok.litters, ok.young, ok.adult, ok.old⟩

/-- The mother after the loop: only `offspring` has changed. -/
theorem Warren.births_mother (i : Nat) (mate : Option Nat) (sex : Nat → Bool) (n k : Nat) (w : Warren) (q : Rab)
    (hq : w.rabs[i]? = some q) : ∃ o, (Warren.births i mate sex n k w).1.rabs[i]? = some { q with offspring := o } := by
  induction n generalizing k w q with
  | zero => exact ⟨q.offspring, hq⟩
  | succ n ih =>
    simp only [Warren.births]
    have h2 : (w.add (sex k)).rabs[i]? = some q := by
      simp only [Warren.add]
      rw [List.getElem?_append_left (List.getElem?_eq_some_iff.1 hq).1]
      exact hq
    cases mate with
    | none => exact ⟨q.offspring, h2⟩
    | some m =>
      simp only
      split
      · exact ⟨q.offspring, h2⟩
      · obtain ⟨o, ho⟩ := ih (k + 1) (Warren.upd { w.add (sex k) with edges := (w.add (sex k)).edges ++ [(w.rabs.length, i)] } i
          (fun q => { q with offspring := q.offspring + 1 })) { q with offspring := q.offspring + 1 } (by
            rw [Warren.upd_get, if_pos rfl]
            show (w.add (sex k)).rabs[i]?.map _ = _
            rw [h2]
            rfl)
        exact ⟨o, ho⟩

/-- One activation keeps the invariant; after an exception the weaker one holds. -/
theorem Warren.Ok.act {P : RabParams} {w : Warren} (h : w.Ok P) (i : Nat) (d : Nat → Rat) (r : Rat) (sex : Nat → Bool)
    (h0 : 0 ≤ r) (h1 : r < 1) :
    ((w.act P i d r sex).2 = false → (w.act P i d r sex).1.Ok P) ∧
      ∀ (j : Nat) q, (w.act P i d r sex).1.rabs[j]? = some q → RabWeak P q := by
  have fin : ∀ w' : Warren, w'.Ok P → (((w', false) : Warren × Bool).2 = false → w'.Ok P) ∧
      ∀ (j : Nat) q, w'.rabs[j]? = some q → RabWeak P q := fun w' h => ⟨fun _ => h, fun j q hq => (h j q hq).weak⟩
  unfold Warren.act
  cases hq : w.rabs[i]? with
  | none => exact fin _ h
  | some q =>
    have ok := h i q hq
    have hM : P.maturity ≤ P.oldest := le_trans (le_max_left _ _) (le_max_left _ _)
    have hL : P.life ≤ P.oldest := le_trans (le_max_right _ _) (le_max_left _ _)
    have h1' : 1 ≤ P.oldest := le_max_right _ _
    have hself : ∀ f : Rab → Rab, RabOk P (f q) → (w.upd i f).Ok P := by
      intro f hf
      refine h.upd i f ?_
      intro q' hq'
      rw [hq] at hq'
      cases hq'
      exact hf
    have hupd2 : ∀ f g : Rab → Rab, (w.upd i f).upd i g = w.upd i (fun q => g (f q)) := by
      intro f g
      simp only [Warren.upd, List.modify_modify_eq]
      rfl
    simp only
    split
    · exact fin _ h
    · cases hs : q.state with
      | newborn =>
        refine fin _ (hself _ ?_)
        exact ⟨ok.mate, by simp, ok.litters, by simp, by simp, by simp⟩
      | youngling =>
        simp only
        have hy := ok.young (Or.inr hs)
        split
        · rw [hupd2]
          refine fin _ (hself _ ⟨ok.mate, by simp, ok.litters, by simp, ?_, ?_⟩)
          · intro _
            simp only
            omega
          · simp only
            omega
        · rename_i hm
          refine fin _ (hself _ ⟨ok.mate, ?_, ok.litters, ?_, ?_, ?_⟩)
          · simp [hs]
          · intro _
            simp only
            omega
          · simp [hs]
          · simp only
            omega
      | fertile =>
        simp only
        have ha := ok.adult (Or.inl hs)
        split
        · rw [hupd2]
          refine fin _ (hself _ ⟨ok.mate, by simp, ok.litters, by simp, by simp, ?_⟩)
          simp only
          omega
        · rename_i hl
          have hw1 : (w.upd i (fun q => { q with age := q.age + 1 })).Ok P := by
            refine hself _ ⟨ok.mate, ok.preg, ok.litters, ?_, ?_, ?_⟩
            · simp [hs]
            · intro _
              simp only
              omega
            · simp only
              omega
          split
          · rcases Warren.mateLoop_or P.mating i d r ((w.upd i (fun q => { q with age := q.age + 1 })).fertileFemales P.maxFemales) 0
              (w.upd i (fun q => { q with age := q.age + 1 })) with e | ⟨f, _, e⟩
            · rw [e]; exact fin _ hw1
            · rw [e]; exact fin _ (hw1.impregnate f i r h0 h1)
          · split
            · rename_i hp
              rw [hupd2]
              refine fin _ (hself _ ⟨ok.mate, fun _ => hp, ok.litters, by simp, ?_, ?_⟩)
              · intro _
                simp only
                omega
              · simp only
                omega
            · exact fin _ hw1
      | pregnant =>
        simp only
        have ha := ok.adult (Or.inr hs)
        have hp := ok.preg hs
        have hw1 : (w.upd i (fun q => { q with age := q.age + 1 })).rabs[i]? = some { q with age := q.age + 1 } := by
          rw [Warren.upd_get, if_pos rfl, hq]
          rfl
        split
        · have hd : (w.upd i (fun q => { q with age := q.age + 1, state := .dead })).Ok P := by
            refine hself _ ⟨ok.mate, by simp, ok.litters, by simp, by simp, ?_⟩
            simp only
            omega
          refine fin _ ?_
          have hk := hd.kill i
          have e : ((w.upd i (fun q => { q with age := q.age + 1 })).kill i).upd i (fun q => { q with state := .dead }) =
              (w.upd i (fun q => { q with age := q.age + 1, state := .dead })).kill i := by
            have hw2 : (w.upd i (fun q => { q with age := q.age + 1, state := .dead })).rabs[i]? =
                some { q with age := q.age + 1, state := .dead } := by
              rw [Warren.upd_get, if_pos rfl, hq]
              rfl
            unfold Warren.kill
            rw [hw1, hw2]
            simp only
            split
            · simp only [Warren.upd, List.modify_modify_eq]
              rfl
            · rw [hupd2]
          rw [e]
          exact hk
        · rename_i hl
          split
          · rename_i hg
            rw [hupd2]
            refine fin _ (hself _ ⟨?_, ?_, ?_, ?_, ?_, ?_⟩)
            · intro _
              exact ok.mate hp
            · intro _
              simp only
              omega
            · have := ok.litters
              simp only
              rw [if_pos hp] at this
              rw [if_pos (by omega)]
              exact this
            · simp [hs]
            · intro _
              simp only
              omega
            · simp only
              omega
          · have hok1 : (w.upd i (fun q => { q with age := q.age + 1 })).Ok P := by
              refine hself _ ⟨ok.mate, ok.preg, ok.litters, ?_, ?_, ?_⟩
              · simp [hs]
              · intro _
                simp only
                omega
              · simp only
                omega
            have hb := Warren.births_ok i q.mate sex q.babies 0 _ hok1
            obtain ⟨o, ho⟩ := Warren.births_mother i q.mate sex q.babies 0 _ _ hw1
            generalize Warren.births i q.mate sex q.babies 0 (w.upd i (fun q => { q with age := q.age + 1 })) = b at *
            have okb := hb i _ ho
            have hlit := okb.litters
            simp only at hlit
            rw [if_pos hp] at hlit
            split
            · refine ⟨by simp, ?_⟩
              intro j q' hq'
              rw [Warren.upd_get] at hq'
              split at hq'
              · rename_i hij
                subst hij
                rw [ho] at hq'
                cases hq'
                exact ⟨hlit, fun _ => (ok.mate hp).2, okb.old⟩
              · exact (hb j q' hq').weak
            · refine fin _ (hb.upd i _ ?_)
              intro q' hq'
              rw [ho] at hq'
              cases hq'
              refine ⟨by simp, by simp, ?_, by simp, ?_, okb.old⟩
              · simpa using hlit
              · intro _
                simp only
                omega
      | dead => exact fin _ (h.kill i)

theorem Warren.accidents_or (P : RabParams) (p : Rat) (d : Nat → Rat) (l : List Nat) (w : Warren) (h : w.Ok P) :
    (Warren.accidents p d l w).Ok P := by
  induction l generalizing w with
  | nil => exact h
  | cons i l ih =>
    simp only [Warren.accidents]
    refine ih _ ?_
    split
    · exact h
    · split
      · exact h.kill i
      · exact h

/-- What draws are possible: numbers in `[0, 1)`. -/
def RabEv.Draws : RabEv → Prop
  | .act _ d r _ => (∀ k, 0 ≤ d k) ∧ 0 ≤ r ∧ r < 1
  | .accident d => ∀ k, 0 ≤ d k

theorem Warren.run_ok {P : RabParams} (h : List RabEv) (hd : ∀ e ∈ h, e.Draws) (w : Warren) (hw : w.Ok P) :
    ((w.run P h).2 = false → (w.run P h).1.Ok P) ∧ ∀ (j : Nat) q, (w.run P h).1.rabs[j]? = some q → RabWeak P q := by
  induction h generalizing w with
  | nil => exact ⟨fun _ => hw, fun j q hq => (hw j q hq).weak⟩
  | cons e h ih =>
    simp only [Warren.run]
    have he : ((w.ev P e).2 = false → (w.ev P e).1.Ok P) ∧ ∀ (j : Nat) q, (w.ev P e).1.rabs[j]? = some q → RabWeak P q := by
      cases e with
      | act i d r sex =>
        obtain ⟨_, h0, h1⟩ := hd (.act i d r sex) (by simp)
        exact hw.act i d r sex h0 h1
      | accident d =>
        have := Warren.accidents_or P (deathChance P w.nodes.length) d
          ((List.range w.rabs.length).filter w.lives) w hw
        exact ⟨fun _ => this, fun j q hq => (this j q hq).weak⟩
    split
    · rename_i hr
      exact ⟨fun h => absurd hr (by rw [h]; simp), he.2⟩
    · rename_i hr
      exact ih (fun e' he' => hd e' (by simp [he'])) _ (he.1 (by simpa using hr))

theorem Warren.init_ok (P : RabParams) : Warren.init.Ok P := by
  intro j q hq
  simp only [Warren.init] at hq
  rcases j with _ | _ | j
  · cases hq; exact RabOk.new P true
  · cases hq; exact RabOk.new P false
  · simp at hq

/-- C129: whatever the schedule and the random numbers (in `[0, 1)`), every pregnancy is of 8 to 11 babies. -/
theorem C129_litters (P : RabParams) (h : List RabEv) (hd : ∀ e ∈ h, e.Draws) (j : Nat) (q : Rab)
    (hq : (Warren.init.run P h).1.rabs[j]? = some q) (hp : 0 ≤ q.pregnancy) : 8 ≤ q.babies ∧ q.babies ≤ 11 :=
  ((Warren.run_ok h hd _ (Warren.init_ok P)).2 j q hq).babies hp

/-- C131 (partial: the basic version): no mother has more litters than matings. -/
theorem C131_basic_partial (P : RabParams) (h : List RabEv) (hd : ∀ e ∈ h, e.Draws) (j : Nat) (q : Rab)
    (hq : (Warren.init.run P h).1.rabs[j]? = some q) : q.litters ≤ q.matings :=
  ((Warren.run_ok h hd _ (Warren.init_ok P)).2 j q hq).litters

/-- C132: no rabbit gets older than one more than the life expectancy (or the age of maturity, if that is more). -/
theorem C132_age (P : RabParams) (hP : 1 ≤ P.life) (h : List RabEv) (hd : ∀ e ∈ h, e.Draws) (j : Nat) (q : Rab)
    (hq : (Warren.init.run P h).1.rabs[j]? = some q) : q.age ≤ max P.maturity P.life + 1 := by
  have := ((Warren.run_ok h hd _ (Warren.init_ok P)).2 j q hq).old
  have e : P.oldest = max P.maturity P.life := by
    unfold RabParams.oldest
    exact max_eq_left (le_trans hP (le_max_right _ _))
  rw [e] at this
  exact this

/-! ## The network -/

/-- The nodes are those of the living rabbits, and edges join nodes. -/
structure Warren.Net (w : Warren) : Prop where
  nodup : w.nodes.Nodup
  mem : ∀ j : Nat, j ∈ w.nodes ↔ ∃ q, w.rabs[j]? = some q ∧ q.alive = true
  edges : ∀ e ∈ w.edges, e.1 ∈ w.nodes ∧ e.2 ∈ w.nodes

theorem Warren.Net.upd {w : Warren} (h : w.Net) (i : Nat) (f : Rab → Rab) (hf : ∀ q, (f q).alive = q.alive) : (w.upd i f).Net := by
  refine ⟨h.nodup, ?_, h.edges⟩
  intro j
  show j ∈ w.nodes ↔ _
  rw [h.mem, Warren.upd_get]
  by_cases hij : i = j
  · subst hij
    simp only [if_true]
    cases w.rabs[i]? <;> simp [hf]
  · simp only [hij, if_false]

theorem Warren.Net.add {w : Warren} (h : w.Net) (m : Bool) : (w.add m).Net := by
  have hlen : w.rabs.length ∉ w.nodes := by
    intro hm
    obtain ⟨q, hq, _⟩ := (h.mem _).1 hm
    exact absurd (List.getElem?_eq_some_iff.1 hq).1 (by simp)
  refine ⟨?_, ?_, ?_⟩
  · show (w.nodes ++ [w.rabs.length]).Nodup
    rw [List.nodup_append]
    refine ⟨h.nodup, by simp, ?_⟩
    intro a ha b hb
    simp only [List.mem_singleton] at hb
    subst hb
    rintro rfl
    exact hlen ha
  · intro j
    simp only [Warren.add, List.mem_append, List.mem_singleton]
    rw [h.mem, List.getElem?_append]
    by_cases hj : j < w.rabs.length
    · simp only [hj, if_true]
      constructor
      · rintro (h | rfl)
        · exact h
        · exact absurd hj (by simp)
      · exact Or.inl
    · simp only [hj, if_false]
      rw [List.getElem?_singleton]
      constructor
      · rintro (⟨q, hq, _⟩ | rfl)
        · exact absurd (List.getElem?_eq_some_iff.1 hq).1 hj
        · exact ⟨Rab.new m, by simp, rfl⟩
      · rintro ⟨q, hq, _⟩
        split at hq
        · right; omega
        · cases hq
  · intro e he
    have := h.edges e he
    simp only [Warren.add, List.mem_append]
    exact ⟨Or.inl this.1, Or.inl this.2⟩

theorem Warren.Net.link {w : Warren} (h : w.Net) (a b : Nat) (ha : a ∈ w.nodes) (hb : b ∈ w.nodes) :
    ({ w with edges := w.edges ++ [(a, b)] } : Warren).Net := by
  refine ⟨h.nodup, h.mem, ?_⟩
  intro e he
  simp only [List.mem_append, List.mem_singleton] at he
  rcases he with he | rfl
  · exact h.edges e he
  · exact ⟨ha, hb⟩

theorem Warren.kill_get (w : Warren) (i j : Nat) :
    (w.kill i).rabs[j]? = if i = j then w.rabs[j]?.map (fun q => { q with alive := false }) else w.rabs[j]? := by
  unfold Warren.kill
  cases hq : w.rabs[i]? with
  | none =>
    by_cases h : i = j
    · subst h; simp [hq]
    · simp [h]
  | some q =>
    simp only
    split
    · exact Warren.upd_get w i j _
    · rename_i ha
      by_cases h : i = j
      · subst h
        simp only [if_true, hq, Option.map_some]
        congr 1
        cases q
        simp_all
      · simp [h]

theorem Warren.Net.kill {w : Warren} (h : w.Net) (i : Nat) : (w.kill i).Net := by
  have hk := Warren.kill_get w i
  unfold Warren.kill at *
  cases hq : w.rabs[i]? with
  | none => exact h
  | some q =>
    rw [hq] at hk
    simp only at hk ⊢
    split
    · rename_i ha
      simp only [ha, if_true] at hk
      refine ⟨h.nodup.filter _, ?_, ?_⟩
      · intro j
        rw [hk]
        simp only [List.mem_filter, decide_eq_true_eq]
        rw [h.mem]
        by_cases hij : i = j
        · subst hij
          simp [hq]
        · simp only [hij, if_false]
          constructor
          · exact fun h => h.1
          · exact fun h => ⟨h, fun e => hij e.symm⟩
      · intro e he
        simp only [List.mem_filter, decide_eq_true_eq] at he ⊢
        exact ⟨⟨(h.edges e he.1).1, he.2.1⟩, ⟨(h.edges e he.1).2, he.2.2⟩⟩
    · exact h

theorem Warren.births_net (i : Nat) (mate : Option Nat) (sex : Nat → Bool) (n k : Nat) (w : Warren) (h : w.Net) (hi : i ∈ w.nodes) :
    (Warren.births i mate sex n k w).1.Net := by
  induction n generalizing k w with
  | zero => exact h
  | succ n ih =>
    simp only [Warren.births]
    have hi1 : i ∈ (w.add (sex k)).nodes := by simp [Warren.add, hi]
    have hc : w.rabs.length ∈ (w.add (sex k)).nodes := by simp [Warren.add]
    have h2 := (h.add (sex k)).link w.rabs.length i hc hi1
    cases mate with
    | none => exact h2
    | some m =>
      simp only
      split
      · rename_i hm
        exact h2.link w.rabs.length m hc (by simpa [Warren.hasNode] using hm)
      · exact ih (k + 1) _ (h2.upd i _ (fun _ => rfl)) hi1

theorem Warren.Net.act {P : RabParams} {w : Warren} (h : w.Net) (i : Nat) (d : Nat → Rat) (r : Rat) (sex : Nat → Bool) :
    (w.act P i d r sex).1.Net := by
  unfold Warren.act
  cases hq : w.rabs[i]? with
  | none => exact h
  | some q =>
    simp only
    split
    · exact h
    · rename_i ha
      have hi : i ∈ w.nodes := (h.mem i).2 ⟨q, hq, by simpa using ha⟩
      cases hs : q.state with
      | newborn => exact h.upd i _ (fun _ => rfl)
      | youngling =>
        simp only
        have h1 := h.upd i (fun q => { q with age := q.age + 1 }) (fun _ => rfl)
        split
        · exact h1.upd i _ (fun _ => rfl)
        · exact h1
      | fertile =>
        simp only
        have h1 := h.upd i (fun q => { q with age := q.age + 1 }) (fun _ => rfl)
        split
        · exact h1.upd i _ (fun _ => rfl)
        · split
          · rcases Warren.mateLoop_or P.mating i d r ((w.upd i (fun q => { q with age := q.age + 1 })).fertileFemales P.maxFemales) 0
              (w.upd i (fun q => { q with age := q.age + 1 })) with e | ⟨f, _, e⟩
            · rw [e]; exact h1
            · rw [e]; exact h1.upd f _ (fun _ => rfl)
          · split
            · exact h1.upd i _ (fun _ => rfl)
            · exact h1
      | pregnant =>
        simp only
        have h1 := h.upd i (fun q => { q with age := q.age + 1 }) (fun _ => rfl)
        split
        · exact (h1.kill i).upd i _ (fun _ => rfl)
        · split
          · exact h1.upd i _ (fun _ => rfl)
          · have hb := Warren.births_net i q.mate sex q.babies 0 _ h1 hi
            split
            · exact hb.upd i _ (fun _ => rfl)
            · exact hb.upd i _ (fun _ => rfl)
      | dead => exact h.kill i

theorem Warren.accidents_net (p : Rat) (d : Nat → Rat) (l : List Nat) (w : Warren) (h : w.Net) :
    (Warren.accidents p d l w).Net := by
  induction l generalizing w with
  | nil => exact h
  | cons i l ih =>
    simp only [Warren.accidents]
    refine ih _ ?_
    split
    · exact h
    · split
      · exact h.kill i
      · exact h

theorem Warren.run_net {P : RabParams} (h : List RabEv) (w : Warren) (hw : w.Net) : (w.run P h).1.Net := by
  induction h generalizing w with
  | nil => exact hw
  | cons e h ih =>
    simp only [Warren.run]
    have he : (w.ev P e).1.Net := by
      cases e with
      | act i d r sex => exact hw.act i d r sex
      | accident d => exact Warren.accidents_net _ _ _ _ hw
    split
    · exact he
    · exact ih _ he

theorem Warren.init_net : Warren.init.Net := by
  refine ⟨by decide, ?_, by decide⟩
  intro j
  rcases j with _ | _ | j
  · simp [Warren.init, Rab.new]
  · simp [Warren.init, Rab.new]
  · simp [Warren.init]

/-- C133: after any run, the nodes of the network are exactly those of the living rabbits, none twice, and every edge joins two
living rabbits. -/
theorem C133_network (P : RabParams) (h : List RabEv) :
    (Warren.init.run P h).1.nodes.Nodup ∧
      (∀ j : Nat, j ∈ (Warren.init.run P h).1.nodes ↔ ∃ q, (Warren.init.run P h).1.rabs[j]? = some q ∧ q.alive = true) ∧
      ∀ e ∈ (Warren.init.run P h).1.edges, ∀ j ∈ [e.1, e.2], ∃ q, (Warren.init.run P h).1.rabs[j]? = some q ∧ q.alive = true := by
  have hn := Warren.run_net (P := P) h _ Warren.init_net
  refine ⟨hn.nodup, hn.mem, ?_⟩
  intro e he j hj
  have := hn.edges e he
  simp only [List.mem_cons, List.not_mem_nil, or_false] at hj
  rcases hj with rfl | rfl
  · exact (hn.mem _).1 this.1
  · exact (hn.mem _).1 this.2

/-! ## Accidents -/

theorem deathChance_small (P : RabParams) (n : Nat) (hn : n < 10) : deathChance P n = 0 := by
  have : Nat.log 10 (max 1 n) = 0 := Nat.log_of_lt (by omega)
  unfold deathChance
  rw [this]
  simp

theorem Warren.accidents_none (d : Nat → Rat) (hd : ∀ k, 0 ≤ d k) (l : List Nat) (w : Warren) : Warren.accidents 0 d l w = w := by
  induction l generalizing w with
  | nil => rfl
  | cons i l ih =>
    simp only [Warren.accidents]
    rw [if_neg (not_lt.2 (hd i))]
    simp only [ite_self]
    exact ih w

/-- C134: with fewer than ten rabbits in the network nothing happens. -/
theorem C134_few (P : RabParams) (w : Warren) (d : Nat → Rat) (hd : ∀ k, 0 ≤ d k) (hn : w.nodes.length < 10) : w.accident P d = w := by
  unfold Warren.accident
  rw [deathChance_small P _ hn]
  exact Warren.accidents_none d hd _ w

theorem Warren.accidents_get (p : Rat) (d : Nat → Rat) (l : List Nat) (w : Warren) (j : Nat) (q : Rab) (hq : w.rabs[j]? = some q) :
    (Warren.accidents p d l w).rabs[j]? =
      some { q with alive := q.alive && !(decide (j ∈ l) && decide (q.state ≠ .dead) && decide (d j < p)) } := by
  induction l generalizing w q with
  | nil => simpa [Warren.accidents] using hq
  | cons i l ih =>
    simp only [Warren.accidents]
    by_cases hij : i = j
    · subst hij
      have hg : w.gone i = decide (q.state = .dead) := by simp [Warren.gone, hq]
      rw [hg]
      by_cases hs : q.state = .dead
      · simp only [hs, decide_true, if_true]
        rw [ih w q hq]
        simp [hs]
      · simp only [hs, decide_false, Bool.false_eq_true, if_false]
        by_cases hp : d i < p
        · simp only [hp, if_true]
          rw [ih (w.kill i) { q with alive := false } (by rw [Warren.kill_get, if_pos rfl, hq]; rfl)]
          simp [hs]
        · simp only [hp, if_false]
          rw [ih w q hq]
          simp [hp]
    · have hj : (if w.gone i = true then w else if d i < p then w.kill i else w).rabs[j]? = some q := by
        split
        · exact hq
        · split
          · rw [Warren.kill_get, if_neg hij]; exact hq
          · exact hq
      rw [ih _ q hj]
      have : (j ∈ i :: l) ↔ j ∈ l := by
        simp only [List.mem_cons]
        exact ⟨fun h => h.resolve_left (fun e => hij e.symm), Or.inr⟩
      simp only [this]

/-- C134: an accident kills exactly the living rabbits, not on the way to death already, whose number drawn is below the chance
`prob_death * floor(log10(rabbits))`; nothing else about any rabbit changes and nobody is added. -/
theorem C134_exact (P : RabParams) (w : Warren) (d : Nat → Rat) (j : Nat) (q : Rab) (hq : w.rabs[j]? = some q) :
    (w.accident P d).rabs[j]? = some (if q.alive = true ∧ q.state ≠ .dead ∧ d j < P.death * (Nat.log 10 (max 1 w.nodes.length) : Nat)
      then { q with alive := false } else q) := by
  unfold Warren.accident
  rw [Warren.accidents_get _ d _ w j q hq]
  have hlt := (List.getElem?_eq_some_iff.1 hq).1
  have hmem : (j ∈ (List.range w.rabs.length).filter w.lives) ↔ q.alive = true := by
    simp only [List.mem_filter, List.mem_range, hlt, true_and, Warren.lives, hq]
  simp only [hmem]
  congr 1
  have hd : deathChance P w.nodes.length = P.death * (Nat.log 10 (max 1 w.nodes.length) : Nat) := rfl
  rw [hd]
  by_cases ha : q.alive = true <;> by_cases hs : q.state = .dead <;>
    by_cases hp : d j < P.death * (Nat.log 10 (max 1 w.nodes.length) : Nat) <;> simp [ha, hs, hp] <;> (cases q; simp_all)

theorem Warren.accidents_length (p : Rat) (d : Nat → Rat) (l : List Nat) (w : Warren) :
    (Warren.accidents p d l w).rabs.length = w.rabs.length := by
  induction l generalizing w with
  | nil => rfl
  | cons i l ih =>
    simp only [Warren.accidents]
    rw [ih]
    split
    · rfl
    · split
      · unfold Warren.kill
        split
        · rfl
        · split
          · simp
          · rfl
      · rfl

/-- C134: an accident brings no rabbit into the world. -/
theorem C134_length (P : RabParams) (w : Warren) (d : Nat → Rat) : (w.accident P d).rabs.length = w.rabs.length :=
  Warren.accidents_length _ _ _ _

/-! ## Births -/

/-- The loop with a father that has died: every baby is added and counted. -/
theorem Warren.births_dead (i m : Nat) (sex : Nat → Bool) (n k : Nat) (w : Warren) (hm : m ∉ w.nodes) (hlt : m < w.rabs.length)
    (hi : i < w.rabs.length) :
    (Warren.births i (some m) sex n k w).2 = false ∧
      (Warren.births i (some m) sex n k w).1.rabs =
        (w.rabs.modify i (fun q => { q with offspring := q.offspring + n })) ++ (List.range n).map (fun c => Rab.new (sex (k + c))) ∧
      (Warren.births i (some m) sex n k w).1.nodes = w.nodes ++ (List.range n).map (fun c => w.rabs.length + c) ∧
      (Warren.births i (some m) sex n k w).1.edges = w.edges ++ (List.range n).map (fun c => (w.rabs.length + c, i)) := by
  induction n generalizing k w with
  | zero =>
    refine ⟨rfl, ?_, by simp [Warren.births], by simp [Warren.births]⟩
    simp only [Warren.births, List.range_zero, List.map_nil, List.append_nil]
    show w.rabs = w.rabs.modify i id
    rw [List.modify_id]
  | succ n ih =>
    have hnode : ({ w.add (sex k) with edges := (w.add (sex k)).edges ++ [(w.rabs.length, i)] } : Warren).hasNode m = false := by
      simp only [Warren.hasNode, Warren.add, decide_eq_false_iff_not, List.mem_append, List.mem_singleton, not_or]
      exact ⟨hm, by omega⟩
    simp only [Warren.births, hnode, Bool.false_eq_true, if_false]
    obtain ⟨a, b, c, e⟩ := ih (k + 1) (Warren.upd { w.add (sex k) with edges := (w.add (sex k)).edges ++ [(w.rabs.length, i)] } i
      (fun q => { q with offspring := q.offspring + 1 })) (by
        simp only [Warren.upd, Warren.add, List.mem_append, List.mem_singleton, not_or]
        exact ⟨hm, by omega⟩) (by simp [Warren.upd, Warren.add]; omega) (by simp [Warren.upd, Warren.add]; omega)
    refine ⟨a, ?_, ?_, ?_⟩
    · rw [b]
      simp only [Warren.upd, Warren.add, List.modify_modify_eq]
      rw [List.range_succ_eq_map, List.map_cons, List.map_map]
      have : (w.rabs ++ [Rab.new (sex k)]).modify i ((fun q : Rab => { q with offspring := q.offspring + n }) ∘
          fun q => { q with offspring := q.offspring + 1 }) =
          w.rabs.modify i (fun q => { q with offspring := q.offspring + (n + 1) }) ++ [Rab.new (sex k)] := by
        have hf : ((fun q : Rab => { q with offspring := q.offspring + n }) ∘ fun q => { q with offspring := q.offspring + 1 }) =
            (fun q : Rab => { q with offspring := q.offspring + (n + 1) }) := by
          funext q
          simp only [Function.comp, Nat.add_assoc, Nat.add_comm 1 n]
        rw [hf]
        apply List.ext_getElem?
        intro t
        rw [List.getElem?_modify, List.getElem?_append, List.getElem?_append, List.length_modify, List.getElem?_modify]
        by_cases ht : t < w.rabs.length
        · simp only [ht, if_true]
        · simp only [ht, if_false]
          have : i ≠ t := by omega
          simp only [this, if_false]
          cases [Rab.new (sex k)][t - w.rabs.length]? <;> rfl
      rw [this, List.append_assoc]
      congr 1
      simp only [List.singleton_append, Nat.add_zero, List.cons.injEq, true_and]
      apply List.map_congr_left
      intro c _
      simp only [Function.comp]
      congr 2
      omega
    · rw [c]
      simp only [Warren.upd, Warren.add, List.length_modify, List.length_append, List.length_singleton]
      rw [List.range_succ_eq_map, List.map_cons, List.map_map, List.append_assoc]
      congr 1
      simp only [List.singleton_append, Nat.add_zero, List.cons.injEq, true_and]
      apply List.map_congr_left
      intro c _
      simp only [Function.comp]
      omega
    · rw [e]
      simp only [Warren.upd, Warren.add, List.length_modify, List.length_append, List.length_singleton]
      rw [List.range_succ_eq_map, List.map_cons, List.map_map, List.append_assoc]
      congr 1
      simp only [List.singleton_append, Nat.add_zero, List.cons.injEq, true_and]
      apply List.map_congr_left
      intro c _
      simp only [Function.comp]
      congr 1
      omega

/-- A mother whose time has come (examples/rabbits/rabbits_basic_sim.py:113-118). -/
def Rab.Due (P : RabParams) (q : Rab) : Prop :=
  q.alive = true ∧ q.state = .pregnant ∧ q.age + 1 < P.life ∧ (P.gestation : Int) ≤ q.pregnancy

/-- C130 (partial: the father is dead): after any run, if the father has died, the mother gives birth to all her babies: as many
new rabbits as she carried, each with a node and linked to her alone; they are counted as her offspring; she is fertile again. -/
theorem C130_basic_partial (P : RabParams) (h : List RabEv) (i m : Nat) (q f : Rab) (d : Nat → Rat) (r : Rat) (sex : Nat → Bool)
    (hq : (Warren.init.run P h).1.rabs[i]? = some q) (hdue : q.Due P) (hm : q.mate = some m)
    (hf : (Warren.init.run P h).1.rabs[m]? = some f) (hdead : f.alive = false) :
    let w := (Warren.init.run P h).1
    let w' := (w.act P i d r sex).1
    (w.act P i d r sex).2 = false ∧ w'.rabs.length = w.rabs.length + q.babies ∧
      (∀ c < q.babies, w'.rabs[w.rabs.length + c]? = some (Rab.new (sex c))) ∧
      w'.nodes = w.nodes ++ (List.range q.babies).map (fun c => w.rabs.length + c) ∧
      w'.edges = w.edges ++ (List.range q.babies).map (fun c => (w.rabs.length + c, i)) ∧
      w'.rabs[i]? = some { q with age := q.age + 1, offspring := q.offspring + q.babies, mate := none, pregnancy := -1, state := .fertile, litters := q.litters + 1 } := by
  have hn := Warren.run_net (P := P) h _ Warren.init_net
  generalize (Warren.init.run P h).1 = w at *
  intro w0 w'
  obtain ⟨ha, hs, hl, hg⟩ := hdue
  have hmn : m ∉ w.nodes := by
    intro hm'
    obtain ⟨f', hf', ha'⟩ := (hn.mem m).1 hm'
    rw [hf] at hf'
    cases hf'
    rw [hdead] at ha'
    cases ha'
  have hlt := (List.getElem?_eq_some_iff.1 hq).1
  obtain ⟨a, b, c, e⟩ := Warren.births_dead i m sex q.babies 0 (w.upd i (fun q => { q with age := q.age + 1 })) hmn
    (by simp [Warren.upd]; exact (List.getElem?_eq_some_iff.1 hf).1) (by simp [Warren.upd]; exact hlt)
  have hact : w.act P i d r sex = ((Warren.births i (some m) sex q.babies 0 (w.upd i (fun q => { q with age := q.age + 1 }))).1.upd i
      (fun q => { q with mate := none, pregnancy := -1, state := .fertile, litters := q.litters + 1 }), false) := by
    unfold Warren.act
    rw [hq]
    simp only [ha, Bool.not_true, Bool.false_eq_true, if_false, hs]
    rw [if_neg (by omega), if_neg (by omega), hm, a]
    simp
  have hw' : w' = (Warren.births i (some m) sex q.babies 0 (w.upd i (fun q => { q with age := q.age + 1 }))).1.upd i
      (fun q => { q with mate := none, pregnancy := -1, state := .fertile, litters := q.litters + 1 }) := by
    show (w.act P i d r sex).1 = _
    rw [hact]
  have hlen : (w.upd i (fun q => { q with age := q.age + 1 })).rabs.length = w.rabs.length := by simp [Warren.upd]
  rw [hw']
  show (w.act P i d r sex).2 = false ∧ _
  rw [hact]
  refine ⟨rfl, ?_, ?_, ?_, ?_, ?_⟩
  · simp only [Warren.upd, List.length_modify] at b ⊢
    rw [b]
    simp [w0]
  · intro k hk
    rw [Warren.upd_get, if_neg (by show i ≠ w.rabs.length + k; omega), b,
      List.getElem?_append_right (by simp [Warren.upd, w0])]
    simp [Warren.upd, w0, hk]
  · show (Warren.births i (some m) sex q.babies 0 _).1.nodes = _
    rw [c, hlen]
    rfl
  · show (Warren.births i (some m) sex q.babies 0 _).1.edges = _
    rw [e, hlen]
    rfl
  · rw [Warren.upd_get, if_pos rfl, b, List.getElem?_append_left (by simpa [Warren.upd] using hlt)]
    simp only [Warren.upd, List.modify_modify_eq, List.getElem?_modify_eq, hq]
    rfl

/-- C130 is false in the basic version: after any run, if the father is alive, the birth ends with an exception after the first
baby (`self.model.agents[self.mate]` raises `TypeError`), the offspring is not counted and the mother remains pregnant. -/
theorem C130_basic_false (P : RabParams) (h : List RabEv) (i m : Nat) (q f : Rab) (d : Nat → Rat) (r : Rat) (sex : Nat → Bool)
    (hd : ∀ e ∈ h, e.Draws) (hok : (Warren.init.run P h).2 = false)
    (hq : (Warren.init.run P h).1.rabs[i]? = some q) (hdue : q.Due P) (hm : q.mate = some m)
    (hf : (Warren.init.run P h).1.rabs[m]? = some f) (halive : f.alive = true) :
    let w := (Warren.init.run P h).1
    let w' := (w.act P i d r sex).1
    (w.act P i d r sex).2 = true ∧ w'.rabs.length = w.rabs.length + 1 ∧ 8 ≤ q.babies ∧
      ∃ q', w'.rabs[i]? = some q' ∧ q'.offspring = q.offspring ∧ q'.state = .pregnant := by
  have hn := Warren.run_net (P := P) h _ Warren.init_net
  have hok' := (Warren.run_ok h hd _ (Warren.init_ok P)).1 hok
  generalize (Warren.init.run P h).1 = w at *
  intro w0 w'
  obtain ⟨ha, hs, hl, hg⟩ := hdue
  have hb := ((hok' i q hq).mate (by omega)).2.1
  have hmn : m ∈ w.nodes := (hn.mem m).2 ⟨f, hf, halive⟩
  have hlt := (List.getElem?_eq_some_iff.1 hq).1
  have hact : w.act P i d r sex = ((Warren.births i (some m) sex q.babies 0 (w.upd i (fun q => { q with age := q.age + 1 }))).1.upd i
      (fun q => { q with litters := q.litters + 1 }), true) ∧
      (Warren.births i (some m) sex q.babies 0 (w.upd i (fun q => { q with age := q.age + 1 }))).1.rabs =
        (w.upd i (fun q => { q with age := q.age + 1 })).rabs ++ [Rab.new (sex 0)] := by
    obtain ⟨n, hn'⟩ : ∃ n, q.babies = n + 1 := ⟨q.babies - 1, by omega⟩
    have hnode : ({ (w.upd i (fun q => { q with age := q.age + 1 })).add (sex 0) with edges := ((w.upd i (fun q => { q with age := q.age + 1 })).add (sex 0)).edges ++ [((w.upd i (fun q => { q with age := q.age + 1 })).rabs.length, i)] } : Warren).hasNode m = true := by
      simp [Warren.hasNode, Warren.add, Warren.upd, hmn]
    have hbs : (Warren.births i (some m) sex q.babies 0 (w.upd i (fun q => { q with age := q.age + 1 }))).2 = true ∧
        (Warren.births i (some m) sex q.babies 0 (w.upd i (fun q => { q with age := q.age + 1 }))).1.rabs =
        (w.upd i (fun q => { q with age := q.age + 1 })).rabs ++ [Rab.new (sex 0)] := by
      rw [hn']
      simp only [Warren.births, hnode, if_true]
      exact ⟨trivial, rfl⟩
    refine ⟨?_, hbs.2⟩
    unfold Warren.act
    rw [hq]
    simp only [ha, Bool.not_true, Bool.false_eq_true, if_false, hs]
    rw [if_neg (by omega), if_neg (by omega), hm, hbs.1]
    simp
  obtain ⟨hact, hr⟩ := hact
  have hw' : w' = (Warren.births i (some m) sex q.babies 0 (w.upd i (fun q => { q with age := q.age + 1 }))).1.upd i
      (fun q => { q with litters := q.litters + 1 }) := by
    show (w.act P i d r sex).1 = _
    rw [hact]
  rw [hw']
  show (w.act P i d r sex).2 = true ∧ _
  rw [hact]
  refine ⟨rfl, ?_, hb, { q with age := q.age + 1, litters := q.litters + 1 }, ?_, rfl, hs⟩
  · simp only [Warren.upd, List.length_modify] at hr ⊢
    rw [hr]
    simp [w0]
  · rw [Warren.upd_get, if_pos rfl, hr, List.getElem?_append_left (by simpa [Warren.upd] using hlt), Warren.upd_get, if_pos rfl, hq]
    rfl

/-! ## The improved version -/

theorem Den.births_ok (n : Nat) (w : Den) (hm : ∀ m, w.doe.mate = some m → m ∈ w.nodes) :
    w.births n = ({ w with born := w.born + n, doe := { w.doe with offspring := w.doe.offspring + n } }, false) := by
  induction n generalizing w with
  | zero => rfl
  | succ n ih =>
    simp only [Den.births]
    have key := ih { w with born := w.born + 1, doe := { w.doe with offspring := w.doe.offspring + 1 } } hm
    have fin : Den.births n { w with born := w.born + 1, doe := { w.doe with offspring := w.doe.offspring + 1 } } =
        ({ w with born := w.born + (n + 1), doe := { w.doe with offspring := w.doe.offspring + (n + 1) } }, false) := by
      rw [key]
      simp only [Nat.add_assoc, Nat.add_comm 1 n]
    split
    · exact fin
    · rename_i m h
      rw [if_pos (hm m h)]
      exact fin

/-- A mother of the improved version whose time has come. -/
def Den.Due (life gestation now : Rat) (w : Den) : Prop :=
  w.doe.state = .pregnant ∧ now - w.doe.birth ≤ life ∧ ∃ t, w.doe.conception = some t ∧ gestation ≤ now - t

/-- C130 (partial: the improved version, the father alive): all babies are born and counted. -/
theorem C130_improved_partial (life gestation now : Rat) (w : Den) (h : w.Due life gestation now)
    (hm : ∀ m, w.doe.mate = some m → m ∈ w.nodes) :
    (w.act life gestation now).2 = false ∧ (w.act life gestation now).1.born = w.born + w.doe.babies ∧
      (w.act life gestation now).1.doe.offspring = w.doe.offspring + w.doe.babies ∧
      (w.act life gestation now).1.doe.state = .fertile := by
  obtain ⟨hs, hl, t, ht, hg⟩ := h
  unfold Den.act
  rw [hs]
  simp only [not_lt.2 hl, if_false, ht, hg, if_true, Den.births_ok _ w hm]
  simp

/-- C130 is false in the improved version: if the father has died, the birth ends with an exception (`ValueError` of `add_edge`)
after the first baby. -/
theorem C130_improved_false (life gestation now : Rat) (w : Den) (h : w.Due life gestation now) (m : Nat)
    (hm : w.doe.mate = some m) (hdead : m ∉ w.nodes) (hb : 0 < w.doe.babies) :
    (w.act life gestation now).2 = true ∧ (w.act life gestation now).1.born = w.born + 1 ∧
      (w.act life gestation now).1.doe.state = .pregnant := by
  obtain ⟨hs, hl, t, ht, hg⟩ := h
  obtain ⟨n, hn⟩ : ∃ n, w.doe.babies = n + 1 := ⟨w.doe.babies - 1, by omega⟩
  unfold Den.act
  rw [hs]
  simp only [not_lt.2 hl, if_false, ht, hg, if_true, hn, Den.births, hm, hdead]
  simp [hs]

/-- C131 is false in the improved version: `conception` is never reset, so that a mother that has mated once has a litter with
every second activation for the rest of her life: `k` litters in `2 k` activations, without any mating. -/
theorem C131_improved_false (life gestation : Rat) (k : Nat) (ts : List Rat) (hk : ts.length = 2 * k) (w : Den) (c : Rat)
    (hs : w.doe.state = .fertile) (hc : w.doe.conception = some c) (hm : ∀ m, w.doe.mate = some m → m ∈ w.nodes)
    (ht : ∀ t ∈ ts, t - w.doe.birth ≤ life ∧ gestation ≤ t - c) :
    (w.run life gestation ts).born = w.born + k * w.doe.babies := by
  induction k generalizing ts w with
  | zero =>
    have : ts = [] := List.length_eq_zero_iff.1 (by omega)
    subst this
    simp [Den.run]
  | succ k ih =>
    match ts, hk with
    | a :: b :: ts, hk =>
      obtain ⟨a1, _⟩ := ht a (by simp)
      obtain ⟨b1, b2⟩ := ht b (by simp)
      have e1 : (w.act life gestation a).1 = { w with doe := { w.doe with state := .pregnant } } := by
        unfold Den.act
        rw [hs]
        simp [not_lt.2 a1, hc]
      have e2 : (({ w with doe := { w.doe with state := .pregnant } } : Den).act life gestation b).1 =
          { w with born := w.born + w.doe.babies, doe := { w.doe with offspring := w.doe.offspring + w.doe.babies, mate := none, state := .fertile } } := by
        have hb := Den.births_ok w.doe.babies { w with doe := { w.doe with state := .pregnant } } hm
        unfold Den.act
        simp only [not_lt.2 b1, if_false, hc, b2, if_true]
        simp only [hc] at hb
        rw [hb]
        simp
      have e : w.run life gestation (a :: b :: ts) =
          Den.run life gestation { w with born := w.born + w.doe.babies, doe := { w.doe with offspring := w.doe.offspring + w.doe.babies, mate := none, state := .fertile } } ts := by
        unfold Den.run
        rw [List.foldl_cons, List.foldl_cons, e1, e2]
      have := ih ts (by simp at hk; omega) { w with born := w.born + w.doe.babies, doe := { w.doe with offspring := w.doe.offspring + w.doe.babies, mate := none, state := .fertile } }
        rfl hc (fun m h => absurd h (by simp)) (fun t h => ht t (by simp [h]))
      rw [e, this]
      simp only
      rw [Nat.add_mul]
      omega

/-- C130 (partial: no births before their time): in both versions, babies are only born to mothers whose time has come. -/
theorem C130_due_partial (life gestation now : Rat) (w : Den) (hb : (w.act life gestation now).1.born ≠ w.born) : w.Due life gestation now := by
  unfold Den.act at hb
  cases hs : w.doe.state <;> rw [hs] at hb <;> simp only at hb
  · exact absurd rfl hb
  · exact absurd rfl hb
  · exfalso
    split at hb
    · exact hb rfl
    · split at hb <;> exact hb rfl
  · split at hb
    · exact absurd rfl hb
    · rename_i hl
      split at hb
      · exact absurd rfl hb
      · rename_i t ht
        split at hb
        · rename_i hg
          exact ⟨hs, not_lt.1 hl, t, ht, hg⟩
        · exact absurd rfl hb
  · exact absurd rfl hb

theorem Warren.mateLoop_spec (p : Rat) (male : Nat) (d : Nat → Rat) (r : Rat) (l : List Nat) (k : Nat) (w : Warren) :
    Warren.mateLoop p male d r l k w = w ∨ ∃ f ∈ l, ∃ m, d m < p ∧ Warren.mateLoop p male d r l k w = w.impregnate f male r := by
  induction l generalizing k with
  | nil => exact Or.inl rfl
  | cons f fs ih =>
    simp only [Warren.mateLoop]
    split
    · rename_i hd
      exact Or.inr ⟨f, by simp, k, hd, rfl⟩
    · rcases ih (k + 1) with h | ⟨g, hg, m, hm, h⟩
      · exact Or.inl h
      · exact Or.inr ⟨g, by simp [hg], m, hm, h⟩

theorem Warren.fertileFemales_mem {w : Warren} {limit f : Nat} (h : f ∈ w.fertileFemales limit) :
    ∃ q, w.rabs[f]? = some q ∧ q.alive = true ∧ q.male = false ∧ q.state = .fertile := by
  unfold Warren.fertileFemales at h
  have h2 := (List.mem_filter.1 (List.mem_of_mem_take h)).2
  split at h2
  · rename_i q hq
    simp only [Bool.and_eq_true, Bool.not_eq_true', decide_eq_true_eq] at h2
    exact ⟨q, hq, h2.1.1, h2.1.2, h2.2⟩
  · cases h2

theorem Warren.births_matings (i : Nat) (mate : Option Nat) (sex : Nat → Bool) (n k : Nat) (w : Warren) (j : Nat) (q : Rab)
    (hq : w.rabs[j]? = some q) :
    ∃ q', (Warren.births i mate sex n k w).1.rabs[j]? = some q' ∧ q'.matings = q.matings := by
  have step : ∀ (w : Warren) (q : Rab), w.rabs[j]? = some q → ∀ m, (w.add m).rabs[j]? = some q := by
    intro w q hq m
    simp only [Warren.add]
    rw [List.getElem?_append_left (List.getElem?_eq_some_iff.1 hq).1]
    exact hq
  induction n generalizing k w q with
  | zero => exact ⟨q, hq, rfl⟩
  | succ n ih =>
    have h1 := step w q hq (sex k)
    simp only [Warren.births]
    split
    · exact ⟨q, h1, rfl⟩
    · split
      · exact ⟨q, h1, rfl⟩
      · by_cases hij : i = j
        · obtain ⟨q', h2, h3⟩ := ih (k + 1) (Warren.upd { w.add (sex k) with edges := (w.add (sex k)).edges ++ [(w.rabs.length, i)] } i
            (fun q => { q with offspring := q.offspring + 1 })) { q with offspring := q.offspring + 1 }
            (by rw [Warren.upd_get, if_pos hij]; simp [h1])
          exact ⟨q', h2, h3⟩
        · obtain ⟨q', h2, h3⟩ := ih (k + 1) (Warren.upd { w.add (sex k) with edges := (w.add (sex k)).edges ++ [(w.rabs.length, i)] } i
            (fun q => { q with offspring := q.offspring + 1 })) q
            (by rw [Warren.upd_get, if_neg hij]; exact h1)
          exact ⟨q', h2, h3⟩

/-- C131 (partial: the basic version): a mating is one between a living fertile male, in its own activation, and a living fertile female, which
then expects its babies; an activation leads to at most one. -/
theorem C131_mating_partial (P : RabParams) (w : Warren) (i : Nat) (d : Nat → Rat) (r : Rat) (sex : Nat → Bool) (j : Nat) (q q' : Rab)
    (hq : w.rabs[j]? = some q) (hq' : (w.act P i d r sex).1.rabs[j]? = some q') (hm : q'.matings ≠ q.matings) :
    q'.matings = q.matings + 1 ∧ q.alive = true ∧ q.male = false ∧ q.state = .fertile ∧ q'.mate = some i ∧ q'.pregnancy = 0 ∧
    (∃ m, d m < P.mating) ∧ (∃ a, w.rabs[i]? = some a ∧ a.alive = true ∧ a.male = true ∧ a.state = .fertile) ∧
    (∀ j2 q2 q2', w.rabs[j2]? = some q2 → (w.act P i d r sex).1.rabs[j2]? = some q2' → q2'.matings ≠ q2.matings → j2 = j) := by
  have updm : ∀ (w : Warren) (m : Nat) (f : Rab → Rab) (j : Nat) q q', w.rabs[j]? = some q →
      (w.upd m f).rabs[j]? = some q' → (∀ q, (f q).matings = q.matings) → q'.matings = q.matings := by
    intro w m f j q q' hq hq' hf
    rw [Warren.upd_get] at hq'
    split at hq'
    · rw [hq] at hq'
      simp only [Option.map_some, Option.some.injEq] at hq'
      rw [← hq', hf]
    · rw [hq] at hq'
      cases hq'
      rfl
  have killm : ∀ (w : Warren) (m : Nat) (j : Nat) q q', w.rabs[j]? = some q → (w.kill m).rabs[j]? = some q' → q'.matings = q.matings := by
    intro w m j q q' hq hq'
    unfold Warren.kill at hq'
    split at hq'
    · rw [hq] at hq'; cases hq'; rfl
    · split at hq'
      · exact updm w m (fun q => { q with alive := false }) j q q' hq hq' (fun _ => rfl)
      · rw [hq] at hq'; cases hq'; rfl
  have upd1 : ∀ (m : Nat) (f : Rab → Rab) (j : Nat) q, w.rabs[j]? = some q → ∃ q1, (w.upd m f).rabs[j]? = some q1 := by
    intro m f j q hq
    rw [Warren.upd_get]
    split
    · exact ⟨f q, by rw [hq]; rfl⟩
    · exact ⟨q, hq⟩
  have key : (∀ (j : Nat) q q', w.rabs[j]? = some q → (w.act P i d r sex).1.rabs[j]? = some q' → q'.matings = q.matings) ∨
      (∃ a, w.rabs[i]? = some a ∧ a.alive = true ∧ a.male = true ∧ a.state = .fertile ∧
        ∃ f ∈ (w.upd i (fun q => { q with age := q.age + 1 })).fertileFemales P.maxFemales, (∃ m, d m < P.mating) ∧
          (w.act P i d r sex).1 = (w.upd i (fun q => { q with age := q.age + 1 })).impregnate f i r) := by
    unfold Warren.act
    cases ha : w.rabs[i]? with
    | none => left; intro j q q' hq hq'; simp only at hq'; rw [hq] at hq'; cases hq'; rfl
    | some a =>
      simp only
      by_cases hal : a.alive = true
      · simp only [hal, Bool.not_true, Bool.false_eq_true, if_false]
        cases hs : a.state with
        | newborn => left; intro j q q' hq hq'; simp only at hq'; exact updm w i _ j q q' hq hq' (fun _ => rfl)
        | youngling =>
          left
          intro j q q' hq hq'
          simp only at hq'
          split at hq'
          · obtain ⟨q1, h1⟩ := upd1 i (fun q => { q with age := q.age + 1 }) j q hq
            rw [updm _ i _ j q1 q' h1 hq' (fun _ => rfl), updm w i _ j q q1 hq h1 (fun _ => rfl)]
          · exact updm w i _ j q q' hq hq' (fun _ => rfl)
        | fertile =>
          simp only
          split
          · left
            intro j q q' hq hq'
            obtain ⟨q1, h1⟩ := upd1 i (fun q => { q with age := q.age + 1 }) j q hq
            rw [updm _ i _ j q1 q' h1 hq' (fun _ => rfl), updm w i _ j q q1 hq h1 (fun _ => rfl)]
          · split
            · rename_i hmale
              rcases Warren.mateLoop_spec P.mating i d r ((w.upd i (fun q => { q with age := q.age + 1 })).fertileFemales P.maxFemales) 0
                (w.upd i (fun q => { q with age := q.age + 1 })) with h | ⟨f, hf, m, hdm, h⟩
              · left
                intro j q q' hq hq'
                rw [h] at hq'
                exact updm w i _ j q q' hq hq' (fun _ => rfl)
              · right
                exact ⟨a, rfl, hal, hmale, hs, f, hf, ⟨m, hdm⟩, h⟩
            · split
              · left
                intro j q q' hq hq'
                obtain ⟨q1, h1⟩ := upd1 i (fun q => { q with age := q.age + 1 }) j q hq
                rw [updm _ i _ j q1 q' h1 hq' (fun _ => rfl), updm w i _ j q q1 hq h1 (fun _ => rfl)]
              · left
                intro j q q' hq hq'
                exact updm w i _ j q q' hq hq' (fun _ => rfl)
        | pregnant =>
          left
          intro j q q' hq hq'
          obtain ⟨q1, h1⟩ := upd1 i (fun q => { q with age := q.age + 1 }) j q hq
          have e1 := updm w i _ j q q1 hq h1 (fun _ => rfl)
          simp only at hq'
          split at hq'
          · have : ∃ q2, ((w.upd i (fun q => { q with age := q.age + 1 })).kill i).rabs[j]? = some q2 := by
              rw [Warren.kill_get]
              split
              · exact ⟨_, by rw [h1]; rfl⟩
              · exact ⟨q1, h1⟩
            obtain ⟨q2, h2⟩ := this
            rw [updm _ i _ j q2 q' h2 hq' (fun _ => rfl), killm _ i j q1 q2 h1 h2, e1]
          · split at hq'
            · rw [updm _ i _ j q1 q' h1 hq' (fun _ => rfl), e1]
            · obtain ⟨q2, h2, e2⟩ := Warren.births_matings i a.mate sex a.babies 0 _ j q1 h1
              split at hq'
              · rw [updm _ i _ j q2 q' h2 hq' (fun _ => rfl), e2, e1]
              · rw [updm _ i _ j q2 q' h2 hq' (fun _ => rfl), e2, e1]
        | dead => left; intro j q q' hq hq'; exact killm w i j q q' hq hq'
      · left
        intro j q q' hq hq'
        simp only [hal, Bool.not_false, if_true] at hq'
        rw [hq] at hq'
        cases hq'
        rfl
  rcases key with key | ⟨a, ha, hal, hmale, hs, f, hf, hdm, he⟩
  · exact absurd (key j q q' hq hq') hm
  · have only : ∀ (j : Nat) q q', w.rabs[j]? = some q → (w.act P i d r sex).1.rabs[j]? = some q' → q'.matings ≠ q.matings →
        f = j ∧ ∃ q1, (w.upd i (fun q => { q with age := q.age + 1 })).rabs[j]? = some q1 ∧
          q' = { q1 with mate := some i, pregnancy := 0, babies := litterSize r, matings := q1.matings + 1 } := by
      intro j q q' hq hq' hm
      rw [he] at hq'
      obtain ⟨q1, h1⟩ := upd1 i (fun q => { q with age := q.age + 1 }) j q hq
      have e1 := updm w i _ j q q1 hq h1 (fun _ => rfl)
      unfold Warren.impregnate at hq'
      rw [Warren.upd_get] at hq'
      split at hq'
      · rename_i hfj
        rw [h1] at hq'
        simp only [Option.map_some, Option.some.injEq] at hq'
        exact ⟨hfj, q1, h1, hq'.symm⟩
      · rw [h1] at hq'
        cases hq'
        exact absurd e1 hm
    obtain ⟨rfl, q1, h1, hq1⟩ := only j q q' hq hq' hm
    obtain ⟨qf, hqf, f1, f2, f3⟩ := Warren.fertileFemales_mem hf
    rw [h1] at hqf
    cases hqf
    have e1 := updm w i _ f q q1 hq h1 (fun _ => rfl)
    have hsame : q.alive = q1.alive ∧ q.male = q1.male ∧ q.state = q1.state := by
      rw [Warren.upd_get, hq] at h1
      split at h1
      · simp only [Option.map_some, Option.some.injEq] at h1
        rw [← h1]
        exact ⟨rfl, rfl, rfl⟩
      · cases h1
        exact ⟨rfl, rfl, rfl⟩
    refine ⟨by rw [hq1]; simp [e1], by rw [hsame.1]; exact f1, by rw [hsame.2.1]; exact f2, by rw [hsame.2.2]; exact f3, by rw [hq1], by rw [hq1],
      hdm, ⟨a, ha, hal, hmale, hs⟩, ?_⟩
    intro j2 q2 q2' h2 h2' hne
    exact ((only j2 q2 q2' h2 h2' hne).1).symm

/-! ## Examples -/

/-- Rabbits that are fertile at once. -/
def fastRabbits : RabParams := ⟨1, 100, 5, 1, 1, 1⟩

/-- Both grow up; the male mates; the female carries her babies. -/
def rabbitStory : List RabEv :=
  [.act 0 (fun _ => 0) 0 (fun _ => true), .act 1 (fun _ => 0) 0 (fun _ => true), .act 0 (fun _ => 0) 0 (fun _ => true),
   .act 1 (fun _ => 0) 0 (fun _ => true), .act 0 (fun _ => 1/2) (9/10) (fun _ => true), .act 1 (fun _ => 0) 0 (fun _ => true),
   .act 1 (fun _ => 0) 0 (fun _ => true)]

/-- The female carries eleven babies and her time has come; the father is alive. -/
example : (Warren.init.run fastRabbits rabbitStory).2 = false ∧
    (Warren.init.run fastRabbits rabbitStory).1.rabs[1]?.map (fun q => (q.state, q.pregnancy, q.babies, q.mate)) =
      some (.pregnant, 1, 11, some 0) ∧
    (Warren.init.run fastRabbits rabbitStory).1.nodes = [0, 1] := by decide +kernel

/-- The next activation raises after the first baby. -/
example : (Warren.init.run fastRabbits (rabbitStory ++ [.act 1 (fun _ => 0) 0 (fun _ => true)])).2 = true ∧
    (Warren.init.run fastRabbits (rabbitStory ++ [.act 1 (fun _ => 0) 0 (fun _ => true)])).1.rabs.length = 3 := by decide +kernel

/-- With a short life, the father is activated until he dies, and the birth is complete: eleven babies. -/
example :
    let h := rabbitStory ++ List.replicate 100 (RabEv.act 0 (fun _ => 2) 0 (fun _ => true)) ++ [.act 1 (fun _ => 0) 0 (fun k => k % 2 = 0)]
    (Warren.init.run fastRabbits h).2 = false ∧ (Warren.init.run fastRabbits h).1.rabs.length = 13 ∧
      (Warren.init.run fastRabbits h).1.nodes.length = 12 ∧ (Warren.init.run fastRabbits h).1.edges.length = 11 := by decide +kernel

/-- Then an accident with ten or more rabbits: those whose number is small enough die. -/
example :
    let h := rabbitStory ++ List.replicate 100 (RabEv.act 0 (fun _ => 2) 0 (fun _ => true)) ++
      [.act 1 (fun _ => 0) 0 (fun k => k % 2 = 0), .accident (fun j => if j < 5 then 1/2 else 2)]
    (Warren.init.run fastRabbits h).1.nodes = [5, 6, 7, 8, 9, 10, 11, 12] := by decide +kernel

/-- The ages: the father died at 101. -/
example :
    let h := rabbitStory ++ List.replicate 100 (RabEv.act 0 (fun _ => 2) 0 (fun _ => true))
    (Warren.init.run fastRabbits h).1.rabs[0]?.map (fun q => (q.age, q.alive)) = some (101, false) := by decide +kernel

/-- The improved version: three litters of nine in six activations after one mating. -/
example : (Den.run 300 10 ⟨⟨0, .fertile, some 40, some 7, 9, 0⟩, [7, 8], 0⟩ [50, 51, 52, 53, 54, 55]).born = 27 := by decide +kernel

/-- The improved version with a dead father. -/
example : Den.act 300 10 60 ⟨⟨0, .pregnant, some 40, some 7, 9, 0⟩, [8], 0⟩ =
    (⟨⟨0, .pregnant, some 40, some 7, 9, 0⟩, [8], 1⟩, true) := by decide +kernel

/-- A mating: the female's count goes from 0 to 1 in the male's activation. -/
example : (Warren.init.run fastRabbits (rabbitStory.take 4)).1.rabs.map (fun q => (q.state, q.matings)) = [(.fertile, 0), (.fertile, 0)] ∧
    (Warren.init.run fastRabbits (rabbitStory.take 5)).1.rabs.map (fun q => (q.mate, q.matings)) = [(none, 0), (some 0, 1)] := by decide +kernel

/-- The improved version: no birth at 45 if the gestation is 10 and conception was at 40; a birth at 50. -/
example : (Den.act 300 10 45 ⟨⟨0, .pregnant, some 40, some 7, 9, 0⟩, [7, 8], 0⟩).1.born = 0 ∧
    (Den.act 300 10 50 ⟨⟨0, .pregnant, some 40, some 7, 9, 0⟩, [7, 8], 0⟩).1.born = 9 := by decide +kernel

end Verif
