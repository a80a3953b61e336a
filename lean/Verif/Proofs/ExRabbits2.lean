import Verif.Proofs.RunInv
import Verif.Proofs.Solo
import Verif.Model.ExRabbits2

/-!
# Lemmas about the improved rabbits
-/

namespace Verif
open Spec

/-! ### The log of additions and removals -/

theorem applyOps_cons (s : Sched) (o : SOp) (os : List SOp) : s.applyOps (o :: os) = (s.applyOp o).applyOps os := rfl

theorem applyOps_adds_log (s : Sched) (rs : List Ref) :
    (s.applyOps (rs.map (fun r => SOp.add r none))).log = s.log ++ rs.map (fun r => Ev.added r s.time) := by
  induction rs generalizing s with
  | nil => simp [Sched.applyOps]
  | cons r rs ih =>
    rw [List.map_cons, applyOps_cons, ih]
    simp [Sched.applyOp, Sched.addAgent, Sched.schedule]

theorem applyOps_removes_log (s : Sched) (rs : List Ref) : (s.applyOps (rs.map SOp.remove)).log = s.log := by
  induction rs generalizing s with
  | nil => rfl
  | cons r rs ih => rw [List.map_cons, applyOps_cons, ih]; rfl

theorem pendingOf_cal_act (iv : Time) (l : List Ev) (r q : Ref) (t : Time) (rep : Reply) :
    pendingOf (cal iv (l ++ [.act r t rep])) q =
      if q = r then (pendingOf (cal iv l) r).erase t ++ (nextWake iv t rep).toList else pendingOf (cal iv l) q := by
  rw [cal_append_one]
  simp only [calStep]
  rw [pendingOf_append, pendingOf_erase]
  by_cases h : q = r
  · subst h
    cases nextWake iv t rep <;> simp [pendingOf]
  · have h' : r ≠ q := fun e => h e.symm
    cases nextWake iv t rep <;> simp [pendingOf, h, h']

theorem pendingOf_cal_adds (iv : Time) (l : List Ev) (rs : List Ref) (t : Time) (q : Ref) :
    pendingOf (cal iv (l ++ rs.map (fun r => Ev.added r t))) q =
      pendingOf (cal iv l) q ++ (rs.filter (· = q)).map (fun _ => t) := by
  induction rs generalizing l with
  | nil => simp
  | cons r rs ih =>
    have : l ++ (r :: rs).map (fun r => Ev.added r t) = (l ++ [.added r t]) ++ rs.map (fun r => Ev.added r t) := by simp
    rw [this, ih, cal_append_one]
    simp only [calStep]
    rw [pendingOf_append]
    by_cases h : r = q <;> simp [pendingOf, h]

theorem actsOf_append (r : Ref) (a b : List Ev) : actsOf r (a ++ b) = actsOf r a ++ actsOf r b := by
  simp [actsOf]

theorem actsOf_adds (q : Ref) (rs : List Ref) (t : Time) : actsOf q (rs.map (fun r => Ev.added r t)) = [] := by
  simp [actsOf]

theorem actsOf_one (q r : Ref) (t : Time) (rep : Reply) : actsOf q [.act r t rep] = if q = r then [(t, rep)] else [] := by
  by_cases h : q = r
  · simp [actsOf, h]
  · have : r ≠ q := fun e => h e.symm
    simp [actsOf, h, this]

theorem mem_actsOf {r : Ref} {l : List Ev} {t : Time} {rep : Reply} : (t, rep) ∈ actsOf r l ↔ Ev.act r t rep ∈ l := by
  unfold actsOf
  rw [List.mem_filterMap]
  constructor
  · rintro ⟨e, he, h⟩
    cases e with
    | added => simp at h
    | act q u rep' =>
      simp only at h
      split at h
      · rename_i hq
        cases h
        rw [← hq]
        exact he
      · simp at h
  · intro h
    exact ⟨_, h, by simp⟩

/-! ### Loops -/

/-- What every round of a loop does, the loop does. -/
theorem iterLoop_rel {σ : Type} (R : Pool σ → Pool σ → Prop) (hr : ∀ p, R p p) (ht : ∀ p q s, R p q → R q s → R p s)
    (frozen : Bool) (crit : σ → Ref → Bool) (limit : Option Nat) (body : LoopBody σ) (hb : ∀ r p, R p (body r p).1) (n : Nat)
    (todo vis : List Ref) (p : Pool σ) : R p (iterLoop frozen crit limit body n todo vis p).pool := by
  induction todo generalizing vis p with
  | nil => unfold iterLoop; split <;> exact hr p
  | cons r todo ih =>
    unfold iterLoop
    split
    · exact hr p
    · split
      · exact hr p
      · split
        · simp only
          split
          · exact hb r p
          · exact ht _ _ _ (hb r p) (ih _ _)
        · exact ih _ _

/-! ### Rabbits -/

namespace Colony

theorem bun?_pets {w w' : Colony} (h : w'.pets = w.pets) (q : Ref) : w'.bun? q = w.bun? q := by
  unfold bun?; rw [h]

theorem bun?_upd (w : Colony) (r q : Ref) (f : Bun → Bun) :
    (w.upd r f).bun? q = if q = r then (w.bun? q).map f else w.bun? q := by
  unfold bun? upd
  simp only [List.getElem?_modify]
  by_cases h : q = r
  · subst h
    simp only [if_true]
    cases w.pets[q]? with
    | none => rfl
    | some p => cases p <;> rfl
  · have : r ≠ q := fun e => h e.symm
    simp [h, this]

theorem upd_length (w : Colony) (r : Ref) (f : Bun → Bun) : (w.upd r f).pets.length = w.pets.length := by simp [upd]

theorem bun?_lt {w : Colony} {q : Ref} {b : Bun} (h : w.bun? q = some b) : q < w.pets.length := by
  unfold bun? at h
  by_contra hl
  rw [List.getElem?_eq_none (Nat.le_of_not_lt hl)] at h
  simp at h

theorem bun?_addChild (w : Colony) (m : Ref) (mate : Option Ref) (now : Rat) (q : Ref) :
    (w.addChild m mate now).bun? q = if q = w.pets.length then some (Bun.new (w.sex w.used)) else w.bun? q := by
  unfold bun? addChild
  simp only [List.getElem?_append]
  by_cases h : q = w.pets.length
  · subst h; simp
  · by_cases h2 : q < w.pets.length
    · simp [h, h2]
    · have hle : w.pets.length ≤ q := Nat.le_of_not_lt h2
      have hlt : w.pets.length < q := Nat.lt_of_le_of_ne hle (fun e => h e.symm)
      have : w.pets[q]? = none := List.getElem?_eq_none hle
      have h3 : [Pet.rabbit (Bun.new (w.sex w.used))][q - w.pets.length]? = none :=
        List.getElem?_eq_none (Nat.sub_pos_of_lt hlt)
      rw [if_neg h2, if_neg h, h3, this]

theorem addChild_length (w : Colony) (m : Ref) (mate : Option Ref) (now : Rat) : (w.addChild m mate now).pets.length = w.pets.length + 1 := by
  simp [addChild]

theorem births_spec (mother : Ref) (mate : Option Ref) (now : Rat) (n : Nat) (w : Colony) :
    w.pets.length ≤ (births mother mate now n w).1.pets.length ∧
    (∀ q b, w.bun? q = some b → ∃ k, (births mother mate now n w).1.bun? q = some { b with offspring := k }) ∧
    (∀ q, w.pets.length ≤ q → q < (births mother mate now n w).1.pets.length →
      ∃ m k, (births mother mate now n w).1.bun? q = some { Bun.new m with offspring := k }) ∧
    (∀ q, q < w.pets.length → w.bun? q = none → (births mother mate now n w).1.bun? q = none) := by
  have child : ∀ w : Colony, w.pets.length ≤ (w.addChild mother mate now).pets.length ∧
      (∀ q b, w.bun? q = some b → (w.addChild mother mate now).bun? q = some b) ∧
      (∀ q, w.pets.length ≤ q → q < (w.addChild mother mate now).pets.length → ∃ m, (w.addChild mother mate now).bun? q = some (Bun.new m)) ∧
      (∀ q, q < w.pets.length → w.bun? q = none → (w.addChild mother mate now).bun? q = none) := by
    intro w
    refine ⟨by rw [addChild_length]; omega, ?_, ?_, ?_⟩
    · intro q b hb
      rw [bun?_addChild, if_neg (Nat.ne_of_lt (bun?_lt hb)), hb]
    · intro q h1 h2
      rw [addChild_length] at h2
      rw [bun?_addChild, if_pos (Nat.le_antisymm (Nat.le_of_lt_succ h2) h1)]
      exact ⟨_, rfl⟩
    · intro q h1 h2
      rw [bun?_addChild, if_neg (Nat.ne_of_lt h1), h2]
  induction n generalizing w with
  | zero =>
    exact ⟨le_rfl, fun q b hb => ⟨b.offspring, hb⟩, fun q h1 h2 => absurd h2 (Nat.not_lt.2 h1), fun q _ h => h⟩
  | succ n ih =>
    obtain ⟨c1, c2, c3, c4⟩ := child w
    -- an environment that differs from the one with the new child in numbers of offspring only
    have main : ∀ w2 : Colony, w2.pets.length = (w.addChild mother mate now).pets.length →
        (∀ q b, (w.addChild mother mate now).bun? q = some b → ∃ k, w2.bun? q = some { b with offspring := k }) →
        (∀ q, (w.addChild mother mate now).bun? q = none → w2.bun? q = none) →
        w.pets.length ≤ (births mother mate now n w2).1.pets.length ∧
        (∀ q b, w.bun? q = some b → ∃ k, (births mother mate now n w2).1.bun? q = some { b with offspring := k }) ∧
        (∀ q, w.pets.length ≤ q → q < (births mother mate now n w2).1.pets.length →
          ∃ m k, (births mother mate now n w2).1.bun? q = some { Bun.new m with offspring := k }) ∧
        (∀ q, q < w.pets.length → w.bun? q = none → (births mother mate now n w2).1.bun? q = none) := by
      intro w2 hl h2 h3
      obtain ⟨i1, i2, i3, i4⟩ := ih w2
      refine ⟨by omega, ?_, ?_, ?_⟩
      · intro q b hb
        obtain ⟨k, hk⟩ := h2 q b (c2 q b hb)
        obtain ⟨k', hk'⟩ := i2 q _ hk
        exact ⟨k', hk'⟩
      · intro q hq1 hq2
        by_cases hq : q < w2.pets.length
        · obtain ⟨m, hm⟩ := c3 q hq1 (by rw [← hl]; exact hq)
          obtain ⟨k, hk⟩ := h2 q _ hm
          obtain ⟨k', hk'⟩ := i2 q _ hk
          exact ⟨m, k', hk'⟩
        · exact i3 q (Nat.le_of_not_lt hq) hq2
      · intro q hq hn
        exact i4 q (by rw [hl]; exact Nat.lt_of_lt_of_le hq c1) (h3 q (c4 q hq hn))
    have one : ∀ (w1 : Colony) (r q : Ref) (b : Bun), w1.bun? q = some b →
        ∃ k, (w1.upd r (fun b => { b with offspring := b.offspring + 1 })).bun? q = some { b with offspring := k } := by
      intro w1 r q b hb
      rw [bun?_upd, hb]
      split
      · exact ⟨b.offspring + 1, rfl⟩
      · exact ⟨b.offspring, rfl⟩
    have one' : ∀ (w1 : Colony) (r q : Ref), w1.bun? q = none →
        (w1.upd r (fun b => { b with offspring := b.offspring + 1 })).bun? q = none := by
      intro w1 r q hb
      rw [bun?_upd, hb]
      split <;> rfl
    unfold births
    cases mate with
    | none => exact main _ (upd_length _ _ _) (fun q b hb => one _ _ q b hb) (fun q hq => one' _ _ q hq)
    | some m =>
      simp only
      split
      · refine main _ (by rw [upd_length, upd_length]) ?_ ?_
        · intro q b hb
          have hb' : ({ w.addChild mother (some m) now with edges := (w.addChild mother (some m) now).edges ++ [(w.pets.length, m)] } : Colony).bun? q = some b := hb
          obtain ⟨k, hk⟩ := one _ m q b hb'
          obtain ⟨k', hk'⟩ := one _ mother q _ hk
          exact ⟨k', hk'⟩
        · intro q hq
          have hq' : ({ w.addChild mother (some m) now with edges := (w.addChild mother (some m) now).edges ++ [(w.pets.length, m)] } : Colony).bun? q = none := hq
          exact one' _ _ q (one' _ _ q hq')
      · exact ⟨c1, fun q b hb => ⟨b.offspring, c2 q b hb⟩, fun q h1 h2 => by
          obtain ⟨m', hm'⟩ := c3 q h1 h2
          exact ⟨m', 0, hm'⟩, c4⟩

/-- What the loop of the males does: nothing but drawing numbers, or one female is impregnated. -/
theorem mateLoop_spec (p : Rat) (male : Ref) (now : Rat) (l : List Ref) (w : Colony) :
    (∃ k, mateLoop p male now l w = { w with used := k }) ∨
    ∃ f ∈ l, ∃ k, mateLoop p male now l w = impregnate { w with used := k } f male now := by
  induction l generalizing w with
  | nil => exact .inl ⟨w.used, rfl⟩
  | cons f l ih =>
    unfold mateLoop
    split
    · exact .inr ⟨f, by simp, _, rfl⟩
    · rcases ih { w with used := w.used + 1 } with ⟨k, hk⟩ | ⟨g, hg, k, hk⟩
      · exact .inl ⟨k, hk⟩
      · exact .inr ⟨g, by simp [hg], k, hk⟩

theorem bun?_impregnate (w : Colony) (f male : Ref) (now : Rat) (q : Ref) :
    (w.impregnate f male now).bun? q = if q = f then (w.bun? q).map (fun b =>
      { b with mate := some male, conception := some now, babies := litterSize (w.draw w.used) }) else w.bun? q :=
  bun?_upd w f q _

theorem bun?_kill (w : Colony) (r q : Ref) :
    (w.kill r).bun? q = if q = r then (w.bun? q).map (fun b => { b with alive := false }) else w.bun? q := by
  unfold kill
  cases hr : w.bun? r with
  | none =>
    simp only
    split
    · rename_i h; rw [h, hr]; rfl
    · rfl
  | some b =>
    simp only
    split
    · exact bun?_upd w r q _
    · rename_i ha
      split
      · rename_i h
        rw [h, hr]
        cases b
        simp_all
      · rfl

theorem kill_length (w : Colony) (r : Ref) : (w.kill r).pets.length = w.pets.length := by
  unfold kill
  split
  · rfl
  · split
    · exact upd_length w r _
    · rfl

/-- What accidents may do: rabbits die, and nothing else. -/
def Struck (w w' : Colony) : Prop :=
  w'.pets.length = w.pets.length ∧ w'.notes = w.notes ∧ (∀ q, w.bun? q = none → w'.bun? q = none) ∧
    ∀ q b, w.bun? q = some b → w'.bun? q = some b ∨ w'.bun? q = some { b with alive := false }

theorem Struck.refl (w : Colony) : w.Struck w := ⟨rfl, rfl, fun _ h => h, fun _ _ h => .inl h⟩

theorem Struck.trans {a b c : Colony} (h1 : a.Struck b) (h2 : b.Struck c) : a.Struck c := by
  refine ⟨h2.1.trans h1.1, h2.2.1.trans h1.2.1, fun q hq => h2.2.2.1 q (h1.2.2.1 q hq), fun q d hq => ?_⟩
  rcases h1.2.2.2 q d hq with h | h
  · exact h2.2.2.2 q d h
  · rcases h2.2.2.2 q _ h with h | h
    · exact .inr h
    · exact .inr h

theorem kill_notes (w : Colony) (r : Ref) : (w.kill r).notes = w.notes := by
  unfold kill
  split
  · rfl
  · split <;> rfl

theorem Struck.kill (w : Colony) (r : Ref) : w.Struck (w.kill r) := by
  refine ⟨kill_length w r, kill_notes w r, fun q hq => ?_, fun q b hq => ?_⟩
  · rw [bun?_kill, hq]; split <;> rfl
  · rw [bun?_kill, hq]
    split
    · exact .inr rfl
    · exact .inl rfl

theorem Struck.strike (p : Rat) (r : Ref) (pool : Pool Colony) : pool.st.Struck (strike p r pool).1.st := by
  unfold Colony.strike
  split
  · exact Struck.refl _
  · split
    · exact Struck.refl _
    · simp only
      split
      · exact Struck.trans (b := { pool.st with used := pool.st.used + 1 }) ⟨rfl, rfl, fun _ h => h, fun _ _ h => .inl h⟩ (Struck.kill _ r)
      · exact ⟨rfl, rfl, fun _ h => h, fun _ _ h => .inl h⟩

theorem Struck.accident (C : RabCode) (w : Colony) (r : Ref) (agents : List Ref) : w.Struck (w.accidentStep C r agents).2.2 := by
  unfold accidentStep
  split
  · exact Struck.refl _
  · exact iterLoop_rel (fun p q => p.st.Struck q.st) (fun _ => Struck.refl _) (fun _ _ _ => Struck.trans) _ _ _ _
      (fun r p => Struck.strike _ r p) _ _ _ _

end Colony

end Verif
