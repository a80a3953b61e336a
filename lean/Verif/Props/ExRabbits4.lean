import Verif.Props.ExRabbits3

/-!
# What goes wrong in the improved rabbits

Exceptions that escape, and litters without a mating; with small runs that show that the other theorems are not empty.
-/

namespace Verif
open Spec

/-- A pregnant rabbit has conceived. -/
def PregInv (w : Colony) : Prop := ∀ q b, w.bun? q = some b → b.state = .pregnant → b.conception.isSome = true

theorem PregInv.happens {C : RabCode} {agents : List Ref} {w w' : Colony} {r : Ref} {now : Rat} {ops : List SOp} (h : PregInv w)
    (hw : Happens C agents w r now ops w') : PregInv w' := by
  have struck : ∀ {a b : Colony}, PregInv a → a.Struck b → PregInv b := by
    intro a b ha hab q x hx hs
    cases hq : a.bun? q with
    | none => rw [hab.2.2.1 q hq] at hx; cases hx
    | some y =>
      rcases hab.2.2.2 q y hq with e | e
      · rw [e] at hx; cases hx; exact ha q _ hq hs
      · rw [e] at hx; cases hx; exact ha q y hq hs
  have one : ∀ {a : Colony} (r : Ref) (f : Bun → Bun), PregInv a →
      (∀ b, a.bun? r = some b → (f b).state = .pregnant → (f b).conception.isSome = true) → PregInv (a.upd r f) := by
    intro a r f ha hf q x hx hs
    rw [Colony.bun?_upd] at hx
    split at hx
    · rename_i e
      subst e
      cases hq : a.bun? q with
      | none => rw [hq] at hx; cases hx
      | some y => rw [hq] at hx; cases hx; exact hf y hq hs
    · exact ha q x hx hs
  cases hw with
  | idle k => exact h
  | birth b hb ha hs => exact one r _ h (fun _ _ e => by cases e)
  | turn b st hb ha hs =>
    refine one r _ h (fun b' hb' e => ?_)
    rw [hb] at hb'
    cases hb'
    simp only at e ⊢
    subst e
    rcases hs with ⟨_, e⟩ | ⟨_, e⟩ | ⟨_, _, e⟩
    · cases e
    · cases e
    · exact e
  | mate b bf t f k => exact one f _ h (fun _ _ _ => rfl)
  | die b hb ha => exact struck h (Colony.Struck.kill w r)
  | dieCarrying b hb ha hs => exact one r _ (struck h (Colony.Struck.kill w r)) (fun _ _ e => by cases e)
  | litter b c hb ha hs hc hg hr =>
    refine one r _ ?_ (fun _ _ e => by cases e)
    have hsp := Colony.births_spec r b.mate now b.babies { w with notes := w.notes ++ [.litter r now] }
    intro q x hx hst
    cases hq : w.bun? q with
    | some y =>
      obtain ⟨k, hk⟩ := hsp.2.1 q y hq
      rw [hk] at hx
      cases hx
      exact h q y hq hst
    | none =>
      by_cases hl : q < w.pets.length
      · rw [hsp.2.2.2 q hl hq] at hx
        cases hx
      · obtain ⟨m, k, hk⟩ := hsp.2.2.1 q (Nat.le_of_not_lt hl) (Colony.bun?_lt hx)
        rw [hk] at hx
        cases hx
        cases hst
  | alone hb hn => exact h
  | strikes hb hn hr =>
    exact struck h (iterLoop_rel (fun p q : Pool Colony => p.st.Struck q.st) (fun _ => Colony.Struck.refl _) (fun _ _ _ => Colony.Struck.trans) _ _ _ _
      (fun r q => Colony.Struck.strike _ r q) _ _ _ _)

theorem births_raised (mother : Ref) (mate : Option Ref) (now : Rat) (n : Nat) (w : Colony) (h : (Colony.births mother mate now n w).2 = true) :
    ∃ m, mate = some m ∧ (Colony.births mother mate now n w).1 = w.addChild mother mate now ∧ m ∉ (w.addChild mother mate now).nodes := by
  have key : ∀ m, mate = some m → ∀ n w, m ∈ Colony.nodes w → (Colony.births mother mate now n w).2 = false := by
    intro m hm n
    subst hm
    induction n with
    | zero => intro w _; rfl
    | succ n ih =>
      intro w hw
      have hw1 : m ∈ (w.addChild mother (some m) now).nodes := List.mem_append_left _ hw
      unfold Colony.births
      simp only [if_pos hw1]
      exact ih _ hw1
  have none' : ∀ n w, mate = none → (Colony.births mother mate now n w).2 = false := by
    intro n
    induction n with
    | zero => intro w _; rfl
    | succ n ih =>
      intro w hw
      subst hw
      unfold Colony.births
      simp only
      exact ih _ rfl
  cases mate with
  | none => rw [none' n w rfl] at h; cases h
  | some m =>
    cases n with
    | zero => cases h
    | succ n =>
      by_cases hw1 : m ∈ (w.addChild mother (some m) now).nodes
      · exfalso
        unfold Colony.births at h
        simp only [if_pos hw1] at h
        exact Bool.noConfusion ((key m rfl n _ (by exact hw1)).symm.trans h)
      · refine ⟨m, rfl, ?_, hw1⟩
        unfold Colony.births
        simp only [if_neg hw1]

theorem RabPreg.keeps (C : RabCode) (hM : 0 < C.maturity) (draw : Nat → Rat) :
    KeepsInv (colonyHost C) 1 (fun s w => RabInv C draw s w ∧ PregInv w) where
  same s s' w h hl ha ht := ⟨(RabInv.keeps C hM draw).same s s' w h.1 hl ha ht, h.2⟩
  shuffle s l w h := ⟨(RabInv.keeps C hM draw).shuffle s l w h.1, h.2⟩
  act r s w hi h hmem hge hpast hg := by
    refine ⟨(RabInv.keeps C hM draw).act r s w hi h.1 hmem hge hpast hg, ?_⟩
    obtain ⟨now, hnow⟩ : ∃ now, s.time = .fin now := by
      cases ht : s.time with
      | fin q => exact ⟨q, rfl⟩
      | inf => exact absurd ht (h.1.life.fin r _ (mem_pendingOf.2 hmem)).2
    have hne : (colonyStep C r s w).1 ≠ .error := by
      intro e
      have hg' : GoodReply (colonyStep C r s w).1 := hg
      rw [e] at hg'
      exact hg'
    exact h.2.happens (colonyStep_happens C r s w now hnow hne)

/-- Why an activation raises. -/
theorem colonyStep_error {C : RabCode} {draw : Nat → Rat} {r : Ref} {s : Sched} {w : Colony} (h : RabInv C draw s w) (hp : PregInv w)
    (he : (colonyStep C r s w).1 = .error) :
    (C.frozen = true ∧ w.bun? r = none ∧ (colonyStep C r s w).2.2.bun? r = none) ∨
    ∃ b m c now, (colonyStep C r s w).2.2.bun? r = some b ∧ b.alive = true ∧ b.male = false ∧ b.mate = some m ∧
      s.time = .fin now ∧ RabNote.mated r m c ∈ (colonyStep C r s w).2.2.notes ∧ c + C.gestation ≤ now ∧
      ∃ bm, (colonyStep C r s w).2.2.bun? m = some bm ∧ bm.male = true ∧ bm.alive = false := by
  cases hnow : s.time with
  | inf => simp [colonyStep, hnow] at he
  | fin now =>
    cases hpet : w.pets[r]? with
    | none => simp [colonyStep, hnow, hpet] at he
    | some p =>
      cases p with
      | accident =>
        have e : colonyStep C r s w = w.accidentStep C r s.agents := by simp only [colonyStep, hnow, hpet]
        rw [e] at he ⊢
        have hb : w.bun? r = none := by simp [Colony.bun?, hpet]
        refine .inl ⟨?_, hb, (Colony.Struck.accident C w r s.agents).2.2.1 r hb⟩
        cases hf : C.frozen with
        | true => rfl
        | false =>
          by_cases hn : w.nodes = []
          · simp [Colony.accidentStep, hn] at he
          · have := (C211_exact_partial C hf w r s.agents h.among.nodup hn).1
            rw [he] at this
            cases this
      | rabbit b =>
        have hb : w.bun? r = some b := by simp [Colony.bun?, hpet]
        cases hal : b.alive with
        | false => simp [colonyStep, hnow, hpet, hal] at he
        | true =>
          have e : colonyStep C r s w = w.act C r b now s.agents := by simp [colonyStep, hnow, hpet, hal]
          rw [e] at he ⊢
          have hbt : b.state ≠ .newborn → b.state ≠ .dead → b.birth ≠ none := by
            intro h1 h2 h3
            obtain ⟨t0, n, _, _, hph⟩ := h.life.life r b hb
            rw [hal, h3] at hph
            generalize b.state = bs at hph h1 h2
            generalize pendingOf (cal 1 s.log) r = pd at hph
            cases hph with
            | newborn => exact h1 rfl
          cases hst : b.state with
          | newborn => simp [Colony.act, hst] at he
          | dead => simp [Colony.act, hst] at he
          | youngling =>
            cases ht : b.birth with
            | none => exact absurd ht (hbt (by rw [hst]; simp) (by rw [hst]; simp))
            | some t => simp [Colony.act, hst, ht] at he
          | fertile =>
            cases ht : b.birth with
            | none => exact absurd ht (hbt (by rw [hst]; simp) (by rw [hst]; simp))
            | some t =>
              simp only [Colony.act, hst, ht] at he
              split at he
              · cases he
              · split at he
                · cases he
                · split at he <;> cases he
          | pregnant =>
            cases ht : b.birth with
            | none => exact absurd ht (hbt (by rw [hst]; simp) (by rw [hst]; simp))
            | some t =>
              have hc := hp r b hb hst
              cases hcc : b.conception with
              | none => rw [hcc] at hc; cases hc
              | some c =>
                by_cases hl : C.life < now - t
                · simp [Colony.act, hst, ht, hl] at he
                · by_cases hg : C.gestation ≤ now - c
                  · cases hr : (Colony.births r b.mate now b.babies { w with notes := w.notes ++ [.litter r now] }).2 with
                    | false => simp [Colony.act, hst, ht, hl, hcc, hg, hr] at he
                    | true =>
                      obtain ⟨m, hm, h2, h3⟩ := births_raised _ _ _ _ _ hr
                      have e2 : (w.act C r b now s.agents).2.2 = (Colony.births r b.mate now b.babies { w with notes := w.notes ++ [.litter r now] }).1 := by
                        simp [Colony.act, hst, ht, hl, hcc, hg, hr]
                      obtain ⟨c', hc', hnote⟩ := h.notes.mate r b m hb hm
                      rw [hcc] at hc'
                      cases hc'
                      rw [e2, h2]
                      refine .inr ⟨b, m, c, now, ?_, hal, (h.notes.conc r b c hb hcc).1, hm, rfl, ?_, by linarith, ?_⟩
                      · rw [Colony.bun?_addChild, if_neg (Nat.ne_of_lt (Colony.bun?_lt hb))]
                        exact hb
                      · show _ ∈ (w.notes ++ [.litter r now]) ++ _
                        exact List.mem_append_left _ (List.mem_append_left _ hnote)
                      · obtain ⟨_, bm, _, _, _, _, _, _, _, hbm, hmm, _⟩ := h.notes.mated _ _ _ hnote
                        refine ⟨bm, ?_, hmm, ?_⟩
                        · rw [Colony.bun?_addChild, if_neg (Nat.ne_of_lt (Colony.bun?_lt hbm))]
                          exact hbm
                        · cases ha : bm.alive with
                          | false => rfl
                          | true => exact absurd (List.mem_append_left _ ((h.net.node m).2 ⟨bm, hbm, ha⟩)) h3
                  · simp [Colony.act, hst, ht, hl, hcc, hg] at he

/-- C212 (partial): the first exception that escapes comes from an accident that kills a rabbit (in the versions of Python in which agents
cannot be removed while they are iterated), or from a birth: the mother is alive, the father died after they mated. -/
theorem C212_only_partial (C : RabCode) (hM : 0 < C.maturity) (sh : Bool) (draw : Nat → Rat) (sex : Nat → Bool) (n : Nat)
    (h0 : NoEscape (colonyRun C sh draw sex n).1.log) (h1 : ¬ NoEscape (colonyRun C sh draw sex (n + 1)).1.log) :
    ∃ r now l, (colonyRun C sh draw sex (n + 1)).1.log = l ++ [.act r (.fin now) .error] ∧ NoEscape l ∧
      ((C.frozen = true ∧ (colonyRun C sh draw sex (n + 1)).2.bun? r = none) ∨
      ∃ b m bm c, (colonyRun C sh draw sex (n + 1)).2.bun? r = some b ∧ b.alive = true ∧ b.male = false ∧ b.mate = some m ∧
        RabNote.mated r m c ∈ (colonyRun C sh draw sex (n + 1)).2.notes ∧ c + C.gestation ≤ now ∧
        (colonyRun C sh draw sex (n + 1)).2.bun? m = some bm ∧ bm.male = true ∧ bm.alive = false) := by
  have hg := colonyRun_good hM h0
  have hb : ¬ GoodLog (colonyRun C sh draw sex (n + 1)).1.log := fun hg => h1 (fun r t hm => hg.not_error hm rfl)
  rw [colonyRun_eq] at hg hb
  have hstart : RabInv C draw (colonyStart sh) (Colony.init draw sex) ∧ PregInv (Colony.init draw sex) := by
    refine ⟨RabInv.start C sh draw sex, ?_⟩
    intro q b hq hs
    match q with
    | 0 => cases hq; cases hs
    | 1 => cases hq; cases hs
    | 2 => cases hq
    | q + 3 => cases hq
  obtain ⟨r, s1, w1, hJ, hg1, hdue, herr, hlog, hw, -⟩ :=
    (RabPreg.keeps C hM draw).steps_error (fun r s w => colonyStep_good C hM r s w) (colonyStart_inv sh) rfl hstart n hg hb
  rw [← colonyRun_eq] at hlog hw
  have hc := colonyStep_error (r := r) hJ.1 hJ.2 herr
  have hw' : (colonyRun C sh draw sex (n + 1)).2 = (colonyStep C r s1 w1).2.2 := hw
  rw [hw', hlog]
  obtain ⟨now, hnow⟩ : ∃ now, s1.time = .fin now := by
    cases ht : s1.time with
    | fin q => exact ⟨q, rfl⟩
    | inf => exact absurd ht (hJ.1.life.fin r _ (mem_pendingOf.2 hdue)).2
  rw [hnow]
  refine ⟨r, now, _, rfl, ?_, ?_⟩
  · obtain ⟨l3, hl3, ha3⟩ := applyOps_log s1 ((colonyHost C).step r s1 w1).2.1
    rw [hl3]
    intro q t hm
    rcases List.mem_append.1 hm with hm | hm
    · exact hg1.not_error hm rfl
    · have : q ∈ actRefs l3 := List.mem_filterMap.2 ⟨_, hm, rfl⟩
      rw [ha3] at this
      cases this
  · rcases hc with ⟨h2, _, h3⟩ | ⟨b, m, c, now', h2, h3, h4, h5, h6, h7, h8, bm, h9⟩
    · exact .inl ⟨h2, h3⟩
    · rw [hnow] at h6
      cases h6
      exact .inr ⟨b, m, bm, c, h2, h3, h4, h5, h7, h8, h9⟩

/-! ### Small runs -/

/-- Parameters of the small runs: sexual maturity, life expectancy, gestation and `prob_death`. -/
def smallCode (frozen : Bool) (maturity life gestation death : Rat) : RabCode where
  maturity := maturity
  life := life
  maxFemales := 5
  mating := 1 / 1000
  gestation := gestation
  death := death
  frozen := frozen
  shuffle _ l := l
  perm _ l := List.Perm.refl l

/-- An exception has escaped. -/
def escaped (l : List Ev) : Bool := l.any (fun e => match e with
  | .act _ _ .error => true
  | _ => false)

theorem noEscape_iff (l : List Ev) : NoEscape l ↔ escaped l = false := by
  unfold NoEscape escaped
  rw [List.any_eq_false]
  constructor
  · intro h e he
    cases e with
    | added r t => simp
    | act r t rep =>
      cases rep with
      | error => exact absurd he (h r t)
      | _ => simp
  · intro h r t he
    exact absurd rfl (h _ he)

/-- Notes other than `born`. -/
def RabNote.event : RabNote → Bool
  | .born .. => false
  | _ => true

/-- Numbers of the random generator: 0 for the first eighteen, for the calls from 28 to 30, and 1/2 otherwise. -/
def luckyDraw (k : Nat) : Rat := if k < 18 then 0 else if 28 ≤ k ∧ k < 31 then 0 else 1 / 2

/-- Males and females in turn. -/
def inTurn (k : Nat) : Bool := k % 2 == 0

set_option maxRecDepth 100000 in
/-- C212 is violated: the father of a litter dies before it is born; `child.add_edge(self.mate)` raises `ValueError`, which leaves the simulation. Agents
may be removed while they are iterated in this run. -/
theorem C212_orphan_false : ∃ C : RabCode, C.frozen = false ∧ 0 < C.maturity ∧ ∃ draw sex n,
    (∀ i, 0 ≤ draw i ∧ draw i < 1) ∧ ¬ NoEscape (colonyRun C false draw sex n).1.log := by
  refine ⟨smallCode false 1 300 2 (1 / 10), rfl, by decide +kernel, luckyDraw, inTurn, 9, ?_, ?_⟩
  · intro i
    unfold luckyDraw
    split
    · exact ⟨by decide +kernel, by decide +kernel⟩
    · split <;> exact ⟨by decide +kernel, by decide +kernel⟩
  · rw [noEscape_iff]
    decide +kernel

set_option maxRecDepth 100000 in
/-- C212 is violated: an accident that kills a rabbit, in the Python versions for which soil was written. -/
theorem C212_accident_false : ∃ C : RabCode, C.frozen = true ∧ 0 < C.maturity ∧ ∃ draw sex n,
    (∀ i, 0 ≤ draw i ∧ draw i < 1) ∧ ¬ NoEscape (colonyRun C false draw sex n).1.log := by
  refine ⟨smallCode true 1 300 2 (1 / 10), rfl, by decide +kernel, fun _ => 0, inTurn, 5, ?_, ?_⟩
  · exact fun _ => (by decide +kernel : (0 : Rat) ≤ 0 ∧ (0 : Rat) < 1)
  · rw [noEscape_iff]
    decide +kernel

set_option maxRecDepth 100000 in
/-- C209, what one would expect and what is violated: between two litters of a female there is a mating. After one mating at 2 she has
litters at 4, at 6 and at 8. -/
theorem C209_once_false : ∃ C : RabCode, 0 < C.maturity ∧ ∃ draw sex n,
    (∀ i, 0 ≤ draw i ∧ draw i < 1) ∧ NoEscape (colonyRun C false draw sex n).1.log ∧
    (colonyRun C false draw sex n).2.notes.filter RabNote.event = [.mated 1 0 2, .litter 1 4, .litter 1 6, .litter 1 8] := by
  refine ⟨smallCode false 1 300 2 (1 / 10), by decide +kernel, fun k => if k < 18 then 0 else 1 / 2, inTurn, 11, ?_, ?_, ?_⟩
  · intro i
    simp only
    split <;> exact ⟨by decide +kernel, by decide +kernel⟩
  · rw [noEscape_iff]
    decide +kernel
  · decide +kernel

set_option maxRecDepth 100000 in
/-- A run as in C208, C209 and C210: a mating at 4, a litter of eight at 6, and the death of the parents. -/
example : escaped (colonyRun (smallCode true 3 6 2 0) false (fun _ => 0) inTurn 11).1.log = false ∧
    (colonyRun (smallCode true 3 6 2 0) false (fun _ => 0) inTurn 11).2.notes.filter RabNote.event = [.mated 1 0 4, .litter 1 6] ∧
    (colonyRun (smallCode true 3 6 2 0) false (fun _ => 0) inTurn 11).2.notes.countP (RabNote.bornOf 1 6) = 8 ∧
    (actsOf 0 (colonyRun (smallCode true 3 6 2 0) false (fun _ => 0) inTurn 11).1.log).map (·.1) = [0, 3, 4, 5, 6, 7, 8, 9].map (fun x => Time.fin x) ∧
    (colonyRun (smallCode true 3 6 2 0) false (fun _ => 0) inTurn 11).2.nodes = [3, 4, 5, 6, 7, 8, 9, 10] := by
  decide +kernel

end Verif
