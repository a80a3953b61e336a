import Verif.Model.CrawlRun
import Verif.Props.ExPubs
import Verif.Props.BuiltinRun

/-!
# C239: whole simulations of the pub crawl
-/

namespace Verif

/-- The simulation after `k` steps. -/
def crawlRun (N : CrawlNet) (caps : List Nat) (ps : List (Rat × Nat)) (iv : Rat) (sh : Bool) (k : Nat) : Sched × Crawl :=
  iterStep (timedStepper (crawlHost N)) k (crawlStart caps ps iv sh)

/-- The city after `k` steps. -/
def crawlCity (N : CrawlNet) (caps : List Nat) (ps : List (Rat × Nat)) (iv : Rat) (sh : Bool) (k : Nat) : City :=
  (crawlRun N caps ps iv sh k).2.city

theorem crawl_mesa (N : CrawlNet) (n : Nat) (iv : Rat) : MesaHost (crawlHost N) n iv (fun r _ _ _ w => crawlAct N r w) (fun _ => True) where
  step _ _ _ _ _ _ _ := rfl
  inv _ _ _ _ _ _ _ := trivial
  shuffle _ _ _ := trivial

/-- What an activation does to the city is one of the events of C120–C124. -/
theorem crawlAct_ev (N : CrawlNet) (r : Ref) (w : Crawl) : ∃ e : PubEv, (crawlAct N r w).city = w.city.ev e := by
  cases r with
  | zero => exact ⟨.police, rfl⟩
  | succ i => exact ⟨.patron i _ _, rfl⟩

theorem crawlActs_run (N : CrawlNet) (l : List Ref) (w : Crawl) :
    ∃ h : List PubEv, (l.foldl (fun w r => crawlAct N r w) w).city = w.city.run h := by
  induction l generalizing w with
  | nil => exact ⟨[], rfl⟩
  | cons r l ih =>
    obtain ⟨e, he⟩ := crawlAct_ev N r w
    obtain ⟨h, hh⟩ := ih (crawlAct N r w)
    refine ⟨e :: h, ?_⟩
    rw [List.foldl_cons, hh, he]
    rfl

/-- A step of the scheduler: everybody has a turn. -/
theorem crawl_round (N : CrawlNet) (caps : List Nat) (ps : List (Rat × Nat)) (iv : Rat) (hiv : 0 < iv) (sh : Bool) (k : Nat) :
    ∃ (order : List Ref) (w1 : Crawl), order.Perm (List.range (ps.length + 1)) ∧ (sh = false → order = List.range (ps.length + 1)) ∧
      w1.city = crawlCity N caps ps iv sh k ∧ crawlCity N caps ps iv sh (k + 1) = (order.foldl (fun w r => crawlAct N r w) w1).city := by
  cases sh with
  | true =>
    obtain ⟨order, w1, h1, h2, h3⟩ := mesa_order (Nat.succ_pos _) hiv (crawl_mesa N (ps.length + 1) iv) true ⟨City.init caps ps [], 0⟩ trivial k
    refine ⟨order, w1, h1, fun h => (by cases h), ?_, congrArg Crawl.city h3⟩
    rcases h2 with ⟨h, -⟩ | ⟨l, h⟩
    · cases h
    · rw [h]; rfl
  | false =>
    have h := C230_ordered_partial (crawlHost N) (ps.length + 1) (Nat.succ_pos _) iv hiv _ _ (crawl_mesa N (ps.length + 1) iv) ⟨City.init caps ps [], 0⟩ trivial k
    exact ⟨List.range (ps.length + 1), _, List.Perm.refl _, fun _ => rfl, rfl, congrArg Crawl.city h⟩

/-- Whatever happens in the scheduler is a run in the sense of C120–C124. -/
theorem crawl_run (N : CrawlNet) (caps : List Nat) (ps : List (Rat × Nat)) (iv : Rat) (hiv : 0 < iv) (sh : Bool) (k : Nat) :
    ∃ h : List PubEv, crawlCity N caps ps iv sh k = (City.init caps ps []).run h := by
  induction k with
  | zero => exact ⟨[], rfl⟩
  | succ k ih =>
    obtain ⟨h, hh⟩ := ih
    obtain ⟨order, w1, -, -, h3, h4⟩ := crawl_round N caps ps iv hiv sh k
    obtain ⟨h', hh'⟩ := crawlActs_run N order w1
    exact ⟨h ++ h', by rw [h4, hh', h3, hh, City.run_append]⟩

theorem crawl_loops (N : CrawlNet) (caps : List Nat) (ps : List (Rat × Nat)) (iv : Rat) (hiv : 0 < iv) (sh : Bool) (k : Nat) :
    (crawlCity N caps ps iv sh k).Loops := by
  obtain ⟨h, hh⟩ := crawl_run N caps ps iv hiv sh k
  rw [hh]
  exact (City.init_loops caps ps).run h

/-! ### One patron -/

/-- What the police does to a patron. -/
def Patron.check (q : Patron) : Patron := if q.drunk && decide (q.state = .drunkInPub) then { q with kicked := true } else q

/-- What a patron in a pub or at home does. -/
def Patron.alone (q : Patron) : Patron :=
  match q.state with
  | .sober => if q.maxPints < q.pints + 1 then { q with pints := q.pints + 1, state := .drunkInPub } else { q with pints := q.pints + 1 }
  | .drunkInPub => if q.kicked then { q with drunk := true, state := .home } else { q with drunk := true }
  | _ => q

theorem Patron.check_state (q : Patron) : q.check.state = q.state := by
  unfold Patron.check
  split <;> rfl

/-- A patron who has been in a pub. -/
def Patron.Been (q : Patron) : Prop := q.state = .sober ∨ q.state = .drunkInPub ∨ q.state = .home

instance : DecidablePred Patron.Been := fun q => by unfold Patron.Been; infer_instance

theorem City.goto_get (c : City) (i j : Nat) (s : PState) :
    (c.goto i s).patrons[j]? = if i = j then c.patrons[j]?.map (fun q => { q with state := s }) else c.patrons[j]? := by
  simp only [City.goto]
  rw [getElem?_modify']

/-- The turn of another patron changes nothing about a patron. -/
theorem City.patronStep_other {c : City} (h : c.Loops) (i j : Nat) (hij : i ≠ j) (sh : List Nat → List Nat) (d : Nat → Rat) :
    (c.patronStep i sh d).patrons[j]? = c.patrons[j]? := by
  unfold City.patronStep
  cases hp : c.patrons[i]? with
  | none => rfl
  | some p =>
    simp only
    cases hs : p.state with
    | friends =>
      simp only
      obtain ⟨-, h2, -⟩ := City.tryLoop_spec i d ((sh c.lookingForFriends).take (10 * p.openness).floor.toNat) c
      split
      · rw [City.goto_get, if_neg hij]
      · split
        · rw [City.goto_get, if_neg hij, h2]
        · rw [h2]
    | seekPub =>
      simp only
      split
      · rw [City.goto_get, if_neg hij]
      · rcases City.tryPubs_cases i (c.neighbors i) c.available c with he | ⟨p', _, c', he, h2⟩
        · rw [he]
        · rw [h2, City.goto_get, if_neg hij]
          obtain ⟨-, -, -, -, rfl⟩ := City.enter_true he
          have : ∀ (nodes : List Nat) (l : List Patron), (∀ x ∈ nodes, x = i) →
              (nodes.foldl (fun ps i => ps.modify i (fun q => { q with pub := some p' })) l)[j]? = l[j]? := by
            intro nodes
            induction nodes with
            | nil => intro l _; rfl
            | cons a nodes ih =>
              intro l hl
              rw [List.foldl_cons, ih _ (fun x hx => hl x (List.mem_cons_of_mem _ hx)), getElem?_modify', if_neg]
              rw [hl a (List.mem_cons_self ..)]
              exact hij
          refine this _ _ ?_
          intro x hx
          rcases List.mem_cons.1 hx with hx | hx
          · exact hx
          · exact h.neighbors_sub hx
    | sober =>
      simp only
      split
      · rw [City.goto_get, if_neg hij, getElem?_modify', if_neg hij]
      · rw [getElem?_modify', if_neg hij]
    | drunkInPub =>
      simp only
      split
      · rw [City.goto_get, if_neg hij, getElem?_modify', if_neg hij]
      · rw [getElem?_modify', if_neg hij]
    | home => rfl

/-- The turn of a patron in a pub or at home. -/
theorem City.patronStep_alone {c : City} (i : Nat) (q : Patron) (hq : c.patrons[i]? = some q) (hb : q.Been) (sh : List Nat → List Nat) (d : Nat → Rat) :
    (c.patronStep i sh d).patrons[i]? = some q.alone := by
  unfold City.patronStep Patron.alone
  rw [hq]
  rcases hb with hs | hs | hs
  · simp only [hs]
    split
    · rw [City.goto_get, if_pos rfl, getElem?_modify', if_pos rfl, hq]; rfl
    · rw [getElem?_modify', if_pos rfl, hq]
      simp [hs]
  · simp only [hs]
    split
    · rw [City.goto_get, if_pos rfl, getElem?_modify', if_pos rfl, hq]; rfl
    · rw [getElem?_modify', if_pos rfl, hq]
      simp [hs]
  · simp only [hs, hq]

theorem City.police_get (c : City) (i : Nat) : c.police.patrons[i]? = c.patrons[i]?.map Patron.check := by
  simp only [City.police, List.getElem?_map]
  rfl

theorem Loops.act {N : CrawlNet} {w : Crawl} (h : w.city.Loops) (r : Ref) : (crawlAct N r w).city.Loops := by
  obtain ⟨e, he⟩ := crawlAct_ev N r w
  rw [he]
  exact h.ev e

theorem Loops.acts {N : CrawlNet} (l : List Ref) {w : Crawl} (h : w.city.Loops) : (l.foldl (fun w r => crawlAct N r w) w).city.Loops := by
  obtain ⟨e, he⟩ := crawlActs_run N l w
  rw [he]
  exact h.run e

/-- The turns of others, without the police, change nothing about a patron; with it (once) as if only the police had had its turn. -/
theorem crawlActs_other (N : CrawlNet) (i : Nat) (l : List Ref) (hl : l.Nodup) (hi : i + 1 ∉ l) (w : Crawl) (h : w.city.Loops) :
    (l.foldl (fun w r => crawlAct N r w) w).city.patrons[i]? =
      if 0 ∈ l then w.city.patrons[i]?.map Patron.check else w.city.patrons[i]? := by
  induction l generalizing w with
  | nil => rfl
  | cons r l ih =>
    obtain ⟨hr, hl⟩ := List.nodup_cons.1 hl
    have hi' : i + 1 ∉ l := fun hm => hi (List.mem_cons_of_mem _ hm)
    rw [List.foldl_cons, ih hl hi' _ (Loops.act h r)]
    cases r with
    | zero =>
      rw [if_neg hr, if_pos (List.mem_cons_self ..)]
      exact City.police_get _ _
    | succ j =>
      have hj : j ≠ i := fun he => hi (by rw [he]; exact List.mem_cons_self ..)
      have e : (crawlAct N (j + 1) w).city.patrons[i]? = w.city.patrons[i]? := City.patronStep_other h j i hj _ _
      have : (0 ∈ (j + 1) :: l) ↔ 0 ∈ l := by
        constructor
        · intro hm
          rcases List.mem_cons.1 hm with hm | hm
          · exact absurd hm.symm (Nat.succ_ne_zero j)
          · exact hm
        · exact List.mem_cons_of_mem _
      rw [e]
      by_cases h0 : 0 ∈ l
      · rw [if_pos h0, if_pos (this.2 h0)]
      · rw [if_neg h0, if_neg (fun hm => h0 (this.1 hm))]

/-- The round of a patron who has been in a pub: its own turn, and before or after that of the police. -/
theorem crawl_patron (N : CrawlNet) (caps : List Nat) (ps : List (Rat × Nat)) (iv : Rat) (hiv : 0 < iv) (sh : Bool) (k i : Nat) (q : Patron)
    (hq : (crawlCity N caps ps iv sh k).patrons[i]? = some q) (hb : q.Been) (hi : i < ps.length) :
    (crawlCity N caps ps iv sh (k + 1)).patrons[i]? = some q.check.alone ∨
      (sh = true ∧ (crawlCity N caps ps iv sh (k + 1)).patrons[i]? = some q.alone.check) := by
  obtain ⟨order, w1, h1, h2, h3, h4⟩ := crawl_round N caps ps iv hiv sh k
  have hl := crawl_loops N caps ps iv hiv sh k
  rw [← h3] at hl hq
  rw [h4]
  have hn : order.Nodup := h1.nodup_iff.2 List.nodup_range
  have hmem : i + 1 ∈ order := h1.mem_iff.2 (List.mem_range.2 (by omega))
  have h0 : 0 ∈ order := h1.mem_iff.2 (List.mem_range.2 (by omega))
  obtain ⟨a, b, hab⟩ := List.append_of_mem hmem
  rw [hab] at hn h0 ⊢
  have hn' := List.nodup_append.1 hn
  obtain ⟨hb1, hb2⟩ := List.nodup_cons.1 hn'.2.1
  have ha : i + 1 ∉ a := fun hm => hn'.2.2 _ hm _ (List.mem_cons_self ..) rfl
  rw [List.foldl_append, List.foldl_cons]
  have ea := crawlActs_other N i a hn'.1 ha w1 hl
  have hla : (a.foldl (fun w r => crawlAct N r w) w1).city.Loops := Loops.acts a hl
  generalize a.foldl (fun w r => crawlAct N r w) w1 = w2 at ea hla ⊢
  rw [crawlActs_other N i b hb2 hb1 _ (Loops.act hla (i + 1))]
  by_cases h0a : 0 ∈ a
  · left
    have h0b : 0 ∉ b := fun hm => hn'.2.2 _ h0a _ (List.mem_cons_of_mem _ hm) rfl
    rw [if_neg h0b]
    rw [if_pos h0a, hq] at ea
    refine City.patronStep_alone i q.check ea ?_ _ _
    unfold Patron.Been
    rw [Patron.check_state]
    exact hb
  · have h0b : 0 ∈ b := by
      rcases List.mem_append.1 h0 with h | h
      · exact absurd h h0a
      · rcases List.mem_cons.1 h with h | h
        · exact absurd h.symm (Nat.succ_ne_zero i)
        · exact h
    right
    rw [if_pos h0b]
    rw [if_neg h0a, hq] at ea
    refine ⟨?_, ?_⟩
    · cases hsh : sh with
      | true => rfl
      | false =>
        have := h2 hsh
        rw [hab] at this
        cases a with
        | nil =>
          rw [List.nil_append, List.range_succ_eq_map] at this
          exact absurd (List.cons.inj this).1 (Nat.succ_ne_zero i)
        | cons x a =>
          rw [List.cons_append, List.range_succ_eq_map] at this
          exact absurd (by rw [(List.cons.inj this).1]; exact List.mem_cons_self ..) h0a
    · have e : (crawlAct N (i + 1) w2).city.patrons[i]? = some q.alone := City.patronStep_alone i q ea hb _ _
      rw [e]; rfl


/-! ### C239: going home -/

theorem crawl_length (N : CrawlNet) (caps : List Nat) (ps : List (Rat × Nat)) (iv : Rat) (hiv : 0 < iv) (sh : Bool) (k : Nat) :
    (crawlCity N caps ps iv sh k).patrons.length = ps.length := by
  obtain ⟨h, hh⟩ := crawl_run N caps ps iv hiv sh k
  rw [hh, (City.Next.run _ h).1]
  simp [City.init]

/-- What a patron has had to drink (C123). -/
theorem crawl_life (N : CrawlNet) (caps : List Nat) (ps : List (Rat × Nat)) (iv : Rat) (hiv : 0 < iv) (sh : Bool) (k i : Nat) (q : Patron)
    (hq : (crawlCity N caps ps iv sh k).patrons[i]? = some q) : q.LifeOk ∧ ∃ p, ps[i]? = some p ∧ q.maxPints = p.2 := by
  obtain ⟨h, hh⟩ := crawl_run N caps ps iv hiv sh k
  rw [hh] at hq
  exact City.life caps ps [] h i q hq

theorem crawl_sober (N : CrawlNet) (caps : List Nat) (ps : List (Rat × Nat)) (iv : Rat) (hiv : 0 < iv) (sh : Bool) (k i : Nat) (q : Patron)
    (hq : (crawlCity N caps ps iv sh k).patrons[i]? = some q) (hs : q.state = .sober) :
    (crawlCity N caps ps iv sh (k + 1)).patrons[i]? =
      some { q with pints := q.pints + 1, state := if q.maxPints < q.pints + 1 then .drunkInPub else .sober } := by
  obtain ⟨hl, p, hp, -⟩ := crawl_life N caps ps iv hiv sh k i q hq
  simp only [Patron.LifeOk, hs] at hl
  have hi : i < ps.length := (List.getElem?_eq_some_iff.1 hp).1
  have e1 : q.check = q := by simp [Patron.check, hl.2.1]
  have e2 : q.alone = { q with pints := q.pints + 1, state := if q.maxPints < q.pints + 1 then .drunkInPub else .sober } := by
    unfold Patron.alone
    rw [hs]
    simp only
    split
    · rfl
    · rw [← hs]
  have e3 : q.alone.check = q.alone := by rw [e2]; simp [Patron.check, hl.2.1]
  rcases crawl_patron N caps ps iv hiv sh k i q hq (Or.inl hs) hi with h | ⟨-, h⟩
  · rw [h, e1, e2]
  · rw [h, e3, e2]

/-- A patron at home stays there. -/
theorem crawl_home (N : CrawlNet) (caps : List Nat) (ps : List (Rat × Nat)) (iv : Rat) (hiv : 0 < iv) (sh : Bool) (k i : Nat) (q : Patron)
    (hq : (crawlCity N caps ps iv sh k).patrons[i]? = some q) (hs : q.state = .home) (j : Nat) :
    (crawlCity N caps ps iv sh (k + j)).patrons[i]? = some q := by
  induction j with
  | zero => exact hq
  | succ j ih =>
    obtain ⟨-, p, hp, -⟩ := crawl_life N caps ps iv hiv sh _ i q ih
    have hi : i < ps.length := (List.getElem?_eq_some_iff.1 hp).1
    have e1 : q.check = q := by simp [Patron.check, hs]
    have e2 : q.alone = q := by simp [Patron.alone, hs]
    rcases crawl_patron N caps ps iv hiv sh (k + j) i q ih (Or.inr (Or.inr hs)) hi with h | ⟨-, h⟩
    · rw [← Nat.add_assoc, h, e1, e2]
    · rw [← Nat.add_assoc, h, e2, e1]

theorem crawl_kicked (N : CrawlNet) (caps : List Nat) (ps : List (Rat × Nat)) (iv : Rat) (hiv : 0 < iv) (sh : Bool) (k i : Nat) (q : Patron)
    (hq : (crawlCity N caps ps iv sh k).patrons[i]? = some q) (hs : q.state = .drunkInPub) (hk : q.kicked = true) :
    ∃ q', (crawlCity N caps ps iv sh (k + 1)).patrons[i]? = some q' ∧ q'.state = .home := by
  obtain ⟨-, p, hp, -⟩ := crawl_life N caps ps iv hiv sh k i q hq
  have hi : i < ps.length := (List.getElem?_eq_some_iff.1 hp).1
  have hc : q.check.kicked = true := by unfold Patron.check; split <;> simp [hk]
  rcases crawl_patron N caps ps iv hiv sh k i q hq (Or.inr (Or.inl hs)) hi with h | ⟨-, h⟩
  · refine ⟨_, h, ?_⟩
    simp [Patron.alone, Patron.check_state, hs, hc]
  · refine ⟨_, h, ?_⟩
    rw [Patron.check_state]
    simp [Patron.alone, hs, hk]

theorem crawl_drunk (N : CrawlNet) (caps : List Nat) (ps : List (Rat × Nat)) (iv : Rat) (hiv : 0 < iv) (sh : Bool) (k i : Nat) (q : Patron)
    (hq : (crawlCity N caps ps iv sh k).patrons[i]? = some q) (hs : q.state = .drunkInPub) (hd : q.drunk = true) :
    ∃ q', (crawlCity N caps ps iv sh (k + 1)).patrons[i]? = some q' ∧
      (q'.state = .home ∨ (sh = true ∧ q'.state = .drunkInPub ∧ q'.kicked = true)) := by
  obtain ⟨-, p, hp, -⟩ := crawl_life N caps ps iv hiv sh k i q hq
  have hi : i < ps.length := (List.getElem?_eq_some_iff.1 hp).1
  rcases crawl_patron N caps ps iv hiv sh k i q hq (Or.inr (Or.inl hs)) hi with h | ⟨hsh, h⟩
  · refine ⟨_, h, Or.inl ?_⟩
    simp [Patron.alone, Patron.check, hs, hd]
  · refine ⟨_, h, ?_⟩
    rw [Patron.check_state]
    cases hk : q.kicked with
    | true => exact Or.inl (by simp [Patron.alone, hs, hk])
    | false => exact Or.inr ⟨hsh, by simp [Patron.alone, hs, hk], by simp [Patron.alone, Patron.check, hs, hk]⟩

theorem crawl_unsteady (N : CrawlNet) (caps : List Nat) (ps : List (Rat × Nat)) (iv : Rat) (hiv : 0 < iv) (sh : Bool) (k i : Nat) (q : Patron)
    (hq : (crawlCity N caps ps iv sh k).patrons[i]? = some q) (hs : q.state = .drunkInPub) (hd : q.drunk = false) :
    ∃ q', (crawlCity N caps ps iv sh (k + 1)).patrons[i]? = some q' ∧ q'.state = .drunkInPub ∧ q'.drunk = true := by
  obtain ⟨hl, p, hp, -⟩ := crawl_life N caps ps iv hiv sh k i q hq
  simp only [Patron.LifeOk, hs] at hl
  have hi : i < ps.length := (List.getElem?_eq_some_iff.1 hp).1
  have hk : q.kicked = false := by
    cases hk : q.kicked with
    | false => rfl
    | true => have := hl.2 hk; rw [hd] at this; cases this
  rcases crawl_patron N caps ps iv hiv sh k i q hq (Or.inr (Or.inl hs)) hi with h | ⟨-, h⟩
  · exact ⟨_, h, by simp [Patron.alone, Patron.check, hs, hk, hd], by simp [Patron.alone, Patron.check, hs, hk, hd]⟩
  · exact ⟨_, h, by simp [Patron.alone, Patron.check, hs, hk], by simp [Patron.alone, Patron.check, hs, hk]⟩

/-- C239: whoever drinks gets home, and the time it takes: a patron who is in a pub and has had `pints` drinks one pint in each of the next
`max_pints + 1 - pints` steps, is drunk in the pub for two or three steps (two, if the agents are not shuffled, as the police comes first), and then
is at home for ever. -/
theorem C239_home (N : CrawlNet) (caps : List Nat) (ps : List (Rat × Nat)) (iv : Rat) (hiv : 0 < iv) (sh : Bool) (k i : Nat) (q : Patron) (p : Rat × Nat)
    (hp : ps[i]? = some p) (hq : (crawlCity N caps ps iv sh k).patrons[i]? = some q) (hs : q.state = .sober) (m : Nat) (hm : q.pints + m = p.2 + 1) :
    (∀ j < m, ∃ q', (crawlCity N caps ps iv sh (k + j)).patrons[i]? = some q' ∧ q'.state = .sober ∧ q'.pints = q.pints + j) ∧
    (∀ j, m ≤ j → j < m + 2 → ∃ q', (crawlCity N caps ps iv sh (k + j)).patrons[i]? = some q' ∧ q'.state = .drunkInPub ∧ q'.pints = p.2 + 1) ∧
    (∀ j, m + 3 ≤ j → ∃ q', (crawlCity N caps ps iv sh (k + j)).patrons[i]? = some q' ∧ q'.state = .home ∧ q'.pints = p.2 + 1) ∧
    (sh = false → ∀ j, m + 2 ≤ j → ∃ q', (crawlCity N caps ps iv sh (k + j)).patrons[i]? = some q' ∧ q'.state = .home) := by
  obtain ⟨hl0, p', hp', hmax⟩ := crawl_life N caps ps iv hiv sh k i q hq
  rw [hp] at hp'
  cases hp'
  simp only [Patron.LifeOk, hs] at hl0
  have h1 : ∀ j, j < m → ∃ q', (crawlCity N caps ps iv sh (k + j)).patrons[i]? = some q' ∧ q'.state = .sober ∧ q'.pints = q.pints + j ∧
      q'.drunk = false ∧ q'.maxPints = p.2 := by
    intro j
    induction j with
    | zero => exact fun _ => ⟨q, hq, hs, rfl, hl0.2.1, hmax⟩
    | succ j ih =>
      intro hj
      obtain ⟨q', a1, a2, a3, a4, a5⟩ := ih (by omega)
      have := crawl_sober N caps ps iv hiv sh (k + j) i q' a1 a2
      refine ⟨_, this, ?_, by simp only [a3]; omega, a4, a5⟩
      simp only
      rw [if_neg (by omega)]
  have hm0 : 0 < m := by omega
  obtain ⟨q1, a1, a2, a3, a4, a5⟩ := h1 (m - 1) (by omega)
  have b := crawl_sober N caps ps iv hiv sh (k + (m - 1)) i q1 a1 a2
  have ek : k + (m - 1) + 1 = k + m := by omega
  rw [ek, if_pos (by omega)] at b
  obtain ⟨q2, c1, c2, c3⟩ := crawl_unsteady N caps ps iv hiv sh (k + m) i _ b rfl a4
  have hpints : ∀ k' q', (crawlCity N caps ps iv sh k').patrons[i]? = some q' → q'.state = .drunkInPub ∨ (q'.state = .home ∧ 0 < q'.pints) →
      q'.pints = p.2 + 1 := by
    intro k' q' hq' hs'
    obtain ⟨hl, p', hp', hm'⟩ := crawl_life N caps ps iv hiv sh k' i q' hq'
    rw [hp] at hp'
    cases hp'
    rcases hs' with hs' | ⟨hs', h0⟩
    · simp only [Patron.LifeOk, hs'] at hl
      omega
    · simp only [Patron.LifeOk, hs'] at hl
      rcases hl with hl | hl <;> omega
  have hmono : ∀ k' q' q'', (crawlCity N caps ps iv sh k').patrons[i]? = some q' → (crawlCity N caps ps iv sh (k' + 1)).patrons[i]? = some q'' →
      q'.pints ≤ q''.pints := by
    intro k' q' q'' h' h''
    obtain ⟨order, w1, -, -, r3, r4⟩ := crawl_round N caps ps iv hiv sh k'
    obtain ⟨es, hes⟩ := crawlActs_run N order w1
    rw [r4, hes, r3] at h''
    obtain ⟨x, hx, hn⟩ := (City.Next.run (crawlCity N caps ps iv sh k') es).2 i q' h'
    rw [h''] at hx
    cases hx
    exact hn.pints
  obtain ⟨q3, d1, d2⟩ := crawl_drunk N caps ps iv hiv sh (k + m + 1) i q2 c1 c2 c3
  have p2 := hpints _ q2 c1 (Or.inl c2)
  have p3 : 0 < q3.pints := by have := hmono _ _ _ c1 d1; omega
  have hend : ∃ q4, (crawlCity N caps ps iv sh (k + m + 3)).patrons[i]? = some q4 ∧ q4.state = .home ∧ 0 < q4.pints := by
    rcases d2 with d2 | ⟨-, d2, d3⟩
    · exact ⟨q3, crawl_home N caps ps iv hiv sh (k + m + 2) i q3 d1 d2 1, d2, p3⟩
    · obtain ⟨q4, e1, e2⟩ := crawl_kicked N caps ps iv hiv sh (k + m + 2) i q3 d1 d2 d3
      exact ⟨q4, e1, e2, by have := hmono _ _ _ d1 e1; omega⟩
  refine ⟨fun j hj => ?_, fun j hj hj' => ?_, fun j hj => ?_, fun hsh j hj => ?_⟩
  · obtain ⟨q', x1, x2, x3, -⟩ := h1 j hj
    exact ⟨q', x1, x2, x3⟩
  · obtain rfl | rfl : j = m ∨ j = m + 1 := by omega
    · exact ⟨_, b, rfl, hpints _ _ b (Or.inl rfl)⟩
    · exact ⟨q2, c1, c2, p2⟩
  · obtain ⟨q4, e1, e2, e3⟩ := hend
    have := crawl_home N caps ps iv hiv sh (k + m + 3) i q4 e1 e2 (j - (m + 3))
    have ej : k + m + 3 + (j - (m + 3)) = k + j := by omega
    rw [ej] at this
    exact ⟨q4, this, e2, hpints _ _ e1 (Or.inr ⟨e2, e3⟩)⟩
  · rcases d2 with d2 | ⟨h, -⟩
    · have := crawl_home N caps ps iv hiv sh (k + m + 2) i q3 d1 d2 (j - (m + 2))
      have ej : k + m + 2 + (j - (m + 2)) = k + j := by omega
      rw [ej] at this
      exact ⟨q3, this, d2⟩
    · rw [hsh] at h; cases h

/-- Whoever has been in a pub is at home at the latest after `max_pints + 4` more steps. -/
theorem crawl_been_home (N : CrawlNet) (caps : List Nat) (ps : List (Rat × Nat)) (iv : Rat) (hiv : 0 < iv) (sh : Bool) (k i : Nat) (q : Patron)
    (hq : (crawlCity N caps ps iv sh k).patrons[i]? = some q) (hb : q.Been) (j : Nat) (hj : q.maxPints + 4 ≤ j) :
    ∃ q', (crawlCity N caps ps iv sh (k + j)).patrons[i]? = some q' ∧ q'.state = .home := by
  obtain ⟨hl, p, hp, hmax⟩ := crawl_life N caps ps iv hiv sh k i q hq
  have hdrunk : ∀ k q, (crawlCity N caps ps iv sh k).patrons[i]? = some q → q.state = .drunkInPub → q.drunk = true →
      ∀ j, 2 ≤ j → ∃ q', (crawlCity N caps ps iv sh (k + j)).patrons[i]? = some q' ∧ q'.state = .home := by
    intro k q hq hs hd j hj
    obtain ⟨q3, d1, d2⟩ := crawl_drunk N caps ps iv hiv sh k i q hq hs hd
    rcases d2 with d2 | ⟨-, d2, d3⟩
    · have := crawl_home N caps ps iv hiv sh (k + 1) i q3 d1 d2 (j - 1)
      have ej : k + 1 + (j - 1) = k + j := by omega
      rw [ej] at this
      exact ⟨q3, this, d2⟩
    · obtain ⟨q4, e1, e2⟩ := crawl_kicked N caps ps iv hiv sh (k + 1) i q3 d1 d2 d3
      have := crawl_home N caps ps iv hiv sh (k + 2) i q4 e1 e2 (j - 2)
      have ej : k + 2 + (j - 2) = k + j := by omega
      rw [ej] at this
      exact ⟨q4, this, e2⟩
  rcases hb with hs | hs | hs
  · simp only [Patron.LifeOk, hs] at hl
    obtain ⟨-, -, h3, -⟩ := C239_home N caps ps iv hiv sh k i q p hp hq hs (p.2 + 1 - q.pints) (by omega)
    obtain ⟨q', x1, x2, -⟩ := h3 j (by omega)
    exact ⟨q', x1, x2⟩
  · cases hd : q.drunk with
    | true => exact hdrunk k q hq hs hd j (by omega)
    | false =>
      obtain ⟨q2, c1, c2, c3⟩ := crawl_unsteady N caps ps iv hiv sh k i q hq hs hd
      obtain ⟨q', x1, x2⟩ := hdrunk (k + 1) q2 c1 c2 c3 (j - 1) (by omega)
      have ej : k + 1 + (j - 1) = k + j := by omega
      rw [ej] at x1
      exact ⟨q', x1, x2⟩
  · exact ⟨q, crawl_home N caps ps iv hiv sh k i q hq hs j, hs⟩

/-! ### C239: somebody stays alone -/

/-- Somebody is looking for friends. -/
def City.Lonely (c : City) : Prop := ∃ (i : Nat) (q : Patron), c.patrons[i]? = some q ∧ q.state = .friends

theorem City.Lonely.patron {c : City} (hl : c.Loops) (h : c.Lonely) (i : Nat) (sh : List Nat → List Nat) (hsh : ∀ l, (sh l).Perm l) (d : Nat → Rat) :
    (c.patronStep i sh d).Lonely := by
  obtain ⟨j, q, hq, hs⟩ := h
  by_cases hij : i = j
  · subst hij
    obtain ⟨q', hq', hn⟩ := (City.Next.ev c (.patron i sh d)).2 i q hq
    have hq' : (c.patronStep i sh d).patrons[i]? = some q' := hq'
    have hl' := (hl.patron i sh d).life i q' hq'
    have hpub : q'.pub = none := by
      have h0 := (hl.life i q hq).1 hs
      unfold City.patronStep at hq'
      simp only [hq, hs] at hq'
      split at hq'
      · simp only [City.goto, getElem?_modify', if_true, hq, Option.map_some, Option.some.injEq] at hq'
        subst hq'
        exact h0
      · obtain ⟨_, h2, _⟩ := City.tryLoop_spec i d ((sh c.lookingForFriends).take (10 * q.openness).floor.toNat) c
        split at hq'
        · simp only [City.goto, getElem?_modify', if_true, h2, hq, Option.map_some, Option.some.injEq] at hq'
          subst hq'
          exact h0
        · rw [h2, hq] at hq'
          cases hq'
          exact h0
    cases hs' : q'.state with
    | friends => exact ⟨i, q', hq', hs'⟩
    | seekPub =>
      obtain ⟨j, hj, x, hx, -, hxs, -⟩ := C122_accepted_partial c i sh hsh d q q' hq hs hq' hs'
      exact ⟨j, x, by rw [City.patronStep_other hl i j (Ne.symm hj), hx], hxs⟩
    | sober => have := hl'.2.2 (Or.inl hs'); rw [hpub] at this; cases this
    | drunkInPub => have := hl'.2.2 (Or.inr (Or.inl hs')); rw [hpub] at this; cases this
    | home => have := hl'.2.2 (Or.inr (Or.inr hs')); rw [hpub] at this; cases this
  · exact ⟨j, q, by rw [City.patronStep_other hl i j hij, hq], hs⟩

theorem Lonely.act {N : CrawlNet} {w : Crawl} (hl : w.city.Loops) (h : w.city.Lonely) (r : Ref) : (crawlAct N r w).city.Lonely := by
  cases r with
  | zero =>
    obtain ⟨j, q, hq, hs⟩ := h
    refine ⟨j, q.check, ?_, by rw [Patron.check_state, hs]⟩
    exact (City.police_get _ _).trans (by rw [hq]; rfl)
  | succ i => exact h.patron hl i _ (N.shuf_perm _) _

theorem Lonely.acts {N : CrawlNet} (l : List Ref) {w : Crawl} (hl : w.city.Loops) (h : w.city.Lonely) :
    (l.foldl (fun w r => crawlAct N r w) w).city.Lonely := by
  induction l generalizing w with
  | nil => exact h
  | cons r l ih => exact ih (Loops.act hl r) (Lonely.act hl h r)

theorem crawl_lonely (N : CrawlNet) (caps : List Nat) (ps : List (Rat × Nat)) (hps : ps ≠ []) (iv : Rat) (hiv : 0 < iv) (sh : Bool) (k : Nat) :
    (crawlCity N caps ps iv sh k).Lonely := by
  induction k with
  | zero =>
    cases ps with
    | nil => exact absurd rfl hps
    | cons p ps => exact ⟨0, Patron.new p.1 p.2, rfl, rfl⟩
  | succ k ih =>
    obtain ⟨order, w1, -, -, h3, h4⟩ := crawl_round N caps ps iv hiv sh k
    rw [h4]
    have hl := crawl_loops N caps ps iv hiv sh k
    rw [← h3] at hl ih
    exact Lonely.acts order hl ih

/-- From step to step, a patron only goes on to later states. -/
theorem crawl_rank (N : CrawlNet) (caps : List Nat) (ps : List (Rat × Nat)) (iv : Rat) (hiv : 0 < iv) (sh : Bool) (k j i : Nat) (q : Patron)
    (hq : (crawlCity N caps ps iv sh k).patrons[i]? = some q) :
    ∃ q', (crawlCity N caps ps iv sh (k + j)).patrons[i]? = some q' ∧ Patron.Next q q' := by
  induction j with
  | zero => exact ⟨q, hq, .refl q⟩
  | succ j ih =>
    obtain ⟨q', h', hn⟩ := ih
    obtain ⟨order, w1, -, -, r3, r4⟩ := crawl_round N caps ps iv hiv sh (k + j)
    obtain ⟨es, hes⟩ := crawlActs_run N order w1
    obtain ⟨x, hx, hn'⟩ := (City.Next.run (crawlCity N caps ps iv sh (k + j)) es).2 i q' h'
    refine ⟨x, ?_, hn.trans hn'⟩
    rw [← Nat.add_assoc, r4, hes, r3, hx]

/-- C239 is violated: there always is a patron who looks for friends for ever, whatever the patrons are like, since nobody can befriend
the last one: those who found a friend do not look for friends any more. -/
theorem C239_alone_false (N : CrawlNet) (caps : List Nat) (ps : List (Rat × Nat)) (hps : ps ≠ []) (iv : Rat) (hiv : 0 < iv) (sh : Bool) :
    ∃ i < ps.length, ∀ k, ∃ q, (crawlCity N caps ps iv sh k).patrons[i]? = some q ∧ q.state = .friends ∧ q.pints = 0 := by
  by_contra hcon
  have hex : ∀ i, ∃ k, i < ps.length → ∃ q, (crawlCity N caps ps iv sh k).patrons[i]? = some q ∧ q.state ≠ .friends := by
    intro i
    by_contra hno
    rw [not_exists] at hno
    refine hcon ⟨i, ?_, fun k => ?_⟩
    · by_contra hi
      exact hno 0 (fun h => absurd h hi)
    · have hk := hno k
      rw [Classical.not_imp] at hk
      obtain ⟨hi, hk⟩ := hk
      have hlt : i < (crawlCity N caps ps iv sh k).patrons.length := by rw [crawl_length N caps ps iv hiv sh k]; exact hi
      have hq := List.getElem?_eq_getElem hlt
      have hs : (crawlCity N caps ps iv sh k).patrons[i].state = .friends := by
        by_contra hs
        exact hk ⟨_, hq, hs⟩
      have hl := (crawl_life N caps ps iv hiv sh k i _ hq).1
      simp only [Patron.LifeOk, hs] at hl
      exact ⟨_, hq, hs, hl.1⟩
  choose K hK using hex
  -- after the last of these steps nobody looks for friends
  have hmax : ∃ M, ∀ i < ps.length, K i ≤ M := by
    have : ∀ n, ∃ M, ∀ i < n, K i ≤ M := by
      intro n
      induction n with
      | zero => exact ⟨0, fun i hi => absurd hi (Nat.not_lt_zero i)⟩
      | succ n ih =>
        obtain ⟨M, hM⟩ := ih
        refine ⟨max M (K n), fun i hi => ?_⟩
        rcases Nat.lt_or_ge i n with h | h
        · exact le_trans (hM i h) (le_max_left _ _)
        · have : i = n := by omega
          rw [this]; exact le_max_right _ _
    exact this _
  obtain ⟨M, hM⟩ := hmax
  obtain ⟨i, q, hq, hs⟩ := crawl_lonely N caps ps hps iv hiv sh M
  have hi : i < ps.length := by
    rw [← crawl_length N caps ps iv hiv sh M]
    exact (List.getElem?_eq_some_iff.1 hq).1
  obtain ⟨q', hq', hs'⟩ := hK i hi
  obtain ⟨x, hx, hn⟩ := crawl_rank N caps ps iv hiv sh (K i) (M - K i) i q' hq'
  have : K i + (M - K i) = M := by have := hM i hi; omega
  rw [this, hq] at hx
  cases hx
  have hr := hn.rank
  rw [hs] at hr
  cases h : q'.state with
  | friends => exact hs' h
  | _ => rw [h] at hr; simp [PState.rank] at hr


/-! ### C239: the places in the pubs -/

/-- What an event does to the pubs: nothing, or some patrons enter one. -/
theorem City.ev_pubs (c : City) (e : PubEv) :
    (c.ev e).pubs = c.pubs ∨ ∃ p n, (c.ev e).pubs = c.pubs.modify p (fun x => { x with occupancy := x.occupancy + n }) := by
  cases e with
  | police => exact Or.inl rfl
  | patron i sh d =>
    simp only [City.ev, City.patronStep]
    cases hp : c.patrons[i]? with
    | none => exact Or.inl rfl
    | some q =>
      simp only
      cases hs : q.state with
      | friends =>
        simp only
        obtain ⟨h1, _⟩ := City.tryLoop_spec i d ((sh c.lookingForFriends).take (10 * q.openness).floor.toNat) c
        split
        · exact Or.inl rfl
        · split <;> exact Or.inl h1
      | seekPub =>
        simp only
        split
        · exact Or.inl rfl
        · rcases City.tryPubs_cases i (c.neighbors i) c.available c with he | ⟨p', _, c', he, h2⟩
          · rw [he]; exact Or.inl rfl
          · rw [h2]
            obtain ⟨x, hx, _, _, rfl⟩ := City.enter_true he
            exact Or.inr ⟨p', _, rfl⟩
      | sober => simp only; split <;> exact Or.inl rfl
      | drunkInPub => simp only; split <;> exact Or.inl rfl
      | home => exact Or.inl rfl

/-- What does not change about the pubs. -/
theorem City.run_static (c : City) (h : List PubEv) :
    (c.run h).pubs.map (fun x => (x.isOpen, x.capacity)) = c.pubs.map (fun x => (x.isOpen, x.capacity)) := by
  induction h generalizing c with
  | nil => rfl
  | cons e h ih =>
    refine (ih (c.ev e)).trans ?_
    rcases c.ev_pubs e with h | ⟨p, n, h⟩
    · rw [h]
    · rw [h]
      refine List.ext_getElem? ?_
      intro j
      rw [List.getElem?_map, List.getElem?_map, getElem?_modify']
      split
      · cases c.pubs[j]? <;> rfl
      · rfl

theorem crawl_static (N : CrawlNet) (caps : List Nat) (ps : List (Rat × Nat)) (iv : Rat) (hiv : 0 < iv) (sh : Bool) (k : Nat) :
    (crawlCity N caps ps iv sh k).pubs.map (fun x => (x.isOpen, x.capacity)) = caps.map (fun c => (true, c)) := by
  obtain ⟨h, hh⟩ := crawl_run N caps ps iv hiv sh k
  rw [hh, City.run_static]
  simp [City.init, Function.comp_def]

/-- The pubs that patrons are in exist. -/
def City.Exist (c : City) : Prop := ∀ (i : Nat) (q : Patron) (p : Nat), c.patrons[i]? = some q → q.pub = some p → p < c.pubs.length

theorem City.Exist.ev {c : City} (h : c.Exist) (e : PubEv) : (c.ev e).Exist := by
  -- a change of one patron that does not concern its pub
  have hmod : ∀ (c c' : City) (i : Nat) (f : Patron → Patron), c.Exist → c'.pubs.length = c.pubs.length →
      c'.patrons = c.patrons.modify i f → (∀ q, (f q).pub = q.pub) → c'.Exist := by
    intro c c' i f hc hl hp hf j q p hq hqp
    rw [hp, getElem?_modify'] at hq
    rw [hl]
    split at hq
    · obtain ⟨q0, h0, rfl⟩ := Option.map_eq_some_iff.1 hq
      rw [hf] at hqp
      exact hc j q0 p h0 hqp
    · exact hc j q p hq hqp
  have hsame : ∀ (c c' : City), c.Exist → c'.pubs = c.pubs → c'.patrons = c.patrons → c'.Exist := by
    intro c c' hc h1 h2 i q p hq hqp
    rw [h2] at hq
    rw [h1]
    exact hc i q p hq hqp
  cases e with
  | police =>
    intro i q p hq hqp
    have hq : c.police.patrons[i]? = some q := hq
    rw [City.police_get] at hq
    obtain ⟨q0, h0, rfl⟩ := Option.map_eq_some_iff.1 hq
    refine h i q0 p h0 ?_
    rw [← hqp]
    unfold Patron.check
    split <;> rfl
  | patron i sh d =>
    simp only [City.ev, City.patronStep]
    cases hp : c.patrons[i]? with
    | none => exact h
    | some q =>
      simp only
      cases hs : q.state with
      | friends =>
        simp only
        obtain ⟨h1, h2, _⟩ := City.tryLoop_spec i d ((sh c.lookingForFriends).take (10 * q.openness).floor.toNat) c
        split
        · exact hmod c _ i _ h rfl rfl (fun _ => rfl)
        · have hr := hsame c _ h h1 h2
          split
          · exact hmod _ _ i _ hr rfl rfl (fun _ => rfl)
          · exact hr
      | seekPub =>
        simp only
        split
        · exact hmod c _ i _ h rfl rfl (fun _ => rfl)
        · rcases City.tryPubs_cases i (c.neighbors i) c.available c with he | ⟨p', _, c', he, h2⟩
          · rw [he]; exact h
          · rw [h2]
            obtain ⟨x, hx, _, _, rfl⟩ := City.enter_true he
            have hp' : p' < c.pubs.length := (List.getElem?_eq_some_iff.1 hx).1
            refine hmod { c with
              pubs := c.pubs.modify p' (fun p => { p with occupancy := p.occupancy + (i :: c.neighbors i).length })
              patrons := (i :: c.neighbors i).foldl (fun ps i => ps.modify i (fun q => { q with pub := some p' })) c.patrons } _ i
              (fun q => { q with state := .sober }) ?_ rfl rfl (fun _ => rfl)
            have key : ∀ (nodes : List Nat) (ps : List Patron), (∀ (j : Nat) (q : Patron) (p : Nat), ps[j]? = some q → q.pub = some p → p < c.pubs.length) →
                ∀ (j : Nat) (q : Patron) (p : Nat),
                  (nodes.foldl (fun ps i => ps.modify i (fun q => { q with pub := some p' })) ps)[j]? = some q → q.pub = some p → p < c.pubs.length := by
              intro nodes
              induction nodes with
              | nil => intro ps hps; exact hps
              | cons a nodes ih =>
                intro ps hps
                refine ih _ ?_
                intro j q p hq hqp
                rw [getElem?_modify'] at hq
                split at hq
                · obtain ⟨q0, h0, rfl⟩ := Option.map_eq_some_iff.1 hq
                  simp only [Option.some.injEq] at hqp
                  rw [← hqp]; exact hp'
                · exact hps j q p hq hqp
            intro j q p hq hqp
            simp only [List.length_modify]
            exact key _ _ h j q p hq hqp
      | sober =>
        simp only
        have h1 := hmod c { c with patrons := c.patrons.modify i (fun q => { q with pints := q.pints + 1 }) } i _ h rfl rfl (fun _ => rfl)
        split
        · exact hmod _ _ i _ h1 rfl rfl (fun _ => rfl)
        · exact h1
      | drunkInPub =>
        simp only
        have h1 := hmod c { c with patrons := c.patrons.modify i (fun q => { q with drunk := true }) } i _ h rfl rfl (fun _ => rfl)
        split
        · exact hmod _ _ i _ h1 rfl rfl (fun _ => rfl)
        · exact h1
      | home => exact h

theorem crawl_exist (N : CrawlNet) (caps : List Nat) (ps : List (Rat × Nat)) (iv : Rat) (hiv : 0 < iv) (sh : Bool) (k : Nat) :
    (crawlCity N caps ps iv sh k).Exist := by
  obtain ⟨h, hh⟩ := crawl_run N caps ps iv hiv sh k
  rw [hh]
  have : ∀ (h : List PubEv) (c : City), c.Exist → (c.run h).Exist := by
    intro h
    induction h with
    | nil => intro c hc; exact hc
    | cons e h ih => intro c hc; exact ih (c.ev e) (hc.ev e)
  refine this h _ ?_
  intro i q p hq hqp
  simp only [City.init, List.getElem?_map, Option.map_eq_some_iff] at hq
  obtain ⟨x, _, rfl⟩ := hq
  cases hqp

/-- Everybody who is in a pub is in one of them. -/
theorem sum_inside (l : List Patron) (n : Nat) (h : ∀ q ∈ l, ∀ p, q.pub = some p → p < n) :
    ((List.range n).map (fun p => l.countP (fun q => decide (q.pub = some p)))).sum = l.countP (fun q => q.pub.isSome) := by
  induction l with
  | nil =>
    simp only [List.countP_nil]
    induction n with
    | zero => rfl
    | succ n ih => rw [List.range_succ, List.map_append, List.sum_append, ih (by simp)]; rfl
  | cons a l ih =>
    have ih := ih (fun q hq => h q (List.mem_cons_of_mem _ hq))
    rw [List.countP_cons, ← ih]
    have : ∀ m, ((List.range m).map (fun p => (a :: l).countP (fun q => decide (q.pub = some p)))).sum =
        ((List.range m).map (fun p => l.countP (fun q => decide (q.pub = some p)))).sum +
          ((List.range m).map (fun p => if a.pub = some p then 1 else 0)).sum := by
      intro m
      induction m with
      | zero => rfl
      | succ m ih =>
        rw [List.range_succ, List.map_append, List.sum_append, List.map_append, List.sum_append, List.map_append, List.sum_append, ih]
        simp only [List.map_cons, List.map_nil, List.sum_cons, List.sum_nil, List.countP_cons, decide_eq_true_eq]
        omega
    rw [this n]
    congr 1
    cases ha : a.pub with
    | none =>
      simp only [Option.isSome_none, Bool.false_eq_true, if_false, reduceCtorEq]
      simp
    | some p =>
      have hp := h a (List.mem_cons_self ..) p ha
      simp only [Option.isSome_some, if_true, Option.some.injEq]
      have : ∀ m, ((List.range m).map (fun x => if p = x then 1 else 0)).sum = if p < m then 1 else 0 := by
        intro m
        induction m with
        | zero => rfl
        | succ m ih =>
          rw [List.range_succ, List.map_append, List.sum_append, ih]
          simp only [List.map_cons, List.map_nil, List.sum_cons, List.sum_nil]
          split <;> split <;> split <;> omega
      rw [this, if_pos hp]

/-- The patrons who have been in a pub. -/
def City.been (c : City) : Nat := c.patrons.countP (fun q => decide q.Been)

/-- The patrons in the given state. -/
def City.count (c : City) (s : PState) : Nat := c.patrons.countP (fun q => decide (q.state = s))

theorem City.Loops.been_pub {c : City} (h : c.Loops) : c.been = c.patrons.countP (fun q => q.pub.isSome) := by
  unfold City.been
  refine List.countP_congr ?_
  intro q hq
  obtain ⟨i, hi⟩ := List.getElem?_of_mem hq
  obtain ⟨h1, h2, h3⟩ := h.life i q hi
  rw [decide_eq_true_eq]
  refine ⟨h3, fun hp => ?_⟩
  unfold Patron.Been
  cases hs : q.state with
  | friends => rw [h1 hs] at hp; cases hp
  | seekPub => rw [(h2 hs).1] at hp; cases hp
  | sober => simp
  | drunkInPub => simp
  | home => simp

/-- The sum over the pubs. -/
theorem crawl_been_sum (N : CrawlNet) (caps : List Nat) (ps : List (Rat × Nat)) (iv : Rat) (hiv : 0 < iv) (sh : Bool) (k : Nat) :
    (crawlCity N caps ps iv sh k).been = ((List.range caps.length).map (fun p => (crawlCity N caps ps iv sh k).inside p)).sum := by
  have hl := crawl_loops N caps ps iv hiv sh k
  have hlen : (crawlCity N caps ps iv sh k).pubs.length = caps.length := by
    have := congrArg List.length (crawl_static N caps ps iv hiv sh k)
    simpa using this
  rw [hl.been_pub, ← sum_inside _ caps.length]
  · rfl
  · intro q hq p hp
    obtain ⟨i, hi⟩ := List.getElem?_of_mem hq
    rw [← hlen]
    exact crawl_exist N caps ps iv hiv sh k i q p hi hp

theorem sum_range_le (f : Nat → Nat) (l : List Nat) (h : ∀ p c, l[p]? = some c → f p ≤ c / 2) :
    ((List.range l.length).map f).sum ≤ (l.map (· / 2)).sum := by
  induction l generalizing f with
  | nil => simp
  | cons c l ih =>
    rw [List.length_cons, List.range_succ_eq_map, List.map_cons, List.sum_cons, List.map_map, List.map_cons, List.sum_cons]
    have h0 := h 0 c rfl
    have := ih (f ∘ Nat.succ) (fun p c hp => h (p + 1) c hp)
    omega

theorem sum_range_ge (f : Nat → Nat) (l : List Nat) (h : ∀ p c, l[p]? = some c → c / 2 ≤ f p) :
    (l.map (· / 2)).sum ≤ ((List.range l.length).map f).sum := by
  induction l generalizing f with
  | nil => simp
  | cons c l ih =>
    rw [List.length_cons, List.range_succ_eq_map, List.map_cons, List.map_cons, List.sum_cons, List.sum_cons, List.map_map]
    have h0 := h 0 c rfl
    have := ih (f ∘ Nat.succ) (fun p c hp => h (p + 1) c hp)
    omega

theorem crawl_pub (N : CrawlNet) (caps : List Nat) (ps : List (Rat × Nat)) (iv : Rat) (hiv : 0 < iv) (sh : Bool) (k p c : Nat) (hc : caps[p]? = some c) :
    ∃ x, (crawlCity N caps ps iv sh k).pubs[p]? = some x ∧ x.isOpen = true ∧ x.capacity = c ∧
      x.occupancy = 2 * (crawlCity N caps ps iv sh k).inside p ∧ x.occupancy ≤ c := by
  have hst := congrArg (fun l => l[p]?) (crawl_static N caps ps iv hiv sh k)
  simp only [List.getElem?_map, hc, Option.map_some] at hst
  obtain ⟨x, hx, hx2⟩ := Option.map_eq_some_iff.1 hst
  have hocc := (crawl_loops N caps ps iv hiv sh k).occ p x hx
  obtain ⟨h, hh⟩ := crawl_run N caps ps iv hiv sh k
  have hcap := C120_capacity caps ps [] h p x (by rw [← hh]; exact hx)
  have h1 : x.isOpen = true := congrArg Prod.fst hx2
  have h2 : x.capacity = c := congrArg Prod.snd hx2
  exact ⟨x, hx, h1, h2, hocc, by omega⟩

/-- C239 is violated: however long the simulation takes, in each pub at most half as many patrons as its capacity ever drink (everybody is
counted twice, C121, and nobody leaves, C124), although those before them are at home. -/
theorem C239_places_false (N : CrawlNet) (caps : List Nat) (ps : List (Rat × Nat)) (iv : Rat) (hiv : 0 < iv) (sh : Bool) (k : Nat) :
    (crawlCity N caps ps iv sh k).been ≤ (caps.map (· / 2)).sum := by
  rw [crawl_been_sum N caps ps iv hiv sh k]
  refine sum_range_le _ _ ?_
  intro p c hc
  obtain ⟨x, -, -, -, h1, h2⟩ := crawl_pub N caps ps iv hiv sh k p c hc
  omega

theorem City.tryPubs_stays {c : City} {i : Nat} {g ps : List Nat} {q : Patron} (hq : c.patrons[i]? = some q) (hs : q.state ≠ .sober)
    (he : City.tryPubs i g ps c = c) (p : Nat) (hp : p ∈ ps) : ∀ c', c.enter p (i :: g) ≠ some (true, c') := by
  induction ps with
  | nil => cases hp
  | cons a ps ih =>
    unfold City.tryPubs at he
    split at he
    · rename_i c' hc
      exfalso
      have := congrArg (fun c => c.patrons[i]?) he
      rw [City.goto_get, if_pos rfl, hq] at this
      obtain ⟨q0, -, h0⟩ := Option.map_eq_some_iff.1 this
      rw [← h0] at hs
      exact hs rfl
    · rename_i hc
      rcases List.mem_cons.1 hp with hp | hp
      · subst hp
        intro c' h'
        exact hc c' h'
      · exact ih he hp

/-- Somebody who looks for a pub and does not find one: they are all full. -/
theorem City.Loops.seek_full {c : City} (h : c.Loops) (i : Nat) (q : Patron) (hq : c.patrons[i]? = some q) (hs : q.state = .seekPub)
    (sh : List Nat → List Nat) (d : Nat → Rat) (q' : Patron) (hq' : (c.patronStep i sh d).patrons[i]? = some q') (hs' : q'.state = .seekPub)
    (p : Nat) (x : Pub) (hx : c.pubs[p]? = some x) (hopen : x.isOpen = true) : x.capacity < x.occupancy + 2 := by
  have hlen : i < c.patrons.length := (List.getElem?_eq_some_iff.1 hq).1
  obtain ⟨hpub, hloop⟩ := (h.life i q hq).2.1 hs
  unfold City.patronStep at hq'
  simp only [hq, hs] at hq'
  rw [if_neg (by simp [hpub]), h.neighbors hlen hloop] at hq'
  rcases City.tryPubs_cases i [i] c.available c with he | ⟨p', -, c', he, h2⟩
  · by_cases hav : p ∈ c.available
    · have := City.tryPubs_stays hq (by rw [hs]; exact fun h => by cases h) he p hav
      unfold City.enter at this
      simp only [hx, hopen] at this
      by_cases hc : x.capacity < [i, i].length + x.occupancy
      · simp only [List.length_cons, List.length_nil] at hc
        omega
      · exfalso
        rw [if_neg (by simpa using hc)] at this
        exact this _ rfl
    · unfold City.available at hav
      rw [List.mem_filter] at hav
      have hp : p ∈ List.range c.pubs.length := List.mem_range.2 (List.getElem?_eq_some_iff.1 hx).1
      simp only [hx, hopen, Bool.true_and, decide_eq_true_eq, not_and] at hav
      have := hav hp
      omega
  · exfalso
    rw [h2, City.goto_get, if_pos rfl] at hq'
    obtain ⟨q0, -, h0⟩ := Option.map_eq_some_iff.1 hq'
    rw [← h0] at hs'
    cases hs'

/-- C239: nobody waits outside while there is room: if a patron looked for a pub before and after a step, then after the step every pub has
as many patrons as it ever will. -/
theorem C239_room (N : CrawlNet) (caps : List Nat) (ps : List (Rat × Nat)) (iv : Rat) (hiv : 0 < iv) (sh : Bool) (k i : Nat) (q q' : Patron)
    (hq : (crawlCity N caps ps iv sh k).patrons[i]? = some q) (hs : q.state = .seekPub)
    (hq' : (crawlCity N caps ps iv sh (k + 1)).patrons[i]? = some q') (hs' : q'.state = .seekPub) (j : Nat) (hj : k + 1 ≤ j) :
    (∀ (p c : Nat), caps[p]? = some c → (crawlCity N caps ps iv sh j).inside p = c / 2) ∧
      (crawlCity N caps ps iv sh j).been = (caps.map (· / 2)).sum := by
  have hi : i < ps.length := by
    rw [← crawl_length N caps ps iv hiv sh k]
    exact (List.getElem?_eq_some_iff.1 hq).1
  obtain ⟨order, w1, h1, -, h3, h4⟩ := crawl_round N caps ps iv hiv sh k
  obtain ⟨es, hes⟩ : ∃ es, crawlCity N caps ps iv sh j = (crawlCity N caps ps iv sh (k + 1)).run es := by
    have : ∀ d, ∃ es, crawlCity N caps ps iv sh (k + 1 + d) = (crawlCity N caps ps iv sh (k + 1)).run es := by
      intro d
      induction d with
      | zero => exact ⟨[], rfl⟩
      | succ d ih =>
        obtain ⟨es, hes⟩ := ih
        obtain ⟨order, w1, -, -, h3, h4⟩ := crawl_round N caps ps iv hiv sh (k + 1 + d)
        obtain ⟨h', hh'⟩ := crawlActs_run N order w1
        exact ⟨es ++ h', by rw [← Nat.add_assoc, h4, hh', h3, hes, City.run_append]⟩
    obtain ⟨es, h⟩ := this (j - (k + 1))
    have e : k + 1 + (j - (k + 1)) = j := by omega
    rw [e] at h
    exact ⟨es, h⟩
  have hl := crawl_loops N caps ps iv hiv sh k
  have hst := crawl_static N caps ps iv hiv sh k
  rw [← h3] at hl hq hst
  have hn : order.Nodup := h1.nodup_iff.2 List.nodup_range
  have hmem : i + 1 ∈ order := h1.mem_iff.2 (List.mem_range.2 (by omega))
  obtain ⟨a, b, hab⟩ := List.append_of_mem hmem
  rw [hab] at hn h4
  have hn' := List.nodup_append.1 hn
  obtain ⟨hb1, hb2⟩ := List.nodup_cons.1 hn'.2.1
  have ha : i + 1 ∉ a := fun hm => hn'.2.2 _ hm _ (List.mem_cons_self ..) rfl
  rw [List.foldl_append, List.foldl_cons] at h4
  have ea := crawlActs_other N i a hn'.1 ha w1 hl
  have hla : (a.foldl (fun w r => crawlAct N r w) w1).city.Loops := Loops.acts a hl
  obtain ⟨ra, hra⟩ := crawlActs_run N a w1
  generalize a.foldl (fun w r => crawlAct N r w) w1 = w2 at ea hla h4 hra
  rw [h4, crawlActs_other N i b hb2 hb1 _ (Loops.act hla (i + 1))] at hq'
  obtain ⟨rb, hrb⟩ := crawlActs_run N b (crawlAct N (i + 1) w2)
  -- the patron before and after its turn
  obtain ⟨q2, hq2, hs2⟩ : ∃ q2, w2.city.patrons[i]? = some q2 ∧ q2.state = .seekPub := by
    rw [hq] at ea
    split at ea
    · exact ⟨_, ea, by rw [Patron.check_state, hs]⟩
    · exact ⟨_, ea, hs⟩
  obtain ⟨q3, hq3, hs3⟩ : ∃ q3, (crawlAct N (i + 1) w2).city.patrons[i]? = some q3 ∧ q3.state = .seekPub := by
    split at hq'
    · obtain ⟨x, hx, rfl⟩ := Option.map_eq_some_iff.1 hq'
      exact ⟨x, hx, by rw [← Patron.check_state, hs']⟩
    · exact ⟨_, hq', hs'⟩
  have hfull : ∀ (p c : Nat), caps[p]? = some c → c / 2 ≤ (crawlCity N caps ps iv sh j).inside p := by
    intro p c hc
    have hst2 : w2.city.pubs.map (fun x => (x.isOpen, x.capacity)) = caps.map (fun c => (true, c)) := by rw [hra, City.run_static, hst]
    have hx := congrArg (fun l => l[p]?) hst2
    simp only [List.getElem?_map, hc, Option.map_some] at hx
    obtain ⟨x, hx, hx2⟩ := Option.map_eq_some_iff.1 hx
    have hcap := hla.seek_full i q2 hq2 hs2 _ _ q3 hq3 hs3 p x hx (congrArg Prod.fst hx2)
    have hc2 : x.capacity = c := congrArg Prod.snd hx2
    obtain ⟨y, hy, hxy, -⟩ := C124_stays_full_false w2.city (.patron i (N.shuf w2.used) (N.draw w2.used) :: (rb ++ es)) p x hx
    have hend : w2.city.run (.patron i (N.shuf w2.used) (N.draw w2.used) :: (rb ++ es)) = crawlCity N caps ps iv sh j := by
      rw [hes, h4, hrb, ← City.run_append]
      rfl
    rw [hend] at hy
    have := (crawl_loops N caps ps iv hiv sh j).occ p y hy
    omega
  refine ⟨fun p c hc => ?_, ?_⟩
  · obtain ⟨x, -, -, -, e1, e2⟩ := crawl_pub N caps ps iv hiv sh j p c hc
    have := hfull p c hc
    omega
  · refine le_antisymm (C239_places_false N caps ps iv hiv sh j) ?_
    rw [crawl_been_sum N caps ps iv hiv sh j]
    exact sum_range_ge _ _ hfull


/-! ### C239: open patrons -/

/-- Everybody is open to everybody. -/
def City.Open (c : City) : Prop := ∀ (i : Nat) (q : Patron), c.patrons[i]? = some q → 1 ≤ q.openness

theorem City.Open.run {c : City} (h : c.Open) (es : List PubEv) : (c.run es).Open := by
  intro i q hq
  obtain ⟨hl, hn⟩ := City.Next.run c es
  have hi : i < c.patrons.length := by rw [← hl]; exact (List.getElem?_eq_some_iff.1 hq).1
  obtain ⟨q', hq', hn'⟩ := hn i _ (List.getElem?_eq_getElem hi)
  rw [hq] at hq'
  cases hq'
  rw [hn'.open_]
  exact h i _ (List.getElem?_eq_getElem hi)

theorem City.tryLoop_true (i : Nat) (d : Nat → Rat) (hd : ∀ j, d j < 1) (js : List Nat) (c : City) (ho : c.Open) (x : Nat) (hx : x ∈ js) (hxi : x ≠ i)
    (hlt : x < c.patrons.length) : (City.tryLoop i d js c).2 = true := by
  induction js with
  | nil => cases hx
  | cons j js ih =>
    unfold City.tryLoop
    by_cases hj : j = i
    · rw [if_pos hj]
      rcases List.mem_cons.1 hx with h | h
      · exact absurd (h.trans hj) hxi
      · exact ih h
    · rw [if_neg hj]
      cases hq : c.patrons[j]? with
      | none =>
        have e : c.befriend j i false (d j) = (c, false) := by simp only [City.befriend, hq]
        rw [e]
        simp only [Bool.false_eq_true, if_false]
        rcases List.mem_cons.1 hx with h | h
        · rw [← h, List.getElem?_eq_getElem hlt] at hq; cases hq
        · exact ih h
      | some q =>
        have e : (c.befriend j i false (d j)).2 = true := by
          simp only [City.befriend, hq]
          rw [if_pos]
          simp only [Bool.false_or, decide_eq_true_eq]
          exact lt_of_lt_of_le (hd j) (ho j q hq)
        simp only [e, if_true]

theorem mem_take_of_two {l : List Nat} {i j n : Nat} (hn : l.Nodup) (hi : i ∈ l) (hj : j ∈ l) (hij : j ≠ i) (h2 : 2 ≤ n) :
    ∃ x ∈ l.take n, x ≠ i := by
  match l, n, h2 with
  | [], _, _ => cases hi
  | [a], _, _ =>
    simp only [List.mem_singleton] at hi hj
    exact absurd (hj.trans hi.symm) hij
  | a :: b :: l, n + 2, _ =>
    by_cases ha : a = i
    · refine ⟨b, by simp, ?_⟩
      intro hb
      have := (List.nodup_cons.1 hn).1
      exact this (by rw [ha, ← hb]; exact List.mem_cons_self ..)
    · exact ⟨a, by simp, ha⟩

/-- An open patron who is not the last one to look for friends finds some. -/
theorem City.Loops.willing {c : City} (h : c.Loops) (ho : c.Open) {i j : Nat} (hij : j ≠ i) {q q' : Patron} (hq : c.patrons[i]? = some q)
    (hs : q.state = .friends) (hq' : c.patrons[j]? = some q') (hs' : q'.state = .friends) (sh : List Nat → List Nat) (hsh : ∀ l, (sh l).Perm l)
    (d : Nat → Rat) (hd : ∀ j, d j < 1) :
    ∃ x, (c.patronStep i sh d).patrons[i]? = some x ∧ x.state = .seekPub := by
  have hmem : ∀ (i : Nat) (q : Patron), c.patrons[i]? = some q → q.state = .friends → i ∈ c.lookingForFriends := by
    intro i q hq hs
    unfold City.lookingForFriends
    rw [List.mem_filter]
    exact ⟨List.mem_range.2 (List.getElem?_eq_some_iff.1 hq).1, by simp [hq, hs, (h.life i q hq).1 hs]⟩
  have hi := hmem i q hq hs
  have hj := hmem j q' hq' hs'
  have hne : c.lookingForFriends.isEmpty = false := by
    cases hl : c.lookingForFriends with
    | nil => rw [hl] at hi; cases hi
    | cons => rfl
  have hnd : (sh c.lookingForFriends).Nodup := (hsh _).nodup_iff.2 (List.nodup_range.filter _)
  have h10 : 2 ≤ (10 * q.openness).floor.toNat := by
    have h1 : (10 : Rat) ≤ 10 * q.openness := by have := ho i q hq; linarith
    have h2 : (10 : Int) ≤ (10 * q.openness).floor := Rat.le_floor_iff.2 (by exact_mod_cast h1)
    omega
  obtain ⟨x, hx, hxi⟩ := mem_take_of_two hnd ((hsh _).mem_iff.2 hi) ((hsh _).mem_iff.2 hj) hij h10
  have hxl : x < c.patrons.length := by
    have := (hsh _).mem_iff.1 (List.mem_of_mem_take hx)
    unfold City.lookingForFriends at this
    exact List.mem_range.1 (List.mem_filter.1 this).1
  have ht := City.tryLoop_true i d hd _ c ho x hx hxi hxl
  obtain ⟨-, h2, -⟩ := City.tryLoop_spec i d ((sh c.lookingForFriends).take (10 * q.openness).floor.toNat) c
  refine ⟨{ q with state := .seekPub }, ?_, rfl⟩
  unfold City.patronStep
  simp only [hq, hs, hne, Bool.false_eq_true, if_false, ht, if_true]
  rw [City.goto_get, if_pos rfl, h2, hq]
  rfl

theorem Patron.Next.friends {q q' : Patron} (h : Patron.Next q q') (hs : q'.state = .friends) : q.state = .friends := by
  have hr := h.rank
  rw [hs] at hr
  cases h : q.state with
  | friends => rfl
  | _ => rw [h] at hr; simp [PState.rank] at hr

theorem Patron.Next.been {q q' : Patron} (h : Patron.Next q q') (hb : q.Been) : q'.Been := by
  have hr := h.rank
  have h2 : 2 ≤ q.state.rank := by rcases hb with h | h | h <;> rw [h] <;> decide
  unfold Patron.Been
  cases h : q'.state with
  | friends => rw [h] at hr; have : PState.rank .friends = 0 := rfl; omega
  | seekPub => rw [h] at hr; have : PState.rank .seekPub = 1 := rfl; omega
  | sober => simp
  | drunkInPub => simp
  | home => simp

/-- The patrons of a later city. -/
theorem City.Next.back {c c' : City} (h : City.Next c c') {i : Nat} {q' : Patron} (hq' : c'.patrons[i]? = some q') :
    ∃ q, c.patrons[i]? = some q ∧ Patron.Next q q' := by
  have hi : i < c.patrons.length := by rw [← h.1]; exact (List.getElem?_eq_some_iff.1 hq').1
  obtain ⟨x, hx, hn⟩ := h.2 i _ (List.getElem?_eq_getElem hi)
  rw [hq'] at hx
  cases hx
  exact ⟨_, List.getElem?_eq_getElem hi, hn⟩

/-- If everybody is open, then after any step only one patron is looking for friends. -/
theorem crawl_one_friend (N : CrawlNet) (hdraw : ∀ u j, N.draw u j < 1) (caps : List Nat) (ps : List (Rat × Nat)) (hopen : ∀ p ∈ ps, 1 ≤ p.1) (iv : Rat)
    (hiv : 0 < iv) (sh : Bool) (k i j : Nat) (q q' : Patron) (hq : (crawlCity N caps ps iv sh (k + 1)).patrons[i]? = some q) (hs : q.state = .friends)
    (hq' : (crawlCity N caps ps iv sh (k + 1)).patrons[j]? = some q') (hs' : q'.state = .friends) : j = i := by
  by_contra hij
  have hi : i < ps.length := by
    rw [← crawl_length N caps ps iv hiv sh (k + 1)]
    exact (List.getElem?_eq_some_iff.1 hq).1
  obtain ⟨order, w1, h1, -, h3, h4⟩ := crawl_round N caps ps iv hiv sh k
  have hl := crawl_loops N caps ps iv hiv sh k
  have ho : (crawlCity N caps ps iv sh k).Open := by
    obtain ⟨h, hh⟩ := crawl_run N caps ps iv hiv sh k
    rw [hh]
    refine City.Open.run ?_ h
    intro i q hq
    simp only [City.init, List.getElem?_map, Option.map_eq_some_iff] at hq
    obtain ⟨x, hx, rfl⟩ := hq
    exact hopen x (List.mem_of_getElem? hx)
  rw [← h3] at hl ho
  have hmem : i + 1 ∈ order := h1.mem_iff.2 (List.mem_range.2 (by omega))
  obtain ⟨a, b, hab⟩ := List.append_of_mem hmem
  rw [hab, List.foldl_append, List.foldl_cons] at h4
  have hla : (a.foldl (fun w r => crawlAct N r w) w1).city.Loops := Loops.acts a hl
  obtain ⟨ra, hra⟩ := crawlActs_run N a w1
  generalize a.foldl (fun w r => crawlAct N r w) w1 = w2 at hla h4 hra
  have ho2 : w2.city.Open := by rw [hra]; exact ho.run ra
  obtain ⟨rb, hrb⟩ := crawlActs_run N b (crawlAct N (i + 1) w2)
  rw [h4, hrb] at hq hq'
  have hnb := City.Next.run (crawlAct N (i + 1) w2).city rb
  have hni : City.Next w2.city (crawlAct N (i + 1) w2).city := City.Next.ev w2.city (.patron i _ _)
  obtain ⟨x, hx, hxn⟩ := (hni.trans hnb).back hq
  obtain ⟨y, hy, hyn⟩ := (hni.trans hnb).back hq'
  obtain ⟨z, hz, hzs⟩ := hla.willing ho2 hij hx (hxn.friends hs) hy (hyn.friends hs') _ (N.shuf_perm w2.used) _ (hdraw w2.used)
  obtain ⟨z', hz', hzn⟩ := hnb.2 i z hz
  rw [hq] at hz'
  cases hz'
  rw [hzn.friends hs] at hzs
  cases hzs

theorem countP_one {α : Type} (P : α → Bool) (l : List α) (h1 : ∃ (i : Nat) (a : α), l[i]? = some a ∧ P a = true)
    (h2 : ∀ (i j : Nat) (a b : α), l[i]? = some a → l[j]? = some b → P a = true → P b = true → j = i) : l.countP P = 1 := by
  induction l with
  | nil => obtain ⟨i, a, h, -⟩ := h1; simp at h
  | cons x l ih =>
    rw [List.countP_cons]
    by_cases hx : P x = true
    · rw [if_pos hx]
      have : l.countP P = 0 := by
        rw [List.countP_eq_zero]
        intro y hy hPy
        obtain ⟨j, hj⟩ := List.getElem?_of_mem hy
        have := h2 0 (j + 1) x y rfl (by simpa using hj) hx hPy
        omega
      omega
    · rw [if_neg hx, Nat.add_zero]
      refine ih ?_ ?_
      · obtain ⟨i, a, h, ha⟩ := h1
        cases i with
        | zero => simp only [List.getElem?_cons_zero, Option.some.injEq] at h; rw [h] at hx; exact absurd ha hx
        | succ i => exact ⟨i, a, by simpa using h, ha⟩
      · intro i j a b ha hb hPa hPb
        have := h2 (i + 1) (j + 1) a b (by simpa using ha) (by simpa using hb) hPa hPb
        omega

theorem countP_le_get {α : Type} (P Q : α → Bool) (l l' : List α) (hlen : l'.length = l.length)
    (h : ∀ (i : Nat) (a b : α), l[i]? = some a → l'[i]? = some b → P a = true → Q b = true) : l.countP P ≤ l'.countP Q := by
  induction l generalizing l' with
  | nil => simp
  | cons x l ih =>
    cases l' with
    | nil => simp at hlen
    | cons y l' =>
      rw [List.countP_cons, List.countP_cons]
      have h0 := h 0 x y rfl rfl
      have := ih l' (by simpa using hlen) (fun i a b ha hb => h (i + 1) a b (by simpa using ha) (by simpa using hb))
      split <;> split <;> simp_all <;> omega

/-- Everybody is looking for friends, or for a pub, or has been in one. -/
theorem City.counts (c : City) : c.count .friends + c.count .seekPub + c.been = c.patrons.length := by
  unfold City.count City.been
  induction c.patrons with
  | nil => rfl
  | cons q l ih =>
    rw [List.countP_cons, List.countP_cons, List.countP_cons, List.length_cons, ← ih]
    have : (if decide (q.state = .friends) = true then 1 else 0) + (if decide (q.state = .seekPub) = true then 1 else 0) +
        (if decide q.Been = true then 1 else 0) = 1 := by
      cases h : q.state <;> simp [Patron.Been, h]
    omega

/-- How the evening goes if everybody is open (`openness` at least 1, so that nobody refuses) and has at most `M` pints: a simulation of at
least `M + 6` steps ends with one patron looking for friends, and as many at home as there was room for (half of the capacity of the pubs); the
others are still looking for a pub. -/
theorem C239_open (N : CrawlNet) (hdraw : ∀ u j, N.draw u j < 1) (caps : List Nat) (ps : List (Rat × Nat)) (hps : ps ≠ []) (hopen : ∀ p ∈ ps, 1 ≤ p.1)
    (M : Nat) (hM : ∀ p ∈ ps, p.2 ≤ M) (iv : Rat) (hiv : 0 < iv) (sh : Bool) (k fuel : Nat) (hk : M + 6 ≤ k) (hf : k ≤ fuel) :
    ∃ x, runModel (timedStepper (crawlHost N)) none (some k) fuel (crawlStart caps ps iv sh) = .done x ∧
      x.2.city.count .friends = 1 ∧ x.2.city.count .home = min (ps.length - 1) (caps.map (· / 2)).sum ∧
      x.2.city.count .seekPub = ps.length - 1 - (caps.map (· / 2)).sum ∧ x.2.city.count .sober = 0 ∧ x.2.city.count .drunkInPub = 0 := by
  refine ⟨crawlRun N caps ps iv sh k, (C230_ends_partial (crawlHost N) (ps.length + 1) (Nat.succ_pos _) iv hiv _ _ (crawl_mesa N (ps.length + 1) iv) sh
    ⟨City.init caps ps [], 0⟩ trivial fuel k hf).1, ?_⟩
  have hone : ∀ j, 1 ≤ j → (crawlCity N caps ps iv sh j).count .friends = 1 := by
    intro j hj
    obtain ⟨j, rfl⟩ : ∃ j', j = j' + 1 := ⟨j - 1, by omega⟩
    refine countP_one _ _ ?_ ?_
    · obtain ⟨i, q, hq, hs⟩ := crawl_lonely N caps ps hps iv hiv sh (j + 1)
      exact ⟨i, q, hq, by simp [hs]⟩
    · intro a b qa qb ha hb hPa hPb
      exact crawl_one_friend N hdraw caps ps hopen iv hiv sh j a b qa qb ha (by simpa using hPa) hb (by simpa using hPb)
  have hsum : ∀ j, 1 ≤ j → (crawlCity N caps ps iv sh j).count .seekPub + (crawlCity N caps ps iv sh j).been + 1 = ps.length := by
    intro j hj
    have h1 := (crawlCity N caps ps iv sh j).counts
    rw [crawl_length N caps ps iv hiv sh j, hone j hj] at h1
    omega
  -- everybody who looks for a pub after the first step finds one in the second, if there is room
  have hbeen2 : (crawlCity N caps ps iv sh 2).been = min (ps.length - 1) (caps.map (· / 2)).sum := by
    have hle := C239_places_false N caps ps iv hiv sh 2
    have hs2 := hsum 2 (by omega)
    by_cases hw : ∃ (i : Nat) (q q' : Patron), (crawlCity N caps ps iv sh 1).patrons[i]? = some q ∧ q.state = .seekPub ∧
        (crawlCity N caps ps iv sh 2).patrons[i]? = some q' ∧ q'.state = .seekPub
    · obtain ⟨i, q, q', w1, w2, w3, w4⟩ := hw
      have := (C239_room N caps ps iv hiv sh 1 i q q' w1 w2 w3 w4 2 (by omega)).2
      omega
    · have hseek : (crawlCity N caps ps iv sh 2).count .seekPub = 0 := by
        unfold City.count
        rw [List.countP_eq_zero]
        intro q' hq' hs'
        rw [decide_eq_true_eq] at hs'
        obtain ⟨i, hi⟩ := List.getElem?_of_mem hq'
        have hlt : i < (crawlCity N caps ps iv sh 1).patrons.length := by
          rw [crawl_length N caps ps iv hiv sh 1, ← crawl_length N caps ps iv hiv sh 2]
          exact (List.getElem?_eq_some_iff.1 hi).1
        have hq := List.getElem?_eq_getElem hlt
        obtain ⟨x, hx, hn⟩ := crawl_rank N caps ps iv hiv sh 1 1 i _ hq
        rw [hi] at hx
        cases hx
        have hr := hn.rank
        rw [hs'] at hr
        cases hs : (crawlCity N caps ps iv sh 1).patrons[i].state with
        | friends =>
          -- the one who looked for friends still does
          obtain ⟨a, qa, ha, hsa⟩ := crawl_lonely N caps ps hps iv hiv sh 2
          have hlta : a < (crawlCity N caps ps iv sh 1).patrons.length := by
            rw [crawl_length N caps ps iv hiv sh 1, ← crawl_length N caps ps iv hiv sh 2]
            exact (List.getElem?_eq_some_iff.1 ha).1
          have hqa := List.getElem?_eq_getElem hlta
          obtain ⟨y, hy, hna⟩ := crawl_rank N caps ps iv hiv sh 1 1 a _ hqa
          rw [ha] at hy
          cases hy
          have := crawl_one_friend N hdraw caps ps hopen iv hiv sh 0 i a _ _ hq hs hqa (hna.friends hsa)
          subst this
          rw [ha] at hi
          cases hi
          rw [hsa] at hs'
          cases hs'
        | seekPub => exact hw ⟨i, _, q', hq, hs, hi, hs'⟩
        | sober => rw [hs] at hr; simp [PState.rank] at hr
        | drunkInPub => rw [hs] at hr; simp [PState.rank] at hr
        | home => rw [hs] at hr; simp [PState.rank] at hr
      omega
  have hlenk := crawl_length N caps ps iv hiv sh k
  have hhome : (crawlCity N caps ps iv sh 2).been ≤ (crawlCity N caps ps iv sh k).count .home := by
    refine countP_le_get _ _ _ _ (hlenk.trans (crawl_length N caps ps iv hiv sh 2).symm) ?_
    intro i a b ha hb hPa
    rw [decide_eq_true_eq] at hPa ⊢
    obtain ⟨-, p, hp, hmax⟩ := crawl_life N caps ps iv hiv sh 2 i a ha
    have := hM p (List.mem_of_getElem? hp)
    obtain ⟨q', h1, h2⟩ := crawl_been_home N caps ps iv hiv sh 2 i a ha hPa (k - 2) (by omega)
    have e : 2 + (k - 2) = k := by omega
    rw [e, hb] at h1
    cases h1
    exact h2
  have hsk := hsum k (by omega)
  have hlek := C239_places_false N caps ps iv hiv sh k
  have hsplit : (crawlCity N caps ps iv sh k).been = (crawlCity N caps ps iv sh k).count .sober + (crawlCity N caps ps iv sh k).count .drunkInPub +
      (crawlCity N caps ps iv sh k).count .home := by
    unfold City.count City.been
    induction (crawlCity N caps ps iv sh k).patrons with
    | nil => rfl
    | cons q l ih =>
      rw [List.countP_cons, List.countP_cons, List.countP_cons, List.countP_cons, ih]
      have : (if decide q.Been = true then 1 else 0) = (if decide (q.state = .sober) = true then 1 else 0) +
          (if decide (q.state = .drunkInPub) = true then 1 else 0) + (if decide (q.state = .home) = true then 1 else 0) := by
        cases h : q.state <;> simp [Patron.Been, h]
      omega
  have hfriends : (crawlCity N caps ps iv sh k).count .friends = 1 := hone k (by omega)
  show (crawlCity N caps ps iv sh k).count .friends = 1 ∧ (crawlCity N caps ps iv sh k).count .home = _ ∧ (crawlCity N caps ps iv sh k).count .seekPub = _ ∧
    (crawlCity N caps ps iv sh k).count .sober = 0 ∧ (crawlCity N caps ps iv sh k).count .drunkInPub = 0
  refine ⟨hfriends, ?_, ?_, ?_, ?_⟩ <;> omega

/-! ### Examples -/

/-- Lists are reversed, everybody draws 1/2. -/
def exCrawlNet : CrawlNet where
  shuf _ l := l.reverse
  shuf_perm _ l := List.reverse_perm l
  draw _ _ := 1 / 2
  order _ l := l.reverse
  order_perm _ l := List.reverse_perm l

set_option maxRecDepth 100000 in
/-- Five open patrons with at most one pint, a pub for four and one for three: after seven steps three are at home, one still looks for a pub and
one for friends. -/
example : (crawlCity exCrawlNet [4, 3] [(1, 1), (1, 1), (1, 0), (1, 1), (1, 1)] 1 true 7).patrons.map (·.state) =
      [.friends, .home, .home, .home, .seekPub] ∧
    (crawlCity exCrawlNet [4, 3] [(1, 1), (1, 1), (1, 0), (1, 1), (1, 1)] 1 true 7).pubs = [⟨true, 4, 4⟩, ⟨true, 3, 2⟩] := by
  decide +kernel

set_option maxRecDepth 100000 in
/-- The turn in which the police comes matters: the patron without pints needs two steps to get home once drunk if the police is first; otherwise one more. -/
example : (crawlCity exCrawlNet [4, 3] [(1, 1), (1, 1), (1, 0), (1, 1), (1, 1)] 1 true 5).patrons.map (·.state) =
      [.friends, .drunkInPub, .drunkInPub, .drunkInPub, .seekPub] ∧
    (crawlCity exCrawlNet [4, 3] [(1, 1), (1, 1), (1, 0), (1, 1), (1, 1)] 1 false 5).patrons.map (·.state) =
      [.drunkInPub, .drunkInPub, .home, .seekPub, .friends] := by
  decide +kernel

end Verif
