import Verif.Props.BuiltinRun
import Verif.Props.PRounds

/-!
# C233, C234: the SISa and independent cascade models with `PQueueActivation`
-/

namespace Verif

/-- The simulation of `n` agents with `PQueueActivation`, after `k` steps. -/
def popRunP (keys : Nat → Rat) (turn : Time → List Ref → Ref → Pop → Reply × Pop) (n : Nat) (iv : Rat) (loop : Nat) (p : Pop) (k : Nat) : PSched × Pop :=
  iterStep (pqStepper (popPHost keys turn) loop) k (roundsPStart (popPHost keys turn) n iv p)

/-- Turns one after the other; in between the generator may be used for something else. -/
def PopTurns (turn : Time → List Ref → Ref → Pop → Reply × Pop) (now : Time) (as : List Ref) : List Ref → Pop → Pop → Prop
  | [], p, p' => p'.state = p.state ∧ p'.since = p.since
  | r :: l, p, p' => ∃ u, PopTurns turn now as l (turn now as r { p with used := u }).2 p'

/-- Every step consists of one turn of each agent, in some order. -/
def PopRounds (turn : Time → List Ref → Ref → Pop → Reply × Pop) (n : Nat) (iv : Rat) (x : Nat → Pop) : Prop :=
  ∀ k : Nat, ∃ order : List Ref, order.Perm (List.range n) ∧ PopTurns turn (.fin (k * iv)) (List.range n) order (x k) (x (k + 1))

theorem popTurns_fold (keys : Nat → Rat) (turn : Time → List Ref → Ref → Pop → Reply × Pop) (iv t : Rat) (k : Nat) (as l : List Ref) (p : Pop) :
    PopTurns turn (.fin (t * iv)) as l p (l.foldl (turnWith (popPHost keys turn) (fun r t _ as p => (turn (.fin (t * iv)) as r p).2) t k as) p) := by
  induction l generalizing p with
  | nil => exact ⟨rfl, rfl⟩
  | cons r l ih =>
    refine ⟨p.used, ?_⟩
    have h := ih (turnWith (popPHost keys turn) (fun r t _ as p => (turn (.fin (t * iv)) as r p).2) t k as p r)
    cases l with
    | nil => exact ⟨rfl, rfl⟩
    | cons a l => exact h

theorem popP_rounds {keys : Nat → Rat} {turn : Time → List Ref → Ref → Pop → Reply × Pop} {n : Nat} (hn : 0 < n) {iv : Rat} (hiv : 0 < iv) {I : Pop → Prop}
    (hH : MesaPHost (popPHost keys turn) n iv (fun r t _ as p => (turn (.fin (t * iv)) as r p).2) I) (loop : Nat) (hl : n ≤ loop) (p : Pop) (hp : I p) :
    PopRounds turn n iv (fun k => (popRunP keys turn n iv loop p k).2) := by
  intro k
  obtain ⟨-, -, -, -, order, h1, h2, -⟩ := C230_pqueue_partial _ n hn iv hiv _ _ hH loop hl p hp k
  refine ⟨order, h1, ?_⟩
  have : (popRunP keys turn n iv loop p (k + 1)).2 = _ := h2
  simp only [this]
  exact popTurns_fold keys turn iv k k (List.range n) order _

theorem popP_start (keys : Nat → Rat) (turn : Time → List Ref → Ref → Pop → Reply × Pop) (n : Nat) (iv : Rat) (loop : Nat) (p : Pop) :
    (popRunP keys turn n iv loop p 0).2.state = p.state ∧ (popRunP keys turn n iv loop p 0).2.since = p.since := by
  obtain ⟨s0, w1, e0, -, hw1, -⟩ := prounds_start (popPHost keys turn) (fun _ => True) (fun _ _ _ => trivial) n iv p trivial
  have : (popRunP keys turn n iv loop p 0).2 = w1 := by simp [popRunP, iterStep, roundsPStart, e0]
  rw [this, hw1]
  have : ∀ (l : List Ref) (w : Pop), (l.foldl (fun w r => ((popPHost keys turn).key r w).2) w).state = w.state ∧
      (l.foldl (fun w r => ((popPHost keys turn).key r w).2) w).since = w.since := by
    intro l
    induction l with
    | nil => exact fun _ => ⟨rfl, rfl⟩
    | cons r l ih => exact fun w => ih _
  exact this _ _

theorem sisa_mesaP (keys : Nat → Rat) (N : PopNet) (q : Ref → SisaParams) (n : Nat) (iv : Rat) (I : (Ref → StateDef) → Prop)
    (hI : ∀ r now as (p : Pop), p.Sisa → I p.state → I (sisaTurn N q now as r p).2.state) :
    MesaPHost (popPHost keys (sisaTurn N q)) n iv (fun r t _ as p => (sisaTurn N q (.fin (t * iv)) as r p).2) (fun p => p.Sisa ∧ I p.state) where
  step r _ s p t h ht := by
    simp only [popPHost, ht]
    rw [(sisaTurn_spec N q _ s.agents r p h.1).1]
  inv r _ t k as p h := ⟨(sisaTurn_spec N q _ as r p h.1).2.2.2, hI r _ as p h.1 h.2⟩
  key r p h := h

theorem cascade_mesaP (keys : Nat → Rat) (N : PopNet) (hd : N.Draws) (a b : Rat) (n : Nat) (iv : Rat) :
    MesaPHost (popPHost keys (cascadeTurn N a b)) n iv (fun r t _ as p => (cascadeTurn N a b (.fin (t * iv)) as r p).2) Pop.Casc where
  step r _ s p t h ht := by
    simp only [popPHost, ht]
    rw [(cascadeTurn_spec N hd a b _ s.agents r p h).1]
  inv r _ t k as p h := cascadeTurn_casc N hd a b _ as r p h
  key r p h := h

/-- Discontent only shrinks in a round. -/
theorem sisa_turns_back (N : PopNet) (hd : N.Draws) (q : Ref → SisaParams) (hq : ∀ r, (q r).neutralDiscontentSpon ≤ 0) (now : Time) (as l : List Ref) (p p' : Pop) (hs : p.Sisa)
    (h : PopTurns (sisaTurn N q) now as l p p') (r : Ref) (hr : p'.state r = sDiscontent) : p.state r = sDiscontent := by
  induction l generalizing p with
  | nil => rw [← h.1]; exact hr
  | cons a l ih =>
    obtain ⟨u, h⟩ := h
    have hs' : Pop.Sisa { p with used := u } := hs
    exact sisa_discontent_back N hd q hq now as a { p with used := u } hs' r (ih _ (sisaTurn_spec N q now as a _ hs').2.2.2 h)

theorem turns_sisa (N : PopNet) (q : Ref → SisaParams) (now : Time) (as l : List Ref) (p p' : Pop) (hs : p.Sisa) (h : PopTurns (sisaTurn N q) now as l p p') : p'.Sisa := by
  induction l generalizing p with
  | nil => intro r; rw [h.1]; exact hs r
  | cons a l ih =>
    obtain ⟨u, h⟩ := h
    exact ih _ (sisaTurn_spec N q now as a { p with used := u } hs).2.2.2 h

/-- Contentment stays in a round, and reaches everybody with a content neighbour. -/
theorem sisa_turns_front (N : PopNet) (hd : N.Draws) (q : Ref → SisaParams)
    (h1 : ∀ r, (q r).neutralDiscontentSpon ≤ 0) (h2 : ∀ r, 1 ≤ (q r).neutralContentInf) (h3 : ∀ r, (q r).discontentNeutral ≤ 0)
    (h4 : ∀ r, 1 ≤ (q r).discontentContent) (h5 : ∀ r, (q r).contentNeutral ≤ 0) (now : Time) (as l : List Ref) (p p' : Pop) (hs : p.Sisa)
    (h : PopTurns (sisaTurn N q) now as l p p') :
    (∀ r, p.state r = sContent → p'.state r = sContent) ∧ ∀ r ∈ l, ∀ b ∈ as, b ∈ N.adj r → p.state b = sContent → p'.state r = sContent := by
  induction l generalizing p with
  | nil => exact ⟨fun r hr => by rw [h.1]; exact hr, fun r hr => absurd hr (by simp)⟩
  | cons a l ih =>
    obtain ⟨u, h⟩ := h
    have hs' : Pop.Sisa { p with used := u } := hs
    obtain ⟨t1, t2⟩ := sisa_content_turn N hd q h1 h2 h3 h4 h5 now as a { p with used := u } hs'
    obtain ⟨i1, i2⟩ := ih _ (sisaTurn_spec N q now as a _ hs').2.2.2 h
    refine ⟨fun r hr => i1 r (t1 r hr), fun r hr b hb hadj hc => ?_⟩
    rcases List.mem_cons.1 hr with rfl | hr
    · exact i1 r (t2 b hb hadj hc)
    · exact i2 r hr b hb hadj (t1 b hc)

/-- Spec: how far contentment has come, for a sequence of populations `x`: whoever is at most `k` edges away from somebody content at the beginning is content after `k` steps. -/
def ContentFront (N : PopNet) (n : Nat) (p : Pop) (x : Nat → Pop) : Prop :=
  ∀ (a b : Ref) (m k : Nat), p.state a = sContent → Path N n m a b → m ≤ k → (x k).state b = sContent

theorem sisa_rounds_front (N : PopNet) (hd : N.Draws) (q : Ref → SisaParams)
    (h1 : ∀ r, (q r).neutralDiscontentSpon ≤ 0) (h2 : ∀ r, 1 ≤ (q r).neutralContentInf) (h3 : ∀ r, (q r).discontentNeutral ≤ 0)
    (h4 : ∀ r, 1 ≤ (q r).discontentContent) (h5 : ∀ r, (q r).contentNeutral ≤ 0) (n : Nat) (iv : Rat) (p : Pop) (hp : p.Sisa) (x : Nat → Pop) (h0 : (x 0).state = p.state)
    (hx : PopRounds (sisaTurn N q) n iv x) : ContentFront N n p x := by
  have hs : ∀ k, (x k).Sisa := by
    intro k
    induction k with
    | zero => intro r; rw [h0]; exact hp r
    | succ k ih =>
      obtain ⟨order, -, h⟩ := hx k
      exact turns_sisa N q _ _ order _ _ ih h
  intro a b m k ha hpath hk
  have later : ∀ k r, (x k).state r = sContent → (x (k + 1)).state r = sContent := by
    intro k r h
    obtain ⟨order, -, ht⟩ := hx k
    exact (sisa_turns_front N hd q h1 h2 h3 h4 h5 _ _ order _ _ (hs k) ht).1 r h
  have main : (x m).state b = sContent := by
    clear hk
    induction hpath with
    | here a _ => rw [h0]; exact ha
    | @edge m a b c hab hbc hc ih =>
      obtain ⟨order, ho, ht⟩ := hx m
      exact (sisa_turns_front N hd q h1 h2 h3 h4 h5 _ _ order _ _ (hs m) ht).2 c (ho.mem_iff.2 (List.mem_range.2 hc)) b (List.mem_range.2 hab.lt) hbc (ih ha)
  obtain ⟨e, rfl⟩ := Nat.exists_eq_add_of_le hk
  clear hk
  induction e with
  | zero => exact main
  | succ e ih => exact later _ _ ih

/-- C233 with `PQueueActivation` (partial: only contentment spreads): after `k` steps the clock is at `k` intervals, nothing is raised, and all agents are in one of the three
states; and if contentment always spreads to neighbours and nobody loses it, then after `k` steps everybody is content who is at most `k` edges away from somebody who was. -/
theorem C233_pqueue_partial (N : PopNet) (keys : Nat → Rat) (q : Ref → SisaParams) (n : Nat) (hn : 0 < n) (iv : Rat) (hiv : 0 < iv) (loop : Nat) (hl : n ≤ loop) (p : Pop)
    (hp : p.Sisa) :
    (∀ k, let x := popRunP keys (sisaTurn N q) n iv loop p k
      x.1.time = .fin (k * iv) ∧ (x.1.step (popPHost keys (sisaTurn N q)) loop x.2).2.2 = .ok ∧
      ∀ r, x.2.state r = sNeutral ∨ x.2.state r = sDiscontent ∨ x.2.state r = sContent) ∧
    (N.Draws → (∀ r, (q r).neutralDiscontentSpon ≤ 0) → (∀ r, 1 ≤ (q r).neutralContentInf) → (∀ r, (q r).discontentNeutral ≤ 0) → (∀ r, 1 ≤ (q r).discontentContent) →
      (∀ r, (q r).contentNeutral ≤ 0) → ContentFront N n p (fun k => (popRunP keys (sisaTurn N q) n iv loop p k).2)) := by
  have hH := sisa_mesaP keys N q n iv (fun _ => True) (fun _ _ _ _ _ _ => trivial)
  refine ⟨fun k => ?_, fun hd h1 h2 h3 h4 h5 => ?_⟩
  · obtain ⟨h1, -, -, h4, -⟩ := C230_pqueue_partial _ n hn iv hiv _ _ hH loop hl p ⟨hp, trivial⟩ k
    exact ⟨h1, h4, (prounds_iter hn hiv hH loop hl p ⟨hp, trivial⟩ k).inv.1⟩
  · exact sisa_rounds_front N hd q h1 h2 h3 h4 h5 n iv p hp _ (popP_start keys _ n iv loop p).1 (popP_rounds hn hiv hH loop hl p ⟨hp, trivial⟩)

/-- C233 is violated with `PQueueActivation` too: without spontaneous discontent the discontent agents are always some of those that were discontent before. -/
theorem C233_pqueue_false (N : PopNet) (hd : N.Draws) (keys : Nat → Rat) (q : Ref → SisaParams) (hq : ∀ r, (q r).neutralDiscontentSpon ≤ 0) (n : Nat) (hn : 0 < n) (iv : Rat)
    (hiv : 0 < iv) (loop : Nat) (hl : n ≤ loop) (p : Pop) (hp : p.Sisa) (j k : Nat) (hjk : j ≤ k) (r : Ref)
    (hr : (popRunP keys (sisaTurn N q) n iv loop p k).2.state r = sDiscontent) :
    (popRunP keys (sisaTurn N q) n iv loop p j).2.state r = sDiscontent := by
  have hH := sisa_mesaP keys N q n iv (fun _ => True) (fun _ _ _ _ _ _ => trivial)
  have hx := popP_rounds hn hiv hH loop hl p ⟨hp, trivial⟩
  obtain ⟨m, rfl⟩ := Nat.exists_eq_add_of_le hjk
  clear hjk
  induction m with
  | zero => exact hr
  | succ m ih =>
    obtain ⟨order, -, h⟩ := hx (j + m)
    exact ih (sisa_turns_back N hd q hq _ _ order _ _ (prounds_iter hn hiv hH loop hl p ⟨hp, trivial⟩ (j + m)).inv.1 h r hr)

/-- The turns of a round, for one agent of the cascade model. -/
theorem cascade_turns (N : PopNet) (hd : N.Draws) (a b : Rat) (now : Time) (as l : List Ref) (p p' : Pop) (hc : p.Casc) (h : PopTurns (cascadeTurn N a b) now as l p p') (r : Ref) :
    (p'.state r = p.state r ∧ p'.since r = p.since r) ∨ (p.state r = sOutside ∧ p'.state r = sImitate ∧ p'.since r = now) := by
  induction l generalizing p with
  | nil => exact Or.inl ⟨by rw [h.1], by rw [h.2]⟩
  | cons c l ih =>
    obtain ⟨u, h⟩ := h
    have hc' : Pop.Casc { p with used := u } := hc
    have i3 := ih _ (cascadeTurn_casc N hd a b now as c _ hc') h
    rw [(cascadeTurn_spec N hd a b now as c _ hc').2] at i3
    split at i3
    · rename_i hx
      by_cases e : r = c
      · subst e
        simp only [Function.update_self] at i3
        rcases i3 with ⟨j1, j2⟩ | ⟨j1, -, -⟩
        · exact Or.inr ⟨hx.1, j1, j2⟩
        · exact absurd j1 (by decide)
      · simpa only [Function.update_of_ne e] using i3
    · exact i3

/-- C234 with `PQueueActivation`, what holds: the clock, no exceptions, two states, who is aware stays so, and `time_awareness` is the time of the step in which it began. -/
theorem C234_pqueue_partial (N : PopNet) (hd : N.Draws) (keys : Nat → Rat) (a b : Rat) (n : Nat) (hn : 0 < n) (iv : Rat) (hiv : 0 < iv) (loop : Nat) (hl : n ≤ loop) (p : Pop)
    (hp : p.Casc) (k : Nat) :
    let x := fun k => popRunP keys (cascadeTurn N a b) n iv loop p k
    (x k).1.time = .fin (k * iv) ∧ ((x k).1.step (popPHost keys (cascadeTurn N a b)) loop (x k).2).2.2 = .ok ∧
    (∀ r, (x k).2.state r = sOutside ∨ (x k).2.state r = sImitate) ∧
    (∀ r, (x k).2.state r = sImitate → (x (k + 1)).2.state r = sImitate ∧ (x (k + 1)).2.since r = (x k).2.since r) ∧
    (∀ r, p.state r = sOutside → (x k).2.state r = sImitate →
      ∃ j < k, (x j).2.state r = sOutside ∧ (x (j + 1)).2.state r = sImitate ∧ (x k).2.since r = .fin (j * iv)) := by
  have hH := cascade_mesaP keys N hd a b n iv
  intro x
  have hs : ∀ k, (x k).2.Casc := fun k => (prounds_iter hn hiv hH loop hl p hp k).inv
  have hx := popP_rounds hn hiv hH loop hl p hp
  have step : ∀ k r, ((x (k + 1)).2.state r = (x k).2.state r ∧ (x (k + 1)).2.since r = (x k).2.since r) ∨
      ((x k).2.state r = sOutside ∧ (x (k + 1)).2.state r = sImitate ∧ (x (k + 1)).2.since r = .fin (k * iv)) := by
    intro k r
    obtain ⟨order, -, h⟩ := hx k
    exact cascade_turns N hd a b _ _ order _ _ (hs k) h r
  obtain ⟨t1, -, -, t4, -⟩ := C230_pqueue_partial _ n hn iv hiv _ _ hH loop hl p hp k
  refine ⟨t1, t4, hs k, fun r hr => ?_, fun r h0 hk => ?_⟩
  · rcases step k r with ⟨h1, h2⟩ | ⟨h1, -, -⟩
    · exact ⟨h1.trans hr, h2⟩
    · rw [hr] at h1
      exact absurd h1 (by decide)
  · clear t1 t4
    induction k with
    | zero =>
      have : p.state r = sImitate := by rw [← (popP_start keys (cascadeTurn N a b) n iv loop p).1]; exact hk
      rw [h0] at this
      exact absurd this (by decide)
    | succ k ih =>
      rcases step k r with ⟨h1, h2⟩ | ⟨h1, h2, h3'⟩
      · obtain ⟨j, j1, j2, j3, j4⟩ := ih (by rw [← h1]; exact hk)
        exact ⟨j, by omega, j2, j3, h2.trans j4⟩
      · exact ⟨k, by omega, h1, h2, h3'⟩

set_option maxRecDepth 100000 in
example : ((List.range 3).map fun k => (List.range 3).map fun r => ((popRunP (fun _ => 0) (sisaTurn exRow (fun _ => exSure)) 3 1 3 exRowStart k).2.state r).name) =
    [["discontent", "neutral", "content"], ["discontent", "content", "content"], ["content", "content", "content"]] ∧
    (popRunP (fun _ => 0) (sisaTurn exRow (fun _ => exSure)) 3 1 3 exRowStart 2).1.time = .fin 2 := by decide +kernel

set_option maxRecDepth 100000 in
example : (List.range 3).any (fun r => decide ((popRunP (fun _ => 0) (cascadeTurn exRow (1 / 4) 1) 3 2 3 exRowOut 6).2.state r = sImitate)) = true := by decide +kernel

end Verif
