import Verif.Model.BuiltinRun
import Verif.Props.Builtin
import Verif.Props.Rounds
import Mathlib.Logic.Relation

/-!
# C233, C234: whole simulations of the SISa and independent cascade models
-/

namespace Verif

/-- One more step: the turns of the agents one after the other, in some order; before that a list may have been shuffled. -/
theorem mesa_order {W : Type} {H : Host W} {n : Nat} (hn : 0 < n) {iv : Rat} (hiv : 0 < iv) {act : MesaCode W} {I : W → Prop} (hH : MesaHost H n iv act I)
    (sh : Bool) (w0 : W) (hI : I w0) (k : Nat) :
    ∃ (order : List Ref) (w1 : W), order.Perm (List.range n) ∧
      ((sh = false ∧ order = List.range n ∧ w1 = (iterStep (timedStepper H) k (roundsStart n iv sh w0)).2) ∨
        ∃ l, w1 = (H.shuffle l (iterStep (timedStepper H) k (roundsStart n iv sh w0)).2).2) ∧
      (iterStep (timedStepper H) (k + 1) (roundsStart n iv sh w0)).2 = order.foldl (fun w r => act r k k (List.range n) w) w1 := by
  obtain ⟨ms, -, h2, h3⟩ := mesa_iter hn hiv hH sh w0 hI
  have h := h2 k
  have ht := (h3 k).2.1.time
  rw [(h3 k).1] at ht
  rw [(h3 (k + 1)).2.1.world, (h3 k).2.1.world]
  cases sh with
  | false =>
    simp only [MesaRound, Bool.false_eq_true, if_false] at h
    refine ⟨List.range n, (ms k).world, List.Perm.refl _, Or.inl ⟨rfl, rfl, rfl⟩, ?_⟩
    rw [h]
    simp only [mesaStep]
    rw [ht, (h3 k).2.1.magents, (h3 k).1]
  | true =>
    simp only [MesaRound, if_true] at h
    obtain ⟨l, hl, h⟩ := h
    refine ⟨(H.shuffle l (ms k).world).1, (H.shuffle l (ms k).world).2, ?_, Or.inr ⟨l, rfl⟩, ?_⟩
    · rw [← (h3 k).2.1.magents]
      exact (H.shuffle_perm l _).trans hl
    · rw [h]
      simp only [mesaStep]
      rw [ht, (h3 k).2.1.magents, (h3 k).1]

/-- Something that turns and shuffles preserve holds after every number of steps. -/
theorem mesa_inv {W : Type} {H : Host W} {n : Nat} (hn : 0 < n) {iv : Rat} (hiv : 0 < iv) {act : MesaCode W} {I : W → Prop} (hH : MesaHost H n iv act I)
    (sh : Bool) (w0 : W) (hI : I w0) (k : Nat) : I (iterStep (timedStepper H) k (roundsStart n iv sh w0)).2 := by
  obtain ⟨ms, -, -, h3⟩ := mesa_iter hn hiv hH sh w0 hI
  rw [(h3 k).2.1.world]
  exact (h3 k).2.1.inv

/-- The simulation of `n` agents (added before the first step), after `k` steps. -/
def popRun (N : PopNet) (turn : Time → List Ref → Ref → Pop → Reply × Pop) (n : Nat) (iv : Rat) (sh : Bool) (p : Pop) (k : Nat) : Sched × Pop :=
  iterStep (timedStepper (popHost N turn)) k (roundsStart n iv sh p)

/-- Random numbers are between 0 and 1. -/
def PopNet.Draws (N : PopNet) : Prop := ∀ u, IsDraw (N.draws u)

theorem PopNet.next_draw {N : PopNet} (h : N.Draws) (u : Nat) : ∀ r ∈ N.next u, IsDraw r := by
  intro r hr
  simp only [PopNet.next, List.mem_cons, List.not_mem_nil, or_false] at hr
  rcases hr with rfl | rfl | rfl | rfl <;> exact h _

theorem Pop.around_named (p : Pop) (N : PopNet) (now : Time) (agents : List Ref) (r : Ref) : (p.around N now agents r).Named := by
  intro a ha
  simp only [Pop.around, List.mem_map] at ha
  obtain ⟨b, -, rfl⟩ := ha
  exact ⟨rfl, Or.inr ⟨(p.state b).name, rfl⟩⟩

theorem Pop.inState_pos (p : Pop) (N : PopNet) (now : Time) (agents : List Ref) (r : Ref) (s : String) :
    0 < (p.around N now agents r).inState s ↔ ∃ a ∈ agents, a ∈ N.adj r ∧ (p.state a).name = s := by
  unfold Surroundings.inState
  rw [List.length_pos_iff_exists_mem]
  constructor
  · rintro ⟨x, hx⟩
    simp only [Pop.around, List.mem_filter, List.mem_map] at hx
    obtain ⟨⟨a, ha, rfl⟩, h⟩ := hx
    obtain ⟨h1, h2⟩ := of_decide_eq_true h
    refine ⟨a, ha, h1, ?_⟩
    have : (Val.str (p.state a).name) = .str s := h2
    exact Val.str.inj this
  · rintro ⟨a, ha, h1, h2⟩
    refine ⟨_, List.mem_filter.2 ⟨List.mem_map.2 ⟨a, ha, rfl⟩, ?_⟩⟩
    simp only [decide_eq_true_eq]
    refine ⟨h1, ?_⟩
    show Val.str (p.state a).name = .str s
    rw [h2]

/-! ### SISa -/

/-- All agents are in one of the three states of the model. -/
def Pop.Sisa (p : Pop) : Prop := ∀ r, p.state r = sNeutral ∨ p.state r = sDiscontent ∨ p.state r = sContent

theorem sisaFn_state (q : SisaParams) (sub : Nat → Nat → Bool) (x : Surroundings) (d : StateDef) (hd : d = sNeutral ∨ d = sDiscontent ∨ d = sContent)
    (ds : List Rat) : ∃ d', (sisaFn q sub x d ds).1 = .state d' ∧ (d' = sNeutral ∨ d' = sDiscontent ∨ d' = sContent) := by
  rcases hd with rfl | rfl | rfl
  · show ∃ d', (sisaNeutral q sub x ds).1 = .state d' ∧ _
    unfold sisaNeutral
    simp only
    split
    · exact ⟨_, rfl, by simp⟩
    · split
      · exact ⟨_, rfl, by simp⟩
      · split
        · exact ⟨_, rfl, by simp⟩
        · split
          · exact ⟨_, rfl, by simp⟩
          · exact ⟨_, rfl, by simp⟩
  · show ∃ d', (sisaDiscontent q sub x ds).1 = .state d' ∧ _
    unfold sisaDiscontent
    simp only
    split
    · exact ⟨_, rfl, by simp⟩
    · split
      · exact ⟨_, rfl, by simp⟩
      · exact ⟨_, rfl, by simp⟩
  · show ∃ d', (sisaContent q sub x ds).1 = .state d' ∧ _
    unfold sisaContent
    simp only
    split
    · exact ⟨_, rfl, by simp⟩
    · exact ⟨_, rfl, by simp⟩

/-- A turn: nothing is returned to the scheduler, the others stay as they are, and the agent is in the state that `sisaStep` says. -/
theorem sisaTurn_spec (N : PopNet) (q : Ref → SisaParams) (now : Time) (agents : List Ref) (r : Ref) (p : Pop) (h : p.Sisa) :
    (sisaTurn N q now agents r p).1 = .ret none ∧ (∀ r', r' ≠ r → (sisaTurn N q now agents r p).2.state r' = p.state r') ∧
    sisaStep (q r) N.sub (some (p.state r)) (p.around N now agents r) (N.next p.used) = some ((sisaTurn N q now agents r p).2.state r) ∧
    (sisaTurn N q now agents r p).2.Sisa := by
  obtain ⟨d', h1, h2⟩ := sisaFn_state (q r) N.sub (p.around N now agents r) _ (h r) (N.next p.used)
  have e : (sisaTurn N q now agents r p).2.state = Function.update p.state r d' := by
    simp only [sisaTurn, h1]
    rfl
  refine ⟨by simp only [sisaTurn, h1]; rfl, fun r' hr => by rw [e, Function.update_of_ne hr], ?_, ?_⟩
  · rw [e, Function.update_self]
    simp only [sisaStep, h1]
    rfl
  · intro r'
    rw [e]
    by_cases hr : r' = r
    · subst hr; rw [Function.update_self]; exact h2
    · rw [Function.update_of_ne hr]; exact h r'

/-- SISa agents are of the kind of C230, as long as a property of the states that their turns preserve holds. -/
theorem sisa_mesa (N : PopNet) (q : Ref → SisaParams) (n : Nat) (iv : Rat) (I : (Ref → StateDef) → Prop)
    (hI : ∀ r now as (p : Pop), p.Sisa → I p.state → I (sisaTurn N q now as r p).2.state) :
    MesaHost (popHost N (sisaTurn N q)) n iv (fun r t _ as p => (sisaTurn N q (.fin (t * iv)) as r p).2) (fun p => p.Sisa ∧ I p.state) where
  step r _ s p t h ht := by
    simp only [popHost, ht]
    rw [(sisaTurn_spec N q _ s.agents r p h.1).1]
  inv r _ t k as p h := ⟨(sisaTurn_spec N q _ as r p h.1).2.2.2, hI r _ as p h.1 h.2⟩
  shuffle l p h := h

/-- How many of the agents are in a state. -/
def Pop.count (p : Pop) (n : Nat) (s : StateDef) : Nat := ((List.range n).filter (fun r => decide (p.state r = s))).length

/-- C233, what holds of the life of such agents: after every number of steps the clock is at `k` intervals, nothing is raised, and
every agent is neutral, discontent or content: the three numbers add up to the number of agents. -/
theorem C233_states_partial (N : PopNet) (q : Ref → SisaParams) (n : Nat) (hn : 0 < n) (iv : Rat) (hiv : 0 < iv) (sh : Bool) (p : Pop) (hp : p.Sisa) (k : Nat) :
    let x := popRun N (sisaTurn N q) n iv sh p k
    x.1.time = .fin (k * iv) ∧ (x.1.step (popHost N (sisaTurn N q)) x.2).2.2 = false ∧
    (∀ r < n, x.2.state r = sNeutral ∨ x.2.state r = sDiscontent ∨ x.2.state r = sContent) ∧
    x.2.count n sNeutral + x.2.count n sDiscontent + x.2.count n sContent = n := by
  have hH := sisa_mesa N q n iv (fun _ => True) (fun _ _ _ _ _ _ => trivial)
  obtain ⟨ms, -, -, h3⟩ := mesa_iter hn hiv hH sh p ⟨hp, trivial⟩
  intro x
  have hs : x.2.Sisa := (mesa_inv hn hiv hH sh p ⟨hp, trivial⟩ k).1
  have ht := (h3 k).2.1.round.time
  rw [(h3 k).1] at ht
  refine ⟨ht, (h3 k).2.2, fun r _ => hs r, ?_⟩
  have key : ∀ l : List Ref, (l.filter (fun r => decide (x.2.state r = sNeutral))).length + (l.filter (fun r => decide (x.2.state r = sDiscontent))).length +
      (l.filter (fun r => decide (x.2.state r = sContent))).length = l.length := by
    intro l
    induction l with
    | nil => rfl
    | cons r l ih =>
      have e1 : sNeutral ≠ sDiscontent ∧ sNeutral ≠ sContent ∧ sDiscontent ≠ sContent := by decide
      rcases hs r with h | h | h
      · rw [List.filter_cons_of_pos (by simp [h]), List.filter_cons_of_neg (by simp [h, e1.1]), List.filter_cons_of_neg (by simp [h, e1.2.1])]
        simp only [List.length_cons]
        omega
      · rw [List.filter_cons_of_neg (by simp [h, e1.1.symm]), List.filter_cons_of_pos (by simp [h]), List.filter_cons_of_neg (by simp [h, e1.2.2])]
        simp only [List.length_cons]
        omega
      · rw [List.filter_cons_of_neg (by simp [h, e1.2.1.symm]), List.filter_cons_of_neg (by simp [h, e1.2.2.symm]), List.filter_cons_of_pos (by simp [h])]
        simp only [List.length_cons]
        omega
  have := key (List.range n)
  rw [List.length_range] at this
  exact this

/-- A turn makes somebody discontent only through the first draw. -/
theorem sisa_discontent_back (N : PopNet) (hd : N.Draws) (q : Ref → SisaParams) (hq : ∀ r, (q r).neutralDiscontentSpon ≤ 0) (now : Time) (as : List Ref) (r : Ref)
    (p : Pop) (h : p.Sisa) (r' : Ref) (hr : (sisaTurn N q now as r p).2.state r' = sDiscontent) : p.state r' = sDiscontent := by
  obtain ⟨-, h2, h3, -⟩ := sisaTurn_spec N q now as r p h
  by_cases e : r' = r
  · subst e
    rw [hr] at h3
    rcases h r' with e | e | e
    · rw [e] at h3
      obtain ⟨d, rest, h4, h5⟩ := C69_neutral_false (q r') N.sub _ (p.around_named N now as r') _ (N.next_draw hd p.used) h3
      have : IsDraw d := N.next_draw hd p.used d (by rw [h4]; simp)
      exact absurd (lt_of_lt_of_le h5 (hq r')) (not_lt.2 this.1)
    · exact e
    · rw [e] at h3
      exact absurd h3 (C69_content_false (q r') N.sub _ _)
  · rw [← h2 r' e]; exact hr

/-- C233 is violated: discontent does not spread. Without spontaneous discontent the discontent agents are always some of those that were discontent before, whatever
the network, the other parameters, and the order of the agents. -/
theorem C233_shrinks_false (N : PopNet) (hd : N.Draws) (q : Ref → SisaParams) (hq : ∀ r, (q r).neutralDiscontentSpon ≤ 0) (n : Nat) (hn : 0 < n) (iv : Rat)
    (hiv : 0 < iv) (sh : Bool) (p : Pop) (hp : p.Sisa) (j k : Nat) (hjk : j ≤ k) (r : Ref) (hr : (popRun N (sisaTurn N q) n iv sh p k).2.state r = sDiscontent) :
    (popRun N (sisaTurn N q) n iv sh p j).2.state r = sDiscontent := by
  have hH := sisa_mesa N q n iv (fun _ => True) (fun _ _ _ _ _ _ => trivial)
  have step : ∀ k, (popRun N (sisaTurn N q) n iv sh p (k + 1)).2.state r = sDiscontent → (popRun N (sisaTurn N q) n iv sh p k).2.state r = sDiscontent := by
    intro k h
    obtain ⟨order, w1, -, h1, h2⟩ := mesa_order hn hiv hH sh p ⟨hp, trivial⟩ k
    have hk := (mesa_inv hn hiv hH sh p ⟨hp, trivial⟩ k).1
    have hw1 : w1.state = (popRun N (sisaTurn N q) n iv sh p k).2.state := by
      rcases h1 with ⟨-, -, h1⟩ | ⟨l, h1⟩ <;> rw [h1] <;> rfl
    rw [← hw1]
    have hs1 : w1.Sisa := by intro r'; rw [hw1]; exact hk r'
    have h : (order.foldl (fun w r => (sisaTurn N q (.fin (k * iv)) (List.range n) r w).2) w1).state r = sDiscontent := by rw [← h2]; exact h
    clear h1 h2 hw1
    induction order generalizing w1 with
    | nil => exact h
    | cons a l ih =>
      exact sisa_discontent_back N hd q hq _ _ a w1 hs1 r (ih _ (sisaTurn_spec N q _ _ a w1 hs1).2.2.2 h)
  obtain ⟨m, rfl⟩ := Nat.exists_eq_add_of_le hjk
  induction m with
  | zero => exact hr
  | succ m ih => exact ih (by omega) (step (j + m) hr)

/-- The turn of a neighbour of somebody content. -/
theorem sisa_content_turn (N : PopNet) (hd : N.Draws) (q : Ref → SisaParams)
    (h1 : ∀ r, (q r).neutralDiscontentSpon ≤ 0) (h2 : ∀ r, 1 ≤ (q r).neutralContentInf) (h3 : ∀ r, (q r).discontentNeutral ≤ 0)
    (h4 : ∀ r, 1 ≤ (q r).discontentContent) (h5 : ∀ r, (q r).contentNeutral ≤ 0) (now : Time) (as : List Ref) (r : Ref) (p : Pop) (hp : p.Sisa) :
    (∀ r', p.state r' = sContent → (sisaTurn N q now as r p).2.state r' = sContent) ∧
    (∀ a ∈ as, a ∈ N.adj r → p.state a = sContent → (sisaTurn N q now as r p).2.state r = sContent) := by
  obtain ⟨-, g2, g3, g4⟩ := sisaTurn_spec N q now as r p hp
  have d0 := hd p.used
  have d1 := hd (p.used + 1)
  have d2 := hd (p.used + 2)
  have d3 := hd (p.used + 3)
  have keep : p.state r = sContent → (sisaTurn N q now as r p).2.state r = sContent := by
    intro h
    rw [h, sisa_fn_content] at g3
    have : (sisaContent (q r) N.sub (p.around N now as r) (N.next p.used)).1 = .state sContent := by
      have hp0 : (prob (q r).contentNeutral (N.next p.used)).1 = false := by
        simpa [prob, PopNet.next] using le_trans (h5 r) d0.1
      unfold sisaContent
      simp only [hp0, Bool.false_eq_true, if_false]
    rw [this, fsmReturn_state] at g3
    exact (Option.some.inj g3).symm
  refine ⟨fun r' h => ?_, fun a ha hadj hc => ?_⟩
  · by_cases e : r' = r
    · subst e; exact keep h
    · rw [g2 r' e]; exact h
  · have hpos : 0 < (p.around N now as r).inState "content" := (p.inState_pos N now as r "content").2 ⟨a, ha, hadj, by rw [hc]; rfl⟩
    have hge : (1 : Rat) ≤ (p.around N now as r).inState "content" := by exact_mod_cast hpos
    rcases hp r with e | e | e
    · rw [e] at g3
      have := (C69_content_spreads_partial (q r) N.sub _ (p.around_named N now as r) (N.draws p.used) (N.draws (p.used + 1)) (N.draws (p.used + 2))
        (N.draws (p.used + 3)) d2.1 []).1.2 ⟨not_lt.2 (le_trans (h1 r) d0.1), Or.inr (lt_of_lt_of_le d3.2 ?_)⟩
      · rw [show N.next p.used = [N.draws p.used, N.draws (p.used + 1), N.draws (p.used + 2), N.draws (p.used + 3)] from rfl, this] at g3
        exact (Option.some.inj g3).symm
      · nlinarith [h2 r]
    · rw [e] at g3
      have := (C69_content_spreads_partial (q r) N.sub _ (p.around_named N now as r) (N.draws p.used) (N.draws (p.used + 1)) (N.draws (p.used + 2))
        (N.draws (p.used + 3)) d2.1 [N.draws (p.used + 2), N.draws (p.used + 3)]).2.2 ⟨not_lt.2 (le_trans (h3 r) d0.1), lt_of_lt_of_le d1.2 ?_⟩
      · rw [show N.next p.used = [N.draws p.used, N.draws (p.used + 1), N.draws (p.used + 2), N.draws (p.used + 3)] from rfl, this] at g3
        exact (Option.some.inj g3).symm
      · nlinarith [h4 r]
    · exact keep e

/-- There is a path of `k` edges from `a` to `b` between the agents `0, …, n-1`: `b` sees its predecessor among its neighbours, and so on. -/
inductive Path (N : PopNet) (n : Nat) : Nat → Ref → Ref → Prop
  | here (a : Ref) : a < n → Path N n 0 a a
  | edge {k : Nat} {a b c : Ref} : Path N n k a b → b ∈ N.adj c → c < n → Path N n (k + 1) a c

theorem Path.lt {N : PopNet} {n k : Nat} {a b : Ref} (h : Path N n k a b) : b < n := by
  cases h <;> assumption

/-- C233 (partial: only contentment spreads). If contentment always spreads to neighbours and nobody loses it, then after `k` steps everybody is content who is
at most `k` edges away from somebody who was content at the beginning, whatever the order of the agents in each step. -/
theorem C233_front_partial (N : PopNet) (hd : N.Draws) (q : Ref → SisaParams)
    (h1 : ∀ r, (q r).neutralDiscontentSpon ≤ 0) (h2 : ∀ r, 1 ≤ (q r).neutralContentInf) (h3 : ∀ r, (q r).discontentNeutral ≤ 0)
    (h4 : ∀ r, 1 ≤ (q r).discontentContent) (h5 : ∀ r, (q r).contentNeutral ≤ 0) (n : Nat) (hn : 0 < n) (iv : Rat) (hiv : 0 < iv) (sh : Bool) (p : Pop)
    (hp : p.Sisa) (a b : Ref) (ha : p.state a = sContent) (m : Nat) (hpath : Path N n m a b) (k : Nat) (hk : m ≤ k) :
    (popRun N (sisaTurn N q) n iv sh p k).2.state b = sContent := by
  have hH := sisa_mesa N q n iv (fun _ => True) (fun _ _ _ _ _ _ => trivial)
  have turn := fun k (r : Ref) (p : Pop) (hp : p.Sisa) => sisa_content_turn N hd q h1 h2 h3 h4 h5 (.fin ((k : Nat) * iv)) (List.range n) r p hp
  have keepFold : ∀ (k : Nat) (l : List Ref) (w : Pop), w.Sisa → (l.foldl (fun w r => (sisaTurn N q (.fin (k * iv)) (List.range n) r w).2) w).Sisa ∧
      ∀ r, w.state r = sContent → (l.foldl (fun w r => (sisaTurn N q (.fin (k * iv)) (List.range n) r w).2) w).state r = sContent := by
    intro k l
    induction l with
    | nil => exact fun w hw => ⟨hw, fun _ h => h⟩
    | cons c l ih =>
      intro w hw
      obtain ⟨i1, i2⟩ := ih _ (sisaTurn_spec N q (.fin (k * iv)) (List.range n) c w hw).2.2.2
      exact ⟨i1, fun r h => i2 r ((turn k c w hw).1 r h)⟩
  have step : ∀ k, ∃ (order : List Ref) (w1 : Pop), order.Perm (List.range n) ∧ w1.Sisa ∧ w1.state = (popRun N (sisaTurn N q) n iv sh p k).2.state ∧
      (popRun N (sisaTurn N q) n iv sh p (k + 1)).2 = order.foldl (fun w r => (sisaTurn N q (.fin (k * iv)) (List.range n) r w).2) w1 := by
    intro k
    obtain ⟨order, w1, g1, g2, g3⟩ := mesa_order hn hiv hH sh p ⟨hp, trivial⟩ k
    have hw1 : w1.state = (popRun N (sisaTurn N q) n iv sh p k).2.state := by
      rcases g2 with ⟨-, -, g2⟩ | ⟨l, g2⟩ <;> rw [g2] <;> rfl
    exact ⟨order, w1, g1, fun r => by rw [hw1]; exact (mesa_inv hn hiv hH sh p ⟨hp, trivial⟩ k).1 r, hw1, g3⟩
  have later : ∀ k r, (popRun N (sisaTurn N q) n iv sh p k).2.state r = sContent → (popRun N (sisaTurn N q) n iv sh p (k + 1)).2.state r = sContent := by
    intro k r h
    obtain ⟨order, w1, -, g2, g3, g4⟩ := step k
    rw [g4]
    exact (keepFold k order w1 g2).2 r (by rw [g3]; exact h)
  have main : (popRun N (sisaTurn N q) n iv sh p m).2.state b = sContent := by
    clear hk
    induction hpath with
    | here a _ => exact ha
    | @edge m a b c hab hbc hc ih =>
      have ih := ih ha
      obtain ⟨order, w1, g1, g2, g3, g4⟩ := step m
      rw [g4]
      obtain ⟨l1, l2, rfl⟩ := List.append_of_mem (g1.mem_iff.2 (List.mem_range.2 hc))
      rw [List.foldl_append, List.foldl_cons]
      obtain ⟨f1, f2⟩ := keepFold m l1 w1 g2
      refine (keepFold m l2 _ (sisaTurn_spec N q (.fin (m * iv)) (List.range n) c _ f1).2.2.2).2 c ?_
      exact (turn m c _ f1).2 b (List.mem_range.2 hab.lt) hbc (f2 b (by rw [g3]; exact ih))
  obtain ⟨e, rfl⟩ := Nat.exists_eq_add_of_le hk
  clear hk
  induction e with
  | zero => exact main
  | succ e ih => exact later _ _ ih

/-- C233 (partial: only contentment spreads): without spontaneous contentment, whoever is content was content at the beginning or is connected with somebody who was. -/
theorem C233_along_partial (N : PopNet) (hd : N.Draws) (q : Ref → SisaParams) (hq : ∀ r, (q r).neutralContentSpon ≤ 0) (n : Nat) (hn : 0 < n) (iv : Rat)
    (hiv : 0 < iv) (sh : Bool) (p : Pop) (hp : p.Sisa) (k : Nat) (r : Ref) (hr : (popRun N (sisaTurn N q) n iv sh p k).2.state r = sContent) :
    ∃ a, p.state a = sContent ∧ Relation.ReflTransGen (fun x y => x ∈ N.adj y) a r := by
  have hturn : ∀ r now as (p' : Pop), p'.Sisa →
      (∀ b, p'.state b = sContent → ∃ a, p.state a = sContent ∧ Relation.ReflTransGen (fun x y => x ∈ N.adj y) a b) →
      ∀ b, (sisaTurn N q now as r p').2.state b = sContent → ∃ a, p.state a = sContent ∧ Relation.ReflTransGen (fun x y => x ∈ N.adj y) a b := by
    intro r now as p' hs hI b hb
    obtain ⟨-, g2, g3, -⟩ := sisaTurn_spec N q now as r p' hs
    by_cases e : b = r
    · subst e
      rw [hb] at g3
      have hnext : N.next p'.used = [N.draws p'.used, N.draws (p'.used + 1), N.draws (p'.used + 2), N.draws (p'.used + 3)] := rfl
      have d1 := hd (p'.used + 1)
      have d3 := hd (p'.used + 3)
      have pos : 0 < (p'.around N now as b).inState "content" ∨ p'.state b = sContent := by
        rcases hs b with e | e | e
        · rw [e, hnext] at g3
          obtain ⟨-, h⟩ := (C69_content_spreads_partial (q b) N.sub _ (p'.around_named N now as b) _ _ _ _ (hd (p'.used + 2)).1 []).1.1 g3
          rcases h with h | h
          · exact absurd (lt_of_lt_of_le h (hq b)) (not_lt.2 d1.1)
          · left
            by_contra h0
            have : (p'.around N now as b).inState "content" = 0 := by omega
            rw [this] at h
            simp at h
            exact absurd h (not_lt.2 d3.1)
        · rw [e, hnext] at g3
          obtain ⟨-, h⟩ := (C69_content_spreads_partial (q b) N.sub _ (p'.around_named N now as b) (N.draws p'.used) (N.draws (p'.used + 1)) 0 0
            (le_refl _) [N.draws (p'.used + 2), N.draws (p'.used + 3)]).2.1 g3
          left
          by_contra h0
          have : (p'.around N now as b).inState "content" = 0 := by omega
          rw [this] at h
          simp at h
          exact absurd h (not_lt.2 d1.1)
        · exact Or.inr e
      rcases pos with pos | e
      · obtain ⟨c, hc1, hc2, hc3⟩ := (p'.inState_pos N now as b "content").1 pos
        have hc : p'.state c = sContent := by
          rcases hs c with e | e | e
          · rw [e] at hc3; exact absurd hc3 (by decide)
          · rw [e] at hc3; exact absurd hc3 (by decide)
          · exact e
        obtain ⟨a, ha1, ha2⟩ := hI c hc
        exact ⟨a, ha1, ha2.tail hc2⟩
      · exact hI b e
    · exact hI b (by rw [← g2 b e]; exact hb)
  have hH := sisa_mesa N q n iv (fun st => ∀ b, st b = sContent → ∃ a, p.state a = sContent ∧ Relation.ReflTransGen (fun x y => x ∈ N.adj y) a b) hturn
  exact (mesa_inv hn hiv hH sh p ⟨hp, fun b hb => ⟨b, hb, Relation.ReflTransGen.refl⟩⟩ k).2 r hr

/-! ### Independent cascade -/

/-- All agents are in one of the two states of the model. -/
def Pop.Casc (p : Pop) : Prop := ∀ r, p.state r = sOutside ∨ p.state r = sImitate

/-- A turn: an agent that is outside becomes aware if the draw says so, now; nothing else changes, and the neighbours do not matter. -/
theorem cascadeTurn_spec (N : PopNet) (hd : N.Draws) (a b : Rat) (now : Time) (as : List Ref) (r : Ref) (p : Pop) (h : p.Casc) :
    (cascadeTurn N a b now as r p).1 = .ret none ∧
    (cascadeTurn N a b now as r p).2 = if p.state r = sOutside ∧ N.draws p.used < a
      then ⟨Function.update p.state r sImitate, Function.update p.since r now, p.used + 1⟩ else { p with used := p.used + 1 } := by
  have hp : ∀ x, (prob x (N.next p.used)).1 = decide (N.draws p.used < x) := fun x => rfl
  rcases h r with e | e
  · have hv : cascadeFn a b N.sub (p.around N now as r) (p.state r) (N.next p.used) = if N.draws p.used < a then .state sImitate else .none := by
      unfold cascadeFn
      rw [e, if_pos (by decide), hp]
      by_cases h : N.draws p.used < a <;> simp [h]
    have hf : (p.state r).fn = 1 := by rw [e]; rfl
    by_cases h : N.draws p.used < a
    · rw [if_pos h] at hv
      rw [if_pos ⟨e, h⟩]
      unfold cascadeTurn
      simp only [hv, hf, hp, h, decide_true, true_and, if_true]
      exact ⟨rfl, rfl⟩
    · rw [if_neg h] at hv
      rw [if_neg (fun x => h x.2)]
      unfold cascadeTurn
      simp only [hv, hp, h, decide_false, and_false, if_false, Bool.false_eq_true]
      refine ⟨rfl, ?_⟩
      have : (fsmOutcome N.pf cascadeClass (some (p.state r)) .none).1.getD (p.state r) = p.state r := rfl
      rw [this, Function.update_eq_self]
  · have hv : cascadeFn a b N.sub (p.around N now as r) (p.state r) (N.next p.used) = .none := by
      unfold cascadeFn
      rw [e, if_neg (by decide), if_pos (by decide)]
      simp only [neighbors_none _ (p.around_named N now as r) N.sub (.num 1) (by simp) (by simp), List.length_nil, Nat.cast_zero, mul_zero]
      have := (hd p.used).1
      simp [hp, this]
    have hne : ¬ p.state r = sOutside := by rw [e]; decide
    have hf : ¬ (p.state r).fn = 1 := by rw [e]; decide
    rw [if_neg (fun x => hne x.1)]
    unfold cascadeTurn
    simp only [hv, hf, false_and, if_false]
    refine ⟨rfl, ?_⟩
    have : (fsmOutcome N.pf cascadeClass (some (p.state r)) .none).1.getD (p.state r) = p.state r := rfl
    rw [this, Function.update_eq_self]

theorem cascadeTurn_casc (N : PopNet) (hd : N.Draws) (a b : Rat) (now : Time) (as : List Ref) (r : Ref) (p : Pop) (h : p.Casc) :
    (cascadeTurn N a b now as r p).2.Casc := by
  rw [(cascadeTurn_spec N hd a b now as r p h).2]
  split
  · intro r'
    by_cases e : r' = r
    · subst e; exact Or.inr (Function.update_self ..)
    · simp only [Function.update_of_ne e]; exact h r'
  · exact h

/-- The agents are of the kind of C230. -/
theorem cascade_mesa (N : PopNet) (hd : N.Draws) (a b : Rat) (n : Nat) (iv : Rat) :
    MesaHost (popHost N (cascadeTurn N a b)) n iv (fun r t _ as p => (cascadeTurn N a b (.fin (t * iv)) as r p).2) Pop.Casc where
  step r _ s p t h ht := by
    simp only [popHost, ht]
    rw [(cascadeTurn_spec N hd a b _ s.agents r p h).1]
  inv r _ t k as p h := cascadeTurn_casc N hd a b _ as r p h
  shuffle l p h := h

/-- The turns of a step, for one agent: it changes its state in its own turn only. -/
theorem cascade_fold (N : PopNet) (hd : N.Draws) (a b : Rat) (now : Time) (as l : List Ref) (p : Pop) (h : p.Casc) (r : Ref) :
    let z := l.foldl (fun w r => (cascadeTurn N a b now as r w).2) p
    z.Casc ∧ z.used = p.used + l.length ∧
    ((z.state r = p.state r ∧ z.since r = p.since r) ∨ (p.state r = sOutside ∧ z.state r = sImitate ∧ z.since r = now)) := by
  induction l generalizing p with
  | nil => exact ⟨h, rfl, Or.inl ⟨rfl, rfl⟩⟩
  | cons c l ih =>
    intro z
    obtain ⟨i1, i2, i3⟩ := ih _ (cascadeTurn_casc N hd a b now as c p h)
    have hz : z = l.foldl (fun w r => (cascadeTurn N a b now as r w).2) (cascadeTurn N a b now as c p).2 := rfl
    rw [← hz] at i1 i2 i3
    have hs := (cascadeTurn_spec N hd a b now as c p h).2
    refine ⟨i1, ?_, ?_⟩
    · rw [i2, hs]
      split <;> simp <;> omega
    · rw [hs] at i3
      split at i3
      · rename_i hc
        by_cases e : r = c
        · subst e
          simp only [Function.update_self] at i3
          rcases i3 with ⟨j1, j2⟩ | ⟨j1, -, -⟩
          · exact Or.inr ⟨hc.1, j1, j2⟩
          · exact absurd j1 (by decide)
        · simpa only [Function.update_of_ne e] using i3
      · exact i3

/-- C234, what holds: after every number of steps the clock is at `k` intervals, nothing is raised, and every agent is outside or aware; who is aware stays so; and
`time_awareness` of an agent that has become aware is the time of the step in which it did. -/
theorem C234_aware_partial (N : PopNet) (hd : N.Draws) (a b : Rat) (n : Nat) (hn : 0 < n) (iv : Rat) (hiv : 0 < iv) (sh : Bool) (p : Pop) (hp : p.Casc) (k : Nat) :
    let x := fun k => popRun N (cascadeTurn N a b) n iv sh p k
    (x k).1.time = .fin (k * iv) ∧ ((x k).1.step (popHost N (cascadeTurn N a b)) (x k).2).2.2 = false ∧
    (∀ r, (x k).2.state r = sOutside ∨ (x k).2.state r = sImitate) ∧
    (∀ r, (x k).2.state r = sImitate → (x (k + 1)).2.state r = sImitate ∧ (x (k + 1)).2.since r = (x k).2.since r) ∧
    (∀ r, p.state r = sOutside → (x k).2.state r = sImitate →
      ∃ j < k, (x j).2.state r = sOutside ∧ (x (j + 1)).2.state r = sImitate ∧ (x k).2.since r = .fin (j * iv)) := by
  have hH := cascade_mesa N hd a b n iv
  obtain ⟨ms, -, -, h3⟩ := mesa_iter hn hiv hH sh p hp
  intro x
  have ht := (h3 k).2.1.round.time
  rw [(h3 k).1] at ht
  have hs : ∀ k, (x k).2.Casc := fun k => mesa_inv hn hiv hH sh p hp k
  have step : ∀ k r, ((x (k + 1)).2.state r = (x k).2.state r ∧ (x (k + 1)).2.since r = (x k).2.since r) ∨
      ((x k).2.state r = sOutside ∧ (x (k + 1)).2.state r = sImitate ∧ (x (k + 1)).2.since r = .fin (k * iv)) := by
    intro k r
    obtain ⟨order, w1, -, g2, g3⟩ := mesa_order hn hiv hH sh p hp k
    have hw1 : w1.state = (x k).2.state ∧ w1.since = (x k).2.since := by
      rcases g2 with ⟨-, -, g2⟩ | ⟨l, g2⟩ <;> rw [g2] <;> exact ⟨rfl, rfl⟩
    have hc : w1.Casc := by intro r; rw [hw1.1]; exact hs k r
    have := (cascade_fold N hd a b (.fin (k * iv)) (List.range n) order w1 hc r).2.2
    have hz : (x (k + 1)).2 = order.foldl (fun w r => (cascadeTurn N a b (.fin (k * iv)) (List.range n) r w).2) w1 := g3
    rw [← hz, hw1.1, hw1.2] at this
    exact this
  refine ⟨ht, (h3 k).2.2, hs k, fun r hr => ?_, fun r h0 hk => ?_⟩
  · rcases step k r with ⟨h1, h2⟩ | ⟨h1, -, -⟩
    · exact ⟨h1.trans hr, h2⟩
    · rw [hr] at h1
      exact absurd h1 (by decide)
  · induction k with
    | zero =>
      have : p.state r = sImitate := hk
      rw [h0] at this
      exact absurd this (by decide)
    | succ k ih =>
      rcases step k r with ⟨h1, h2⟩ | ⟨h1, h2, h3'⟩
      · have hT := (h3 k).2.1.round.time
        rw [(h3 k).1] at hT
        obtain ⟨j, j1, j2, j3, j4⟩ := ih hT (by rw [← h1]; exact hk)
        exact ⟨j, by omega, j2, j3, h2.trans j4⟩
      · exact ⟨k, by omega, h1, h2, h3'⟩

/-- C234 is violated: awareness does not spread along the network. With the same random numbers the simulation is the same for any two networks and any two
probabilities of imitation. -/
theorem C234_network_false (N : PopNet) (hd : N.Draws) (adj' : Ref → List Nat) (a b b' : Rat) (n : Nat) (hn : 0 < n) (iv : Rat) (hiv : 0 < iv) (sh : Bool) (p : Pop)
    (hp : p.Casc) (k : Nat) :
    (popRun { N with adj := adj' } (cascadeTurn { N with adj := adj' } a b') n iv sh p k) = (popRun N (cascadeTurn N a b) n iv sh p k) := by
  have hd' : PopNet.Draws { N with adj := adj' } := hd
  have hturn : ∀ now as r (p : Pop), p.Casc → cascadeTurn { N with adj := adj' } a b' now as r p = cascadeTurn N a b now as r p := by
    intro now as r p h
    have h1 := cascadeTurn_spec N hd a b now as r p h
    have h2 := cascadeTurn_spec { N with adj := adj' } hd' a b' now as r p h
    exact Prod.ext (h2.1.trans h1.1.symm) (h2.2.trans h1.2.symm)
  have hbucket : ∀ (now : Time) (l : List Ref) (s : Sched) (p : Pop), p.Casc →
      runBucket (popHost { N with adj := adj' } (cascadeTurn { N with adj := adj' } a b')) now l s p = runBucket (popHost N (cascadeTurn N a b)) now l s p := by
    intro now l
    induction l with
    | nil => intro s p _; rfl
    | cons r l ih =>
      intro s p h
      have e : (popHost { N with adj := adj' } (cascadeTurn { N with adj := adj' } a b')).step r s p = (popHost N (cascadeTurn N a b)).step r s p := by
        simp only [popHost, hturn _ _ _ p h]
      have hc : ((popHost N (cascadeTurn N a b)).step r s p).2.2.Casc := cascadeTurn_casc N hd a b _ _ r p h
      unfold runBucket
      rw [e]
      simp only [ih _ _ hc]
  have hstep : ∀ (s : Sched) (p : Pop), p.Casc →
      s.step (popHost { N with adj := adj' } (cascadeTurn { N with adj := adj' } a b')) p = s.step (popHost N (cascadeTurn N a b)) p := by
    intro s p h
    unfold Sched.step
    cases s.queue with
    | nil => rfl
    | cons x q =>
      have : runOrder (popHost { N with adj := adj' } (cascadeTurn { N with adj := adj' } a b')) s x.2 p = runOrder (popHost N (cascadeTurn N a b)) s x.2 p := rfl
      simp only [this]
      rw [hbucket]
      unfold runOrder
      split
      · exact h
      · exact h
  have hs : ∀ k, (popRun N (cascadeTurn N a b) n iv sh p k).2.Casc := fun k => mesa_inv hn hiv (cascade_mesa N hd a b n iv) sh p hp k
  have hst : ∀ x : Sched × Pop, x.2.Casc → (timedStepper (popHost { N with adj := adj' } (cascadeTurn { N with adj := adj' } a b'))).step x =
      (timedStepper (popHost N (cascadeTurn N a b))).step x := by
    intro x hx
    simp only [timedStepper, hstep _ _ hx]
  clear hstep hbucket hturn
  unfold popRun at hs ⊢
  induction k with
  | zero => simp only [iterStep]
  | succ k ih => rw [iterStep_succ, iterStep_succ, ih, hst _ (hs k)]

/-- C234 (partial: only innovation): without shuffling, agent `r` is aware after `k` steps exactly if one of the numbers drawn in its turns is smaller than the
probability of innovation; in step `j` this is number `j·n + r`. -/
theorem C234_exact_partial (N : PopNet) (hd : N.Draws) (a b : Rat) (n : Nat) (iv : Rat) (hiv : 0 < iv) (p : Pop) (hp : ∀ r, p.state r = sOutside) (k : Nat)
    (r : Ref) (hr : r < n) :
    (popRun N (cascadeTurn N a b) n iv false p k).2.state r = sImitate ↔ ∃ j < k, N.draws (p.used + j * n + r) < a := by
  have hn : 0 < n := Nat.lt_of_le_of_lt (Nat.zero_le r) hr
  have hc : p.Casc := fun r => Or.inl (hp r)
  have hH := cascade_mesa N hd a b n iv
  have hs : ∀ k, (popRun N (cascadeTurn N a b) n iv false p k).2.Casc := fun k => mesa_inv hn hiv hH false p hc k
  have hord : ∀ k, (popRun N (cascadeTurn N a b) n iv false p (k + 1)).2 =
      (List.range n).foldl (fun w r => (cascadeTurn N a b (.fin (k * iv)) (List.range n) r w).2) (popRun N (cascadeTurn N a b) n iv false p k).2 := fun k =>
    C230_ordered_partial _ n hn iv hiv _ _ hH p hc k
  have hused : ∀ k, (popRun N (cascadeTurn N a b) n iv false p k).2.used = p.used + k * n := by
    intro k
    induction k with
    | zero => simp [popRun, iterStep, roundsStart]
    | succ k ih =>
      rw [hord k, (cascade_fold N hd a b (.fin (k * iv)) (List.range n) (List.range n) _ (hs k) r).2.1, ih, List.length_range]
      ring
  have hone : ∀ k, (popRun N (cascadeTurn N a b) n iv false p (k + 1)).2.state r = sImitate ↔
      (popRun N (cascadeTurn N a b) n iv false p k).2.state r = sImitate ∨ N.draws (p.used + k * n + r) < a := by
    intro k
    rw [hord k, ← hused k]
    generalize hw : (popRun N (cascadeTurn N a b) n iv false p k).2 = w
    have hcw : w.Casc := hw ▸ hs k
    obtain ⟨m, hm⟩ := Nat.exists_eq_add_of_lt hr
    have split : List.range n = List.range r ++ r :: (List.range' (r + 1) m) := by
      rw [List.range_eq_range', List.range_eq_range', hm, Nat.add_assoc, Nat.add_comm m 1, ← List.range'_append_1, ← List.range'_append_1]
      simp
    have hfold : ∀ as : List Ref, ((List.range n).foldl (fun w r => (cascadeTurn N a b (.fin (k * iv)) as r w).2) w).state r = sImitate ↔
        w.state r = sImitate ∨ N.draws (w.used + r) < a := by
      intro as
      rw [split, List.foldl_append, List.foldl_cons]
      obtain ⟨f1, f2, -⟩ := cascade_fold N hd a b (.fin (k * iv)) as (List.range r) w hcw r
      have f3 : ((List.range r).foldl (fun w r => (cascadeTurn N a b (.fin (k * iv)) as r w).2) w).state r = w.state r := by
        have : ∀ (l : List Ref) (w : Pop), w.Casc → r ∉ l → (l.foldl (fun w r => (cascadeTurn N a b (.fin (k * iv)) as r w).2) w).state r = w.state r := by
          intro l
          induction l with
          | nil => intro w _ _; rfl
          | cons c l ih =>
            intro w hw hl
            rw [List.foldl_cons, ih _ (cascadeTurn_casc N hd a b _ as c w hw) (fun h => hl (List.mem_cons_of_mem _ h)),
              (cascadeTurn_spec N hd a b _ as c w hw).2]
            split
            · exact Function.update_of_ne (fun e => hl (by simp [e])) _ _
            · rfl
        exact this _ _ hcw (by simp)
      have f4 : ((List.range' (r + 1) m).foldl (fun w r => (cascadeTurn N a b (.fin (k * iv)) as r w).2)
          (cascadeTurn N a b (.fin (k * iv)) as r ((List.range r).foldl (fun w r => (cascadeTurn N a b (.fin (k * iv)) as r w).2) w)).2).state r =
          (cascadeTurn N a b (.fin (k * iv)) as r ((List.range r).foldl (fun w r => (cascadeTurn N a b (.fin (k * iv)) as r w).2) w)).2.state r := by
        have : ∀ (l : List Ref) (w : Pop), w.Casc → r ∉ l → (l.foldl (fun w r => (cascadeTurn N a b (.fin (k * iv)) as r w).2) w).state r = w.state r := by
          intro l
          induction l with
          | nil => intro w _ _; rfl
          | cons c l ih =>
            intro w hw hl
            rw [List.foldl_cons, ih _ (cascadeTurn_casc N hd a b _ as c w hw) (fun h => hl (List.mem_cons_of_mem _ h)),
              (cascadeTurn_spec N hd a b _ as c w hw).2]
            split
            · exact Function.update_of_ne (fun e => hl (by simp [e])) _ _
            · rfl
        refine this _ _ (cascadeTurn_casc N hd a b _ as r _ f1) ?_
        intro h
        rw [List.mem_range'_1] at h
        exact Nat.not_succ_le_self _ h.1
      rw [f4, (cascadeTurn_spec N hd a b _ as r _ f1).2]
      rw [f2, f3, List.length_range]
      rcases hcw r with e | e
      · rw [e]
        by_cases h : N.draws (w.used + r) < a
        · rw [if_pos ⟨rfl, h⟩]
          simp [h]
        · rw [if_neg (fun x => h x.2)]
          simp only [f3, e, h, or_false]
      · rw [e, if_neg (fun x => absurd x.1 (by decide))]
        simp only [f3, e, true_or]
    exact hfold _
  induction k with
  | zero =>
    constructor
    · intro h
      have : p.state r = sImitate := h
      rw [hp r] at this
      exact absurd this (by decide)
    · rintro ⟨j, hj, -⟩
      omega
  | succ k ih =>
    refine (hone k).trans ((or_congr ih Iff.rfl).trans ?_)
    constructor
    · rintro (⟨j, h1, h2⟩ | h)
      · exact ⟨j, by omega, h2⟩
      · exact ⟨k, by omega, h⟩
    · rintro ⟨j, h1, h2⟩
      rcases Nat.lt_succ_iff_lt_or_eq.1 h1 with h | rfl
      · exact Or.inl ⟨j, h, h2⟩
      · exact Or.inr h2

/-! ### Examples -/

/-- Three agents in a row; every number drawn is a half except that every fifth is 0. -/
def exRow : PopNet where
  adj r := if r = 0 then [1] else if r = 1 then [0, 2] else [1]
  draws u := if u % 5 = 4 then 0 else 1 / 2
  shuf u l := (l.reverse, u + 1)
  shuf_perm _ l := l.reverse_perm
  sub _ _ := true
  pf _ := none

/-- Contentment spreads surely; nothing else happens. -/
def exSure : SisaParams := ⟨0, 1, 0, 1, 0, 1, 1, 0⟩

/-- The third agent is content, the first discontent. -/
def exRowStart : Pop := ⟨fun r => if r = 2 then sContent else if r = 0 then sDiscontent else sNeutral, fun _ => 0, 0⟩

set_option maxRecDepth 100000 in
example : ((List.range 3).map fun k => (List.range 3).map fun r => ((popRun exRow (sisaTurn exRow (fun _ => exSure)) 3 1 false exRowStart k).2.state r).name) =
    [["discontent", "neutral", "content"], ["discontent", "content", "content"], ["content", "content", "content"]] ∧
    ((List.range 2).map fun k => (List.range 3).map fun r => ((popRun exRow (sisaTurn exRow (fun _ => exSure)) 3 1 true exRowStart k).2.state r).name) =
    [["discontent", "neutral", "content"], ["content", "content", "content"]] := by decide +kernel

/-- Nobody is aware. -/
def exRowOut : Pop := ⟨fun _ => sOutside, fun _ => 0, 0⟩

set_option maxRecDepth 100000 in
example : ((List.range 4).map fun k => (List.range 3).map fun r => ((popRun exRow (cascadeTurn exRow (1 / 4) 1) 3 2 false exRowOut k).2.state r).name) =
    [["outside", "outside", "outside"], ["outside", "outside", "outside"], ["outside", "imitate", "outside"], ["outside", "imitate", "outside"]] ∧
    (popRun exRow (cascadeTurn exRow (1 / 4) 1) 3 2 false exRowOut 3).2.since 1 = .fin 2 := by decide +kernel

/-- The hypotheses of the theorems hold for it. -/
example : exRow.Draws ∧ exRowStart.Sisa ∧ exRowOut.Casc ∧ Path exRow 3 2 2 0 := by
  refine ⟨fun u => ?_, fun r => ?_, fun r => Or.inl rfl, .edge (b := 1) (.edge (b := 2) (.here 2 (by decide)) (by decide) (by decide)) (by decide) (by decide)⟩
  · simp only [exRow, IsDraw]
    split <;> norm_num
  · simp only [exRowStart]
    split
    · simp
    · split <;> simp

end Verif
