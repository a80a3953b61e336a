import Verif.Model.OwnRun
import Verif.Props.Rounds
import Verif.Props.PRounds
import Verif.Props.Builtin

/-!
# C255: simulations of agents that change only themselves do not depend on the order or the scheduler
-/

namespace Verif

variable {A : Type}

/-- What an agent makes of itself, alone: its code, once for each step, at the times `0, iv, 2·iv, …`, among `n` agents. -/
def SelfCode.life (U : SelfCode A) (iv : Rat) (n : Nat) (r : Ref) : Nat → A → Option A
  | 0, a => some a
  | k + 1, a => (SelfCode.life U iv n r k a).bind (U r (.fin (k * iv)) k n)

/-- Code that does not raise if the attributes are of the kind `Ok`, and leaves them so. -/
def SelfCode.Safe (U : SelfCode A) (Ok : Ref → A → Prop) : Prop :=
  ∀ r t k n a, Ok r a → ∃ a', U r t k n a = some a' ∧ Ok r a'

/-- The effect of a turn. -/
private def ownAct (U : SelfCode A) (iv : Rat) : MesaCode (OwnWorld A) := fun r t k as w => (U.turn r (.fin (t * iv)) k as.length w).2.2

/-- The agents are there and have attributes of the right kind. -/
private def OwnOk (Ok : Ref → A → Prop) (n : Nat) (w : OwnWorld A) : Prop :=
  w.agents.length = n ∧ ∀ (r : Nat) (a : A), w.agents[r]? = some a → Ok r a

private theorem own_turn {U : SelfCode A} {Ok : Ref → A → Prop} (hU : U.Safe Ok) {n : Nat} {w : OwnWorld A} (hw : OwnOk Ok n w) (r : Nat) (hr : r < n) (t : Time)
    (k m : Nat) : ∃ a a', w.agents[r]? = some a ∧ U r t k m a = some a' ∧ U.turn r t k m w = (.ret none, [], { w with agents := w.agents.set r a' }) ∧
      OwnOk Ok n { w with agents := w.agents.set r a' } := by
  have hlt : r < w.agents.length := by rw [hw.1]; exact hr
  have ha : w.agents[r]? = some w.agents[r] := by simp [hlt]
  obtain ⟨a', h1, h2⟩ := hU r t k m _ (hw.2 r _ ha)
  refine ⟨_, a', ha, h1, ?_, by simpa using hw.1, ?_⟩
  · simp only [SelfCode.turn, ha, h1]
  · intro s b hb
    simp only [List.getElem?_set] at hb
    split at hb
    · rename_i he
      subst he
      cases hb
      exact h2
    · exact hw.2 s b hb

private theorem own_mesa {U : SelfCode A} {Ok : Ref → A → Prop} (hU : U.Safe Ok) (order : Nat → List Ref → List Ref) (perm : ∀ n l, (order n l).Perm l) (n : Nat)
    (iv : Rat) : MesaHost (ownHost U order perm) n iv (ownAct U iv) (OwnOk Ok n) where
  step r hr s w t hI ht := by
    obtain ⟨a, a', -, -, h3, -⟩ := own_turn hU hI r hr (.fin (t * iv)) s.steps s.agents.length
    simp only [ownHost, ownAct, ht, h3]
  inv r hr t k as w hI := by
    obtain ⟨a, a', -, -, h3, h4⟩ := own_turn hU hI r hr (.fin (t * iv)) k as.length
    simp only [ownAct, h3]
    exact h4
  shuffle l w hI := hI

private theorem own_pmesa {U : SelfCode A} {Ok : Ref → A → Prop} (hU : U.Safe Ok) (keys : Ref → Nat → Rat) (n : Nat) (iv : Rat) :
    MesaPHost (ownPHost U keys) n iv (ownAct U iv) (OwnOk Ok n) where
  step r hr s w t hI ht := by
    obtain ⟨a, a', -, -, h3, -⟩ := own_turn hU hI r hr (.fin (t * iv)) s.steps s.agents.length
    simp only [ownPHost, ownAct, ht, h3]
  inv r hr t k as w hI := (own_mesa hU (fun _ l => l) (fun _ l => List.Perm.refl l) n iv).inv r hr t k as w hI
  key r w hI := hI

/-- A round, in any order: every agent has had its turn, and nobody else has changed it. -/
private theorem own_fold {U : SelfCode A} {Ok : Ref → A → Prop} (hU : U.Safe Ok) {n : Nat} (t : Time) (k m : Nat) (g : OwnWorld A → Ref → OwnWorld A)
    (hg : ∀ w r, (g w r).agents = (U.turn r t k m w).2.2.agents) (l : List Ref) (hl : l.Nodup) (hln : ∀ r ∈ l, r < n) (w : OwnWorld A) (hw : OwnOk Ok n w) (j : Nat) :
    (l.foldl g w).agents[j]? = if j ∈ l then (w.agents[j]?).bind (U j t k m) else w.agents[j]? := by
  induction l generalizing w with
  | nil => rfl
  | cons r l ih =>
    obtain ⟨a, a', h1, h2, h3, h4⟩ := own_turn hU hw r (hln r (by simp)) t k m
    have hag : (g w r).agents = w.agents.set r a' := by rw [hg, h3]
    have hok : OwnOk Ok n (g w r) := by
      unfold OwnOk
      rw [hag]
      exact h4
    rw [List.foldl_cons, ih (List.nodup_cons.1 hl).2 (fun q hq => hln q (by simp [hq])) _ hok]
    have hr := (List.nodup_cons.1 hl).1
    by_cases hj : j = r
    · subst hj
      rw [if_neg hr, if_pos (by simp), hag, List.getElem?_set_self (by rw [hw.1]; exact hln j (by simp)), h1]
      exact h2.symm
    · have : w.agents[j]? = (g w r).agents[j]? := by rw [hag, List.getElem?_set_ne (fun h => hj h.symm)]
      rw [this]
      simp [hj]

/-- C255: with `TimedActivation`, whatever the order, with or without shuffling: no step raises, and after every number of steps each agent is
what it would have made of itself alone. The simulation returns after exactly `max_steps` steps. -/
theorem C255_timed (U : SelfCode A) (Ok : Ref → A → Prop) (hU : U.Safe Ok) (agents : List A) (hne : agents ≠ [])
    (hok : ∀ (r : Nat) (a : A), agents[r]? = some a → Ok r a) (iv : Rat) (hiv : 0 < iv) (order : Nat → List Ref → List Ref)
    (perm : ∀ n l, (order n l).Perm l) (sh : Bool) (used k : Nat) :
    let x := iterStep (timedStepper (ownHost U order perm)) k (roundsStart agents.length iv sh ⟨agents, used⟩)
    x.2.agents.length = agents.length ∧
    (∀ (r : Nat) (a : A), agents[r]? = some a → ∃ b, U.life iv agents.length r k a = some b ∧ x.2.agents[r]? = some b) ∧
    ((timedStepper (ownHost U order perm)).step x).2 = false ∧
    ∀ fuel, k ≤ fuel → runModel (timedStepper (ownHost U order perm)) none (some k) fuel (roundsStart agents.length iv sh ⟨agents, used⟩) = .done x := by
  intro x
  have hn : 0 < agents.length := List.length_pos_iff.2 hne
  have hH := own_mesa hU order perm agents.length iv
  have hI : OwnOk Ok agents.length (⟨agents, used⟩ : OwnWorld A) := ⟨rfl, hok⟩
  obtain ⟨ms, h1, h2, h3⟩ := mesa_iter hn hiv hH sh ⟨agents, used⟩ hI
  refine ⟨?_, ?_, (h3 k).2.2, fun fuel hf => (C230_ends_partial _ _ hn iv hiv _ _ hH sh _ hI fuel k hf).1⟩
  · rw [show x.2 = (ms k).world from (h3 k).2.1.world]
    exact (h3 k).2.1.inv.1
  · have key : ∀ k, ∀ (r : Nat) (a : A), agents[r]? = some a → U.life iv agents.length r k a = (ms k).world.agents[r]? := by
      intro k
      induction k with
      | zero =>
        intro r a ha
        rw [h1]
        exact ha.symm
      | succ k ih =>
        intro r a ha
        have hrel := (h3 k).2.1
        have hr : r < agents.length := (List.getElem?_eq_some_iff.1 ha).1
        have htime : (ms k).time = k := by
          rw [hrel.time, (h3 k).1]
        have hround := h2 k
        have hex : ∃ (l : List Ref) (w1 : OwnWorld A), l.Perm (List.range agents.length) ∧ w1.agents = (ms k).world.agents ∧ OwnOk Ok agents.length w1 ∧
            (ms (k + 1)).world = l.foldl (fun w r => ownAct U iv r (ms k).time (ms k).steps (ms k).agents w) w1 := by
          unfold MesaRound at hround
          split at hround
          · obtain ⟨l, hl, he⟩ := hround
            rw [hrel.magents] at hl
            refine ⟨_, _, (perm (ms k).world.used l).trans hl, ?_, ?_, by rw [he]; rfl⟩
            · rfl
            · exact hrel.inv
          · rw [hround]
            exact ⟨List.range agents.length, (ms k).world, List.Perm.refl _, rfl, hrel.inv, by rw [mesaStep]; simp only; rw [hrel.magents]⟩
        obtain ⟨l, w1, hl, hw1, hok1, he⟩ := hex
        rw [he, own_fold hU (.fin (k * iv)) k agents.length _ (fun w q => by
          simp only [ownAct]
          rw [htime, (h3 k).1, hrel.magents, List.length_range]) l (hl.nodup_iff.2 List.nodup_range) (fun q hq => List.mem_range.1 (hl.subset hq)) w1 hok1,
          if_pos (hl.mem_iff.2 (List.mem_range.2 hr)), hw1, ← ih r a ha]
        rfl
    intro r a ha
    have hr : r < agents.length := (List.getElem?_eq_some_iff.1 ha).1
    have hlt : r < (ms k).world.agents.length := by
      rw [(h3 k).2.1.inv.1]
      exact hr
    refine ⟨(ms k).world.agents[r], ?_, ?_⟩
    · rw [key k r a ha]
      simp [hlt]
    · rw [show x.2 = (ms k).world from (h3 k).2.1.world]
      simp [hlt]

/-- C255: the same with `PQueueActivation`, whatever the numbers that break ties. -/
theorem C255_pqueue (U : SelfCode A) (Ok : Ref → A → Prop) (hU : U.Safe Ok) (agents : List A) (hne : agents ≠ [])
    (hok : ∀ (r : Nat) (a : A), agents[r]? = some a → Ok r a) (iv : Rat) (hiv : 0 < iv) (keys : Ref → Nat → Rat) (loop : Nat) (hloop : agents.length ≤ loop)
    (used k : Nat) :
    let start := roundsPStart (ownPHost U keys) agents.length iv ⟨agents, used⟩
    let x := iterStep (pqStepper (ownPHost U keys) loop) k start
    x.2.agents.length = agents.length ∧
    (∀ (r : Nat) (a : A), agents[r]? = some a → ∃ b, U.life iv agents.length r k a = some b ∧ x.2.agents[r]? = some b) ∧
    ((pqStepper (ownPHost U keys) loop).step x).2 = false ∧
    ∀ fuel, k ≤ fuel → runModel (pqStepper (ownPHost U keys) loop) none (some k) fuel start = .done x := by
  intro start x
  have hn : 0 < agents.length := List.length_pos_iff.2 hne
  have hH := own_pmesa hU keys agents.length iv
  have hI : OwnOk Ok agents.length (⟨agents, used⟩ : OwnWorld A) := ⟨rfl, hok⟩
  have hinv : ∀ k, OwnOk Ok agents.length (iterStep (pqStepper (ownPHost U keys) loop) k start).2 :=
    fun k => (prounds_iter hn hiv hH loop hloop ⟨agents, used⟩ hI k).inv
  have h0 : start.2.agents = agents := by
    have : ∀ (ops : List SOp) (s : PSched) (w : OwnWorld A), (s.applyOps (ownPHost U keys) w ops).2.1.agents = w.agents := by
      intro ops
      induction ops with
      | nil => intro s w; rfl
      | cons o ops ih =>
        intro s w
        have ho : ∀ (s : PSched) (w : OwnWorld A), (s.applyOp (ownPHost U keys) w o).2.1.agents = w.agents := by
          intro s w
          cases o <;> simp only [PSched.applyOp, PSched.addAgent, PSched.schedule, ownPHost] <;> (repeat' split) <;> rfl
        simp only [PSched.applyOps]
        split
        · exact ho s w
        · rw [ih]; exact ho s w
    exact this _ _ _
  have key : ∀ k, ∀ (r : Nat) (a : A), agents[r]? = some a →
      U.life iv agents.length r k a = (iterStep (pqStepper (ownPHost U keys) loop) k start).2.agents[r]? := by
    intro k
    induction k with
    | zero =>
      intro r a ha
      show some a = start.2.agents[r]?
      rw [h0, ha]
    | succ k ih =>
      intro r a ha
      have hr : r < agents.length := (List.getElem?_eq_some_iff.1 ha).1
      obtain ⟨-, -, -, -, l, hl, he, -⟩ := C230_pqueue_partial (ownPHost U keys) agents.length hn iv hiv _ _ hH loop hloop ⟨agents, used⟩ hI k
      rw [show (iterStep (pqStepper (ownPHost U keys) loop) (k + 1) start).2 = _ from he,
        own_fold hU (.fin (k * iv)) k agents.length _ (fun w q => by
          simp only [turnWith, ownAct, ownPHost]
          rw [List.length_range]) l (hl.nodup_iff.2 List.nodup_range) (fun q hq => List.mem_range.1 (hl.subset hq)) _ (hinv k),
        if_pos (hl.mem_iff.2 (List.mem_range.2 hr)), ← ih r a ha]
      rfl
  refine ⟨(hinv k).1, ?_, ?_, fun fuel hf => (C230_pqueue_ends_partial _ _ hn iv hiv _ _ hH loop hloop _ hI fuel k hf).1⟩
  · intro r a ha
    have hlt : r < x.2.agents.length := by
      rw [(hinv k).1]
      exact (List.getElem?_eq_some_iff.1 ha).1
    refine ⟨x.2.agents[r], ?_, by simp [hlt]⟩
    rw [key k r a ha]
    simp [x, hlt]
  · have := (C230_pqueue_partial (ownPHost U keys) agents.length hn iv hiv _ _ hH loop hloop ⟨agents, used⟩ hI k).2.2.2.1
    simp only [pqStepper]
    rw [show (x.1.step (ownPHost U keys) loop x.2).2.2 = .ok from this]
    rfl

/-- C255: so the agents are the same after every number of steps, with whatever orders, numbers and schedulers. -/
theorem C255_agree (U : SelfCode A) (Ok : Ref → A → Prop) (hU : U.Safe Ok) (agents : List A) (hne : agents ≠ [])
    (hok : ∀ (r : Nat) (a : A), agents[r]? = some a → Ok r a) (iv : Rat) (hiv : 0 < iv) (order order' : Nat → List Ref → List Ref)
    (perm : ∀ n l, (order n l).Perm l) (perm' : ∀ n l, (order' n l).Perm l) (sh sh' : Bool) (keys : Ref → Nat → Rat) (loop : Nat) (hloop : agents.length ≤ loop)
    (u u' u'' k : Nat) :
    (iterStep (timedStepper (ownHost U order perm)) k (roundsStart agents.length iv sh ⟨agents, u⟩)).2.agents =
        (iterStep (timedStepper (ownHost U order' perm')) k (roundsStart agents.length iv sh' ⟨agents, u'⟩)).2.agents ∧
      (iterStep (timedStepper (ownHost U order perm)) k (roundsStart agents.length iv sh ⟨agents, u⟩)).2.agents =
        (iterStep (pqStepper (ownPHost U keys) loop) k (roundsPStart (ownPHost U keys) agents.length iv ⟨agents, u''⟩)).2.agents := by
  obtain ⟨a1, a2, -⟩ := C255_timed U Ok hU agents hne hok iv hiv order perm sh u k
  obtain ⟨b1, b2, -⟩ := C255_timed U Ok hU agents hne hok iv hiv order' perm' sh' u' k
  obtain ⟨c1, c2, -⟩ := C255_pqueue U Ok hU agents hne hok iv hiv keys loop hloop u'' k
  have ext : ∀ (x y : List A), x.length = agents.length → y.length = agents.length →
      (∀ (r : Nat) (a : A), agents[r]? = some a → ∃ b, U.life iv agents.length r k a = some b ∧ x[r]? = some b) →
      (∀ (r : Nat) (a : A), agents[r]? = some a → ∃ b, U.life iv agents.length r k a = some b ∧ y[r]? = some b) → x = y := by
    intro x y hx hy h1 h2
    apply List.ext_getElem?
    intro r
    rcases Nat.lt_or_ge r agents.length with hr | hr
    · obtain ⟨b, e1, e2⟩ := h1 r agents[r] (by simp [hr])
      obtain ⟨b', e3, e4⟩ := h2 r agents[r] (by simp [hr])
      rw [e1] at e3
      rw [e2, e4, e3]
    · rw [List.getElem?_eq_none (by omega), List.getElem?_eq_none (by omega)]
  exact ⟨ext _ _ a1 b1 a2 b2, ext _ _ a1 c1 a2 c2⟩

/-! ### The counters -/

/-- The attributes of a counter of class `c`. -/
def CounterCls.Ok (c : CounterCls) (a : Dict String Val) : Prop :=
  (numAttr a "times").isSome = true ∧ (c = .aggregated → (numAttr a "neighbors").isSome = true ∧ (numAttr a "total").isSome = true)

private theorem numAttr_set_eq (d : Dict String Val) (k x : String) (q : Rat) :
    numAttr (Dict.set d k (.num (.fin q))) x = if k = x then some q else numAttr d x := by
  unfold numAttr
  rw [Dict.get?_set]
  by_cases h : k = x <;> simp [h]

theorem counters_safe (cls : Ref → CounterCls) (deg : Ref → Nat) : (countersCode cls deg).Safe (fun r a => (cls r).Ok a) := by
  intro r t k n a ⟨h1, h2⟩
  obtain ⟨q, hq⟩ := Option.isSome_iff_exists.1 h1
  simp only [countersCode]
  cases hc : cls r with
  | ticker =>
    simp only [tickerStep, hq]
    refine ⟨_, rfl, ?_, by simp⟩
    simp [numAttr_set_eq]
  | counter =>
    simp only [counterStep, hq]
    refine ⟨_, rfl, ?_, by simp⟩
    simp [numAttr_set_eq]
  | aggregated =>
    obtain ⟨h3, h4⟩ := h2 hc
    obtain ⟨p, hp⟩ := Option.isSome_iff_exists.1 h3
    obtain ⟨z, hz⟩ := Option.isSome_iff_exists.1 h4
    simp only [aggregatedStep, hq, numAttr_set_eq, hp, hz, show ("times" = "neighbors") = False by decide, show ("neighbors" = "total") = False by decide,
      show ("times" = "total") = False by decide, if_false]
    refine ⟨_, rfl, ?_, fun _ => ⟨?_, ?_⟩⟩ <;> simp [numAttr_set_eq]

/-- What a counter of a class has after `k` steps among `n` agents, with `d` neighbours, if it began with `a`. -/
def CounterCls.After (c : CounterCls) (d n k : Nat) (a b : Dict String Val) : Prop :=
  (∀ q, numAttr a "times" = some q → numAttr b "times" = some (q + k)) ∧
  (match c with
    | .ticker => ∀ x, x ≠ "times" → Dict.get? b x = Dict.get? a x
    | .counter => (0 < k → numAttr b "neighbors" = some (d : Rat) ∧ numAttr b "total" = some (n : Rat)) ∧
        ∀ x, x ≠ "times" → x ≠ "neighbors" → x ≠ "total" → Dict.get? b x = Dict.get? a x
    | .aggregated => (∀ q, numAttr a "neighbors" = some q → numAttr b "neighbors" = some (q + k * d)) ∧
        (∀ q, numAttr a "total" = some q → numAttr b "total" = some (q + k * n)) ∧
        ∀ x, x ≠ "times" → x ≠ "neighbors" → x ≠ "total" → Dict.get? b x = Dict.get? a x)

private theorem counters_life (cls : Ref → CounterCls) (deg : Ref → Nat) (iv : Rat) (n : Nat) (r : Ref) (k : Nat) (a : Dict String Val) (ha : (cls r).Ok a) :
    ∃ b, (countersCode cls deg).life iv n r k a = some b ∧ (cls r).After (deg r) n k a b := by
  induction k with
  | zero =>
    refine ⟨a, rfl, fun q h => by simpa using h, ?_⟩
    cases cls r with
    | ticker => exact fun _ _ => rfl
    | counter => exact ⟨by simp, fun _ _ _ _ => rfl⟩
    | aggregated => exact ⟨fun q h => by simpa using h, fun q h => by simpa using h, fun _ _ _ _ => rfl⟩
  | succ k ih =>
    obtain ⟨b, h1, h2, h3⟩ := ih
    obtain ⟨q, hq⟩ := Option.isSome_iff_exists.1 ha.1
    have hb := h2 q hq
    rw [SelfCode.life, h1]
    simp only [Option.bind_some, countersCode]
    cases hc : cls r with
    | ticker =>
      rw [hc] at h3
      simp only [tickerStep, hb]
      refine ⟨_, rfl, ?_, ?_⟩
      · intro q' hq'
        rw [hq] at hq'
        obtain rfl := Option.some.inj hq'
        rw [numAttr_set_eq]
        push_cast
        simp [add_assoc]
      · intro x hx
        rw [Dict.get?_set_ne _ _ (Ne.symm hx)]
        exact h3 x hx
    | counter =>
      rw [hc] at h3
      simp only [counterStep, hb]
      refine ⟨_, rfl, ?_, fun _ => ⟨?_, ?_⟩, ?_⟩
      · intro q' hq'
        rw [hq] at hq'
        obtain rfl := Option.some.inj hq'
        simp [numAttr_set_eq, add_assoc]
      · simp [numAttr_set_eq]
      · simp [numAttr_set_eq]
      · intro x x1 x2 x3
        rw [Dict.get?_set_ne _ _ (Ne.symm x3), Dict.get?_set_ne _ _ (Ne.symm x2), Dict.get?_set_ne _ _ (Ne.symm x1)]
        exact h3.2 x x1 x2 x3
    | aggregated =>
      rw [hc] at h3
      obtain ⟨h4, h5⟩ := ha.2 hc
      obtain ⟨p, hp⟩ := Option.isSome_iff_exists.1 h4
      obtain ⟨z, hz⟩ := Option.isSome_iff_exists.1 h5
      have hbp := h3.1 p hp
      have hbz := h3.2.1 z hz
      simp only [aggregatedStep, hb, numAttr_set_eq, hbp, hbz, show ("times" = "neighbors") = False by decide, show ("neighbors" = "total") = False by decide,
        show ("times" = "total") = False by decide, if_false]
      refine ⟨_, rfl, ?_, ?_, ?_, ?_⟩
      · intro q' hq'
        rw [hq] at hq'
        obtain rfl := Option.some.inj hq'
        simp [numAttr_set_eq, add_assoc]
      · intro q' hq'
        rw [hp] at hq'
        obtain rfl := Option.some.inj hq'
        simp [numAttr_set_eq]
        ring
      · intro q' hq'
        rw [hz] at hq'
        obtain rfl := Option.some.inj hq'
        simp [numAttr_set_eq]
        ring
      · intro x x1 x2 x3
        rw [Dict.get?_set_ne _ _ (Ne.symm x3), Dict.get?_set_ne _ _ (Ne.symm x2), Dict.get?_set_ne _ _ (Ne.symm x1)]
        exact h3.2.2 x x1 x2 x3

/-- C255 for the counters of soil, of all classes together, in a network that does not change: with either scheduler, whatever the order, after `k` steps
each has counted `k` steps; a `CounterModel` has the number of its neighbours and of the agents, an `AggregatedCounter` `k` times as many. -/
theorem C255_counters (cls : Ref → CounterCls) (deg : Ref → Nat) (agents : List (Dict String Val)) (hne : agents ≠ [])
    (hok : ∀ (r : Nat) (a : Dict String Val), agents[r]? = some a → (cls r).Ok a) (iv : Rat) (hiv : 0 < iv) (order : Nat → List Ref → List Ref)
    (perm : ∀ n l, (order n l).Perm l) (sh : Bool) (keys : Ref → Nat → Rat) (loop : Nat) (hloop : agents.length ≤ loop) (used k : Nat)
    (r : Nat) (a : Dict String Val) (ha : agents[r]? = some a) :
    ∃ b, (iterStep (timedStepper (ownHost (countersCode cls deg) order perm)) k (roundsStart agents.length iv sh ⟨agents, used⟩)).2.agents[r]? = some b ∧
      (iterStep (pqStepper (ownPHost (countersCode cls deg) keys) loop) k
        (roundsPStart (ownPHost (countersCode cls deg) keys) agents.length iv ⟨agents, used⟩)).2.agents[r]? = some b ∧
      (cls r).After (deg r) agents.length k a b := by
  obtain ⟨b, h1, h2⟩ := counters_life cls deg iv agents.length r k a (hok r a ha)
  obtain ⟨b1, e1, e2⟩ := (C255_timed _ _ (counters_safe cls deg) agents hne hok iv hiv order perm sh used k).2.1 r a ha
  obtain ⟨b2, f1, f2⟩ := (C255_pqueue _ _ (counters_safe cls deg) agents hne hok iv hiv keys loop hloop used k).2.1 r a ha
  rw [h1] at e1 f1
  obtain rfl := Option.some.inj e1
  obtain rfl := Option.some.inj f1
  exact ⟨b, e2, f2, h2⟩

/-- One of each class in a row, in the reverse order and in that of the keys. -/
def exCounterCls : Ref → CounterCls
  | 0 => .ticker
  | 1 => .counter
  | _ => .aggregated

set_option maxRecDepth 100000 in
example : (iterStep (timedStepper (ownHost (countersCode exCounterCls (fun r => if r = 1 then 2 else 1)) (fun _ l => l.reverse) (fun _ l => l.reverse_perm))) 4
      (roundsStart 3 2 true ⟨[exCounter, exCounter, exCounter], 0⟩)).2.agents =
      [[("times", .num 4), ("neighbors", .num 0), ("total", .num 0)], [("times", .num 4), ("neighbors", .num 2), ("total", .num 3)],
       [("times", .num 4), ("neighbors", .num 4), ("total", .num 12)]] ∧
    (iterStep (pqStepper (ownPHost (countersCode exCounterCls (fun r => if r = 1 then 2 else 1)) (fun r u => (r * u % 3 : Nat))) 3) 4
      (roundsPStart (ownPHost (countersCode exCounterCls (fun r => if r = 1 then 2 else 1)) (fun r u => (r * u % 3 : Nat))) 3 2
        ⟨[exCounter, exCounter, exCounter], 0⟩)).2.agents =
      [[("times", .num 4), ("neighbors", .num 0), ("total", .num 0)], [("times", .num 4), ("neighbors", .num 2), ("total", .num 3)],
       [("times", .num 4), ("neighbors", .num 4), ("total", .num 12)]] := by
  decide +kernel

/-- Code that depends on the time: it keeps the times of its turns. -/
example : SelfCode.life (fun _ t _ n a => some (a ++ [(t, n)])) 2 3 0 3 ([] : List (Time × Nat)) = some [(0, 3), (2, 3), (4, 3)] := by
  decide +kernel

end Verif
