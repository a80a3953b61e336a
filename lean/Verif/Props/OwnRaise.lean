import Verif.Props.OwnRun

/-!
# C255: when a simulation of agents that change only themselves raises
-/

namespace Verif

variable {A : Type}

/-- The same code, except that it keeps `none` instead of raising. -/
private def SelfCode.tried (U : SelfCode A) : SelfCode (Option A) := fun r t k n o => some (o.bind (U r t k n))

private def OwnWorld.lift (w : OwnWorld A) : OwnWorld (Option A) := ⟨w.agents.map some, w.used⟩

private theorem tried_turn_ok (U : SelfCode A) (r : Ref) (t : Time) (k n : Nat) (w : OwnWorld A) (h : (U.turn r t k n w).1 ≠ .error) :
    (U.turn r t k n w).1 = .ret none ∧ (U.turn r t k n w).2.1 = [] ∧
      U.tried.turn r t k n w.lift = (.ret none, [], (U.turn r t k n w).2.2.lift) := by
  unfold SelfCode.turn at h ⊢
  simp only [OwnWorld.lift, List.getElem?_map]
  cases ha : w.agents[r]? with
  | none => simp [ha] at h
  | some a =>
    cases hu : U r t k n a with
    | none => simp [ha, hu] at h
    | some a' => simp [SelfCode.tried, hu, List.map_set]

private theorem tried_turn_error (U : SelfCode A) (r : Ref) (t : Time) (k n : Nat) (w : OwnWorld A) (h : (U.turn r t k n w).1 = .error) :
    (U.tried.turn r t k n w.lift).1 = .error ∨
      ∃ w', U.tried.turn r t k n w.lift = (.ret none, [], w') ∧ w'.agents[r]? = some none := by
  unfold SelfCode.turn at h ⊢
  simp only [OwnWorld.lift, List.getElem?_map]
  cases ha : w.agents[r]? with
  | none => left; rfl
  | some a =>
    have hr := (List.getElem?_eq_some_iff.1 ha).1
    cases hu : U r t k n a with
    | some a' => simp [ha, hu] at h
    | none =>
      right
      refine ⟨_, rfl, ?_⟩
      simp [SelfCode.tried, hu, hr]

private theorem tried_stays (U : SelfCode A) (r : Ref) (t : Time) (k n : Nat) (w : OwnWorld (Option A)) (j : Nat) (hj : w.agents[j]? = some none) :
    (U.tried.turn r t k n w).2.2.agents[j]? = some none := by
  unfold SelfCode.turn
  cases ha : w.agents[r]? with
  | none => exact hj
  | some o =>
    simp only [SelfCode.tried]
    rw [List.getElem?_set]
    split
    · rename_i he
      subst he
      rw [hj] at ha
      cases ha
      simp [(List.getElem?_eq_some_iff.1 hj).1]
    · exact hj

private theorem tried_bucket_stays (U : SelfCode A) (order : Nat → List Ref → List Ref) (perm : ∀ n l, (order n l).Perm l) (now : Time) (l : List Ref) (s : Sched)
    (w : OwnWorld (Option A)) (j : Nat) (hj : w.agents[j]? = some none) :
    (runBucket (ownHost U.tried order perm) now l s w).2.1.agents[j]? = some none := by
  induction l generalizing s w with
  | nil => exact hj
  | cons r l ih =>
    have h1 : ((ownHost U.tried order perm).step r s w).2.2.agents[j]? = some none := tried_stays U r _ _ _ w j hj
    unfold runBucket
    simp only
    split
    · exact h1
    · exact ih _ _ h1
    · exact ih _ _ h1

private theorem tried_bucket (U : SelfCode A) (order : Nat → List Ref → List Ref) (perm : ∀ n l, (order n l).Perm l) (now : Time) (l : List Ref) (s : Sched)
    (w : OwnWorld A) :
    ((runBucket (ownHost U order perm) now l s w).2.2 = false →
      runBucket (ownHost U.tried order perm) now l s w.lift =
        ((runBucket (ownHost U order perm) now l s w).1, (runBucket (ownHost U order perm) now l s w).2.1.lift, false)) ∧
    ((runBucket (ownHost U order perm) now l s w).2.2 = true →
      (runBucket (ownHost U.tried order perm) now l s w.lift).2.2 = true ∨
        ∃ j : Nat, (runBucket (ownHost U.tried order perm) now l s w.lift).2.1.agents[j]? = some none) := by
  induction l generalizing s w with
  | nil => exact ⟨fun _ => rfl, fun h => by cases h⟩
  | cons r l ih =>
    by_cases he : (U.turn r s.time s.steps s.agents.length w).1 = .error
    · have h1 : (runBucket (ownHost U order perm) now (r :: l) s w).2.2 = true := by
        unfold runBucket
        simp only [ownHost, he]
      rw [h1]
      refine ⟨fun h => (by cases h), fun _ => ?_⟩
      rcases tried_turn_error U r s.time s.steps s.agents.length w he with h2 | ⟨w', h2, h3⟩
      · left
        unfold runBucket
        simp only [ownHost, h2]
      · right
        refine ⟨r, ?_⟩
        unfold runBucket
        simp only [show (ownHost U.tried order perm).step r s w.lift = _ from h2]
        exact tried_bucket_stays U order perm now l _ w' r h3
    · obtain ⟨h1, h2, h3⟩ := tried_turn_ok U r s.time s.steps s.agents.length w he
      have e1 : (ownHost U order perm).step r s w = (.ret none, [], (U.turn r s.time s.steps s.agents.length w).2.2) := by
        rw [← h1, ← h2]
        rfl
      have e2 : (ownHost U.tried order perm).step r s w.lift = (.ret none, [], (U.turn r s.time s.steps s.agents.length w).2.2.lift) := h3
      simp only [runBucket, e1, e2]
      exact ih _ _

private theorem tried_step (U : SelfCode A) (order : Nat → List Ref → List Ref) (perm : ∀ n l, (order n l).Perm l) (s : Sched) (w : OwnWorld A) :
    ((s.step (ownHost U order perm) w).2.2 = false →
      s.step (ownHost U.tried order perm) w.lift = ((s.step (ownHost U order perm) w).1, (s.step (ownHost U order perm) w).2.1.lift, false)) ∧
    ((s.step (ownHost U order perm) w).2.2 = true →
      (s.step (ownHost U.tried order perm) w.lift).2.2 = true ∨ ∃ j : Nat, (s.step (ownHost U.tried order perm) w.lift).2.1.agents[j]? = some none) := by
  have hfin : ∀ {W : Type} (x : Sched × W × Bool), (finishStep x).2 = x.2 := by
    intro W x
    unfold finishStep
    split
    · rfl
    · rename_i h
      obtain ⟨a, b, c⟩ := x
      simp at h
      simp [h]
  unfold Sched.step
  split
  · exact ⟨fun _ => rfl, fun h => by cases h⟩
  · rename_i t bucket q hq
    split
    · exact ⟨fun _ => rfl, fun h => by cases h⟩
    · obtain ⟨l, w1, g1, g2⟩ : ∃ l w1, runOrder (ownHost U order perm) s bucket w = (l, w1) ∧ runOrder (ownHost U.tried order perm) s bucket w.lift = (l, w1.lift) := by
        unfold runOrder
        split
        · exact ⟨_, _, rfl, rfl⟩
        · exact ⟨_, _, rfl, rfl⟩
      simp only [g1, g2, hfin]
      obtain ⟨b1, b2⟩ := tried_bucket U order perm s.time l { s with queue := q } w1
      refine ⟨fun h => ?_, b2⟩
      rw [b1 h]
      unfold finishStep
      rw [h]
      rfl

private theorem tried_life (U : SelfCode A) (iv : Rat) (n : Nat) (r : Ref) (k : Nat) (a : A) : U.tried.life iv n r k (some a) = some (U.life iv n r k a) := by
  induction k with
  | zero => rfl
  | succ k ih =>
    rw [SelfCode.life, ih]
    rfl

/-- C255 for any code, of which nothing is known: the first `k` steps do not raise if and only if no agent, alone, would have raised; and then each agent
is what it would have made of itself alone. So whether and when the simulation raises does not depend on the order. -/
theorem C255_raises (U : SelfCode A) (agents : List A) (hne : agents ≠ []) (iv : Rat) (hiv : 0 < iv) (order : Nat → List Ref → List Ref)
    (perm : ∀ n l, (order n l).Perm l) (sh : Bool) (used k : Nat) :
    ((∀ j, j < k → ((timedStepper (ownHost U order perm)).step
        (iterStep (timedStepper (ownHost U order perm)) j (roundsStart agents.length iv sh ⟨agents, used⟩))).2 = false) ↔
      ∀ (r : Nat) (a : A), agents[r]? = some a → U.life iv agents.length r k a ≠ none) ∧
    ((∀ (r : Nat) (a : A), agents[r]? = some a → U.life iv agents.length r k a ≠ none) → ∀ (r : Nat) (a : A), agents[r]? = some a →
      (iterStep (timedStepper (ownHost U order perm)) k (roundsStart agents.length iv sh ⟨agents, used⟩)).2.agents[r]? = U.life iv agents.length r k a) := by
  set X := fun k => iterStep (timedStepper (ownHost U order perm)) k (roundsStart agents.length iv sh ⟨agents, used⟩) with hX
  set Y := fun k => iterStep (timedStepper (ownHost U.tried order perm)) k (roundsStart agents.length iv sh (OwnWorld.lift ⟨agents, used⟩)) with hY
  have hsame : ∀ k, (∀ j, j < k → ((timedStepper (ownHost U order perm)).step (X j)).2 = false) → Y k = ((X k).1, (X k).2.lift) := by
    intro k
    induction k with
    | zero => exact fun _ => rfl
    | succ k ih =>
      intro h
      have h1 := ih (fun j hj => h j (by omega))
      have h2 := (tried_step U order perm (X k).1 (X k).2).1 (h k (by omega))
      simp only [hY, hX] at h1 h2 ⊢
      rw [iterStep_succ, iterStep_succ, h1]
      simp only [timedStepper]
      simp only [timedStepper] at h2
      rw [h2]
  have hlen : (agents.map some).length = agents.length := by simp
  have htried : ∀ k, (∀ (r : Nat) (a : A), agents[r]? = some a → (Y k).2.agents[r]? = some (U.life iv agents.length r k a)) ∧
      (Y k).2.agents.length = agents.length ∧ ((timedStepper (ownHost U.tried order perm)).step (Y k)).2 = false := by
    intro k
    have h := C255_timed U.tried (fun _ _ => True) (fun r t k n a _ => ⟨_, rfl, trivial⟩) (agents.map some) (by simpa using hne) (fun _ _ _ => trivial) iv hiv order
      perm sh used k
    rw [hlen] at h
    obtain ⟨h1, h2, h3, -⟩ := h
    refine ⟨fun r a ha => ?_, h1, h3⟩
    obtain ⟨b, h4, h5⟩ := h2 r (some a) (by simp [ha])
    rw [tried_life] at h4
    cases h4
    exact h5
  have hfwd : ∀ k, (∀ j, j < k → ((timedStepper (ownHost U order perm)).step (X j)).2 = false) → ∀ (r : Nat) (a : A), agents[r]? = some a →
      U.life iv agents.length r k a ≠ none ∧ (X k).2.agents[r]? = U.life iv agents.length r k a := by
    intro k h r a ha
    have h1 := (htried k).1 r a ha
    rw [hsame k h] at h1
    simp only [OwnWorld.lift, List.getElem?_map] at h1
    cases h2 : (X k).2.agents[r]? with
    | none => rw [h2] at h1; cases h1
    | some b =>
      rw [h2] at h1
      simp only [Option.map_some, Option.some.injEq] at h1
      exact ⟨by rw [← h1]; simp, h1⟩
  have hbwd : ∀ k, (∀ (r : Nat) (a : A), agents[r]? = some a → U.life iv agents.length r k a ≠ none) →
      ∀ j, j < k → ((timedStepper (ownHost U order perm)).step (X j)).2 = false := by
    intro k
    induction k with
    | zero => exact fun _ j hj => absurd hj (by omega)
    | succ k ih =>
      intro h j hj
      have h1 := ih (fun r a ha h2 => h r a ha (by rw [SelfCode.life, h2]; rfl))
      by_cases hjk : j < k
      · exact h1 j hjk
      · have : j = k := by omega
        subst this
        by_contra hc
        rcases (tried_step U order perm (X j).1 (X j).2).2 (by simpa [timedStepper] using hc) with h2 | ⟨r, h2⟩
        · have h3 := (htried j).2.2
          rw [hsame j h1] at h3
          simp only [timedStepper] at h3 h2
          rw [h2] at h3
          cases h3
        · have h3 : (Y (j + 1)).2.agents[r]? = some none := by
            simp only [hY]
            rw [iterStep_succ]
            have := hsame j h1
            simp only [hY] at this
            rw [this]
            exact h2
          have hr : r < agents.length := by
            rw [← (htried (j + 1)).2.1]
            exact (List.getElem?_eq_some_iff.1 h3).1
          have ha : agents[r]? = some agents[r] := by simp [hr]
          rw [(htried (j + 1)).1 r _ ha] at h3
          exact h r _ ha (Option.some.inj h3)
  exact ⟨⟨fun h r a ha => (hfwd k h r a ha).1, hbwd k⟩, fun h r a ha => (hfwd k (hbwd k h) r a ha).2⟩

/-! ### The same with `PQueueActivation` -/

private theorem tried_schedule (U : SelfCode A) (keys : Ref → Nat → Rat) (s : PSched) (w : OwnWorld A) (r : Ref) (t : Option Time) (b : Bool) :
    s.schedule (ownPHost U.tried keys) w.lift r t b =
      ((s.schedule (ownPHost U keys) w r t b).1, (s.schedule (ownPHost U keys) w r t b).2.1.lift, (s.schedule (ownPHost U keys) w r t b).2.2) := by
  unfold PSched.schedule
  simp only [ownPHost, OwnWorld.lift]
  split <;> (try split) <;> rfl

private theorem schedule_agents (U : SelfCode A) (keys : Ref → Nat → Rat) (s : PSched) (w : OwnWorld A) (r : Ref) (t : Option Time) (b : Bool) :
    (s.schedule (ownPHost U keys) w r t b).2.1.agents = w.agents := by
  unfold PSched.schedule
  simp only [ownPHost]
  split <;> (try split) <;> rfl

private theorem tried_ploop_stays (U : SelfCode A) (keys : Ref → Nat → Rat) (now : Time) (fuel : Nat) (s : PSched) (w : OwnWorld (Option A)) (j : Nat)
    (hj : w.agents[j]? = some none) : (pLoop (ownPHost U.tried keys) now fuel s w).2.1.agents[j]? = some none := by
  induction fuel generalizing s w with
  | zero =>
    unfold pLoop
    split
    · exact hj
    · split <;> exact hj
  | succ fuel ih =>
    unfold pLoop
    split
    · exact hj
    · rename_i e q hq
      split
      · exact hj
      · have h1 : ((ownPHost U.tried keys).step e.ref s w).2.2.agents[j]? = some none := tried_stays U e.ref _ _ _ w j hj
        have h2 : ((ownPHost U.tried keys).step e.ref s w).2.1 = [] := by
          simp only [ownPHost, SelfCode.turn]
          split <;> (try split) <;> rfl
        simp only [h2, PSched.applyOps, Bool.false_eq_true, if_false]
        split
        · exact h1
        · exact ih _ _ h1
        · split
          · exact ih _ _ h1
          · split
            · rw [schedule_agents]
              exact h1
            · exact ih _ _ (by rw [schedule_agents]; exact h1)

private theorem tried_ploop (U : SelfCode A) (keys : Ref → Nat → Rat) (now : Time) (fuel : Nat) (s : PSched) (w : OwnWorld A) :
    ((pLoop (ownPHost U keys) now fuel s w).2.2.2 ≠ .raised →
      pLoop (ownPHost U.tried keys) now fuel s w.lift = ((pLoop (ownPHost U keys) now fuel s w).1, (pLoop (ownPHost U keys) now fuel s w).2.1.lift,
        (pLoop (ownPHost U keys) now fuel s w).2.2)) ∧
    ((pLoop (ownPHost U keys) now fuel s w).2.2.2 = .raised →
      (pLoop (ownPHost U.tried keys) now fuel s w.lift).2.2.2 = .raised ∨
        ∃ j : Nat, (pLoop (ownPHost U.tried keys) now fuel s w.lift).2.1.agents[j]? = some none) := by
  induction fuel generalizing s w with
  | zero =>
    unfold pLoop
    split
    · exact ⟨fun _ => rfl, fun h => by cases h⟩
    · split
      · exact ⟨fun _ => rfl, fun h => by cases h⟩
      · exact ⟨fun _ => rfl, fun h => by cases h⟩
  | succ fuel ih =>
    rw [pLoop, pLoop]
    cases hq : s.queue with
    | nil => exact ⟨fun _ => rfl, fun h => by cases h⟩
    | cons e q =>
      simp only
      by_cases hnow : now < e.when_
      · simp only [hnow, if_true]
        simp
      · simp only [hnow, if_false]
        by_cases he : (U.turn e.ref s.time s.steps s.agents.length w).1 = .error
        · have e1 : ((ownPHost U keys).step e.ref s w).1 = .error := he
          have e2 : ((ownPHost U keys).step e.ref s w).2.1 = [] := by
            simp only [ownPHost, SelfCode.turn]
            split <;> (try split) <;> rfl
          simp only [e1, e2, PSched.applyOps, Bool.false_eq_true, if_false]
          refine ⟨fun h => (by simp at h), fun _ => ?_⟩
          rcases tried_turn_error U e.ref s.time s.steps s.agents.length w he with h2 | ⟨w', h2, h3⟩
          · left
            have e3 : ((ownPHost U.tried keys).step e.ref s w.lift).1 = .error := h2
            have e4 : ((ownPHost U.tried keys).step e.ref s w.lift).2.1 = [] := by
              simp only [ownPHost, SelfCode.turn]
              split <;> (try split) <;> rfl
            simp only [e3, e4, PSched.applyOps, Bool.false_eq_true, if_false]
          · right
            refine ⟨e.ref, ?_⟩
            simp only [show (ownPHost U.tried keys).step e.ref s w.lift = _ from h2, PSched.applyOps, Bool.false_eq_true, if_false]
            split
            · exact tried_ploop_stays U keys now fuel _ w' e.ref h3
            · split
              · rw [schedule_agents]
                exact h3
              · exact tried_ploop_stays U keys now fuel _ _ e.ref (by rw [schedule_agents]; exact h3)
        · obtain ⟨h1, h2, h3⟩ := tried_turn_ok U e.ref s.time s.steps s.agents.length w he
          have e1 : (ownPHost U keys).step e.ref s w = (.ret none, [], (U.turn e.ref s.time s.steps s.agents.length w).2.2) := by
            rw [← h1, ← h2]
            rfl
          have e2 : (ownPHost U.tried keys).step e.ref s w.lift = (.ret none, [], (U.turn e.ref s.time s.steps s.agents.length w).2.2.lift) := h3
          simp only [e1, e2, PSched.applyOps, Bool.false_eq_true, if_false, tried_schedule]
          split
          · exact ih _ _
          · split
            · exact ⟨fun h => absurd rfl h, fun _ => Or.inl rfl⟩
            · exact ih _ _

private theorem tried_pstep (U : SelfCode A) (keys : Ref → Nat → Rat) (N : Nat) (s : PSched) (w : OwnWorld A) :
    ((s.step (ownPHost U keys) N w).2.2 ≠ .raised →
      s.step (ownPHost U.tried keys) N w.lift = ((s.step (ownPHost U keys) N w).1, (s.step (ownPHost U keys) N w).2.1.lift, (s.step (ownPHost U keys) N w).2.2)) ∧
    ((s.step (ownPHost U keys) N w).2.2 = .raised →
      (s.step (ownPHost U.tried keys) N w.lift).2.2 = .raised ∨ ∃ j : Nat, (s.step (ownPHost U.tried keys) N w.lift).2.1.agents[j]? = some none) := by
  have hfin : ∀ {V : Type} (H : PHost V) (v : V), s.time ≠ .inf → (s.step H N v).2 = ((pLoop H s.time N s v).2.1, (pLoop H s.time N s v).2.2.2) := by
    intro V H v ht
    unfold PSched.step
    rw [if_neg ht]
    simp only
    split
    · rename_i h
      rw [h]
    · rfl
  by_cases ht : s.time = .inf
  · unfold PSched.step
    rw [if_pos ht, if_pos ht]
    exact ⟨fun _ => rfl, fun h => by cases h⟩
  · rw [hfin _ _ ht, hfin _ _ ht]
    obtain ⟨b1, b2⟩ := tried_ploop U keys s.time N s w
    refine ⟨fun h => ?_, b2⟩
    have h := b1 h
    unfold PSched.step
    rw [if_neg ht, if_neg ht]
    simp only [h]
    split
    · rename_i h'
      simp [h']
    · rfl

private theorem tried_ops (U : SelfCode A) (keys : Ref → Nat → Rat) (os : List SOp) (s : PSched) (w : OwnWorld A) :
    s.applyOps (ownPHost U.tried keys) w.lift os =
      ((s.applyOps (ownPHost U keys) w os).1, (s.applyOps (ownPHost U keys) w os).2.1.lift, (s.applyOps (ownPHost U keys) w os).2.2) := by
  induction os generalizing s w with
  | nil => rfl
  | cons o os ih =>
    have h : s.applyOp (ownPHost U.tried keys) w.lift o =
        ((s.applyOp (ownPHost U keys) w o).1, (s.applyOp (ownPHost U keys) w o).2.1.lift, (s.applyOp (ownPHost U keys) w o).2.2) := by
      cases o with
      | add r t =>
        simp only [PSched.applyOp, PSched.addAgent, tried_schedule]
        split <;> rfl
      | remove r => rfl
      | stop => rfl
    simp only [PSched.applyOps, h]
    split
    · rfl
    · exact ih _ _

private theorem tried_start (U : SelfCode A) (keys : Ref → Nat → Rat) (n : Nat) (iv : Rat) (w : OwnWorld A) :
    roundsPStart (ownPHost U.tried keys) n iv w.lift = ((roundsPStart (ownPHost U keys) n iv w).1, (roundsPStart (ownPHost U keys) n iv w).2.lift) := by
  simp only [roundsPStart, tried_ops]

/-- C255 for any code with `PQueueActivation`, whatever the numbers that break ties: the first `k` steps do not raise if and only if no agent, alone, would have
raised. So the same step raises with both schedulers. -/
theorem C255_praises (U : SelfCode A) (agents : List A) (hne : agents ≠ []) (iv : Rat) (hiv : 0 < iv) (keys : Ref → Nat → Rat) (loop : Nat)
    (hloop : agents.length ≤ loop) (used k : Nat) :
    ((∀ j, j < k → ((pqStepper (ownPHost U keys) loop).step
        (iterStep (pqStepper (ownPHost U keys) loop) j (roundsPStart (ownPHost U keys) agents.length iv ⟨agents, used⟩))).2 = false) ↔
      ∀ (r : Nat) (a : A), agents[r]? = some a → U.life iv agents.length r k a ≠ none) ∧
    ((∀ (r : Nat) (a : A), agents[r]? = some a → U.life iv agents.length r k a ≠ none) → ∀ (r : Nat) (a : A), agents[r]? = some a →
      (iterStep (pqStepper (ownPHost U keys) loop) k (roundsPStart (ownPHost U keys) agents.length iv ⟨agents, used⟩)).2.agents[r]? =
        U.life iv agents.length r k a) := by
  set X := fun k => iterStep (pqStepper (ownPHost U keys) loop) k (roundsPStart (ownPHost U keys) agents.length iv ⟨agents, used⟩) with hX
  set Y := fun k => iterStep (pqStepper (ownPHost U.tried keys) loop) k (roundsPStart (ownPHost U.tried keys) agents.length iv (OwnWorld.lift ⟨agents, used⟩)) with hY
  have hflag : ∀ st : PStatus, (st == .raised) = false ↔ st ≠ .raised := by
    intro st
    cases st <;> decide
  have hsame : ∀ k, (∀ j, j < k → ((pqStepper (ownPHost U keys) loop).step (X j)).2 = false) → Y k = ((X k).1, (X k).2.lift) := by
    intro k
    induction k with
    | zero => exact fun _ => tried_start U keys _ iv _
    | succ k ih =>
      intro h
      have h1 := ih (fun j hj => h j (by omega))
      have h2 := (tried_pstep U keys loop (X k).1 (X k).2).1 ((hflag _).1 (h k (by omega)))
      simp only [hY, hX] at h1 h2 ⊢
      rw [iterStep_succ, iterStep_succ, h1]
      simp only [pqStepper]
      simp only [pqStepper] at h2
      rw [h2]
  have hlen : (agents.map some).length = agents.length := by simp
  have htried : ∀ k, (∀ (r : Nat) (a : A), agents[r]? = some a → (Y k).2.agents[r]? = some (U.life iv agents.length r k a)) ∧
      (Y k).2.agents.length = agents.length ∧ ((pqStepper (ownPHost U.tried keys) loop).step (Y k)).2 = false := by
    intro k
    have h := C255_pqueue U.tried (fun _ _ => True) (fun r t k n a _ => ⟨_, rfl, trivial⟩) (agents.map some) (by simpa using hne) (fun _ _ _ => trivial) iv hiv keys
      loop (by simpa using hloop) used k
    rw [hlen] at h
    obtain ⟨h1, h2, h3, -⟩ := h
    refine ⟨fun r a ha => ?_, h1, h3⟩
    obtain ⟨b, h4, h5⟩ := h2 r (some a) (by simp [ha])
    rw [tried_life] at h4
    cases h4
    exact h5
  have hfwd : ∀ k, (∀ j, j < k → ((pqStepper (ownPHost U keys) loop).step (X j)).2 = false) → ∀ (r : Nat) (a : A), agents[r]? = some a →
      U.life iv agents.length r k a ≠ none ∧ (X k).2.agents[r]? = U.life iv agents.length r k a := by
    intro k h r a ha
    have h1 := (htried k).1 r a ha
    rw [hsame k h] at h1
    simp only [OwnWorld.lift, List.getElem?_map] at h1
    cases h2 : (X k).2.agents[r]? with
    | none => rw [h2] at h1; cases h1
    | some b =>
      rw [h2] at h1
      simp only [Option.map_some, Option.some.injEq] at h1
      exact ⟨by rw [← h1]; simp, h1⟩
  have hbwd : ∀ k, (∀ (r : Nat) (a : A), agents[r]? = some a → U.life iv agents.length r k a ≠ none) →
      ∀ j, j < k → ((pqStepper (ownPHost U keys) loop).step (X j)).2 = false := by
    intro k
    induction k with
    | zero => exact fun _ j hj => absurd hj (by omega)
    | succ k ih =>
      intro h j hj
      have h1 := ih (fun r a ha h2 => h r a ha (by rw [SelfCode.life, h2]; rfl))
      by_cases hjk : j < k
      · exact h1 j hjk
      · have : j = k := by omega
        subst this
        by_contra hc
        have hc' : ((X j).1.step (ownPHost U keys) loop (X j).2).2.2 = .raised := by
          by_contra hr
          exact hc ((hflag _).2 hr)
        rcases (tried_pstep U keys loop (X j).1 (X j).2).2 hc' with h2 | ⟨r, h2⟩
        · have h3 := (htried j).2.2
          rw [hsame j h1] at h3
          exact (hflag _).1 h3 h2
        · have h3 : (Y (j + 1)).2.agents[r]? = some none := by
            simp only [hY]
            rw [iterStep_succ]
            have := hsame j h1
            simp only [hY] at this
            rw [this]
            exact h2
          have hr : r < agents.length := by
            rw [← (htried (j + 1)).2.1]
            exact (List.getElem?_eq_some_iff.1 h3).1
          have ha : agents[r]? = some agents[r] := by simp [hr]
          rw [(htried (j + 1)).1 r _ ha] at h3
          exact h r _ ha (Option.some.inj h3)
  exact ⟨⟨fun h r a ha => (hfwd k h r a ha).1, hbwd k⟩, fun h r a ha => (hfwd k (hbwd k h) r a ha).2⟩

/-- Agents that count down and raise at zero. -/
private def countdown : SelfCode Nat := fun _ _ _ _ a => if a = 0 then none else some (a - 1)

set_option maxRecDepth 100000 in
/-- The agent that starts with 2 raises in its third turn: two steps are fine, the third one raises. -/
example : (∀ j, j < 2 → ((timedStepper (ownHost countdown (fun _ l => l.reverse) (fun _ l => List.reverse_perm l))).step
      (iterStep (timedStepper (ownHost countdown (fun _ l => l.reverse) (fun _ l => List.reverse_perm l))) j (roundsStart 3 1 true ⟨[5, 2, 4], 0⟩))).2 = false) ∧
    ((timedStepper (ownHost countdown (fun _ l => l.reverse) (fun _ l => List.reverse_perm l))).step
      (iterStep (timedStepper (ownHost countdown (fun _ l => l.reverse) (fun _ l => List.reverse_perm l))) 2 (roundsStart 3 1 true ⟨[5, 2, 4], 0⟩))).2 = true ∧
    countdown.life 1 3 1 2 2 = some 0 ∧ countdown.life 1 3 1 3 2 = none := by
  decide +kernel

set_option maxRecDepth 100000 in
/-- The same with `PQueueActivation`. -/
example : (∀ j, j < 2 → ((pqStepper (ownPHost countdown (fun r n => (r : Rat) - n)) 3).step
      (iterStep (pqStepper (ownPHost countdown (fun r n => (r : Rat) - n)) 3) j (roundsPStart (ownPHost countdown (fun r n => (r : Rat) - n)) 3 1 ⟨[5, 2, 4], 0⟩))).2 = false) ∧
    ((pqStepper (ownPHost countdown (fun r n => (r : Rat) - n)) 3).step
      (iterStep (pqStepper (ownPHost countdown (fun r n => (r : Rat) - n)) 3) 2 (roundsPStart (ownPHost countdown (fun r n => (r : Rat) - n)) 3 1 ⟨[5, 2, 4], 0⟩))).2 = true := by
  decide +kernel

end Verif
