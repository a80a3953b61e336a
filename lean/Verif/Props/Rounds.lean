import Verif.Model.Rounds
import Verif.Props.ExNoop
import Verif.Proofs.RunLoop

/-!
# C230: soil's scheduler and mesa's

Agents that always return nothing wait one interval. Then a step of soil's default scheduler is a round: every agent once, at the times
`0, iv, 2·iv, …`, and soil does what mesa's `BaseScheduler` or `RandomActivation` do. This stops being true as soon as agents are added or
removed in the middle of a simulation.
-/

namespace Verif

variable {W : Type}

/-- The agents that a piece of log says were added. -/
def addRefs (l : List Ev) : List Ref :=
  l.filterMap fun e => match e with
    | .added r _ => some r
    | _ => none

/-- The operation is not `schedule.add`. -/
def SOp.NotAdd : SOp → Prop
  | .add .. => False
  | _ => True

instance : DecidablePred SOp.NotAdd := fun o => by
  cases o <;> simp only [SOp.NotAdd] <;> infer_instance

/-- The calendar in the middle of a step: the agents added in it, and those that have been activated. -/
def twoBuckets (T D : Rat) (a l : List Ref) : List (Time × List Ref) := oneBucket (.fin T) a ++ oneBucket (.fin (D + T)) l

theorem insert_now (T D : Rat) (hD : 0 < D) (a l : List Ref) (r : Ref) :
    insertBucket (.fin T) r (twoBuckets T D a l) = twoBuckets T D (a ++ [r]) l := by
  unfold twoBuckets oneBucket
  by_cases ha : a = []
  · subst ha
    by_cases hl : l = []
    · subst hl; simp [insertBucket]
    · have h1 : ¬ D + T = T := by linarith
      have h2 : T < D + T := by linarith
      simp [insertBucket, hl, h1, h2]
  · simp [insertBucket, ha]

theorem insert_later (T D : Rat) (hD : 0 < D) (a l : List Ref) (r : Ref) :
    insertBucket (.fin (D + T)) r (twoBuckets T D a l) = twoBuckets T D a (l ++ [r]) := by
  unfold twoBuckets
  by_cases ha : a = []
  · subst ha
    simpa [oneBucket] using insertBucket_one (.fin (D + T)) r l
  · have h1 : ¬ T = D + T := by linarith
    have h2 : ¬ D + T < T := by linarith
    have h := insertBucket_one (.fin (D + T)) r l
    have e : oneBucket (Time.fin T) a = [(.fin T, a)] := by simp [oneBucket, ha]
    rw [e]
    simp only [List.cons_append, List.nil_append, insertBucket, Time.fin.injEq, h1, if_false, Time.fin_lt, h2]
    rw [h]

/-- What operations in the middle of a step do to the calendar and the log. -/
theorem rounds_ops (T D : Rat) (hD : 0 < D) (os : List SOp) (s : Sched) (ht : s.time = .fin T) (a l : List Ref)
    (hq : s.queue = twoBuckets T D a l) :
    ∃ new, (s.applyOps os).log = s.log ++ new ∧ actRefs new = [] ∧ (∀ e ∈ new, e.time = .fin T) ∧
      (s.applyOps os).queue = twoBuckets T D (a ++ addRefs new) l ∧ (s.applyOps os).time = s.time ∧ (s.applyOps os).steps = s.steps ∧
      (s.applyOps os).interval = s.interval ∧ (s.applyOps os).shuffle = s.shuffle ∧ ((∀ o ∈ os, o.NotAdd) → new = []) := by
  induction os generalizing s a with
  | nil => exact ⟨[], by simp [Sched.applyOps], rfl, by simp, by simpa [Sched.applyOps, addRefs] using hq, rfl, rfl, rfl, rfl, fun _ => rfl⟩
  | cons o os ih =>
    cases o with
    | add r when_ =>
      have hq' : (s.applyOp (.add r when_)).queue = twoBuckets T D (a ++ [r]) l := by
        simp only [Sched.applyOp, Sched.addAgent, Sched.schedule, Time.pyOr, ht, hq]
        exact insert_now T D hD a l r
      obtain ⟨new, h1, h2, h3, h4, h5, h6, h7, h8, _⟩ := ih (s.applyOp (.add r when_)) ht (a ++ [r]) hq'
      refine ⟨.added r s.time :: new, ?_, ?_, ?_, ?_, h5, h6, h7, h8, ?_⟩
      · show (Sched.applyOps _ os).log = _
        rw [h1]
        simp [Sched.applyOp, Sched.addAgent, Sched.schedule]
      · simpa [actRefs] using h2
      · intro e he
        rcases List.mem_cons.1 he with rfl | he
        · exact ht
        · exact h3 e he
      · show (Sched.applyOps _ os).queue = _
        rw [h4]
        simp [addRefs]
      · intro h
        exact absurd (h (.add r when_) (by simp)) (fun h => h)
    | remove r =>
      obtain ⟨new, h1, h2, h3, h4, h5, h6, h7, h8, h9⟩ := ih (s.applyOp (.remove r)) ht a hq
      exact ⟨new, h1, h2, h3, h4, h5, h6, h7, h8, fun h => h9 (fun o ho => h o (by simp [ho]))⟩
    | stop =>
      obtain ⟨new, h1, h2, h3, h4, h5, h6, h7, h8, h9⟩ := ih (s.applyOp .stop) ht a hq
      exact ⟨new, h1, h2, h3, h4, h5, h6, h7, h8, fun h => h9 (fun o ho => h o (by simp [ho]))⟩

/-- The loop of a step with agents that return nothing. -/
theorem rounds_bucket (H : Host W) (hret : ∀ r s w, (H.step r s w).1 = .ret none) (T D : Rat) (hT : 0 ≤ T) (hD : 0 < D) (l : List Ref) (s : Sched)
    (w : W) (ht : s.time = .fin T) (hi : s.interval = .fin D) (a l0 : List Ref) (hq : s.queue = twoBuckets T D a l0) :
    ∃ s' w' new, runBucket H (.fin T) l s w = (s', w', false) ∧ s'.log = s.log ++ new ∧ actRefs new = l ∧ (∀ e ∈ new, e.time = .fin T) ∧
      s'.queue = twoBuckets T D (a ++ addRefs new) (l0 ++ l) ∧ s'.time = s.time ∧ s'.steps = s.steps ∧ s'.interval = s.interval ∧
      s'.shuffle = s.shuffle ∧ ((∀ r s w, ∀ o ∈ (H.step r s w).2.1, o.NotAdd) → addRefs new = []) := by
  induction l generalizing s w a l0 with
  | nil => exact ⟨s, w, [], rfl, by simp, rfl, by simp, by simpa [addRefs] using hq, rfl, rfl, rfl, rfl, fun _ => rfl⟩
  | cons r l ih =>
    obtain ⟨new, h1, h2, h3, h4, h5, h6, h7, h8, h9⟩ := rounds_ops T D hD (H.step r s w).2.1 s ht a l0 hq
    have hr := hret r s w
    generalize hs1 : s.applyOps (H.step r s w).2.1 = s1 at *
    have hnz : ¬ (Time.fin (D + T) : Time) = 0 := by
      intro h
      have : D + T = 0 := by simpa using h
      linarith
    have hne : (Time.fin (D + T) : Time) ≠ .inf := by intro h; cases h
    obtain ⟨s', w', new', g1, g2, g3, g4, g5, g6, g7, g8, g9, g10⟩ := ih ((s1.logAct r (.fin T) (.ret none)).schedule r (some (.fin (D + T))))
      (H.step r s w).2.2 (by simp [Sched.schedule, Sched.logAct, h5, ht]) (by simp [Sched.schedule, Sched.logAct, h7, hi]) (a ++ addRefs new) (l0 ++ [r]) (by
        simp only [Sched.schedule, Sched.logAct, h4, Time.pyOr, if_neg hnz]
        exact insert_later T D hD _ _ r)
    refine ⟨s', w', new ++ .act r (.fin T) (.ret none) :: new', ?_, ?_, ?_, ?_, ?_, g6.trans h5, g7.trans h6, g8.trans h7, g9.trans h8, ?_⟩
    · simp only [runBucket, hr, hs1]
      have hiv : (s1.logAct r (.fin T) (.ret none)).interval = .fin D := h7.trans hi
      rw [hiv, show Time.pyOr none (Time.fin D) = .fin D from rfl, Time.fin_add, if_neg hne]
      exact g1
    · rw [g2]
      simp [Sched.schedule, Sched.logAct, h1]
    · simp only [actRefs, List.filterMap_append, List.filterMap_cons] at h2 g3 ⊢
      rw [h2, g3]
      rfl
    · intro e he
      rcases List.mem_append.1 he with he | he
      · exact h3 e he
      · rcases List.mem_cons.1 he with rfl | he
        · rfl
        · exact g4 e he
    · rw [g5]
      simp [addRefs]
    · intro h
      have e1 := h9 (h r s w)
      have e2 := g10 h
      subst e1
      simpa [addRefs] using e2

/-- One step from a calendar with one entry. -/
theorem rounds_step (H : Host W) (hret : ∀ r s w, (H.step r s w).1 = .ret none) (T D : Rat) (hT : 0 ≤ T) (hD : 0 < D) (s : Sched) (w : W)
    (ht : s.time = .fin T) (hi : s.interval = .fin D) (l rest : List Ref) (hne : l ≠ [])
    (hq : s.queue = (.fin T, l) :: oneBucket (.fin (D + T)) rest) :
    ∃ s' w' new l', s.step H w = (s', w', false) ∧ l'.Perm l ∧ s'.log = s.log ++ new ∧ actRefs new = l' ∧ (∀ e ∈ new, e.time = .fin T) ∧
      s'.queue = twoBuckets T D (addRefs new) (rest ++ l') ∧ s'.time = headTime s'.queue ∧ s'.steps = s.steps + 1 ∧
      s'.interval = s.interval ∧ s'.shuffle = s.shuffle ∧ (s.shuffle = false → l' = l) ∧
      ((∀ r s w, ∀ o ∈ (H.step r s w).2.1, o.NotAdd) → addRefs new = []) := by
  have hord : ∃ l' w1, runOrder H s l w = (l', w1) ∧ l'.Perm l ∧ (s.shuffle = false → l' = l) := by
    unfold runOrder
    cases hs : s.shuffle with
    | true => exact ⟨_, _, rfl, H.shuffle_perm _ _, fun h => nomatch h⟩
    | false => exact ⟨_, _, rfl, List.Perm.refl _, fun _ => rfl⟩
  obtain ⟨l', w1, e1, e2, e3⟩ := hord
  obtain ⟨s', w', new, g1, g2, g3, g4, g5, g6, g7, g8, g9, g10⟩ := rounds_bucket H hret T D hT hD l'
    { s with queue := oneBucket (.fin (D + T)) rest } w1 ht hi [] rest (by simp [twoBuckets, oneBucket])
  refine ⟨{ s' with steps := s'.steps + 1, time := headTime s'.queue }, w', new, l', ?_, e2, g2, g3, g4, ?_, rfl, ?_, g8, g9, e3, g10⟩
  · unfold Sched.step
    rw [hq]
    simp only
    rw [if_neg (by rw [ht]; exact lt_irrefl _), e1]
    simp only
    rw [ht, ht] at *
    rw [g1]
    rfl
  · simpa using g5
  · show s'.steps + 1 = _
    rw [g7]

/-- What is true before each round. -/
structure RoundState (n : Nat) (iv : Rat) (sh : Bool) (k : Nat) (s : Sched) : Prop where
  time : s.time = .fin (k * iv)
  steps : s.steps = k
  interval : s.interval = .fin iv
  shuffle : s.shuffle = sh
  queue : ∃ l, l.Perm (List.range n) ∧ (sh = false → l = List.range n) ∧ s.queue = [(.fin (k * iv), l)]

theorem rounds_adds (n : Nat) (iv : Time) (sh : Bool) :
    ((Sched.init iv sh).applyOps ((List.range n).map (fun r => .add r none))).shuffle = sh := by
  have : ∀ (os : List SOp) (s : Sched), (s.applyOps os).shuffle = s.shuffle := by
    intro os
    induction os with
    | nil => intro s; rfl
    | cons o os ih => intro s; refine (ih (s.applyOp o)).trans ?_; cases o <;> rfl
  exact this _ _

theorem roundsStart_state (n : Nat) (hn : 0 < n) (iv : Rat) (sh : Bool) (w : W) : RoundState n iv sh 0 (roundsStart n iv sh w).1 := by
  obtain ⟨h1, h2, h3, h4, h5, h6⟩ := noop_adds n (.fin iv) sh
  have hr : List.range n ≠ [] := by simp; omega
  refine ⟨by rw [roundsStart, h3]; simp, h4, h5, rounds_adds n _ sh, List.range n, List.Perm.refl _, fun _ => rfl, ?_⟩
  rw [roundsStart, h1, oneBucket, if_neg hr]
  simp

theorem range_ne {n : Nat} (hn : 0 < n) {l : List Ref} (h : l.Perm (List.range n)) : l ≠ [] := by
  intro h0
  have := h.length_eq
  rw [h0] at this
  simp at this
  omega

theorem rounds_after (H : Host W) (hret : ∀ r s w, (H.step r s w).1 = .ret none) (hno : ∀ r s w, ∀ o ∈ (H.step r s w).2.1, o.NotAdd)
    (n : Nat) (hn : 0 < n) (iv : Rat) (hiv : 0 < iv) (sh : Bool) (k : Nat) (s : Sched) (w : W) (h : RoundState n iv sh k s) :
    ∃ s' w' new, s.step H w = (s', w', false) ∧ RoundState n iv sh (k + 1) s' ∧ s'.log = s.log ++ new ∧ (actRefs new).Perm (List.range n) ∧
      (sh = false → actRefs new = List.range n) ∧ (∀ e ∈ new, e.time = .fin (k * iv)) ∧ addRefs new = [] := by
  obtain ⟨l, h1, h2, hq⟩ := h.queue
  have hT : (0 : Rat) ≤ k * iv := by positivity
  obtain ⟨s', w', new, l', g1, g2, g3, g4, g5, g6, g7, g8, g9, g10, g11, g12⟩ := rounds_step H hret (k * iv) iv hT hiv s w h.time h.interval l []
    (range_ne hn h1) (by simpa [oneBucket] using hq)
  have hadd := g12 hno
  have hl' : l' ≠ [] := range_ne hn (g2.trans h1)
  have e : iv + k * iv = ((k + 1 : Nat) : Rat) * iv := by push_cast; ring
  have hq' : s'.queue = [(.fin (((k + 1 : Nat) : Rat) * iv), l')] := by
    rw [g6, hadd, ← e]
    simp [twoBuckets, oneBucket, hl']
  refine ⟨s', w', new, g1, ⟨?_, ?_, g9.trans h.interval, g10.trans h.shuffle, l', g2.trans h1, fun hs => ?_, hq'⟩, g3, ?_, ?_, g5, hadd⟩
  · rw [g7, hq']
    rfl
  · rw [g8, h.steps]
  · rw [g11 (h.shuffle.trans hs), h2 hs]
  · rw [g4]
    exact g2.trans h1
  · intro hs
    rw [g4, g11 (h.shuffle.trans hs), h2 hs]

/-- C230 (partial: nobody is added or removed): if the agents always return nothing and add no agents, then for any number of agents, any interval and any user code, with or
without shuffling: after `k` steps the clock says `k·iv` and the counter `k`, no step raises, and step `k + 1` activates every agent exactly
once, at time `k·iv`; without shuffling, in the order in which they were added. -/
theorem C230_rounds_partial (H : Host W) (hret : ∀ r s w, (H.step r s w).1 = .ret none) (hno : ∀ r s w, ∀ o ∈ (H.step r s w).2.1, o.NotAdd)
    (n : Nat) (hn : 0 < n) (iv : Rat) (hiv : 0 < iv) (sh : Bool) (w0 : W) (k : Nat) :
    let x := iterStep (timedStepper H) k (roundsStart n iv sh w0)
    let y := iterStep (timedStepper H) (k + 1) (roundsStart n iv sh w0)
    x.1.time = .fin (k * iv) ∧ x.1.steps = k ∧ (x.1.step H x.2).2.2 = false ∧
    ∃ new, y.1.log = x.1.log ++ new ∧ (actRefs new).Perm (List.range n) ∧ (sh = false → actRefs new = List.range n) ∧
      ∀ e ∈ new, e.isAct = true ∧ e.time = .fin (k * iv) := by
  have main : ∀ k, RoundState n iv sh k (iterStep (timedStepper H) k (roundsStart n iv sh w0)).1 := by
    intro k
    induction k with
    | zero => exact roundsStart_state n hn iv sh w0
    | succ k ih =>
      rw [iterStep_succ]
      obtain ⟨s', w', new, g1, g2, -⟩ := rounds_after H hret hno n hn iv hiv sh k _ (iterStep (timedStepper H) k (roundsStart n iv sh w0)).2 ih
      simp only [timedStepper] at g1 ⊢
      rw [g1]
      exact g2
  intro x y
  have h := main k
  obtain ⟨s', w', new, g1, g2, g3, g4, g5, g6, g7⟩ := rounds_after H hret hno n hn iv hiv sh k x.1 x.2 h
  have hy : y = (s', w') := by
    show iterStep _ (k + 1) _ = _
    rw [iterStep_succ]
    show ((x.1.step H x.2).1, (x.1.step H x.2).2.1) = _
    rw [g1]
  refine ⟨h.time, h.steps, by rw [g1], new, by rw [hy, g3], g4, g5, fun e he => ⟨?_, g6 e he⟩⟩
  cases e with
  | act => rfl
  | added r t =>
    have : r ∈ addRefs new := List.mem_filterMap.2 ⟨_, he, rfl⟩
    rw [g7] at this
    exact absurd this (by simp)

/-- C230 (partial, as before): so each agent has been activated exactly `k` times after `k` steps. -/
theorem C230_counts_partial (H : Host W) (hret : ∀ r s w, (H.step r s w).1 = .ret none) (hno : ∀ r s w, ∀ o ∈ (H.step r s w).2.1, o.NotAdd)
    (n : Nat) (hn : 0 < n) (iv : Rat) (hiv : 0 < iv) (sh : Bool) (w0 : W) (k : Nat) (r : Ref) (hr : r < n) :
    (actRefs (iterStep (timedStepper H) k (roundsStart n iv sh w0)).1.log).count r = k := by
  induction k with
  | zero =>
    have : ∀ (os : List SOp) (s : Sched), actRefs (s.applyOps os).log = actRefs s.log := by
      intro os
      induction os with
      | nil => intro s; rfl
      | cons o os ih =>
        intro s
        refine (ih (s.applyOp o)).trans ?_
        cases o <;> simp [Sched.applyOp, Sched.addAgent, Sched.schedule, Sched.removeAgent, actRefs]
    show (actRefs (Sched.applyOps _ _).log).count r = 0
    rw [this]
    rfl
  | succ k ih =>
    obtain ⟨-, -, -, new, h1, h2, -⟩ := C230_rounds_partial H hret hno n hn iv hiv sh w0 k
    rw [h1]
    simp only [actRefs, List.filterMap_append, List.count_append] at ih h2 ⊢
    rw [ih, h2.count_eq, List.count_eq_one_of_mem List.nodup_range (List.mem_range.2 hr)]

/-- C230 is violated by agents that are removed with mesa's `schedule.remove`: they are not in `schedule.agents` any more, and go on being
activated in every step for ever. -/
theorem C230_removed_false (H : Host W) (hret : ∀ r s w, (H.step r s w).1 = .ret none) (hno : ∀ r s w, ∀ o ∈ (H.step r s w).2.1, o.NotAdd)
    (n : Nat) (iv : Rat) (hiv : 0 < iv) (sh : Bool) (w0 : W) (r : Ref) (hr : r < n) (k j : Nat) (hj : k ≤ j)
    (_hrem : r ∉ (iterStep (timedStepper H) k (roundsStart n iv sh w0)).1.agents) :
    ∃ new, (iterStep (timedStepper H) (j + 1) (roundsStart n iv sh w0)).1.log = (iterStep (timedStepper H) j (roundsStart n iv sh w0)).1.log ++ new ∧
      r ∈ actRefs new := by
  obtain ⟨-, -, -, new, h1, h2, -⟩ := C230_rounds_partial H hret hno n (Nat.lt_of_le_of_lt (Nat.zero_le r) hr) iv hiv sh w0 j
  exact ⟨new, h1, h2.mem_iff.2 (List.mem_range.2 hr)⟩

/-- C230 is violated when agents are added in a step: the next step is not a round. It activates the added agents only, once for each time
they were added, at the same time as the step before. -/
theorem C230_added_false (H : Host W) (hret : ∀ r s w, (H.step r s w).1 = .ret none) (n : Nat) (hn : 0 < n) (iv : Rat) (hiv : 0 < iv) (sh : Bool) (w0 : W) :
    let x := roundsStart n iv sh w0
    let y := iterStep (timedStepper H) 1 x
    let z := iterStep (timedStepper H) 2 x
    ∃ new, y.1.log = x.1.log ++ new ∧ (addRefs new ≠ [] →
      y.1.time = 0 ∧ ∃ new', z.1.log = y.1.log ++ new' ∧ (actRefs new').Perm (addRefs new) ∧ (∀ e ∈ new', e.time = 0) ∧
        ∀ r < n, r ∉ addRefs new → r ∉ actRefs new') := by
  intro x y z
  have h := roundsStart_state n hn iv sh w0
  obtain ⟨l, h1, -, hq⟩ := h.queue
  have e0 : ((0 : Nat) : Rat) * iv = 0 := by simp
  have ht := h.time
  rw [e0] at ht hq
  obtain ⟨s1, w1, new, l', g1, g2, g3, g4, g5, g6, g7, g8, g9, g10, -, -⟩ := rounds_step H hret 0 iv (le_refl _) hiv x.1 x.2 ht h.interval l []
    (range_ne hn h1) (by simpa [oneBucket] using hq)
  have hy : y = (s1, w1) := by
    show ((x.1.step H x.2).1, (x.1.step H x.2).2.1) = _
    rw [g1]
  refine ⟨new, by rw [hy, g3], fun hadd => ?_⟩
  have hq1 : s1.queue = (.fin 0, addRefs new) :: oneBucket (.fin (iv + 0)) l' := by
    rw [g6]
    simp [twoBuckets, oneBucket, hadd]
  have ht1 : s1.time = .fin 0 := by rw [g7, hq1]; rfl
  obtain ⟨s2, w2, new', l'', k1, k2, k3, k4, k5, -⟩ := rounds_step H hret 0 iv (le_refl _) hiv s1 w1 ht1 (g9.trans h.interval) (addRefs new) l' hadd hq1
  have hz : z = (s2, w2) := by
    show ((y.1.step H y.2).1, (y.1.step H y.2).2.1) = _
    rw [hy, k1]
  refine ⟨by rw [hy]; exact ht1, new', by rw [hz, hy, k3], ?_, k5, ?_⟩
  · rw [k4]
    exact k2
  · intro r _ hr
    rw [k4]
    exact fun hm => hr (k2.mem_iff.1 hm)

/-! ### The world -/

/-- Agents of the kind described by `MesaCode`, as long as `I` holds: `act` is what they do, with the time measured in intervals. -/
structure MesaHost (H : Host W) (n : Nat) (iv : Rat) (act : MesaCode W) (I : W → Prop) : Prop where
  step : ∀ r < n, ∀ (s : Sched) (w : W) (t : Rat), I w → s.time = .fin (t * iv) → H.step r s w = (.ret none, [], act r t s.steps s.agents w)
  inv : ∀ r < n, ∀ t k as w, I w → I (act r t k as w)
  shuffle : ∀ l w, I w → I (H.shuffle l w).2

theorem mesa_bucket {H : Host W} {n : Nat} {iv : Rat} {act : MesaCode W} {I : W → Prop} (hH : MesaHost H n iv act I) (t : Rat) (ht0 : 0 ≤ t) (hD : 0 < iv)
    (l : List Ref) (hl : ∀ r ∈ l, r < n) (s : Sched) (w : W) (hI : I w) (ht : s.time = .fin (t * iv)) (hi : s.interval = .fin iv) (l0 : List Ref)
    (hq : s.queue = oneBucket (.fin (iv + t * iv)) l0) :
    ∃ s', runBucket H (.fin (t * iv)) l s w = (s', l.foldl (fun w r => act r t s.steps s.agents w) w, false) ∧
      s'.queue = oneBucket (.fin (iv + t * iv)) (l0 ++ l) ∧ s'.time = s.time ∧ s'.steps = s.steps ∧ s'.interval = s.interval ∧
      s'.shuffle = s.shuffle ∧ s'.agents = s.agents ∧ s'.running = s.running ∧ I (l.foldl (fun w r => act r t s.steps s.agents w) w) := by
  induction l generalizing s w l0 with
  | nil => exact ⟨s, rfl, by simpa using hq, rfl, rfl, rfl, rfl, rfl, rfl, hI⟩
  | cons r l ih =>
    have hs := hH.step r (hl r (by simp)) s w t hI ht
    have hT : 0 ≤ t * iv := by positivity
    have hnz : ¬ (Time.fin (iv + t * iv) : Time) = 0 := by
      intro h
      have : iv + t * iv = 0 := by simpa using h
      linarith
    have hne : (Time.fin (iv + t * iv) : Time) ≠ .inf := by intro h; cases h
    obtain ⟨s', g1, g2, g3, g4, g5, g6, g7, g8, g9⟩ := ih (fun q hq => hl q (by simp [hq]))
      (((s.applyOps []).logAct r (.fin (t * iv)) (.ret none)).schedule r (some (.fin (iv + t * iv)))) (act r t s.steps s.agents w)
      (hH.inv r (hl r (by simp)) _ _ _ _ hI) ht hi (l0 ++ [r]) (by
        simp only [Sched.schedule, Sched.logAct, Sched.applyOps, List.foldl_nil, hq, Time.pyOr, if_neg hnz]
        exact insertBucket_one _ r l0)
    refine ⟨s', ?_, by simpa using g2, g3, g4, g5, g6, g7, g8, g9⟩
    simp only [runBucket, hs]
    have hiv : ((s.applyOps []).logAct r (.fin (t * iv)) (.ret none)).interval = .fin iv := hi
    rw [hiv, show Time.pyOr none (Time.fin iv) = .fin iv from rfl, Time.fin_add, if_neg hne]
    exact g1

/-- What is true before each round, with the world. -/
structure MesaRel (n : Nat) (iv : Rat) (sh : Bool) (I : W → Prop) (m : MesaState W) (x : Sched × W) : Prop where
  round : RoundState n iv sh m.steps x.1
  time : m.time = m.steps
  agents : x.1.agents = List.range n
  magents : m.agents = List.range n
  world : x.2 = m.world
  running : x.1.running = true
  inv : I m.world

theorem mesa_step {H : Host W} {n : Nat} (hn : 0 < n) {iv : Rat} (hiv : 0 < iv) {act : MesaCode W} {I : W → Prop} (hH : MesaHost H n iv act I) (sh : Bool)
    (m : MesaState W) (x : Sched × W) (h : MesaRel n iv sh I m x) :
    ∃ m' x', x.1.step H x.2 = (x'.1, x'.2, false) ∧ MesaRound act H.shuffle sh m m' ∧ MesaRel n iv sh I m' x' ∧ m'.steps = m.steps + 1 := by
  obtain ⟨l, h1, h2, hq⟩ := h.round.queue
  have hord : ∃ l' w1, runOrder H x.1 l x.2 = (l', w1) ∧ l'.Perm l ∧ (sh = false → l' = l) ∧ I w1 ∧
      MesaRound act H.shuffle sh m (mesaStep act l' { m with world := w1 }) := by
    unfold runOrder MesaRound
    rw [h.round.shuffle, h.world]
    cases sh with
    | true =>
      refine ⟨_, _, rfl, H.shuffle_perm _ _, (fun h => nomatch h), hH.shuffle _ _ h.inv, ?_⟩
      simp only [if_true]
      exact ⟨l, by rw [h.magents]; exact h1, rfl⟩
    | false =>
      refine ⟨_, _, rfl, List.Perm.refl _, fun _ => rfl, h.inv, ?_⟩
      simp only [Bool.false_eq_true, if_false]
      rw [h2 rfl, ← h.magents]
  obtain ⟨l', w1, e1, e2, e3, e4, e5⟩ := hord
  have hlen : ∀ r ∈ l', r < n := fun r hr => List.mem_range.1 ((e2.trans h1).subset hr)
  obtain ⟨s', g1, g2, g3, g4, g5, g6, g7, g8, g9⟩ := mesa_bucket hH (m.steps : Rat) (by positivity) hiv l' hlen { x.1 with queue := [] } w1 e4
    h.round.time h.round.interval [] (by simp [oneBucket])
  have hl' : l' ≠ [] := range_ne hn (e2.trans h1)
  have e : iv + m.steps * iv = ((m.steps + 1 : Nat) : Rat) * iv := by push_cast; ring
  have hq' : s'.queue = [(.fin (((m.steps + 1 : Nat) : Rat) * iv), l')] := by
    rw [g2, ← e]
    simp [oneBucket, hl']
  have hw : (mesaStep act l' { m with world := w1 }).world = l'.foldl (fun w r => act r m.steps x.1.steps x.1.agents w) w1 := by
    simp only [mesaStep]
    rw [h.time, h.round.steps, h.agents, h.magents]
  refine ⟨_, ({ s' with steps := s'.steps + 1, time := headTime s'.queue }, l'.foldl (fun w r => act r m.steps x.1.steps x.1.agents w) w1), ?_, e5, ?_, rfl⟩
  · unfold Sched.step
    rw [hq]
    simp only
    rw [if_neg (by rw [h.round.time]; exact lt_irrefl _), e1]
    simp only
    have g1' := g1
    rw [← h.round.time] at g1'
    exact (congrArg finishStep g1').trans rfl
  · refine ⟨⟨?_, ?_, g5.trans h.round.interval, g6.trans h.round.shuffle, l', e2.trans h1, fun hs => ?_, hq'⟩, ?_, g7.trans h.agents, h.magents, hw.symm,
      g8.trans h.running, ?_⟩
    · show headTime s'.queue = _
      rw [hq']
      rfl
    · show s'.steps + 1 = m.steps + 1
      rw [g4]
      show x.1.steps + 1 = _
      rw [h.round.steps]
    · rw [e3 hs, h2 hs]
    · show m.time + 1 = ((m.steps + 1 : Nat) : Rat)
      rw [h.time]
      push_cast
      rfl
    · rw [hw]
      exact g9

theorem mesa_iter {H : Host W} {n : Nat} (hn : 0 < n) {iv : Rat} (hiv : 0 < iv) {act : MesaCode W} {I : W → Prop} (hH : MesaHost H n iv act I) (sh : Bool)
    (w0 : W) (hI : I w0) :
    ∃ ms : Nat → MesaState W, ms 0 = ⟨0, 0, List.range n, w0⟩ ∧ (∀ k, MesaRound act H.shuffle sh (ms k) (ms (k + 1))) ∧
      ∀ k, (ms k).steps = k ∧ MesaRel n iv sh I (ms k) (iterStep (timedStepper H) k (roundsStart n iv sh w0)) ∧
        ((timedStepper H).step (iterStep (timedStepper H) k (roundsStart n iv sh w0))).2 = false := by
  have h0 : MesaRel n iv sh I ⟨0, 0, List.range n, w0⟩ (roundsStart n iv sh w0) :=
    ⟨roundsStart_state n hn iv sh w0, by simp, (noop_adds n (.fin iv) sh).2.1, rfl, rfl, (noop_adds n (.fin iv) sh).2.2.2.2.2, hI⟩
  haveI : Nonempty (MesaState W) := ⟨⟨0, 0, [], w0⟩⟩
  choose! nm hnm using fun (mx : MesaState W × (Sched × W)) (h : MesaRel n iv sh I mx.1 mx.2) => mesa_step hn hiv hH sh mx.1 mx.2 h
  let ms : Nat → MesaState W := fun k => Nat.rec (motive := fun _ => MesaState W) ⟨0, 0, List.range n, w0⟩
    (fun k m => nm (m, iterStep (timedStepper H) k (roundsStart n iv sh w0))) k
  have main : ∀ k, (ms k).steps = k ∧ MesaRel n iv sh I (ms k) (iterStep (timedStepper H) k (roundsStart n iv sh w0)) := by
    intro k
    induction k with
    | zero => exact ⟨rfl, h0⟩
    | succ k ih =>
      obtain ⟨x', hx1, hx2, hx3, hx4⟩ := hnm (ms k, iterStep (timedStepper H) k (roundsStart n iv sh w0)) ih.2
      refine ⟨by rw [show ms (k + 1) = nm (ms k, iterStep (timedStepper H) k (roundsStart n iv sh w0)) from rfl, hx4, ih.1], ?_⟩
      rw [iterStep_succ]
      have : ((timedStepper H).step (iterStep (timedStepper H) k (roundsStart n iv sh w0))).1 = x' := by
        simp only [timedStepper] at hx1 ⊢
        rw [hx1]
      rw [this]
      exact hx3
  refine ⟨ms, rfl, fun k => ?_, fun k => ⟨(main k).1, (main k).2, ?_⟩⟩
  · obtain ⟨x', hx1, hx2, hx3, hx4⟩ := hnm (ms k, iterStep (timedStepper H) k (roundsStart n iv sh w0)) (main k).2
    exact hx2
  · obtain ⟨x', hx1, hx2, hx3, hx4⟩ := hnm (ms k, iterStep (timedStepper H) k (roundsStart n iv sh w0)) (main k).2
    simp only [timedStepper] at hx1 ⊢
    rw [hx1]

/-- C230 (partial, as before): soil's default scheduler does with such agents what mesa's schedulers do. There is a run of mesa's scheduler (`BaseScheduler` if there
is no shuffling, else `RandomActivation`) with the same agents such that after every number of steps the worlds are the same, and so are the
agents, the numbers of steps, and the clocks (mesa counts the intervals). -/
theorem C230_mesa_partial (H : Host W) (n : Nat) (hn : 0 < n) (iv : Rat) (hiv : 0 < iv) (act : MesaCode W) (I : W → Prop) (hH : MesaHost H n iv act I) (sh : Bool)
    (w0 : W) (hI : I w0) :
    ∃ ms : Nat → MesaState W, ms 0 = ⟨0, 0, List.range n, w0⟩ ∧ (∀ k, MesaRound act H.shuffle sh (ms k) (ms (k + 1))) ∧
      ∀ k, let x := iterStep (timedStepper H) k (roundsStart n iv sh w0)
        x.2 = (ms k).world ∧ x.1.agents = (ms k).agents ∧ x.1.steps = (ms k).steps ∧ x.1.time = .fin ((ms k).time * iv) := by
  obtain ⟨ms, h1, h2, h3⟩ := mesa_iter hn hiv hH sh w0 hI
  refine ⟨ms, h1, h2, fun k => ?_⟩
  obtain ⟨-, h, -⟩ := h3 k
  exact ⟨h.world, h.agents.trans h.magents.symm, h.round.steps, by rw [h.round.time, h.time]⟩

/-- C230 (partial, as before): without shuffling this is a function: the agents run one after the other, in the order in which they were added, in every step. -/
theorem C230_ordered_partial (H : Host W) (n : Nat) (hn : 0 < n) (iv : Rat) (hiv : 0 < iv) (act : MesaCode W) (I : W → Prop) (hH : MesaHost H n iv act I)
    (w0 : W) (hI : I w0) (k : Nat) :
    (iterStep (timedStepper H) (k + 1) (roundsStart n iv false w0)).2 =
      (List.range n).foldl (fun w r => act r k k (List.range n) w) (iterStep (timedStepper H) k (roundsStart n iv false w0)).2 := by
  obtain ⟨ms, -, h2, h3⟩ := mesa_iter hn hiv hH false w0 hI
  have h := h2 k
  simp only [MesaRound, Bool.false_eq_true, if_false] at h
  rw [(h3 (k + 1)).2.1.world, h, (h3 k).2.1.world]
  simp only [mesaStep]
  rw [(h3 k).2.1.time, (h3 k).2.1.magents, (h3 k).1]

/-- C230 (partial, as before): a simulation of such agents with `max_steps` returns after exactly that number of steps; with `max_time`, after the smallest number of
steps that takes the clock there. -/
theorem C230_ends_partial (H : Host W) (n : Nat) (hn : 0 < n) (iv : Rat) (hiv : 0 < iv) (act : MesaCode W) (I : W → Prop) (hH : MesaHost H n iv act I) (sh : Bool)
    (w0 : W) (hI : I w0) (fuel k : Nat) (hf : k ≤ fuel) :
    runModel (timedStepper H) none (some k) fuel (roundsStart n iv sh w0) = .done (iterStep (timedStepper H) k (roundsStart n iv sh w0)) ∧
    ∀ mt : Rat, mt ≤ k * iv → (∀ i < k, i * iv < mt) →
      runModel (timedStepper H) (some (.fin mt)) none fuel (roundsStart n iv sh w0) = .done (iterStep (timedStepper H) k (roundsStart n iv sh w0)) := by
  obtain ⟨ms, -, -, h3⟩ := mesa_iter hn hiv hH sh w0 hI
  have hne : (timedStepper H).noAgents (roundsStart n iv sh w0) = false := by
    have := (h3 0).2.1.agents
    simp only [iterStep] at this
    simp only [timedStepper]
    rw [this]
    simp
    omega
  have loop : ∀ (mt : Option Time) (ms' : Option Nat), isDone (timedStepper H) mt ms' (iterStep (timedStepper H) k (roundsStart n iv sh w0)) = true →
      (∀ i < k, isDone (timedStepper H) mt ms' (iterStep (timedStepper H) i (roundsStart n iv sh w0)) = false) →
      runModel (timedStepper H) mt ms' fuel (roundsStart n iv sh w0) = .done (iterStep (timedStepper H) k (roundsStart n iv sh w0)) := by
    intro mt ms' hd hnd
    unfold runModel
    rw [hne]
    simp only [Bool.false_eq_true, if_false]
    have hx : ∀ i, ((timedStepper H).step (iterStep (timedStepper H) i (roundsStart n iv sh w0))).2 = false := fun i => (h3 i).2.2
    generalize roundsStart n iv sh w0 = x at hd hnd hx
    clear h3 hne
    induction k generalizing x fuel with
    | zero =>
      simp only [iterStep] at hd ⊢
      cases fuel <;> simp [runLoop, hd]
    | succ k ih =>
      obtain ⟨fuel, rfl⟩ : ∃ f, fuel = f + 1 := ⟨fuel - 1, by omega⟩
      have h0 := hnd 0 (by omega)
      have hx0 := hx 0
      simp only [iterStep] at h0 hx0
      simp only [runLoop, h0, hx0, Bool.false_eq_true, if_false]
      exact ih fuel (by omega) _ hd (fun i hi => hnd (i + 1) (by omega)) (fun i => hx (i + 1))
  have hst : ∀ i, (timedStepper H).steps (iterStep (timedStepper H) i (roundsStart n iv sh w0)) = i := fun i => by
    have := (h3 i).2.1.round.steps
    rw [(h3 i).1] at this
    exact this
  have htm : ∀ i : Nat, (timedStepper H).time (iterStep (timedStepper H) i (roundsStart n iv sh w0)) = .fin (i * iv) := fun i => by
    have := (h3 i).2.1.round.time
    rw [(h3 i).1] at this
    exact this
  have hrun : ∀ i, (timedStepper H).running (iterStep (timedStepper H) i (roundsStart n iv sh w0)) = true := fun i => (h3 i).2.1.running
  refine ⟨loop _ _ ?_ ?_, fun mt h1 h2 => loop _ _ ?_ ?_⟩
  · simp [isDone, hst]
  · intro i hi
    simp [isDone, hst, hrun]
    omega
  · simp [isDone, htm, h1]
  · intro i hi
    simp [isDone, htm, hrun, h2 i hi]

/-! ### Examples -/

/-- Agents that write down their turn, with the time and the number of agents; the shuffle reverses. -/
def turnsHost : Host (List (Ref × Time × Nat)) where
  step r s w := (.ret none, [], w ++ [(r, s.time, s.agents.length)])
  shuffle l w := (l.reverse, w)
  shuffle_perm l _ := List.reverse_perm l

/-- What they do, as code for mesa; `iv` is the length of an interval. -/
def turnsAct (iv : Rat) : MesaCode (List (Ref × Time × Nat)) := fun r t _ as w => w ++ [(r, .fin (t * iv), as.length)]

/-- The hypotheses of the theorems hold for them. -/
example (n : Nat) (iv : Rat) : MesaHost turnsHost n iv (turnsAct iv) (fun _ => True) where
  step r _ s w t _ h := by simp [turnsHost, turnsAct, h]
  inv _ _ _ _ _ _ _ := trivial
  shuffle _ _ _ := trivial

set_option maxRecDepth 100000 in
example : (iterStep (timedStepper turnsHost) 2 (roundsStart 3 (1/2) true [])).2 =
    [(2, .fin 0, 3), (1, .fin 0, 3), (0, .fin 0, 3), (0, .fin (1/2), 3), (1, .fin (1/2), 3), (2, .fin (1/2), 3)] := by decide +kernel

set_option maxRecDepth 100000 in
example : (iterStep (timedStepper turnsHost) 2 (roundsStart 3 (1/2) false [])).2 =
    [(0, .fin 0, 3), (1, .fin 0, 3), (2, .fin 0, 3), (0, .fin (1/2), 3), (1, .fin (1/2), 3), (2, .fin (1/2), 3)] := by decide +kernel

set_option maxRecDepth 100000 in
example : actRefs (iterStep (timedStepper turnsHost) 3 (roundsStart 2 1 true [])).1.log = [1, 0, 0, 1, 1, 0] := by decide +kernel

/-- Agent 0 removes agent 1 from the schedule, as mesa models do when an agent is eaten. -/
def eaterHost : Host Unit where
  step r _ w := (.ret none, if r = 0 then [.remove 1] else [], w)
  shuffle l w := (l, w)
  shuffle_perm l _ := List.Perm.refl l

set_option maxRecDepth 100000 in
example : (iterStep (timedStepper eaterHost) 1 (roundsStart 3 1 true ())).1.agents = [0, 2] ∧
    actRefs (iterStep (timedStepper eaterHost) 3 (roundsStart 3 1 true ())).1.log = [0, 1, 2, 0, 1, 2, 0, 1, 2] := by decide +kernel

/-- Agent 0 adds agent 5 in its first step. -/
def breederHost : Host Unit where
  step r s w := (.ret none, if r = 0 ∧ s.steps = 0 then [.add 5 none] else [], w)
  shuffle l w := (l, w)
  shuffle_perm l _ := List.Perm.refl l

set_option maxRecDepth 100000 in
/-- The second step activates only the new agent, at time 0; from the third step on all three act together. -/
example : actRefs (iterStep (timedStepper breederHost) 1 (roundsStart 2 1 true ())).1.log = [0, 1] ∧
    actRefs (iterStep (timedStepper breederHost) 2 (roundsStart 2 1 true ())).1.log = [0, 1, 5] ∧
    (iterStep (timedStepper breederHost) 1 (roundsStart 2 1 true ())).1.time = 0 ∧
    actRefs (iterStep (timedStepper breederHost) 3 (roundsStart 2 1 true ())).1.log = [0, 1, 5, 0, 1, 5] := by decide +kernel

set_option maxRecDepth 100000 in
example : (match runModel (timedStepper turnsHost) (some (.fin 1)) none 10 (roundsStart 2 (1/3) false []) with
    | .done x => x.1.steps | _ => 0) = 3 := by decide +kernel

end Verif
