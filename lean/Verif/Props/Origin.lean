import Verif.Props.Units

/-!
# The origin of the clock (C259)

The clock starts at 0 (mesa `BaseScheduler`), and delays are relative to it (soil/time.py:99-100, 171-172): a simulation whose clock starts
at another time should be the same simulation, later. `TimedActivation` treats the time 0 as "no time" (`when or self.time`,
soil/time.py:139) and `PQueueActivation.add` passes the time for the flag `replace` (soil/time.py:58-65), so this is only true with
conditions.
-/

namespace Verif

/-! ### Moving the origin -/

/-- The time `t` on a clock that is `T` ahead. Not code: vocabulary of the claim. -/
def Time.later (T : Rat) (t : Time) : Time := t + .fin T

/-- An event, later. The reply is relative. -/
def Ev.later (T : Rat) : Ev → Ev
  | .added r t => .added r (t.later T)
  | .act r t rep => .act r (t.later T) rep

/-- A scheduler operation, later. -/
def SOp.later (T : Rat) : SOp → SOp
  | .add r w => .add r (w.map (Time.later T))
  | .remove r => .remove r
  | .stop => .stop

/-- A command, later. -/
def Cmd.later {W : Type} (T : Rat) : Cmd W → Cmd W
  | .step => .step
  | .op o => .op (o.later T)
  | .world f => .world f

/-- A `TimedActivation`, later. -/
def Sched.later (T : Rat) (s : Sched) : Sched :=
  { s with
    time := s.time.later T
    queue := s.queue.map fun b => (b.1.later T, b.2)
    log := s.log.map (Ev.later T) }

/-- A heap entry, later. -/
def PEntry.later (T : Rat) (e : PEntry) : PEntry := { e with when_ := e.when_.later T }

/-- A `PQueueActivation`, later. -/
def PSched.later (T : Rat) (s : PSched) : PSched :=
  { s with
    time := s.time.later T
    queue := s.queue.map (PEntry.later T)
    log := s.log.map (Ev.later T) }

variable {W : Type} {T : Rat}

/-- The code `H'` does on the other clock what the code `H` does. (For code that looks at no times `H' = H`.) -/
def Moved (T : Rat) (H H' : Host W) : Prop :=
  (∀ r s w, H'.step r (s.later T) w = ((H.step r s w).1, (H.step r s w).2.1.map (SOp.later T), (H.step r s w).2.2)) ∧
    H'.shuffle = H.shuffle

/-- The same for `PQueueActivation`. -/
def PMoved (T : Rat) (H H' : PHost W) : Prop :=
  (∀ r s w, H'.step r (s.later T) w = ((H.step r s w).1, (H.step r s w).2.1.map (SOp.later T), (H.step r s w).2.2)) ∧
    H'.key = H.key

/-- The agents never ask to be activated in the past. -/
def NoPast (H : Host W) : Prop := ∀ r s w d, (H.step r s w).1 = .ret (some d) → 0 ≤ d

/-! ### Arithmetic -/

private theorem later_inj' (a b : Time) : a.later T = b.later T ↔ a = b := by
  cases a <;> cases b <;> simp [Time.later]

private theorem later_lt' (a b : Time) : a.later T < b.later T ↔ a < b := by
  cases a <;> cases b <;> simp [Time.later]

private theorem later_le' (a b : Time) : a.later T ≤ b.later T ↔ a ≤ b := by
  cases a <;> cases b <;> simp [Time.later]

private theorem later_inf' (a : Time) : a.later T = .inf ↔ a = .inf := by
  cases a <;> simp [Time.later]

private theorem later_add' (a b : Time) : a + b.later T = (a + b).later T := by
  cases a <;> cases b <;> simp [Time.later, add_assoc]

/-! ### `TimedActivation` -/

private theorem insertBucket_later (t : Time) (r : Ref) (q : List (Time × List Ref)) :
    insertBucket (t.later T) r (q.map fun b => (b.1.later T, b.2)) = (insertBucket t r q).map fun b => (b.1.later T, b.2) := by
  induction q with
  | nil => rfl
  | cons b q ih =>
    obtain ⟨u, l⟩ := b
    simp only [List.map_cons, insertBucket, later_inj', later_lt', ih]
    split
    · rfl
    · split <;> rfl

/-- What is kept: the clock and the queue are not before 0. -/
private structure After (now : Time) (s : Sched) : Prop where
  time : s.time = now
  now : 0 ≤ now
  iv : 0 ≤ s.interval
  queue : ∀ b ∈ s.queue, 0 ≤ b.1

private theorem after_insert {now t : Time} {s : Sched} (h : After now s) (ht : 0 ≤ t) (r : Ref) :
    After now { s with queue := insertBucket t r s.queue } :=
  ⟨h.time, h.now, h.iv, fun b hb => by
    rcases mem_insertBucket hb with e | e
    · rw [e]; exact ht
    · exact h.queue b e⟩

private theorem applyOp_later (s : Sched) (o : SOp) {now : Time} (h : After now s) :
    (s.later T).applyOp (o.later T) = (s.applyOp o).later T ∧ After now (s.applyOp o) := by
  cases o with
  | add r w =>
    constructor
    · simp only [SOp.later, Sched.applyOp, Sched.addAgent, Sched.schedule, Time.pyOr, Sched.later, insertBucket_later]
      simp [Ev.later]
      rfl
    · have := after_insert h (t := s.time) (by rw [h.time]; exact h.now) r
      exact ⟨this.time, this.now, this.iv, this.queue⟩
  | remove r => exact ⟨rfl, ⟨h.time, h.now, h.iv, h.queue⟩⟩
  | stop => exact ⟨rfl, ⟨h.time, h.now, h.iv, h.queue⟩⟩

private theorem applyOps_later (os : List SOp) (s : Sched) {now : Time} (h : After now s) :
    (s.later T).applyOps (os.map (SOp.later T)) = (s.applyOps os).later T ∧ After now (s.applyOps os) := by
  induction os generalizing s with
  | nil => exact ⟨rfl, h⟩
  | cons o os ih =>
    obtain ⟨e, h'⟩ := applyOp_later (T := T) s o h
    simp only [Sched.applyOps, List.map_cons, List.foldl_cons, e] at ih ⊢
    exact ih _ h'

private theorem logAct_later (s : Sched) (r : Ref) (t : Time) (rep : Reply) :
    (s.later T).logAct r (t.later T) rep = (s.logAct r t rep).later T := by
  simp [Sched.logAct, Sched.later, Ev.later]

private theorem schedule_later (hT : 0 ≤ T) {s : Sched} {now d : Time} (h : After now s) (hd : 0 ≤ d) (r : Ref) :
    (s.later T).schedule r (some ((d + now).later T)) = (s.schedule r (some (d + now))).later T ∧
      After now (s.schedule r (some (d + now))) := by
  obtain ⟨h1, h2, h3, h4⟩ := h
  have e1 : Time.pyOr (some (d + now)) s.time = d + now := by
    simp only [Time.pyOr]
    split
    · rename_i hz
      rw [h1]
      cases d <;> cases now <;> simp_all
      linarith
    · rfl
  have e2 : Time.pyOr (some ((d + now).later T)) (s.later T).time = (d + now).later T := by
    simp only [Time.pyOr]
    split
    · rename_i hz
      show s.time.later T = _
      rw [h1]
      cases d <;> cases now <;> simp_all [Time.later]
      linarith
    · rfl
  have hpos : 0 ≤ d + now := by
    cases d <;> cases now <;> simp_all
    linarith
  constructor
  · unfold Sched.schedule
    rw [e1, e2]
    simp only [Sched.later, insertBucket_later]
  · unfold Sched.schedule
    rw [e1]
    exact after_insert ⟨h1, h2, h3, h4⟩ hpos r

private theorem runBucket_later (hT : 0 ≤ T) {H H' : Host W} (hH : Moved T H H') (hp : NoPast H) (now : Time) (l : List Ref) (s : Sched) (w : W)
    (h : After now s) :
    runBucket H' (now.later T) l (s.later T) w =
      ((runBucket H now l s w).1.later T, (runBucket H now l s w).2.1, (runBucket H now l s w).2.2) ∧ After now (runBucket H now l s w).1 := by
  induction l generalizing s w with
  | nil => exact ⟨rfl, h⟩
  | cons r rest ih =>
    obtain ⟨e, h1⟩ := applyOps_later (T := T) (H.step r s w).2.1 s h
    simp only [runBucket, hH.1, e, logAct_later]
    have hl : ∀ rep, After now ((s.applyOps (H.step r s w).2.1).logAct r now rep) := fun rep => ⟨h1.time, h1.now, h1.iv, h1.queue⟩
    cases hrep : (H.step r s w).1 with
    | error => exact ⟨rfl, hl _⟩
    | dead => exact ih _ _ (hl _)
    | ret d =>
      have hl := hl (.ret d)
      simp only
      generalize ((s.applyOps (H.step r s w).2.1).logAct r now (.ret d)) = s1 at hl ⊢
      have hd : 0 ≤ Time.pyOr d s1.interval := by
        cases d with
        | none => exact hl.iv
        | some d =>
          simp only [Time.pyOr]
          split
          · exact hl.iv
          · exact hp _ _ _ _ hrep
      have ei : Time.pyOr d (s1.later T).interval + now.later T = (Time.pyOr d s1.interval + now).later T := later_add' _ _
      obtain ⟨e', h'⟩ := schedule_later hT hl hd r
      rw [ei, e']
      by_cases hi : Time.pyOr d s1.interval + now = .inf
      · rw [if_pos hi, if_pos ((later_inf' _).2 hi)]; exact ih _ _ hl
      · rw [if_neg hi, if_neg (fun h => hi ((later_inf' _).1 h))]; exact ih _ _ h'

private theorem step_later (hT : 0 ≤ T) {H H' : Host W} (hH : Moved T H H') (hp : NoPast H) (s : Sched) (w : W) (h : After s.time s) :
    (s.later T).step H' w = ((s.step H w).1.later T, (s.step H w).2.1, (s.step H w).2.2) ∧ After (s.step H w).1.time (s.step H w).1 := by
  unfold Sched.step
  cases hq : s.queue with
  | nil => exact ⟨by simp [Sched.later, hq], h⟩
  | cons b q =>
    obtain ⟨t, bucket⟩ := b
    have hq' : (s.later T).queue = (t.later T, bucket) :: q.map fun b => (b.1.later T, b.2) := by simp [Sched.later, hq]
    have ht : (s.later T).time = s.time.later T := rfl
    have hqq : ∀ b ∈ (t, bucket) :: q, 0 ≤ b.1 := by rw [← hq]; exact h.queue
    simp only [hq', ht, later_lt']
    split
    · exact ⟨by simp [Sched.later, hq], rfl, hqq (t, bucket) (by simp), h.iv, hqq⟩
    · have hb : runOrder H' (s.later T) bucket w = runOrder H s bucket w := by
        simp only [runOrder, hH.2]; rfl
      have hs : ({ s.later T with queue := q.map fun b => (b.1.later T, b.2) } : Sched) = ({ s with queue := q } : Sched).later T := rfl
      obtain ⟨hr, ha⟩ := runBucket_later hT hH hp s.time (runOrder H s bucket w).1 { s with queue := q } (runOrder H s bucket w).2
        ⟨rfl, h.now, h.iv, fun b hb => hqq b (List.mem_cons_of_mem _ hb)⟩
      rw [← hs] at hr
      rw [hb]
      generalize runBucket H s.time (runOrder H s bucket w).1 { s with queue := q } (runOrder H s bucket w).2 = res at hr ha
      obtain ⟨s', w', e⟩ := res
      constructor
      · refine (congrArg finishStep hr).trans ?_
        cases e
        · simp only [finishStep, Bool.false_eq_true, if_false, Sched.later]
          cases s'.queue <;> rfl
        · rfl
      · cases e
        · refine ⟨rfl, ?_, ha.iv, ha.queue⟩
          show 0 ≤ headTime s'.queue
          cases hq2 : s'.queue with
          | nil => exact Time.le_inf _
          | cons b q2 => exact ha.queue b (by rw [hq2]; simp)
        · exact ⟨rfl, by rw [show (finishStep (s', w', true)).1 = s' from rfl, ha.time]; exact h.now, ha.iv, ha.queue⟩

private theorem exec_later (hT : 0 ≤ T) {H H' : Host W} (hH : Moved T H H') (hp : NoPast H) (h : List (Cmd W)) (s : Sched) (w : W)
    (hs : After s.time s) :
    execAll H' (h.map (Cmd.later T)) (s.later T, w) = ((execAll H h (s, w)).1.later T, (execAll H h (s, w)).2) := by
  induction h generalizing s w with
  | nil => rfl
  | cons x h ih =>
    simp only [execAll, List.map_cons, List.foldl_cons] at ih ⊢
    cases x with
    | step =>
      obtain ⟨e, h'⟩ := step_later hT hH hp s w hs
      simp only [Cmd.later, Cmd.exec, e]
      exact ih _ _ h'
    | op o =>
      obtain ⟨e, h'⟩ := applyOp_later (T := T) s o hs
      simp only [Cmd.later, Cmd.exec, e]
      exact ih _ _ (by rw [h'.time]; exact h')
    | world f => exact ih _ _ hs

/-- **C259** Every code has its counterpart on the other clock. -/
theorem C259_exists (T : Rat) (H : Host W) : ∃ H', Moved T H H' := by
  have key : ∀ t : Time, (t.later T).later (-T) = t := by
    intro t; cases t <;> simp [Time.later]
  have keyE : ∀ e : Ev, (e.later T).later (-T) = e := by
    intro e; cases e <;> simp [Ev.later, key]
  have keyS : ∀ s : Sched, (s.later T).later (-T) = s := by
    intro s
    obtain ⟨t, n, q, a, i, sh, ru, lg⟩ := s
    simp only [Sched.later, key, List.map_map, Sched.mk.injEq, true_and]
    exact ⟨by conv_rhs => rw [← List.map_id q]
              exact List.map_congr_left fun b _ => by simp [key],
      by conv_rhs => rw [← List.map_id lg]
         exact List.map_congr_left fun b _ => by simp [keyE]⟩
  exact ⟨{ step := fun r s w =>
            ((H.step r (s.later (-T)) w).1, (H.step r (s.later (-T)) w).2.1.map (SOp.later T), (H.step r (s.later (-T)) w).2.2)
           shuffle := H.shuffle, shuffle_perm := H.shuffle_perm },
    fun r s w => by simp only [keyS], rfl⟩

/-- A fresh scheduler whose clock starts at `T`. -/
def Sched.initAt (T : Rat) (iv : Time) (sh : Bool) : Sched := { Sched.init iv sh with time := .fin T }

/-- **C259** If no agent asks to be activated in the past and the interval is not negative, every history of a `TimedActivation` whose
clock starts at `T` is that of one whose clock starts at 0, `T` later: the same activations in the same order, and the same world.
What is missing for delays is `C259_past_false`, for the priority queue `C259_pqueue_false`. -/
theorem C259_timed_partial (hT : 0 ≤ T) {H H' : Host W} (hH : Moved T H H') (hp : NoPast H) {iv : Time} (hiv : 0 ≤ iv) (sh : Bool)
    (h : List (Cmd W)) (w : W) :
    execAll H' (h.map (Cmd.later T)) (Sched.initAt T iv sh, w) =
      ((execAll H h (Sched.init iv sh, w)).1.later T, (execAll H h (Sched.init iv sh, w)).2) := by
  have e : Sched.initAt T iv sh = (Sched.init iv sh).later T := by
    simp [Sched.initAt, Sched.init, Sched.later, Time.later]
  rw [e]
  exact exec_later hT hH hp h _ w ⟨rfl, le_refl _, hiv, fun b hb => by cases hb⟩

/-- **C259** Simulations, with `max_time` on the other clock, end in the same way after the same number of steps. -/
theorem C259_simulation_partial (hT : 0 ≤ T) {H H' : Host W} (hH : Moved T H H') (hp : NoPast H) {iv : Time} (hiv : 0 ≤ iv) (sh : Bool)
    (pop : List Ref) (mt : Option Time) (ms : Option Nat) (fuel : Nat) (w : W) :
    runModel (timedStepper H') (mt.map (Time.later T)) ms fuel (execAll H' (pop.map fun r => .op (.add r none)) (Sched.initAt T iv sh, w)) =
      (runModel (timedStepper H) mt ms fuel (execAll H (pop.map fun r => .op (.add r none)) (Sched.init iv sh, w))).mapState
        (fun sw => (sw.1.later T, sw.2)) := by
  have hpop : (pop.map fun r => (Cmd.op (.add r none) : Cmd W)) = (pop.map fun r => (Cmd.op (.add r none) : Cmd W)).map (Cmd.later T) := by
    simp [Cmd.later, SOp.later]
  have he := C259_timed_partial hT hH hp hiv sh (pop.map fun r => (Cmd.op (.add r none) : Cmd W)) w
  rw [← hpop] at he
  rw [he]
  have hA : After (execAll H (pop.map fun r => .op (.add r none)) (Sched.init iv sh, w)).1.time
      (execAll H (pop.map fun r => .op (.add r none)) (Sched.init iv sh, w)).1 := by
    have : ∀ (l : List Ref) (s : Sched), After s.time s →
        After (execAll H (l.map fun r => .op (.add r none)) (s, w)).1.time (execAll H (l.map fun r => .op (.add r none)) (s, w)).1 := by
      intro l
      induction l with
      | nil => exact fun s h => h
      | cons r l ih =>
        intro s h
        simp only [execAll, List.map_cons, List.foldl_cons, Cmd.exec] at ih ⊢
        have h' := (applyOp_later (T := 0) s (.add r none) h).2
        exact ih _ (by rw [h'.time]; exact h')
    exact this pop _ ⟨rfl, le_refl _, hiv, fun b hb => by cases hb⟩
  generalize execAll H (pop.map fun r => .op (.add r none)) (Sched.init iv sh, w) = sw at hA
  obtain ⟨s, w⟩ := sw
  have hd : ∀ (s : Sched) (w : W), isDone (timedStepper H') (mt.map (Time.later T)) ms (s.later T, w) = isDone (timedStepper H) mt ms (s, w) := by
    intro s w
    cases mt <;> cases ms <;> simp only [isDone, timedStepper, Sched.later, Option.map_none, Option.map_some] <;> congr 1 <;> (try congr 1) <;>
      first | rfl | exact decide_eq_decide.2 (later_le' _ _) | exact propext (later_le' _ _)
  have hl : ∀ (s : Sched) (w : W), After s.time s → runLoop (timedStepper H') (mt.map (Time.later T)) ms fuel (s.later T, w) =
      (runLoop (timedStepper H) mt ms fuel (s, w)).mapState (fun sw => (sw.1.later T, sw.2)) := by
    induction fuel with
    | zero =>
      intro s w _
      simp only [runLoop, hd]
      split <;> rfl
    | succ n ih =>
      intro s w h
      simp only [runLoop, hd]
      split
      · rfl
      · obtain ⟨e0, h'⟩ := step_later hT hH hp s w h
        have e : (timedStepper H').step (s.later T, w) =
            (((s.step H w).1.later T, (s.step H w).2.1), (s.step H w).2.2) := by
          simp only [timedStepper, e0]
        rw [e]
        show (if (s.step H w).2.2 = true then _ else _) = Outcome.mapState _ (if (s.step H w).2.2 = true then _ else _)
        split
        · rfl
        · exact ih _ _ h'
  unfold runModel
  have hn : (timedStepper H').noAgents (s.later T, w) = (timedStepper H).noAgents (s, w) := rfl
  rw [hn]
  split
  · rfl
  · exact hl s w hA

/-- An agent that waits for 3 and then wants to be activated 3 ago. -/
private def pastHost : Host Nat :=
  { step := fun _ _ w => (.ret (some (if w = 0 then .fin 3 else .fin (-3))), [], w + 1), shuffle := fun l w => (l, w), shuffle_perm := fun _ _ => .refl _ }

/-- **C259** With a delay into the past it is false: the time 0 counts as no time, and the agent is scheduled now instead of in the past;
on a clock that is 1 ahead it is scheduled at 1. -/
theorem C259_past_false : ∃ (H H' : Host Nat) (h : List (Cmd Nat)) (s : Sched), Moved 1 H H' ∧ s = Sched.init 1 false ∧
    (execAll H' (h.map (Cmd.later 1)) (Sched.initAt 1 1 false, 0)).1.queue ≠ ((execAll H h (s, 0)).1.later 1).queue := by
  refine ⟨pastHost, pastHost, [.op (.add 0 none), .step, .step], Sched.init 1 false, ⟨fun r s w => rfl, rfl⟩, rfl, ?_⟩
  decide +kernel

/-! ### `PQueueActivation` -/

private theorem entry_lt_later (a b : PEntry) : PEntry.lt (a.later T) (b.later T) = PEntry.lt a b := by
  unfold PEntry.lt
  congr 1
  · exact decide_eq_decide.2 (later_lt' _ _)
  · congr 1
    exact decide_eq_decide.2 (later_inj' _ _)

private theorem pschedule_later {H H' : PHost W} (hH : PMoved T H H') (s : PSched) (w : W) (r : Ref) (wh : Option Time) (rp : Bool) :
    (s.later T).schedule H' w r (wh.map (Time.later T)) rp =
      ((s.schedule H w r wh rp).1.later T, (s.schedule H w r wh rp).2.1, (s.schedule H w r wh rp).2.2) := by
  have e : ∀ k, (⟨(wh.map (Time.later T)).getD (s.later T).time, k, r⟩ : PEntry) = PEntry.later T ⟨wh.getD s.time, k, r⟩ := by
    intro k; cases wh <;> rfl
  have hq : (s.later T).queue = s.queue.map (PEntry.later T) := rfl
  simp only [PSched.schedule, hH.2, e, hq, heappush_map entry_lt_later, heapreplace_map entry_lt_later]
  cases rp
  · rfl
  · simp only [if_true]
    cases heapreplace PEntry.lt s.queue ⟨wh.getD s.time, (H.key r w).1, r⟩ <;> rfl

private theorem papplyOp_later {H H' : PHost W} (s : PSched) (w : W) (o : SOp) (ho : ∀ q wh, o ≠ .add q wh) :
    (s.later T).applyOp H' w (o.later T) = ((s.applyOp H w o).1.later T, (s.applyOp H w o).2.1, (s.applyOp H w o).2.2) := by
  cases o with
  | add r wh => exact absurd rfl (ho r wh)
  | remove r => rfl
  | stop => rfl

private theorem papplyOps_later {H H' : PHost W} (os : List SOp) (ho : ∀ q wh, SOp.add q wh ∉ os) (s : PSched) (w : W) :
    (s.later T).applyOps H' w (os.map (SOp.later T)) =
      ((s.applyOps H w os).1.later T, (s.applyOps H w os).2.1, (s.applyOps H w os).2.2) := by
  induction os generalizing s w with
  | nil => rfl
  | cons o os ih =>
    simp only [PSched.applyOps, List.map_cons]
    rw [papplyOp_later (H := H) (H' := H') s w o (fun q wh e => ho q wh (by rw [e]; simp))]
    simp only
    split
    · rfl
    · exact ih (fun q wh hm => ho q wh (List.mem_cons_of_mem _ hm)) _ _

private theorem plogAct_later (s : PSched) (r : Ref) (t : Time) (rep : Reply) :
    (s.later T).logAct r (t.later T) rep = (s.logAct r t rep).later T := by
  simp [PSched.logAct, PSched.later, Ev.later]

private theorem pop_later (s : PSched) : (s.later T).pop = s.pop.later T := by
  have hq : (s.later T).queue = s.queue.map (PEntry.later T) := rfl
  simp only [PSched.pop, hq, heappop_map entry_lt_later]
  rfl

private theorem pLoop_later {H H' : PHost W} (hH : PMoved T H H') (hna : NoAdd H) (now : Time) (fuel : Nat) (s : PSched) (w : W) :
    pLoop H' (now.later T) fuel (s.later T) w =
      ((pLoop H now fuel s w).1.later T, (pLoop H now fuel s w).2.1, (pLoop H now fuel s w).2.2.1.later T, (pLoop H now fuel s w).2.2.2) := by
  induction fuel generalizing s w with
  | zero =>
    rw [pLoop.eq_def, pLoop.eq_def H]
    have hq : (s.later T).queue = s.queue.map (PEntry.later T) := rfl
    simp only [hq]
    cases s.queue with
    | nil => rfl
    | cons e q =>
      simp only [List.map_cons]
      have he : (e.later T).when_ = e.when_.later T := rfl
      simp only [he, later_lt']
      split <;> rfl
  | succ n ih =>
    rw [pLoop.eq_def, pLoop.eq_def H]
    have hq : (s.later T).queue = s.queue.map (PEntry.later T) := rfl
    simp only [hq]
    cases s.queue with
    | nil => rfl
    | cons e q =>
      simp only [List.map_cons]
      have he : (e.later T).when_ = e.when_.later T := rfl
      have hr : (e.later T).ref = e.ref := rfl
      have ho := papplyOps_later (T := T) (H := H) (H' := H') (H.step e.ref s w).2.1 (hna e.ref s w) s (H.step e.ref s w).2.2
      simp only [he, hr, later_lt', hH.1, ho]
      split
      · rfl
      · generalize s.applyOps H (H.step e.ref s w).2.2 (H.step e.ref s w).2.1 = ops
        obtain ⟨s1, w1, b⟩ := ops
        simp only
        generalize (if b = true then Reply.error else (H.step e.ref s w).1) = rep
        rw [plogAct_later]
        generalize s1.logAct e.ref now rep = s2
        cases rep with
        | error => rfl
        | dead => simp only [pop_later]; exact ih _ _
        | ret d =>
          simp only
          have e1 : Time.pyOr d (s2.later T).interval + now.later T = (Time.pyOr d s2.interval + now).later T := later_add' _ _
          have e2 := pschedule_later hH s2 w1 e.ref (some (Time.pyOr d s2.interval + now)) true
          simp only [Option.map_some] at e2
          simp only [e1, e2, later_inf', pop_later]
          split
          · exact ih _ _
          · split
            · rfl
            · exact ih _ _

private theorem pstep_later {H H' : PHost W} (hH : PMoved T H H') (hna : NoAdd H) (fuel : Nat) (s : PSched) (w : W) :
    (s.later T).step H' fuel w = ((s.step H fuel w).1.later T, (s.step H fuel w).2.1, (s.step H fuel w).2.2) := by
  unfold PSched.step
  have ht : (s.later T).time = s.time.later T := rfl
  simp only [ht, later_inf', pLoop_later hH hna]
  split
  · rfl
  · generalize pLoop H s.time fuel s w = res
    obtain ⟨s', w', t, st⟩ := res
    cases st <;> simp [PSched.later]

/-- **C259** With the priority queue it holds for agents that add no agents, from every state, and with every delay (there the time 0 is a
time). -/
theorem C259_pqueue_partial {H H' : PHost W} (hH : PMoved T H H') (hna : NoAdd H) (fuel : Nat) (h : List (Cmd W))
    (hh : ∀ x ∈ h, x.noAdd = true) (s : PSched) (w : W) :
    pexecAll H' fuel (h.map (Cmd.later T)) (s.later T, w) =
      ((pexecAll H fuel h (s, w)).1.later T, (pexecAll H fuel h (s, w)).2) := by
  induction h generalizing s w with
  | nil => rfl
  | cons x h ih =>
    have ih := ih (fun y hy => hh y (List.mem_cons_of_mem _ hy))
    simp only [pexecAll, List.map_cons, List.foldl_cons] at ih ⊢
    cases x with
    | step =>
      have e := pstep_later hH hna fuel s w
      simp only [Cmd.later, Cmd.pexec, e]; exact ih _ _
    | op o =>
      have e := papplyOp_later (T := T) (H := H) (H' := H') s w o (fun q wh e => by
        have := hh (.op o) (by simp)
        rw [e] at this
        cases this)
      simp only [Cmd.later, Cmd.pexec, e]; exact ih _ _
    | world f => exact ih _ _

/-- **C259** Simulations with the priority queue whose agents add no agents, too. -/
theorem C259_psimulation_partial {H H' : PHost W} (hH : PMoved T H H') (hna : NoAdd H) (N : Nat) (mt : Option Time) (ms : Option Nat) (fuel : Nat)
    (s : PSched) (w : W) :
    runModel (pqStepper H' N) (mt.map (Time.later T)) ms fuel (s.later T, w) =
      (runModel (pqStepper H N) mt ms fuel (s, w)).mapState (fun sw => (sw.1.later T, sw.2)) := by
  have hd : ∀ (s : PSched) (w : W), isDone (pqStepper H' N) (mt.map (Time.later T)) ms (s.later T, w) = isDone (pqStepper H N) mt ms (s, w) := by
    intro s w
    cases mt <;> cases ms <;> simp only [isDone, pqStepper, PSched.later, Option.map_none, Option.map_some] <;> congr 1 <;> (try congr 1) <;>
      first | rfl | exact decide_eq_decide.2 (later_le' _ _) | exact propext (later_le' _ _)
  have hl : ∀ (s : PSched) (w : W), runLoop (pqStepper H' N) (mt.map (Time.later T)) ms fuel (s.later T, w) =
      (runLoop (pqStepper H N) mt ms fuel (s, w)).mapState (fun sw => (sw.1.later T, sw.2)) := by
    induction fuel with
    | zero =>
      intro s w
      simp only [runLoop, hd]
      split <;> rfl
    | succ n ih =>
      intro s w
      simp only [runLoop, hd]
      split
      · rfl
      · have e : (pqStepper H' N).step (s.later T, w) =
            ((((pqStepper H N).step (s, w)).1.1.later T, ((pqStepper H N).step (s, w)).1.2), ((pqStepper H N).step (s, w)).2) := by
          simp only [pqStepper, pstep_later hH hna]
        rw [e]
        show (if ((pqStepper H N).step (s, w)).2 = true then _ else _) = Outcome.mapState _ (if ((pqStepper H N).step (s, w)).2 = true then _ else _)
        split
        · rfl
        · exact ih _ _
  unfold runModel
  have hn : (pqStepper H' N).noAgents (s.later T, w) = (pqStepper H N).noAgents (s, w) := rfl
  rw [hn]
  split
  · rfl
  · exact hl s w

/-- Agents that wait for 3 (priority queue). -/
private def threePHost : PHost Unit :=
  { step := fun _ _ w => (.ret (some (.fin 3)), [], w), key := fun r w => (r, w) }

/-- **C259** It is false when agents are added: on a clock that starts at 1, adding the first agent raises (`heapreplace` of an empty
heap), and nobody is ever activated. -/
theorem C259_pqueue_false : ∃ (H H' : PHost Unit) (h : List (Cmd Unit)), PMoved 1 H H' ∧
    actRefs (pexecAll H' 5 (h.map (Cmd.later 1)) ((PSched.init 1).later 1, ())).1.log = [] ∧
    actRefs (pexecAll H 5 h (PSched.init 1, ())).1.log = [0, 0] :=
  ⟨threePHost, threePHost, [.op (.add 0 none), .step, .step], ⟨fun r s w => rfl, rfl⟩, by decide +kernel, by decide +kernel⟩

/-! ### Examples -/

/-- Agents that wait for 3. -/
private def threeHost : Host Unit :=
  { step := fun _ _ w => (.ret (some (.fin 3)), [], w), shuffle := fun l w => (l, w), shuffle_perm := fun _ _ => .refl _ }

example : Moved 10 threeHost threeHost ∧ NoPast threeHost :=
  ⟨⟨fun _ _ _ => rfl, rfl⟩, fun r s w d h => by
    simp only [threeHost, Reply.ret.injEq, Option.some.injEq] at h
    rw [← h]; decide⟩

set_option maxRecDepth 100000 in
example : (execAll threeHost [.op (.add 0 none), .step, .step] (Sched.init 1 false, ())).1.time = .fin 6 ∧
    (execAll threeHost [.op (.add 0 none), .step, .step] (Sched.initAt 10 1 false, ())).1.time = .fin 16 := by
  decide +kernel

example : NoAdd threePHost := fun _ _ _ _ _ h => by cases h

set_option maxRecDepth 100000 in
/-- A queue that was filled at 0, moved to 10. -/
example : (pexecAll threePHost 5 [.op (.add 0 none), .step, .step] (PSched.init 1, ())).1.time = .fin 6 ∧
    (pexecAll threePHost 5 [.step, .step] ((pexecAll threePHost 5 [.op (.add 0 none)] (PSched.init 1, ())).1.later 10, ())).1.time = .fin 16 := by
  decide +kernel

end Verif
