import Verif.Props.RunLoop
import Verif.Proofs.PFloats

/-!
# The unit of time does not matter (C258)

soil never fixes a unit of time: agents wait for numbers, the environment has an interval, the simulation a `max_time`
(soil/time.py, soil/simulation.py:243-280). Measuring all of these in another unit (seconds instead of hours) gives the same
simulation, with the clock in the new unit. (Numbers are exact here; with floats it is true for powers of two.)
-/

namespace Verif

/-! ### Changing the unit -/

/-- The number `t` of time in a unit that is `c` times smaller. Not code: vocabulary of the claim. -/
def Time.scale (c : Rat) : Time → Time
  | .fin q => .fin (c * q)
  | .inf => .inf

/-- A reply with its delay in the new unit. -/
def Reply.scale (c : Rat) : Reply → Reply
  | .ret d => .ret (d.map (Time.scale c))
  | .dead => .dead
  | .error => .error

/-- An event with its time in the new unit. -/
def Ev.scale (c : Rat) : Ev → Ev
  | .added r t => .added r (t.scale c)
  | .act r t rep => .act r (t.scale c) (rep.scale c)

/-- A scheduler operation with its time in the new unit. -/
def SOp.scale (c : Rat) : SOp → SOp
  | .add r w => .add r (w.map (Time.scale c))
  | .remove r => .remove r
  | .stop => .stop

/-- A command with its time in the new unit. -/
def Cmd.scale {W : Type} (c : Rat) : Cmd W → Cmd W
  | .step => .step
  | .op o => .op (o.scale c)
  | .world f => .world f

/-- A `TimedActivation` with all its times in the new unit. -/
def Sched.scale (c : Rat) (s : Sched) : Sched :=
  { s with
    time := s.time.scale c
    queue := s.queue.map fun b => (b.1.scale c, b.2)
    interval := s.interval.scale c
    log := s.log.map (Ev.scale c) }

/-- A heap entry with its time in the new unit; the tie-breaker is no time. -/
def PEntry.scale (c : Rat) (e : PEntry) : PEntry := { e with when_ := e.when_.scale c }

/-- A `PQueueActivation` with all its times in the new unit. -/
def PSched.scale (c : Rat) (s : PSched) : PSched :=
  { s with
    time := s.time.scale c
    queue := s.queue.map (PEntry.scale c)
    interval := s.interval.scale c
    log := s.log.map (Ev.scale c) }

/-- The outcome of a simulation with all its times in the new unit. -/
def Outcome.mapState {S T : Type} (f : S → T) : Outcome S → Outcome T
  | .done s => .done (f s)
  | .raised s => .raised (f s)
  | .running s => .running (f s)

variable {W : Type} {c : Rat}

/-- The code `H'` does in the new unit what the code `H` does in the old one. -/
def Rescaled (c : Rat) (H H' : Host W) : Prop :=
  (∀ r s w, H'.step r (s.scale c) w = ((H.step r s w).1.scale c, (H.step r s w).2.1.map (SOp.scale c), (H.step r s w).2.2)) ∧
    H'.shuffle = H.shuffle

/-- The same for `PQueueActivation`. -/
def PRescaled (c : Rat) (H H' : PHost W) : Prop :=
  (∀ r s w, H'.step r (s.scale c) w = ((H.step r s w).1.scale c, (H.step r s w).2.1.map (SOp.scale c), (H.step r s w).2.2)) ∧
    H'.key = H.key

/-! ### Arithmetic -/

section
variable (hc : 0 < c)
include hc

private theorem scale_inj' (a b : Time) : a.scale c = b.scale c ↔ a = b := by
  cases a <;> cases b <;> simp [Time.scale, hc.ne']

private theorem scale_lt' (a b : Time) : a.scale c < b.scale c ↔ a < b := by
  cases a <;> cases b <;> simp [Time.scale, hc]

private theorem scale_le' (a b : Time) : a.scale c ≤ b.scale c ↔ a ≤ b := by
  cases a <;> cases b <;> simp [Time.scale, hc]

private theorem scale_inf' (a : Time) : a.scale c = .inf ↔ a = .inf := by
  cases a <;> simp [Time.scale]

private theorem scale_zero' (a : Time) : a.scale c = 0 ↔ a = 0 := by
  cases a <;> simp [Time.scale, hc.ne']

omit hc in
private theorem scale_add' (a b : Time) : (a + b).scale c = a.scale c + b.scale c := by
  cases a <;> cases b <;> simp [Time.scale, mul_add]

private theorem scale_pyOr' (d : Option Time) (i : Time) : Time.pyOr (d.map (Time.scale c)) (i.scale c) = (Time.pyOr d i).scale c := by
  cases d with
  | none => rfl
  | some t =>
    simp only [Time.pyOr, Option.map_some, scale_zero' hc]
    split <;> rfl

/-! ### `TimedActivation` -/

private theorem insertBucket_scale (t : Time) (r : Ref) (q : List (Time × List Ref)) :
    insertBucket (t.scale c) r (q.map fun b => (b.1.scale c, b.2)) = (insertBucket t r q).map fun b => (b.1.scale c, b.2) := by
  induction q with
  | nil => rfl
  | cons b q ih =>
    obtain ⟨u, l⟩ := b
    simp only [List.map_cons, insertBucket, scale_inj' hc, scale_lt' hc, ih]
    split
    · rfl
    · split <;> rfl

private theorem schedule_scale (s : Sched) (r : Ref) (w : Option Time) :
    (s.scale c).schedule r (w.map (Time.scale c)) = (s.schedule r w).scale c := by
  simp only [Sched.schedule, Sched.scale, scale_pyOr' hc, insertBucket_scale hc]

private theorem applyOp_scale (s : Sched) (o : SOp) : (s.scale c).applyOp (o.scale c) = (s.applyOp o).scale c := by
  cases o with
  | add r w =>
    have h := schedule_scale hc s r none
    simp only [Option.map_none] at h
    simp only [SOp.scale, Sched.applyOp, Sched.addAgent, h]
    simp [Sched.scale, Ev.scale]
    rfl
  | remove r => rfl
  | stop => rfl

private theorem applyOps_scale (s : Sched) (os : List SOp) : (s.scale c).applyOps (os.map (SOp.scale c)) = (s.applyOps os).scale c := by
  induction os generalizing s with
  | nil => rfl
  | cons o os ih =>
    simp only [Sched.applyOps, List.map_cons, List.foldl_cons, applyOp_scale hc] at ih ⊢
    exact ih _

omit hc in
private theorem logAct_scale (s : Sched) (r : Ref) (t : Time) (rep : Reply) :
    (s.scale c).logAct r (t.scale c) (rep.scale c) = (s.logAct r t rep).scale c := by
  simp [Sched.logAct, Sched.scale, Ev.scale]

private theorem runBucket_scale {H H' : Host W} (hH : Rescaled c H H') (now : Time) (l : List Ref) (s : Sched) (w : W) :
    runBucket H' (now.scale c) l (s.scale c) w =
      ((runBucket H now l s w).1.scale c, (runBucket H now l s w).2.1, (runBucket H now l s w).2.2) := by
  induction l generalizing s w with
  | nil => rfl
  | cons r rest ih =>
    simp only [runBucket, hH.1, applyOps_scale hc, logAct_scale]
    cases (H.step r s w).1 with
    | error => rfl
    | dead => exact ih _ _
    | ret d =>
      simp only [Reply.scale]
      generalize ((s.applyOps (H.step r s w).2.1).logAct r now (.ret d)) = s1
      have e : Time.pyOr (d.map (Time.scale c)) (s1.scale c).interval + now.scale c = (Time.pyOr d s1.interval + now).scale c := by
        rw [scale_add', ← scale_pyOr' hc]; rfl
      have e' := schedule_scale hc s1 r (some (Time.pyOr d s1.interval + now))
      simp only [Option.map_some] at e'
      rw [e, e']
      by_cases hi : Time.pyOr d s1.interval + now = .inf
      · rw [if_pos hi, if_pos ((scale_inf' hc _).2 hi)]; exact ih _ _
      · rw [if_neg hi, if_neg (fun h => hi ((scale_inf' hc _).1 h))]; exact ih _ _

private theorem step_scale {H H' : Host W} (hH : Rescaled c H H') (s : Sched) (w : W) :
    (s.scale c).step H' w = ((s.step H w).1.scale c, (s.step H w).2.1, (s.step H w).2.2) := by
  unfold Sched.step
  cases hq : s.queue with
  | nil => simp [Sched.scale, hq]
  | cons b q =>
    obtain ⟨t, bucket⟩ := b
    have hq' : (s.scale c).queue = (t.scale c, bucket) :: q.map fun b => (b.1.scale c, b.2) := by simp [Sched.scale, hq]
    have ht : (s.scale c).time = s.time.scale c := rfl
    simp only [hq', ht, scale_lt' hc]
    split
    · simp [Sched.scale, hq]
    · have hb : runOrder H' (s.scale c) bucket w = runOrder H s bucket w := by
        simp only [runOrder, hH.2]; rfl
      have hs : ({ s.scale c with queue := q.map fun b => (b.1.scale c, b.2) } : Sched) = ({ s with queue := q } : Sched).scale c := rfl
      have hr := runBucket_scale hc hH s.time (runOrder H s bucket w).1 { s with queue := q } (runOrder H s bucket w).2
      rw [← hs] at hr
      rw [hb]
      refine (congrArg finishStep hr).trans ?_
      generalize runBucket H s.time (runOrder H s bucket w).1 { s with queue := q } (runOrder H s bucket w).2 = res
      obtain ⟨s', w', e⟩ := res
      cases e
      · simp only [finishStep, Bool.false_eq_true, if_false, Sched.scale]
        cases s'.queue <;> rfl
      · rfl

end

/-- **C258** Every code has its counterpart in the new unit: the claims below are about all agents. -/
theorem C258_exists (hc : 0 < c) (H : Host W) : ∃ H', Rescaled c H H' := by
  have key : ∀ t : Time, (t.scale c).scale c⁻¹ = t := by
    intro t; cases t
    · simp [Time.scale, ← mul_assoc, inv_mul_cancel₀ hc.ne']
    · rfl
  have keyR : ∀ r : Reply, (r.scale c).scale c⁻¹ = r := by
    intro r; cases r with
    | ret d => cases d <;> simp [Reply.scale, key]
    | _ => rfl
  have keyE : ∀ e : Ev, (e.scale c).scale c⁻¹ = e := by
    intro e; cases e <;> simp [Ev.scale, key, keyR]
  have keyS : ∀ s : Sched, (s.scale c).scale c⁻¹ = s := by
    intro s
    obtain ⟨t, n, q, a, i, sh, ru, lg⟩ := s
    simp only [Sched.scale, key, List.map_map, Sched.mk.injEq, true_and]
    exact ⟨by conv_rhs => rw [← List.map_id q]
              exact List.map_congr_left fun b _ => by simp [key],
      by conv_rhs => rw [← List.map_id lg]
         exact List.map_congr_left fun b _ => by simp [keyE]⟩
  exact ⟨{ step := fun r s w =>
            ((H.step r (s.scale c⁻¹) w).1.scale c, (H.step r (s.scale c⁻¹) w).2.1.map (SOp.scale c), (H.step r (s.scale c⁻¹) w).2.2)
           shuffle := H.shuffle, shuffle_perm := H.shuffle_perm },
    fun r s w => by simp only [keyS], rfl⟩

/-- **C258** Every history in the new unit goes like the one in the old unit: the same agents are activated in the same order with the
same results, the clock, the queue and the log are those of the old unit, rescaled, and the world is the same. -/
theorem C258_history (hc : 0 < c) {H H' : Host W} (hH : Rescaled c H H') (h : List (Cmd W)) (s : Sched) (w : W) :
    execAll H' (h.map (Cmd.scale c)) (s.scale c, w) = ((execAll H h (s, w)).1.scale c, (execAll H h (s, w)).2) := by
  induction h generalizing s w with
  | nil => rfl
  | cons x h ih =>
    simp only [execAll, List.map_cons, List.foldl_cons] at ih ⊢
    cases x with
    | step => simp only [Cmd.scale, Cmd.exec, step_scale hc hH]; exact ih _ _
    | op o => simp only [Cmd.scale, Cmd.exec, applyOp_scale hc]; exact ih _ _
    | world f => exact ih _ _

/-- **C258** A simulation with the interval and `max_time` in the new unit ends like the one in the old unit (returns, raises or goes
on), after the same number of steps, with the same world, and with the rescaled clock. -/
theorem C258_simulation (hc : 0 < c) {H H' : Host W} (hH : Rescaled c H H') (mt : Option Time) (ms : Option Nat) (fuel : Nat)
    (s : Sched) (w : W) :
    runModel (timedStepper H') (mt.map (Time.scale c)) ms fuel (s.scale c, w) =
      (runModel (timedStepper H) mt ms fuel (s, w)).mapState (fun sw => (sw.1.scale c, sw.2)) := by
  have hd : ∀ (s : Sched) (w : W), isDone (timedStepper H') (mt.map (Time.scale c)) ms (s.scale c, w) = isDone (timedStepper H) mt ms (s, w) := by
    intro s w
    cases mt <;> cases ms <;> simp only [isDone, timedStepper, Sched.scale, Option.map_none, Option.map_some] <;> congr 1 <;> (try congr 1) <;>
      first | rfl | exact decide_eq_decide.2 (scale_le' hc _ _) | exact propext (scale_le' hc _ _)
  have hl : ∀ (s : Sched) (w : W), runLoop (timedStepper H') (mt.map (Time.scale c)) ms fuel (s.scale c, w) =
      (runLoop (timedStepper H) mt ms fuel (s, w)).mapState (fun sw => (sw.1.scale c, sw.2)) := by
    induction fuel with
    | zero =>
      intro s w
      simp only [runLoop, hd]
      split <;> rfl
    | succ n ih =>
      intro s w
      simp only [runLoop, hd]
      split
      · rfl
      · have e : (timedStepper H').step (s.scale c, w) =
            (((s.step H w).1.scale c, (s.step H w).2.1), (s.step H w).2.2) := by
          simp only [timedStepper, step_scale hc hH]
        rw [e]
        show (if (s.step H w).2.2 = true then _ else _) = Outcome.mapState _ (if (s.step H w).2.2 = true then _ else _)
        split
        · rfl
        · exact ih _ _
  unfold runModel
  have hn : (timedStepper H').noAgents (s.scale c, w) = (timedStepper H).noAgents (s, w) := rfl
  rw [hn]
  split
  · rfl
  · exact hl s w

/-! ### `PQueueActivation` -/

section
variable (hc : 0 < c)
include hc

private theorem entry_lt_scale (a b : PEntry) : PEntry.lt (a.scale c) (b.scale c) = PEntry.lt a b := by
  unfold PEntry.lt
  congr 1
  · exact decide_eq_decide.2 (scale_lt' hc _ _)
  · congr 1
    exact decide_eq_decide.2 (scale_inj' hc _ _)

private theorem pschedule_scale {H H' : PHost W} (hH : PRescaled c H H') (s : PSched) (w : W) (r : Ref) (wh : Option Time) (rp : Bool) :
    (s.scale c).schedule H' w r (wh.map (Time.scale c)) rp =
      ((s.schedule H w r wh rp).1.scale c, (s.schedule H w r wh rp).2.1, (s.schedule H w r wh rp).2.2) := by
  have e : ∀ k, (⟨(wh.map (Time.scale c)).getD (s.scale c).time, k, r⟩ : PEntry) = PEntry.scale c ⟨wh.getD s.time, k, r⟩ := by
    intro k; cases wh <;> rfl
  have hq : (s.scale c).queue = s.queue.map (PEntry.scale c) := rfl
  simp only [PSched.schedule, hH.2, e, hq, heappush_map (entry_lt_scale hc), heapreplace_map (entry_lt_scale hc)]
  cases rp
  · rfl
  · simp only [if_true]
    cases heapreplace PEntry.lt s.queue ⟨wh.getD s.time, (H.key r w).1, r⟩ <;> rfl

private theorem papplyOp_scale {H H' : PHost W} (hH : PRescaled c H H') (s : PSched) (w : W) (o : SOp) :
    (s.scale c).applyOp H' w (o.scale c) = ((s.applyOp H w o).1.scale c, (s.applyOp H w o).2.1, (s.applyOp H w o).2.2) := by
  cases o with
  | add r wh =>
    have ht : ((wh.map (Time.scale c)).getD (s.scale c).time).truthy = (wh.getD s.time).truthy := by
      have : (wh.map (Time.scale c)).getD (s.scale c).time = (wh.getD s.time).scale c := by cases wh <;> rfl
      rw [this]; simp only [Time.truthy, ne_eq, scale_zero' hc]
    have h := pschedule_scale hc hH s w r none (wh.getD s.time).truthy
    simp only [Option.map_none] at h
    simp only [SOp.scale, PSched.applyOp, PSched.addAgent, ht, h]
    generalize s.schedule H w r none (wh.getD s.time).truthy = res
    obtain ⟨s', w', e⟩ := res
    cases e
    · simp [PSched.scale, Ev.scale]
      rfl
    · rfl
  | remove r => rfl
  | stop => rfl

private theorem papplyOps_scale {H H' : PHost W} (hH : PRescaled c H H') (os : List SOp) (s : PSched) (w : W) :
    (s.scale c).applyOps H' w (os.map (SOp.scale c)) =
      ((s.applyOps H w os).1.scale c, (s.applyOps H w os).2.1, (s.applyOps H w os).2.2) := by
  induction os generalizing s w with
  | nil => rfl
  | cons o os ih =>
    simp only [PSched.applyOps, List.map_cons, papplyOp_scale hc hH]
    split
    · rfl
    · exact ih _ _

omit hc in
private theorem plogAct_scale (s : PSched) (r : Ref) (t : Time) (rep : Reply) :
    (s.scale c).logAct r (t.scale c) (rep.scale c) = (s.logAct r t rep).scale c := by
  simp [PSched.logAct, PSched.scale, Ev.scale]

private theorem pop_scale (s : PSched) : (s.scale c).pop = s.pop.scale c := by
  have hq : (s.scale c).queue = s.queue.map (PEntry.scale c) := rfl
  simp only [PSched.pop, hq, heappop_map (entry_lt_scale hc)]
  rfl

private theorem pLoop_scale {H H' : PHost W} (hH : PRescaled c H H') (now : Time) (fuel : Nat) (s : PSched) (w : W) :
    pLoop H' (now.scale c) fuel (s.scale c) w =
      ((pLoop H now fuel s w).1.scale c, (pLoop H now fuel s w).2.1, (pLoop H now fuel s w).2.2.1.scale c, (pLoop H now fuel s w).2.2.2) := by
  induction fuel generalizing s w with
  | zero =>
    rw [pLoop.eq_def, pLoop.eq_def H]
    have hq : (s.scale c).queue = s.queue.map (PEntry.scale c) := rfl
    simp only [hq]
    cases s.queue with
    | nil => rfl
    | cons e q =>
      simp only [List.map_cons]
      have he : (e.scale c).when_ = e.when_.scale c := rfl
      simp only [he, scale_lt' hc]
      split <;> rfl
  | succ n ih =>
    rw [pLoop.eq_def, pLoop.eq_def H]
    have hq : (s.scale c).queue = s.queue.map (PEntry.scale c) := rfl
    simp only [hq]
    cases s.queue with
    | nil => rfl
    | cons e q =>
      simp only [List.map_cons]
      have he : (e.scale c).when_ = e.when_.scale c := rfl
      have hr : (e.scale c).ref = e.ref := rfl
      simp only [he, hr, scale_lt' hc, hH.1, papplyOps_scale hc hH]
      split
      · rfl
      · generalize s.applyOps H (H.step e.ref s w).2.2 (H.step e.ref s w).2.1 = ops
        obtain ⟨s1, w1, b⟩ := ops
        have hrep : (if b = true then Reply.error else (H.step e.ref s w).1.scale c) =
            (if b = true then Reply.error else (H.step e.ref s w).1).scale c := by cases b <;> rfl
        simp only [hrep]
        generalize (if b = true then Reply.error else (H.step e.ref s w).1) = rep
        rw [plogAct_scale]
        generalize s1.logAct e.ref now rep = s2
        cases rep with
        | error => rfl
        | dead => simp only [Reply.scale, pop_scale hc]; exact ih _ _
        | ret d =>
          simp only [Reply.scale]
          have e1 : Time.pyOr (d.map (Time.scale c)) (s2.scale c).interval + now.scale c = (Time.pyOr d s2.interval + now).scale c := by
            rw [scale_add', ← scale_pyOr' hc]; rfl
          have e2 := pschedule_scale hc hH s2 w1 e.ref (some (Time.pyOr d s2.interval + now)) true
          simp only [Option.map_some] at e2
          simp only [e1, e2, scale_inf' hc, pop_scale hc]
          split
          · exact ih _ _
          · split
            · rfl
            · exact ih _ _

private theorem pstep_scale {H H' : PHost W} (hH : PRescaled c H H') (fuel : Nat) (s : PSched) (w : W) :
    (s.scale c).step H' fuel w = ((s.step H fuel w).1.scale c, (s.step H fuel w).2.1, (s.step H fuel w).2.2) := by
  unfold PSched.step
  have ht : (s.scale c).time = s.time.scale c := rfl
  simp only [ht, scale_inf' hc, pLoop_scale hc hH]
  split
  · rfl
  · generalize pLoop H s.time fuel s w = res
    obtain ⟨s', w', t, st⟩ := res
    cases st <;> simp [PSched.scale]

end

/-- **C258** The same with the priority queue: every code has its counterpart. -/
theorem C258_pexists (hc : 0 < c) (H : PHost W) : ∃ H', PRescaled c H H' := by
  have key : ∀ t : Time, (t.scale c).scale c⁻¹ = t := by
    intro t; cases t
    · simp [Time.scale, ← mul_assoc, inv_mul_cancel₀ hc.ne']
    · rfl
  have keyR : ∀ r : Reply, (r.scale c).scale c⁻¹ = r := by
    intro r; cases r with
    | ret d => cases d <;> simp [Reply.scale, key]
    | _ => rfl
  have keyE : ∀ e : Ev, (e.scale c).scale c⁻¹ = e := by
    intro e; cases e <;> simp [Ev.scale, key, keyR]
  have keyS : ∀ s : PSched, (s.scale c).scale c⁻¹ = s := by
    intro s
    obtain ⟨t, n, q, a, i, ru, lg⟩ := s
    simp only [PSched.scale, key, List.map_map, PSched.mk.injEq, true_and]
    exact ⟨by conv_rhs => rw [← List.map_id q]
              exact List.map_congr_left fun b _ => by simp [PEntry.scale, key],
      by conv_rhs => rw [← List.map_id lg]
         exact List.map_congr_left fun b _ => by simp [keyE]⟩
  exact ⟨{ step := fun r s w =>
            ((H.step r (s.scale c⁻¹) w).1.scale c, (H.step r (s.scale c⁻¹) w).2.1.map (SOp.scale c), (H.step r (s.scale c⁻¹) w).2.2)
           key := H.key },
    fun r s w => by simp only [keyS], rfl⟩

/-- **C258** The same with the priority queue, whatever the tie-breakers: the heap has the same shape in the new unit. -/
theorem C258_phistory (hc : 0 < c) {H H' : PHost W} (hH : PRescaled c H H') (fuel : Nat) (h : List (Cmd W)) (s : PSched) (w : W) :
    pexecAll H' fuel (h.map (Cmd.scale c)) (s.scale c, w) =
      ((pexecAll H fuel h (s, w)).1.scale c, (pexecAll H fuel h (s, w)).2) := by
  induction h generalizing s w with
  | nil => rfl
  | cons x h ih =>
    simp only [pexecAll, List.map_cons, List.foldl_cons] at ih ⊢
    cases x with
    | step => simp only [Cmd.scale, Cmd.pexec, pstep_scale hc hH]; exact ih _ _
    | op o => simp only [Cmd.scale, Cmd.pexec, papplyOp_scale hc hH]; exact ih _ _
    | world f => exact ih _ _

/-- **C258** Simulations with the priority queue, too. -/
theorem C258_psimulation (hc : 0 < c) {H H' : PHost W} (hH : PRescaled c H H') (N : Nat) (mt : Option Time) (ms : Option Nat) (fuel : Nat)
    (s : PSched) (w : W) :
    runModel (pqStepper H' N) (mt.map (Time.scale c)) ms fuel (s.scale c, w) =
      (runModel (pqStepper H N) mt ms fuel (s, w)).mapState (fun sw => (sw.1.scale c, sw.2)) := by
  have hd : ∀ (s : PSched) (w : W), isDone (pqStepper H' N) (mt.map (Time.scale c)) ms (s.scale c, w) = isDone (pqStepper H N) mt ms (s, w) := by
    intro s w
    cases mt <;> cases ms <;> simp only [isDone, pqStepper, PSched.scale, Option.map_none, Option.map_some] <;> congr 1 <;> (try congr 1) <;>
      first | rfl | exact decide_eq_decide.2 (scale_le' hc _ _) | exact propext (scale_le' hc _ _)
  have hl : ∀ (s : PSched) (w : W), runLoop (pqStepper H' N) (mt.map (Time.scale c)) ms fuel (s.scale c, w) =
      (runLoop (pqStepper H N) mt ms fuel (s, w)).mapState (fun sw => (sw.1.scale c, sw.2)) := by
    induction fuel with
    | zero =>
      intro s w
      simp only [runLoop, hd]
      split <;> rfl
    | succ n ih =>
      intro s w
      simp only [runLoop, hd]
      split
      · rfl
      · have e : (pqStepper H' N).step (s.scale c, w) =
            ((((pqStepper H N).step (s, w)).1.1.scale c, ((pqStepper H N).step (s, w)).1.2), ((pqStepper H N).step (s, w)).2) := by
          simp only [pqStepper, pstep_scale hc hH]
        rw [e]
        show (if ((pqStepper H N).step (s, w)).2 = true then _ else _) = Outcome.mapState _ (if ((pqStepper H N).step (s, w)).2 = true then _ else _)
        split
        · rfl
        · exact ih _ _
  unfold runModel
  have hn : (pqStepper H' N).noAgents (s.scale c, w) = (pqStepper H N).noAgents (s, w) := rfl
  rw [hn]
  split
  · rfl
  · exact hl s w

/-! ### The condition -/

/-- An agent that waits for `d`, measured in no unit: it does not look at the scheduler. -/
private def delayHost (d : Time) : Host Unit :=
  { step := fun _ _ w => (.ret (some d), [], w), shuffle := fun l w => (l, w), shuffle_perm := fun _ _ => .refl _ }

/-- Waiting for 3 hours and for 180 minutes are the same code in two units, and the clocks after three steps are 9 and 540. -/
example : Rescaled 60 (delayHost (.fin 3)) (delayHost (.fin 180)) :=
  ⟨fun r s w => by simp [delayHost, Reply.scale, Time.scale]; norm_num, rfl⟩

set_option maxRecDepth 100000 in
example : (execAll (delayHost (.fin 3)) [.op (.add 0 none), .step, .step, .step] (Sched.init 1 false, ())).1.time = .fin 9 ∧
    (execAll (delayHost (.fin 180)) [.op (.add 0 none), .step, .step, .step] (Sched.init 60 false, ())).1.time = .fin 540 := by
  decide +kernel

/-- The same with the priority queue. -/
private def delayPHost (d : Time) : PHost Unit :=
  { step := fun _ _ w => (.ret (some d), [], w), key := fun r w => (r, w) }

example : PRescaled 60 (delayPHost (.fin 3)) (delayPHost (.fin 180)) :=
  ⟨fun r s w => by simp [delayPHost, Reply.scale, Time.scale]; norm_num, rfl⟩

set_option maxRecDepth 100000 in
example : (pexecAll (delayPHost (.fin 3)) 5 [.op (.add 0 none), .op (.add 1 none), .step, .step, .step] (PSched.init 1, ())).1.time = .fin 9 ∧
    (pexecAll (delayPHost (.fin 180)) 5 [.op (.add 0 none), .op (.add 1 none), .step, .step, .step] (PSched.init 60, ())).1.time = .fin 540 ∧
    actRefs (pexecAll (delayPHost (.fin 3)) 5 [.op (.add 0 none), .op (.add 1 none), .step, .step] (PSched.init 1, ())).1.log = [0, 1, 0, 1] := by
  decide +kernel

/-- **C258** The unit must be changed everywhere: with the interval left in the old unit (agents that return `None` next to agents that
wait), the order of the activations changes. -/
theorem C258_interval : ∃ (H H' : Host Unit), Rescaled 60 H H' ∧
    actRefs (execAll H' [.op (.add 0 none), .op (.add 1 none), .step, .step] (Sched.init 1 false, ())).1.log ≠
      actRefs (execAll H [.op (.add 0 none), .op (.add 1 none), .step, .step] (Sched.init 1 false, ())).1.log := by
  refine ⟨{ step := fun r _ w => (if r = 0 then .ret none else .ret (some (.fin (1/2))), [], w), shuffle := fun l w => (l, w), shuffle_perm := fun _ _ => .refl _ },
    { step := fun r _ w => (if r = 0 then .ret none else .ret (some (.fin 30)), [], w), shuffle := fun l w => (l, w), shuffle_perm := fun _ _ => .refl _ },
    ⟨fun r s w => ?_, rfl⟩, ?_⟩
  · by_cases h : r = 0
    · simp [h, Reply.scale]
    · simp [h, Reply.scale, Time.scale]; norm_num
  · decide +kernel

end Verif
