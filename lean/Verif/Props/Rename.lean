import Verif.Props.Origin

/-!
# Which objects the agents are does not matter (C260)

The schedulers keep agents in queues and sets (soil/time.py:43-183, mesa `BaseScheduler`) and never look into them, except that the
ordered `PQueueActivation` takes `unique_id` as tie-breaker (soil/time.py:70-73). A simulation with other objects for the agents is the
same simulation, with other names.
-/

namespace Verif

/-! ### Renaming -/

/-- An event about the renamed agent. Not code: vocabulary of the claim. -/
def Ev.rename (f : Ref → Ref) : Ev → Ev
  | .added r t => .added (f r) t
  | .act r t rep => .act (f r) t rep

/-- A scheduler operation on the renamed agent. -/
def SOp.rename (f : Ref → Ref) : SOp → SOp
  | .add r w => .add (f r) w
  | .remove r => .remove (f r)
  | .stop => .stop

/-- A command about the renamed agent. -/
def Cmd.rename {W : Type} (f : Ref → Ref) : Cmd W → Cmd W
  | .step => .step
  | .op o => .op (o.rename f)
  | .world g => .world g

/-- A `TimedActivation` with renamed agents. -/
def Sched.rename (f : Ref → Ref) (s : Sched) : Sched :=
  { s with
    queue := s.queue.map fun b => (b.1, b.2.map f)
    agents := s.agents.map f
    log := s.log.map (Ev.rename f) }

/-- A heap entry of the renamed agent; the tie-breaker stays. -/
def PEntry.rename (f : Ref → Ref) (e : PEntry) : PEntry := { e with ref := f e.ref }

/-- A `PQueueActivation` with renamed agents. -/
def PSched.rename (f : Ref → Ref) (s : PSched) : PSched :=
  { s with
    queue := s.queue.map (PEntry.rename f)
    agents := s.agents.map f
    log := s.log.map (Ev.rename f) }

variable {W : Type} {f : Ref → Ref}

/-- The code `H'` does with the renamed agents what `H` does; the shuffle is one of positions. -/
def Renamed (f : Ref → Ref) (H H' : Host W) : Prop :=
  (∀ r s w, H'.step (f r) (s.rename f) w = ((H.step r s w).1, (H.step r s w).2.1.map (SOp.rename f), (H.step r s w).2.2)) ∧
    ∀ l w, H'.shuffle (l.map f) w = ((H.shuffle l w).1.map f, (H.shuffle l w).2)

/-- The same for `PQueueActivation`; the tie-breakers are those of the old names. -/
def PRenamed (f : Ref → Ref) (H H' : PHost W) : Prop :=
  (∀ r s w, H'.step (f r) (s.rename f) w = ((H.step r s w).1, (H.step r s w).2.1.map (SOp.rename f), (H.step r s w).2.2)) ∧
    ∀ r w, H'.key (f r) w = H.key r w

section
variable (hf : Function.Injective f)
include hf

private theorem addSet_rename (l : List Ref) (r : Ref) :
    (if f r ∈ l.map f then l.map f else l.map f ++ [f r]) = (if r ∈ l then l else l ++ [r]).map f := by
  by_cases h : r ∈ l
  · rw [if_pos h, if_pos (List.mem_map_of_mem h)]
  · rw [if_neg h, if_neg (fun hm => by obtain ⟨x, hx, e⟩ := List.mem_map.1 hm; exact h (hf e ▸ hx))]
    simp

private theorem erase_rename (l : List Ref) (r : Ref) : (l.map f).erase (f r) = (l.erase r).map f := by
  induction l with
  | nil => rfl
  | cons x l ih =>
    simp only [List.map_cons, List.erase_cons, beq_iff_eq, hf.eq_iff, ih]
    split <;> rfl

/-! ### `TimedActivation` -/

omit hf in
private theorem insertBucket_rename (t : Time) (r : Ref) (q : List (Time × List Ref)) :
    insertBucket t (f r) (q.map fun b => (b.1, b.2.map f)) = (insertBucket t r q).map fun b => (b.1, b.2.map f) := by
  induction q with
  | nil => rfl
  | cons b q ih =>
    obtain ⟨u, l⟩ := b
    simp only [List.map_cons, insertBucket, ih]
    split
    · simp
    · split <;> rfl

omit hf in
private theorem schedule_rename (s : Sched) (r : Ref) (w : Option Time) :
    (s.rename f).schedule (f r) w = (s.schedule r w).rename f := by
  simp only [Sched.schedule, Sched.rename, insertBucket_rename]

private theorem applyOp_rename (s : Sched) (o : SOp) : (s.rename f).applyOp (o.rename f) = (s.applyOp o).rename f := by
  cases o with
  | add r w =>
    simp only [SOp.rename, Sched.applyOp, Sched.addAgent, schedule_rename]
    simp [Sched.rename, Ev.rename, ← addSet_rename hf]
  | remove r => simp [SOp.rename, Sched.applyOp, Sched.removeAgent, Sched.rename, erase_rename hf]
  | stop => rfl

private theorem applyOps_rename (s : Sched) (os : List SOp) : (s.rename f).applyOps (os.map (SOp.rename f)) = (s.applyOps os).rename f := by
  induction os generalizing s with
  | nil => rfl
  | cons o os ih =>
    simp only [Sched.applyOps, List.map_cons, List.foldl_cons, applyOp_rename hf] at ih ⊢
    exact ih _

omit hf in
private theorem logAct_rename (s : Sched) (r : Ref) (t : Time) (rep : Reply) :
    (s.rename f).logAct (f r) t rep = (s.logAct r t rep).rename f := by
  simp [Sched.logAct, Sched.rename, Ev.rename]

private theorem runBucket_rename {H H' : Host W} (hH : Renamed f H H') (now : Time) (l : List Ref) (s : Sched) (w : W) :
    runBucket H' now (l.map f) (s.rename f) w =
      ((runBucket H now l s w).1.rename f, (runBucket H now l s w).2.1, (runBucket H now l s w).2.2) := by
  induction l generalizing s w with
  | nil => rfl
  | cons r rest ih =>
    simp only [List.map_cons, runBucket, hH.1, applyOps_rename hf, logAct_rename]
    cases (H.step r s w).1 with
    | error => rfl
    | dead => exact ih _ _
    | ret d =>
      simp only
      generalize ((s.applyOps (H.step r s w).2.1).logAct r now (.ret d)) = s1
      have e : (s1.rename f).interval = s1.interval := rfl
      rw [e, schedule_rename]
      by_cases hi : Time.pyOr d s1.interval + now = .inf
      · rw [if_pos hi, if_pos hi]; exact ih _ _
      · rw [if_neg hi, if_neg hi]; exact ih _ _

private theorem step_rename {H H' : Host W} (hH : Renamed f H H') (s : Sched) (w : W) :
    (s.rename f).step H' w = ((s.step H w).1.rename f, (s.step H w).2.1, (s.step H w).2.2) := by
  unfold Sched.step
  cases hq : s.queue with
  | nil => simp [Sched.rename, hq]
  | cons b q =>
    obtain ⟨t, bucket⟩ := b
    have hq' : (s.rename f).queue = (t, bucket.map f) :: q.map fun b => (b.1, b.2.map f) := by simp [Sched.rename, hq]
    have ht : (s.rename f).time = s.time := rfl
    simp only [hq', ht]
    split
    · simp [Sched.rename, hq]
    · have hb : runOrder H' (s.rename f) (bucket.map f) w = ((runOrder H s bucket w).1.map f, (runOrder H s bucket w).2) := by
        have : (s.rename f).shuffle = s.shuffle := rfl
        simp only [runOrder, hH.2, this]
        split <;> rfl
      have hs : ({ s.rename f with queue := q.map fun b => (b.1, b.2.map f) } : Sched) = ({ s with queue := q } : Sched).rename f := rfl
      have hr := runBucket_rename hf hH s.time (runOrder H s bucket w).1 { s with queue := q } (runOrder H s bucket w).2
      rw [← hs] at hr
      rw [hb]
      refine (congrArg finishStep hr).trans ?_
      generalize runBucket H s.time (runOrder H s bucket w).1 { s with queue := q } (runOrder H s bucket w).2 = res
      obtain ⟨s', w', e⟩ := res
      cases e
      · simp only [finishStep, Bool.false_eq_true, if_false, Sched.rename]
        cases s'.queue <;> rfl
      · rfl

end

/-- **C260** Every code has its counterpart for the new names (given a bijection `f` with inverse `g`). -/
theorem C260_exists {g : Ref → Ref} (hg : ∀ r, g (f r) = r) (hg' : ∀ r, f (g r) = r) (H : Host W) : ∃ H', Renamed f H H' := by
  have keyL : ∀ l : List Ref, (l.map f).map g = l := by
    intro l; induction l with
    | nil => rfl
    | cons x l ih => simp only [List.map_cons, hg, ih]
  have keyE : ∀ e : Ev, (e.rename f).rename g = e := by
    intro e; cases e <;> simp [Ev.rename, hg]
  have keyS : ∀ s : Sched, (s.rename f).rename g = s := by
    intro s
    obtain ⟨t, n, q, a, i, sh, ru, lg⟩ := s
    simp only [Sched.rename, keyL, List.map_map, Sched.mk.injEq, true_and]
    refine ⟨?_, ?_⟩
    · conv_rhs => rw [← List.map_id q]
      exact List.map_congr_left fun b _ => by
        obtain ⟨u, l⟩ := b
        have := keyL l
        rw [List.map_map] at this
        simp [this]
    · conv_rhs => rw [← List.map_id lg]
      exact List.map_congr_left fun b _ => by simp [keyE]
  have keyL' : ∀ l : List Ref, (l.map g).map f = l := by
    intro l; induction l with
    | nil => rfl
    | cons x l ih => simp only [List.map_cons, hg', ih]
  exact ⟨{ step := fun r s w =>
            ((H.step (g r) (s.rename g) w).1, (H.step (g r) (s.rename g) w).2.1.map (SOp.rename f), (H.step (g r) (s.rename g) w).2.2)
           shuffle := fun l w => ((H.shuffle (l.map g) w).1.map f, (H.shuffle (l.map g) w).2)
           shuffle_perm := fun l w => by
            have := (H.shuffle_perm (l.map g) w).map f
            rwa [keyL'] at this },
    fun r s w => by simp only [keyS, hg], fun l w => by simp only [keyL]⟩

/-- **C260** Every history with the new names goes like the one with the old names: the renamed agents are activated in the same order, at
the same times, with the same results, and the world is the same. -/
theorem C260_history (hf : Function.Injective f) {H H' : Host W} (hH : Renamed f H H') (h : List (Cmd W)) (s : Sched) (w : W) :
    execAll H' (h.map (Cmd.rename f)) (s.rename f, w) = ((execAll H h (s, w)).1.rename f, (execAll H h (s, w)).2) := by
  induction h generalizing s w with
  | nil => rfl
  | cons x h ih =>
    simp only [execAll, List.map_cons, List.foldl_cons] at ih ⊢
    cases x with
    | step => simp only [Cmd.rename, Cmd.exec, step_rename hf hH]; exact ih _ _
    | op o => simp only [Cmd.rename, Cmd.exec, applyOp_rename hf]; exact ih _ _
    | world g => exact ih _ _

/-- **C260** Simulations end in the same way, after the same number of steps, at the same time, with the same world. -/
theorem C260_simulation (hf : Function.Injective f) {H H' : Host W} (hH : Renamed f H H') (mt : Option Time) (ms : Option Nat) (fuel : Nat)
    (s : Sched) (w : W) :
    runModel (timedStepper H') mt ms fuel (s.rename f, w) =
      (runModel (timedStepper H) mt ms fuel (s, w)).mapState (fun sw => (sw.1.rename f, sw.2)) := by
  have hd : ∀ (s : Sched) (w : W), isDone (timedStepper H') mt ms (s.rename f, w) = isDone (timedStepper H) mt ms (s, w) := by
    intro s w
    cases mt <;> cases ms <;> rfl
  have hl : ∀ (s : Sched) (w : W), runLoop (timedStepper H') mt ms fuel (s.rename f, w) =
      (runLoop (timedStepper H) mt ms fuel (s, w)).mapState (fun sw => (sw.1.rename f, sw.2)) := by
    induction fuel with
    | zero =>
      intro s w
      simp only [runLoop, hd]
      split <;> rfl
    | succ n ih =>
      intro s w
      simp only [runLoop, hd]
      split
      · rfl
      · have e : (timedStepper H').step (s.rename f, w) =
            (((s.step H w).1.rename f, (s.step H w).2.1), (s.step H w).2.2) := by
          simp only [timedStepper, step_rename hf hH]
        rw [e]
        show (if (s.step H w).2.2 = true then _ else _) = Outcome.mapState _ (if (s.step H w).2.2 = true then _ else _)
        split
        · rfl
        · exact ih _ _
  unfold runModel
  have hn : (timedStepper H').noAgents (s.rename f, w) = (timedStepper H).noAgents (s, w) := by
    show (s.agents.map f).isEmpty = s.agents.isEmpty
    cases s.agents <;> rfl
  rw [hn]
  split
  · rfl
  · exact hl s w

/-! ### `PQueueActivation` -/

private theorem entry_lt_rename (a b : PEntry) : PEntry.lt (a.rename f) (b.rename f) = PEntry.lt a b := rfl

private theorem pschedule_rename {H H' : PHost W} (hH : PRenamed f H H') (s : PSched) (w : W) (r : Ref) (wh : Option Time) (rp : Bool) :
    (s.rename f).schedule H' w (f r) wh rp =
      ((s.schedule H w r wh rp).1.rename f, (s.schedule H w r wh rp).2.1, (s.schedule H w r wh rp).2.2) := by
  have e : ∀ k, (⟨wh.getD (s.rename f).time, k, f r⟩ : PEntry) = PEntry.rename f ⟨wh.getD s.time, k, r⟩ := fun k => rfl
  have hq : (s.rename f).queue = s.queue.map (PEntry.rename f) := rfl
  simp only [PSched.schedule, hH.2, e, hq, heappush_map entry_lt_rename, heapreplace_map entry_lt_rename]
  cases rp
  · rfl
  · simp only [if_true]
    cases heapreplace PEntry.lt s.queue ⟨wh.getD s.time, (H.key r w).1, r⟩ <;> rfl

section
variable (hf : Function.Injective f)
include hf

private theorem papplyOp_rename {H H' : PHost W} (hH : PRenamed f H H') (s : PSched) (w : W) (o : SOp) :
    (s.rename f).applyOp H' w (o.rename f) = ((s.applyOp H w o).1.rename f, (s.applyOp H w o).2.1, (s.applyOp H w o).2.2) := by
  cases o with
  | add r wh =>
    have ht : (s.rename f).time = s.time := rfl
    simp only [SOp.rename, PSched.applyOp, PSched.addAgent, ht, pschedule_rename hH]
    generalize s.schedule H w r none (wh.getD s.time).truthy = res
    obtain ⟨s', w', e⟩ := res
    cases e
    · simp [PSched.rename, Ev.rename, ← addSet_rename hf]
    · rfl
  | remove r => simp [SOp.rename, PSched.applyOp, PSched.rename, erase_rename hf]
  | stop => rfl

private theorem papplyOps_rename {H H' : PHost W} (hH : PRenamed f H H') (os : List SOp) (s : PSched) (w : W) :
    (s.rename f).applyOps H' w (os.map (SOp.rename f)) =
      ((s.applyOps H w os).1.rename f, (s.applyOps H w os).2.1, (s.applyOps H w os).2.2) := by
  induction os generalizing s w with
  | nil => rfl
  | cons o os ih =>
    simp only [PSched.applyOps, List.map_cons, papplyOp_rename hf hH]
    split
    · rfl
    · exact ih _ _

omit hf in
private theorem plogAct_rename (s : PSched) (r : Ref) (t : Time) (rep : Reply) :
    (s.rename f).logAct (f r) t rep = (s.logAct r t rep).rename f := by
  simp [PSched.logAct, PSched.rename, Ev.rename]

omit hf in
private theorem pop_rename (s : PSched) : (s.rename f).pop = s.pop.rename f := by
  have hq : (s.rename f).queue = s.queue.map (PEntry.rename f) := rfl
  simp only [PSched.pop, hq, heappop_map entry_lt_rename]
  rfl

private theorem pLoop_rename {H H' : PHost W} (hH : PRenamed f H H') (now : Time) (fuel : Nat) (s : PSched) (w : W) :
    pLoop H' now fuel (s.rename f) w =
      ((pLoop H now fuel s w).1.rename f, (pLoop H now fuel s w).2.1, (pLoop H now fuel s w).2.2.1, (pLoop H now fuel s w).2.2.2) := by
  induction fuel generalizing s w with
  | zero =>
    rw [pLoop.eq_def, pLoop.eq_def H]
    have hq : (s.rename f).queue = s.queue.map (PEntry.rename f) := rfl
    simp only [hq]
    cases s.queue with
    | nil => rfl
    | cons e q =>
      simp only [List.map_cons]
      have he : (e.rename f).when_ = e.when_ := rfl
      simp only [he]
      split <;> rfl
  | succ n ih =>
    rw [pLoop.eq_def, pLoop.eq_def H]
    have hq : (s.rename f).queue = s.queue.map (PEntry.rename f) := rfl
    simp only [hq]
    cases s.queue with
    | nil => rfl
    | cons e q =>
      simp only [List.map_cons]
      have he : (e.rename f).when_ = e.when_ := rfl
      have hr : (e.rename f).ref = f e.ref := rfl
      simp only [he, hr, hH.1, papplyOps_rename hf hH]
      split
      · rfl
      · generalize s.applyOps H (H.step e.ref s w).2.2 (H.step e.ref s w).2.1 = ops
        obtain ⟨s1, w1, b⟩ := ops
        simp only
        generalize (if b = true then Reply.error else (H.step e.ref s w).1) = rep
        rw [plogAct_rename]
        generalize s1.logAct e.ref now rep = s2
        cases rep with
        | error => rfl
        | dead => simp only [pop_rename]; exact ih _ _
        | ret d =>
          have hi : (s2.rename f).interval = s2.interval := rfl
          simp only [hi, pschedule_rename hH, pop_rename]
          split
          · exact ih _ _
          · split
            · rfl
            · exact ih _ _

private theorem pstep_rename {H H' : PHost W} (hH : PRenamed f H H') (fuel : Nat) (s : PSched) (w : W) :
    (s.rename f).step H' fuel w = ((s.step H fuel w).1.rename f, (s.step H fuel w).2.1, (s.step H fuel w).2.2) := by
  unfold PSched.step
  have ht : (s.rename f).time = s.time := rfl
  simp only [ht, pLoop_rename hf hH]
  split
  · rfl
  · generalize pLoop H s.time fuel s w = res
    obtain ⟨s', w', t, st⟩ := res
    cases st <;> simp [PSched.rename]

end

/-- **C260** Every code for the priority queue has its counterpart, too. -/
theorem C260_pexists {g : Ref → Ref} (hg : ∀ r, g (f r) = r) (H : PHost W) : ∃ H', PRenamed f H H' := by
  have keyL : ∀ l : List Ref, (l.map f).map g = l := by
    intro l; induction l with
    | nil => rfl
    | cons x l ih => simp only [List.map_cons, hg, ih]
  have keyE : ∀ e : Ev, (e.rename f).rename g = e := by
    intro e; cases e <;> simp [Ev.rename, hg]
  have keyS : ∀ s : PSched, (s.rename f).rename g = s := by
    intro s
    obtain ⟨t, n, q, a, i, ru, lg⟩ := s
    simp only [PSched.rename, keyL, List.map_map, PSched.mk.injEq, true_and]
    refine ⟨?_, ?_⟩
    · conv_rhs => rw [← List.map_id q]
      exact List.map_congr_left fun b _ => by simp [PEntry.rename, hg]
    · conv_rhs => rw [← List.map_id lg]
      exact List.map_congr_left fun b _ => by simp [keyE]
  exact ⟨{ step := fun r s w =>
            ((H.step (g r) (s.rename g) w).1, (H.step (g r) (s.rename g) w).2.1.map (SOp.rename f), (H.step (g r) (s.rename g) w).2.2)
           key := fun r w => H.key (g r) w },
    fun r s w => by simp only [keyS, hg], fun r w => by simp only [hg]⟩

/-- **C260** The same with the priority queue, if the agents keep their tie-breakers. -/
theorem C260_phistory (hf : Function.Injective f) {H H' : PHost W} (hH : PRenamed f H H') (fuel : Nat) (h : List (Cmd W)) (s : PSched) (w : W) :
    pexecAll H' fuel (h.map (Cmd.rename f)) (s.rename f, w) =
      ((pexecAll H fuel h (s, w)).1.rename f, (pexecAll H fuel h (s, w)).2) := by
  induction h generalizing s w with
  | nil => rfl
  | cons x h ih =>
    simp only [pexecAll, List.map_cons, List.foldl_cons] at ih ⊢
    cases x with
    | step => simp only [Cmd.rename, Cmd.pexec, pstep_rename hf hH]; exact ih _ _
    | op o => simp only [Cmd.rename, Cmd.pexec, papplyOp_rename hf hH]; exact ih _ _
    | world g => exact ih _ _

/-- **C260** Simulations with the priority queue, too. -/
theorem C260_psimulation (hf : Function.Injective f) {H H' : PHost W} (hH : PRenamed f H H') (N : Nat) (mt : Option Time) (ms : Option Nat) (fuel : Nat)
    (s : PSched) (w : W) :
    runModel (pqStepper H' N) mt ms fuel (s.rename f, w) =
      (runModel (pqStepper H N) mt ms fuel (s, w)).mapState (fun sw => (sw.1.rename f, sw.2)) := by
  have hd : ∀ (s : PSched) (w : W), isDone (pqStepper H' N) mt ms (s.rename f, w) = isDone (pqStepper H N) mt ms (s, w) := by
    intro s w
    cases mt <;> cases ms <;> rfl
  have hl : ∀ (s : PSched) (w : W), runLoop (pqStepper H' N) mt ms fuel (s.rename f, w) =
      (runLoop (pqStepper H N) mt ms fuel (s, w)).mapState (fun sw => (sw.1.rename f, sw.2)) := by
    induction fuel with
    | zero =>
      intro s w
      simp only [runLoop, hd]
      split <;> rfl
    | succ n ih =>
      intro s w
      simp only [runLoop, hd]
      split
      · rfl
      · have e : (pqStepper H' N).step (s.rename f, w) =
            ((((pqStepper H N).step (s, w)).1.1.rename f, ((pqStepper H N).step (s, w)).1.2), ((pqStepper H N).step (s, w)).2) := by
          simp only [pqStepper, pstep_rename hf hH]
        rw [e]
        show (if ((pqStepper H N).step (s, w)).2 = true then _ else _) = Outcome.mapState _ (if ((pqStepper H N).step (s, w)).2 = true then _ else _)
        split
        · rfl
        · exact ih _ _
  unfold runModel
  have hn : (pqStepper H' N).noAgents (s.rename f, w) = (pqStepper H N).noAgents (s, w) := by
    show (s.agents.map f).isEmpty = s.agents.isEmpty
    cases s.agents <;> rfl
  rw [hn]
  split
  · rfl
  · exact hl s w

/-! ### The conditions -/

/-- Agents that do nothing but count. -/
private def countHost260 : Host Nat :=
  { step := fun _ _ w => (.ret none, [], w + 1), shuffle := fun l w => (l, w), shuffle_perm := fun _ _ => .refl _ }

/-- **C260** Two agents must not become one object: the agent set has one agent then, and it is activated twice. -/
theorem C260_injective : ∃ (H H' : Host Nat) (h : List (Cmd Nat)), Renamed (fun _ => 7) H H' ∧
    (execAll H h (Sched.init 1 false, 0)).1.agents.length = 2 ∧
    (execAll H' (h.map (Cmd.rename fun _ => 7)) (Sched.init 1 false, 0)).1.agents.length = 1 ∧
    actRefs (execAll H' (h.map (Cmd.rename fun _ => 7)) (Sched.init 1 false, 0)).1.log = [7, 7] :=
  ⟨countHost260, countHost260, [.op (.add 0 none), .op (.add 1 none), .step], ⟨fun _ _ _ => rfl, fun _ _ => rfl⟩,
    by decide +kernel, by decide +kernel, by decide +kernel⟩

/-- Agents with their id as the tie-breaker (`OrderedPQueueActivation`). -/
private def idPHost : PHost Unit :=
  { step := fun _ _ w => (.ret none, [], w), key := fun r w => (r, w) }

/-- Exchange of the agents 0 and 1. -/
private def swap01 (r : Ref) : Ref := if r = 0 then 1 else if r = 1 then 0 else r

/-- **C260** With the ids as tie-breakers the names do matter: when the agents 0 and 1 change their names, the order of the activations is
still 0, 1, not the renamed order 1, 0. -/
theorem C260_ids : ∃ (H : PHost Unit) (h : List (Cmd Unit)) (g : Ref → Ref), Function.Injective g ∧ (∀ r w, (H.key r w).1 = r) ∧
    actRefs (pexecAll H 5 (h.map (Cmd.rename g)) (PSched.init 1, ())).1.log = [0, 1] ∧
    (actRefs (pexecAll H 5 h (PSched.init 1, ())).1.log).map g = [1, 0] :=
  ⟨idPHost, [.op (.add 0 none), .op (.add 1 none), .step], swap01, fun a b h => by
      unfold swap01 at h
      split at h <;> split at h <;> (try split at h) <;> (try split at h) <;> simp_all, fun _ _ => rfl,
    by decide +kernel, by decide +kernel⟩

/-- The agents 0, 1 and the agents 10, 11 (added in this order, with a shuffle that reverses). -/
private def revHost : Host Nat :=
  { step := fun _ s w => (.ret none, if s.steps = 1 then [.stop] else [], w + 1), shuffle := fun l w => (l.reverse, w + 1), shuffle_perm := fun l _ => List.reverse_perm l }

example : Renamed (· + 10) revHost revHost :=
  ⟨fun r s w => by
    have : (s.rename (· + 10)).steps = s.steps := rfl
    simp only [revHost, this]
    split <;> rfl, fun l w => by simp [revHost]⟩

set_option maxRecDepth 100000 in
example : actRefs (execAll revHost [.op (.add 0 none), .op (.add 1 none), .step, .step] (Sched.init 1 true, 0)).1.log = [1, 0, 0, 1] ∧
    actRefs (execAll revHost [.op (.add 10 none), .op (.add 11 none), .step, .step] (Sched.init 1 true, 0)).1.log = [11, 10, 10, 11] := by
  decide +kernel

/-- Agents with a fixed tie-breaker (the newest names first), and the agents renamed by adding 10. -/
private def backPHost260 (k : Nat) : PHost Unit :=
  { step := fun _ _ w => (.ret none, [], w), key := fun r w => (k - r, w) }

example : PRenamed (· + 10) (backPHost260 0) (backPHost260 10) :=
  ⟨fun _ _ _ => rfl, fun r w => by simp [backPHost260]⟩

set_option maxRecDepth 100000 in
example : actRefs (pexecAll (backPHost260 0) 5 [.op (.add 0 none), .op (.add 1 none), .step] (PSched.init 1, ())).1.log = [1, 0] ∧
    actRefs (pexecAll (backPHost260 10) 5 [.op (.add 10 none), .op (.add 11 none), .step] (PSched.init 1, ())).1.log = [11, 10] := by
  decide +kernel

end Verif
