import Verif.Props.Rename

/-!
# What the agents do not look at does not matter (C261)

The schedulers and the loop of a simulation never look at the world of the agents (soil/time.py:43-183, soil/simulation.py:257-280). So
two programs whose agents give the same replies and perform the same scheduler operations in worlds that correspond to each other run in
lockstep, for ever. In particular anything that is only written (logs, counters, collected data) can be added or left out.
-/

namespace Verif

variable {W V : Type} {R : W → V → Prop}

/-- In corresponding worlds the codes `H` and `K` reply the same, perform the same operations and leave corresponding worlds. Not code:
vocabulary of the claim. -/
structure Lockstep (R : W → V → Prop) (H : Host W) (K : Host V) : Prop where
  reply : ∀ r s w v, R w v → (H.step r s w).1 = (K.step r s v).1
  ops : ∀ r s w v, R w v → (H.step r s w).2.1 = (K.step r s v).2.1
  world : ∀ r s w v, R w v → R (H.step r s w).2.2 (K.step r s v).2.2
  order : ∀ l w v, R w v → (H.shuffle l w).1 = (K.shuffle l v).1
  after : ∀ l w v, R w v → R (H.shuffle l w).2 (K.shuffle l v).2

/-- The same for `PQueueActivation`, with the tie-breakers. -/
structure PLockstep (R : W → V → Prop) (H : PHost W) (K : PHost V) : Prop where
  reply : ∀ r s w v, R w v → (H.step r s w).1 = (K.step r s v).1
  ops : ∀ r s w v, R w v → (H.step r s w).2.1 = (K.step r s v).2.1
  world : ∀ r s w v, R w v → R (H.step r s w).2.2 (K.step r s v).2.2
  key : ∀ r w v, R w v → (H.key r w).1 = (K.key r v).1
  after : ∀ r w v, R w v → R (H.key r w).2 (K.key r v).2

/-- Corresponding commands. -/
inductive CmdRel (R : W → V → Prop) : Cmd W → Cmd V → Prop
  | step : CmdRel R .step .step
  | op (o : SOp) : CmdRel R (.op o) (.op o)
  | world (f : W → W) (g : V → V) (h : ∀ w v, R w v → R (f w) (g v)) : CmdRel R (.world f) (.world g)

/-- Corresponding outcomes: the same end, the same scheduler, corresponding worlds. -/
inductive OutcomeRel {S : Type} (R : W → V → Prop) : Outcome (S × W) → Outcome (S × V) → Prop
  | done (s : S) {w : W} {v : V} (h : R w v) : OutcomeRel R (.done (s, w)) (.done (s, v))
  | raised (s : S) {w : W} {v : V} (h : R w v) : OutcomeRel R (.raised (s, w)) (.raised (s, v))
  | running (s : S) {w : W} {v : V} (h : R w v) : OutcomeRel R (.running (s, w)) (.running (s, v))

/-! ### `TimedActivation` -/

private theorem runBucket_unseen {H : Host W} {K : Host V} (h : Lockstep R H K) (now : Time) (l : List Ref) (s : Sched) (w : W) (v : V)
    (hR : R w v) :
    (runBucket H now l s w).1 = (runBucket K now l s v).1 ∧ R (runBucket H now l s w).2.1 (runBucket K now l s v).2.1 ∧
      (runBucket H now l s w).2.2 = (runBucket K now l s v).2.2 := by
  induction l generalizing s w v with
  | nil => exact ⟨rfl, hR, rfl⟩
  | cons r rest ih =>
    have hw := h.world r s w v hR
    simp only [runBucket, h.reply r s w v hR, h.ops r s w v hR]
    cases (K.step r s v).1 with
    | error => exact ⟨rfl, hw, rfl⟩
    | dead => exact ih _ _ _ hw
    | ret d => exact ih _ _ _ hw

private theorem step_unseen {H : Host W} {K : Host V} (h : Lockstep R H K) (s : Sched) (w : W) (v : V) (hR : R w v) :
    (s.step H w).1 = (s.step K v).1 ∧ R (s.step H w).2.1 (s.step K v).2.1 ∧ (s.step H w).2.2 = (s.step K v).2.2 := by
  unfold Sched.step
  cases s.queue with
  | nil => exact ⟨rfl, hR, rfl⟩
  | cons b q =>
    obtain ⟨t, bucket⟩ := b
    simp only
    split
    · exact ⟨rfl, hR, rfl⟩
    · have ho : (runOrder H s bucket w).1 = (runOrder K s bucket v).1 ∧ R (runOrder H s bucket w).2 (runOrder K s bucket v).2 := by
        unfold runOrder
        split
        · exact ⟨h.order _ _ _ hR, h.after _ _ _ hR⟩
        · exact ⟨rfl, hR⟩
      rw [ho.1]
      obtain ⟨h1, h2, h3⟩ := runBucket_unseen h s.time (runOrder K s bucket v).1 { s with queue := q } _ _ ho.2
      unfold finishStep
      rw [h3]
      split
      · exact ⟨h1, h2, h3⟩
      · exact ⟨by simp only [h1], h2, rfl⟩

/-- **C261** Corresponding histories: the scheduler is the same after each of them (clock, queue, agents, log), and the worlds correspond. -/
theorem C261_history {H : Host W} {K : Host V} (h : Lockstep R H K) {l : List (Cmd W)} {m : List (Cmd V)} (hl : List.Forall₂ (CmdRel R) l m)
    (s : Sched) {w : W} {v : V} (hR : R w v) :
    (execAll H l (s, w)).1 = (execAll K m (s, v)).1 ∧ R (execAll H l (s, w)).2 (execAll K m (s, v)).2 := by
  induction hl generalizing s w v with
  | nil => exact ⟨rfl, hR⟩
  | cons hx _ ih =>
    simp only [execAll, List.foldl_cons] at ih ⊢
    cases hx with
    | step =>
      obtain ⟨h1, h2, _⟩ := step_unseen h s w v hR
      simp only [Cmd.exec, h1]
      exact ih _ h2
    | op o => exact ih _ hR
    | world f g hfg => exact ih _ (hfg _ _ hR)

/-- **C261** Corresponding simulations end in the same way with the same scheduler. -/
theorem C261_simulation {H : Host W} {K : Host V} (h : Lockstep R H K) (mt : Option Time) (ms : Option Nat) (fuel : Nat) (s : Sched)
    {w : W} {v : V} (hR : R w v) :
    OutcomeRel R (runModel (timedStepper H) mt ms fuel (s, w)) (runModel (timedStepper K) mt ms fuel (s, v)) := by
  have hd : ∀ (s : Sched) (w : W) (v : V), isDone (timedStepper H) mt ms (s, w) = isDone (timedStepper K) mt ms (s, v) := by
    intro s w v
    cases mt <;> cases ms <;> rfl
  have hl : ∀ (s : Sched) (w : W) (v : V), R w v →
      OutcomeRel R (runLoop (timedStepper H) mt ms fuel (s, w)) (runLoop (timedStepper K) mt ms fuel (s, v)) := by
    induction fuel with
    | zero =>
      intro s w v hR
      simp only [runLoop, hd s w v]
      split
      · exact .done s hR
      · exact .running s hR
    | succ n ih =>
      intro s w v hR
      obtain ⟨h1, h2, h3⟩ := step_unseen h s w v hR
      simp only [runLoop, hd s w v]
      split
      · exact .done s hR
      · have e1 : (timedStepper H).step (s, w) = (((s.step K v).1, (s.step H w).2.1), (s.step K v).2.2) := by
          simp only [timedStepper, h1, h3]
        have e2 : (timedStepper K).step (s, v) = (((s.step K v).1, (s.step K v).2.1), (s.step K v).2.2) := rfl
        rw [e1, e2]
        cases (s.step K v).2.2
        · exact ih _ _ _ h2
        · exact .raised _ h2
  unfold runModel
  have hn : (timedStepper H).noAgents (s, w) = (timedStepper K).noAgents (s, v) := rfl
  rw [hn]
  split
  · exact .raised s hR
  · exact hl s w v hR

/-! ### `PQueueActivation` -/

private theorem pschedule_unseen {H : PHost W} {K : PHost V} (h : PLockstep R H K) (s : PSched) (w : W) (v : V) (hR : R w v) (r : Ref)
    (wh : Option Time) (rp : Bool) :
    (s.schedule H w r wh rp).1 = (s.schedule K v r wh rp).1 ∧ R (s.schedule H w r wh rp).2.1 (s.schedule K v r wh rp).2.1 ∧
      (s.schedule H w r wh rp).2.2 = (s.schedule K v r wh rp).2.2 := by
  have hk := h.after r w v hR
  simp only [PSched.schedule, h.key r w v hR]
  cases rp
  · exact ⟨rfl, hk, rfl⟩
  · simp only [if_true]
    cases heapreplace PEntry.lt s.queue ⟨wh.getD s.time, (K.key r v).1, r⟩ <;> exact ⟨rfl, hk, rfl⟩

private theorem papplyOp_unseen {H : PHost W} {K : PHost V} (h : PLockstep R H K) (s : PSched) (w : W) (v : V) (hR : R w v) (o : SOp) :
    (s.applyOp H w o).1 = (s.applyOp K v o).1 ∧ R (s.applyOp H w o).2.1 (s.applyOp K v o).2.1 ∧
      (s.applyOp H w o).2.2 = (s.applyOp K v o).2.2 := by
  cases o with
  | add r wh =>
    obtain ⟨h1, h2, h3⟩ := pschedule_unseen h s w v hR r none (wh.getD s.time).truthy
    simp only [PSched.applyOp, PSched.addAgent, h1, h3]
    split
    · exact ⟨h1, h2, h3⟩
    · exact ⟨rfl, h2, rfl⟩
  | remove r => exact ⟨rfl, hR, rfl⟩
  | stop => exact ⟨rfl, hR, rfl⟩

private theorem papplyOps_unseen {H : PHost W} {K : PHost V} (h : PLockstep R H K) (os : List SOp) (s : PSched) (w : W) (v : V) (hR : R w v) :
    (s.applyOps H w os).1 = (s.applyOps K v os).1 ∧ R (s.applyOps H w os).2.1 (s.applyOps K v os).2.1 ∧
      (s.applyOps H w os).2.2 = (s.applyOps K v os).2.2 := by
  induction os generalizing s w v with
  | nil => exact ⟨rfl, hR, rfl⟩
  | cons o os ih =>
    obtain ⟨h1, h2, h3⟩ := papplyOp_unseen h s w v hR o
    simp only [PSched.applyOps, h1, h3]
    split
    · exact ⟨h1, h2, h3⟩
    · exact ih _ _ _ h2

private theorem pLoop_unseen {H : PHost W} {K : PHost V} (h : PLockstep R H K) (now : Time) (fuel : Nat) (s : PSched) (w : W) (v : V)
    (hR : R w v) :
    (pLoop H now fuel s w).1 = (pLoop K now fuel s v).1 ∧ R (pLoop H now fuel s w).2.1 (pLoop K now fuel s v).2.1 ∧
      (pLoop H now fuel s w).2.2 = (pLoop K now fuel s v).2.2 := by
  induction fuel generalizing s w v with
  | zero =>
    rw [pLoop.eq_def, pLoop.eq_def K]
    simp only
    cases hq : s.queue with
    | nil => exact ⟨rfl, hR, rfl⟩
    | cons e q =>
      simp only
      by_cases hn : now < e.when_
      · simp only [if_pos hn]; exact ⟨trivial, hR, trivial⟩
      · simp only [if_neg hn]; exact ⟨trivial, hR, trivial⟩
  | succ n ih =>
    rw [pLoop.eq_def, pLoop.eq_def K]
    simp only
    cases hq : s.queue with
    | nil => exact ⟨rfl, hR, rfl⟩
    | cons e q =>
      simp only
      by_cases hn : now < e.when_
      · simp only [if_pos hn]; exact ⟨trivial, hR, trivial⟩
      · simp only [if_neg hn]
        obtain ⟨h1, h2, h3⟩ := papplyOps_unseen h (K.step e.ref s v).2.1 s _ _ (h.world e.ref s w v hR)
        simp only [h.reply e.ref s w v hR, h.ops e.ref s w v hR, h1, h3]
        generalize (s.applyOps H (H.step e.ref s w).2.2 (K.step e.ref s v).2.1).2.1 = w1 at h2 ⊢
        generalize s.applyOps K (K.step e.ref s v).2.2 (K.step e.ref s v).2.1 = ops at h2 ⊢
        generalize (if ops.2.2 = true then Reply.error else (K.step e.ref s v).1) = rep
        generalize ops.1.logAct e.ref now rep = s1
        cases rep with
        | error => exact ⟨rfl, h2, rfl⟩
        | dead => exact ih _ _ _ h2
        | ret d =>
          simp only
          obtain ⟨g1, g2, g3⟩ := pschedule_unseen h s1 _ _ h2 e.ref (some (Time.pyOr d s1.interval + now)) true
          by_cases hi : Time.pyOr d s1.interval + now = .inf
          · simp only [if_pos hi]; exact ih _ _ _ h2
          · simp only [if_neg hi, g1, g3]
            cases (s1.schedule K ops.2.1 e.ref (some (Time.pyOr d s1.interval + now)) true).2.2
            · exact ih _ _ _ g2
            · exact ⟨rfl, g2, rfl⟩

private theorem pstep_unseen {H : PHost W} {K : PHost V} (h : PLockstep R H K) (fuel : Nat) (s : PSched) (w : W) (v : V) (hR : R w v) :
    (s.step H fuel w).1 = (s.step K fuel v).1 ∧ R (s.step H fuel w).2.1 (s.step K fuel v).2.1 ∧ (s.step H fuel w).2.2 = (s.step K fuel v).2.2 := by
  obtain ⟨h1, h2, h3⟩ := pLoop_unseen h s.time fuel s w v hR
  unfold PSched.step
  split
  · exact ⟨rfl, hR, rfl⟩
  · simp only [h1, h3]
    cases (pLoop K s.time fuel s v).2.2.2 <;> exact ⟨rfl, h2, rfl⟩

/-- **C261** The same with the priority queue. -/
theorem C261_phistory {H : PHost W} {K : PHost V} (h : PLockstep R H K) (fuel : Nat) {l : List (Cmd W)} {m : List (Cmd V)}
    (hl : List.Forall₂ (CmdRel R) l m) (s : PSched) {w : W} {v : V} (hR : R w v) :
    (pexecAll H fuel l (s, w)).1 = (pexecAll K fuel m (s, v)).1 ∧ R (pexecAll H fuel l (s, w)).2 (pexecAll K fuel m (s, v)).2 := by
  induction hl generalizing s w v with
  | nil => exact ⟨rfl, hR⟩
  | cons hx _ ih =>
    simp only [pexecAll, List.foldl_cons] at ih ⊢
    cases hx with
    | step =>
      have key := pstep_unseen h fuel s w v hR
      simp only [Cmd.pexec, key.1]
      exact ih _ key.2.1
    | op o =>
      obtain ⟨h1, h2, _⟩ := papplyOp_unseen h s w v hR o
      simp only [Cmd.pexec, h1]
      exact ih _ h2
    | world f g hfg => exact ih _ (hfg _ _ hR)

/-- **C261** Corresponding simulations with the priority queue end in the same way with the same scheduler. -/
theorem C261_psimulation {H : PHost W} {K : PHost V} (h : PLockstep R H K) (N : Nat) (mt : Option Time) (ms : Option Nat) (fuel : Nat) (s : PSched)
    {w : W} {v : V} (hR : R w v) :
    OutcomeRel R (runModel (pqStepper H N) mt ms fuel (s, w)) (runModel (pqStepper K N) mt ms fuel (s, v)) := by
  have hd : ∀ (s : PSched) (w : W) (v : V), isDone (pqStepper H N) mt ms (s, w) = isDone (pqStepper K N) mt ms (s, v) := by
    intro s w v
    cases mt <;> cases ms <;> rfl
  have hl : ∀ (s : PSched) (w : W) (v : V), R w v →
      OutcomeRel R (runLoop (pqStepper H N) mt ms fuel (s, w)) (runLoop (pqStepper K N) mt ms fuel (s, v)) := by
    induction fuel with
    | zero =>
      intro s w v hR
      simp only [runLoop, hd s w v]
      split
      · exact .done s hR
      · exact .running s hR
    | succ n ih =>
      intro s w v hR
      obtain ⟨h1, h2, h3⟩ := pstep_unseen h N s w v hR
      simp only [runLoop, hd s w v]
      split
      · exact .done s hR
      · have e1 : (pqStepper H N).step (s, w) = (((s.step K N v).1, (s.step H N w).2.1), (s.step K N v).2.2 == .raised) := by
          simp only [pqStepper, h1, h3]
        have e2 : (pqStepper K N).step (s, v) = (((s.step K N v).1, (s.step K N v).2.1), (s.step K N v).2.2 == .raised) := rfl
        rw [e1, e2]
        cases ((s.step K N v).2.2 == .raised)
        · exact ih _ _ _ h2
        · exact .raised _ h2
  unfold runModel
  have hn : (pqStepper H N).noAgents (s, w) = (pqStepper K N).noAgents (s, v) := rfl
  rw [hn]
  split
  · exact .raised s hR
  · exact hl s w v hR

/-! ### Notes -/

/-- The code `H` that also takes notes (`note`), anywhere, which it never reads. -/
def Host.noting {N : Type} (H : Host W) (note : Ref → Sched → W → N → N) : Host (W × N) where
  step r s wn := ((H.step r s wn.1).1, (H.step r s wn.1).2.1, (H.step r s wn.1).2.2, note r s wn.1 wn.2)
  shuffle l wn := ((H.shuffle l wn.1).1, (H.shuffle l wn.1).2, wn.2)
  shuffle_perm l wn := H.shuffle_perm l wn.1

/-- **C261** Taking notes changes nothing: whatever is noted, the simulation of the agents ends in the same way, with the same scheduler and
the same world beside the notes. -/
theorem C261_notes {N : Type} (H : Host W) (note : Ref → Sched → W → N → N) (mt : Option Time) (ms : Option Nat) (fuel : Nat) (s : Sched)
    (w : W) (n : N) :
    (runModel (timedStepper (H.noting note)) mt ms fuel (s, w, n)).mapState (fun x => (x.1, x.2.1)) =
      runModel (timedStepper H) mt ms fuel (s, w) := by
  have h : Lockstep (fun (wn : W × N) (v : W) => wn.1 = v) (H.noting note) H :=
    ⟨by rintro r s w v rfl; rfl, by rintro r s w v rfl; rfl, by rintro r s w v rfl; rfl, by rintro l w v rfl; rfl, by rintro l w v rfl; rfl⟩
  have := C261_simulation h mt ms fuel s (w := (w, n)) (v := w) rfl
  generalize runModel (timedStepper (H.noting note)) mt ms fuel (s, w, n) = x at this ⊢
  generalize runModel (timedStepper H) mt ms fuel (s, w) = y at this ⊢
  cases this with
  | done s h => simp only [Outcome.mapState, h]
  | raised s h => simp only [Outcome.mapState, h]
  | running s h => simp only [Outcome.mapState, h]

/-! ### Examples -/

/-- An agent that counts its activations and waits for 1 or 2 in turns. -/
private def altHost : Host Nat :=
  { step := fun _ _ w => (.ret (some (if w % 2 = 0 then 1 else 2)), [], w + 1), shuffle := fun l w => (l, w), shuffle_perm := fun _ _ => .refl _ }

/-- The same agent, which only keeps a bit. -/
private def bitHost : Host Bool :=
  { step := fun _ _ v => (.ret (some (if v then 2 else 1)), [], !v), shuffle := fun l v => (l, v), shuffle_perm := fun _ _ => .refl _ }

/-- The counter and the bit correspond. -/
example : Lockstep (fun (w : Nat) (v : Bool) => v = decide (w % 2 = 1)) altHost bitHost :=
  ⟨by rintro r s w v rfl; rcases Nat.mod_two_eq_zero_or_one w with h | h <;> simp [altHost, bitHost, h],
   by intros; rfl,
   by rintro r s w v rfl; rcases Nat.mod_two_eq_zero_or_one w with h | h <;> simp [altHost, bitHost, h, Nat.add_mod],
   by intros; rfl, by rintro l w v rfl; rfl⟩

set_option maxRecDepth 100000 in
example : (execAll altHost [.op (.add 0 none), .step, .step, .step, .step] (Sched.init 1 false, 0)).1.time = .fin 6 ∧
    (execAll bitHost [.op (.add 0 none), .step, .step, .step, .step] (Sched.init 1 false, false)).1.time = .fin 6 := by
  decide +kernel

/-- The same with the priority queue. -/
private def altPHost : PHost Nat :=
  { step := fun _ _ w => (.ret (some (if w % 2 = 0 then 1 else 2)), [], w + 1), key := fun r w => (r, w) }

private def bitPHost : PHost Bool :=
  { step := fun _ _ v => (.ret (some (if v then 2 else 1)), [], !v), key := fun r v => (r, v) }

example : PLockstep (fun (w : Nat) (v : Bool) => v = decide (w % 2 = 1)) altPHost bitPHost :=
  ⟨by rintro r s w v rfl; rcases Nat.mod_two_eq_zero_or_one w with h | h <;> simp [altPHost, bitPHost, h],
   by intros; rfl,
   by rintro r s w v rfl; rcases Nat.mod_two_eq_zero_or_one w with h | h <;> simp [altPHost, bitPHost, h, Nat.add_mod],
   by intros; rfl, by rintro l w v rfl; rfl⟩

set_option maxRecDepth 100000 in
example : (pexecAll altPHost 5 [.op (.add 0 none), .step, .step, .step, .step] (PSched.init 1, 0)).1.time = .fin 6 ∧
    (pexecAll bitPHost 5 [.op (.add 0 none), .step, .step, .step, .step] (PSched.init 1, false)).1.time = .fin 6 := by
  decide +kernel

set_option maxRecDepth 100000 in
/-- Notes: the times at which the agent was activated. -/
example : (execAll (altHost.noting fun _ s _ n => n ++ [s.time]) [.op (.add 0 none), .step, .step, .step] (Sched.init 1 false, 0, [])).2 =
    (3, [0, 1, 3]) := by
  decide +kernel

end Verif
