import Verif.Model.Driver
import Verif.Props.Converse
import Verif.Props.MailPQueue

/-!
# C250: no code around the scheduler can tell which one is used
-/

namespace Verif
open Spec

variable {S W D : Type}

/-- Code around the scheduler that adds no agents. -/
def PlainDriver (P : Outer W D) : Prop :=
  ∀ d v w ops w' d', P d v w = .code ops w' d' → ∀ q wh, SOp.add q wh ∉ ops

theorem RunSim.op {N k : Nat} {x : Sched × W × Nat} {y : PSched × W × Nat} (h : RunSim N k x y) (P : PHost (W × Nat)) (w : W × Nat) (o : SOp) (ho : ∀ q wh, o ≠ .add q wh) :
    RunSim N k (x.1.applyOp o, x.2) ((y.1.applyOp P w o).1, y.2) ∧ (y.1.applyOp P w o).2 = (w, false) := by
  cases o with
  | add q wh => exact absurd rfl (ho q wh)
  | remove r =>
    refine ⟨⟨h.inv.op (.remove r), h.pinv.congr rfl rfl rfl rfl, h.head, h.good, h.some_, h.time, h.steps, ?_, h.interval, h.log, h.running, h.world, h.mixed, h.shuffled, h.len⟩, rfl⟩
    exact congrArg (fun l : List Ref => l.erase r) h.live
  | stop =>
    exact ⟨⟨h.inv.op .stop, h.pinv.congr rfl rfl rfl rfl, h.head, h.good, h.some_, h.time, h.steps, h.live, h.interval, h.log, by simp [Sched.applyOp, PSched.applyOp], h.world, h.mixed,
      h.shuffled, h.len⟩, rfl⟩

theorem RunSim.setWorld {N k : Nat} {x : Sched × W × Nat} {y : PSched × W × Nat} (h : RunSim N k x y) (w : W) : RunSim N k (x.1, (w, x.2.2)) (y.1, (w, y.2.2)) :=
  ⟨h.inv, h.pinv, h.head, h.good, h.some_, h.time, h.steps, h.live, h.interval, h.log, h.running, rfl, h.mixed, h.shuffled, h.len⟩

theorem RunSim.ops {N k : Nat} {x : Sched × W × Nat} {y : PSched × W × Nat} (h : RunSim N k x y) (P : PHost (W × Nat)) (os : List SOp) (w : W × Nat) (ho : ∀ q wh, SOp.add q wh ∉ os) :
    RunSim N k (x.1.applyOps os, x.2) ((y.1.applyOps P w os).1, y.2) ∧ (y.1.applyOps P w os).2 = (w, false) ∧ (x.1.applyOps os).log = x.1.log ∧
      (y.1.applyOps P w os).1.queue = y.1.queue ∧ (x.1.applyOps os).interval = x.1.interval := by
  induction os generalizing x y with
  | nil => exact ⟨h, rfl, rfl, rfl, rfl⟩
  | cons o os ih =>
    have ho1 : ∀ q wh, o ≠ .add q wh := fun q wh hc => ho q wh (by rw [hc]; simp)
    obtain ⟨h1, h2⟩ := h.op P w o ho1
    obtain ⟨i1, i2, i3, i4, i5⟩ := ih h1 (fun q wh hc => ho q wh (List.mem_cons_of_mem _ hc))
    have e : y.1.applyOps P w (o :: os) = (y.1.applyOp P w o).1.applyOps P w os := by
      rw [PSched.applyOps]
      simp [h2]
    have hl : (x.1.applyOp o).log = x.1.log ∧ (y.1.applyOp P w o).1.queue = y.1.queue ∧ (x.1.applyOp o).interval = x.1.interval := by
      cases o with
      | add q wh => exact absurd rfl (ho1 q wh)
      | remove r => exact ⟨rfl, rfl, rfl⟩
      | stop => exact ⟨rfl, rfl, rfl⟩
    rw [e]
    exact ⟨i1, i2, i3.trans hl.1, i4.trans hl.2.1, i5.trans hl.2.2⟩

/-- The code around the scheduler has no effect on what is scheduled. -/
theorem RunSim.code {N k : Nat} {x : Sched × W × Nat} {y : PSched × W × Nat} (h : RunSim N k x y) (T : Host (W × Nat)) (P : PHost (W × Nat)) (os : List SOp) (w : W)
    (ho : ∀ q wh, SOp.add q wh ∉ os) :
    RunSim N k ((timedIface T).code os w x) ((pqueueIface P N).code os w y) ∧ ((timedIface T).code os w x).1.log = x.1.log ∧
      ((pqueueIface P N).code os w y).1.queue = y.1.queue ∧ ((timedIface T).code os w x).1.interval = x.1.interval ∧ ((pqueueIface P N).code os w y).2.2 = y.2.2 := by
  obtain ⟨h1, h2, h3, h4, h5⟩ := h.ops P os (w, y.2.2) ho
  have h6 := h1.setWorld w
  have e : (pqueueIface P N).code os w y = ((y.1.applyOps P (w, y.2.2) os).1, (w, y.2.2)) := by
    show ((y.1.applyOps P (w, y.2.2) os).1, (y.1.applyOps P (w, y.2.2) os).2.1) = _
    rw [h2]
  rw [e]
  exact ⟨h6, h3, h4, h5, rfl⟩

theorem RunSim.view {N k : Nat} {x : Sched × W × Nat} {y : PSched × W × Nat} (h : RunSim N k x y) (T : Host (W × Nat)) (P : PHost (W × Nat)) :
    (timedIface T).view x = (pqueueIface P N).view y := by
  have e : (!x.1.running || decide (x.1.time = .inf)) = (!y.1.running || decide (y.1.time = .inf)) := by
    rw [h.running, ← h.time]
    by_cases hi : x.1.time = .inf <;> simp [hi]
  simp only [timedIface, pqueueIface, View.mk.injEq]
  exact ⟨h.time, h.steps, h.live, e⟩

/-- The schedulers with the code around them, after `k` calls of `schedule.step()`. -/
structure DriveSim (N k : Nat) (x : Driven (Sched × W × Nat) D) (y : Driven (PSched × W × Nat) D) : Prop where
  loc : x.loc = y.loc
  fin : x.fin = y.fin
  ok : y.fin ≠ .raised → RunSim N k x.st y.st
  same : SameSched x.st.1 y.st.1 ∧ x.st.2.1 = y.st.2.1 ∨ RunSim N k x.st y.st

/-- Whether the next thing is a call of `schedule.step()`. -/
def stepsNext (I : Iface S W) (P : Outer W D) (x : Driven S D) : Bool :=
  match x.fin with
  | .going => match P x.loc (I.view x.st) (I.world x.st) with
    | .step _ => true
    | _ => false
  | _ => false

/-- The first step of the `drive` in which a property of the calls so far holds: the steps of the scheduler, each with some information about it. -/
def trace {A : Type} (I : Iface S W) (P : Outer W D) (info : S → A) (x : Driven S D) : Nat → List A
  | 0 => []
  | i + 1 => if stepsNext I P (drive I P i x) then trace I P info x i ++ [info (drive I P i x).st] else trace I P info x i

theorem trace_prefix {A : Type} (I : Iface S W) (P : Outer W D) (info : S → A) (x : Driven S D) {i j : Nat} (h : i ≤ j) :
    ∃ l, trace I P info x j = trace I P info x i ++ l := by
  induction h with
  | refl => exact ⟨[], by simp⟩
  | @step j _ ih =>
    obtain ⟨l, hl⟩ := ih
    rw [trace]
    split
    · exact ⟨l ++ [info (drive I P j x).st], by rw [hl, List.append_assoc]⟩
    · exact ⟨l, hl⟩

/-- The information about the `n`-th call of `schedule.step()`. -/
noncomputable def traceAt {A : Type} (dflt : A) (I : Iface S W) (P : Outer W D) (info : S → A) (x : Driven S D) (n : Nat) : A :=
  ((trace I P info x (firstOf (fun i => n < (trace I P info x i).length)))[n]?).getD dflt

theorem traceAt_eq {A : Type} (dflt : A) (I : Iface S W) (P : Outer W D) (info : S → A) (x : Driven S D) {i n : Nat} (hn : (trace I P info x i).length = n)
    (hs : stepsNext I P (drive I P i x) = true) : traceAt dflt I P info x n = info (drive I P i x).st := by
  have h1 : trace I P info x (i + 1) = trace I P info x i ++ [info (drive I P i x).st] := by rw [trace, if_pos hs]
  have h2 : firstOf (fun i => n < (trace I P info x i).length) = i + 1 := by
    refine firstOf_eq ?_ ?_
    · rw [h1]
      simp [hn]
    · intro j hj hc
      obtain ⟨l, hl⟩ := trace_prefix I P info x (show j ≤ i by omega)
      have := congrArg List.length hl
      simp only [List.length_append] at this
      omega
  unfold traceAt
  rw [h2, h1, ← hn]
  simp

theorem stepsNext_iff {I : Iface S W} {P : Outer W D} {x : Driven S D} : stepsNext I P x = true ↔ x.fin = .going ∧ ∃ d, P x.loc (I.view x.st) (I.world x.st) = .step d := by
  unfold stepsNext
  constructor
  · intro h
    cases hf : x.fin with
    | going =>
      rw [hf] at h
      simp only at h
      cases hp : P x.loc (I.view x.st) (I.world x.st) with
      | step d => exact ⟨rfl, d, rfl⟩
      | halt => rw [hp] at h; cases h
      | code ops w d => rw [hp] at h; cases h
    | halted => rw [hf] at h; cases h
    | raised => rw [hf] at h; cases h
  · rintro ⟨h1, d, h2⟩
    rw [h1]
    simp only [h2]

/-- One thing done by the code around either scheduler. -/
theorem DriveSim.one {N k : Nat} {T : Host (W × Nat)} {Q : PHost (W × Nat)} {P : Outer W D} (hP : PlainDriver P) {x : Driven (Sched × W × Nat) D}
    {y : Driven (PSched × W × Nat) D} (h : DriveSim N k x y)
    (hs : stepsNext (pqueueIface Q N) P y = true → RunSim N k x.st y.st → StepSim N k T Q x.st y.st) :
    stepsNext (timedIface T) P x = stepsNext (pqueueIface Q N) P y ∧
    DriveSim N (if stepsNext (pqueueIface Q N) P y then k + 1 else k) (driveOne (timedIface T) P x) (driveOne (pqueueIface Q N) P y) := by
  obtain ⟨x, lx, fx⟩ := x
  obtain ⟨y, ly, fy⟩ := y
  obtain ⟨h1, h2, h3, h4⟩ := h
  simp only at h1 h2 h3 h4
  subst h1 h2
  cases fx with
  | halted => exact ⟨rfl, rfl, rfl, h3, h4⟩
  | raised => exact ⟨rfl, rfl, rfl, h3, h4⟩
  | going =>
    have hr := h3 (by decide)
    have hv := hr.view T Q
    have hw : (timedIface T).world x = (pqueueIface Q N).world y := hr.world
    cases hp : P lx ((pqueueIface Q N).view y) ((pqueueIface Q N).world y) with
    | halt => 
      simp only [stepsNext, driveOne, hv, hw, hp]
      exact ⟨trivial, rfl, rfl, fun _ => hr, Or.inr hr⟩
    | code ops w d =>
      simp only [stepsNext, driveOne, hv, hw, hp]
      have := (hr.code T Q ops w (hP _ _ _ _ _ _ hp)).1
      exact ⟨trivial, rfl, rfl, fun _ => this, Or.inr this⟩
    | step d =>
      have hn : stepsNext (pqueueIface Q N) P ⟨y, lx, .going⟩ = true := stepsNext_iff.2 ⟨rfl, d, hp⟩
      have hst := hs hn hr
      rw [hn]
      simp only [stepsNext, driveOne, hv, hw, hp, if_true]
      refine ⟨trivial, ?_⟩
      have e1 : (timedIface T).step x = (timedStepper T).step x := rfl
      have e2 : (pqueueIface Q N).step y = (pqStepper Q N).step y := rfl
      rw [e1, e2]
      rcases hst with ⟨s1, s2, s3⟩ | ⟨s1, s2, s3, s4⟩
      · rw [s1, s2]
        exact ⟨rfl, rfl, fun _ => s3, Or.inr s3⟩
      · rw [s1, s2]
        exact ⟨rfl, rfl, fun hc => absurd rfl hc, Or.inl ⟨s3, s4⟩⟩

/-- The code around a new `TimedActivation` to which a population has been added, after doing `i` things. -/
def timedDrive (P : Outer W D) (U : AgentCode W) (order : Nat → List Ref → List Ref) (perm : ∀ n l, (order n l).Perm l) (iv : Time) (pop : List Ref) (w : W) (d : D) (i : Nat) :
    Driven (Sched × W × Nat) D :=
  drive (timedIface (U.timed order perm)) P i ⟨timedPop (U.timed order perm) iv pop w, d, .going⟩

/-- The code around a new `PQueueActivation` to which a population has been added, after doing `i` things. -/
def pqueueDrive (P : Outer W D) (U : AgentCode W) (keys : Ref → Nat → Rat) (N : Nat) (iv : Time) (pop : List Ref) (w : W) (d : D) (i : Nat) : Driven (PSched × W × Nat) D :=
  drive (pqueueIface (U.pqueue keys) N) P i ⟨pqueuePop (U.pqueue keys) iv pop w, d, .going⟩

/-- Who is activated by a call of `PQueueActivation.step`, in order. -/
def pqueueBatch (Q : PHost (W × Nat)) (N : Nat) (y : PSched × W × Nat) : List Ref := actRefs (((pqStepper Q N).step y).1.1.log.drop y.1.log.length)

/-- The order in which `PQueueActivation` runs the agents in the `n`-th call. -/
noncomputable def driveOrder (P : Outer W D) (U : AgentCode W) (keys : Ref → Nat → Rat) (N : Nat) (iv : Time) (pop : List Ref) (w : W) (d : D) (n : Nat) (l : List Ref) : List Ref :=
  replan (traceAt [] (pqueueIface (U.pqueue keys) N) P (pqueueBatch (U.pqueue keys) N) ⟨pqueuePop (U.pqueue keys) iv pop w, d, .going⟩ n) l

theorem drive_sim {P : Outer W D} (hP : PlainDriver P) {U : AgentCode W} (hU : U.Plain) (keys : Ref → Nat → Rat) (N : Nat) (iv : Time) (hiv : 0 < iv) (pop : List Ref)
    (hpop : pop ≠ []) (hN : pop.length ≤ N) (w : W) (d : D) (perm : ∀ n l, (driveOrder P U keys N iv pop w d n l).Perm l) (i : Nat) :
    DriveSim N (trace (pqueueIface (U.pqueue keys) N) P (pqueueBatch (U.pqueue keys) N) ⟨pqueuePop (U.pqueue keys) iv pop w, d, .going⟩ i).length
      (timedDrive P U (driveOrder P U keys N iv pop w d) perm iv pop w d i) (pqueueDrive P U keys N iv pop w d i) := by
  induction i with
  | zero => 
    have := run_start (U := U) keys (driveOrder P U keys N iv pop w d) perm N iv hiv pop hpop hN w
    exact ⟨rfl, rfl, fun _ => this, Or.inr this⟩
  | succ i ih =>
    have h := DriveSim.one (T := U.timed (driveOrder P U keys N iv pop w d) perm) (Q := U.pqueue keys) hP ih (by
      intro hs hr
      refine hr.step hU ?_
      intro t b q _ hsub
      unfold driveOrder
      rw [traceAt_eq [] _ _ _ _ rfl hs]
      exact replan_sub hsub)
    have e : (trace (pqueueIface (U.pqueue keys) N) P (pqueueBatch (U.pqueue keys) N) ⟨pqueuePop (U.pqueue keys) iv pop w, d, .going⟩ (i + 1)).length =
        if stepsNext (pqueueIface (U.pqueue keys) N) P (pqueueDrive P U keys N iv pop w d i) then
          (trace (pqueueIface (U.pqueue keys) N) P (pqueueBatch (U.pqueue keys) N) ⟨pqueuePop (U.pqueue keys) iv pop w, d, .going⟩ i).length + 1
        else (trace (pqueueIface (U.pqueue keys) N) P (pqueueBatch (U.pqueue keys) N) ⟨pqueuePop (U.pqueue keys) iv pop w, d, .going⟩ i).length := by
      rw [trace]
      have : drive (pqueueIface (U.pqueue keys) N) P i ⟨pqueuePop (U.pqueue keys) iv pop w, d, .going⟩ = pqueueDrive P U keys N iv pop w d i := rfl
      rw [this]
      split
      · simp
      · rfl
    rw [e]
    exact h.2

theorem DriveSim.facts {N k : Nat} {x : Driven (Sched × W × Nat) D} {y : Driven (PSched × W × Nat) D} (h : DriveSim N k x y) (T : Host (W × Nat)) (Q : PHost (W × Nat)) :
    x.loc = y.loc ∧ x.fin = y.fin ∧ (timedIface T).view x.st = (pqueueIface Q N).view y.st ∧ x.st.2.1 = y.st.2.1 ∧ x.st.1.log = y.st.1.log ∧
      (y.fin ≠ .raised → (pending x.st.1).Perm (ppending y.st.1)) := by
  refine ⟨h.loc, h.fin, ?_, ?_, ?_, fun hr => (h.ok hr).scheduled⟩
  · rcases h.same with ⟨h1, -⟩ | h1
    · simp only [timedIface, pqueueIface, View.mk.injEq]
      exact ⟨h1.time, h1.steps, h1.live, by rw [h1.running, h1.time]⟩
    · exact h1.view T Q
  · rcases h.same with ⟨-, h1⟩ | h1
    · exact h1
    · exact h1.world
  · rcases h.same with ⟨h1, -⟩ | h1
    · exact h1.log
    · exact h1.log

/-- C250: whatever code there is around the scheduler (it may call `schedule.step()` at any time, read the time, the number of steps, the agents, whether there is an end, and
everything outside the scheduler, remove agents, stop the model, and change what is outside), and whatever the tie-breaking numbers of `PQueueActivation` are, there are orders
of the agents with which `TimedActivation` does the same: the code does the same things, raises or halts at the same moment, sees the same, and the same has happened. -/
theorem C250_same (P : Outer W D) (hP : PlainDriver P) (U : AgentCode W) (hU : PlainCode U) (keys : Ref → Nat → Rat) (N : Nat) (iv : Time) (hiv : 0 < iv) (pop : List Ref)
    (hpop : pop ≠ []) (hN : pop.length ≤ N) (w : W) (d : D) :
    ∃ (order : Nat → List Ref → List Ref) (perm : ∀ n l, (order n l).Perm l), ∀ i,
      let x := timedDrive P U order perm iv pop w d i
      let y := pqueueDrive P U keys N iv pop w d i
      x.loc = y.loc ∧ x.fin = y.fin ∧ (timedIface (U.timed order perm)).view x.st = (pqueueIface (U.pqueue keys) N).view y.st ∧ x.st.2.1 = y.st.2.1 ∧
        x.st.1.log = y.st.1.log ∧ (y.fin ≠ .raised → (pending x.st.1).Perm (ppending y.st.1)) :=
  ⟨driveOrder P U keys N iv pop w d, fun _ _ => replan_perm _ _, fun i =>
    (drive_sim hP hU.plain keys N iv hiv pop hpop hN w d (fun _ _ => replan_perm _ _) i).facts _ _⟩

theorem DriveSim.next {N k : Nat} {x : Driven (Sched × W × Nat) D} {y : Driven (PSched × W × Nat) D} (h : DriveSim N k x y) (T : Host (W × Nat)) (Q : PHost (W × Nat))
    (P : Outer W D) : stepsNext (timedIface T) P x = stepsNext (pqueueIface Q N) P y := by
  obtain ⟨h1, h2, h3, h4, -⟩ := h.facts T Q
  have h4 : (timedIface T).world x.st = (pqueueIface Q N).world y.st := h4
  unfold stepsNext
  rw [h1, h2, h3, h4]

/-- What is left when the next thing is not a call of `schedule.step()`. -/
theorem DriveSim.quiet {N k : Nat} {T : Host (W × Nat)} {Q : PHost (W × Nat)} {P : Outer W D} (hP : PlainDriver P) {x : Driven (Sched × W × Nat) D}
    {y : Driven (PSched × W × Nat) D} (h : DriveSim N k x y) (hs : stepsNext (pqueueIface Q N) P y = false) :
    (driveOne (pqueueIface Q N) P y).st.1.queue = y.st.1.queue ∧ (driveOne (pqueueIface Q N) P y).st.2.2 = y.st.2.2 ∧
    (driveOne (pqueueIface Q N) P y).st.1.log = y.st.1.log ∧ (driveOne (pqueueIface Q N) P y).st.1.interval = y.st.1.interval ∧
    (driveOne (timedIface T) P x).st.1.log = x.st.1.log ∧ ((driveOne (pqueueIface Q N) P y).fin ≠ .raised → y.fin ≠ .raised) := by
  obtain ⟨x, lx, fx⟩ := x
  obtain ⟨y, ly, fy⟩ := y
  obtain ⟨h1, h2, h3, h4⟩ := h
  simp only at h1 h2 h3 h4
  subst h1 h2
  cases fx with
  | halted => exact ⟨rfl, rfl, rfl, rfl, rfl, id⟩
  | raised => exact ⟨rfl, rfl, rfl, rfl, rfl, id⟩
  | going =>
    have hr := h3 (by decide)
    have hv := hr.view T Q
    have hw : (timedIface T).world x = (pqueueIface Q N).world y := hr.world
    cases hp : P lx ((pqueueIface Q N).view y) ((pqueueIface Q N).world y) with
    | halt =>
      simp only [driveOne, hv, hw, hp]
      exact ⟨trivial, trivial, trivial, trivial, trivial, fun _ => by decide⟩
    | code ops w d =>
      simp only [driveOne, hv, hw, hp]
      obtain ⟨c1, c2, c3, c4, c5⟩ := hr.code T Q ops w (hP _ _ _ _ _ _ hp)
      refine ⟨c3, c5, ?_, ?_, c2, fun _ => by decide⟩
      · rw [← c1.log, c2, hr.log]
      · rw [← c1.interval, c4, hr.interval]
    | step d =>
      have hn : stepsNext (pqueueIface Q N) P ⟨y, lx, .going⟩ = true := stepsNext_iff.2 ⟨rfl, d, hp⟩
      rw [hn] at hs
      cases hs

theorem trace_length {A A' : Type} (I : Iface S W) (P : Outer W D) (info : S → A) (info' : S → A') (x : Driven S D) (i : Nat) :
    (trace I P info x i).length = (trace I P info' x i).length := by
  induction i with
  | zero => rfl
  | succ i ih =>
    rw [trace, trace]
    split
    · simp [ih]
    · exact ih

/-- Who is activated by a call of `TimedActivation.step`, in order. -/
def bucketBatch (order : Nat → List Ref → List Ref) (x : Sched × W × Nat) : List Ref := x.1.queue.head?.elim [] (fun b => order x.2.2 b.2)

/-- Who is activated in the `n`-th call of `TimedActivation.step`. -/
noncomputable def driveBatch (P : Outer W D) (U : AgentCode W) (order : Nat → List Ref → List Ref) (perm : ∀ n l, (order n l).Perm l) (iv : Time) (pop : List Ref) (w : W)
    (d : D) (n : Nat) : List Ref :=
  traceAt [] (timedIface (U.timed order perm)) P (bucketBatch order) ⟨timedPop (U.timed order perm) iv pop w, d, .going⟩ n

/-- How often something has been scheduled after the `n`-th call. -/
noncomputable def driveCount (P : Outer W D) (U : AgentCode W) (order : Nat → List Ref → List Ref) (perm : ∀ n l, (order n l).Perm l) (iv : Time) (pop : List Ref) (w : W)
    (d : D) : Nat → Nat
  | 0 => pop.length
  | n + 1 => traceAt 0 (timedIface (U.timed order perm)) P (fun x => schedCount iv ((timedStepper (U.timed order perm)).step x).1.1.log)
      ⟨timedPop (U.timed order perm) iv pop w, d, .going⟩ n

theorem key_startOf (U : AgentCode W) (B : Nat → List Ref) (C : Nat → Nat) (iv : Time) (hiv : 0 < iv) (pop : List Ref) (hnd : pop.Nodup) (w : W) (hC : C 0 = pop.length) :
    KeyInv B iv 0 (pqueuePop (U.pqueue (keyFun B C)) iv pop w) ∧ schedCount iv (pqueuePop (U.pqueue (keyFun B C)) iv pop w).1.log = pop.length := by
  obtain ⟨h1, h2, h3⟩ := pop_keys (U.pqueue (keyFun B C)) (keyFun B C) (fun _ _ _ => rfl) pop (PSched.init iv, (w, 0)) rfl
  obtain ⟨-, -, -, -, -, k5⟩ := pop_inv (U.pqueue (keyFun B C)) 0 pop (PSched.init iv, (w, 0)) (PInv.init hiv) (Or.inl rfl) rfl
  have hlog : (pqueuePop (U.pqueue (keyFun B C)) iv pop w).1.log = pop.map (fun r => Ev.added r 0) := k5
  have hc : schedCount iv (pqueuePop (U.pqueue (keyFun B C)) iv pop w).1.log = pop.length := by
    rw [hlog, schedCount_added]
  refine ⟨⟨?_, ?_, ?_⟩, hc⟩
  · rw [hc]
    exact h1.trans (Nat.zero_add _)
  · refine h2.nodup_iff.2 ?_
    simpa [PSched.init] using hnd
  · intro e he
    rcases h3 e he with h | ⟨c, h, h'⟩
    · cases h
    · rw [h']
      unfold keyFun
      rw [stepOfCount_eq (k := 0) ?_ (by intro j hj; omega)]
      rw [hC]
      simpa using h

theorem drive_converse {P : Outer W D} (hP : PlainDriver P) {U : AgentCode W} (hU : U.Plain) (order : Nat → List Ref → List Ref) (perm : ∀ n l, (order n l).Perm l)
    (N : Nat) (iv : Time) (hiv : 0 < iv) (pop : List Ref) (hpop : pop ≠ []) (hnd : pop.Nodup) (hN : pop.length ≤ N) (w : W) (d : D) (i : Nat) :
    let B := driveBatch P U order perm iv pop w d
    let C := driveCount P U order perm iv pop w d
    let x := timedDrive P U order perm iv pop w d i
    let y := pqueueDrive P U (keyFun B C) N iv pop w d i
    let k := (trace (timedIface (U.timed order perm)) P (bucketBatch order) ⟨timedPop (U.timed order perm) iv pop w, d, .going⟩ i).length
    DriveSim N k x y ∧ (y.fin ≠ .raised → KeyInv B iv k y.st ∧ y.st.1.interval = iv ∧ ∀ j ≤ k, C j ≤ schedCount iv x.st.1.log) := by
  intro B C
  induction i with
  | zero =>
    intro x y k
    have h0 := run_start (U := U) (keyFun B C) order perm N iv hiv pop hpop hN w
    obtain ⟨k1, k2⟩ := key_startOf U B C iv hiv pop hnd w rfl
    refine ⟨⟨rfl, rfl, fun _ => h0, Or.inr h0⟩, fun _ => ⟨k1, ?_, ?_⟩⟩
    · have := h0.interval
      refine this.symm.trans ?_
      exact execAll_interval (U.timed order perm) (pop.map (fun r => .op (.add r none))) (Sched.init iv true, (w, 0))
    · intro j hj
      have : j = 0 := Nat.le_zero.1 hj
      subst this
      refine le_of_eq ?_
      refine Eq.trans ?_ (congrArg (schedCount iv) h0.log.symm)
      exact k2.symm
  | succ i ih =>
    intro x y k
    obtain ⟨h, hkey⟩ := ih
    have hnext := h.next (U.timed order perm) (U.pqueue (keyFun B C)) P
    have hstep : stepsNext (pqueueIface (U.pqueue (keyFun B C)) N) P (pqueueDrive P U (keyFun B C) N iv pop w d i) = true →
        RunSim N (trace (timedIface (U.timed order perm)) P (bucketBatch order) ⟨timedPop (U.timed order perm) iv pop w, d, .going⟩ i).length
          (timedDrive P U order perm iv pop w d i).st (pqueueDrive P U (keyFun B C) N iv pop w d i).st →
        StepSim N (trace (timedIface (U.timed order perm)) P (bucketBatch order) ⟨timedPop (U.timed order perm) iv pop w, d, .going⟩ i).length (U.timed order perm)
            (U.pqueue (keyFun B C)) (timedDrive P U order perm iv pop w d i).st (pqueueDrive P U (keyFun B C) N iv pop w d i).st ∧
          (((timedStepper (U.timed order perm)).step (timedDrive P U order perm iv pop w d i).st).2 = false →
            KeyInv B iv ((trace (timedIface (U.timed order perm)) P (bucketBatch order) ⟨timedPop (U.timed order perm) iv pop w, d, .going⟩ i).length + 1)
              ((pqStepper (U.pqueue (keyFun B C)) N).step (pqueueDrive P U (keyFun B C) N iv pop w d i).st).1) ∧
          C ((trace (timedIface (U.timed order perm)) P (bucketBatch order) ⟨timedPop (U.timed order perm) iv pop w, d, .going⟩ i).length + 1) =
            schedCount iv ((timedStepper (U.timed order perm)).step (timedDrive P U order perm iv pop w d i).st).1.1.log := by
      intro hs hr
      have hs' := hnext.trans hs
      have hg : (pqueueDrive P U (keyFun B C) N iv pop w d i).fin ≠ .raised := by
        rw [(stepsNext_iff.1 hs).1]
        decide
      obtain ⟨k1, k2, k3⟩ := hkey hg
      have hC1 : C ((trace (timedIface (U.timed order perm)) P (bucketBatch order) ⟨timedPop (U.timed order perm) iv pop w, d, .going⟩ i).length + 1) =
          schedCount iv ((timedStepper (U.timed order perm)).step (timedDrive P U order perm iv pop w d i).st).1.1.log :=
        traceAt_eq 0 _ _ _ _ (trace_length _ _ _ _ _ _) hs'
      have hB0 : B (trace (timedIface (U.timed order perm)) P (bucketBatch order) ⟨timedPop (U.timed order perm) iv pop w, d, .going⟩ i).length =
          (timedDrive P U order perm iv pop w d i).st.1.queue.head?.elim []
            (fun b => order (trace (timedIface (U.timed order perm)) P (bucketBatch order) ⟨timedPop (U.timed order perm) iv pop w, d, .going⟩ i).length b.2) := by
        have e : B (trace (timedIface (U.timed order perm)) P (bucketBatch order) ⟨timedPop (U.timed order perm) iv pop w, d, .going⟩ i).length =
            bucketBatch order (timedDrive P U order perm iv pop w d i).st := traceAt_eq [] _ _ _ _ rfl hs'
        rw [e, bucketBatch]
        by_cases hq : (timedDrive P U order perm iv pop w d i).st.1.queue = []
        · rw [hq]
          rfl
        · rw [hr.mixed hq]
      obtain ⟨g1, g2⟩ := KeyInv.stepOf hU hr k2 k1 hB0 k3 (fun _ => hC1)
      exact ⟨g1, g2, hC1⟩
    have hone := (DriveSim.one (T := U.timed order perm) (Q := U.pqueue (keyFun B C)) hP h (fun hs hr => (hstep hs hr).1)).2
    have ex : x = driveOne (timedIface (U.timed order perm)) P (timedDrive P U order perm iv pop w d i) := rfl
    have ey : y = driveOne (pqueueIface (U.pqueue (keyFun B C)) N) P (pqueueDrive P U (keyFun B C) N iv pop w d i) := rfl
    by_cases hs : stepsNext (pqueueIface (U.pqueue (keyFun B C)) N) P (pqueueDrive P U (keyFun B C) N iv pop w d i) = true
    · have hs' := hnext.trans hs
      have hk : k = (trace (timedIface (U.timed order perm)) P (bucketBatch order) ⟨timedPop (U.timed order perm) iv pop w, d, .going⟩ i).length + 1 := by
        have : k = (trace (timedIface (U.timed order perm)) P (bucketBatch order) ⟨timedPop (U.timed order perm) iv pop w, d, .going⟩ (i + 1)).length := rfl
        rw [this, trace]
        have hs'' : stepsNext (timedIface (U.timed order perm)) P
          (drive (timedIface (U.timed order perm)) P i ⟨timedPop (U.timed order perm) iv pop w, d, .going⟩) = true := hs'
        rw [if_pos hs'']
        simp
      rw [if_pos hs, ← ex, ← ey, ← hk] at hone
      refine ⟨hone, ?_⟩
      obtain ⟨hg, d', hd⟩ := stepsNext_iff.1 hs
      obtain ⟨hg', d'', hd'⟩ := stepsNext_iff.1 hs'
      have hr := h.ok (by rw [hg]; decide)
      obtain ⟨g1, g2, g3⟩ := hstep hs hr
      obtain ⟨k1, k2, k3⟩ := hkey (by rw [hg]; decide)
      have ey' : y = ⟨((pqStepper (U.pqueue (keyFun B C)) N).step (pqueueDrive P U (keyFun B C) N iv pop w d i).st).1, d',
          if ((pqStepper (U.pqueue (keyFun B C)) N).step (pqueueDrive P U (keyFun B C) N iv pop w d i).st).2 then .raised else .going⟩ := by
        rw [ey]
        unfold driveOne
        rw [hg]
        simp only [hd]
        rfl
      have ex' : x.st = ((timedStepper (U.timed order perm)).step (timedDrive P U order perm iv pop w d i).st).1 := by
        rw [ex]
        unfold driveOne
        rw [hg']
        simp only [hd']
        rfl
      intro hnr
      rw [ey'] at hnr
      have hp2 : ((pqStepper (U.pqueue (keyFun B C)) N).step (pqueueDrive P U (keyFun B C) N iv pop w d i).st).2 = false := by
        cases hc : ((pqStepper (U.pqueue (keyFun B C)) N).step (pqueueDrive P U (keyFun B C) N iv pop w d i).st).2 with
        | false => rfl
        | true => rw [hc] at hnr; exact absurd rfl hnr
      rcases g1 with ⟨f1, -, f3⟩ | ⟨-, f2, -⟩
      · have key := g2 f1
        rw [ey', ex', hk]
        refine ⟨key, ?_, ?_⟩
        · rw [← f3.interval]
          have hi := execAll_interval (U.timed order perm) [.step] (timedDrive P U order perm iv pop w d i).st
          refine Eq.trans hi ?_
          rw [hr.interval, k2]
        · intro j hj
          rcases Nat.le_succ_iff.1 hj with hj | hj
          · refine (k3 j hj).trans ?_
            obtain ⟨l, hl⟩ := (Cmd.step (W := W × Nat)).exec_log (U.timed order perm) (timedDrive P U order perm iv pop w d i).st
            have hl' : ((timedStepper (U.timed order perm)).step (timedDrive P U order perm iv pop w d i).st).1.1.log =
              (timedDrive P U order perm iv pop w d i).st.1.log ++ l := hl
            rw [hl', schedCount_append]
            omega
          · rw [hj]
            exact le_of_eq g3
      · rw [f2] at hp2
        cases hp2
    · have hsf : stepsNext (pqueueIface (U.pqueue (keyFun B C)) N) P (pqueueDrive P U (keyFun B C) N iv pop w d i) = false := by simpa using hs
      have hs' := hnext.trans hsf
      have hk : k = (trace (timedIface (U.timed order perm)) P (bucketBatch order) ⟨timedPop (U.timed order perm) iv pop w, d, .going⟩ i).length := by
        have : k = (trace (timedIface (U.timed order perm)) P (bucketBatch order) ⟨timedPop (U.timed order perm) iv pop w, d, .going⟩ (i + 1)).length := rfl
        rw [this, trace]
        have hs'' : stepsNext (timedIface (U.timed order perm)) P
          (drive (timedIface (U.timed order perm)) P i ⟨timedPop (U.timed order perm) iv pop w, d, .going⟩) = false := hs'
        rw [hs'']
        rfl
      rw [if_neg hs, ← ex, ← ey, ← hk] at hone
      refine ⟨hone, ?_⟩
      obtain ⟨q1, q2, q3, q4, q5, q6⟩ := h.quiet (T := U.timed order perm) hP hsf
      intro hnr
      obtain ⟨k1, k2, k3⟩ := hkey (q6 hnr)
      rw [hk]
      refine ⟨⟨?_, ?_, ?_⟩, ?_, ?_⟩
      · exact q2.trans (k1.count.trans (congrArg (schedCount iv) q3.symm))
      · rw [ey, q1]
        exact k1.nodup
      · intro e he
        rw [ey, q1] at he
        exact k1.key e he
      · exact q4.trans k2
      · intro j hj
        rw [ex, q5]
        exact k3 j hj

/-- C250, the other direction: whatever the code around the scheduler is, and whatever the orders of `TimedActivation` are, there are tie-breaking numbers in [0, 1) with which
`PQueueActivation` does the same. -/
theorem C250_converse (P : Outer W D) (hP : PlainDriver P) (U : AgentCode W) (hU : PlainCode U) (order : Nat → List Ref → List Ref) (perm : ∀ n l, (order n l).Perm l)
    (iv : Time) (hiv : 0 < iv) (pop : List Ref) (hpop : pop ≠ []) (hnd : pop.Nodup) (w : W) (d : D) :
    ∃ keys : Ref → Nat → Rat, (∀ r n, 0 ≤ keys r n ∧ keys r n < 1) ∧ ∀ N, pop.length ≤ N → ∀ i,
      let x := timedDrive P U order perm iv pop w d i
      let y := pqueueDrive P U keys N iv pop w d i
      x.loc = y.loc ∧ x.fin = y.fin ∧ (timedIface (U.timed order perm)).view x.st = (pqueueIface (U.pqueue keys) N).view y.st ∧ x.st.2.1 = y.st.2.1 ∧
        x.st.1.log = y.st.1.log ∧ (y.fin ≠ .raised → (pending x.st.1).Perm (ppending y.st.1)) :=
  ⟨keyFun (driveBatch P U order perm iv pop w d) (driveCount P U order perm iv pop w d), fun _ _ => rankOf_range _, fun N hN i =>
    (drive_converse hP hU.plain order perm N iv hiv pop hpop hnd hN w d i).1.facts _ _⟩

/-! ## `Lockstepper` around either scheduler -/

theorem lockDriver_plain : PlainDriver (lockDriver (W := W)) := by
  intro d v w ops w' d' h q wh
  have : ops = [] := by
    obtain ⟨n, e⟩ := d
    cases e with
    | none => cases n with
      | zero => cases h
      | succ n => cases h; rfl
    | some e =>
      simp only [lockDriver] at h
      split at h
      · cases h
      · cases h; rfl
  rw [this]
  simp

/-- The code around both schedulers does the same. -/
def Alike (P : Outer W D) (T : Host (W × Nat)) (Q : PHost (W × Nat)) (N : Nat) (x0 : Driven (Sched × W × Nat) D) (y0 : Driven (PSched × W × Nat) D) : Prop :=
  ∀ i, let x := drive (timedIface T) P i x0
    let y := drive (pqueueIface Q N) P i y0
    x.loc = y.loc ∧ x.fin = y.fin ∧ (timedIface T).view x.st = (pqueueIface Q N).view y.st ∧ x.st.2.1 = y.st.2.1 ∧ x.st.1.log = y.st.1.log ∧
      (y.fin ≠ .raised → (pending x.st.1).Perm (ppending y.st.1))

/-- Both are at the same place after `i` things. -/
def Both (P : Outer W D) (T : Host (W × Nat)) (Q : PHost (W × Nat)) (N : Nat) (x0 : Driven (Sched × W × Nat) D) (y0 : Driven (PSched × W × Nat) D) (i : Nat)
    (x : Sched × W × Nat) (y : PSched × W × Nat) (d : D) : Prop :=
  drive (timedIface T) P i x0 = ⟨x, d, .going⟩ ∧ drive (pqueueIface Q N) P i y0 = ⟨y, d, .going⟩

theorem Both.facts {P : Outer W D} {T : Host (W × Nat)} {Q : PHost (W × Nat)} {N : Nat} {x0 : Driven (Sched × W × Nat) D} {y0 : Driven (PSched × W × Nat) D}
    (hA : Alike P T Q N x0 y0) {i : Nat} {x : Sched × W × Nat} {y : PSched × W × Nat} {d : D} (h : Both P T Q N x0 y0 i x y d) :
    (timedIface T).view x = (pqueueIface Q N).view y ∧ x.2.1 = y.2.1 ∧
    ((pending x.1).Perm (ppending y.1) ∧ x.1.log = y.1.log ∧ x.1.time = y.1.time ∧ x.1.steps = y.1.steps ∧ x.1.agents = y.1.agents ∧ x.2.1 = y.2.1) := by
  have := hA i
  simp only at this
  rw [h.1, h.2] at this
  obtain ⟨-, -, h3, h4, h5, h6⟩ := this
  have hv := h3
  simp only [timedIface, pqueueIface, View.mk.injEq] at hv
  exact ⟨h3, h4, h6 (fun hc => by cases hc), h5, hv.1, hv.2.1, hv.2.2.1, h4⟩

/-- The results of the loop of a `Lockstepper` around both: the same, and in the same place of the code. -/
theorem lockLoop_alike {T : Host ((Lock × W) × Nat)} {Q : PHost ((Lock × W) × Nat)} {N : Nat} {x0 : Driven (Sched × (Lock × W) × Nat) (Nat × Option Time)}
    {y0 : Driven (PSched × (Lock × W) × Nat) (Nat × Option Time)} (hA : Alike lockDriver T Q N x0 y0) (n : Nat) (e : Time) (fuel : Nat) (i : Nat)
    (x : Sched × (Lock × W) × Nat) (y : PSched × (Lock × W) × Nat) (h : Both lockDriver T Q N x0 y0 i x y (n, some e)) :
    SameOutcome (lockLoopOf (timedIface T) e fuel x) (lockLoopOf (pqueueIface Q N) e fuel y) ∧
    ∀ x' y', lockLoopOf (timedIface T) e fuel x = .done x' → lockLoopOf (pqueueIface Q N) e fuel y = .done y' →
      ∃ j, Both lockDriver T Q N x0 y0 j x' y' (n, some e) ∧ ¬ ((timedIface T).view x').time < e ∧ ¬ ((pqueueIface Q N).view y').time < e := by
  induction fuel generalizing i x y with
  | zero =>
    obtain ⟨f1, f2, f3⟩ := h.facts hA
    unfold lockLoopOf
    rw [f1]
    split
    · exact ⟨f3, fun x' y' hc => by cases hc⟩
    · rename_i hn
      refine ⟨f3, ?_⟩
      intro x' y' h1 h2
      cases h1
      cases h2
      exact ⟨i, h, by rw [f1]; exact hn, hn⟩
  | succ fuel ih =>
    obtain ⟨f1, f2, f3⟩ := h.facts hA
    have hw : (timedIface T).world x = (pqueueIface Q N).world y := f2
    unfold lockLoopOf
    rw [f1]
    by_cases hn : ((pqueueIface Q N).view y).time < e
    · rw [if_pos hn, if_pos hn]
      simp only
      have d1 : drive (timedIface T) lockDriver (i + 1) x0 = ⟨((timedIface T).step x).1, (n, some e), if ((timedIface T).step x).2 then .raised else .going⟩ := by
        rw [drive, h.1]
        simp only [driveOne, lockDriver, f1, if_pos hn]
      have d2 : drive (pqueueIface Q N) lockDriver (i + 1) y0 =
          ⟨((pqueueIface Q N).step y).1, (n, some e), if ((pqueueIface Q N).step y).2 then .raised else .going⟩ := by
        rw [drive, h.2]
        simp only [driveOne, lockDriver, if_pos hn]
      have hi := hA (i + 1)
      simp only at hi
      rw [d1, d2] at hi
      obtain ⟨-, g2, g3, g4, g5, -⟩ := hi
      simp only at g2 g3 g4 g5
      have hv := g3
      simp only [timedIface, pqueueIface, View.mk.injEq] at hv
      cases hc : ((pqueueIface Q N).step y).2 with
      | true =>
        have hc' : ((timedIface T).step x).2 = true := by
          cases hc' : ((timedIface T).step x).2 with
          | true => rfl
          | false => rw [hc, hc'] at g2; cases g2
        rw [hc']
        simp only [if_true]
        exact ⟨⟨g5, hv.1, hv.2.1, hv.2.2.1, g4⟩, fun x' y' hx => by cases hx⟩
      | false =>
        have hc' : ((timedIface T).step x).2 = false := by
          cases hc' : ((timedIface T).step x).2 with
          | false => rfl
          | true => rw [hc, hc'] at g2; cases g2
        rw [hc']
        simp only [Bool.false_eq_true, if_false]
        rw [hc'] at d1
        rw [hc] at d2
        exact ih (i + 1) _ _ ⟨d1, d2⟩
    · rw [if_neg hn, if_neg hn]
      refine ⟨f3, ?_⟩
      intro x' y' h1 h2
      cases h1
      cases h2
      exact ⟨i, h, by rw [f1]; exact hn, hn⟩

theorem lockRun_alike {T : Host ((Lock × W) × Nat)} {Q : PHost ((Lock × W) × Nat)} {N : Nat} {x0 : Driven (Sched × (Lock × W) × Nat) (Nat × Option Time)}
    {y0 : Driven (PSched × (Lock × W) × Nat) (Nat × Option Time)} (hA : Alike lockDriver T Q N x0 y0) (fuel : Nat) (n : Nat) (i : Nat)
    (x : Sched × (Lock × W) × Nat) (y : PSched × (Lock × W) × Nat) (h : Both lockDriver T Q N x0 y0 i x y (n, none)) :
    SameOutcome (lockRunOf (timedIface T) fuel n x) (lockRunOf (pqueueIface Q N) fuel n y) := by
  induction n generalizing i x y with
  | zero => exact (h.facts hA).2.2
  | succ n ih =>
    obtain ⟨f1, f2, f3⟩ := h.facts hA
    have hw : (timedIface T).world x = (pqueueIface Q N).world y := f2
    have d1 : drive (timedIface T) lockDriver (i + 1) x0 = ⟨(timedIface T).code [] ((pqueueIface Q N).world y) x,
        (n, some (((pqueueIface Q N).world y).1.time + ((pqueueIface Q N).world y).1.interval)), .going⟩ := by
      rw [drive, h.1]
      simp only [driveOne, lockDriver, hw]
    have d2 : drive (pqueueIface Q N) lockDriver (i + 1) y0 = ⟨(pqueueIface Q N).code [] ((pqueueIface Q N).world y) y,
        (n, some (((pqueueIface Q N).world y).1.time + ((pqueueIface Q N).world y).1.interval)), .going⟩ := by
      rw [drive, h.2]
      simp only [driveOne, lockDriver]
    have c1 : (timedIface T).code [] ((pqueueIface Q N).world y) x = x := by rw [← hw]; rfl
    have c2 : (pqueueIface Q N).code [] ((pqueueIface Q N).world y) y = y := rfl
    rw [c1] at d1
    rw [c2] at d2
    obtain ⟨l1, l2⟩ := lockLoop_alike hA n (((pqueueIface Q N).world y).1.time + ((pqueueIface Q N).world y).1.interval) fuel (i + 1) x y ⟨d1, d2⟩
    unfold lockRunOf lockStepOf
    rw [hw]
    cases hx : lockLoopOf (timedIface T) (((pqueueIface Q N).world y).1.time + ((pqueueIface Q N).world y).1.interval) fuel x with
    | raised x' =>
      cases hy : lockLoopOf (pqueueIface Q N) (((pqueueIface Q N).world y).1.time + ((pqueueIface Q N).world y).1.interval) fuel y with
      | raised y' => rw [hx, hy] at l1; exact l1
      | done y' => rw [hx, hy] at l1; exact l1.elim
      | running y' => rw [hx, hy] at l1; exact l1.elim
    | running x' =>
      cases hy : lockLoopOf (pqueueIface Q N) (((pqueueIface Q N).world y).1.time + ((pqueueIface Q N).world y).1.interval) fuel y with
      | raised y' => rw [hx, hy] at l1; exact l1.elim
      | done y' => rw [hx, hy] at l1; exact l1.elim
      | running y' => rw [hx, hy] at l1; exact l1
    | done x' =>
      cases hy : lockLoopOf (pqueueIface Q N) (((pqueueIface Q N).world y).1.time + ((pqueueIface Q N).world y).1.interval) fuel y with
      | raised y' => rw [hx, hy] at l1; exact l1.elim
      | running y' => rw [hx, hy] at l1; exact l1.elim
      | done y' =>
        simp only
        obtain ⟨j, hb, n1, n2⟩ := l2 x' y' hx hy
        have hw' : (timedIface T).world x' = (pqueueIface Q N).world y' := (hb.facts hA).2.1
        refine ih (j + 1) _ _ ⟨?_, ?_⟩
        · rw [drive, hb.1]
          simp only [driveOne, lockDriver, if_neg n1, hw']
        · rw [drive, hb.2]
          simp only [driveOne, lockDriver, if_neg n2]

/-- C250 for `Lockstepper`: any number of its steps around `PQueueActivation` has an outcome that it has, for some orders of the agents, around `TimedActivation` too. -/
theorem C250_lockstep (U : AgentCode (Lock × W)) (hU : PlainCode U) (keys : Ref → Nat → Rat) (N : Nat) (iv : Time) (hiv : 0 < iv) (pop : List Ref)
    (hpop : pop ≠ []) (hN : pop.length ≤ N) (w : Lock × W) (n : Nat) :
    ∃ (order : Nat → List Ref → List Ref) (perm : ∀ n l, (order n l).Perm l), ∀ fuel,
      SameOutcome (lockRunOf (timedIface (U.timed order perm)) fuel n (timedPop (U.timed order perm) iv pop w))
        (lockRunOf (pqueueIface (U.pqueue keys) N) fuel n (pqueuePop (U.pqueue keys) iv pop w)) := by
  obtain ⟨order, perm, h⟩ := C250_same lockDriver lockDriver_plain U hU keys N iv hiv pop hpop hN w (n, none)
  exact ⟨order, perm, fun fuel => lockRun_alike h fuel n 0 _ _ ⟨rfl, rfl⟩⟩

/-- C250 for `Lockstepper`, the other direction. -/
theorem C250_lockstep_converse (U : AgentCode (Lock × W)) (hU : PlainCode U) (order : Nat → List Ref → List Ref) (perm : ∀ n l, (order n l).Perm l) (iv : Time) (hiv : 0 < iv)
    (pop : List Ref) (hpop : pop ≠ []) (hnd : pop.Nodup) (w : Lock × W) (n : Nat) :
    ∃ keys : Ref → Nat → Rat, (∀ r n, 0 ≤ keys r n ∧ keys r n < 1) ∧ ∀ N, pop.length ≤ N → ∀ fuel,
      SameOutcome (lockRunOf (timedIface (U.timed order perm)) fuel n (timedPop (U.timed order perm) iv pop w))
        (lockRunOf (pqueueIface (U.pqueue keys) N) fuel n (pqueuePop (U.pqueue keys) iv pop w)) := by
  obtain ⟨keys, hk, h⟩ := C250_converse lockDriver lockDriver_plain U hU order perm iv hiv pop hpop hnd w (n, none)
  exact ⟨keys, hk, fun N hN fuel => lockRun_alike (h N hN) fuel n 0 _ _ ⟨rfl, rfl⟩⟩

/-- C250: the clock of a `Lockstepper` around any scheduler. If neither agents nor the scheduler write to it, `n` steps take it exactly `n` intervals on. -/
theorem C250_lock_clock {S : Type} (I : Iface S (Lock × W)) (hI : ∀ s, (I.world (I.step s).1).1 = (I.world s).1) (hc : ∀ w s, I.world (I.code [] w s) = w) (t q : Rat)
    (k fuel n : Nat) (s s' : S) (hs : (I.world s).1 = ⟨.fin t, k, .fin q⟩) (h : lockRunOf I fuel n s = .done s') :
    (I.world s').1 = ⟨.fin (t + n * q), k + n, .fin q⟩ := by
  have hl : ∀ (e : Time) (fuel : Nat) (s s' : S), lockLoopOf I e fuel s = .done s' → (I.world s').1 = (I.world s).1 := by
    intro e fuel
    induction fuel with
    | zero =>
      intro s s' h
      unfold lockLoopOf at h
      split at h
      · cases h
      · cases h; rfl
    | succ fuel ih =>
      intro s s' h
      unfold lockLoopOf at h
      split at h
      · simp only at h
        split at h
        · cases h
        · exact (ih _ _ h).trans (hI s)
      · cases h; rfl
  induction n generalizing s t k with
  | zero =>
    cases h
    rw [hs]
    simp
  | succ n ih =>
    unfold lockRunOf lockStepOf at h
    cases ho : lockLoopOf I ((I.world s).1.time + (I.world s).1.interval) fuel s with
    | raised x => rw [ho] at h; cases h
    | running x => rw [ho] at h; cases h
    | done x =>
      rw [ho] at h
      simp only at h
      have hx := hl _ _ _ _ ho
      have := ih (t + q) (k + 1) _ (by
        rw [hc, hx, hs]
        rfl) h
      rw [this]
      have e1 : t + q + (n : Rat) * q = t + ((n + 1 : Nat) : Rat) * q := by push_cast; ring
      have e2 : k + 1 + n = k + (n + 1) := by omega
      rw [e1, e2]

/-- The same for `PQueueActivation` in particular: the clock of the `Lockstepper` is exact for all agents that do not write to it. -/
theorem C250_lock_clock_pqueue (U : AgentCode (Lock × W)) (hU : ∀ r t n as w, (U r t n as w).2.2.1 = w.1) (keys : Ref → Nat → Rat) (N : Nat) (q : Rat) (iv : Time)
    (pop : List Ref) (w : W) (fuel n : Nat) (y : PSched × (Lock × W) × Nat)
    (h : lockRunOf (pqueueIface (U.pqueue keys) N) fuel n (pqueuePop (U.pqueue keys) iv pop (⟨0, 0, .fin q⟩, w)) = .done y) :
    y.2.1.1 = ⟨.fin (n * q), n, .fin q⟩ := by
  have hst : ∀ x : PSched × (Lock × W) × Nat, ((x.1.step (U.pqueue keys) N x.2).2.1).1.1 = x.2.1.1 := fun x =>
    pstep_world (U.pqueue keys) (fun v => v.1.1 = x.2.1.1) (fun r s v hv => (hU _ _ _ _ _).trans hv) (fun r v hv => hv) N x.1 x.2 rfl
  have hp : (pqueuePop (U.pqueue keys) iv pop (⟨0, 0, .fin q⟩, w)).2.1.1 = ⟨0, 0, .fin q⟩ := by
    unfold pqueuePop
    generalize hz : ((PSched.init iv, ((⟨0, 0, .fin q⟩, w), 0)) : PSched × (Lock × W) × Nat) = z
    have hz1 : z.2.1.1 = ⟨0, 0, .fin q⟩ := by rw [← hz]
    clear hz h
    induction pop generalizing z with
    | nil => exact hz1
    | cons r pop ih =>
      refine ih _ ?_
      have := papplyOps_world (U.pqueue keys) (fun v => v.1.1 = ⟨0, 0, .fin q⟩) (fun r v hv => hv) [.add r none] z.1 z.2 hz1
      unfold PSched.applyOps at this
      simp only at this
      split at this
      · exact this
      · exact this
  have := C250_lock_clock (pqueueIface (U.pqueue keys) N) hst (fun _ _ => rfl) 0 q 0 fuel n _ _ hp h
  rw [Rat.zero_add, Nat.zero_add] at this
  exact this

/-- C250, what code around the scheduler must not do: code that adds an agent after all others have died, and then goes on. -/
def latecomerDriver : Outer (List Ref) Nat := fun d _ w =>
  match d with
  | 0 => .step 1
  | 1 => .code [.add 9 none] w 2
  | 2 => .step 3
  | _ => .halt

/-- All agents note that they were activated and die. -/
def lastWords : AgentCode (List Ref) := fun r _ _ _ w => (.dead, [], w ++ [r])

set_option maxRecDepth 100000 in
/-- C250, the difference: for code around the scheduler that adds agents, `TimedActivation` and `PQueueActivation` are not the same. After all agents have died the clock of both is infinite; an agent
that is added then is activated by `TimedActivation` and not by `PQueueActivation`, whose `add` raises an `IndexError` (C12). -/
theorem C250_adds_false :
    (timedDrive latecomerDriver lastWords (fun _ l => l) (fun _ _ => List.Perm.refl _) 1 [4] [] 0 3).st.2.1 = [4, 9] ∧
    (pqueueDrive latecomerDriver lastWords (fun _ _ => 0) 1 1 [4] [] 0 3).st.2.1 = [4] := by
  decide +kernel

/-- C250, the other difference: a `Lockstepper` around a scheduler without agents. Around `TimedActivation` its step never returns; around `PQueueActivation` it does, for all intervals. -/
theorem C250_empty_false (U : AgentCode (Lock × W)) (w : W) (q : Rat) (hq : 0 < q) (iv : Time) :
    (∀ order perm fuel, lockStepOf (timedIface (U.timed order perm)) fuel (timedPop (U.timed order perm) iv [] (⟨0, 0, .fin q⟩, w)) =
      .running (timedPop (U.timed order perm) iv [] (⟨0, 0, .fin q⟩, w))) ∧
    ∀ keys N fuel, ∃ y, lockStepOf (pqueueIface (U.pqueue keys) N) (fuel + 1) (pqueuePop (U.pqueue keys) iv [] (⟨0, 0, .fin q⟩, w)) = .done y ∧ y.1.running = false := by
  have hlt : (0 : Time) < 0 + Time.fin q := by
    change (0 : Rat) < 0 + q
    rw [Rat.zero_add]
    exact hq
  constructor
  · intro order perm fuel
    have : ∀ fuel, lockLoopOf (timedIface (U.timed order perm)) (0 + .fin q) fuel (timedPop (U.timed order perm) iv [] (⟨0, 0, .fin q⟩, w)) =
        .running (timedPop (U.timed order perm) iv [] (⟨0, 0, .fin q⟩, w)) := by
      intro fuel
      induction fuel with
      | zero =>
        unfold lockLoopOf
        exact if_pos hlt
      | succ fuel ih =>
        unfold lockLoopOf
        exact (if_pos hlt).trans ih
    have e : ((timedIface (U.timed order perm)).world (timedPop (U.timed order perm) iv [] (⟨0, 0, .fin q⟩, w))).1 = ⟨0, 0, .fin q⟩ := rfl
    unfold lockStepOf
    rw [e, this]
  · intro keys N fuel
    have hl : lockLoopOf (pqueueIface (U.pqueue keys) N) (0 + .fin q) (fuel + 1) (pqueuePop (U.pqueue keys) iv [] (⟨0, 0, .fin q⟩, w)) =
        .done ({ PSched.init iv with steps := 1, time := .inf, running := false }, (⟨0, 0, .fin q⟩, w), 0) := by
      unfold lockLoopOf
      refine (if_pos hlt).trans ?_
      cases N <;> cases fuel <;> rfl
    have e : ((pqueueIface (U.pqueue keys) N).world (pqueuePop (U.pqueue keys) iv [] (⟨0, 0, .fin q⟩, w))).1 = ⟨0, 0, .fin q⟩ := rfl
    unfold lockStepOf
    rw [e, hl]
    exact ⟨_, rfl, rfl⟩

/-- Agent 0 wants to be back after half a time unit, the others after one; all note the clock of the lockstepper and who they are. -/
def tickCode : AgentCode (Lock × List (Time × Ref)) := fun r _ _ _ w => (if r = 0 then .ret (some (.fin (1/2))) else .ret none, [], (w.1, w.2 ++ [(w.1.time, r)]))

example : PlainCode tickCode := by
  intro r t n as w
  unfold tickCode
  refine ⟨(by intro q wh h; cases h), ?_⟩
  intro d h
  split at h
  · cases h
    decide +kernel
  · cases h

set_option maxRecDepth 100000 in
/-- Two steps of a `Lockstepper` around both schedulers, here with different orders of the agents due at time 1: all agents see the clock of the lockstepper. -/
example :
    (lockRunOf (timedIface (tickCode.timed (fun _ l => l) (fun _ _ => List.Perm.refl _))) 5 2
      (timedPop (tickCode.timed (fun _ l => l) (fun _ _ => List.Perm.refl _)) 1 [0, 1] (⟨0, 0, 1⟩, []))).returned
      (fun x => decide (x.2.1 = (⟨2, 2, 1⟩, [(0, 0), (0, 1), (0, 0), (1, 1), (1, 0), (1, 0)]))) = true ∧
    (lockRunOf (pqueueIface (tickCode.pqueue (fun r _ => r)) 2) 5 2 (pqueuePop (tickCode.pqueue (fun r _ => r)) 1 [0, 1] (⟨0, 0, 1⟩, []))).returned
      (fun x => decide (x.2.1 = (⟨2, 2, 1⟩, [(0, 0), (0, 1), (0, 0), (1, 0), (1, 1), (1, 0)]))) = true := by
  decide +kernel

theorem drive_add (I : Iface S W) (P : Outer W D) (i j : Nat) (x : Driven S D) : drive I P (i + j) x = drive I P j (drive I P i x) := by
  induction j with
  | zero => rfl
  | succ j ih => exact congrArg (driveOne I P) ih

/-- C250: code that is finished, or was ended by an exception, does nothing any more; and code that decides to end is finished. -/
theorem C250_end (I : Iface S W) (P : Outer W D) (x : Driven S D) (i : Nat) :
    ((drive I P i x).fin ≠ .going → ∀ j, i ≤ j → drive I P j x = drive I P i x) ∧
    ((drive I P i x).fin = .going → P (drive I P i x).loc (I.view (drive I P i x).st) (I.world (drive I P i x).st) = .halt →
      ∀ j, i < j → (drive I P j x).fin = .halted ∧ (drive I P j x).st = (drive I P i x).st) := by
  have h1 : ∀ y : Driven S D, y.fin ≠ .going → ∀ j, drive I P j y = y := by
    intro y hy j
    induction j with
    | zero => rfl
    | succ j ih =>
      show driveOne I P (drive I P j y) = y
      rw [ih]
      unfold driveOne
      split
      · rename_i h; exact absurd h hy
      · rfl
  refine ⟨fun h j hj => ?_, fun h hp j hj => ?_⟩
  · obtain ⟨d, rfl⟩ := Nat.exists_eq_add_of_le hj
    rw [drive_add]
    exact h1 _ h d
  · obtain ⟨d, rfl⟩ := Nat.exists_eq_add_of_lt hj
    have hone : drive I P (i + 1) x = { drive I P i x with fin := .halted } := by
      show driveOne I P (drive I P i x) = _
      unfold driveOne
      rw [h]
      simp only [hp]
    rw [show i + d + 1 = (i + 1) + d by omega, drive_add, hone, h1 _ (by simp)]
    exact ⟨rfl, rfl⟩

/-- C250: calls of `Lockstepper.step` end as the code they consist of does: by returning, in the same state, or by an exception. -/
theorem C250_lock_code {S : Type} (I : Iface S (Lock × W)) (hc : ∀ s, I.code [] (I.world s) s = s) (fuel n : Nat) (s s' : S) :
    (lockRunOf I fuel n s = .done s' → ∃ i, drive I lockDriver i ⟨s, (n, none), .going⟩ = ⟨s', (0, none), .halted⟩) ∧
    (lockRunOf I fuel n s = .raised s' → ∃ i d, drive I lockDriver i ⟨s, (n, none), .going⟩ = ⟨s', d, .raised⟩) := by
  have loop : ∀ (fuel n : Nat) (e : Time) (s : S),
      (∀ s', lockLoopOf I e fuel s = .done s' → ∃ i, drive I lockDriver i ⟨s, (n, some e), .going⟩ = ⟨s', (n, some e), .going⟩ ∧ ¬ (I.view s').time < e) ∧
      ∀ s', lockLoopOf I e fuel s = .raised s' → ∃ i d, drive I lockDriver i ⟨s, (n, some e), .going⟩ = ⟨s', d, .raised⟩ := by
    intro fuel
    induction fuel with
    | zero =>
      intro n e s
      unfold lockLoopOf
      refine ⟨fun s' h => ?_, fun s' h => ?_⟩
      · split at h
        · cases h
        · rename_i hn
          cases h
          exact ⟨0, rfl, hn⟩
      · split at h <;> cases h
    | succ fuel ih =>
      intro n e s
      unfold lockLoopOf
      by_cases hn : (I.view s).time < e
      · have hone : drive I lockDriver 1 ⟨s, (n, some e), .going⟩ = ⟨(I.step s).1, (n, some e), if (I.step s).2 then .raised else .going⟩ := by
          show driveOne I lockDriver ⟨s, (n, some e), .going⟩ = _
          simp only [driveOne, lockDriver, if_pos hn]
        simp only [if_pos hn]
        by_cases hr : (I.step s).2 = true
        · simp only [if_pos hr] at hone ⊢
          refine ⟨fun s' h => (by cases h), fun s' h => ?_⟩
          cases h
          exact ⟨1, _, hone⟩
        · simp only [if_neg hr] at hone ⊢
          obtain ⟨g1, g2⟩ := ih n e (I.step s).1
          refine ⟨fun s' h => ?_, fun s' h => ?_⟩
          · obtain ⟨i, k1, k2⟩ := g1 s' h
            exact ⟨1 + i, by rw [drive_add, hone, k1], k2⟩
          · obtain ⟨i, d, k1⟩ := g2 s' h
            exact ⟨1 + i, d, by rw [drive_add, hone, k1]⟩
      · simp only [if_neg hn]
        refine ⟨fun s' h => ?_, fun s' h => by cases h⟩
        cases h
        exact ⟨0, rfl, hn⟩
  induction n generalizing s with
  | zero =>
    refine ⟨fun h => ?_, fun h => by cases h⟩
    cases h
    exact ⟨1, rfl⟩
  | succ n ih =>
    have hone : drive I lockDriver 1 ⟨s, (n + 1, none), .going⟩ = ⟨s, (n, some ((I.world s).1.time + (I.world s).1.interval)), .going⟩ := by
      show driveOne I lockDriver ⟨s, (n + 1, none), .going⟩ = _
      simp only [driveOne, lockDriver, hc]
    obtain ⟨g1, g2⟩ := loop fuel n ((I.world s).1.time + (I.world s).1.interval) s
    unfold lockRunOf lockStepOf
    cases hl : lockLoopOf I ((I.world s).1.time + (I.world s).1.interval) fuel s with
    | done t =>
      obtain ⟨i, k1, k2⟩ := g1 t hl
      have htwo : drive I lockDriver 1 ⟨t, (n, some ((I.world s).1.time + (I.world s).1.interval)), .going⟩ =
          ⟨I.code [] ({ (I.world t).1 with time := (I.world s).1.time + (I.world s).1.interval, steps := (I.world t).1.steps + 1 }, (I.world t).2) t, (n, none), .going⟩ := by
        show driveOne I lockDriver ⟨t, (n, some ((I.world s).1.time + (I.world s).1.interval)), .going⟩ = _
        simp only [driveOne, lockDriver, if_neg k2]
      simp only
      obtain ⟨m1, m2⟩ := ih (I.code [] ({ (I.world t).1 with time := (I.world s).1.time + (I.world s).1.interval, steps := (I.world t).1.steps + 1 }, (I.world t).2) t)
      refine ⟨fun h => ?_, fun h => ?_⟩
      · obtain ⟨j, hj⟩ := m1 h
        exact ⟨1 + (i + (1 + j)), by rw [drive_add, hone, drive_add, k1, drive_add, htwo, hj]⟩
      · obtain ⟨j, d, hj⟩ := m2 h
        exact ⟨1 + (i + (1 + j)), d, by rw [drive_add, hone, drive_add, k1, drive_add, htwo, hj]⟩
    | raised t =>
      obtain ⟨i, d, k1⟩ := g2 t hl
      refine ⟨fun h => (by cases h), fun h => ?_⟩
      cases h
      exact ⟨1 + i, d, by rw [drive_add, hone, k1]⟩
    | running t => exact ⟨fun h => (by cases h), fun h => (by cases h)⟩

-- both schedulers are of the kind required
example (T : Host ((Lock × W) × Nat)) (x : Sched × (Lock × W) × Nat) : (timedIface T).code [] ((timedIface T).world x) x = x := rfl

example (P : PHost ((Lock × W) × Nat)) (N : Nat) (y : PSched × (Lock × W) × Nat) : (pqueueIface P N).code [] ((pqueueIface P N).world y) y = y := rfl

end Verif
