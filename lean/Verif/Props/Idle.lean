import Verif.Props.Continue
import Verif.Props.Unseen

/-!
# Idle agents do not matter (C263)

An agent that does nothing and never wants to be activated again (it returns `INFINITY`, like the agents that only mark a node,
soil/time.py:101, 173) is activated once, at the beginning. It does not change what the other agents do, whatever its place among them, with
the ordered `TimedActivation` (soil/time.py:186-200).
-/

namespace Verif

variable {W : Type} {z : Ref}

/-- The agent `z` does nothing and asks never to be activated again. Not code: vocabulary of the claim. -/
def IdleIn (H : Host W) (z : Ref) : Prop := ∀ s w, H.step z s w = (.ret (some .inf), [], w)

/-- The code never adds the agent `z` (again), and looks neither at the agent set nor at the (ghost) log; it may look at the clock, the number
of steps and the queue. -/
structure Ignores (H : Host W) (z : Ref) : Prop where
  add : ∀ r s w wh, SOp.add z wh ∉ (H.step r s w).2.1
  look : ∀ r s w a l, H.step r { s with agents := a, log := l } w = H.step r s w

/-- What can be seen of a simulation apart from the agent `z`. -/
def viewWithout (z : Ref) (sw : Sched × W) : Time × Nat × Bool × List Ref × List Ev × W :=
  (sw.1.time, sw.1.steps, sw.1.running, sw.1.agents.filter (· ≠ z), sw.1.log.filter (·.ref ≠ z), sw.2)

/-- An ordered scheduler with the agents of `pop`, added at the beginning. -/
def orderedStart (H : Host W) (iv : Time) (pop : List Ref) (w : W) : Sched × W :=
  execAll H (pop.map fun r => .op (.add r none)) (Sched.init iv false, w)

private def Sched.without (z : Ref) (s : Sched) : Sched :=
  { s with agents := s.agents.filter (· ≠ z), log := s.log.filter (·.ref ≠ z) }

private def Free (z : Ref) (q : List (Time × List Ref)) : Prop := ∀ b ∈ q, z ∉ b.2

private theorem free_insert {t : Time} {r : Ref} (hr : r ≠ z) {q : List (Time × List Ref)} (h : Free z q) : Free z (insertBucket t r q) := by
  induction q with
  | nil => intro b hb; simp [insertBucket] at hb; subst hb; simp [Ne.symm hr]
  | cons x q ih =>
    obtain ⟨u, l⟩ := x
    have hx : z ∉ l := h (u, l) (by simp)
    have hq : Free z q := fun b hb => h b (List.mem_cons_of_mem _ hb)
    simp only [insertBucket]
    split
    · intro b hb
      rcases List.mem_cons.1 hb with e | e
      · subst e; simp [hx, Ne.symm hr]
      · exact hq b e
    · split
      · intro b hb
        rcases List.mem_cons.1 hb with e | e
        · subst e; simp [Ne.symm hr]
        · exact h b e
      · intro b hb
        rcases List.mem_cons.1 hb with e | e
        · subst e; exact hx
        · exact ih hq b e

private theorem addSet_filter (l : List Ref) {r : Ref} (hr : r ≠ z) :
    (if r ∈ l.filter (· ≠ z) then l.filter (· ≠ z) else l.filter (· ≠ z) ++ [r]) = (if r ∈ l then l else l ++ [r]).filter (· ≠ z) := by
  by_cases h : r ∈ l
  · rw [if_pos h, if_pos (by simp [h, hr])]
  · rw [if_neg h, if_neg (by simp [h])]
    simp [List.filter_append, hr]

private theorem erase_filter (l : List Ref) (r : Ref) : (l.filter (· ≠ z)).erase r = (l.erase r).filter (· ≠ z) := by
  by_cases hr : r = z
  · subst hr
    rw [List.erase_of_not_mem (by simp)]
    induction l with
    | nil => rfl
    | cons x l ih =>
      by_cases hx : x = r
      · subst hx; simp
      · simp only [List.erase_cons, beq_iff_eq, hx, if_false, List.filter_cons, ih]
  · induction l with
    | nil => rfl
    | cons x l ih =>
      by_cases hx : x = r
      · subst hx; simp [hr]
      · by_cases hz : x = z
        · subst hz; simpa [hx] using ih
        · simpa [hx, hz] using ih

private theorem applyOp_without (s : Sched) (o : SOp) (ho : ∀ wh, o ≠ .add z wh) (hf : Free z s.queue) :
    (s.without z).applyOp o = (s.applyOp o).without z ∧ Free z (s.applyOp o).queue := by
  cases o with
  | add r wh =>
    have hr : r ≠ z := fun e => ho wh (by rw [e])
    refine ⟨?_, free_insert hr hf⟩
    have hl : (s.log ++ [Ev.added r s.time]).filter (·.ref ≠ z) = s.log.filter (·.ref ≠ z) ++ [Ev.added r s.time] := by
      simp [List.filter_append, Ev.ref, hr]
    show ({ s with
        queue := insertBucket s.time r s.queue
        agents := if r ∈ s.agents.filter (· ≠ z) then s.agents.filter (· ≠ z) else s.agents.filter (· ≠ z) ++ [r]
        log := s.log.filter (·.ref ≠ z) ++ [Ev.added r s.time] } : Sched) =
      { s with
        queue := insertBucket s.time r s.queue
        agents := (if r ∈ s.agents then s.agents else s.agents ++ [r]).filter (· ≠ z)
        log := (s.log ++ [Ev.added r s.time]).filter (·.ref ≠ z) }
    rw [addSet_filter s.agents hr, hl]
  | remove r =>
    refine ⟨?_, hf⟩
    simp only [Sched.applyOp, Sched.removeAgent, Sched.without, erase_filter]
  | stop => exact ⟨rfl, hf⟩

private theorem applyOps_without (os : List SOp) (s : Sched) (ho : ∀ wh, SOp.add z wh ∉ os) (hf : Free z s.queue) :
    (s.without z).applyOps os = (s.applyOps os).without z ∧ Free z (s.applyOps os).queue := by
  induction os generalizing s with
  | nil => exact ⟨rfl, hf⟩
  | cons o os ih =>
    obtain ⟨e, h'⟩ := applyOp_without s o (fun wh e => ho wh (by rw [e]; simp)) hf
    simp only [Sched.applyOps, List.foldl_cons, e] at ih ⊢
    exact ih _ (fun wh hm => ho wh (List.mem_cons_of_mem _ hm)) h'

private theorem runBucket_without {H : Host W} (hi : IdleIn H z) (hg : Ignores H z) (now : Time) (l : List Ref) (s : Sched) (w : W)
    (hf : Free z s.queue) :
    runBucket H now (l.filter (· ≠ z)) (s.without z) w =
      ((runBucket H now l s w).1.without z, (runBucket H now l s w).2.1, (runBucket H now l s w).2.2) ∧
      Free z (runBucket H now l s w).1.queue := by
  induction l generalizing s w with
  | nil => exact ⟨rfl, hf⟩
  | cons r rest ih =>
    by_cases hr : r = z
    · subst hr
      have e : runBucket H now (r :: rest) s w = runBucket H now rest (s.logAct r now (.ret (some .inf))) w := by
        have h0 : s.applyOps [] = s := rfl
        have : Time.pyOr (some Time.inf) (s.logAct r now (.ret (some .inf))).interval + now = .inf := by simp [Time.pyOr]
        simp only [runBucket, show H.step r s w = _ from hi s w, h0, if_pos this]
      have e2 : (s.logAct r now (.ret (some .inf))).without r = s.without r := by
        simp [Sched.logAct, Sched.without, List.filter_append, Ev.ref]
      have := ih (s.logAct r now (.ret (some .inf))) w hf
      rw [e2] at this
      rw [e, List.filter_cons_of_neg (by simp)]
      exact this
    · have hl : H.step r (s.without z) w = H.step r s w := hg.look r s w _ _
      obtain ⟨e, hf1⟩ := applyOps_without (H.step r s w).2.1 s (hg.add r s w) hf
      rw [List.filter_cons_of_pos (by simpa using hr)]
      simp only [runBucket, hl, e]
      have e3 : ∀ (s : Sched) rep, (s.without z).logAct r now rep = (s.logAct r now rep).without z := by
        intro s rep
        simp [Sched.logAct, Sched.without, List.filter_append, Ev.ref, hr]
      rw [e3]
      cases (H.step r s w).1 with
      | error => exact ⟨rfl, hf1⟩
      | dead => exact ih _ _ hf1
      | ret d =>
        simp only
        have hf2 : Free z ((s.applyOps (H.step r s w).2.1).logAct r now (.ret d)).queue := hf1
        generalize ((s.applyOps (H.step r s w).2.1).logAct r now (.ret d)) = s1 at hf2 ⊢
        have e4 : (s1.without z).interval = s1.interval := rfl
        have e5 : ∀ t, (s1.without z).schedule r t = (s1.schedule r t).without z := fun t => rfl
        rw [e4, e5]
        by_cases hinf : Time.pyOr d s1.interval + now = .inf
        · rw [if_pos hinf, if_pos hinf]; exact ih _ _ hf2
        · rw [if_neg hinf, if_neg hinf]; exact ih _ _ (free_insert hr hf2)

/-- A step from a state in which the agent is (at most) in the first bucket. -/
private theorem step_without {H : Host W} (hi : IdleIn H z) (hg : Ignores H z) (s : Sched) (w : W) (hs : s.shuffle = false) (t : Time)
    (b : List Ref) (q : List (Time × List Ref)) (hq : s.queue = (t, b) :: q) (ht : ¬ s.time < t) (hf : Free z q) :
    ({ s.without z with queue := (t, b.filter (· ≠ z)) :: q } : Sched).step H w =
      ((s.step H w).1.without z, (s.step H w).2.1, (s.step H w).2.2) ∧ Free z (s.step H w).1.queue := by
  obtain ⟨h1, h2⟩ := runBucket_without hi hg s.time b { s with queue := q } w hf
  have e0 : ∀ (s : Sched) (b : List Ref), s.queue = (t, b) :: q → ¬ s.time < t → s.shuffle = false →
      s.step H w = finishStep (runBucket H s.time b { s with queue := q } w) := by
    intro s b hq ht hs
    unfold Sched.step
    simp only [hq, if_neg ht, runOrder, hs, Bool.false_eq_true, if_false]
  have e1 := e0 s b hq ht hs
  have e2 : ({ s.without z with queue := (t, b.filter (· ≠ z)) :: q } : Sched).step H w =
      finishStep (runBucket H s.time (b.filter (· ≠ z)) (({ s with queue := q } : Sched).without z) w) :=
    e0 { s.without z with queue := (t, b.filter (· ≠ z)) :: q } _ rfl ht hs
  rw [e1, e2, h1]
  generalize runBucket H s.time b { s with queue := q } w = res at h2 ⊢
  obtain ⟨s', w', e⟩ := res
  cases e
  · exact ⟨rfl, h2⟩
  · exact ⟨rfl, h2⟩

/-- The agent is in no bucket any more: a step keeps it so. -/
private theorem step_free {H : Host W} (hi : IdleIn H z) (hg : Ignores H z) (s : Sched) (w : W) (hs : s.shuffle = false) (hf : Free z s.queue) :
    (s.without z).step H w = ((s.step H w).1.without z, (s.step H w).2.1, (s.step H w).2.2) ∧ Free z (s.step H w).1.queue := by
  cases hq : s.queue with
  | nil =>
    have h1 : s.step H w = (s, w, false) := by unfold Sched.step; rw [hq]
    have h2 : (s.without z).step H w = (s.without z, w, false) := by
      unfold Sched.step; rw [show (s.without z).queue = [] from hq]
    rw [h1, h2]
    exact ⟨rfl, hf⟩
  | cons b q =>
    obtain ⟨t, b⟩ := b
    rw [hq] at hf
    by_cases ht : s.time < t
    · have h1 : s.step H w = ({ s with time := t }, w, false) := by unfold Sched.step; simp only [hq, if_pos ht]
      have h2 : (s.without z).step H w = (({ s with time := t } : Sched).without z, w, false) := by
        have hq' : (s.without z).queue = (t, b) :: q := hq
        have ht' : (s.without z).time < t := ht
        unfold Sched.step; simp only [hq', if_pos ht']; simp only [Sched.without, hq]
      rw [h1, h2]
      exact ⟨rfl, by rw [show ({ s with time := t } : Sched).queue = s.queue from rfl, hq]; exact hf⟩
    · have hb : b.filter (· ≠ z) = b := List.filter_eq_self.2 fun x hx => by
        simp only [ne_eq, decide_not, Bool.not_eq_true', decide_eq_false_iff_not]
        rintro rfl
        exact hf (t, b) (by simp) hx
      have := step_without hi hg s w hs t b q hq ht (fun x hx => hf x (List.mem_cons_of_mem _ hx))
      rw [hb] at this
      have e : ({ s.without z with queue := (t, b) :: q } : Sched) = s.without z := by
        rw [← hq]; rfl
      rwa [e] at this

private theorem step_shuffle' (H : Host W) (s : Sched) (w : W) : (s.step H w).1.shuffle = s.shuffle := by
  have hops : ∀ (os : List SOp) (s : Sched), (s.applyOps os).shuffle = s.shuffle := by
    intro os
    induction os with
    | nil => exact fun _ => rfl
    | cons o os ih =>
      intro s
      have := ih (s.applyOp o)
      simp only [Sched.applyOps, List.foldl_cons] at this ⊢
      rw [this]
      cases o <;> rfl
  have hb : ∀ (l : List Ref) (now : Time) (s : Sched) (w : W), (runBucket H now l s w).1.shuffle = s.shuffle := by
    intro l now
    induction l with
    | nil => exact fun _ _ => rfl
    | cons r l ih =>
      intro s w
      simp only [runBucket]
      cases (H.step r s w).1 with
      | error => exact hops _ s
      | dead => exact (ih _ _).trans (hops _ s)
      | ret d =>
        refine (ih _ _).trans ?_
        split <;> exact hops _ s
  unfold Sched.step
  split
  · rfl
  · split
    · rfl
    · simp only [finishStep]
      split <;> exact hb _ _ _ _

private theorem loop_free {H : Host W} (hi : IdleIn H z) (hg : Ignores H z) (mt : Option Time) (ms : Option Nat) (fuel : Nat) (s : Sched) (w : W)
    (hs : s.shuffle = false) (hf : Free z s.queue) :
    (runLoop (timedStepper H) mt ms fuel (s.without z, w)).mapState (viewWithout z) =
      (runLoop (timedStepper H) mt ms fuel (s, w)).mapState (viewWithout z) := by
  have hv : ∀ (s : Sched) (w : W), viewWithout z (s.without z, w) = viewWithout z (s, w) := by
    intro s w; simp [viewWithout, Sched.without]
  have hd : ∀ (s : Sched) (w : W), isDone (timedStepper H) mt ms (s.without z, w) = isDone (timedStepper H) mt ms (s, w) := by
    intro s w; cases mt <;> cases ms <;> rfl
  induction fuel generalizing s w with
  | zero =>
    simp only [runLoop, hd]
    split <;> simp only [Outcome.mapState, hv]
  | succ n ih =>
    simp only [runLoop, hd]
    split
    · simp only [Outcome.mapState, hv]
    · obtain ⟨h1, h2⟩ := step_free hi hg s w hs hf
      have e1 : (timedStepper H).step (s.without z, w) = (((s.step H w).1.without z, (s.step H w).2.1), (s.step H w).2.2) := by
        simp only [timedStepper, h1]
      have e2 : (timedStepper H).step (s, w) = (((s.step H w).1, (s.step H w).2.1), (s.step H w).2.2) := rfl
      rw [e1, e2]
      cases (s.step H w).2.2
      · exact ih _ _ (by rw [step_shuffle', hs]) h2
      · simp [Outcome.mapState, hv]

/-- The scheduler at the beginning. -/
private theorem orderedStart_eq (H : Host W) (iv : Time) (pop : List Ref) (hp : pop ≠ []) (hnd : pop.Nodup) (w : W) :
    orderedStart H iv pop w =
      ({ Sched.init iv false with queue := [(0, pop)], agents := pop, log := pop.map fun r => .added r 0 }, w) := by
  induction pop using List.reverseRecOn with
  | nil => exact absurd rfl hp
  | append_singleton l r ih =>
    unfold orderedStart at ih ⊢
    rw [List.map_append, execAll, List.foldl_append]
    by_cases hl : l = []
    · subst hl
      simp [Cmd.exec, Sched.applyOp, Sched.addAgent, Sched.schedule, Sched.init, Time.pyOr, insertBucket]
    · have hnd' := List.nodup_append.1 hnd
      have hr : r ∉ l := fun h => hnd'.2.2 r h r (by simp) rfl
      have := ih hl hnd'.1
      unfold execAll at this
      rw [this]
      simp [Cmd.exec, Sched.applyOp, Sched.addAgent, Sched.schedule, Sched.init, Time.pyOr, insertBucket, hr]

/-- **C263** An idle agent does not matter: a simulation of the agents of `pop` with an idle agent `z` among them, at any place, ends in the
same way as without it, after the same number of steps, at the same time, with the same world, the same other agents, and the same events of
the other agents in the same order. -/
theorem C263_idle {H : Host W} (hi : IdleIn H z) (hg : Ignores H z) (iv : Time) (pop : List Ref) (hnd : pop.Nodup)
    (hne : pop.filter (· ≠ z) ≠ []) (mt : Option Time) (ms : Option Nat) (fuel : Nat) (w : W) :
    (runModel (timedStepper H) mt ms fuel (orderedStart H iv pop w)).mapState (viewWithout z) =
      (runModel (timedStepper H) mt ms fuel (orderedStart H iv (pop.filter (· ≠ z)) w)).mapState (viewWithout z) := by
  have hp : pop ≠ [] := by rintro rfl; exact hne rfl
  rw [orderedStart_eq H iv pop hp hnd w, orderedStart_eq H iv _ hne (hnd.filter _) w]
  set s : Sched := { Sched.init iv false with queue := [(0, pop)], agents := pop, log := pop.map fun r => .added r 0 } with hs
  have es : ({ Sched.init iv false with
      queue := [(0, pop.filter (· ≠ z))], agents := pop.filter (· ≠ z), log := (pop.filter (· ≠ z)).map fun r => .added r 0 } : Sched) =
      { s.without z with queue := [(0, pop.filter (· ≠ z))] } := by
    simp only [hs, Sched.without, Sched.init, Sched.mk.injEq, true_and, and_true]
    rw [List.filter_map]
    rfl
  rw [es]
  set s0 : Sched := { s.without z with queue := [(0, pop.filter (· ≠ z))] } with hs0
  have hn1 : (timedStepper H).noAgents (s, w) = false := by
    show pop.isEmpty = false
    cases pop with
    | nil => exact absurd rfl hp
    | cons _ _ => rfl
  have hn2 : (timedStepper H).noAgents (s0, w) = false := by
    show (pop.filter (· ≠ z)).isEmpty = false
    cases hh : pop.filter (· ≠ z) with
    | nil => exact absurd hh hne
    | cons _ _ => rfl
  have hv : viewWithout z (s0, w) = viewWithout z (s, w) := by simp [viewWithout, hs0, Sched.without]
  have hd : isDone (timedStepper H) mt ms (s0, w) = isDone (timedStepper H) mt ms (s, w) := by cases mt <;> cases ms <;> rfl
  unfold runModel
  rw [hn1, hn2]
  simp only [Bool.false_eq_true, if_false]
  cases fuel with
  | zero =>
    simp only [runLoop, hd]
    split <;> simp only [Outcome.mapState, hv]
  | succ n =>
    simp only [runLoop, hd]
    split
    · simp only [Outcome.mapState, hv]
    · obtain ⟨h1, h2⟩ := step_without hi hg s w rfl 0 pop [] rfl (by simp [hs, Sched.init]) (by intro b hb; cases hb)
      have e1 : (timedStepper H).step (s0, w) = (((s.step H w).1.without z, (s.step H w).2.1), (s.step H w).2.2) := by
        simp only [timedStepper, hs0, h1]
      have e2 : (timedStepper H).step (s, w) = (((s.step H w).1, (s.step H w).2.1), (s.step H w).2.2) := rfl
      rw [e1, e2]
      cases (s.step H w).2.2
      · exact (loop_free hi hg mt ms n _ _ (by rw [step_shuffle']; rfl) h2).symm
      · simp [Outcome.mapState, viewWithout, Sched.without]

/-! ### Examples and conditions -/

/-- Agent 5 is idle, the others wait for 2 (agent 0) or 3 and count. -/
private def idleHost : Host Nat :=
  { step := fun r _ w => if r = 5 then (.ret (some .inf), [], w) else (.ret (some (if r = 0 then 2 else 3)), [], w + 1)
    shuffle := fun l w => (l.drop (w % 2 + 1) ++ l.take (w % 2 + 1), w + 1)
    shuffle_perm := fun l w => by
      have h := List.perm_append_comm (l₁ := l.drop (w % 2 + 1)) (l₂ := l.take (w % 2 + 1))
      rwa [List.take_append_drop] at h }

example : IdleIn idleHost 5 ∧ Ignores idleHost 5 :=
  ⟨fun s w => rfl, fun r s w wh => by by_cases h : r = 5 <;> simp [idleHost, h], fun r s w a l => rfl⟩

set_option maxRecDepth 100000 in
example : (runModel (timedStepper idleHost) (some 7) none 20 (orderedStart idleHost 1 [0, 5, 1] 0)).state.1.steps = 5 ∧
    (runModel (timedStepper idleHost) (some 7) none 20 (orderedStart idleHost 1 [0, 1] 0)).state.1.steps = 5 ∧
    viewWithout 5 (runModel (timedStepper idleHost) (some 7) none 20 (orderedStart idleHost 1 [0, 5, 1] 0)).state =
      viewWithout 5 (runModel (timedStepper idleHost) (some 7) none 20 (orderedStart idleHost 1 [0, 1] 0)).state := by
  decide +kernel

/-- **C263** When the order is shuffled, an idle agent does matter: it takes a place in the bucket, and the others are activated in another
order. -/
theorem C263_shuffled : ∃ (H : Host Nat), IdleIn H 5 ∧ Ignores H 5 ∧
    (actRefs (execAll H [.op (.add 0 none), .op (.add 5 none), .op (.add 1 none), .step] (Sched.init 1 true, 0)).1.log).filter (· ≠ 5) ≠
      actRefs (execAll H [.op (.add 0 none), .op (.add 1 none), .step] (Sched.init 1 true, 0)).1.log := by
  refine ⟨{ idleHost with
    shuffle := fun l w => (if l.length = 2 then l.reverse else l, w)
    shuffle_perm := fun l w => by
      show (if l.length = 2 then l.reverse else l).Perm l
      split
      · exact List.reverse_perm l
      · exact .refl l }, fun s w => rfl, ⟨fun r s w wh => by by_cases h : r = 5 <;> simp [idleHost, h], fun r s w a l => rfl⟩, ?_⟩
  decide +kernel

end Verif
