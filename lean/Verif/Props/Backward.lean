import Verif.Props.Scheduler
import Verif.Proofs.RunLoop

/-!
# Delays into the past (C235)

Nothing stops an agent from asking for a negative delay: `_schedule` (soil/time.py:138-148) puts the wake-up before all the
later ones and the clock is set to it (soil/time.py:180-181).  The properties C01-C10 exclude such agents.  Here they are
allowed: the clock goes backwards, but the calendar is still obeyed, unless somebody asks for the time 0.
-/

namespace Verif
open Spec

variable {W : Type}

/-! ### Specification -/

/-- An event of the kind allowed here: no unexpected exception, and no request for the time 0 (except at that time).
Negative delays are fine. -/
def NoZeroEv (iv : Time) : Ev → Prop
  | .act _ t rep => rep ≠ .error ∧ (nextWake iv t rep = some 0 → t = 0)
  | .added _ _ => True

instance (iv : Time) : DecidablePred (NoZeroEv iv)
  | .act _ t rep => inferInstanceAs (Decidable (rep ≠ .error ∧ (nextWake iv t rep = some 0 → t = 0)))
  | .added _ _ => isTrue trivial

/-- Every event of the log is of this kind. -/
def NoZeroLog (iv : Time) (log : List Ev) : Prop := ∀ e ∈ log, NoZeroEv iv e

instance (iv : Time) (log : List Ev) : Decidable (NoZeroLog iv log) :=
  inferInstanceAs (Decidable (∀ e ∈ log, NoZeroEv iv e))

/-- Every activation of the log answers a wake-up that was pending for exactly that agent and that time. -/
def Answered (iv : Time) (log : List Ev) : Prop :=
  ∀ pre r t rep post, log = pre ++ .act r t rep :: post → (r, t) ∈ cal iv pre

/-! ### Lemmas about the specification -/

theorem Answered.snoc {iv : Time} {l : List Ev} {e : Ev} (h : Answered iv l)
    (he : ∀ r t rep, e = .act r t rep → (r, t) ∈ cal iv l) : Answered iv (l ++ [e]) := by
  intro pre r t rep post heq
  rcases List.eq_nil_or_concat post with rfl | ⟨post', y, rfl⟩
  · obtain ⟨rfl, h2⟩ := List.append_inj' heq rfl
    cases h2; exact he r t rep rfl
  · rw [List.concat_eq_append, ← List.cons_append, ← List.append_assoc] at heq
    exact h pre r t rep post' (List.append_inj' heq rfl).1

theorem Answered.prefix {iv : Time} {l m : List Ev} (h : Answered iv (l ++ m)) : Answered iv l := by
  intro pre r t rep post heq
  apply h pre r t rep (post ++ m)
  rw [heq]; simp

theorem NoZeroLog.prefix {iv : Time} {l m : List Ev} (h : NoZeroLog iv (l ++ m)) : NoZeroLog iv l :=
  fun e hm => h e (List.mem_append_left _ hm)

/-- When every activation answers a pending wake-up, an agent added at most once follows its own time line. -/
theorem Answered.timeline {iv : Time} {log : List Ev} (h : Answered iv log) (r : Ref) (h1 : addCount r log ≤ 1) :
    ∃ due, Timeline iv none (log.filter (·.ref = r)) due ∧
      pendingOf (cal iv log) r = due.toList ∧ (addCount r log = 0 → due = none ∧ log.filter (·.ref = r) = []) := by
  induction log using List.reverseRecOn with
  | nil => exact ⟨none, .nil _, rfl, fun _ => ⟨rfl, rfl⟩⟩
  | append_singleton l e ih =>
    have hl : Answered iv l := h.prefix
    have hc : addCount r (l ++ [e]) = addCount r l + (if e.isAdd && e.ref == r then 1 else 0) := by
      simp only [addCount, List.countP_append, List.countP_cons, List.countP_nil]; simp
    obtain ⟨due, htl, hp, hz⟩ := ih hl (by omega)
    rw [cal_append_one]
    cases e with
    | added q t =>
      by_cases hq : q = r
      · subst hq
        simp [Ev.isAdd, Ev.ref] at hc
        have h0 : addCount q l = 0 := by omega
        obtain ⟨rfl, hnil⟩ := hz h0
        refine ⟨some t, ?_, ?_, by omega⟩
        · simp only [List.filter_append]
          have : [Ev.added q t].filter (·.ref = q) = [.added q t] := by simp [Ev.ref]
          rw [this]
          exact htl.snoc_add
        · simp only [calStep, pendingOf_append, hp]
          simp [pendingOf]
      · have hc' : addCount r (l ++ [Ev.added q t]) = addCount r l := by
          simp [Ev.isAdd, Ev.ref, hq] at hc; exact hc
        have hf : (l ++ [Ev.added q t]).filter (·.ref = r) = l.filter (·.ref = r) := by
          simp [Ev.ref, hq]
        refine ⟨due, by rw [hf]; exact htl, ?_, ?_⟩
        · simp only [calStep, pendingOf_append, hp]
          simp [pendingOf, hq]
        · rw [hf, hc']; exact hz
    | act q t rep =>
      have he : (q, t) ∈ cal iv l := h l q t rep [] (by simp)
      have hc' : addCount r (l ++ [Ev.act q t rep]) = addCount r l := by
        simp [Ev.isAdd] at hc; exact hc
      by_cases hq : q = r
      · subst hq
        have hmem : t ∈ pendingOf (cal iv l) q := mem_pendingOf.2 he
        rw [hp] at hmem
        cases due with
        | none => simp at hmem
        | some u =>
          simp at hmem; subst hmem
          refine ⟨nextWake iv t rep, ?_, ?_, ?_⟩
          · simp only [List.filter_append]
            have : [Ev.act q t rep].filter (·.ref = q) = [.act q t rep] := by simp [Ev.ref]
            rw [this]
            exact htl.snoc_act
          · simp only [calStep, pendingOf_append, pendingOf_erase, hp, if_true]
            cases nextWake iv t rep <;> simp [pendingOf]
          · rw [hc']; intro h0
            have := (hz h0).1
            cases this
      · have hf : (l ++ [Ev.act q t rep]).filter (·.ref = r) = l.filter (·.ref = r) := by
          simp [Ev.ref, hq]
        refine ⟨due, by rw [hf]; exact htl, ?_, ?_⟩
        · simp only [calStep, pendingOf_append, pendingOf_erase, hp]
          have hq' : ¬ r = q := fun h => hq h.symm
          cases nextWake iv t rep <;> simp [pendingOf, hq, hq']
        · rw [hf, hc']; exact hz

/-! ### The queue and the calendar -/

/-- Everything in a queue. -/
abbrev queued (q : List (Time × List Ref)) : Cal := q.flatMap (fun b => b.2.map (·, b.1))

theorem queued_insert (t : Time) (r : Ref) (q : List (Time × List Ref)) :
    (queued (insertBucket t r q)).Perm ((r, t) :: queued q) := by
  induction q with
  | nil => simp [insertBucket, queued]
  | cons c q ih =>
    obtain ⟨u, l⟩ := c
    simp only [insertBucket]
    split
    · rename_i hu
      subst hu
      simp only [queued, List.flatMap_cons, List.map_append, List.map_cons, List.map_nil, List.append_assoc,
        List.singleton_append]
      exact List.perm_middle
    · split
      · simp [queued]
      · simp only [queued, List.flatMap_cons]
        exact (List.Perm.append_left _ ih).trans List.perm_middle

/-- The invariant inside a step at the time `now`: `rest` are the agents of the bucket that still have to run. -/
structure BackMid (now : Time) (rest : List Ref) (s : Sched) : Prop where
  time_eq : s.time = now
  sorted : SortedQ s.queue
  ne : QNe s.queue
  perm : (rest.map (·, now) ++ queued s.queue).Perm (cal s.interval s.log)
  answered : Answered s.interval s.log

theorem BackMid.op {now : Time} {rest : List Ref} {s : Sched} (h : BackMid now rest s) (o : SOp) :
    BackMid now rest (s.applyOp o) := by
  cases o with
  | add r w =>
    have hq : (s.applyOp (.add r w)).queue = insertBucket now r s.queue := by
      rw [← h.time_eq]; rfl
    have hlog : (s.applyOp (.add r w)).log = s.log ++ [.added r now] := by
      rw [← h.time_eq]; rfl
    refine ⟨h.time_eq, ?_, ?_, ?_, ?_⟩
    · rw [hq]; exact insertBucket_sorted h.sorted
    · rw [hq]; exact insertBucket_ne h.ne
    · rw [hq, hlog, cal_append_one]
      simp only [calStep]
      refine (List.Perm.append_left _ (queued_insert now r s.queue)).trans ?_
      refine List.perm_middle.trans ?_
      refine List.Perm.trans ?_ (List.perm_append_singleton _ _).symm
      exact h.perm.cons _
    · rw [hlog]
      exact h.answered.snoc (fun _ _ _ he => by cases he)
  | remove r => exact ⟨h.time_eq, h.sorted, h.ne, h.perm, h.answered⟩
  | stop => exact ⟨h.time_eq, h.sorted, h.ne, h.perm, h.answered⟩

theorem BackMid.ops {now : Time} {rest : List Ref} {s : Sched} (h : BackMid now rest s) (os : List SOp) :
    BackMid now rest (s.applyOps os) := by
  induction os generalizing s with
  | nil => exact h
  | cons o os ih => exact ih (h.op o)

theorem BackMid.act {now : Time} {r : Ref} {rest : List Ref} {s : Sched} (h : BackMid now (r :: rest) s) (rep : Reply)
    (hg : NoZeroEv s.interval (.act r now rep)) : BackMid now rest (afterAct s r now rep) := by
  have hmem : (r, now) ∈ cal s.interval s.log := h.perm.mem_iff.1 (by simp)
  have hq : (afterAct s r now rep).queue =
      match nextWake s.interval now rep with
      | none => s.queue
      | some u => insertBucket u r s.queue := by
    cases rep with
    | ret d =>
      have e1 : Time.pyOr d s.interval + now = now + effDelay s.interval d := by
        rw [pyOr_eq_eff, time_add_comm]
      have h0 := hg.2
      simp only [afterAct, Sched.logAct, nextWake, e1] at h0 ⊢
      split
      · rfl
      · rename_i hne
        rw [if_neg hne] at h0
        simp only [Sched.schedule]
        by_cases hz : now + effDelay s.interval d = 0
        · have ht := h0 (by rw [hz])
          simp only [Time.pyOr, if_pos hz]
          rw [h.time_eq, hz, ht]
        · simp only [Time.pyOr, if_neg hz]
    | dead => rfl
    | error => rfl
  have hi := afterAct_interval s r now rep
  have hlog := afterAct_log s r now rep
  refine ⟨(afterAct_time s r now rep).trans h.time_eq, ?_, ?_, ?_, ?_⟩
  · rw [hq]; split
    · exact h.sorted
    · exact insertBucket_sorted h.sorted
  · rw [hq]; split
    · exact h.ne
    · exact insertBucket_ne h.ne
  · rw [hi, hlog, cal_append_one, hq]
    have hp : (rest.map (·, now) ++ queued s.queue).Perm ((cal s.interval s.log).erase (r, now)) := by
      have := h.perm.erase (r, now)
      simpa using this
    simp only [calStep]
    cases nextWake s.interval now rep with
    | none => simpa using hp
    | some u =>
      simp only [Option.map_some, Option.toList_some]
      refine (List.Perm.append_left _ (queued_insert u r s.queue)).trans ?_
      refine List.perm_middle.trans ?_
      exact (hp.cons _).trans (List.perm_append_singleton _ _).symm
  · rw [hi, hlog]
    exact h.answered.snoc (fun _ _ _ he => by cases he; exact hmem)

theorem BackMid.runBucket {H : Host W} {now : Time} {b : List Ref} {s : Sched} {w : W} (h : BackMid now b s)
    (hg : NoZeroLog s.interval (runBucket H now b s w).1.log) :
    BackMid now [] (Verif.runBucket H now b s w).1 ∧ (Verif.runBucket H now b s w).2.2 = false := by
  induction b generalizing s w with
  | nil => exact ⟨h, rfl⟩
  | cons r rest ih =>
    rw [runBucket_cons] at hg ⊢
    simp only at hg ⊢
    have hrep : Ev.act r now (H.step r s w).1 ∈
        (afterAct (s.applyOps (H.step r s w).2.1) r now (H.step r s w).1).log := by
      rw [afterAct_log]; simp
    split
    · rename_i he
      rw [if_pos he] at hg
      exact absurd he (hg _ hrep).1
    · rename_i he
      rw [if_neg he] at hg
      obtain ⟨l2, h2, _⟩ := runBucket_log H now rest
        (afterAct (s.applyOps (H.step r s w).2.1) r now (H.step r s w).1) (H.step r s w).2.2
      have hgr := hg _ (by rw [h2]; exact List.mem_append_left _ hrep)
      have := (h.ops (H.step r s w).2.1).act (H.step r s w).1 (by rw [applyOps_interval]; exact hgr)
      exact ih this (by rw [afterAct_interval, applyOps_interval]; exact hg)

/-- The invariant between steps. -/
structure BackInv (s : Sched) : Prop where
  mid : BackMid s.time [] s
  head : s.queue ≠ [] → headTime s.queue = s.time

theorem SortedQ.head_le {q : List (Time × List Ref)} (h : SortedQ q) : ∀ p ∈ queued q, headTime q ≤ p.2 := by
  intro p hp
  cases q with
  | nil => simp [queued] at hp
  | cons c q =>
    simp only [queued, List.mem_flatMap, List.mem_map] at hp
    obtain ⟨b, hb, r, _, rfl⟩ := hp
    rcases List.mem_cons.1 hb with rfl | hb
    · exact le_rfl
    · exact le_of_lt ((List.pairwise_cons.1 h).1 b hb)

theorem headTime_insert_now {t : Time} {r : Ref} {q : List (Time × List Ref)} (h : q ≠ [] → headTime q = t) :
    headTime (insertBucket t r q) = t := by
  cases q with
  | nil => rfl
  | cons c q =>
    have : c.1 = t := h (by simp)
    simp only [insertBucket, this, if_true, headTime]

theorem BackInv.op {s : Sched} (h : BackInv s) (o : SOp) : BackInv (s.applyOp o) := by
  refine ⟨?_, ?_⟩
  · rw [applyOp_time]; exact h.mid.op o
  · cases o with
    | add r w => intro _; exact headTime_insert_now h.head
    | remove r => exact h.head
    | stop => exact h.head

theorem BackInv.step {s : Sched} (h : BackInv s) (H : Host W) (w : W)
    (hg : NoZeroLog s.interval (s.step H w).1.log) : BackInv (s.step H w).1 := by
  unfold Sched.step at hg ⊢
  cases hq : s.queue with
  | nil => simp only [hq]; exact h
  | cons c q =>
    obtain ⟨t, bucket⟩ := c
    have ht : t = s.time := by have := h.head (by simp [hq]); rw [hq] at this; exact this
    have hlt : ¬ s.time < t := by rw [ht]; exact lt_irrefl _
    simp only [hq, if_neg hlt] at hg ⊢
    have hperm : (runOrder H s bucket w).1.Perm bucket := by
      unfold runOrder; split
      · exact H.shuffle_perm _ _
      · exact List.Perm.refl _
    generalize runOrder H s bucket w = b at hg hperm ⊢
    have hm : BackMid s.time b.1 { s with queue := q } := by
      have hs := h.mid.sorted
      have hn := h.mid.ne
      have hp := h.mid.perm
      rw [hq] at hs hn hp
      refine ⟨rfl, (List.pairwise_cons.1 hs).2, fun x hx => hn x (by simp [hx]), ?_, h.mid.answered⟩
      simp only [List.map_nil, List.nil_append, queued, List.flatMap_cons, ht] at hp
      exact ((hperm.map _).append_right _).trans hp
    have hlog : (finishStep (runBucket H s.time b.1 { s with queue := q } b.2)).1.log
        = (runBucket H s.time b.1 { s with queue := q } b.2).1.log := by
      simp only [finishStep]; split <;> rfl
    rw [hlog] at hg
    obtain ⟨h1, h2⟩ := hm.runBucket hg
    simp only [finishStep, h2, Bool.false_eq_true, if_false]
    exact ⟨⟨rfl, h1.sorted, h1.ne, by simpa using h1.perm, h1.answered⟩, fun _ => rfl⟩

theorem BackInv.init (iv : Time) (sh : Bool) : BackInv (Sched.init iv sh) :=
  ⟨⟨rfl, List.Pairwise.nil, fun _ h => by simp [Sched.init] at h, List.Perm.refl _, fun pre r t rep post h => by
    simp [Sched.init] at h⟩, fun h => absurd rfl h⟩

theorem reach_back {H : Host W} {iv : Time} {sh : Bool} {w0 : W} {h : List (Cmd W)}
    (hg : NoZeroLog iv (reach H iv sh w0 h).1.log) : BackInv (reach H iv sh w0 h).1 := by
  induction h using List.reverseRecOn with
  | nil => exact BackInv.init iv sh
  | append_singleton h c ih =>
    have hlog : NoZeroLog iv (reach H iv sh w0 h).1.log := by
      rw [reach, execAll_append] at hg
      obtain ⟨l, hl⟩ := execAll_log H [c] (execAll H h (Sched.init iv sh, w0))
      rw [hl] at hg; exact hg.prefix
    have hi := ih hlog
    have hiv := reach_interval H iv sh w0 h
    rw [reach_snoc] at hg ⊢
    generalize reach H iv sh w0 h = sw at hg hi hiv ⊢
    obtain ⟨s, w⟩ := sw
    cases c with
    | step => exact hi.step H w (by rw [show s.interval = iv from hiv]; exact hg)
    | op o => exact hi.op o
    | world f => exact hi

/-! ### The theorems -/

/-- C235: agents may ask for times in the past. Whatever the default interval: an agent added once follows its own time line
(it first runs at the time it was added; after an activation at `t` with the reply `d` its next activation is at exactly
`t + d`, earlier than `t` if `d` is negative), and what is pending for it is exactly its next wake-up. What is missing: the
requests for the time 0 (`C235_zero_false`). -/
theorem C235_exact_partial (H : Host W) (iv : Time) (sh : Bool) (w0 : W) (h : List (Cmd W))
    (hg : NoZeroLog iv (reach H iv sh w0 h).1.log) (r : Ref) (h1 : addCount r (reach H iv sh w0 h).1.log = 1) :
    ∃ due, Timeline iv none ((reach H iv sh w0 h).1.log.filter (·.ref = r)) due ∧
      pendingOf (pending (reach H iv sh w0 h).1) r = due.toList := by
  have hi := (reach_back hg).mid
  have hl := hi.answered
  have hperm := hi.perm
  rw [reach_interval] at hl hperm
  obtain ⟨due, ht, hp, _⟩ := hl.timeline r (by omega)
  refine ⟨due, ht, ?_⟩
  have hpp : (pendingOf (pending (reach H iv sh w0 h).1) r).Perm due.toList := by
    rw [← hp]
    have hq : (pending (reach H iv sh w0 h).1).Perm (cal iv (reach H iv sh w0 h).1.log) := hperm
    exact (hq.filter _).map _
  cases due with
  | none => exact hpp.eq_nil
  | some t => exact List.perm_singleton.1 hpp

/-- C235: the clock always shows the earliest pending wake-up, even if that is before what it showed; and everything that
has been asked for is pending. What is missing: the requests for the time 0. -/
theorem C235_earliest_partial (H : Host W) (iv : Time) (sh : Bool) (w0 : W) (h : List (Cmd W))
    (hg : NoZeroLog iv (reach H iv sh w0 h).1.log) :
    let s := (reach H iv sh w0 h).1
    (pending s).Perm (cal iv s.log) ∧
    (∀ p ∈ cal iv s.log, s.time ≤ p.2) ∧
    (cal iv s.log ≠ [] → ∃ p ∈ cal iv s.log, p.2 = s.time) := by
  intro s
  have hb := reach_back hg
  have hp : (pending s).Perm (cal iv s.log) := by
    have := hb.mid.perm
    rw [reach_interval] at this
    exact this
  have hne : ∀ p ∈ queued s.queue, s.queue ≠ [] := by
    intro p hp h0; rw [h0] at hp; simp [queued] at hp
  refine ⟨hp, ?_, ?_⟩
  · intro p hm
    have hm' : p ∈ queued s.queue := hp.mem_iff.2 hm
    rw [← hb.head (hne p hm')]
    exact hb.mid.sorted.head_le p hm'
  · intro hc
    obtain ⟨p, hm⟩ := List.exists_mem_of_ne_nil _ hc
    have hq : s.queue ≠ [] := hne p (hp.mem_iff.2 hm)
    have hh := hb.head hq
    have hn := hb.mid.ne
    change QNe s.queue at hn
    change headTime s.queue = s.time at hh
    cases hqq : s.queue with
    | nil => exact absurd hqq hq
    | cons c q =>
      rw [hqq] at hh hn
      obtain ⟨r, hr⟩ := List.exists_mem_of_ne_nil _ (hn c (by simp))
      refine ⟨(r, c.1), hp.mem_iff.1 ?_, hh⟩
      change (r, c.1) ∈ queued s.queue
      rw [hqq]
      simp only [queued, List.mem_flatMap, List.mem_map]
      exact ⟨c, by simp, r, hr, rfl⟩
/-- Agent 0 is woken at 0, 3, 1, 3, 1, 3, ...; agent 1 waits 2 every time. -/
def backHost : Host Unit where
  step r s _ := (.ret (some (if r = 1 then .fin 2 else if s.time = 0 then .fin 3
    else if s.time = .fin 3 then .fin (-2) else .fin 2)), [], ())
  shuffle l _ := (l.reverse, ())
  shuffle_perm l _ := List.reverse_perm l

def backHist : List (Cmd Unit) := [.op (.add 0 none), .op (.add 1 none)] ++ List.replicate 5 .step

set_option maxRecDepth 100000 in
example : NoZeroLog 1 (reach backHost 1 true () backHist).1.log ∧ ¬ GoodLog (reach backHost 1 true () backHist).1.log ∧
    ((reach backHost 1 true () backHist).1.log.filter (·.ref = 0)).map Ev.time =
      [0, 0, .fin 3, .fin 1, .fin 3] ∧
    pendingOf (pending (reach backHost 1 true () backHist).1) 0 = [.fin 1] ∧
    (reach backHost 1 true () backHist).1.time = .fin 1 := by
  decide +kernel

/-! ### What goes wrong -/

/-- The agent of the next theorem: it waits 1, and then asks for the time before. -/
def zeroHost : Host Unit where
  step _ s _ := (.ret (some (if s.time = 0 then .fin 1 else .fin (-1))), [], ())
  shuffle l _ := (l, ())
  shuffle_perm l _ := List.Perm.refl l

/-- The state of the scheduler in which the agent is woken at the time 1. -/
def zeroState (n : Nat) (log : List Ev) : Sched :=
  { time := .fin 1, steps := n, queue := [(.fin 1, [0])], agents := [0], interval := 1, shuffle := true, running := true, log }

theorem zero_step (n : Nat) (log : List Ev) : ∃ log', ((zeroState n log).step zeroHost ()).1 = zeroState (n + 1) log' ∧
    ((zeroState n log).step zeroHost ()).2.2 = false := by
  have h1 : ¬ (Time.fin 1 < Time.fin 1) := by decide +kernel
  have h2 : ¬ (Time.fin 1 = 0) := by decide +kernel
  have h3 : Time.pyOr (some (.fin (-1))) 1 + Time.fin 1 = 0 := by decide +kernel
  have h4 : ¬ ((0 : Time) = .inf) := by decide +kernel
  have h5 : Time.pyOr (some 0) (.fin 1) = .fin 1 := by decide +kernel
  refine ⟨log ++ [.act 0 (.fin 1) (.ret (some (.fin (-1))))], ?_, ?_⟩ <;>
  simp only [Sched.step, zeroState, zeroHost, if_neg h1, runOrder, runBucket, if_true, Sched.applyOps, List.foldl_nil,
    Sched.logAct, if_neg h2, h3, if_neg h4, finishStep, Sched.schedule, h5, insertBucket, headTime,
    Bool.false_eq_true, if_false]

/-- C235 fails for the time 0: the agent was activated at 1 and asked for 0 (`1 + -1`), but `when or self.time` takes 0 for
"not given" and it is activated at 1 again, and again: no run up to the time 2 ever ends. -/
theorem C235_zero_false :
    (∃ l, (reach zeroHost 1 true () [.op (.add 0 none), .step, .step, .step]).1.log =
      l ++ [.act 0 (.fin 1) (.ret (some (.fin (-1)))), .act 0 (.fin 1) (.ret (some (.fin (-1))))]) ∧
    ∀ fuel, ∃ s, runModel (timedStepper zeroHost) (some (.fin 2)) none fuel (reach zeroHost 1 true () [.op (.add 0 none)])
      = .running s := by
  refine ⟨⟨[.added 0 0, .act 0 0 (.ret (some (.fin 1)))], by decide +kernel⟩, fun fuel => ?_⟩
  have key : ∀ n, ∃ m log, iterStep (timedStepper zeroHost) (n + 1) (reach zeroHost 1 true () [.op (.add 0 none)])
      = (zeroState m log, ()) := by
    intro n
    induction n with
    | zero => exact ⟨1, [.added 0 0, .act 0 0 (.ret (some (.fin 1)))], by decide +kernel⟩
    | succ n ih =>
      obtain ⟨m, log, h⟩ := ih
      obtain ⟨log', h', _⟩ := zero_step m log
      exact ⟨m + 1, log', by rw [iterStep_succ, h]; exact Prod.ext h' rfl⟩
  have h0 : (timedStepper zeroHost).noAgents (reach zeroHost 1 true () [.op (.add 0 none)]) = false := by decide +kernel
  refine ⟨iterStep (timedStepper zeroHost) fuel (reach zeroHost 1 true () [.op (.add 0 none)]), ?_⟩
  rw [runModel, h0, if_neg (by simp)]
  refine runLoop_running _ _ _ ?_
  intro m _
  cases m with
  | zero => exact by decide +kernel
  | succ m =>
    obtain ⟨k, log, h⟩ := key m
    rw [h]
    obtain ⟨log', _, h'⟩ := zero_step k log
    exact ⟨rfl, h'⟩

/-- The states of the scheduler in which agent 0 is woken at the times 3 and 1. -/
def backState (late : Bool) (n : Nat) (log : List Ev) : Sched :=
  { time := if late then .fin 3 else .fin 1, steps := n,
    queue := [(if late then .fin 3 else .fin 1, [0]), (.fin 4, [1])], agents := [0, 1], interval := 1, shuffle := true,
    running := true, log }

theorem back_step (late : Bool) (n : Nat) (log : List Ev) :
    ∃ t rep, ((backState late n log).step backHost ()).1 = backState (!late) (n + 1) (log ++ [.act 0 t rep]) ∧
      ((backState late n log).step backHost ()).2.2 = false := by
  have h1 : ¬ (Time.fin 1 < Time.fin 1) := by decide +kernel
  have h2 : ¬ (Time.fin 1 = 0) := by decide +kernel
  have h3 : ¬ (Time.fin 3 < Time.fin 3) := by decide +kernel
  have h4 : ¬ (Time.fin 3 = 0) := by decide +kernel
  have h5 : Time.pyOr (some (.fin (-2))) 1 + Time.fin 3 = .fin 1 := by decide +kernel
  have h6 : Time.pyOr (some (.fin 2)) 1 + Time.fin 1 = .fin 3 := by decide +kernel
  have h7 : ¬ (Time.fin 1 = Time.fin 3) := by decide +kernel
  have h8 : ¬ (Time.fin 4 = Time.fin 3) ∧ Time.fin 3 < Time.fin 4 := by decide +kernel
  have h9 : ¬ (Time.fin 4 = Time.fin 1) ∧ Time.fin 1 < Time.fin 4 := by decide +kernel
  have h10 : ¬ ((0 : Ref) = 1) := by decide
  have h11 : Time.pyOr (some (.fin 1)) (.fin 3) = .fin 1 := by decide +kernel
  have h12 : Time.pyOr (some (.fin 3)) (.fin 1) = .fin 3 := by decide +kernel
  cases late with
  | true =>
    refine ⟨.fin 3, .ret (some (.fin (-2))), ?_, ?_⟩ <;>
    simp only [Sched.step, backState, backHost, if_neg h3, runOrder, runBucket, if_true, Sched.applyOps, List.foldl_nil,
      Sched.logAct, if_neg h4, if_neg h10, h5, reduceCtorEq, finishStep, Sched.schedule, insertBucket, headTime,
      Bool.false_eq_true, if_false, List.reverse_singleton, Bool.not_true, h11, if_neg h9.1, if_pos h9.2]
  | false =>
    refine ⟨.fin 1, .ret (some (.fin 2)), ?_, ?_⟩ <;>
    simp only [Sched.step, backState, backHost, if_neg h1, runOrder, runBucket, if_true, Sched.applyOps, List.foldl_nil,
      Sched.logAct, if_neg h2, if_neg h10, if_neg h7, h6, reduceCtorEq, finishStep, Sched.schedule, insertBucket, headTime,
      Bool.false_eq_true, if_false, List.reverse_singleton, Bool.not_false, h12, if_neg h8.1, if_pos h8.2]

/-- C235, what obeying the calendar does not give: agent 1 has asked for the time 4 and waits for ever, because agent 0 goes
back from 3 to 1 again and again. After any number of steps that wake-up is pending, agent 1 has only run at 0 and 2, and
no run up to the time 4 ever ends. -/
theorem C235_starves_false :
    let start := reach backHost 1 true () [.op (.add 0 none), .op (.add 1 none)]
    (∀ n, let s := (iterStep (timedStepper backHost) (n + 2) start).1;
      (1, .fin 4) ∈ pending s ∧ (s.log.filter (fun e => e.isAdd = false ∧ e.ref = 1)).map Ev.time = [0, .fin 2]) ∧
    ∀ fuel, ∃ s, runModel (timedStepper backHost) (some (.fin 4)) none fuel start = .running s := by
  intro start
  have key : ∀ n, ∃ (late : Bool) (m : Nat) (log : List Ev),
      iterStep (timedStepper backHost) (n + 2) start = (backState late m log, ()) ∧
      (log.filter (fun e => e.isAdd = false ∧ e.ref = 1)).map Ev.time = [0, .fin 2] := by
    intro n
    induction n with
    | zero =>
      refine ⟨true, 2, (iterStep (timedStepper backHost) 2 start).1.log, by decide +kernel, by decide +kernel⟩
    | succ n ih =>
      obtain ⟨late, m, log, h, hl⟩ := ih
      obtain ⟨t, rep, h', _⟩ := back_step late m log
      refine ⟨!late, m + 1, log ++ [.act 0 t rep], by rw [iterStep_succ, h]; exact Prod.ext h' rfl, ?_⟩
      rw [List.filter_append, List.map_append, hl]
      have : [Ev.act 0 t rep].filter (fun e => e.isAdd = false ∧ e.ref = 1) = [] := by
        simp [Ev.isAdd, Ev.ref]
      rw [this]; rfl
  refine ⟨?_, fun fuel => ?_⟩
  · intro n s
    obtain ⟨late, m, log, h, hl⟩ := key n
    have hs : s = backState late m log := congrArg Prod.fst h
    rw [hs]
    exact ⟨by simp [pending, backState], hl⟩
  · have h0 : (timedStepper backHost).noAgents start = false := by decide +kernel
    refine ⟨iterStep (timedStepper backHost) fuel start, ?_⟩
    rw [runModel, h0, if_neg (by simp)]
    refine runLoop_running _ _ _ ?_
    intro m _
    match m with
    | 0 => exact by decide +kernel
    | 1 => exact by decide +kernel
    | m + 2 =>
      obtain ⟨late, k, log, h, _⟩ := key m
      rw [h]
      obtain ⟨_, _, _, h'⟩ := back_step late k log
      exact ⟨by cases late <;> rfl, h'⟩

end Verif
