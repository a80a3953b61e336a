import Verif.Proofs.Timed

/-!
# Properties of the default scheduler (C01-C10)

All statements quantify over an arbitrary host `H` (user code and shuffles), an arbitrary
positive default interval, and an arbitrary history `h` of steps, additions, removals and
changes of the world, starting from a fresh scheduler.
-/

namespace Verif
open Spec

variable {W : Type}

/-- The state reached by a history from a fresh scheduler. -/
abbrev reach (H : Host W) (iv : Time) (sh : Bool) (w0 : W) (h : List (Cmd W)) : Sched × W :=
  execAll H h (Sched.init iv sh, w0)

theorem reach_inv {H : Host W} {iv : Time} {sh : Bool} {w0 : W} {h : List (Cmd W)} (hiv : 0 < iv)
    (hg : GoodLog (reach H iv sh w0 h).1.log) : Inv (reach H iv sh w0 h).1 :=
  (Inv.execAll (sw := (Sched.init iv sh, w0)) (Inv.init hiv sh) H h hg).1

theorem reach_interval (H : Host W) (iv : Time) (sh : Bool) (w0 : W) (h : List (Cmd W)) :
    (reach H iv sh w0 h).1.interval = iv := execAll_interval H h _

theorem reach_snoc (H : Host W) (iv : Time) (sh : Bool) (w0 : W) (h : List (Cmd W)) (c : Cmd W) :
    reach H iv sh w0 (h ++ [c]) = c.exec H (reach H iv sh w0 h) := by
  rw [reach, execAll_append]; rfl

/-! ### A concrete non-trivial run used as witness -/

/-- Agent `r` waits `r+1` (agent 3 dies at once); agent 1 adds agent 7 during the first step; the
"shuffle" reverses. -/
def exHost : Host Unit where
  step r s _ :=
    (if r = 3 then .dead else .ret (some (.fin (r + 1 : Nat))),
     if s.steps = 0 && r == 1 then [.add 7 none] else [], ())
  shuffle l _ := (l.reverse, ())
  shuffle_perm l _ := List.reverse_perm l

def exHist : List (Cmd Unit) :=
  [.op (.add 0 none), .op (.add 1 none), .op (.add 3 none), .step, .step, .op (.add 2 (some 5)), .step, .step]

/-! ### C01 -/

/-- C01: the clock never goes backwards and never is negative; the log is in time order. -/
theorem C01_time_monotone (H : Host W) (iv : Time) (hiv : 0 < iv) (sh : Bool) (w0 : W)
    (h1 h2 : List (Cmd W)) (hg : GoodLog (reach H iv sh w0 (h1 ++ h2)).1.log) :
    0 ≤ (reach H iv sh w0 h1).1.time ∧
    (reach H iv sh w0 h1).1.time ≤ (reach H iv sh w0 (h1 ++ h2)).1.time ∧
    Chronological (reach H iv sh w0 (h1 ++ h2)).1.log := by
  have hg1 : GoodLog (reach H iv sh w0 h1).1.log := by
    rw [reach, execAll_append] at hg
    obtain ⟨l, hl⟩ := execAll_log H h2 (execAll H h1 (Sched.init iv sh, w0))
    rw [hl] at hg; exact hg.prefix
  have hi := reach_inv hiv hg1
  refine ⟨hi.time_nonneg, ?_, (reach_inv hiv hg).chron⟩
  rw [reach, execAll_append] at hg
  rw [reach, reach, execAll_append]
  exact (Inv.execAll (sw := execAll H h1 (Sched.init iv sh, w0)) hi H h2 hg).2

example : GoodLog (reach exHost 1 true () (exHist ++ exHist)).1.log ∧
    (reach exHost 1 true () exHist).1.time < (reach exHost 1 true () (exHist ++ exHist)).1.time := by
  decide +kernel

/-- The premise on delays is needed: with a negative delay the clock goes backwards. -/
theorem C01_negative_delay_false :
    ∃ (H : Host Unit) (h1 h2 : List (Cmd Unit)),
      (reach H 1 true () (h1 ++ h2)).1.time < (reach H 1 true () h1).1.time := by
  refine ⟨{ step := fun r s _ => (.ret (some (if s.steps = 1 then .fin (-3) else .fin 5)), [], ()),
            shuffle := fun l _ => (l, ()), shuffle_perm := fun l _ => List.Perm.refl l },
          [.op (.add 0 none), .step], [.step], ?_⟩
  decide +kernel

/-! ### C02 -/

/-- C02: an agent added once follows its own time line: it first runs at the time it was added,
after an activation at `t` with reply `d` its next activation is at exactly `t + d` (default
interval for `None`/0), never if it died or asked for an infinite delay; and what is pending for
it is exactly its next wake-up. -/
theorem C02_exact_wakeups (H : Host W) (iv : Time) (hiv : 0 < iv) (sh : Bool) (w0 : W)
    (h : List (Cmd W)) (hg : GoodLog (reach H iv sh w0 h).1.log) (r : Ref)
    (h1 : addCount r (reach H iv sh w0 h).1.log = 1) :
    ∃ due, Timeline iv none ((reach H iv sh w0 h).1.log.filter (·.ref = r)) due ∧
      pendingOf (pending (reach H iv sh w0 h).1) r = due.toList := by
  have hi := reach_inv hiv hg
  have hl := hi.legal
  rw [reach_interval] at hl
  obtain ⟨due, ht, hp, _⟩ := hl.timeline r (by omega)
  refine ⟨due, ht, ?_⟩
  have hperm := hi.pending_perm
  rw [reach_interval] at hperm
  have hpp : (pendingOf (pending (reach H iv sh w0 h).1) r).Perm due.toList := by
    rw [← hp]
    exact (hperm.filter _).map _
  cases due with
  | none => exact hpp.eq_nil
  | some t => exact List.perm_singleton.1 hpp

/-- C02, consecutive activations spelled out. -/
theorem C02_next_activation (H : Host W) (iv : Time) (hiv : 0 < iv) (sh : Bool) (w0 : W)
    (h : List (Cmd W)) (hg : GoodLog (reach H iv sh w0 h).1.log) (r : Ref)
    (h1 : addCount r (reach H iv sh w0 h).1.log = 1)
    {pre post : List Ev} {t u : Time} {d : Option Time} {rep : Reply}
    (hlog : (reach H iv sh w0 h).1.log.filter (·.ref = r)
      = pre ++ .act r t (.ret d) :: .act r u rep :: post) :
    u = t + effDelay iv d := by
  obtain ⟨due, ht, _⟩ := C02_exact_wakeups H iv hiv sh w0 h hg r h1
  rw [hlog] at ht
  have := ht.next
  simp only [nextWake] at this
  split at this
  · cases this
  · exact (Option.some.inj this).symm

/-- C02, first activation spelled out. -/
theorem C02_first_activation (H : Host W) (iv : Time) (hiv : 0 < iv) (sh : Bool) (w0 : W)
    (h : List (Cmd W)) (hg : GoodLog (reach H iv sh w0 h).1.log) (r : Ref)
    (h1 : addCount r (reach H iv sh w0 h).1.log = 1)
    {pre post : List Ev} {t u : Time} {rep : Reply}
    (hlog : (reach H iv sh w0 h).1.log.filter (·.ref = r)
      = pre ++ .added r t :: .act r u rep :: post) :
    u = t := by
  obtain ⟨due, ht, _⟩ := C02_exact_wakeups H iv hiv sh w0 h hg r h1
  rw [hlog] at ht
  exact ht.first

example : GoodLog (reach exHost 1 true () exHist).1.log ∧
    addCount 0 (reach exHost 1 true () exHist).1.log = 1 ∧
    (reach exHost 1 true () exHist).1.log.filter (·.ref = 0) =
      [.added 0 0] ++ .act 0 0 (.ret (some 1)) :: .act 0 1 (.ret (some 1)) ::
        [.act 0 2 (.ret (some 1))] := by
  decide +kernel

/-! ### C03 -/

/-- C03: what is pending is exactly what the additions and replies so far imply. -/
theorem C03_conservation (H : Host W) (iv : Time) (hiv : 0 < iv) (sh : Bool) (w0 : W)
    (h : List (Cmd W)) (hg : GoodLog (reach H iv sh w0 h).1.log) :
    (pending (reach H iv sh w0 h).1).Perm (cal iv (reach H iv sh w0 h).1.log) := by
  have := (reach_inv hiv hg).pending_perm
  rwa [reach_interval] at this

/-- C03: every activation answered a pending wake-up. -/
theorem C03_no_spurious_activation (H : Host W) (iv : Time) (hiv : 0 < iv) (sh : Bool) (w0 : W)
    (h : List (Cmd W)) (hg : GoodLog (reach H iv sh w0 h).1.log) :
    Legal iv (reach H iv sh w0 h).1.log := by
  have := (reach_inv hiv hg).legal
  rwa [reach_interval] at this

example : GoodLog (reach exHost 1 true () exHist).1.log ∧
    pending (reach exHost 1 true () exHist).1 = [(0, 3), (2, 4), (1, 4), (7, 8)] := by
  decide +kernel

/-! ### C04 -/

/-- C04: a step activates exactly the agents pending at the earliest pending time `t`, once per
pending entry, all at time `t`; with nothing pending it activates nobody. -/
theorem C04_step_runs_due (H : Host W) (iv : Time) (hiv : 0 < iv) (sh : Bool) (w0 : W)
    (h : List (Cmd W)) (hg : GoodLog (reach H iv sh w0 (h ++ [.step])).1.log) :
    ∃ evs, (reach H iv sh w0 (h ++ [.step])).1.log = (reach H iv sh w0 h).1.log ++ evs ∧
      (cal iv (reach H iv sh w0 h).1.log = [] → evs = []) ∧
      ∀ r t, (r, t) ∈ cal iv (reach H iv sh w0 h).1.log →
        (∀ p ∈ cal iv (reach H iv sh w0 h).1.log, t ≤ p.2) →
        (∀ e ∈ evs, e.time = t) ∧
        (actRefs evs).Perm (dueAt (cal iv (reach H iv sh w0 h).1.log) t) := by
  rw [reach_snoc] at hg ⊢
  obtain ⟨l, hl⟩ := Cmd.exec_log H .step (reach H iv sh w0 h)
  have hg0 : GoodLog (reach H iv sh w0 h).1.log := by rw [hl] at hg; exact hg.prefix
  have hi := reach_inv hiv hg0
  obtain ⟨evs, he, htime, hacts⟩ := hi.step_spec H (reach H iv sh w0 h).2 hg
  refine ⟨evs, he, ?_, ?_⟩
  · intro hnil
    have hp := hi.pending_perm
    rw [reach_interval, hnil] at hp
    have hq : (reach H iv sh w0 h).1.queue = [] := by
      by_contra hne
      obtain ⟨b, hb⟩ := List.exists_mem_of_ne_nil _ hne
      obtain ⟨x, hx⟩ := List.exists_mem_of_ne_nil _ (hi.ne b hb)
      have : (x, b.1) ∈ pending (reach H iv sh w0 h).1 :=
        List.mem_flatMap.2 ⟨b, hb, List.mem_map.2 ⟨x, hx, rfl⟩⟩
      rw [hp.eq_nil] at this
      cases this
    have hs : (reach H iv sh w0 h).1.step H (reach H iv sh w0 h).2
        = ((reach H iv sh w0 h).1, (reach H iv sh w0 h).2, false) := by
      simp [Sched.step, hq]
    rw [hs] at he
    simpa using he
  · intro r t hm hmin
    have hi2 := hi.due t
    rw [reach_interval] at hi2
    have htt : t = (reach H iv sh w0 h).1.time := by
      apply hi.min_eq_time (r := r) <;> rw [reach_interval] <;> assumption
    refine ⟨fun e he => by rw [htime e he, htt], ?_⟩
    rw [hacts, hi2, htt]
    exact runOrder_perm _ _ _ _

example : GoodLog (reach exHost 1 true () (exHist ++ [.step])).1.log ∧
    cal 1 (reach exHost 1 true () (exHist ++ [.op (.add 9 none)])).1.log =
      [(7, 8), (2, 4), (0, 3), (1, 4), (9, 3)] := by
  decide +kernel

/-! ### C05 -/

/-- C05: without shuffling a step runs the due agents oldest request first. -/
theorem C05_ordered_fifo (H : Host W) (iv : Time) (hiv : 0 < iv) (w0 : W)
    (h : List (Cmd W)) (hg : GoodLog (reach H iv false w0 (h ++ [.step])).1.log)
    {r : Ref} {t : Time} (hm : (r, t) ∈ cal iv (reach H iv false w0 h).1.log)
    (hmin : ∀ p ∈ cal iv (reach H iv false w0 h).1.log, t ≤ p.2) :
    ∃ evs, (reach H iv false w0 (h ++ [.step])).1.log = (reach H iv false w0 h).1.log ++ evs ∧
      actRefs evs = dueAt (cal iv (reach H iv false w0 h).1.log) t := by
  rw [reach_snoc] at hg ⊢
  obtain ⟨l, hl⟩ := Cmd.exec_log H .step (reach H iv false w0 h)
  have hg0 : GoodLog (reach H iv false w0 h).1.log := by rw [hl] at hg; exact hg.prefix
  have hi := reach_inv hiv hg0
  obtain ⟨evs, he, htime, hacts⟩ := hi.step_spec H (reach H iv false w0 h).2 hg
  refine ⟨evs, he, ?_⟩
  have htt : t = (reach H iv false w0 h).1.time := by
    apply hi.min_eq_time (r := r) <;> rw [reach_interval] <;> assumption
  have hi2 := hi.due t
  rw [reach_interval] at hi2
  rw [hacts, hi2, htt, runOrder, if_neg (by rw [reach, execAll_shuffle]; simp [Sched.init])]

/-- C05: without shuffling the whole run is a function of the behaviours: it does not depend on
the random shuffles. -/
theorem C05_deterministic (H1 H2 : Host W) (hs : H1.step = H2.step) (iv : Time) (w0 : W)
    (h : List (Cmd W)) : reach H1 iv false w0 h = reach H2 iv false w0 h := by
  unfold reach
  generalize hsw : (Sched.init iv false, w0) = sw
  have hsh : sw.1.shuffle = false := by rw [← hsw]; rfl
  clear hsw
  induction h generalizing sw with
  | nil => rfl
  | cons c h ih =>
    show execAll H1 h (c.exec H1 sw) = execAll H2 h (c.exec H2 sw)
    rw [exec_congr hs c sw hsh]
    exact ih _ (by rw [exec_shuffle, hsh])

example : actRefs (reach exHost 1 false () exHist).1.log = [0, 1, 3, 7, 0, 2, 1, 0] ∧
    actRefs (reach exHost 1 true () exHist).1.log ≠ actRefs (reach exHost 1 false () exHist).1.log := by
  decide +kernel

/-! ### C06 -/

/-- C06: the activations of a once-added agent happen at strictly increasing times. -/
theorem C06_no_double_activation (H : Host W) (iv : Time) (hiv : 0 < iv) (sh : Bool) (w0 : W)
    (h : List (Cmd W)) (hg : GoodLog (reach H iv sh w0 h).1.log) (r : Ref)
    (h1 : addCount r (reach H iv sh w0 h).1.log = 1) :
    ((reach H iv sh w0 h).1.log.filter (fun e => e.isAct && e.ref == r)).Pairwise
      (fun a b => a.time < b.time) := by
  obtain ⟨due, ht, _⟩ := C02_exact_wakeups H iv hiv sh w0 h hg r h1
  have hsplit : (reach H iv sh w0 h).1.log.filter (fun e => e.isAct && e.ref == r)
      = ((reach H iv sh w0 h).1.log.filter (·.ref = r)).filter (·.isAct) := by
    rw [List.filter_filter]
    congr 1
  have hcount : ((reach H iv sh w0 h).1.log.filter (·.ref = r)).countP (·.isAdd) = 1 := by
    rw [← h1, addCount, List.countP_filter]
    congr 1
  rw [hsplit]
  have hgood : GoodLog ((reach H iv sh w0 h).1.log.filter (·.ref = r)) :=
    fun e he => hg e (List.mem_of_mem_filter he)
  generalize (reach H iv sh w0 h).1.log.filter (·.ref = r) = l at ht hcount hgood ⊢
  cases ht with
  | nil => simp
  | @add q t l due' htl =>
    have hz : ∀ e ∈ l, e.isAct = true := by
      intro e he
      simp only [List.countP_cons, Ev.isAdd, if_true] at hcount
      have h0 : l.countP (·.isAdd) = 0 := by simpa [Ev.isAdd] using hcount
      have := List.countP_eq_zero.1 h0 e he
      cases e with
      | added => simp [Ev.isAdd] at this
      | act => rfl
    have hf : (Ev.added q t :: l).filter (·.isAct) = l := by
      rw [List.filter_cons_of_neg (by simp [Ev.isAct])]
      exact List.filter_eq_self.2 hz
    rw [hf]
    exact (htl.strict hiv (fun e he => hgood e (by simp [he])) hz).1

example : GoodLog (reach exHost 1 true () exHist).1.log ∧
    addCount 1 (reach exHost 1 true () exHist).1.log = 1 ∧
    ((reach exHost 1 true () exHist).1.log.filter (fun e => e.isAct && e.ref == 1)).length = 2 := by
  decide +kernel

/-! ### C07 -/

/-- C07: when nothing is pending any more (after some activity) the clock is at infinity and any
number of further steps changes nothing at all. -/
theorem C07_exhausted_quiescent (H : Host W) (iv : Time) (hiv : 0 < iv) (sh : Bool) (w0 : W)
    (h : List (Cmd W)) (hg : GoodLog (reach H iv sh w0 h).1.log)
    (hne : (reach H iv sh w0 h).1.log ≠ [])
    (hex : cal iv (reach H iv sh w0 h).1.log = []) :
    (reach H iv sh w0 h).1.time = .inf ∧
    ∀ n, reach H iv sh w0 (h ++ List.replicate n .step) = reach H iv sh w0 h := by
  have hi := reach_inv hiv hg
  have hq : (reach H iv sh w0 h).1.queue = [] := by
    have hp := hi.pending_perm
    rw [reach_interval, hex] at hp
    by_contra hne
    obtain ⟨b, hb⟩ := List.exists_mem_of_ne_nil _ hne
    obtain ⟨x, hx⟩ := List.exists_mem_of_ne_nil _ (hi.ne b hb)
    have : (x, b.1) ∈ pending (reach H iv sh w0 h).1 :=
      List.mem_flatMap.2 ⟨b, hb, List.mem_map.2 ⟨x, hx, rfl⟩⟩
    rw [hp.eq_nil] at this
    cases this
  refine ⟨(hi.empty hq).resolve_left hne, ?_⟩
  intro n
  induction n with
  | zero => simp
  | succ n ih =>
    rw [List.replicate_succ', ← List.append_assoc, reach_snoc, ih]
    generalize reach H iv sh w0 h = sw at hq
    obtain ⟨s, w⟩ := sw
    simp only at hq
    simp [Cmd.exec, Sched.step, hq]

/-- Agents of `exHost` with id 3 only: they die at once. -/
example : let h : List (Cmd Unit) := [.op (.add 3 none), .op (.add 3 none), .step]
    GoodLog (reach exHost 1 true () h).1.log ∧ (reach exHost 1 true () h).1.log ≠ [] ∧
    cal 1 (reach exHost 1 true () h).1.log = [] := by
  decide +kernel

/-! ### C08 -/

/-- C08 is violated: `add(agent, when=5)` at time 0 runs the agent at time 0. -/
theorem C08_add_when_false :
    ∃ (H : Host Unit) (t : Time), GoodLog (reach H 1 true () [.op (.add 0 (some t)), .step]).1.log ∧
      0 < t ∧ (reach H 1 true () [.op (.add 0 (some t)), .step]).1.log =
        [.added 0 0, .act 0 0 (.ret none)] := by
  refine ⟨{ step := fun _ _ _ => (.ret none, [], ()),
            shuffle := fun l _ => (l, ()), shuffle_perm := fun l _ => List.Perm.refl l }, 5, ?_⟩
  decide +kernel

/-- C08, exact extent of the defect: the argument `when` has no effect whatsoever. -/
theorem C08_when_ignored (s : Sched) (r : Ref) (w w' : Option Time) :
    s.addAgent r w = s.addAgent r w' := rfl

/-- C08, what holds: for `when` absent or equal to the current time, the (once added) agent is
first activated at that time. Missing: any later `when`. -/
theorem C08_add_when_partial (H : Host W) (iv : Time) (hiv : 0 < iv) (sh : Bool) (w0 : W)
    (h h' : List (Cmd W)) (r : Ref) (w : Option Time)
    (hw : ∀ t, w = some t → t = (reach H iv sh w0 h).1.time)
    (hg : GoodLog (reach H iv sh w0 (h ++ .op (.add r w) :: h')).1.log)
    (h1 : addCount r (reach H iv sh w0 (h ++ .op (.add r w) :: h')).1.log = 1)
    {pre post : List Ev} {t0 u : Time} {rep : Reply}
    (hlog : (reach H iv sh w0 (h ++ .op (.add r w) :: h')).1.log.filter (·.ref = r)
      = pre ++ .added r t0 :: .act r u rep :: post) :
    u = (w.getD (reach H iv sh w0 h).1.time) := by
  have hu := C02_first_activation H iv hiv sh w0 _ hg r h1 hlog
  have hget : w.getD (reach H iv sh w0 h).1.time = (reach H iv sh w0 h).1.time := by
    cases w with
    | none => rfl
    | some t => exact hw t rfl
  rw [hget, hu]
  -- the only addition of `r` is the one made at the clock value after `h`
  have hmem : Ev.added r t0 ∈ (reach H iv sh w0 (h ++ .op (.add r w) :: h')).1.log := by
    have : Ev.added r t0 ∈ (reach H iv sh w0 (h ++ .op (.add r w) :: h')).1.log.filter (·.ref = r) := by
      rw [hlog]; simp
    exact List.mem_of_mem_filter this
  have hmem2 : Ev.added r (reach H iv sh w0 h).1.time ∈
      (reach H iv sh w0 (h ++ .op (.add r w) :: h')).1.log := by
    rw [reach, execAll_append]
    show _ ∈ (execAll H h' (Cmd.exec H (.op (.add r w)) (execAll H h (Sched.init iv sh, w0)))).1.log
    obtain ⟨l, hl⟩ := execAll_log H h' (Cmd.exec H (.op (.add r w)) (execAll H h (Sched.init iv sh, w0)))
    rw [hl]
    apply List.mem_append_left
    have := addAgent_log (execAll H h (Sched.init iv sh, w0)).1 r w
    show _ ∈ (Sched.addAgent (execAll H h (Sched.init iv sh, w0)).1 r w).log
    rw [this]
    exact List.mem_append_right _ (List.mem_singleton.2 rfl)
  have hc : ((reach H iv sh w0 (h ++ .op (.add r w) :: h')).1.log.filter
      (fun e => e.isAdd && e.ref == r)).length = 1 := by
    rw [← List.countP_eq_length_filter]; exact h1
  obtain ⟨x, hx⟩ := List.length_eq_one_iff.1 hc
  have e1 : Ev.added r t0 = x := by
    have : Ev.added r t0 ∈ [x] := by rw [← hx]; exact List.mem_filter.2 ⟨hmem, by simp [Ev.isAdd, Ev.ref]⟩
    simpa using this
  have e2 : Ev.added r (reach H iv sh w0 h).1.time = x := by
    have : Ev.added r (reach H iv sh w0 h).1.time ∈ [x] := by
      rw [← hx]; exact List.mem_filter.2 ⟨hmem2, by simp [Ev.isAdd, Ev.ref]⟩
    simpa using this
  rw [← e2] at e1
  exact (Ev.added.inj e1).2

example : let h : List (Cmd Unit) := [.op (.add 0 none), .step, .step]
    (reach exHost 1 true () h).1.time = 2 ∧
    GoodLog (reach exHost 1 true () (h ++ .op (.add 1 (some 2)) :: [.step])).1.log ∧
    addCount 1 (reach exHost 1 true () (h ++ .op (.add 1 (some 2)) :: [.step])).1.log = 1 ∧
    (reach exHost 1 true () (h ++ .op (.add 1 (some 2)) :: [.step])).1.log.filter (·.ref = 1) =
      [] ++ .added 1 2 :: .act 1 2 (.ret (some 2)) :: [] := by
  decide +kernel

/-! ### C09 -/

/-- C09: an agent added while a step is running is not run in that step's remaining part but is
activated in the very next step, at the same time. -/
theorem C09_added_midstep_runs_next (H : Host W) (iv : Time) (hiv : 0 < iv) (sh : Bool) (w0 : W)
    (h : List (Cmd W)) (hg : GoodLog (reach H iv sh w0 (h ++ [.step, .step])).1.log)
    {evs1 evs2 : List Ev}
    (h1 : (reach H iv sh w0 (h ++ [.step])).1.log = (reach H iv sh w0 h).1.log ++ evs1)
    (h2 : (reach H iv sh w0 (h ++ [.step, .step])).1.log
      = (reach H iv sh w0 (h ++ [.step])).1.log ++ evs2)
    {r : Ref} {t : Time} (hadd : .added r t ∈ evs1) :
    t = (reach H iv sh w0 h).1.time ∧ (reach H iv sh w0 (h ++ [.step])).1.time = t ∧
      ∃ rep, .act r t rep ∈ evs2 := by
  have hg1 : GoodLog (reach H iv sh w0 (h ++ [.step])).1.log := by rw [h2] at hg; exact hg.prefix
  have hg0 : GoodLog (reach H iv sh w0 h).1.log := by rw [h1] at hg1; exact hg1.prefix
  have hi0 := reach_inv hiv hg0
  have hi1 := reach_inv hiv hg1
  have hs1 := hi0.step_spec H (reach H iv sh w0 h).2 (by
    have := hg1; rw [reach_snoc] at this; exact this)
  obtain ⟨e1, he1, ht1, ha1⟩ := hs1
  have : e1 = evs1 := by
    rw [reach_snoc] at h1
    exact List.append_cancel_left (he1.symm.trans h1)
  subst this
  have htt : t = (reach H iv sh w0 h).1.time := ht1 _ hadd
  -- bookkeeping: `r` is due again at `t`
  have hleg := hi1.legal
  rw [reach_interval, h1] at hleg
  have hgood : GoodLog e1 := by
    intro e he; exact hg1 e (by rw [h1]; exact List.mem_append_right _ he)
  have hcnt := count_cal_now hiv hleg hgood ht1 r
  have hc0 : (actRefs e1).count r = (cal iv (reach H iv sh w0 h).1.log).count (r, (reach H iv sh w0 h).1.time) := by
    have hd := hi0.due (reach H iv sh w0 h).1.time
    rw [reach_interval] at hd
    rw [ha1, (runOrder_perm _ _ _ _).count_eq, ← count_dueAt, hd]
  have hpos := addCount_pos hadd
  have hmem : (r, t) ∈ cal iv (reach H iv sh w0 (h ++ [.step])).1.log := by
    rw [h1, htt]
    apply List.count_pos_iff.1
    omega
  have hle : (reach H iv sh w0 h).1.time ≤ (reach H iv sh w0 (h ++ [.step])).1.time :=
    (C01_time_monotone H iv hiv sh w0 h [.step] hg1).2.1
  have hmin : ∀ p ∈ cal iv (reach H iv sh w0 (h ++ [.step])).1.log, t ≤ p.2 := by
    intro p hp
    have hp' := hi1.mid.mem_le
    rw [reach_interval] at hp'
    exact le_trans (htt ▸ hle) (hp' p hp)
  have htime : t = (reach H iv sh w0 (h ++ [.step])).1.time := by
    apply hi1.min_eq_time (r := r) <;> rw [reach_interval] <;> assumption
  refine ⟨htt, htime.symm, ?_⟩
  have hsplit : h ++ [Cmd.step, Cmd.step] = (h ++ [.step]) ++ [.step] := by simp
  rw [hsplit] at hg h2
  obtain ⟨e2, he2, _, hacts⟩ := C04_step_runs_due H iv hiv sh w0 (h ++ [.step]) hg
  have : e2 = evs2 := by rw [h2] at he2; exact (List.append_cancel_left he2).symm
  subst this
  obtain ⟨hts, hperm⟩ := hacts r t hmem hmin
  have hr : r ∈ actRefs e2 := hperm.mem_iff.2 (mem_dueAt.2 hmem)
  obtain ⟨u, rep, hu⟩ := mem_actRefs.1 hr
  have hut : u = t := hts _ hu
  exact ⟨rep, hut ▸ hu⟩

/-- C09: an agent added between steps is activated by the next step, at the current time. -/
theorem C09_added_between_steps (H : Host W) (iv : Time) (hiv : 0 < iv) (sh : Bool) (w0 : W)
    (h : List (Cmd W)) (r : Ref) (w : Option Time)
    (hg : GoodLog (reach H iv sh w0 (h ++ [.op (.add r w), .step])).1.log) :
    ∃ rep evs, (reach H iv sh w0 (h ++ [.op (.add r w), .step])).1.log
        = (reach H iv sh w0 h).1.log ++ .added r (reach H iv sh w0 h).1.time :: evs ∧
      .act r (reach H iv sh w0 h).1.time rep ∈ evs := by
  have hsplit : h ++ [Cmd.op (.add r w), Cmd.step] = (h ++ [.op (.add r w)]) ++ [.step] := by simp
  rw [hsplit] at hg ⊢
  obtain ⟨evs, he, _, hacts⟩ := C04_step_runs_due H iv hiv sh w0 _ hg
  have hlog : (reach H iv sh w0 (h ++ [.op (.add r w)])).1.log
      = (reach H iv sh w0 h).1.log ++ [.added r (reach H iv sh w0 h).1.time] := by
    rw [reach_snoc]
    exact addAgent_log (reach H iv sh w0 h).1 r w
  have hg1 : GoodLog (reach H iv sh w0 (h ++ [.op (.add r w)])).1.log := by rw [he] at hg; exact hg.prefix
  have hi1 := reach_inv hiv hg1
  have htime : (reach H iv sh w0 (h ++ [.op (.add r w)])).1.time = (reach H iv sh w0 h).1.time := by
    rw [reach_snoc]; rfl
  have hmem : (r, (reach H iv sh w0 h).1.time) ∈ cal iv (reach H iv sh w0 (h ++ [.op (.add r w)])).1.log := by
    rw [hlog, cal_append_one]; simp [calStep]
  have hmin := hi1.mid.mem_le
  rw [reach_interval, htime] at hmin
  obtain ⟨hts, hperm⟩ := hacts r _ hmem hmin
  have hr : r ∈ actRefs evs := hperm.mem_iff.2 (mem_dueAt.2 hmem)
  obtain ⟨u, rep, hu⟩ := mem_actRefs.1 hr
  have hut : u = (reach H iv sh w0 h).1.time := hts _ hu
  refine ⟨rep, evs, ?_, hut ▸ hu⟩
  rw [he, hlog]; simp

example : let h : List (Cmd Unit) := [.op (.add 0 none), .op (.add 1 none), .op (.add 3 none)]
    GoodLog (reach exHost 1 true () (h ++ [.step, .step])).1.log ∧
    (reach exHost 1 true () (h ++ [.step])).1.log = (reach exHost 1 true () h).1.log ++
      [.act 3 0 .dead, .added 7 0, .act 1 0 (.ret (some 2)), .act 0 0 (.ret (some 1))] := by
  decide +kernel

/-! ### C10 -/

/-- Agent 0 raises an exception in its first step, the others do not. -/
def raisingHost : Host Unit where
  step r _ _ := (if r = 0 then .error else .ret (some (.fin r)), [], ())
  shuffle l _ := (l, ())
  shuffle_perm l _ := List.Perm.refl l

/-- C10 is violated: agents 0 and 1 are both due at time 0; agent 0 raises; agent 1, which has
not run, is not pending any more and never runs, however often the schedule is stepped. -/
theorem C10_exception_loses_others_false :
    let h : List (Cmd Unit) := [.op (.add 0 none), .op (.add 1 none)]
    cal 1 (reach raisingHost 1 true () h).1.log = [(0, 0), (1, 0)] ∧
    ((reach raisingHost 1 true () h).1.step raisingHost ()).2.2 = true ∧
    ∀ n, pending (reach raisingHost 1 true () (h ++ List.replicate (n + 1) .step)).1 = [] ∧
      1 ∉ actRefs (reach raisingHost 1 true () (h ++ List.replicate (n + 1) .step)).1.log := by
  refine ⟨by decide +kernel, by decide +kernel, ?_⟩
  intro n
  have key : reach raisingHost 1 true () ([.op (.add 0 none), .op (.add 1 none)] ++ List.replicate (n + 1) .step)
      = reach raisingHost 1 true () [.op (.add 0 none), .op (.add 1 none), .step] := by
    induction n with
    | zero => rfl
    | succ n ih =>
      rw [List.replicate_succ', ← List.append_assoc, reach_snoc, ih]
      rfl
  rw [key]
  decide +kernel

/-- C10, what holds: after an exception everything that was pending for *other* times is still
pending. Missing: the rest of the interrupted instant. -/
theorem C10_exception_partial (H : Host W) (iv : Time) (hiv : 0 < iv) (sh : Bool) (w0 : W)
    (h : List (Cmd W)) (hg : GoodLog (reach H iv sh w0 h).1.log)
    (hraise : ((reach H iv sh w0 h).1.step H (reach H iv sh w0 h).2).2.2 = true)
    (r : Ref) (t : Time) (hp : (r, t) ∈ pending (reach H iv sh w0 h).1)
    (ht : t ≠ (reach H iv sh w0 h).1.time) :
    (r, t) ∈ pending (reach H iv sh w0 (h ++ [.step])).1 := by
  have hi := reach_inv hiv hg
  rw [reach_snoc]
  generalize reach H iv sh w0 h = sw at *
  obtain ⟨s, w⟩ := sw
  simp only at *
  have hp' := (mem_pending hi.sorted).1 hp
  cases hq : s.queue with
  | nil => rw [hq] at hp'; cases hp'
  | cons c q =>
    obtain ⟨u, b⟩ := c
    obtain ⟨hu, hm⟩ := hi.pop hq (runOrder_perm H s b w)
    have hgr := grows_runBucket H s.time (runOrder H s b w).1 { s with queue := q } (runOrder H s b w).2 hm.sorted
    have hqq : (s.step H w).1.queue = (runBucket H s.time (runOrder H s b w).1 { s with queue := q } (runOrder H s b w).2).1.queue := by
      rw [hi.step_eq H w hq]; unfold finishStep; split <;> rfl
    show (r, t) ∈ pending (s.step H w).1
    have hsort : SortedQ (s.step H w).1.queue := by rw [hqq]; exact hgr.1
    rw [mem_pending hsort, hqq]
    apply (hgr.2 t).subset
    rw [hq] at hp'
    have : ¬ u = t := fun e => ht (e.symm.trans hu)
    simpa [bucketAt, this] using hp'

example : let h : List (Cmd Unit) := [.op (.add 1 none), .op (.add 2 none), .step, .op (.add 0 none)]
    GoodLog (reach raisingHost 3 true () h).1.log ∧
    ((reach raisingHost 3 true () h).1.step raisingHost ()).2.2 = true ∧
    (2, 2) ∈ pending (reach raisingHost 3 true () h).1 ∧ (2 : Time) ≠ (reach raisingHost 3 true () h).1.time := by
  decide +kernel

end Verif
