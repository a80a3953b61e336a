import Verif.Props.PQueue

/-!
# Delays into the past, `PQueueActivation` (C236)

The loop of `PQueueActivation.step` (soil/time.py:92-113) activates everything whose time is not after the clock, and the
clock is only ever set to a time after it.  An agent that asks for a time in the past is activated again at once.
-/

namespace Verif
open Spec

variable {W : Type}

/-! ### The clock, for any user code -/

theorem pschedule_time (H : PHost W) (s : PSched) (w : W) (r : Ref) (wh : Option Time) (b : Bool) :
    (s.schedule H w r wh b).1.time = s.time := by
  simp only [PSched.schedule]
  split
  · split <;> rfl
  · rfl

/-- The log is in time order and ends before the clock. -/
def PPast (s : PSched) : Prop := Chronological s.log ∧ ∀ e ∈ s.log, e.time ≤ s.time

theorem PPast.snoc {s s' : PSched} (h : PPast s) {e : Ev} (hl : s'.log = s.log ++ [e]) (ht : s'.time = s.time)
    (he : e.time = s.time) : PPast s' := by
  refine ⟨?_, ?_⟩
  · rw [hl]; exact h.1.snoc (fun x hx => he ▸ h.2 x hx)
  · rw [hl, ht]
    intro x hx
    rcases List.mem_append.1 hx with hx | hx
    · exact h.2 x hx
    · rw [List.mem_singleton.1 hx, he]

theorem PPast.congr {s s' : PSched} (h : PPast s) (hl : s'.log = s.log) (ht : s'.time = s.time) : PPast s' := by
  refine ⟨hl ▸ h.1, ?_⟩
  rw [hl, ht]; exact h.2

theorem PPast.op {H : PHost W} {s : PSched} (h : PPast s) (w : W) (o : SOp) :
    PPast (s.applyOp H w o).1 ∧ (s.applyOp H w o).1.time = s.time := by
  cases o with
  | add r wh =>
    simp only [PSched.applyOp, PSched.addAgent]
    split
    · exact ⟨h.congr (pschedule_log _ _ _ _ _ _) (pschedule_time _ _ _ _ _ _), pschedule_time _ _ _ _ _ _⟩
    · refine ⟨h.snoc (e := .added r s.time) ?_ (pschedule_time _ _ _ _ _ _) rfl, pschedule_time _ _ _ _ _ _⟩
      simp only [pschedule_log]
  | remove r => exact ⟨h.congr rfl rfl, rfl⟩
  | stop => exact ⟨h.congr rfl rfl, rfl⟩

theorem PPast.ops {H : PHost W} {s : PSched} (h : PPast s) (w : W) (os : List SOp) :
    PPast (s.applyOps H w os).1 ∧ (s.applyOps H w os).1.time = s.time := by
  induction os generalizing s w with
  | nil => exact ⟨h, rfl⟩
  | cons o os ih =>
    simp only [PSched.applyOps]
    obtain ⟨h1, h2⟩ := h.op (H := H) w o
    split
    · exact ⟨h1, h2⟩
    · obtain ⟨h3, h4⟩ := ih h1 (s.applyOp H w o).2.1
      exact ⟨h3, h4.trans h2⟩

theorem PPast.loop {H : PHost W} (fuel : Nat) {s : PSched} (h : PPast s) (w : W) :
    PPast (pLoop H s.time fuel s w).1 ∧ (pLoop H s.time fuel s w).1.time = s.time ∧
    ((pLoop H s.time fuel s w).2.2.2 = .ok → s.time < (pLoop H s.time fuel s w).2.2.1 ∨
      (pLoop H s.time fuel s w).2.2.1 = .inf) := by
  induction fuel generalizing s w with
  | zero =>
    unfold pLoop
    split
    · exact ⟨h, rfl, fun _ => Or.inr rfl⟩
    · split
      · rename_i hlt; exact ⟨h, rfl, fun _ => Or.inl hlt⟩
      · exact ⟨h, rfl, fun hc => nomatch hc⟩
  | succ fuel ih =>
    unfold pLoop
    split
    · exact ⟨h, rfl, fun _ => Or.inr rfl⟩
    · rename_i e q hq
      split
      · rename_i hlt; exact ⟨h, rfl, fun _ => Or.inl hlt⟩
      · simp only
        obtain ⟨o1, o2⟩ := h.ops (H := H) (H.step e.ref s w).2.2 (H.step e.ref s w).2.1
        generalize hrep : (if (s.applyOps H (H.step e.ref s w).2.2 (H.step e.ref s w).2.1).2.2 = true
          then Reply.error else (H.step e.ref s w).1) = rep
        generalize s.applyOps H (H.step e.ref s w).2.2 (H.step e.ref s w).2.1 = ops at *
        have hact : ∀ x, PPast (ops.1.logAct e.ref s.time x) := fun x =>
          o1.snoc (e := .act e.ref s.time x) rfl rfl o2.symm
        have key : ∀ (s2 : PSched) (w2 : W), PPast s2 → s2.time = s.time →
            PPast (pLoop H s.time fuel s2 w2).1 ∧ (pLoop H s.time fuel s2 w2).1.time = s.time ∧
            ((pLoop H s.time fuel s2 w2).2.2.2 = .ok → s.time < (pLoop H s.time fuel s2 w2).2.2.1 ∨
              (pLoop H s.time fuel s2 w2).2.2.1 = .inf) := by
          intro s2 w2 h2 ht
          have := ih h2 w2
          rw [ht] at this
          exact this
        cases rep with
        | error => exact ⟨hact _, o2, fun hc => nomatch hc⟩
        | dead => exact key _ _ ((hact .dead).congr rfl rfl) o2
        | ret d =>
          simp only
          split
          · exact key _ _ ((hact (.ret d)).congr rfl rfl) o2
          · split
            · refine ⟨(hact (.ret d)).congr (pschedule_log _ _ _ _ _ _) (pschedule_time _ _ _ _ _ _), ?_,
                fun hc => nomatch hc⟩
              rw [pschedule_time]; exact o2
            · refine key _ _ ((hact (.ret d)).congr (pschedule_log _ _ _ _ _ _) (pschedule_time _ _ _ _ _ _)) ?_
              rw [pschedule_time]; exact o2

theorem PPast.exec {H : PHost W} (N : Nat) {sw : PSched × W} (h : PPast sw.1) (c : Cmd W) :
    PPast (c.pexec H N sw).1 ∧ sw.1.time ≤ (c.pexec H N sw).1.time := by
  obtain ⟨s, w⟩ := sw
  cases c with
  | step =>
    simp only [Cmd.pexec, PSched.step]
    split
    · exact ⟨h, le_rfl⟩
    · obtain ⟨h1, h2, h3⟩ := h.loop (H := H) N w
      generalize pLoop H s.time N s w = res at *
      obtain ⟨s1, w1, t, st⟩ := res
      cases st with
      | ok =>
        have hle : s.time ≤ t := by
          rcases h3 rfl with h3 | h3
          · exact le_of_lt h3
          · change t = .inf at h3; rw [h3]; exact Time.le_inf _
        refine ⟨⟨h1.1, fun e he => le_trans ?_ hle⟩, hle⟩
        have := h1.2 e he
        exact this.trans (le_of_eq h2)
      | raised => exact ⟨h1, le_of_eq h2.symm⟩
      | stuck => exact ⟨h1, le_of_eq h2.symm⟩
  | op o =>
    obtain ⟨h1, h2⟩ := h.op (H := H) w o
    exact ⟨h1, le_of_eq h2.symm⟩
  | world f => exact ⟨h, le_rfl⟩

theorem PPast.execAll {H : PHost W} (N : Nat) (h : List (Cmd W)) {sw : PSched × W} (hp : PPast sw.1) :
    PPast (pexecAll H N h sw).1 ∧ sw.1.time ≤ (pexecAll H N h sw).1.time := by
  induction h generalizing sw with
  | nil => exact ⟨hp, le_rfl⟩
  | cons c h ih =>
    obtain ⟨h1, h2⟩ := hp.exec (H := H) N c
    obtain ⟨h3, h4⟩ := ih h1
    exact ⟨h3, h2.trans h4⟩

/-- C236: the clock of `PQueueActivation` never goes backwards and its log is in time order, whatever the agents do: they
may reply negative delays, raise, add agents at any time. -/
theorem C236_clock (H : PHost W) (N : Nat) (iv : Time) (w0 : W) (h1 h2 : List (Cmd W)) :
    let s1 := (pexecAll H N h1 (PSched.init iv, w0)).1
    let s2 := (pexecAll H N (h1 ++ h2) (PSched.init iv, w0)).1
    s1.time ≤ s2.time ∧ Chronological s2.log ∧ ∀ e ∈ s2.log, e.time ≤ s2.time := by
  intro s1 s2
  have h0 : PPast (PSched.init iv) := ⟨List.Pairwise.nil, fun e he => by simp [PSched.init] at he⟩
  have a := (h0.execAll (H := H) (sw := (PSched.init iv, w0)) N h1).1
  have b := a.execAll (H := H) N h2
  rw [← pexecAll_append] at b
  exact ⟨b.2, b.1.1, b.1.2⟩

/-- Agents that add agents and ask for the past: the clock still advances. -/
def wildPHost : PHost Nat where
  step r _ w := (if w = 7 then .error else .ret (some (if w % 3 = 0 then .fin (-1) else .fin 2)),
    if w = 1 then [.add (r + 5) none] else [], w + 1)
  key r w := ((r : Nat), w)

set_option maxRecDepth 100000 in
example : ((preach wildPHost 9 1 0 [0, 1] [.step, .step, .step]).1.log.map Ev.time) =
      [0, 0, 0, 0, 0, 0, 0, 0, .fin 2, .fin 2, .fin 2, .fin 2, .fin 2, .fin 2] := by
  decide +kernel

/-! ### When an agent is woken -/

/-- When an agent that was activated at `t` and replied `rep` should be activated by a scheduler that does not go back in
time: not before `t`. -/
def lateWake (iv t : Time) (rep : Reply) : Option Time := (nextWake iv t rep).map (max t)

/-- The time line of an agent that is never activated in the past (compare `Timeline`). -/
inductive LateLine (iv : Time) : Option Time → List Ev → Option Time → Prop
  | nil (due) : LateLine iv due [] due
  | act {r t rep l due'} : LateLine iv (lateWake iv t rep) l due' → LateLine iv (some t) (.act r t rep :: l) due'

theorem LateLine.snoc {iv : Time} {a : Option Time} {l : List Ev} {r : Ref} {t : Time} {rep : Reply}
    (h : LateLine iv a l (some t)) : LateLine iv a (l ++ [.act r t rep]) (lateWake iv t rep) := by
  generalize hb : some t = b at h
  induction h with
  | nil due => subst hb; exact .act (.nil _)
  | act _ ih => exact .act (ih hb)

/-- What is in the heap for an agent: the times at which it will be activated. -/
def lateOf (s : PSched) (r : Ref) : List Time := (s.queue.filter (·.ref = r)).map (fun e => max s.time e.when_)

/-- The invariant, for the agent `r`. -/
structure LateInv (r : Ref) (iv : Time) (s : PSched) : Prop where
  heap : IsHeap PEntry.lt s.queue
  interval : s.interval = iv
  line : ∃ evs due, s.log.filter (·.ref = r) = .added r 0 :: evs ∧ LateLine iv (some 0) evs due ∧
    lateOf s r = due.toList

theorem LateInv.congr {r : Ref} {iv : Time} {s s' : PSched} (h : LateInv r iv s) (h1 : s'.queue = s.queue)
    (h2 : s'.interval = s.interval) (h3 : s'.log = s.log) (h4 : s'.time = s.time) : LateInv r iv s' := by
  refine ⟨h1 ▸ h.heap, h2.trans h.interval, ?_⟩
  rw [h3, lateOf, h1, h4]; exact h.line

theorem perm_toList {l : List Time} {o : Option Time} (h : l.Perm o.toList) : l = o.toList := by
  cases o with
  | none => exact h.eq_nil
  | some t => exact List.perm_singleton.1 h

/-- An activation of the head of the heap: `s'` is the state after it, in which the head has been replaced by `new`. -/
theorem LateInv.act {r : Ref} {iv : Time} {s s' : PSched} (h : LateInv r iv s) {e : PEntry} {q new : List PEntry} {rep : Reply}
    (hq : s.queue = e :: q) (hw : e.when_ ≤ s.time) (hheap : IsHeap PEntry.lt s'.queue) (hperm : s'.queue.Perm (new ++ q))
    (hnew : new.map (fun x => (x.ref, max s.time x.when_)) = ((lateWake iv s.time rep).map (e.ref, ·)).toList)
    (hi : s'.interval = s.interval) (hl : s'.log = s.log ++ [.act e.ref s.time rep]) (ht : s'.time = s.time) :
    LateInv r iv s' := by
  refine ⟨hheap, hi.trans h.interval, ?_⟩
  obtain ⟨evs, due, h1, h2, h3⟩ := h.line
  have hperm' : (lateOf s' r).Perm
      (((new.filter (·.ref = r)).map (fun e => max s.time e.when_)) ++ ((q.filter (·.ref = r)).map (fun e => max s.time e.when_))) := by
    rw [lateOf, ht]
    have := (hperm.filter (fun x => decide (x.ref = r))).map (fun e => max s.time e.when_)
    rwa [List.filter_append, List.map_append] at this
  have hn : (new.filter (·.ref = r)).map (fun e => max s.time e.when_)
      = if e.ref = r then (lateWake iv s.time rep).toList else [] := by
    have h4 : ((new.map (fun x => (x.ref, max s.time x.when_))).filter (fun p => decide (p.1 = r))).map Prod.snd
        = (new.filter (·.ref = r)).map (fun e => max s.time e.when_) := by
      rw [List.filter_map, List.map_map]; rfl
    rw [← h4, hnew]
    cases lateWake iv s.time rep with
    | none => simp
    | some u => by_cases he : e.ref = r <;> simp [he]
  rw [lateOf, hq] at h3
  by_cases he : e.ref = r
  · have hmax : max s.time e.when_ = s.time := max_eq_left hw
    rw [List.filter_cons_of_pos (by simp [he]), List.map_cons, hmax] at h3
    have hd : due = some s.time ∧ (q.filter (·.ref = r)).map (fun e => max s.time e.when_) = [] := by
      cases due with
      | none => cases h3
      | some t => simp only [Option.toList_some, List.cons.injEq] at h3; exact ⟨by rw [h3.1], h3.2⟩
    refine ⟨evs ++ [.act e.ref s.time rep], lateWake iv s.time rep, ?_, ?_, ?_⟩
    · rw [hl, List.filter_append, h1]
      simp [Ev.ref, he]
    · rw [hd.1] at h2; exact h2.snoc
    · rw [hn, if_pos he, hd.2, List.append_nil] at hperm'
      exact perm_toList hperm'
  · rw [List.filter_cons_of_neg (by simp [he])] at h3
    refine ⟨evs, due, ?_, h2, ?_⟩
    · rw [hl, List.filter_append, h1]
      simp [Ev.ref, he]
    · rw [hn, if_neg he, List.nil_append, h3] at hperm'
      exact perm_toList hperm'

/-- No activation ended with an unexpected exception. -/
def NoErrors (log : List Ev) : Prop := ∀ r t, Ev.act r t .error ∉ log

theorem LateInv.loop {H : PHost W} (hna : NoAdd H) {r : Ref} {iv : Time} (fuel : Nat) {s : PSched} (h : LateInv r iv s) (w : W)
    (hg : NoErrors (pLoop H s.time fuel s w).1.log) :
    LateInv r iv (pLoop H s.time fuel s w).1 ∧ (pLoop H s.time fuel s w).1.time = s.time ∧
    ((pLoop H s.time fuel s w).2.2.2 = .ok → s.time ≤ (pLoop H s.time fuel s w).2.2.1 ∧
      ∀ e ∈ (pLoop H s.time fuel s w).1.queue, (pLoop H s.time fuel s w).2.2.1 ≤ e.when_) := by
  have brk : ∀ (e : PEntry) (q : List PEntry), s.queue = e :: q → s.time < e.when_ →
      s.time ≤ e.when_ ∧ ∀ x ∈ s.queue, e.when_ ≤ x.when_ := by
    intro e q hq hlt
    refine ⟨le_of_lt hlt, ?_⟩
    have hh := h.heap
    rw [hq] at hh ⊢
    intro x hx
    exact PEntry.le_when (hh.head_le PEntry.weakOrder x hx)
  induction fuel generalizing s w with
  | zero =>
    unfold pLoop
    cases hq : s.queue with
    | nil => exact ⟨h, rfl, fun _ => ⟨Time.le_inf _, by simp [hq]⟩⟩
    | cons e q =>
      simp only
      split
      · rename_i hlt; exact ⟨h, rfl, fun _ => brk e q hq hlt⟩
      · exact ⟨h, rfl, fun hc => nomatch hc⟩
  | succ fuel ih =>
    unfold pLoop at hg ⊢
    cases hq : s.queue with
    | nil => exact ⟨h, rfl, fun _ => ⟨Time.le_inf _, by simp [hq]⟩⟩
    | cons e q =>
      simp only [hq] at hg ⊢
      by_cases hlt : s.time < e.when_
      · rw [if_pos hlt]; exact ⟨h, rfl, fun _ => brk e q hq hlt⟩
      · rw [if_neg hlt] at hg ⊢
        obtain ⟨o1, o2, o3, o4, o5, o6, o7⟩ := papplyOps_noadd H s (H.step e.ref s w).2.2
          (H.step e.ref s w).2.1 (hna e.ref s w)
        simp only [o1, Bool.false_eq_true, if_false] at hg ⊢
        generalize s.applyOps H (H.step e.ref s w).2.2 (H.step e.ref s w).2.1 = ops at *
        generalize (H.step e.ref s w).1 = rep at *
        have hle := not_lt.1 hlt
        have hheap : IsHeap PEntry.lt (e :: q) := hq ▸ h.heap
        have key : ∀ (s2 : PSched) (w2 : W), LateInv r iv s2 → s2.time = s.time →
            NoErrors (pLoop H s.time fuel s2 w2).1.log →
            LateInv r iv (pLoop H s.time fuel s2 w2).1 ∧ (pLoop H s.time fuel s2 w2).1.time = s.time ∧
            ((pLoop H s.time fuel s2 w2).2.2.2 = .ok → s.time ≤ (pLoop H s.time fuel s2 w2).2.2.1 ∧
              ∀ e ∈ (pLoop H s.time fuel s2 w2).1.queue, (pLoop H s.time fuel s2 w2).2.2.1 ≤ e.when_) := by
          intro s2 w2 h2 ht hg2
          rw [← ht] at hg2 ⊢
          refine ih h2 w2 hg2 ?_
          intro x y hxy hlt'
          refine ⟨le_of_lt hlt', ?_⟩
          have hh := h2.heap
          rw [hxy] at hh ⊢
          intro z hz
          exact PEntry.le_when (hh.head_le PEntry.weakOrder z hz)
        have hpop : ∀ x, nextWake iv s.time x = none → LateInv r iv (ops.1.logAct e.ref s.time x).pop := by
          intro x hx
          refine h.act (new := []) (rep := x) hq hle ?_ ?_ ?_ o6 ?_ o5
          · simp only [PSched.pop, PSched.logAct, o3, hq]; exact heappop_heap PEntry.weakOrder _ hheap
          · simp only [PSched.pop, PSched.logAct, o3, hq]; exact heappop_perm e q
          · simp [lateWake, hx]
          · simp [PSched.pop, PSched.logAct, o4]
        cases rep with
        | error => exact absurd (by simp [PSched.logAct]) (hg e.ref s.time)
        | dead => exact key _ _ (hpop .dead rfl) o5 hg
        | ret d =>
          have hwake : Time.pyOr d (ops.1.logAct e.ref s.time (.ret d)).interval + s.time = s.time + effDelay iv d := by
            rw [pyOr_eq_effDelay, time_add_comm]
            simp only [PSched.logAct, o6, h.interval]
          simp only [hwake] at hg ⊢
          by_cases hinf : s.time + effDelay iv d = .inf
          · rw [if_pos hinf] at hg ⊢
            exact key _ _ (hpop (.ret d) (by simp [nextWake, hinf])) o5 hg
          · rw [if_neg hinf] at hg ⊢
            have hqq : (ops.1.logAct e.ref s.time (.ret d)).queue = e :: q := by simp only [PSched.logAct, o3, hq]
            simp only [PSched.schedule, if_true, hqq, heapreplace, Bool.false_eq_true, if_false, Option.getD_some] at hg ⊢
            refine key _ _ ?_ o5 hg
            refine h.act (new := [⟨s.time + effDelay iv d, (H.key e.ref ops.2.1).1, e.ref⟩]) (rep := .ret d) hq hle ?_ ?_ ?_
              o6 ?_ o5
            · exact heapreplace_heap PEntry.weakOrder _ _ _ hheap rfl
            · exact siftup_perm _ e q
            · simp [lateWake, nextWake, hinf]
            · simp [PSched.logAct, o4]

theorem LateInv.step {H : PHost W} (hna : NoAdd H) {r : Ref} {iv : Time} (N : Nat) {s : PSched} (h : LateInv r iv s) (w : W)
    (hg : NoErrors (s.step H N w).1.log) : LateInv r iv (s.step H N w).1 := by
  unfold PSched.step at hg ⊢
  split
  · exact h
  · rename_i hinf
    rw [if_neg hinf] at hg
    have hg' : NoErrors (pLoop H s.time N s w).1.log := by
      revert hg
      simp only
      split <;> exact id
    obtain ⟨h1, h2, h3⟩ := h.loop hna N w hg'
    generalize pLoop H s.time N s w = res at *
    obtain ⟨s1, w1, t, st⟩ := res
    cases st with
    | ok =>
      obtain ⟨h4, h5⟩ := h3 rfl
      refine ⟨h1.heap, h1.interval, ?_⟩
      obtain ⟨evs, due, l1, l2, l3⟩ := h1.line
      refine ⟨evs, due, l1, l2, ?_⟩
      rw [← l3, lateOf, lateOf]
      apply List.map_congr_left
      intro x hx
      have hx' := h5 x (List.mem_of_mem_filter hx)
      change max t x.when_ = max s1.time x.when_
      change s1.time = s.time at h2
      rw [max_eq_right hx', h2, max_eq_right (h4.trans hx')]
    | raised => exact h1
    | stuck => exact h1

theorem NoErrors.prefix {l m : List Ev} (h : NoErrors (l ++ m)) : NoErrors l :=
  fun r t hm => h r t (List.mem_append_left _ hm)

theorem LateInv.execAll {H : PHost W} (hna : NoAdd H) {r : Ref} {iv : Time} (N : Nat) (h : List (Cmd W))
    (hh : ∀ c ∈ h, c.noAdd = true) {sw : PSched × W} (hi : LateInv r iv sw.1)
    (hg : NoErrors (pexecAll H N h sw).1.log) : LateInv r iv (pexecAll H N h sw).1 := by
  induction h generalizing sw with
  | nil => exact hi
  | cons c h ih =>
    have hg' : NoErrors (c.pexec H N sw).1.log := by
      obtain ⟨l, hl⟩ := pexecAll_log H N h (c.pexec H N sw)
      have : pexecAll H N (c :: h) sw = pexecAll H N h (c.pexec H N sw) := rfl
      rw [this, hl] at hg
      exact hg.prefix
    refine ih (fun x hx => hh x (List.mem_cons_of_mem _ hx)) ?_ hg
    have hc := hh c List.mem_cons_self
    obtain ⟨s, w⟩ := sw
    cases c with
    | step => exact hi.step hna N w hg'
    | op o =>
      cases o with
      | add r wh => cases hc
      | remove r => exact hi.congr rfl rfl rfl rfl
      | stop => exact hi.congr rfl rfl rfl rfl
    | world f => exact hi

theorem late_pop (H : PHost W) (N : Nat) (iv : Time) (w0 : W) (pop : List Ref) :
    let s := (pexecAll H N (popCmds pop) (PSched.init iv, w0)).1
    IsHeap PEntry.lt s.queue ∧ s.interval = iv ∧ s.time = 0 ∧ s.log = pop.map (Ev.added · 0) ∧
      (s.queue.map (fun e => (e.ref, e.when_))).Perm (pop.map (·, 0)) := by
  induction pop using List.reverseRecOn with
  | nil => exact ⟨IsHeap.nil _, rfl, rfl, rfl, List.Perm.refl _⟩
  | append_singleton pop r ih =>
    have hc : (popCmds (pop ++ [r]) : List (Cmd W)) = popCmds pop ++ [.op (.add r none)] := by simp [popCmds]
    rw [hc, pexecAll_append]
    generalize pexecAll H N (popCmds pop) (PSched.init iv, w0) = sw at ih ⊢
    obtain ⟨s, w⟩ := sw
    simp only at ih
    obtain ⟨h1, h2, h3, h4, h5⟩ := ih
    have ht : Time.truthy (0 : Time) = false := by decide +kernel
    simp only [pexecAll, List.foldl_cons, List.foldl_nil, Cmd.pexec, PSched.applyOp, PSched.addAgent, Option.getD_none, h3, ht,
      PSched.schedule, Bool.false_eq_true, if_false]
    refine ⟨heappush_heap PEntry.weakOrder _ _ h1, h2, trivial, by simp [h4], ?_⟩
    refine ((heappush_perm _ _).map _).trans ?_
    rw [List.map_cons, List.map_append]
    exact (h5.cons _).trans (List.perm_append_singleton _ _).symm

/-- C236: with a population added at time 0 and any delays, also negative ones, an agent is activated at 0, and after an
activation at `t` with the reply `d` next at exactly `t + d`, or at `t` itself if that is in the past; and this is what is
in the heap for it. (`N`, the bound on the activations of one step, is arbitrary: this holds in the middle of a step that
never ends, too.) -/
theorem C236_wakeups (H : PHost W) (hna : NoAdd H) (N : Nat) (iv : Time) (w0 : W) (pop : List Ref) (h : List (Cmd W))
    (hh : ∀ c ∈ h, c.noAdd = true) (hg : NoErrors (preach H N iv w0 pop h).1.log) (r : Ref) (hr : pop.count r = 1) :
    ∃ due evs, (preach H N iv w0 pop h).1.log.filter (·.ref = r) = .added r 0 :: evs ∧
      LateLine iv (some 0) evs due ∧ lateOf (preach H N iv w0 pop h).1 r = due.toList := by
  obtain ⟨k1, k2, k3, k4, k5⟩ := late_pop H N iv w0 pop
  have hstart : LateInv r iv (pexecAll H N (popCmds pop) (PSched.init iv, w0)).1 := by
    refine ⟨k1, k2, [], some 0, ?_, .nil _, ?_⟩
    · rw [k4]
      have := filter_pop pop r hr []
      simpa using this
    · have h6 := ((k5.filter (fun p => decide (p.1 = r))).map (fun p => max 0 p.2))
      rw [List.filter_map, List.map_map, List.filter_map, List.map_map] at h6
      have h7 : (pop.filter ((fun p => decide (p.1 = r)) ∘ fun x => (x, (0 : Time)))) = [r] := by
        have h2 : pop.filter (· == r) = List.replicate (pop.count r) r := List.filter_beq r
        rw [hr] at h2
        rw [← show List.replicate 1 r = [r] from rfl, ← h2]
        apply List.filter_congr
        intro x _
        by_cases hx : x = r <;> simp [hx]
      rw [h7] at h6
      have h8 : lateOf (pexecAll H N (popCmds pop) (PSched.init iv, w0)).1 r = _ := perm_toList (o := some (max 0 0)) (by
        rw [lateOf, k3]; exact h6)
      rw [h8]; rfl
  rw [preach, pexecAll_append] at hg ⊢
  obtain ⟨evs, due, l1, l2, l3⟩ := (hstart.execAll hna N h hh hg).line
  exact ⟨due, evs, l1, l2, l3⟩

/-- Agent 0 waits 3, then asks for the time 1, then waits 2; agent 1 waits 2 every time. -/
def backPHost : PHost Nat where
  step r _ w := (.ret (some (if r = 1 then .fin 2 else if w = 0 then .fin 3 else if w = 1 then .fin (-2) else .fin 2)), [],
    if r = 0 then w + 1 else w)
  key r w := ((r : Nat), w)

theorem backPHost_noAdd : NoAdd backPHost := by
  intro r s w q wh
  simp [backPHost]

set_option maxRecDepth 100000 in
example : NoErrors (preach backPHost 5 1 0 [0, 1] [.step, .step, .step, .step]).1.log ∧
    ((preach backPHost 5 1 0 [0, 1] [.step, .step, .step, .step]).1.log.filter (·.ref = 0)).map Ev.time
      = [0, 0, .fin 3, .fin 3] ∧
    (preach backPHost 5 1 0 [0, 1] [.step, .step, .step, .step]).1.time = .fin 5 := by
  refine ⟨?_, by decide +kernel, by decide +kernel⟩
  have h : ∀ e ∈ (preach backPHost 5 1 0 [0, 1] [.step, .step, .step, .step]).1.log,
    e ≠ .act e.ref e.time .error := by decide +kernel
  intro r t hm
  exact h _ hm rfl

/-- C236, the contrast with `TimedActivation` (`C235_exact_partial`): the wake-up is not when it was asked for; the agent that
was activated at 3 and asked for `3 - 2` is activated at 3 again. -/
theorem C236_exact_false :
    ∃ (H : PHost Nat) (pop : List Ref) (h : List (Cmd Nat)) (l : List Ev), NoAdd H ∧ pop.count 0 = 1 ∧
      (preach H 5 1 0 pop h).1.log.filter (·.ref = 0) =
        l ++ [.act 0 (.fin 3) (.ret (some (.fin (-2)))), .act 0 (.fin 3) (.ret (some (.fin 2)))] :=
  ⟨backPHost, [0, 1], [.step, .step, .step, .step], [.added 0 0, .act 0 0 (.ret (some (.fin 3)))], backPHost_noAdd, by decide,
    by decide +kernel⟩

/-- An agent that always replies −1. -/
def negPHost : PHost Unit where
  step _ _ _ := (.ret (some (.fin (-1))), [], ())
  key r w := ((r : Nat), w)

/-- Its scheduler before the first step. -/
def negStart : PSched where
  time := 0
  steps := 0
  queue := [⟨0, 0, 0⟩]
  agents := [0]
  interval := 1
  running := true
  log := [.added 0 0]

theorem neg_loop (fuel : Nat) (s : PSched) (hi : s.interval = 1) (e : PEntry) (hq : s.queue = [e]) (hw : e.when_ ≤ 0) :
    (pLoop negPHost 0 fuel s ()).2.2.2 = .stuck := by
  induction fuel generalizing s e with
  | zero =>
    unfold pLoop
    simp only [hq, if_neg (not_lt.2 hw)]
  | succ fuel ih =>
    unfold pLoop
    have h1 : Time.pyOr (some (.fin (-1))) 1 + 0 = Time.fin (-1) := by decide +kernel
    have h2 : Time.fin (-1) ≤ 0 := by decide +kernel
    simp only [hq, if_neg (not_lt.2 hw), negPHost, PSched.applyOps, PSched.logAct, Bool.false_eq_true, if_false, hi, h1,
      reduceCtorEq, PSched.schedule, if_true, heapreplace]
    refine ih _ rfl ⟨.fin (-1), ((e.ref : Nat) : Rat), e.ref⟩ ?_ h2
    exact List.perm_singleton.1 (siftup_perm (lt := PEntry.lt) ⟨.fin (-1), ((e.ref : Nat) : Rat), e.ref⟩ e [])

/-- C236, the other side: with an agent that always asks for the past a single step never ends. -/
theorem C236_endless_false (N : Nat) :
    ((preach negPHost N 1 () [0] []).1.step negPHost N ()).2.2 = .stuck := by
  have h0 : (preach negPHost N 1 () [0] []).1 = negStart := by
    have : ∀ N, (preach negPHost N 1 () [0] []).1 = (preach negPHost 0 1 () [0] []).1 := fun _ => rfl
    rw [this]
    decide +kernel
  have h1 := neg_loop N negStart rfl ⟨0, 0, 0⟩ rfl le_rfl
  rw [h0, PSched.step, if_neg (by decide +kernel)]
  have h2 : (pLoop negPHost negStart.time N negStart ()).2.2.2 = .stuck := h1
  simp only [h2]

end Verif
