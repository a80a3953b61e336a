import Verif.Props.PQueue

/-!
# The priority queue of `PQueueActivation` (C87, C88)
-/

namespace Verif
open Spec

variable {W : Type}

/-- What the operations of `heapq` preserve, for entries with keys drawn by the host, every history preserves. -/
structure QueueClosed (H : PHost W) (P : List PEntry → Prop) : Prop where
  push : ∀ q t r w, P q → P (heappush PEntry.lt q ⟨t, (H.key r w).1, r⟩)
  replace : ∀ q q' t r w, P q → heapreplace PEntry.lt q ⟨t, (H.key r w).1, r⟩ = some q' → P q'
  pop : ∀ q, P q → P (heappop PEntry.lt q)

section
variable {H : PHost W} {P : List PEntry → Prop}

theorem QueueClosed.schedule (hc : QueueClosed H P) (s : PSched) (w : W) (r : Ref) (wh : Option Time) (b : Bool)
    (h : P s.queue) : P (s.schedule H w r wh b).1.queue := by
  simp only [PSched.schedule]
  by_cases hb : b = true
  · rw [if_pos hb]
    cases hr : heapreplace PEntry.lt s.queue ⟨wh.getD s.time, (H.key r w).1, r⟩ with
    | none => exact h
    | some q => exact hc.replace _ _ _ _ _ h hr
  · rw [if_neg hb]
    exact hc.push _ _ _ _ h

theorem QueueClosed.op (hc : QueueClosed H P) (s : PSched) (w : W) (o : SOp) (h : P s.queue) :
    P (s.applyOp H w o).1.queue := by
  cases o with
  | remove r => exact h
  | stop => exact h
  | add r wh =>
    simp only [PSched.applyOp, PSched.addAgent]
    split
    · exact hc.schedule s w r none _ h
    · exact hc.schedule s w r none _ h

theorem QueueClosed.ops (hc : QueueClosed H P) (os : List SOp) (s : PSched) (w : W) (h : P s.queue) :
    P (s.applyOps H w os).1.queue := by
  induction os generalizing s w with
  | nil => exact h
  | cons o os ih =>
    simp only [PSched.applyOps]
    split
    · exact hc.op s w o h
    · exact ih _ _ (hc.op s w o h)

theorem QueueClosed.loop (hc : QueueClosed H P) (now : Time) (fuel : Nat) (s : PSched) (w : W) (h : P s.queue) :
    P (pLoop H now fuel s w).1.queue := by
  induction fuel generalizing s w with
  | zero =>
    unfold pLoop
    split
    · exact h
    · split <;> exact h
  | succ fuel ih =>
    unfold pLoop
    split
    · exact h
    · rename_i e q hq
      split
      · exact h
      · simp only
        have ho := hc.ops (H.step e.ref s w).2.1 s (H.step e.ref s w).2.2 h
        generalize (if (s.applyOps H (H.step e.ref s w).2.2 (H.step e.ref s w).2.1).2.2 = true
          then Reply.error else (H.step e.ref s w).1) = rep
        generalize s.applyOps H (H.step e.ref s w).2.2 (H.step e.ref s w).2.1 = ops at *
        cases rep with
        | error => exact ho
        | dead => exact ih _ _ (hc.pop _ ho)
        | ret d =>
          simp only
          split
          · exact ih _ _ (hc.pop _ ho)
          · have hs : ∀ w' wh, P ((ops.1.logAct e.ref now (.ret d)).schedule H w' e.ref wh true).1.queue :=
              fun w' wh => hc.schedule _ w' e.ref wh true ho
            split
            · exact hs _ _
            · exact ih _ _ (hs _ _)

theorem QueueClosed.step (hc : QueueClosed H P) (fuel : Nat) (s : PSched) (w : W) (h : P s.queue) :
    P (s.step H fuel w).1.queue := by
  have hl := hc.loop s.time fuel s w h
  unfold PSched.step
  split
  · exact h
  · simp only
    split <;> exact hl

theorem QueueClosed.execAll (hc : QueueClosed H P) (fuel : Nat) (hist : List (Cmd W)) (sw : PSched × W) (h : P sw.1.queue) :
    P (pexecAll H fuel hist sw).1.queue := by
  induction hist generalizing sw with
  | nil => exact h
  | cons c hist ih =>
    apply ih (c.pexec H fuel sw)
    cases c with
    | step => exact hc.step fuel sw.1 sw.2 h
    | op o => exact hc.op sw.1 sw.2 o h
    | world f => exact h

end

theorem heap_closed (H : PHost W) : QueueClosed H (IsHeap PEntry.lt) where
  push q _ _ _ h := heappush_heap PEntry.weakOrder q _ h
  replace q q' _ _ _ h hr := heapreplace_heap PEntry.weakOrder q q' _ h hr
  pop q h := heappop_heap PEntry.weakOrder q h

/-- C87: whatever user code does, additions, deaths and exceptions included, the entry at the front of the queue is always
the earliest one, and among the earliest the one with the least key. -/
theorem C87_head_is_least (H : PHost W) (N : Nat) (iv : Time) (w0 : W) (hist : List (Cmd W)) (e : PEntry) (q : List PEntry)
    (hq : (pexecAll H N hist (PSched.init iv, w0)).1.queue = e :: q) :
    ∀ x ∈ q, e.when_ < x.when_ ∨ (e.when_ = x.when_ ∧ e.key ≤ x.key) := by
  intro x hx
  have hh := (heap_closed H).execAll N hist (PSched.init iv, w0) (IsHeap.nil _)
  rw [hq] at hh
  have h := hh.head_le PEntry.weakOrder x (List.mem_cons_of_mem _ hx)
  have hle := PEntry.le_when h
  rcases lt_or_eq_of_le hle with h1 | h1
  · exact Or.inl h1
  · refine Or.inr ⟨h1, ?_⟩
    simp only [PEntry.lt, Bool.or_eq_false_iff, Bool.and_eq_false_iff, decide_eq_false_iff_not, not_lt] at h
    exact h.2.resolve_left (fun hn => hn h1.symm)

/-- C87: the operations on the queue lose and duplicate nothing: `heappush` adds the entry, `heappop` takes out the first one,
`heapreplace` does both. -/
theorem C87_contents {α : Type} (lt : α → α → Bool) (e : α) (q : List α) (item : α) :
    (heappush lt (e :: q) item).Perm (item :: e :: q) ∧ (heappop lt (e :: q)).Perm q ∧
    ∃ h, heapreplace lt (e :: q) item = some h ∧ h.Perm (item :: q) :=
  ⟨heappush_perm _ _, heappop_perm _ _, heapreplace_perm _ _ _⟩

/-- Agent `r` waits `(7 * r) % 5 + 1`; the keys decrease. -/
def heapHost : PHost Nat where
  step r _ w := (.ret (some (.fin ((7 * r) % 5 + 1 : Nat))), if w = 20 then [.add 9 none] else [], w + 1)
  key _ w := (-(w : Rat), w + 1)

example : (pexecAll heapHost 9 (popCmds [0, 1, 2, 3, 4, 5] ++ [.step, .step, .op (.add 7 none), .step])
    (PSched.init 1, 0)).1.queue.map (fun x => (x.ref, x.when_)) = [(0, 3), (1, 3), (2, 5), (3, 4), (4, 4), (7, 7)] := by
  decide +kernel

example : heappop (fun a b : Nat => decide (a < b)) (heappush (fun a b => decide (a < b)) [2, 4, 3, 9, 5] 1) = [2, 4, 3, 9, 5] ∧
    heapreplace (fun a b : Nat => decide (a < b)) [2, 4, 3, 9, 5] 7 = some [3, 4, 7, 9, 5] := by
  decide +kernel

/-! ### C88 -/

/-- Every entry has the key that belongs to its agent. -/
def KeysOf (k : Ref → Rat) (q : List PEntry) : Prop := ∀ e ∈ q, e.key = k e.ref

theorem keys_closed {H : PHost W} {k : Ref → Rat} (hk : ∀ r w, (H.key r w).1 = k r) : QueueClosed H (KeysOf k) where
  push q t r w h := by
    intro e he
    rcases List.mem_cons.1 ((heappush_perm _ _).mem_iff.1 he) with rfl | he
    · exact hk r w
    · exact h e he
  replace q q' t r w h hr := by
    intro e he
    cases q with
    | nil => cases hr
    | cons x q =>
      cases hr
      rcases List.mem_cons.1 ((siftup_perm _ _ _).mem_iff.1 he) with rfl | he
      · exact hk r w
      · exact h e (List.mem_cons_of_mem _ he)
  pop q h := by
    intro e he
    cases q with
    | nil => simp [heappop] at he
    | cons x q => exact h e (List.mem_cons_of_mem _ ((heappop_perm _ _).mem_iff.1 he))

theorem pLoop_order {H : PHost W} {k : Ref → Rat} (hk : ∀ r w, (H.key r w).1 = k r) (hna : NoAdd H) (fuel : Nat) (s : PSched) (w : W)
    (h : PInv s) (hkey : KeysOf k s.queue) (hg : GoodLog (pLoop H s.time fuel s w).1.log) :
    ∃ l, (pLoop H s.time fuel s w).1.log = s.log ++ l ∧
      (actRefs l).Pairwise (fun a b => k a ≤ k b) ∧
      ∀ r ∈ actRefs l, ∃ x ∈ s.queue, x.ref = r ∧ x.when_ = s.time := by
  induction fuel generalizing s w with
  | zero =>
    unfold pLoop
    split
    · exact ⟨[], by simp [actRefs]⟩
    · split <;> exact ⟨[], by simp [actRefs]⟩
  | succ fuel ih =>
    have hg0 := hg
    unfold pLoop at hg ⊢
    cases hq : s.queue with
    | nil => exact ⟨[], by simp [actRefs]⟩
    | cons e q =>
      simp only [hq] at hg ⊢
      by_cases hlt : s.time < e.when_
      · rw [if_pos hlt]
        exact ⟨[], by simp [actRefs]⟩
      · rw [if_neg hlt] at hg ⊢
        have he : e.when_ = s.time := le_antisymm (not_lt.1 hlt) (h.ge e (by simp [hq]))
        have hleast : ∀ x ∈ q, x.when_ = s.time → k e.ref ≤ k x.ref := by
          intro x hx hw
          have hh := h.heap
          rw [hq] at hh
          have hl := hh.head_le PEntry.weakOrder x (List.mem_cons_of_mem _ hx)
          simp only [PEntry.lt, Bool.or_eq_false_iff, Bool.and_eq_false_iff, decide_eq_false_iff_not, not_lt] at hl
          have := hl.2.resolve_left (fun hn => hn (hw.trans he.symm))
          rw [hkey e (by simp [hq]), hkey x (by simp [hq, hx])] at this
          exact this
        obtain ⟨o1, o2, o3, o4, o5, o6, o7⟩ := papplyOps_noadd H s (H.step e.ref s w).2.2
          (H.step e.ref s w).2.1 (hna e.ref s w)
        rw [o1] at hg ⊢
        simp only [Bool.false_eq_true, if_false] at hg ⊢
        generalize s.applyOps H (H.step e.ref s w).2.2 (H.step e.ref s w).2.1 = ops at *
        have hops : PInv ops.1 := h.congr o6 o3 o4 o5
        have hqo : ops.1.queue = e :: q := o3.trans hq
        have heo : e.when_ = ops.1.time := he.trans o5.symm
        have hkeyo : KeysOf k ops.1.queue := by rw [o3]; exact hkey
        generalize (H.step e.ref s w).1 = rep at *
        -- what remains to do once the rest of the loop is known
        have fin : ∀ (s2 : PSched) (L : List Ev), s2.log = s.log ++ [.act e.ref s.time rep] → s2.time = s.time →
            (∀ x ∈ s2.queue, x.when_ = s.time → x ∈ q) →
            (∃ l, L = s2.log ++ l ∧ (actRefs l).Pairwise (fun a b => k a ≤ k b) ∧
              ∀ r ∈ actRefs l, ∃ x ∈ s2.queue, x.ref = r ∧ x.when_ = s2.time) →
            ∃ l, L = s.log ++ l ∧ (actRefs l).Pairwise (fun a b => k a ≤ k b) ∧
              ∀ r ∈ actRefs l, ∃ x ∈ e :: q, x.ref = r ∧ x.when_ = s.time := by
          rintro s2 L hlog ht hsub ⟨l, h1, h2, h3⟩
          refine ⟨.act e.ref s.time rep :: l, by rw [h1, hlog]; simp, ?_, ?_⟩
          · show (e.ref :: actRefs l).Pairwise _
            rw [List.pairwise_cons]
            refine ⟨?_, h2⟩
            intro r hr
            obtain ⟨x, hx, rfl, hw⟩ := h3 r hr
            exact hleast x (hsub x hx (hw.trans ht)) (hw.trans ht)
          · intro r hr
            rcases List.mem_cons.1 (show r ∈ e.ref :: actRefs l from hr) with rfl | hr
            · exact ⟨e, List.mem_cons_self, rfl, he⟩
            · obtain ⟨x, hx, hxr, hw⟩ := h3 r hr
              exact ⟨x, List.mem_cons_of_mem _ (hsub x hx (hw.trans ht)), hxr, hw.trans ht⟩
        have hpopq : ∀ x ∈ (ops.1.logAct e.ref s.time rep).pop.queue, x ∈ q := by
          intro x hx
          simp only [PSched.pop, PSched.logAct, hqo] at hx
          exact (heappop_perm _ _).mem_iff.1 hx
        have hlogp : (ops.1.logAct e.ref s.time rep).log = s.log ++ [.act e.ref s.time rep] := by
          simp [PSched.logAct, o4]
        cases rep with
        | error =>
          exfalso
          simp only [PSched.logAct] at hg
          exact hg (.act e.ref s.time .error) (by simp)
        | dead =>
          simp only at hg ⊢
          have hi := hops.act_pop (rep := .dead) hqo heo rfl
          rw [o5] at hi
          have ht : (ops.1.logAct e.ref s.time .dead).pop.time = s.time := o5
          apply fin (ops.1.logAct e.ref s.time .dead).pop _ hlogp ht (fun x hx _ => hpopq x hx)
          have := ih _ ops.2.1 hi ((keys_closed hk).pop _ hkeyo) (by rw [ht]; exact hg)
          rw [ht] at this ⊢
          exact this
        | ret d =>
          simp only at hg ⊢
          have hiv : (ops.1.logAct e.ref s.time (.ret d)).interval = s.interval := o6
          rw [hiv, pyOr_eq_effDelay, time_add_comm] at hg ⊢
          by_cases hinf : s.time + effDelay s.interval d = .inf
          · rw [if_pos hinf] at hg ⊢
            have hi := hops.act_pop (rep := .ret d) hqo heo (by rw [o5, o6]; simp [nextWake, hinf])
            rw [o5] at hi
            have ht : (ops.1.logAct e.ref s.time (.ret d)).pop.time = s.time := o5
            apply fin (ops.1.logAct e.ref s.time (.ret d)).pop _ hlogp ht (fun x hx _ => hpopq x hx)
            have := ih _ ops.2.1 hi ((keys_closed hk).pop _ hkeyo) (by rw [ht]; exact hg)
            rw [ht] at this ⊢
            exact this
          · rw [if_neg hinf] at hg ⊢
            have hsch : (ops.1.logAct e.ref s.time (.ret d)).schedule H ops.2.1 e.ref
                (some (s.time + effDelay s.interval d)) true
              = ({ ops.1.logAct e.ref s.time (.ret d) with
                    queue := siftup PEntry.lt ⟨s.time + effDelay s.interval d, (H.key e.ref ops.2.1).1, e.ref⟩ (e :: q) },
                 (H.key e.ref ops.2.1).2, false) := by
              simp only [PSched.schedule, if_true, PSched.logAct, hqo, Option.getD_some, heapreplace]
            rw [hsch] at hg ⊢
            simp only [Bool.false_eq_true, if_false] at hg ⊢
            have hgood : GoodReply (.ret d) := by
              obtain ⟨l, hl⟩ := pLoop_log H s.time fuel
                { ops.1.logAct e.ref s.time (.ret d) with
                    queue := siftup PEntry.lt ⟨s.time + effDelay s.interval d, (H.key e.ref ops.2.1).1, e.ref⟩ (e :: q) }
                (H.key e.ref ops.2.1).2
              rw [hl] at hg
              exact hg (.act e.ref s.time (.ret d)) (by simp [PSched.logAct])
            have hw : nextWake s.interval s.time (.ret d) = some (s.time + effDelay s.interval d) := by
              simp [nextWake, hinf]
            obtain ⟨hgt, hni⟩ := nextWake_gt h.iv_pos hgood hw
            have hi := hops.act_replace (rep := .ret d) hqo heo (by rw [o5, o6]; exact hw)
              (by rw [o5]; exact hgt) hni (H.key e.ref ops.2.1).1
            rw [o5] at hi
            have hks : KeysOf k (siftup PEntry.lt ⟨s.time + effDelay s.interval d, (H.key e.ref ops.2.1).1, e.ref⟩ (e :: q)) :=
              (keys_closed hk).replace (e :: q) _ _ e.ref ops.2.1 (hqo ▸ hkeyo) rfl
            refine fin { ops.1.logAct e.ref s.time (.ret d) with
                    queue := siftup PEntry.lt ⟨s.time + effDelay s.interval d, (H.key e.ref ops.2.1).1, e.ref⟩ (e :: q) }
              _ hlogp o5 ?_ ?_
            · intro x hx hxw
              rcases List.mem_cons.1 ((siftup_perm _ _ _).mem_iff.1 hx) with rfl | hx
              · exact absurd hxw (ne_of_gt hgt)
              · exact hx
            · have := ih _ (H.key e.ref ops.2.1).2 hi hks (by
                have ht : ({ ops.1.logAct e.ref s.time (.ret d) with
                    queue := siftup PEntry.lt ⟨s.time + effDelay s.interval d, (H.key e.ref ops.2.1).1, e.ref⟩ (e :: q) } : PSched).time
                  = s.time := o5
                rw [ht]; exact hg)
              have ht : ({ ops.1.logAct e.ref s.time (.ret d) with
                    queue := siftup PEntry.lt ⟨s.time + effDelay s.interval d, (H.key e.ref ops.2.1).1, e.ref⟩ (e :: q) } : PSched).time
                  = s.time := o5
              rw [ht] at this
              obtain ⟨l, h1, h2, h3⟩ := this
              refine ⟨l, h1, h2, fun r hr => ?_⟩
              obtain ⟨x, hx, hxr, hxw⟩ := h3 r hr
              exact ⟨x, hx, hxr, hxw.trans o5.symm⟩

/-- C88: without shuffling (the key of an agent is its id), the agents that a step runs are run in the order of their ids. -/
theorem C88_ordered_by_id (H : PHost W) (hna : NoAdd H) (uid : Ref → Rat) (hk : ∀ r w, (H.key r w).1 = uid r) (N : Nat) (iv : Time)
    (hiv : 0 < iv) (w0 : W) (pop : List Ref) (h : List (Cmd W)) (hh : ∀ c ∈ h, c.noAdd = true) (hN : pop.length ≤ N)
    (hg : GoodLog (preach H N iv w0 pop (h ++ [.step])).1.log) :
    ∃ evs, (preach H N iv w0 pop (h ++ [.step])).1.log = (preach H N iv w0 pop h).1.log ++ evs ∧
      (actRefs evs).Pairwise (fun a b => uid a ≤ uid b) := by
  have hsnoc : preach H N iv w0 pop (h ++ [.step]) = Cmd.pexec H N .step (preach H N iv w0 pop h) := by
    show pexecAll H N (popCmds pop ++ (h ++ [.step])) _ = _
    rw [← List.append_assoc, pexecAll_append]; rfl
  have hs' : (preach H N iv w0 pop (h ++ [.step])).1
      = ((preach H N iv w0 pop h).1.step H N (preach H N iv w0 pop h).2).1 := by rw [hsnoc]; rfl
  have hkeys : KeysOf uid (preach H N iv w0 pop h).1.queue := (keys_closed hk).execAll N (popCmds pop ++ h) (PSched.init iv, w0) (by intro e he; cases he)
  rw [hs'] at hg ⊢
  have hg0 : GoodLog (preach H N iv w0 pop h).1.log := by
    obtain ⟨l, hl⟩ := pstep_log H N (preach H N iv w0 pop h).1 (preach H N iv w0 pop h).2
    rw [hl] at hg; exact hg.prefix
  obtain ⟨hi, _, _, _, _⟩ := preach_post hna hiv hh hN hg0
  generalize preach H N iv w0 pop h = sw at *
  unfold PSched.step at hg ⊢
  by_cases hinf : sw.1.time = .inf
  · simp only [if_pos hinf]
    exact ⟨[], by simp [actRefs]⟩
  · simp only [if_neg hinf] at hg ⊢
    have hg' : GoodLog (pLoop H sw.1.time N sw.1 sw.2).1.log := by
      cases hst : (pLoop H sw.1.time N sw.1 sw.2).2.2.2 <;> simp only [hst] at hg <;> exact hg
    obtain ⟨l, h1, h2, _⟩ := pLoop_order hk hna N sw.1 sw.2 hi hkeys hg'
    refine ⟨l, ?_, h2⟩
    cases hst : (pLoop H sw.1.time N sw.1 sw.2).2.2.2 <;> simp only <;> exact h1

/-- Ids in the opposite order of creation. -/
def byId : PHost Unit where
  step r _ _ := (.ret (some (if r % 2 = 0 then 1 else 2)), [], ())
  key r _ := (100 - r, ())

example : GoodLog (preach byId 9 1 () [0, 1, 2, 3, 4] ([.step, .step] ++ [.step])).1.log ∧
    actRefs (preach byId 9 1 () [0, 1, 2, 3, 4] ([.step, .step] ++ [.step])).1.log =
      [4, 3, 2, 1, 0, 4, 2, 0, 4, 3, 2, 1, 0] := by
  decide +kernel

end Verif
