import Verif.Model.ExNoop
import Verif.Proofs.PQueue
import Mathlib.Algebra.BigOperators.Group.List.Basic
import Mathlib.Tactic.Ring
import Mathlib.Tactic.Positivity

/-!
# C162: the benchmarks count every activation
-/

namespace Verif

/-- How long an agent of the kind waits. -/
def NoopKind.wait (k : NoopKind) (iv : Rat) : Rat := match k with
  | .step => iv
  | _ => 1

/-- All agents are of the kind, alive, and in a state from which `step` can go on. -/
structure NoopOk (k : NoopKind) (n : Nat) (w : AWorld NoopU Unit) : Prop where
  len : w.agents.length = n
  all : ∀ a ∈ w.agents, a.kind = k.kind ∧ (a.co = .none ∨ ∃ l, a.co = .susp (k.fn, l))

theorem noopWorld_ok (k : NoopKind) (n : Nat) : NoopOk k n (noopWorld k n) := by
  refine ⟨by simp [noopWorld], ?_⟩
  intro a ha
  rw [List.eq_of_mem_replicate ha]
  exact ⟨rfl, Or.inl rfl⟩

theorem NoopOk.modify {k : NoopKind} {n : Nat} {w : AWorld NoopU Unit} (h : NoopOk k n w) (r : Ref) (c : Co (Nat × Unit))
    (hc : c = .none ∨ ∃ l, c = .susp (k.fn, l)) (u : NoopU) (g : List GEv) :
    NoopOk k n ⟨w.agents.modify r (fun a => { a with co := c }), u, g⟩ := by
  refine ⟨by simp [h.len], ?_⟩
  intro a ha
  obtain ⟨i, hi⟩ := List.mem_iff_getElem?.1 ha
  rw [List.getElem?_modify] at hi
  cases hb : w.agents[i]? with
  | none => rw [hb] at hi; cases hi
  | some b =>
    rw [hb] at hi
    have hb' := h.all b (List.mem_of_getElem? hb)
    by_cases hri : r = i
    · simp only [hri, if_true, Option.map_eq_map, Option.map_some, Option.some.injEq] at hi
      rw [← hi]
      exact ⟨hb'.1, hc⟩
    · simp only [hri, if_false, Option.map_eq_map, Option.map_some, id, Option.some.injEq] at hi
      rw [← hi]
      exact hb'

/-- One activation. -/
theorem noop_step (σ : Nat → List Ref → List Ref) (hσ : ∀ n l, (σ n l).Perm l) (k : NoopKind) (n : Nat) (w : AWorld NoopU Unit)
    (h : NoopOk k n w) (r : Ref) (hr : r < n) (s : Sched) (iv : Rat) :
    ∃ d w', stepAgent (noopCode σ hσ) r s w = (.ret d, [], w') ∧ Time.pyOr d (.fin iv) = .fin (k.wait iv) ∧ NoopOk k n w' ∧
      w'.u = { w.u with calls := fun q => if q = r then w.u.calls q + 1 else w.u.calls q } := by
  have hlt : r < w.agents.length := by rw [h.len]; exact hr
  obtain ⟨hk, hco⟩ := h.all w.agents[r] (List.getElem_mem hlt)
  unfold stepAgent
  rw [List.getElem?_eq_getElem hlt]
  generalize w.agents[r] = a at *
  simp only [hk]
  cases k with
  | step =>
    refine ⟨none, _, rfl, rfl, ?_, rfl⟩
    exact ⟨h.len, h.all⟩
  | gens =>
    rcases hco with hco | ⟨l, hco⟩
    · simp only [NoopKind.kind, hco]
      refine ⟨some 1, _, rfl, rfl, ?_, rfl⟩
      exact h.modify r _ (Or.inr ⟨(), rfl⟩) _ _
    · simp only [NoopKind.kind, hco]
      refine ⟨some 1, _, rfl, rfl, ?_, rfl⟩
      exact h.modify r _ (Or.inr ⟨(), rfl⟩) _ _
  | async =>
    rcases hco with hco | ⟨l, hco⟩
    · simp only [NoopKind.kind, hco]
      refine ⟨some 1, _, rfl, rfl, ?_, rfl⟩
      exact h.modify r _ (Or.inr ⟨(), rfl⟩) _ _
    · simp only [NoopKind.kind, hco]
      refine ⟨some 1, _, rfl, rfl, ?_, rfl⟩
      exact h.modify r _ (Or.inr ⟨(), rfl⟩) _ _

/-- A calendar with one entry for all the agents. -/
def oneBucket (t : Time) (l : List Ref) : List (Time × List Ref) := if l = [] then [] else [(t, l)]

theorem insertBucket_one (t : Time) (r : Ref) (l : List Ref) : insertBucket t r (oneBucket t l) = oneBucket t (l ++ [r]) := by
  unfold oneBucket
  by_cases h : l = []
  · subst h
    rfl
  · simp [h, insertBucket]

theorem oneBucket_head (t : Time) (l : List Ref) (h : l ≠ []) : headTime (oneBucket t l) = t := by
  simp [oneBucket, h, headTime]

section Timed

variable (σ : Nat → List Ref → List Ref) (hσ : ∀ n l, (σ n l).Perm l)

theorem noop_bucket (k : NoopKind) (n : Nat) (iv T : Rat) (hT : 0 ≤ T) (hD : 0 < k.wait iv) (l : List Ref) (hl : ∀ r ∈ l, r < n) (s : Sched)
    (w : AWorld NoopU Unit) (hs : s.interval = .fin iv) (l0 : List Ref) (hq : s.queue = oneBucket (.fin (k.wait iv + T)) l0)
    (hw : NoopOk k n w) :
    ∃ s' w', runBucket (agentHost (noopCode σ hσ)) (.fin T) l s w = (s', w', false) ∧
      s'.queue = oneBucket (.fin (k.wait iv + T)) (l0 ++ l) ∧ s'.interval = s.interval ∧ s'.time = s.time ∧ s'.steps = s.steps ∧
      s'.shuffle = s.shuffle ∧ s'.running = s.running ∧ s'.agents = s.agents ∧ NoopOk k n w' ∧
      ∀ q, w'.u.calls q = w.u.calls q + l.count q := by
  induction l generalizing s w l0 with
  | nil => exact ⟨s, w, rfl, by simpa using hq, rfl, rfl, rfl, rfl, rfl, rfl, hw, by simp⟩
  | cons r l ih =>
    obtain ⟨d, w1, h1, h2, h3, h4⟩ := noop_step σ hσ k n w hw r (hl r (by simp)) s iv
    have h1' : (agentHost (noopCode σ hσ)).step r s w = (.ret d, [], w1) := h1
    have hne : (Time.fin (k.wait iv + T) : Time) ≠ .inf := by intro h; cases h
    have hnz : ¬ (Time.fin (k.wait iv + T) : Time) = 0 := by
      intro h
      have : k.wait iv + T = 0 := by simpa using h
      linarith
    obtain ⟨s', w', g1, g2, g3, g4, g5, g6, g7, g8, g9, g10⟩ := ih (fun q hq => hl q (by simp [hq]))
      (((s.applyOps []).logAct r (.fin T) (.ret d)).schedule r (some (.fin (k.wait iv + T)))) w1 hs (l0 ++ [r]) (by
        simp only [Sched.schedule, Sched.logAct, Sched.applyOps, List.foldl_nil, hq, Time.pyOr, if_neg hnz]
        exact insertBucket_one _ r l0) h3
    refine ⟨s', w', ?_, by simpa using g2, g3, g4, g5, g6, g7, g8, g9, ?_⟩
    · simp only [runBucket, h1']
      have hi : ((s.applyOps []).logAct r (.fin T) (.ret d)).interval = .fin iv := hs
      rw [hi, h2, Time.fin_add, if_neg hne]
      exact g1
    · intro q
      rw [g10 q, h4, List.count_cons]
      by_cases hqr : q = r
      · simp [hqr]; omega
      · simp [hqr, Ne.symm hqr]

/-- What is true between two steps. -/
structure NoopState (k : NoopKind) (n : Nat) (iv : Rat) (m : Nat) (s : Sched) (w : AWorld NoopU Unit) : Prop where
  time : s.time = .fin (m * k.wait iv)
  steps : s.steps = m
  interval : s.interval = .fin iv
  running : s.running = true
  agents : s.agents ≠ []
  queue : ∃ l, l.Perm (List.range n) ∧ s.queue = [(.fin (m * k.wait iv), l)]
  ok : NoopOk k n w
  calls : ∀ r < n, w.u.calls r = m
  rest : ∀ r, n ≤ r → w.u.calls r = 0

theorem noop_sched_step (k : NoopKind) (n : Nat) (hn : 0 < n) (iv : Rat) (hiv : 0 < iv) (m : Nat) (s : Sched) (w : AWorld NoopU Unit)
    (h : NoopState k n iv m s w) :
    ∃ s' w', s.step (agentHost (noopCode σ hσ)) w = (s', w', false) ∧ NoopState k n iv (m + 1) s' w' := by
  obtain ⟨l, hl, hq⟩ := h.queue
  have hD : 0 < k.wait iv := by cases k <;> simp [NoopKind.wait, hiv]
  have hT : (0 : Rat) ≤ m * k.wait iv := by positivity
  -- the order
  have hord : ∃ l' w1, runOrder (agentHost (noopCode σ hσ)) s l w = (l', w1) ∧ l'.Perm l ∧ NoopOk k n w1 ∧ w1.u.calls = w.u.calls := by
    unfold runOrder
    split
    · exact ⟨_, _, rfl, hσ _ _, ⟨h.ok.len, h.ok.all⟩, rfl⟩
    · exact ⟨_, _, rfl, List.Perm.refl _, h.ok, rfl⟩
  obtain ⟨l', w1, e1, e2, e3, e4⟩ := hord
  have hlen : ∀ r ∈ l', r < n := fun r hr => List.mem_range.1 ((e2.trans hl).subset hr)
  obtain ⟨s', w', g1, g2, g3, g4, g5, g6, g7, g8, g9, g10⟩ := noop_bucket σ hσ k n iv (m * k.wait iv) hT hD l' hlen { s with queue := [] } w1
    h.interval [] (by simp [oneBucket]) e3
  have hl'ne : l' ≠ [] := by
    intro h0
    have := (e2.trans hl).length_eq
    rw [h0] at this
    simp at this
    omega
  have hadd : k.wait iv + m * k.wait iv = ((m + 1 : Nat) : Rat) * k.wait iv := by push_cast; ring
  refine ⟨{ s' with steps := s'.steps + 1, time := headTime s'.queue }, w', ?_, ?_⟩
  · unfold Sched.step
    rw [hq]
    simp only
    rw [if_neg (by rw [h.time]; exact lt_irrefl _)]
    rw [e1]
    simp only
    rw [h.time] at g1 ⊢
    rw [g1]
    rfl
  · have hcount : ∀ q, l'.count q = (List.range n).count q := fun q => (e2.trans hl).count_eq q
    rw [List.nil_append] at g2
    refine ⟨?_, ?_, ?_, ?_, ?_, ?_, g9, ?_, ?_⟩
    · simp only
      rw [g2, oneBucket_head _ _ hl'ne, hadd]
    · simp only
      rw [g5]
      simp [h.steps]
    · simp only
      rw [g3]
      exact h.interval
    · simp only
      rw [g7]
      exact h.running
    · simp only
      rw [g8]
      exact h.agents
    · refine ⟨l', e2.trans hl, ?_⟩
      simp only
      rw [g2, oneBucket, if_neg hl'ne, hadd]
    · intro r hr
      rw [g10, hcount, e4, h.calls r hr, List.count_eq_one_of_mem List.nodup_range (List.mem_range.2 hr)]
    · intro r hr
      rw [g10, hcount, e4, h.rest r hr, List.count_eq_zero_of_not_mem (by simp; omega)]

theorem noop_adds (n : Nat) (iv : Time) (sh : Bool) :
    let s := (Sched.init iv sh).applyOps ((List.range n).map (fun r => .add r none))
    s.queue = oneBucket 0 (List.range n) ∧ s.agents = List.range n ∧ s.time = 0 ∧ s.steps = 0 ∧ s.interval = iv ∧ s.running = true := by
  induction n with
  | zero => exact ⟨rfl, rfl, rfl, rfl, rfl, rfl⟩
  | succ n ih =>
    simp only at ih ⊢
    obtain ⟨h1, h2, h3, h4, h5, h6⟩ := ih
    have happ : ∀ a b (s : Sched), s.applyOps (a ++ b) = (s.applyOps a).applyOps b := fun a b s => List.foldl_append
    rw [List.range_succ, List.map_append, happ]
    generalize (Sched.init iv sh).applyOps ((List.range n).map (fun r => .add r none)) = s at *
    simp only [List.map_cons, List.map_nil, Sched.applyOps, List.foldl_cons, List.foldl_nil, Sched.applyOp, Sched.addAgent, Sched.schedule, Time.pyOr, h1, h2, h3]
    exact ⟨insertBucket_one 0 n _, by simp, trivial, h4, h5, h6⟩

/-- C162 (default scheduler): for any number of agents of any of the three kinds, any interval, shuffled or not, and any `max_steps`: the
iteration ends, after exactly `max_steps` steps, and every agent was activated exactly `max_steps` times. -/
theorem C162_timed (k : NoopKind) (n : Nat) (hn : 0 < n) (iv : Rat) (hiv : 0 < iv) (sh : Bool) (m fuel : Nat) (hf : m ≤ fuel) :
    ∃ s w, noopSim σ hσ k n (.fin iv) sh m fuel = .done (s, w) ∧ s.steps = m ∧ s.time = .fin (m * k.wait iv) ∧ w.agents.length = n ∧
      (∀ r < n, w.u.calls r = m) ∧ ((List.range n).map w.u.calls).sum = n * m := by
  have h0 : NoopState k n iv 0 (noopStart k n (.fin iv) sh).1 (noopStart k n (.fin iv) sh).2 := by
    obtain ⟨h1, h2, h3, h4, h5, h6⟩ := noop_adds n (.fin iv) sh
    have hr : List.range n ≠ [] := by simp; omega
    refine ⟨by rw [noopStart, h3]; simp, by rw [noopStart, h4], h5, h6, ?_, ⟨List.range n, List.Perm.refl _, ?_⟩, noopWorld_ok k n, fun _ _ => rfl,
      fun _ _ => rfl⟩
    · rw [noopStart, h2]
      exact hr
    · rw [noopStart, h1, oneBucket, if_neg hr]
      simp
  have main : ∀ (j fuel i : Nat) (s : Sched) (w : AWorld NoopU Unit), i + j = m → j ≤ fuel → NoopState k n iv i s w →
      ∃ s' w', runLoop (timedStepper (agentHost (noopCode σ hσ))) none (some m) fuel (s, w) = .done (s', w') ∧ NoopState k n iv m s' w' := by
    intro j
    induction j with
    | zero =>
      intro fuel i s w hij _ h
      have : i = m := by omega
      subst this
      have hd : isDone (timedStepper (agentHost (noopCode σ hσ))) none (some i) (s, w) = true := by
        simp [isDone, timedStepper, h.steps]
      refine ⟨s, w, ?_, h⟩
      cases fuel <;> simp [runLoop, hd]
    | succ j ih =>
      intro fuel i s w hij hf h
      obtain ⟨fuel, rfl⟩ : ∃ f, fuel = f + 1 := ⟨fuel - 1, by omega⟩
      have hd : isDone (timedStepper (agentHost (noopCode σ hσ))) none (some m) (s, w) = false := by
        simp [isDone, timedStepper, h.steps, h.running]; omega
      obtain ⟨s1, w1, e, h1⟩ := noop_sched_step σ hσ k n hn iv hiv i s w h
      obtain ⟨s', w', e', h'⟩ := ih fuel (i + 1) s1 w1 (by omega) (by omega) h1
      refine ⟨s', w', ?_, h'⟩
      simp only [runLoop, hd, Bool.false_eq_true, if_false]
      have : (timedStepper (agentHost (noopCode σ hσ))).step (s, w) = ((s1, w1), false) := by simp [timedStepper, e]
      rw [this]
      exact e'
  obtain ⟨s', w', e, h⟩ := main m fuel 0 _ _ (by omega) hf h0
  refine ⟨s', w', ?_, h.steps, h.time, h.ok.len, h.calls, ?_⟩
  · unfold noopSim runModel
    have : (timedStepper (agentHost (noopCode σ hσ))).noAgents (noopStart k n (.fin iv) sh) = false := by
      have := h0.agents
      simp only [timedStepper]
      cases hh : (noopStart k n (.fin iv) sh).1.agents with
      | nil => exact absurd hh this
      | cons => rfl
    rw [this]
    exact e
  · have : (List.range n).map w'.u.calls = List.replicate n m := by
      apply List.ext_getElem (by simp)
      intro i h1 h2
      simp only [List.getElem_map, List.getElem_range, List.getElem_replicate]
      exact h.calls i (by simpa using h1)
    rw [this]
    simp

end Timed

section PQueue

variable (κ : Ref → Nat → Rat) (σ : Nat → List Ref → List Ref) (hσ : ∀ n l, (σ n l).Perm l)

/-- The loop of a step: every entry that is due is replaced by a later one. -/
theorem noop_ploop (k : NoopKind) (n : Nat) (iv T : Rat) (hD : 0 < k.wait iv) (m : Nat) (d : Nat) (fuel : Nat) (s : PSched)
    (w : AWorld NoopU Unit) (hf : d ≤ fuel) (hs : s.interval = .fin iv) (hne : s.queue ≠ []) (hw : NoopOk k n w)
    (hheap : IsHeap PEntry.lt s.queue) (hrefs : (s.queue.map PEntry.ref).Perm (List.range n))
    (hwhen : ∀ e ∈ s.queue, (e.when_ = .fin T ∧ w.u.calls e.ref = m) ∨ (e.when_ = .fin (k.wait iv + T) ∧ w.u.calls e.ref = m + 1))
    (hd : s.queue.countP (fun e => decide (e.when_ = .fin T)) = d) (hrest : ∀ r, n ≤ r → w.u.calls r = 0) :
    ∃ s' w', pLoop (noopPHost κ σ hσ) (.fin T) fuel s w = (s', w', .fin (k.wait iv + T), .ok) ∧
      s'.interval = s.interval ∧ s'.steps = s.steps ∧ s'.running = s.running ∧ s'.agents = s.agents ∧ s'.queue ≠ [] ∧ NoopOk k n w' ∧
      IsHeap PEntry.lt s'.queue ∧ (s'.queue.map PEntry.ref).Perm (List.range n) ∧
      (∀ e ∈ s'.queue, e.when_ = .fin (k.wait iv + T) ∧ w'.u.calls e.ref = m + 1) ∧ ∀ r, n ≤ r → w'.u.calls r = 0 := by
  have hlt : (Time.fin T : Time) < .fin (k.wait iv + T) := by
    rw [Time.fin_lt]; linarith
  induction d generalizing fuel s w with
  | zero =>
    rw [List.countP_eq_zero] at hd
    have hall : ∀ e ∈ s.queue, e.when_ = .fin (k.wait iv + T) ∧ w.u.calls e.ref = m + 1 := by
      intro e he
      rcases hwhen e he with h | h
      · exact absurd h.1 (by simpa using hd e he)
      · exact h
    refine ⟨s, w, ?_, rfl, rfl, rfl, rfl, hne, hw, hheap, hrefs, hall, hrest⟩
    unfold pLoop
    cases hq : s.queue with
    | nil => exact absurd hq hne
    | cons e q =>
      have := (hall e (by rw [hq]; simp)).1
      simp only [this, hlt, if_true]
  | succ d ih =>
    obtain ⟨fuel, rfl⟩ : ∃ f, fuel = f + 1 := ⟨fuel - 1, by omega⟩
    cases hq : s.queue with
    | nil => exact absurd hq hne
    | cons e q =>
      -- the head is due
      have hhead : e.when_ = .fin T ∧ w.u.calls e.ref = m := by
        rcases hwhen e (by rw [hq]; simp) with h | h
        · exact h
        · exfalso
          obtain ⟨x, hx, hxt⟩ := List.countP_pos_iff.1 (by rw [hd]; omega : 0 < s.queue.countP (fun e => decide (e.when_ = .fin T)))
          rw [hq] at hx hheap
          have hle := PEntry.le_when (hheap.head_le PEntry.weakOrder x hx)
          rw [h.1, of_decide_eq_true hxt] at hle
          exact absurd hlt (not_lt.2 hle)
      have her : e.ref < n := List.mem_range.1 (hrefs.subset (by rw [hq]; simp))
      obtain ⟨rd, w1, h1, h2, h3, h4⟩ := noop_step σ hσ k n w hw e.ref her ⟨s.time, s.steps, [], s.agents, s.interval, true, s.running, []⟩ iv
      have h1' : (noopPHost κ σ hσ).step e.ref s w = (.ret rd, [], w1) := h1
      have hne' : (Time.fin (k.wait iv + T) : Time) ≠ .inf := by intro h; cases h
      obtain ⟨q', hr1, hr2⟩ := heapreplace_perm (lt := PEntry.lt) e q ⟨.fin (k.wait iv + T), κ e.ref w1.u.rng, e.ref⟩
      have hq'heap := heapreplace_heap PEntry.weakOrder (e :: q) q' _ (by rw [← hq]; exact hheap) hr1
      have hnd : (e.ref :: q.map PEntry.ref).Nodup := by
        have := hrefs.nodup_iff.2 List.nodup_range
        rw [hq] at this
        exact this
      have hcalls : ∀ x ∈ q, w1.u.calls x.ref = w.u.calls x.ref := by
        intro x hx
        rw [h4]
        have : x.ref ≠ e.ref := by
          intro hxe
          exact (List.nodup_cons.1 hnd).1 (by rw [← hxe]; exact List.mem_map_of_mem hx)
        simp [this]
      obtain ⟨s', w', g⟩ := ih fuel { (s.logAct e.ref (.fin T) (.ret rd)) with queue := q' }
        { w1 with u := { w1.u with rng := w1.u.rng + 1 } } (by omega) hs (by
          intro h0
          have : q' = [] := h0
          rw [this] at hr2
          have := hr2.length_eq
          simp at this) ⟨h3.len, h3.all⟩ hq'heap (by
          have := (hr2.map PEntry.ref).trans (List.Perm.refl _)
          rw [hq] at hrefs
          exact this.trans hrefs) (by
          intro x hx
          rcases List.mem_cons.1 (hr2.subset hx) with rfl | hx
          · right
            refine ⟨rfl, ?_⟩
            show w1.u.calls e.ref = m + 1
            rw [h4]
            simp [hhead.2]
          · have := hwhen x (by rw [hq]; simp [hx])
            rw [← hcalls x hx] at this
            exact this) (by
          show q'.countP _ = d
          rw [hr2.countP_eq, List.countP_cons]
          rw [hq, List.countP_cons] at hd
          simp only [hhead.1, decide_true, if_true] at hd
          have : ¬ (Time.fin (k.wait iv + T) : Time) = .fin T := fun h => absurd hlt (by rw [h]; exact lt_irrefl _)
          simp only [this, decide_false, Bool.false_eq_true, if_false]
          omega) (by
          intro r hr
          show w1.u.calls r = 0
          rw [h4]
          have : r ≠ e.ref := by intro h; rw [h] at hr; exact absurd her (Nat.not_lt.2 hr)
          simp [this, hrest r hr])
      refine ⟨s', w', ?_, g.2⟩
      rw [← g.1]
      conv_lhs => unfold pLoop
      rw [hq]
      simp only [hhead.1, lt_irrefl, if_false, h1', PSched.applyOps, Bool.false_eq_true]
      have hi : (s.logAct e.ref (.fin T) (.ret rd)).interval = .fin iv := hs
      rw [hi, h2, Time.fin_add, if_neg hne']
      have hsq : (s.logAct e.ref (.fin T) (.ret rd)).queue = e :: q := hq
      have : (s.logAct e.ref (.fin T) (.ret rd)).schedule (noopPHost κ σ hσ) w1 e.ref (some (.fin (k.wait iv + T))) true =
          ({ (s.logAct e.ref (.fin T) (.ret rd)) with queue := q' }, { w1 with u := { w1.u with rng := w1.u.rng + 1 } }, false) := by
        unfold PSched.schedule
        simp only [if_true, Option.getD_some, hsq, noopPHost]
        rw [hr1]
      rw [this]
      simp only [Bool.false_eq_true, if_false]
      rw [hi]

/-- What is true between two steps. -/
structure NoopPState (k : NoopKind) (n : Nat) (iv : Rat) (m : Nat) (s : PSched) (w : AWorld NoopU Unit) : Prop where
  time : s.time = .fin (m * k.wait iv)
  steps : s.steps = m
  interval : s.interval = .fin iv
  running : s.running = true
  agents : s.agents ≠ []
  heap : IsHeap PEntry.lt s.queue
  refs : (s.queue.map PEntry.ref).Perm (List.range n)
  whens : ∀ e ∈ s.queue, e.when_ = .fin (m * k.wait iv)
  ok : NoopOk k n w
  calls : ∀ r < n, w.u.calls r = m
  rest : ∀ r, n ≤ r → w.u.calls r = 0

theorem noop_psched_step (k : NoopKind) (n : Nat) (hn : 0 < n) (iv : Rat) (hiv : 0 < iv) (m loop : Nat) (hloop : n ≤ loop) (s : PSched)
    (w : AWorld NoopU Unit) (h : NoopPState k n iv m s w) :
    ∃ s' w', s.step (noopPHost κ σ hσ) loop w = (s', w', .ok) ∧ NoopPState k n iv (m + 1) s' w' := by
  have hD : 0 < k.wait iv := by cases k <;> simp [NoopKind.wait, hiv]
  have hmem : ∀ e ∈ s.queue, e.ref < n := fun e he => List.mem_range.1 (h.refs.subset (List.mem_map_of_mem he))
  have hlen : s.queue.length = n := by
    have := h.refs.length_eq
    simpa using this
  have hne : s.queue ≠ [] := by
    intro h0
    rw [h0] at hlen
    simp at hlen
    omega
  obtain ⟨s', w', g1, g2, g3, g4, g5, g6, g7, g8, g9, g10, g11⟩ := noop_ploop κ σ hσ k n iv (m * k.wait iv) hD m _ loop s w
    (le_trans List.countP_le_length (by rw [hlen]; exact hloop)) h.interval hne h.ok h.heap h.refs
    (fun e he => Or.inl ⟨h.whens e he, h.calls _ (hmem e he)⟩) rfl h.rest
  have hadd : k.wait iv + m * k.wait iv = ((m + 1 : Nat) : Rat) * k.wait iv := by push_cast; ring
  refine ⟨{ s' with steps := s'.steps + 1, time := .fin (k.wait iv + m * k.wait iv), running := s'.running }, w', ?_, ?_⟩
  · unfold PSched.step
    rw [h.time, if_neg (by intro h; cases h)]
    simp only [g1]
    rw [if_neg (by intro h; cases h)]
  · refine ⟨by rw [hadd], by simp [g3, h.steps], by simp [g2, h.interval], by simp [g4, h.running], by simpa [g5] using h.agents, g8, g9, ?_, g7, ?_, g11⟩
    · intro e he
      rw [← hadd]
      exact (g10 e he).1
    · intro r hr
      obtain ⟨e, he, rfl⟩ := List.mem_map.1 (g9.symm.subset (List.mem_range.2 hr))
      exact (g10 e he).2

theorem noop_padds (k : NoopKind) (n : Nat) (iv : Time) (w : AWorld NoopU Unit) (hw : NoopOk k n w) (hc : w.u.calls = fun _ => 0) (j : Nat) :
    ∃ s w', (PSched.init iv).applyOps (noopPHost κ σ hσ) w ((List.range j).map (fun r => .add r none)) = (s, w', false) ∧
      IsHeap PEntry.lt s.queue ∧ (s.queue.map PEntry.ref).Perm (List.range j) ∧ (∀ e ∈ s.queue, e.when_ = 0) ∧ s.agents = List.range j ∧
      s.time = 0 ∧ s.steps = 0 ∧ s.interval = iv ∧ s.running = true ∧ NoopOk k n w' ∧ w'.u.calls = fun _ => 0 := by
  have happ : ∀ (a b : List SOp) (s s' : PSched) (w w' : AWorld NoopU Unit), s.applyOps (noopPHost κ σ hσ) w a = (s', w', false) →
      s.applyOps (noopPHost κ σ hσ) w (a ++ b) = s'.applyOps (noopPHost κ σ hσ) w' b := by
    intro a b
    induction a with
    | nil => intro s s' w w' h; cases h; rfl
    | cons o a ih =>
      intro s s' w w' h
      simp only [PSched.applyOps, List.cons_append] at h ⊢
      by_cases hr : (s.applyOp (noopPHost κ σ hσ) w o).2.2 = true
      · rw [if_pos hr] at h
        rw [h] at hr
        cases hr
      · rw [if_neg hr] at h
        rw [if_neg hr]
        exact ih _ _ _ _ h
  induction j with
  | zero => exact ⟨_, _, rfl, IsHeap.nil _, List.Perm.refl _, by simp [PSched.init], rfl, rfl, rfl, rfl, rfl, hw, hc⟩
  | succ j ih =>
    obtain ⟨s, w', h0, h1, h2, h3, h4, h5, h6, h7, h8, h9, h10⟩ := ih
    rw [List.range_succ, List.map_append, happ _ _ _ _ _ _ h0]
    have hperm := heappush_perm (lt := PEntry.lt) s.queue ⟨0, κ j w'.u.rng, j⟩
    refine ⟨{ s with queue := heappush PEntry.lt s.queue ⟨0, κ j w'.u.rng, j⟩, agents := List.range j ++ [j], log := s.log ++ [.added j 0] },
      { w' with u := { w'.u with rng := w'.u.rng + 1 } }, ?_, heappush_heap PEntry.weakOrder _ _ h1, ?_, ?_, rfl, h5, h6, h7, h8,
      ⟨h9.len, h9.all⟩, h10⟩
    · simp only [List.map_cons, List.map_nil, PSched.applyOps, PSched.applyOp, PSched.addAgent, PSched.schedule, h5, Option.getD_none]
      have : (0 : Time).truthy = false := rfl
      rw [this]
      simp [noopPHost, h4]
    · refine (hperm.map _).trans ?_
      simp only [List.map_cons]
      exact (List.Perm.cons _ h2).trans (List.perm_append_singleton _ _).symm
    · intro e he
      rcases List.mem_cons.1 (hperm.subset he) with rfl | he
      · rfl
      · exact h3 e he

/-- C162 (`PQueueActivation`): the same, whatever random numbers are used for the order. -/
theorem C162_pqueue (k : NoopKind) (n : Nat) (hn : 0 < n) (iv : Rat) (hiv : 0 < iv) (loop : Nat) (hloop : n ≤ loop) (m fuel : Nat)
    (hf : m ≤ fuel) :
    ∃ s w, noopPSim κ σ hσ k n (.fin iv) loop m fuel = .done (s, w) ∧ s.steps = m ∧ s.time = .fin (m * k.wait iv) ∧ w.agents.length = n ∧
      (∀ r < n, w.u.calls r = m) ∧ ((List.range n).map w.u.calls).sum = n * m := by
  obtain ⟨s0, w0, h0, h1, h2, h3, h4, h5, h6, h7, h8, h9, h10⟩ := noop_padds κ σ hσ k n (.fin iv) (noopWorld k n) (noopWorld_ok k n) rfl n
  have e0 : noopPStart κ σ hσ k n (.fin iv) = (s0, w0) := by
    unfold noopPStart
    rw [h0]
  have hr : List.range n ≠ [] := by simp; omega
  have hst : NoopPState k n iv 0 s0 w0 := ⟨by rw [h5]; simp, h6, h7, h8, by rw [h4]; exact hr, h1, h2, by simpa using h3, h9,
    fun r _ => by rw [h10], fun r _ => by rw [h10]⟩
  have main : ∀ (j fuel i : Nat) (s : PSched) (w : AWorld NoopU Unit), i + j = m → j ≤ fuel → NoopPState k n iv i s w →
      ∃ s' w', runLoop (noopPStepper κ σ hσ loop) none (some m) fuel (s, w) = .done (s', w') ∧ NoopPState k n iv m s' w' := by
    intro j
    induction j with
    | zero =>
      intro fuel i s w hij _ h
      have : i = m := by omega
      subst this
      have hd : isDone (noopPStepper κ σ hσ loop) none (some i) (s, w) = true := by
        simp [isDone, noopPStepper, h.steps]
      refine ⟨s, w, ?_, h⟩
      cases fuel <;> simp [runLoop, hd]
    | succ j ih =>
      intro fuel i s w hij hf h
      obtain ⟨fuel, rfl⟩ : ∃ f, fuel = f + 1 := ⟨fuel - 1, by omega⟩
      have hd : isDone (noopPStepper κ σ hσ loop) none (some m) (s, w) = false := by
        simp [isDone, noopPStepper, h.steps, h.running]; omega
      obtain ⟨s1, w1, e, h1⟩ := noop_psched_step κ σ hσ k n hn iv hiv i loop hloop s w h
      obtain ⟨s', w', e', h'⟩ := ih fuel (i + 1) s1 w1 (by omega) (by omega) h1
      refine ⟨s', w', ?_, h'⟩
      simp only [runLoop, hd, Bool.false_eq_true, if_false]
      have : (noopPStepper κ σ hσ loop).step (s, w) = ((s1, w1), false) := by simp [noopPStepper, e]
      rw [this]
      exact e'
  obtain ⟨s', w', e, h⟩ := main m fuel 0 _ _ (by omega) hf hst
  refine ⟨s', w', ?_, h.steps, h.time, h.ok.len, h.calls, ?_⟩
  · unfold noopPSim runModel
    rw [e0]
    have : (noopPStepper κ σ hσ loop).noAgents (s0, w0) = false := by
      have := hst.agents
      simp only [noopPStepper]
      cases hh : s0.agents with
      | nil => exact absurd hh this
      | cons => rfl
    rw [this]
    exact e
  · have : (List.range n).map w'.u.calls = List.replicate n m := by
      apply List.ext_getElem (by simp)
      intro i h1 h2
      simp only [List.getElem_map, List.getElem_range, List.getElem_replicate]
      exact h.calls i (by simpa using h1)
    rw [this]
    simp

end PQueue

/-- C162: without agents every version raises instead of reporting zero calls. -/
theorem C162_none (κ : Ref → Nat → Rat) (σ : Nat → List Ref → List Ref) (hσ : ∀ n l, (σ n l).Perm l) (k : NoopKind) (iv : Time) (sh : Bool)
    (loop m fuel : Nat) :
    (∃ x, noopSim σ hσ k 0 iv sh m fuel = .raised x) ∧ ∃ x, noopPSim κ σ hσ k 0 iv loop m fuel = .raised x :=
  ⟨⟨_, rfl⟩, ⟨_, rfl⟩⟩

theorem mesaNoop_step (m : MesaNoop) (order : List Nat) :
    (m.step order).steps = m.steps + 1 ∧ (m.step order).calls.length = m.calls.length ∧
    ∀ (i : Nat), (m.step order).calls[i]? = (m.calls[i]?).map (· + order.count i) := by
  refine ⟨rfl, ?_⟩
  simp only [MesaNoop.step]
  generalize m.calls = c
  induction order generalizing c with
  | nil => exact ⟨rfl, fun i => by simp only [List.foldl_nil]; cases c[i]? <;> rfl⟩
  | cons o order ih =>
    simp only [List.foldl_cons]
    refine ⟨by rw [(ih _).1]; simp, ?_⟩
    intro i
    rw [(ih _).2, List.getElem?_modify, List.count_cons]
    cases c[i]? with
    | none => rfl
    | some x =>
      by_cases h : o = i
      · simp [h]; omega
      · simp [h]

/-- C162 (the mesa model run by `Simulation`): the same, in whatever orders the agents are activated. -/
theorem C162_mesa (order : Nat → List Nat) (n : Nat) (hn : 0 < n) (ho : ∀ j, (order j).Perm (List.range n)) (m fuel : Nat) (hf : m ≤ fuel) :
    runModel (mesaNoopStepper order) none (some m) fuel ⟨List.replicate n 0, 0⟩ = .done ⟨List.replicate n m, m⟩ := by
  have hstep : ∀ i, (MesaNoop.mk (List.replicate n i) i).step (order i) = ⟨List.replicate n (i + 1), i + 1⟩ := by
    intro i
    obtain ⟨h1, h2, h3⟩ := mesaNoop_step ⟨List.replicate n i, i⟩ (order i)
    have : ((MesaNoop.mk (List.replicate n i) i).step (order i)).calls = List.replicate n (i + 1) := by
      apply List.ext_getElem?
      intro j
      rw [h3, (ho i).count_eq]
      by_cases hj : j < n
      · simp [hj, List.count_eq_one_of_mem List.nodup_range (List.mem_range.2 hj)]
      · simp [hj]
    cases hx : (MesaNoop.mk (List.replicate n i) i).step (order i) with
    | mk c t =>
      rw [hx] at this h1
      simp only at this h1
      rw [this, h1]
  have main : ∀ (j fuel i : Nat), i + j = m → j ≤ fuel →
      runLoop (mesaNoopStepper order) none (some m) fuel ⟨List.replicate n i, i⟩ = .done ⟨List.replicate n m, m⟩ := by
    intro j
    induction j with
    | zero =>
      intro fuel i hij _
      have : i = m := by omega
      subst this
      cases fuel <;> simp [runLoop, isDone, mesaNoopStepper]
    | succ j ih =>
      intro fuel i hij hf
      obtain ⟨fuel, rfl⟩ : ∃ f, fuel = f + 1 := ⟨fuel - 1, by omega⟩
      have hd : isDone (mesaNoopStepper order) none (some m) ⟨List.replicate n i, i⟩ = false := by
        simp only [isDone, mesaNoopStepper, Bool.not_true, Bool.false_or]
        exact decide_eq_false (by omega)
      simp only [runLoop, hd, Bool.false_eq_true, if_false]
      have : (mesaNoopStepper order).step ⟨List.replicate n i, i⟩ = (⟨List.replicate n (i + 1), i + 1⟩, false) := by
        simp [mesaNoopStepper, hstep]
      rw [this]
      exact ih fuel (i + 1) (by omega) (by omega)
  unfold runModel
  have : (mesaNoopStepper order).noAgents ⟨List.replicate n 0, 0⟩ = false := by
    cases n with
    | zero => omega
    | succ n => simp [mesaNoopStepper, List.replicate_succ]
  rw [this]
  exact main m fuel 0 (by omega) hf

/-! ## Examples -/

/-- Five agents of each kind, with reversing as shuffle: the numbers of calls after 7 steps. -/
def noopCalls : Outcome (Sched × AWorld NoopU Unit) → Option (List Nat)
  | .done (_, w) => some ((List.range 6).map w.u.calls)
  | _ => none

set_option maxRecDepth 100000 in
example : [NoopKind.step, .gens, .async].map (fun k => noopCalls (noopSim (fun _ l => l.reverse) (fun _ l => l.reverse_perm) k 5 1 true 7 20)) =
    [some [7, 7, 7, 7, 7, 0], some [7, 7, 7, 7, 7, 0], some [7, 7, 7, 7, 7, 0]] := by decide +kernel

/-- With fuel for fewer steps it has not ended. -/
example : noopCalls (noopSim (fun _ l => l.reverse) (fun _ l => l.reverse_perm) .gens 5 1 true 7 6) = none := by decide +kernel

/-- The mesa model. -/
example : runModel (mesaNoopStepper (fun i => if i % 2 = 0 then [0, 1, 2] else [2, 0, 1])) none (some 4) 9 ⟨[0, 0, 0], 0⟩ =
    .done ⟨[4, 4, 4], 4⟩ := by decide +kernel

end Verif
