import Verif.Props.Rounds
import Verif.Props.PQueue

/-!
# C230 with `PQueueActivation`
-/

namespace Verif

variable {W : Type}

/-- Agents of the kind described by `MesaCode`, with `PQueueActivation`, as long as `I` holds (see `MesaHost`). -/
structure MesaPHost (H : PHost W) (n : Nat) (iv : Rat) (act : MesaCode W) (I : W → Prop) : Prop where
  step : ∀ r < n, ∀ (s : PSched) (w : W) (t : Rat), I w → s.time = .fin (t * iv) → H.step r s w = (.ret none, [], act r t s.steps s.agents w)
  inv : ∀ r < n, ∀ t k as w, I w → I (act r t k as w)
  key : ∀ r w, I w → I (H.key r w).2

/-- The agents `0, …, n-1` are added one after the other before the first step; each time a number is drawn for the order (soil/time.py:67-77). -/
def roundsPStart (H : PHost W) (n : Nat) (iv : Rat) (w : W) : PSched × W :=
  let r := (PSched.init (.fin iv)).applyOps H w ((List.range n).map (fun r => .add r none))
  (r.1, r.2.1)

/-- What a turn does to the world: the code of the agent, and the number for its next turn. -/
def turnWith (H : PHost W) (act : MesaCode W) (t : Rat) (k : Nat) (as : List Ref) (w : W) (r : Ref) : W := (H.key r (act r t k as w)).2

/-- The entry is due. -/
def PEntry.isDue (T : Rat) (e : PEntry) : Bool := decide (e.when_ = .fin T)

theorem key_le_of_not_lt {a b : PEntry} (h : a.lt b = false) (hw : a.when_ = b.when_) : b.key ≤ a.key := by
  simp only [PEntry.lt, Bool.or_eq_false_iff, Bool.and_eq_false_iff, decide_eq_false_iff_not, not_lt] at h
  rcases h.2 with h | h
  · exact absurd hw h
  · exact h

/-- The loop of a step: every entry that is due has its turn, in the order of the keys. -/
theorem prounds_loop {H : PHost W} {n : Nat} {iv : Rat} {act : MesaCode W} {I : W → Prop} (hH : MesaPHost H n iv act I) (hiv : 0 < iv) (t : Rat)
    (d fuel : Nat) (s : PSched) (w : W) (hf : d ≤ fuel) (ht : s.time = .fin (t * iv)) (hs : s.interval = .fin iv) (hne : s.queue ≠ []) (hI : I w)
    (hheap : IsHeap PEntry.lt s.queue) (hrefs : (s.queue.map PEntry.ref).Perm (List.range n))
    (hwhen : ∀ e ∈ s.queue, e.when_ = .fin (t * iv) ∨ e.when_ = .fin (iv + t * iv))
    (hd : (s.queue.filter (PEntry.isDue (t * iv))).length = d) :
    ∃ (s' : PSched) (w' : W) (es : List PEntry), pLoop H (.fin (t * iv)) fuel s w = (s', w', .fin (iv + t * iv), .ok) ∧ es.Perm (s.queue.filter (PEntry.isDue (t * iv))) ∧
      es.Pairwise (fun a b => a.key ≤ b.key) ∧ w' = (es.map PEntry.ref).foldl (turnWith H act t s.steps s.agents) w ∧ I w' ∧
      s'.log = s.log ++ (es.map PEntry.ref).map (fun r => .act r (.fin (t * iv)) (.ret none)) ∧
      s'.interval = s.interval ∧ s'.steps = s.steps ∧ s'.running = s.running ∧ s'.agents = s.agents ∧ s'.queue ≠ [] ∧
      IsHeap PEntry.lt s'.queue ∧ (s'.queue.map PEntry.ref).Perm (List.range n) ∧ (∀ e ∈ s'.queue, e.when_ = .fin (iv + t * iv)) ∧
      (∀ κ : Ref → Rat, (∀ r w, (H.key r w).1 = κ r) → (∀ e ∈ s.queue, e.key = κ e.ref) → ∀ e ∈ s'.queue, e.key = κ e.ref) := by
  have hlt : (Time.fin (t * iv) : Time) < .fin (iv + t * iv) := by
    rw [Time.fin_lt]; linarith
  induction d generalizing fuel s w with
  | zero =>
    have hnil := List.length_eq_zero_iff.1 hd
    have hall : ∀ e ∈ s.queue, e.when_ = .fin (iv + t * iv) := by
      intro e he
      rcases hwhen e he with h | h
      · have : e ∈ s.queue.filter (PEntry.isDue (t * iv)) := List.mem_filter.2 ⟨he, by simp [PEntry.isDue, h]⟩
        rw [hnil] at this
        exact absurd this (by simp)
      · exact h
    refine ⟨s, w, [], ?_, by rw [hnil], List.Pairwise.nil, rfl, hI, by simp, rfl, rfl, rfl, rfl, hne, hheap, hrefs, hall, fun κ _ h => h⟩
    unfold pLoop
    cases hq : s.queue with
    | nil => exact absurd hq hne
    | cons e q =>
      have := hall e (by rw [hq]; simp)
      simp only [this, hlt, if_true]
  | succ d ih =>
    obtain ⟨fuel, rfl⟩ : ∃ f, fuel = f + 1 := ⟨fuel - 1, by omega⟩
    cases hq : s.queue with
    | nil => exact absurd hq hne
    | cons e q =>
      have hheap' := hheap
      rw [hq] at hheap'
      have hmin := hheap'.head_le PEntry.weakOrder
      have hhead : e.when_ = .fin (t * iv) := by
        rcases hwhen e (by rw [hq]; simp) with h | h
        · exact h
        · exfalso
          obtain ⟨x, hx⟩ : ∃ x, x ∈ s.queue.filter (PEntry.isDue (t * iv)) := List.exists_mem_of_length_pos (by omega)
          rw [List.mem_filter, hq] at hx
          have hle := PEntry.le_when (hmin x hx.1)
          rw [h, of_decide_eq_true hx.2] at hle
          exact absurd hlt (not_lt.2 hle)
      have her : e.ref < n := List.mem_range.1 (hrefs.subset (by rw [hq]; simp))
      have h1 := hH.step e.ref her s w t hI ht
      have hI1 := hH.inv e.ref her t s.steps s.agents w hI
      have hne' : (Time.fin (iv + t * iv) : Time) ≠ .inf := by intro h; cases h
      generalize hw1 : act e.ref t s.steps s.agents w = w1 at *
      obtain ⟨q', hr1, hr2⟩ := heapreplace_perm (lt := PEntry.lt) e q ⟨.fin (iv + t * iv), (H.key e.ref w1).1, e.ref⟩
      have hq'heap := heapreplace_heap PEntry.weakOrder (e :: q) q' _ hheap' hr1
      have hnew : PEntry.isDue (t * iv) ⟨.fin (iv + t * iv), (H.key e.ref w1).1, e.ref⟩ = false := by
        simp only [PEntry.isDue, decide_eq_false_iff_not]
        exact fun h => absurd hlt (by rw [h]; exact lt_irrefl _)
      have hdue : PEntry.isDue (t * iv) e = true := by simp [PEntry.isDue, hhead]
      have hfilt : (q'.filter (PEntry.isDue (t * iv))).Perm (q.filter (PEntry.isDue (t * iv))) := by
        refine (hr2.filter _).trans ?_
        rw [List.filter_cons, hnew]
        simp
      obtain ⟨s', w', es, g1, g2, g3, g4, g5, g6, g7, g8, g9, g10, g11, g12, g13, g14, g15⟩ := ih fuel
        { (s.logAct e.ref (.fin (t * iv)) (.ret none)) with queue := q' } (H.key e.ref w1).2 (by omega) ht hs (by
          intro h0
          have : q' = [] := h0
          rw [this] at hr2
          have := hr2.length_eq
          simp at this) (hH.key _ _ hI1) hq'heap (by
          have := hr2.map PEntry.ref
          rw [hq] at hrefs
          exact this.trans hrefs) (by
          intro x hx
          rcases List.mem_cons.1 (hr2.subset hx) with rfl | hx
          · exact Or.inr rfl
          · exact hwhen x (by rw [hq]; simp [hx])) (by
          show (q'.filter _).length = d
          rw [hfilt.length_eq]
          rw [hq, List.filter_cons, hdue] at hd
          simpa using hd)
      refine ⟨s', w', e :: es, ?_, ?_, ?_, ?_, g5, ?_, g7, g8, g9, g10, g11, g12, g13, g14, ?_⟩
      · rw [← g1]
        conv_lhs => unfold pLoop
        rw [hq]
        simp only [hhead, lt_irrefl, if_false, h1, PSched.applyOps, Bool.false_eq_true]
        have hi : (s.logAct e.ref (.fin (t * iv)) (.ret none)).interval = .fin iv := hs
        rw [hi, show Time.pyOr none (Time.fin iv) = .fin iv from rfl, Time.fin_add, if_neg hne']
        have hsq : (s.logAct e.ref (.fin (t * iv)) (.ret none)).queue = e :: q := hq
        have : (s.logAct e.ref (.fin (t * iv)) (.ret none)).schedule H w1 e.ref (some (.fin (iv + t * iv))) true =
            ({ (s.logAct e.ref (.fin (t * iv)) (.ret none)) with queue := q' }, (H.key e.ref w1).2, false) := by
          unfold PSched.schedule
          simp only [if_true, Option.getD_some, hsq]
          rw [hr1]
        rw [this]
        simp only [Bool.false_eq_true, if_false]
        rw [hi]
      · rw [List.filter_cons, hdue]
        simp only [if_true]
        exact List.Perm.cons _ (g2.trans hfilt)
      · refine List.Pairwise.cons (fun x hx => ?_) g3
        have hx' := (g2.trans hfilt).subset hx
        rw [List.mem_filter] at hx'
        have hxw : x.when_ = .fin (t * iv) := of_decide_eq_true hx'.2
        exact key_le_of_not_lt (hmin x (by simp [hx'.1])) (by rw [hxw, hhead])
      · rw [g4]
        simp only [List.map_cons, List.foldl_cons]
        have : turnWith H act t s.steps s.agents w e.ref = (H.key e.ref w1).2 := by rw [turnWith, hw1]
        rw [this]
        rfl
      · rw [g6]
        simp [PSched.logAct]
      · intro κ hκ hk
        apply g15 κ hκ
        intro x hx
        rcases List.mem_cons.1 (hr2.subset hx) with rfl | hx
        · exact hκ _ _
        · exact hk x (List.mem_cons_of_mem _ hx)

/-- What is true between two steps. -/
structure PRoundState (n : Nat) (iv : Rat) (I : W → Prop) (k : Nat) (s : PSched) (w : W) : Prop where
  time : s.time = .fin (k * iv)
  steps : s.steps = k
  interval : s.interval = .fin iv
  running : s.running = true
  agents : s.agents = List.range n
  heap : IsHeap PEntry.lt s.queue
  refs : (s.queue.map PEntry.ref).Perm (List.range n)
  whens : ∀ e ∈ s.queue, e.when_ = .fin (k * iv)
  inv : I w

/-- A step. -/
theorem prounds_step {H : PHost W} {n : Nat} (hn : 0 < n) {iv : Rat} {act : MesaCode W} {I : W → Prop} (hH : MesaPHost H n iv act I) (hiv : 0 < iv)
    (k loop : Nat) (hloop : n ≤ loop) (s : PSched) (w : W) (h : PRoundState n iv I k s w) :
    ∃ (s' : PSched) (w' : W) (order : List Ref), s.step H loop w = (s', w', .ok) ∧ order.Perm (List.range n) ∧ w' = order.foldl (turnWith H act k k (List.range n)) w ∧
      s'.log = s.log ++ order.map (fun r => .act r (.fin (k * iv)) (.ret none)) ∧ PRoundState n iv I (k + 1) s' w' ∧
      (∀ κ : Ref → Rat, (∀ r w, (H.key r w).1 = κ r) → (∀ e ∈ s.queue, e.key = κ e.ref) →
        order.Pairwise (fun a b => κ a ≤ κ b) ∧ ∀ e ∈ s'.queue, e.key = κ e.ref) := by
  have hlen : s.queue.length = n := by simpa using h.refs.length_eq
  have hne : s.queue ≠ [] := by
    intro h0
    rw [h0] at hlen
    simp at hlen
    omega
  have hall : s.queue.filter (PEntry.isDue (k * iv)) = s.queue :=
    List.filter_eq_self.2 (fun e he => by simp [PEntry.isDue, h.whens e he])
  obtain ⟨s', w', es, g1, g2, g3, g4, g5, g6, g7, g8, g9, g10, g11, g12, g13, g14, g15⟩ := prounds_loop hH hiv (k : Rat) _ loop s w
    (by rw [hall, hlen]; exact hloop) h.time h.interval hne h.inv h.heap h.refs (fun e he => Or.inl (h.whens e he)) rfl
  rw [hall] at g2
  have hadd : iv + k * iv = ((k + 1 : Nat) : Rat) * iv := by push_cast; ring
  refine ⟨{ s' with steps := s'.steps + 1, time := .fin (iv + k * iv), running := s'.running }, w', es.map PEntry.ref, ?_, (g2.map _).trans h.refs, ?_, g6,
    ⟨by rw [hadd], by simp [g8, h.steps], by simp [g7, h.interval], by simp [g9, h.running], by simp [g10, h.agents], g12, g13, ?_, g5⟩, ?_⟩
  · unfold PSched.step
    rw [h.time, if_neg (by intro h; cases h)]
    simp only [g1]
    rw [if_neg (by intro h; cases h)]
  · rw [g4, h.steps, h.agents]
  · intro e he
    rw [← hadd]
    exact g14 e he
  · intro κ hκ hk
    refine ⟨?_, g15 κ hκ hk⟩
    rw [List.pairwise_map]
    refine g3.imp_of_mem ?_
    intro a b ha hb hab
    rw [← hk a (g2.subset ha), ← hk b (g2.subset hb)]
    exact hab

theorem papply_append (H : PHost W) (a b : List SOp) (s s' : PSched) (w w' : W) (h : s.applyOps H w a = (s', w', false)) :
    s.applyOps H w (a ++ b) = s'.applyOps H w' b := by
  induction a generalizing s w with
  | nil => cases h; rfl
  | cons o a ih =>
    simp only [PSched.applyOps, List.cons_append] at h ⊢
    by_cases hr : (s.applyOp H w o).2.2 = true
    · rw [if_pos hr] at h
      rw [h] at hr
      cases hr
    · rw [if_neg hr] at h
      rw [if_neg hr]
      exact ih _ _ h

theorem prounds_start (H : PHost W) (I : W → Prop) (hkey : ∀ r w, I w → I (H.key r w).2) (n : Nat) (iv : Rat) (w : W) (hI : I w) :
    ∃ s w', (PSched.init (.fin iv)).applyOps H w ((List.range n).map (fun r => .add r none)) = (s, w', false) ∧ PRoundState n iv I 0 s w' ∧
      w' = (List.range n).foldl (fun w r => (H.key r w).2) w ∧
      (∀ κ : Ref → Rat, (∀ r w, (H.key r w).1 = κ r) → ∀ e ∈ s.queue, e.key = κ e.ref) := by
  induction n with
  | zero => exact ⟨_, _, rfl, ⟨by simp [PSched.init], rfl, rfl, rfl, rfl, IsHeap.nil _, List.Perm.refl _, by simp [PSched.init], hI⟩, rfl, by simp [PSched.init]⟩
  | succ j ih =>
    obtain ⟨s, w', h0, h1, h2, h3⟩ := ih
    rw [List.range_succ, List.map_append, papply_append H _ _ _ _ _ _ h0, List.foldl_append, ← h2]
    have ht : s.time = 0 := by rw [h1.time]; simp
    have hperm := heappush_perm (lt := PEntry.lt) s.queue ⟨0, (H.key j w').1, j⟩
    refine ⟨{ s with queue := heappush PEntry.lt s.queue ⟨0, (H.key j w').1, j⟩, agents := List.range j ++ [j], log := s.log ++ [.added j 0] },
      (H.key j w').2, ?_, ⟨h1.time, h1.steps, h1.interval, h1.running, ?_, heappush_heap PEntry.weakOrder _ _ h1.heap, ?_, ?_, hkey _ _ h1.inv⟩, rfl, ?_⟩
    · simp only [List.map_cons, List.map_nil, PSched.applyOps, PSched.applyOp, PSched.addAgent, PSched.schedule, ht, Option.getD_none]
      have : (0 : Time).truthy = false := rfl
      rw [this]
      simp [h1.agents]
    · rw [List.range_succ]
    · refine (hperm.map _).trans ?_
      simp only [List.map_cons]
      rw [List.range_succ]
      exact (List.Perm.cons _ h1.refs).trans (List.perm_append_singleton _ _).symm
    · intro e he
      rcases List.mem_cons.1 (hperm.subset he) with rfl | he
      · simp
      · exact h1.whens e he
    · intro κ hκ e he
      rcases List.mem_cons.1 (hperm.subset he) with rfl | he
      · exact hκ _ _
      · exact h3 κ hκ e he

/-- The state of the scheduler after any number of steps. -/
theorem prounds_iter {H : PHost W} {n : Nat} (hn : 0 < n) {iv : Rat} (hiv : 0 < iv) {act : MesaCode W} {I : W → Prop} (hH : MesaPHost H n iv act I)
    (loop : Nat) (hloop : n ≤ loop) (w0 : W) (hI : I w0) (k : Nat) :
    PRoundState n iv I k (iterStep (pqStepper H loop) k (roundsPStart H n iv w0)).1 (iterStep (pqStepper H loop) k (roundsPStart H n iv w0)).2 := by
  obtain ⟨s0, w1, e0, h0, -, -⟩ := prounds_start H I hH.key n iv w0 hI
  have hst : roundsPStart H n iv w0 = (s0, w1) := by simp [roundsPStart, e0]
  induction k with
  | zero => rw [iterStep, hst]; exact h0
  | succ k ih =>
    rw [iterStep_succ]
    obtain ⟨s', w', order, g1, -, -, -, g5, -⟩ := prounds_step hn hH hiv k loop hloop _ _ ih
    simp only [pqStepper] at g1 ⊢
    rw [g1]
    exact g5

/-- C230 (partial: nobody is added or removed) for `PQueueActivation`, whatever numbers are drawn for the order: every step activates every agent exactly once,
at time `k·iv`, and the world after it is that after the turns, one after the other in some order. -/
theorem C230_pqueue_partial (H : PHost W) (n : Nat) (hn : 0 < n) (iv : Rat) (hiv : 0 < iv) (act : MesaCode W) (I : W → Prop) (hH : MesaPHost H n iv act I)
    (loop : Nat) (hloop : n ≤ loop) (w0 : W) (hI : I w0) (k : Nat) :
    let x := iterStep (pqStepper H loop) k (roundsPStart H n iv w0)
    let y := iterStep (pqStepper H loop) (k + 1) (roundsPStart H n iv w0)
    x.1.time = .fin (k * iv) ∧ x.1.steps = k ∧ x.1.agents = List.range n ∧ (x.1.step H loop x.2).2.2 = .ok ∧
    ∃ order : List Ref, order.Perm (List.range n) ∧ y.2 = order.foldl (turnWith H act k k (List.range n)) x.2 ∧
      y.1.log = x.1.log ++ order.map (fun r => .act r (.fin (k * iv)) (.ret none)) := by
  intro x y
  have h := prounds_iter hn hiv hH loop hloop w0 hI k
  obtain ⟨s', w', order, g1, g2, g3, g4, -, -⟩ := prounds_step hn hH hiv k loop hloop _ _ h
  have hy : y = (s', w') := by
    show iterStep _ (k + 1) _ = _
    rw [iterStep_succ]
    show ((x.1.step H loop x.2).1, (x.1.step H loop x.2).2.1) = _
    rw [g1]
  refine ⟨h.time, h.steps, h.agents, by rw [g1], order, g2, by rw [hy, g3], by rw [hy, g4]⟩

/-- C230 (partial, as before): without shuffling (`PQueueActivation` orders by `unique_id`, which grows with the agents), it does the same as the default
scheduler without shuffling and as mesa's `BaseScheduler`: the worlds are the same after every number of steps. -/
theorem C230_agree_partial (HP : PHost W) (HT : Host W) (n : Nat) (hn : 0 < n) (iv : Rat) (hiv : 0 < iv) (act : MesaCode W) (I : W → Prop)
    (hP : MesaPHost HP n iv act I) (hT : MesaHost HT n iv act I) (κ : Ref → Rat) (hκ : ∀ r w, HP.key r w = (κ r, w)) (hmono : ∀ a b, a < b → κ a < κ b)
    (loop : Nat) (hloop : n ≤ loop) (w0 : W) (hI : I w0) (k : Nat) :
    (iterStep (pqStepper HP loop) k (roundsPStart HP n iv w0)).2 = (iterStep (timedStepper HT) k (roundsStart n iv false w0)).2 ∧
    (iterStep (pqStepper HP loop) k (roundsPStart HP n iv w0)).1.time = (iterStep (timedStepper HT) k (roundsStart n iv false w0)).1.time := by
  obtain ⟨s0, w1, e0, h0, hw1, hk0⟩ := prounds_start HP I hP.key n iv w0 hI
  have hst : roundsPStart HP n iv w0 = (s0, w1) := by simp [roundsPStart, e0]
  have hw : w1 = w0 := by
    rw [hw1]
    have : ∀ l : List Ref, l.foldl (fun w r => (HP.key r w).2) w0 = w0 := by
      intro l
      induction l with
      | nil => rfl
      | cons r l ih => simp only [List.foldl_cons, hκ]; simpa only [hκ] using ih
    exact this _
  have hκ1 : ∀ r w, (HP.key r w).1 = κ r := fun r w => by rw [hκ]
  have main : ∀ k, PRoundState n iv I k (iterStep (pqStepper HP loop) k (roundsPStart HP n iv w0)).1 (iterStep (pqStepper HP loop) k (roundsPStart HP n iv w0)).2 ∧
      (∀ e ∈ (iterStep (pqStepper HP loop) k (roundsPStart HP n iv w0)).1.queue, e.key = κ e.ref) ∧
      (iterStep (pqStepper HP loop) k (roundsPStart HP n iv w0)).2 = (iterStep (timedStepper HT) k (roundsStart n iv false w0)).2 := by
    intro k
    induction k with
    | zero =>
      rw [iterStep, hst]
      exact ⟨h0, hk0 κ hκ1, hw⟩
    | succ k ih =>
      obtain ⟨s', w', order, g1, g2, g3, -, g5, g6⟩ := prounds_step hn hP hiv k loop hloop _ _ ih.1
      obtain ⟨g7, g8⟩ := g6 κ hκ1 ih.2.1
      have hord : order = List.range n := by
        have hs : (List.range n).Pairwise (fun a b => κ a ≤ κ b) := List.pairwise_lt_range.imp (fun {a b} h => le_of_lt (hmono a b h))
        refine List.Perm.eq_of_pairwise (le := fun a b => κ a ≤ κ b) ?_ g7 hs g2
        intro a b _ _ h1 h2
        rcases Nat.lt_trichotomy a b with h | h | h
        · exact absurd (hmono a b h) (not_lt.2 h2)
        · exact h
        · exact absurd (hmono b a h) (not_lt.2 h1)
      have hturn : ∀ w r, turnWith HP act k k (List.range n) w r = act r k k (List.range n) w := fun w r => by rw [turnWith, hκ]
      rw [iterStep_succ]
      have hnext : ((pqStepper HP loop).step (iterStep (pqStepper HP loop) k (roundsPStart HP n iv w0))).1 = (s', w') := by
        simp only [pqStepper] at g1 ⊢
        rw [g1]
      rw [hnext]
      refine ⟨g5, g8, ?_⟩
      rw [C230_ordered_partial HT n hn iv hiv act I hT w0 hI k, ← ih.2.2]
      show w' = _
      rw [g3, hord]
      have : turnWith HP act k k (List.range n) = fun w r => act r k k (List.range n) w := by
        funext w r
        exact hturn w r
      rw [this]
  refine ⟨(main k).2.2, ?_⟩
  rw [(main k).1.time]
  obtain ⟨ms, -, -, h3⟩ := mesa_iter hn hiv hT false w0 hI
  have := (h3 k).2.1.round.time
  rw [(h3 k).1] at this
  exact this.symm

/-- C230 (partial: nobody is added or removed): with `PQueueActivation`, too, a simulation with `max_steps` returns after exactly that number of steps, and one with
`max_time` after the first round at or after that time. -/
theorem C230_pqueue_ends_partial (H : PHost W) (n : Nat) (hn : 0 < n) (iv : Rat) (hiv : 0 < iv) (act : MesaCode W) (I : W → Prop) (hH : MesaPHost H n iv act I)
    (loop : Nat) (hloop : n ≤ loop) (w0 : W) (hI : I w0) (fuel k : Nat) (hf : k ≤ fuel) :
    runModel (pqStepper H loop) none (some k) fuel (roundsPStart H n iv w0) = .done (iterStep (pqStepper H loop) k (roundsPStart H n iv w0)) ∧
    ∀ mt : Rat, mt ≤ k * iv → (∀ i < k, i * iv < mt) →
      runModel (pqStepper H loop) (some (.fin mt)) none fuel (roundsPStart H n iv w0) = .done (iterStep (pqStepper H loop) k (roundsPStart H n iv w0)) := by
  have h := fun i => prounds_iter hn hiv hH loop hloop w0 hI i
  have hok := fun i => (C230_pqueue_partial H n hn iv hiv act I hH loop hloop w0 hI i).2.2.2.1
  have hne : (pqStepper H loop).noAgents (roundsPStart H n iv w0) = false := by
    have := (h 0).agents
    simp only [iterStep] at this
    simp only [pqStepper]
    rw [this]
    simp
    omega
  have go : ∀ (mt : Option Time) (ms' : Option Nat), isDone (pqStepper H loop) mt ms' (iterStep (pqStepper H loop) k (roundsPStart H n iv w0)) = true →
      (∀ i < k, isDone (pqStepper H loop) mt ms' (iterStep (pqStepper H loop) i (roundsPStart H n iv w0)) = false) →
      runModel (pqStepper H loop) mt ms' fuel (roundsPStart H n iv w0) = .done (iterStep (pqStepper H loop) k (roundsPStart H n iv w0)) := by
    intro mt ms' hd hnd
    unfold runModel
    rw [hne]
    simp only [Bool.false_eq_true, if_false]
    have hx : ∀ i, ((pqStepper H loop).step (iterStep (pqStepper H loop) i (roundsPStart H n iv w0))).2 = false := fun i => by
      have := hok i
      simp only [pqStepper] at this ⊢
      rw [this]
      rfl
    generalize roundsPStart H n iv w0 = x at hd hnd hx
    clear h hok hne
    induction k generalizing x fuel with
    | zero =>
      simp only [iterStep] at hd ⊢
      cases fuel <;> simp [runLoop, hd]
    | succ k ih =>
      obtain ⟨fuel, rfl⟩ : ∃ f, fuel = f + 1 := ⟨fuel - 1, by omega⟩
      have h0 := hnd 0 (by omega)
      have hx0 := hx 0
      simp only [iterStep] at h0 hx0
      simp only [runLoop, h0, hx0, Bool.false_eq_true, if_false]
      exact ih fuel (by omega) _ hd (fun i hi => hnd (i + 1) (by omega)) (fun i => hx (i + 1))
  have hst : ∀ i, (pqStepper H loop).steps (iterStep (pqStepper H loop) i (roundsPStart H n iv w0)) = i := fun i => (h i).steps
  have htm : ∀ i : Nat, (pqStepper H loop).time (iterStep (pqStepper H loop) i (roundsPStart H n iv w0)) = .fin (i * iv) := fun i => (h i).time
  have hrun : ∀ i, (pqStepper H loop).running (iterStep (pqStepper H loop) i (roundsPStart H n iv w0)) = true := fun i => (h i).running
  constructor
  · refine go none (some k) ?_ ?_
    · simp [isDone, hst]
    · intro i hi
      simp [isDone, hst, hrun, hi]
  · intro mt hmt hlt
    refine go (some (.fin mt)) none ?_ ?_
    · simp only [isDone, htm, Time.fin_le.2 hmt]
      simp
    · intro i hi
      have := hlt i hi
      simp only [isDone, htm, hrun]
      rw [decide_eq_false (by rw [not_le, Time.fin_lt]; exact this)]
      rfl

/-! ### Examples -/

/-- Agents that write down their turn; the number for the order is drawn: `7·m mod 5` the `m`-th time. -/
def turnsPHost : PHost (List (Ref × Time) × Nat) where
  step r s w := (.ret none, [], (w.1 ++ [(r, s.time)], w.2))
  key _ w := (((7 * w.2 % 5 : Nat) : Rat), (w.1, w.2 + 1))

set_option maxRecDepth 100000 in
example : (iterStep (pqStepper turnsPHost 5) 2 (roundsPStart turnsPHost 3 (1/2) ([], 0))).2.1 =
    [(0, .fin 0), (1, .fin 0), (2, .fin 0), (2, .fin (1/2)), (0, .fin (1/2)), (1, .fin (1/2))] := by decide +kernel

/-- The same agents ordered by their numbers, with both schedulers. -/
def turnsIdHost : PHost (List (Ref × Time)) where
  step r s w := (.ret none, [], w ++ [(r, s.time)])
  key r w := ((r : Nat), w)

/-- With the default scheduler. -/
def turnsTHost : Host (List (Ref × Time)) where
  step r s w := (.ret none, [], w ++ [(r, s.time)])
  shuffle l w := (l, w)
  shuffle_perm l _ := List.Perm.refl l

/-- What they do. -/
def turnsTAct (iv : Rat) : MesaCode (List (Ref × Time)) := fun r t _ _ w => w ++ [(r, .fin (t * iv))]

/-- The hypotheses hold for them. -/
example (n : Nat) (iv : Rat) : MesaPHost turnsIdHost n iv (turnsTAct iv) (fun _ => True) ∧ MesaHost turnsTHost n iv (turnsTAct iv) (fun _ => True) :=
  ⟨⟨fun r _ s w t _ h => by simp [turnsIdHost, turnsTAct, h], fun _ _ _ _ _ _ _ => trivial, fun _ _ _ => trivial⟩,
   ⟨fun r _ s w t _ h => by simp [turnsTHost, turnsTAct, h], fun _ _ _ _ _ _ _ => trivial, fun _ _ _ => trivial⟩⟩

set_option maxRecDepth 100000 in
example : (iterStep (pqStepper turnsIdHost 5) 2 (roundsPStart turnsIdHost 3 1 [])).2 =
    [(0, .fin 0), (1, .fin 0), (2, .fin 0), (0, .fin 1), (1, .fin 1), (2, .fin 1)] ∧
    (iterStep (timedStepper turnsTHost) 2 (roundsStart 3 1 false [])).2 =
    [(0, .fin 0), (1, .fin 0), (2, .fin 0), (0, .fin 1), (1, .fin 1), (2, .fin 1)] := by decide +kernel

end Verif
