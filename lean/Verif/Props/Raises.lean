import Verif.Props.PRounds
import Verif.Props.MailPQueue
import Verif.Props.Simulation
import Verif.Proofs.Mail

/-!
# Simulations that end with an exception

Agents that wait one interval after each turn, unless the turn raises. Up to the exception everything is as if exceptions were caught, so the rounds of C230 apply.
-/

namespace Verif

variable {W : Type}

/-- Every turn raises or waits for the default interval. -/
def PlainTurns {S : Type} (step : Ref → S → W → Reply × List SOp × W) : Prop :=
  ∀ r s w, (step r s w).1 = .error ∨ ((step r s w).1 = .ret none ∧ (step r s w).2.1 = [])

/-- The same agents, but exceptions are caught. -/
def Host.caught (H : Host W) : Host W where
  step r s w := (.ret none, [], (H.step r s w).2.2)
  shuffle := H.shuffle
  shuffle_perm := H.shuffle_perm

def PHost.caught (H : PHost W) : PHost W where
  step r s w := (.ret none, [], (H.step r s w).2.2)
  key := H.key

theorem bucket_caught {H : Host W} (hs : PlainTurns H.step) (now : Time) (l : List Ref) (s : Sched) (w : W) :
    (runBucket H now l s w).2.2 = true ∨ runBucket H now l s w = runBucket H.caught now l s w := by
  induction l generalizing s w with
  | nil => exact Or.inr rfl
  | cons r l ih =>
    rcases hs r s w with h | ⟨h1, h2⟩
    · left
      unfold runBucket
      rcases hres : H.step r s w with ⟨rep, ops, w'⟩
      rw [hres] at h
      cases h
      rfl
    · unfold runBucket
      have hc : H.caught.step r s w = (.ret none, [], (H.step r s w).2.2) := rfl
      rw [hc]
      rcases hres : H.step r s w with ⟨rep, ops, w'⟩
      rw [hres] at h1 h2
      simp only at h1 h2
      subst h1 h2
      exact ih _ _

theorem bucket_due {H : Host W} (Q0 Q : W → Prop) (h0 : ∀ a s w, Q0 w → Q0 (H.step a s w).2.2) (hQ : ∀ a s w, Q w → Q (H.step a s w).2.2) (r : Ref)
    (hr : ∀ s w, Q0 w → (H.step r s w).1 = .error ∨ Q (H.step r s w).2.2) (now : Time) (l : List Ref) (hl : r ∈ l) (s : Sched) (w : W) (hw : Q0 w) :
    (runBucket H now l s w).2.2 = true ∨ Q (runBucket H now l s w).2.1 := by
  induction l generalizing s w with
  | nil => cases hl
  | cons a l ih =>
    have h1 := h0 a s w hw
    unfold runBucket
    by_cases ha : a = r
    · subst ha
      have h2 := hr s w hw
      rcases hres : H.step a s w with ⟨rep, ops, w'⟩
      rw [hres] at h2
      cases rep with
      | error => exact Or.inl rfl
      | dead => exact Or.inr (bucket_world H Q hQ _ _ _ _ (h2.resolve_left (fun h => nomatch h)))
      | ret d => exact Or.inr (bucket_world H Q hQ _ _ _ _ (h2.resolve_left (fun h => nomatch h)))
    · have hm : r ∈ l := (List.mem_cons.1 hl).resolve_left (fun h => ha h.symm)
      rcases hres : H.step a s w with ⟨rep, ops, w'⟩
      rw [hres] at h1
      cases rep with
      | error => exact Or.inl rfl
      | dead => exact ih hm _ _ h1
      | ret d => exact ih hm _ _ h1

/-- A step of `TimedActivation`: it raises, or it is a round and agent `r` has had its turn. -/
theorem rounds_due {H : Host W} (hs : PlainTurns H.step) (Q0 Q : W → Prop) (h0 : ∀ a s w, Q0 w → Q0 (H.step a s w).2.2) (hQ : ∀ a s w, Q w → Q (H.step a s w).2.2)
    (hsh : ∀ l w, Q0 w → Q0 (H.shuffle l w).2) (n : Nat) (r : Ref) (hrn : r < n) (hr : ∀ s w, Q0 w → (H.step r s w).1 = .error ∨ Q (H.step r s w).2.2)
    (iv : Rat) (hiv : 0 < iv) (sh : Bool) (k : Nat) (s : Sched) (w : W) (hx : RoundState n iv sh k s) (hw : Q0 w) :
    (s.step H w).2.2 = true ∨ (RoundState n iv sh (k + 1) (s.step H w).1 ∧ (s.step H w).1.running = s.running ∧ Q (s.step H w).2.1) := by
  obtain ⟨l, h1, -, h3⟩ := hx.queue
  have hlt : ¬ s.time < .fin (k * iv) := by rw [hx.time]; exact lt_irrefl _
  have hm : r ∈ (runOrder H s l w).1 := by
    have hm : r ∈ l := h1.mem_iff.2 (List.mem_range.2 hrn)
    unfold runOrder
    split
    · exact (H.shuffle_perm l w).mem_iff.2 hm
    · exact hm
  have hq : Q0 (runOrder H s l w).2 := by
    unfold runOrder
    split
    · exact hsh l w hw
    · exact hw
  have e : s.step H w = finishStep (runBucket H s.time (runOrder H s l w).1 { s with queue := [] } (runOrder H s l w).2) := by
    unfold Sched.step
    rw [h3]
    simp only [if_neg hlt]
  have e' : s.step H.caught w = finishStep (runBucket H.caught s.time (runOrder H s l w).1 { s with queue := [] } (runOrder H s l w).2) := by
    unfold Sched.step
    rw [h3]
    simp only [if_neg hlt]
    rfl
  cases hno : (runBucket H s.time (runOrder H s l w).1 { s with queue := [] } (runOrder H s l w).2).2.2 with
  | true =>
    left
    rw [e, finishStep, if_pos hno]
    exact hno
  | false =>
    right
    have hmk := (bucket_due Q0 Q h0 hQ r hr s.time _ hm { s with queue := [] } _ hq).resolve_left (by rw [hno]; simp)
    have heq := (bucket_caught hs s.time (runOrder H s l w).1 { s with queue := [] } (runOrder H s l w).2).resolve_left (by rw [hno]; simp)
    have ee : s.step H w = s.step H.caught w := by rw [e, e', heq]
    obtain ⟨s', w', new, g1, g2, -⟩ := rounds_after H.caught (fun _ _ _ => rfl) (fun _ _ _ o ho => by cases ho) n (Nat.lt_of_le_of_lt (Nat.zero_le _) hrn) iv hiv sh k s w hx
    refine ⟨?_, ?_, ?_⟩
    · rw [ee, g1]
      exact g2
    · rw [ee]
      exact (step_eternal (H := H.caught) (fun _ _ _ => ⟨by simp [Host.caught], by simp [Host.caught]⟩) _ _).1
    · rw [e, finishStep, if_neg (by rw [hno]; simp)]
      exact hmk

theorem ploop_caught {H : PHost W} (hs : PlainTurns H.step) (now : Time) (fuel : Nat) (s : PSched) (w : W) :
    (pLoop H now fuel s w).2.2.2 = .raised ∨ pLoop H now fuel s w = pLoop H.caught now fuel s w := by
  induction fuel generalizing s w with
  | zero =>
    right
    unfold pLoop
    rfl
  | succ fuel ih =>
    unfold pLoop
    cases hq : s.queue with
    | nil => exact Or.inr rfl
    | cons e q =>
      simp only
      by_cases hl : now < e.when_
      · rw [if_pos hl, if_pos hl]
        exact Or.inr rfl
      · rw [if_neg hl, if_neg hl]
        have hc : H.caught.step e.ref s w = (.ret none, [], (H.step e.ref s w).2.2) := rfl
        rw [hc]
        rcases hs e.ref s w with h | ⟨h1, h2⟩
        · left
          rcases hres : H.step e.ref s w with ⟨rep, ops, w'⟩
          rw [hres] at h
          cases h
          simp only [ite_self]
        · rcases hres : H.step e.ref s w with ⟨rep, ops, w'⟩
          rw [hres] at h1 h2
          simp only at h1 h2
          subst h1 h2
          simp only [PSched.applyOps, Bool.false_eq_true, if_false]
          split
          · exact ih _ _
          · have hsc : ∀ (s1 : PSched) (t : Option Time), s1.schedule H.caught w' e.ref t true = s1.schedule H w' e.ref t true := fun _ _ => rfl
            rw [hsc]
            split
            · exact Or.inr rfl
            · exact ih _ _

theorem ploop_due {H : PHost W} (hs : PlainTurns H.step) (Q0 Q : W → Prop) (h0 : ∀ a s w, Q0 w → Q0 (H.step a s w).2.2) (hk0 : ∀ a w, Q0 w → Q0 (H.key a w).2)
    (hQ : ∀ a s w, Q w → Q (H.step a s w).2.2) (hk : ∀ a w, Q w → Q (H.key a w).2) (r : Ref)
    (hr : ∀ s w, Q0 w → (H.step r s w).1 = .error ∨ Q (H.step r s w).2.2) (iv T : Rat) (hiv : 0 < iv) (d fuel : Nat) (s : PSched) (w : W) (hf : d ≤ fuel)
    (hi : s.interval = .fin iv) (hheap : IsHeap PEntry.lt s.queue) (hwhen : ∀ e ∈ s.queue, e.when_ = .fin T ∨ e.when_ = .fin (iv + T))
    (hd : (s.queue.filter (PEntry.isDue T)).length = d) (x : PEntry) (hx : x ∈ s.queue) (hxr : x.ref = r) (hxt : x.when_ = .fin T) (hw : Q0 w) :
    (pLoop H (.fin T) fuel s w).2.2.2 = .raised ∨ Q (pLoop H (.fin T) fuel s w).2.1 := by
  have hlt : (Time.fin T : Time) < .fin (iv + T) := by
    rw [Time.fin_lt]; linarith
  induction d generalizing fuel s w with
  | zero =>
    have hnil := List.length_eq_zero_iff.1 hd
    have : x ∈ s.queue.filter (PEntry.isDue T) := List.mem_filter.2 ⟨hx, by simp [PEntry.isDue, hxt]⟩
    rw [hnil] at this
    cases this
  | succ d ih =>
    obtain ⟨fuel, rfl⟩ : ∃ f, fuel = f + 1 := ⟨fuel - 1, by omega⟩
    cases hq : s.queue with
    | nil => rw [hq] at hx; cases hx
    | cons e q =>
      have hheap' := hheap
      rw [hq] at hheap'
      have hmin := hheap'.head_le PEntry.weakOrder
      have hhead : e.when_ = .fin T := by
        rcases hwhen e (by rw [hq]; simp) with h | h
        · exact h
        · exfalso
          have hle := PEntry.le_when (hmin x (by rw [← hq]; exact hx))
          rw [h, hxt] at hle
          exact absurd hlt (not_lt.2 hle)
      have hne' : (Time.fin (iv + T) : Time) ≠ .inf := by intro h; cases h
      have h1 := h0 e.ref s w hw
      unfold pLoop
      rw [hq]
      simp only [hhead, lt_irrefl, if_false]
      rcases hs e.ref s w with h | ⟨g1, g2⟩
      · left
        rcases hres : H.step e.ref s w with ⟨rep, ops, w'⟩
        rw [hres] at h
        cases h
        simp only [ite_self]
      · have hr' := fun (h : e.ref = r) => hr s w hw
        rcases hres : H.step e.ref s w with ⟨rep, ops, w'⟩
        rw [hres] at g1 g2 h1
        simp only at g1 g2 h1
        subst g1 g2
        obtain ⟨q', hr1, hr2⟩ := heapreplace_perm (lt := PEntry.lt) e q ⟨.fin (iv + T), (H.key e.ref w').1, e.ref⟩
        have hq'heap := heapreplace_heap PEntry.weakOrder (e :: q) q' _ hheap' hr1
        have hsi : (s.logAct e.ref (.fin T) (.ret none)).interval = .fin iv := hi
        have hsq : (s.logAct e.ref (.fin T) (.ret none)).queue = e :: q := hq
        have hsc : (s.logAct e.ref (.fin T) (.ret none)).schedule H w' e.ref (some (.fin (iv + T))) true =
            ({ (s.logAct e.ref (.fin T) (.ret none)) with queue := q' }, (H.key e.ref w').2, false) := by
          unfold PSched.schedule
          simp only [if_true, Option.getD_some, hsq]
          rw [hr1]
        simp only [PSched.applyOps, Bool.false_eq_true, if_false]
        rw [hsi, show Time.pyOr none (Time.fin iv) = .fin iv from rfl, Time.fin_add, if_neg hne', hsc]
        simp only [Bool.false_eq_true, if_false]
        by_cases her : e.ref = r
        · right
          have hq1 : Q w' := by
            have := hr s w hw
            rw [← her, hres] at this
            exact this.resolve_left (fun h => nomatch h)
          exact pLoop_world H Q hQ hk _ _ _ _ (hk _ _ hq1)
        · refine ih fuel _ _ (by omega) hi hq'heap ?_ ?_ ?_ (hk0 _ _ h1)
          · intro y hy
            rcases List.mem_cons.1 (hr2.subset hy) with rfl | hy
            · exact Or.inr rfl
            · exact hwhen y (by rw [hq]; simp [hy])
          · have hnew : PEntry.isDue T ⟨.fin (iv + T), (H.key e.ref w').1, e.ref⟩ = false := by
              simp only [PEntry.isDue, decide_eq_false_iff_not]
              exact fun h => absurd hlt (by rw [h]; exact lt_irrefl _)
            have hdue : PEntry.isDue T e = true := by simp [PEntry.isDue, hhead]
            have hfilt : (q'.filter (PEntry.isDue T)).Perm (q.filter (PEntry.isDue T)) := by
              refine (hr2.filter _).trans ?_
              rw [List.filter_cons, hnew]
              simp
            show (q'.filter _).length = d
            rw [hfilt.length_eq]
            rw [hq, List.filter_cons, hdue] at hd
            simpa using hd
          · have hxq : x ∈ q := by
              rw [hq] at hx
              rcases List.mem_cons.1 hx with h | h
              · rw [h] at hxr; exact absurd hxr her
              · exact h
            exact hr2.symm.subset (List.mem_cons_of_mem _ hxq)

/-- A step of `PQueueActivation`: it raises, or it is a round and agent `r` has had its turn. -/
theorem prounds_due {H : PHost W} (hs : PlainTurns H.step) (Q0 Q : W → Prop) (h0 : ∀ a s w, Q0 w → Q0 (H.step a s w).2.2) (hk0 : ∀ a w, Q0 w → Q0 (H.key a w).2)
    (hQ : ∀ a s w, Q w → Q (H.step a s w).2.2) (hk : ∀ a w, Q w → Q (H.key a w).2) (n : Nat) (r : Ref) (hrn : r < n)
    (hr : ∀ s w, Q0 w → (H.step r s w).1 = .error ∨ Q (H.step r s w).2.2) (iv : Rat) (hiv : 0 < iv) (k loop : Nat) (hl : n ≤ loop) (s : PSched) (w : W)
    (hcode : ∃ act : MesaCode W, ∀ a (s : PSched) w t, s.time = .fin (t * iv) → (H.step a s w).2.2 = act a t s.steps s.agents w)
    (hx : PRoundState n iv (fun _ => True) k s w) (hw : Q0 w) :
    (s.step H loop w).2.2 = .raised ∨ (PRoundState n iv (fun _ => True) (k + 1) (s.step H loop w).1 (s.step H loop w).2.1 ∧ Q (s.step H loop w).2.1) := by
  obtain ⟨act, hcode⟩ := hcode
  have hm : MesaPHost H.caught n iv act (fun _ => True) :=
    ⟨fun a _ s w t _ ht => by rw [← hcode a s w t ht]; rfl, fun _ _ _ _ _ _ _ => trivial, fun _ _ _ => trivial⟩
  obtain ⟨s', w', order, g1, -, -, -, g5, -⟩ := prounds_step (Nat.lt_of_le_of_lt (Nat.zero_le _) hrn) hm hiv k loop hl s w hx
  have hfin : s.time ≠ .inf := by rw [hx.time]; intro h; cases h
  have hlen : s.queue.length = n := by simpa using hx.refs.length_eq
  have hxq : ∃ x ∈ s.queue, x.ref = r := List.mem_map.1 (hx.refs.symm.subset (List.mem_range.2 hrn))
  obtain ⟨x, hxq, hxr⟩ := hxq
  have hd := ploop_due hs Q0 Q h0 hk0 hQ hk r hr iv (k * iv) hiv _ loop s w (Nat.le_trans (List.length_filter_le _ _) (by omega)) hx.interval hx.heap
    (fun e he => Or.inl (hx.whens e he)) rfl x hxq hxr (hx.whens x hxq) hw
  have hc := ploop_caught hs (.fin (k * iv)) loop s w
  by_cases hraise : (pLoop H (.fin (k * iv)) loop s w).2.2.2 = .raised
  · left
    unfold PSched.step
    rw [if_neg hfin, hx.time]
    simp only [hraise]
  · right
    have hq := hd.resolve_left hraise
    have heq := hc.resolve_left hraise
    have ee : s.step H loop w = s.step H.caught loop w := by
      unfold PSched.step
      rw [if_neg hfin, if_neg hfin, hx.time, heq]
    refine ⟨by rw [ee, g1]; exact g5, ?_⟩
    unfold PSched.step
    rw [if_neg hfin, hx.time]
    simp only
    split <;> exact hq

/-- A run raises in its `m`-th step at the latest. -/
theorem run_raises {σ : Type} (S : Stepper σ) (mt : Option Time) (ms : Option Nat) (P : Nat → σ → Prop) (m : Nat)
    (hstep : ∀ k < m, ∀ x, P k x → (S.step x).2 = true ∨ P (k + 1) (S.step x).1) (hlast : ∀ x, P m x → (S.step x).2 = true)
    (hnd : ∀ k ≤ m, ∀ x, P k x → isDone S mt ms x = false) (fuel : Nat) (hf : m < fuel) (x : σ) (hx : P 0 x) : ∃ y, runLoop S mt ms fuel x = .raised y := by
  suffices ∀ d k, k + d = m → ∀ fuel, d < fuel → ∀ x, P k x → ∃ y, runLoop S mt ms fuel x = .raised y from this m 0 (by omega) fuel hf x hx
  intro d
  induction d with
  | zero =>
    intro k hk fuel hf x hx
    obtain ⟨fuel, rfl⟩ : ∃ f, fuel = f + 1 := ⟨fuel - 1, by omega⟩
    have : k = m := by omega
    subst this
    unfold runLoop
    rw [hnd k (by omega) x hx]
    simp only [Bool.false_eq_true, if_false]
    rw [if_pos (hlast x hx)]
    exact ⟨_, rfl⟩
  | succ d ih =>
    intro k hk fuel hf x hx
    obtain ⟨fuel, rfl⟩ : ∃ f, fuel = f + 1 := ⟨fuel - 1, by omega⟩
    unfold runLoop
    rw [hnd k (by omega) x hx]
    simp only [Bool.false_eq_true, if_false]
    by_cases hr : (S.step x).2 = true
    · rw [if_pos hr]
      exact ⟨_, rfl⟩
    · rw [if_neg hr]
      exact ih (k + 1) (by omega) fuel (by omega) _ ((hstep k (by omega) x hx).resolve_left hr)

/-- Agent `r` is in stage `0` at the start, is one stage further after each of its turns, and raises in stage `m`: then with `TimedActivation` a simulation of more than
`m` steps raises. -/
theorem stages_raise {H : Host W} (hs : PlainTurns H.step) (Q : Nat → W → Prop) (m : Nat) (hQ : ∀ k a s w, Q k w → Q k (H.step a s w).2.2)
    (hsh : ∀ k l w, Q k w → Q k (H.shuffle l w).2) (n : Nat) (r : Ref) (hrn : r < n)
    (hr : ∀ k < m, ∀ s w, Q k w → (H.step r s w).1 = .error ∨ Q (k + 1) (H.step r s w).2.2) (hlast : ∀ s w, Q m w → (H.step r s w).1 = .error)
    (iv : Rat) (hiv : 0 < iv) (sh : Bool) (w : W) (hw : Q 0 w) (steps fuel : Nat) (hst : m < steps) (hf : m < fuel) :
    ∃ y, runModel (timedStepper H) none (some steps) fuel (roundsStart n iv sh w) = .raised y := by
  have hn : 0 < n := Nat.lt_of_le_of_lt (Nat.zero_le _) hrn
  unfold runModel
  split
  · exact ⟨_, rfl⟩
  · refine run_raises (timedStepper H) none (some steps) (fun k x => RoundState n iv sh k x.1 ∧ x.1.running = true ∧ Q k x.2) m ?_ ?_ ?_ fuel hf _ ?_
    · rintro k hk x ⟨h1, h2, h3⟩
      rcases rounds_due hs (Q k) (Q (k + 1)) (hQ k) (hQ (k + 1)) (hsh k) n r hrn (hr k hk) iv hiv sh k x.1 x.2 h1 h3 with h | ⟨a, b, c⟩
      · exact Or.inl h
      · exact Or.inr ⟨a, b.trans h2, c⟩
    · rintro x ⟨h1, h2, h3⟩
      rcases rounds_due hs (Q m) (fun _ => False) (hQ m) (fun _ _ _ h => h) (hsh m) n r hrn (fun s w h => Or.inl (hlast s w h)) iv hiv sh m x.1 x.2 h1 h3 with h | ⟨-, -, c⟩
      · exact h
      · exact c.elim
    · rintro k hk x ⟨h1, h2, -⟩
      simp only [isDone, timedStepper, h1.steps, h2]
      simp
      omega
    · refine ⟨roundsStart_state n hn iv sh w, ?_, hw⟩
      refine (applyOps_running _ _ ?_).trans rfl
      intro ho
      obtain ⟨a, -, h⟩ := List.mem_map.1 ho
      exact nomatch h

/-- The same with `PQueueActivation`. -/
theorem pstages_raise {H : PHost W} (hs : PlainTurns H.step) (Q : Nat → W → Prop) (m : Nat) (hQ : ∀ k a s w, Q k w → Q k (H.step a s w).2.2)
    (hk : ∀ k a w, Q k w → Q k (H.key a w).2) (n : Nat) (r : Ref) (hrn : r < n)
    (hr : ∀ k < m, ∀ s w, Q k w → (H.step r s w).1 = .error ∨ Q (k + 1) (H.step r s w).2.2) (hlast : ∀ s w, Q m w → (H.step r s w).1 = .error)
    (hcode : ∃ act : Ref → W → W, ∀ a s w, (H.step a s w).2.2 = act a w)
    (iv : Rat) (hiv : 0 < iv) (loop : Nat) (hl : n ≤ loop) (w : W) (hw : Q 0 w) (steps fuel : Nat) (hst : m < steps) (hf : m < fuel) :
    ∃ y, runModel (pqStepper H loop) none (some steps) fuel (roundsPStart H n iv w) = .raised y := by
  obtain ⟨act, hact⟩ := hcode
  have hcode : ∃ act : MesaCode W, ∀ a (s : PSched) w t, s.time = .fin (t * iv) → (H.step a s w).2.2 = act a t s.steps s.agents w :=
    ⟨fun a _ _ _ w => act a w, fun a s w _ _ => hact a s w⟩
  unfold runModel
  split
  · exact ⟨_, rfl⟩
  · refine run_raises (pqStepper H loop) none (some steps) (fun k x => PRoundState n iv (fun _ => True) k x.1 x.2 ∧ Q k x.2) m ?_ ?_ ?_ fuel hf _ ?_
    · rintro k hkm x ⟨h1, h3⟩
      rcases prounds_due hs (Q k) (Q (k + 1)) (hQ k) (hk k) (hQ (k + 1)) (hk (k + 1)) n r hrn (hr k hkm) iv hiv k loop hl x.1 x.2 hcode h1 h3 with h | ⟨a, c⟩
      · left
        simp only [pqStepper, h]
        rfl
      · exact Or.inr ⟨a, c⟩
    · rintro x ⟨h1, h3⟩
      rcases prounds_due hs (Q m) (fun _ => False) (hQ m) (hk m) (fun _ _ _ h => h) (fun _ _ h => h) n r hrn (fun s w h => Or.inl (hlast s w h)) iv hiv m loop hl x.1 x.2
        hcode h1 h3 with h | ⟨-, c⟩
      · simp only [pqStepper, h]
        rfl
      · exact c.elim
    · rintro k hk x ⟨h1, -⟩
      simp only [isDone, pqStepper, h1.steps, h1.running]
      simp
      omega
    · obtain ⟨s0, w1, e0, h0, -, -⟩ := prounds_start H (fun w => True) (fun _ _ _ => trivial) n iv w trivial
      obtain ⟨s0', w1', e0', h0', -, -⟩ := prounds_start H (Q 0) (hk 0) n iv w hw
      have hst : roundsPStart H n iv w = (s0, w1) := by simp [roundsPStart, e0]
      rw [e0] at e0'
      cases e0'
      rw [hst]
      exact ⟨h0, h0'.inv⟩

/-- If after `k` steps (whether or not one of them has raised) the world is such that agent `r` raises, whoever is activated before it, then a simulation of more than `k`
steps raises. -/
theorem later_raise {H : Host W} (hs : PlainTurns H.step) (Q : W → Prop) (hQ : ∀ a s w, Q w → Q (H.step a s w).2.2) (hsh : ∀ l w, Q w → Q (H.shuffle l w).2) (n : Nat) (r : Ref)
    (hrn : r < n) (hr : ∀ s w, Q w → (H.step r s w).1 = .error) (iv : Rat) (hiv : 0 < iv) (sh : Bool) (w : W) (k : Nat)
    (hw : Q (iterStep (timedStepper H) k (roundsStart n iv sh w)).2) (steps fuel : Nat) (hst : k < steps) (hf : k < fuel) :
    ∃ y, runModel (timedStepper H) none (some steps) fuel (roundsStart n iv sh w) = .raised y := by
  have hn : 0 < n := Nat.lt_of_le_of_lt (Nat.zero_le _) hrn
  unfold runModel
  split
  · exact ⟨_, rfl⟩
  · refine run_raises (timedStepper H) none (some steps)
      (fun j x => x = iterStep (timedStepper H) j (roundsStart n iv sh w) ∧ RoundState n iv sh j x.1 ∧ x.1.running = true) k ?_ ?_ ?_ fuel hf _ ?_
    · rintro j hj x ⟨h0, h1, h2⟩
      rcases rounds_due hs (fun _ => True) (fun _ => True) (fun _ _ _ h => h) (fun _ _ _ h => h) (fun _ _ h => h) n r hrn (fun _ _ _ => Or.inr trivial) iv hiv sh j x.1 x.2 h1
        trivial with h | ⟨a, b, -⟩
      · exact Or.inl h
      · exact Or.inr ⟨by rw [iterStep_succ, ← h0], a, b.trans h2⟩
    · rintro x ⟨h0, h1, h2⟩
      rcases rounds_due hs Q (fun _ => False) hQ (fun _ _ _ h => h) hsh n r hrn (fun s w h => Or.inl (hr s w h)) iv hiv sh k x.1 x.2 h1 (by rw [h0]; exact hw) with h | ⟨-, -, c⟩
      · exact h
      · exact c.elim
    · rintro j hj x ⟨-, h1, h2⟩
      simp only [isDone, timedStepper, h1.steps, h2]
      simp
      omega
    · refine ⟨rfl, roundsStart_state n hn iv sh w, ?_⟩
      refine (applyOps_running _ _ ?_).trans rfl
      intro ho
      obtain ⟨a, -, h⟩ := List.mem_map.1 ho
      exact nomatch h

/-- The same with `PQueueActivation`. -/
theorem plater_raise {H : PHost W} (hs : PlainTurns H.step) (Q : W → Prop) (hQ : ∀ a s w, Q w → Q (H.step a s w).2.2) (hk : ∀ a w, Q w → Q (H.key a w).2) (n : Nat) (r : Ref)
    (hrn : r < n) (hr : ∀ s w, Q w → (H.step r s w).1 = .error) (hcode : ∃ act : Ref → W → W, ∀ a s w, (H.step a s w).2.2 = act a w)
    (iv : Rat) (hiv : 0 < iv) (loop : Nat) (hl : n ≤ loop) (w : W) (k : Nat)
    (hw : Q (iterStep (pqStepper H loop) k (roundsPStart H n iv w)).2) (steps fuel : Nat) (hst : k < steps) (hf : k < fuel) :
    ∃ y, runModel (pqStepper H loop) none (some steps) fuel (roundsPStart H n iv w) = .raised y := by
  obtain ⟨act, hact⟩ := hcode
  have hcode : ∃ act : MesaCode W, ∀ a (s : PSched) w t, s.time = .fin (t * iv) → (H.step a s w).2.2 = act a t s.steps s.agents w :=
    ⟨fun a _ _ _ w => act a w, fun a s w _ _ => hact a s w⟩
  unfold runModel
  split
  · exact ⟨_, rfl⟩
  · refine run_raises (pqStepper H loop) none (some steps)
      (fun j x => x = iterStep (pqStepper H loop) j (roundsPStart H n iv w) ∧ PRoundState n iv (fun _ => True) j x.1 x.2) k ?_ ?_ ?_ fuel hf _ ?_
    · rintro j hj x ⟨h0, h1⟩
      rcases prounds_due hs (fun _ => True) (fun _ => True) (fun _ _ _ h => h) (fun _ _ h => h) (fun _ _ _ h => h) (fun _ _ h => h) n r hrn (fun _ _ _ => Or.inr trivial) iv hiv
        j loop hl x.1 x.2 hcode h1 trivial with h | ⟨a, -⟩
      · left
        simp only [pqStepper, h]
        rfl
      · exact Or.inr ⟨by rw [iterStep_succ, ← h0], a⟩
    · rintro x ⟨h0, h1⟩
      rcases prounds_due hs Q (fun _ => False) hQ hk (fun _ _ _ h => h) (fun _ _ h => h) n r hrn (fun s w h => Or.inl (hr s w h)) iv hiv k loop hl x.1 x.2 hcode h1
        (by rw [h0]; exact hw) with h | ⟨-, c⟩
      · simp only [pqStepper, h]
        rfl
      · exact c.elim
    · rintro j hj x ⟨-, h1⟩
      simp only [isDone, pqStepper, h1.steps, h1.running]
      simp
      omega
    · obtain ⟨s0, w1, e0, h0, -, -⟩ := prounds_start H (fun w => True) (fun _ _ _ => trivial) n iv w trivial
      have hst : roundsPStart H n iv w = (s0, w1) := by simp [roundsPStart, e0]
      refine ⟨rfl, ?_⟩
      rw [hst]
      exact h0

end Verif
