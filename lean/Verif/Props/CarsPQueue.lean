import Verif.Model.CarsPQueue
import Verif.Props.CarsRun
import Verif.Props.Refine

/-!
# C248: whole simulations of the cars example with `PQueueActivation`
-/

namespace Verif
open Spec

/-- The state after `k` steps; no step activates more agents than there are. -/
def carsPRun (F : CarsFate) (keys : Ref → Nat → Rat) (width height : Nat) (cs rs : List GridCell) (k : Nat) : PSched × CarsSim × Nat :=
  iterStep (pqStepper ((carsCode F).pqueue keys) (cs.length + rs.length)) k (carsPStart F keys width height cs rs)

theorem cars_plain (F : CarsFate) : PlainCode (carsCode F) := by
  intro r t n as w
  constructor
  · intro q wh h
    rcases w.turn_ops F r t with e | e
    · have h2 : SOp.add q wh ∈ (w.turn F r t).2.1 := h
      rw [e] at h2
      cases h2
    · have h2 : SOp.add q wh ∈ (w.turn F r t).2.1 := h
      rw [e] at h2
      simp at h2
  · intro d h
    have := CarsSim.turn_wait F r t w (some d) h
    by_cases hd : d = 0
    · rw [hd]
    · simp only [effDelay, hd, if_false] at this
      refine le_trans ?_ this
      show Time.fin 0 ≤ Time.fin ((1 : Nat) : Rat)
      simp

/-- The same chance, with other orders. -/
def CarsFate.mixed (F : CarsFate) (order : Nat → List Ref → List Ref) (perm : ∀ n l, (order n l).Perm l) : CarsFate := { F with order := order, perm := perm }

theorem cars_timedPop (F : CarsFate) (order : Nat → List Ref → List Ref) (perm : ∀ n l, (order n l).Perm l) (width height : Nat) (cs rs : List GridCell) :
    timedPop ((carsCode F).timed order perm) 1 (List.range (cs.length + rs.length)) ⟨Ride.init width height cs rs, 0⟩ = carsStart width height cs rs true :=
  (cars_reach (F.mixed order perm) width height cs rs true).symm

theorem cars_timedRun (F : CarsFate) (order : Nat → List Ref → List Ref) (perm : ∀ n l, (order n l).Perm l) (width height : Nat) (cs rs : List GridCell) (k : Nat) :
    timedRun (carsCode F) order perm 1 (List.range (cs.length + rs.length)) ⟨Ride.init width height cs rs, 0⟩ k =
      carsRun (F.mixed order perm) width height cs rs true k := by
  unfold timedRun
  rw [cars_timedPop]
  rfl

theorem cars_pop_ne {cs rs : List GridCell} (hne : 0 < cs.length + rs.length) : List.range (cs.length + rs.length) ≠ [] := by
  intro hc
  have := congrArg List.length hc
  simp at this
  rw [this.1, this.2] at hne
  simp at hne

theorem pendingOf_perm {l l' : List (Ref × Time)} (h : l.Perm l') (r : Ref) : (pendingOf l r).Perm (pendingOf l' r) := by
  unfold pendingOf
  exact (h.filter _).map _

/-- C248: as `C246_run`, with `PQueueActivation` and any tie-breaking numbers: any state that a simulation reaches without an exception is one that activations "in turn"
lead to; every agent that goes on is scheduled once, for the time it asked for, and nobody else is but passengers that have just arrived. -/
theorem C248_run (F : CarsFate) (keys : Ref → Nat → Rat) (width height : Nat) (cs rs : List GridCell) (hne : 0 < cs.length + rs.length) (k : Nat)
    (hk : ∀ m < k, ((pqStepper ((carsCode F).pqueue keys) (cs.length + rs.length)).step (carsPRun F keys width height cs rs m)).2 = false)
    (s : PSched) (w : CarsSim × Nat) (hx : carsPRun F keys width height cs rs k = (s, w)) :
    (∃ es, w.1.ride = (Ride.run (Ride.init width height cs rs) es).1 ∧ (Ride.run (Ride.init width height cs rs) es).2 = false ∧
      ∀ j d tip, RideEv.rider j d tip ∈ es → ∃ k, d = F.dest k ∧ tip = F.tip k) ∧
    (∀ (i : Nat) q, w.1.ride.cabs[i]? = some q → pendingOf (ppending s) i = if q.pc = .dead then [] else [.fin (q.next : Rat)]) ∧
    (∀ (j : Nat) p, w.1.ride.riders[j]? = some p →
      if p.pc = .dead then pendingOf (ppending s) (cs.length + j) = [] ∨
        ∃ u : Nat, u ≤ w.1.ride.now ∧ pendingOf (ppending s) (cs.length + j) = [.fin ((u : Rat) + 1)]
      else pendingOf (ppending s) (cs.length + j) = [.fin (p.next : Rat)]) ∧
    (∀ r, cs.length + rs.length ≤ r → pendingOf (ppending s) r = []) ∧
    w.1.ride.passengers = s.agents.countP (fun r => decide (cs.length ≤ r)) := by
  obtain ⟨order, perm, h⟩ := C247_refines (carsCode F) (cars_plain F) keys (cs.length + rs.length) 1 (by decide +kernel) (List.range (cs.length + rs.length))
    (cars_pop_ne hne) (by simp) ⟨Ride.init width height cs rs, 0⟩
  have hk' : ∀ m < k, ((timedStepper (carsHost (F.mixed order perm))).step (carsRun (F.mixed order perm) width height cs rs true m)).2 = false := by
    intro m hm
    have := (h m (fun j hj => hk j (by omega))).2.2.2.2.2.2.2.1
    rw [cars_timedRun] at this
    exact this.trans (hk m hm)
  obtain ⟨h1, h2, h3, h4, h5, h6, -⟩ := h k hk
  have hy : pqueueRun (carsCode F) keys (cs.length + rs.length) 1 (List.range (cs.length + rs.length)) ⟨Ride.init width height cs rs, 0⟩ k = (s, w) := hx
  rw [cars_timedRun, hy] at h4 h5 h6
  obtain ⟨c1, c2, c3, c4, c5⟩ := C246_run (F.mixed order perm) width height cs rs true hne k hk' (carsRun (F.mixed order perm) width height cs rs true k).1
    (carsRun (F.mixed order perm) width height cs rs true k).2 rfl
  rw [h5] at c1 c2 c3 c5
  have hp := pendingOf_perm h6
  refine ⟨c1, ?_, ?_, ?_, ?_⟩
  · intro i q hq
    have hc := c2 i q hq
    have hpi := hp i
    rw [hc] at hpi
    split
    · rename_i hd
      rw [if_pos hd] at hpi
      exact hpi.symm.eq_nil
    · rename_i hd
      rw [if_neg hd] at hpi
      exact hpi.symm.eq_singleton
  · intro j p hj
    have hc := c3 j p hj
    have hpj := hp (cs.length + j)
    split
    · rename_i hd
      rw [if_pos hd] at hc
      rcases hc with hc | ⟨u, hu, hc⟩
      · rw [hc] at hpj
        exact Or.inl hpj.symm.eq_nil
      · rw [hc] at hpj
        exact Or.inr ⟨u, hu, hpj.symm.eq_singleton⟩
    · rename_i hd
      rw [if_neg hd] at hc
      rw [hc] at hpj
      exact hpj.symm.eq_singleton
  · intro r hr
    have hpr := hp r
    rw [c4 r hr] at hpr
    exact hpr.symm.eq_nil
  · rw [c5, h4]

/-- C248: on square grids with at least one driver no step ever raises. -/
theorem C248_safe (F : CarsFate) (keys : Ref → Nat → Rat) (n : Nat) (hn : 2 ≤ n) (cs rs : List GridCell) (hcs0 : cs ≠ []) (hcs : ∀ x ∈ cs, InGrid n n x)
    (hrs : ∀ x ∈ rs, InGrid n n x) (hF : ∀ k, 0 ≤ (F.dest k).1 ∧ (F.dest k).1 < n ∧ 0 ≤ (F.dest k).2 ∧ (F.dest k).2 < n) (k : Nat) :
    ((pqStepper ((carsCode F).pqueue keys) (cs.length + rs.length)).step (carsPRun F keys n n cs rs k)).2 = false := by
  refine C247_safe (carsCode F) (cars_plain F) 1 (by decide +kernel) (List.range (cs.length + rs.length))
    (cars_pop_ne (Nat.add_pos_left (List.length_pos_of_ne_nil hcs0) _)) ⟨Ride.init n n cs rs, 0⟩ ?_ keys _ (by simp) k
  intro order perm k
  rw [cars_timedRun]
  exact C246_safe (F.mixed order perm) n hn cs rs hcs0 hcs hrs hF true k

/-- C248: a simulation with a `max_time` ends without an exception, whatever chance decides. If `max_time` is later than the bound of `C246_home`, everybody is at home at
the end. If it is later by 32 or more, all drivers have stopped too, there are no agents left, nothing is scheduled, the clock is at infinity, and `total_earnings` is the
sum of the tips of all passengers and what the drivers earned. -/
theorem C248_ends (F : CarsFate) (keys : Ref → Nat → Rat) (n : Nat) (hn : 2 ≤ n) (cs rs : List GridCell) (hcs0 : cs ≠ []) (hcs : ∀ x ∈ cs, InGrid n n x)
    (hrs : ∀ x ∈ rs, InGrid n n x) (hF : ∀ k, 0 ≤ (F.dest k).1 ∧ (F.dest k).1 < n ∧ 0 ≤ (F.dest k).2 ∧ (F.dest k).2 < n) (maxTime bound : Nat)
    (hb : bound = 30 + (rs.length - 1) * max (47 + 4 * (n - 1)) 90 + 106 + 4 * (n - 1)) :
    ∃ fuel s w, runModel (pqStepper ((carsCode F).pqueue keys) (cs.length + rs.length)) (some (.fin (maxTime : Rat))) none fuel (carsPStart F keys n n cs rs) = .done (s, w) ∧
      (bound < maxTime → ∀ p ∈ w.1.ride.riders, p.pc = .dead ∧ ∃ t, p.trip = some t ∧ p.pos = t.dest) ∧
      (bound + 31 < maxTime → s.queue = [] ∧ s.time = .inf ∧ s.agents = [] ∧ (∀ q ∈ w.1.ride.cabs, q.pc = .dead) ∧
        w.1.ride.total = (w.1.ride.riders.map (fun p => p.trip.elim 0 Trip.tip)).sum ∧ w.1.ride.total = (w.1.ride.cabs.map Cab.earnings).sum) := by
  obtain ⟨order, perm, h⟩ := C247_outcome (carsCode F) (cars_plain F) keys (cs.length + rs.length) 1 (by decide +kernel) (List.range (cs.length + rs.length))
    (cars_pop_ne (Nat.add_pos_left (List.length_pos_of_ne_nil hcs0) _)) (by simp) ⟨Ride.init n n cs rs, 0⟩ (.fin (maxTime : Rat)) none
  obtain ⟨fuel, s, w, e1, e2, e3⟩ := C246_ends (F.mixed order perm) n hn cs rs hcs0 hcs hrs hF true maxTime bound hb
  have hf := h fuel
  rw [cars_timedPop] at hf
  have e1' : runModel (timedStepper ((carsCode F).timed order perm)) (some (.fin (maxTime : Rat))) none fuel (carsStart n n cs rs true) = .done (s, w) := e1
  rw [e1'] at hf
  cases hy : runModel (pqStepper ((carsCode F).pqueue keys) (cs.length + rs.length)) (some (.fin (maxTime : Rat))) none fuel (carsPStart F keys n n cs rs) with
  | raised y =>
    have hy' : runModel (pqStepper ((carsCode F).pqueue keys) (cs.length + rs.length)) (some (.fin (maxTime : Rat))) none fuel
      (pqueuePop ((carsCode F).pqueue keys) 1 (List.range (cs.length + rs.length)) ⟨Ride.init n n cs rs, 0⟩) = .raised y := hy
    rw [hy'] at hf
    exact hf.elim
  | running y =>
    have hy' : runModel (pqStepper ((carsCode F).pqueue keys) (cs.length + rs.length)) (some (.fin (maxTime : Rat))) none fuel
      (pqueuePop ((carsCode F).pqueue keys) 1 (List.range (cs.length + rs.length)) ⟨Ride.init n n cs rs, 0⟩) = .running y := hy
    rw [hy'] at hf
    exact hf.elim
  | done y =>
    have hy' : runModel (pqStepper ((carsCode F).pqueue keys) (cs.length + rs.length)) (some (.fin (maxTime : Rat))) none fuel
      (pqueuePop ((carsCode F).pqueue keys) 1 (List.range (cs.length + rs.length)) ⟨Ride.init n n cs rs, 0⟩) = .done y := hy
    rw [hy'] at hf
    obtain ⟨f0, -, f2, -, f4, f5⟩ := hf
    refine ⟨fuel, y.1, y.2, hy, ?_, ?_⟩
    · rw [← f5]
      exact e2
    · intro hlt
      obtain ⟨g1, g2, g3, g4, g5, g6⟩ := e3 hlt
      rw [← f5]
      refine ⟨?_, f2.symm.trans g2, f4.symm.trans g3, g4, g5, g6⟩
      have : pending s = [] := by
        unfold pending
        rw [g1]
        rfl
      have f0' : (pending s).Perm (ppending y.1) := f0
      rw [this] at f0'
      have := f0'.symm.eq_nil
      unfold ppending at this
      exact List.map_eq_nil_iff.1 this

theorem runLoop_done_at {S : Type} (st : Stepper S) (mt : Option Time) (ms : Option Nat) (n : Nat) (s : S)
    (h : ∀ m < n, isDone st mt ms (iterStep st m s) = false ∧ (st.step (iterStep st m s)).2 = false) (hd : isDone st mt ms (iterStep st n s) = true) :
    runLoop st mt ms n s = .done (iterStep st n s) := by
  induction n generalizing s with
  | zero =>
    have hd' : isDone st mt ms s = true := hd
    simp [runLoop, hd', iterStep]
  | succ n ih =>
    obtain ⟨h1, h2⟩ := h 0 (by omega)
    have h1' : isDone st mt ms s = false := h1
    have h2' : (st.step s).2 = false := h2
    unfold runLoop
    rw [h1']
    simp only [Bool.false_eq_true, if_false]
    rw [h2']
    simp only [Bool.false_eq_true, if_false]
    refine ih (st.step s).1 (fun m hm => h (m + 1) (by omega)) hd

/-- C248: with `PQueueActivation` no limit is needed: the simulation stops by itself, whatever chance decides, and then everybody is at home, the drivers have stopped, no
agents are left and nothing is scheduled. (With `TimedActivation` it goes on for ever, C19.) -/
theorem C248_stops (F : CarsFate) (keys : Ref → Nat → Rat) (n : Nat) (hn : 2 ≤ n) (cs rs : List GridCell) (hcs0 : cs ≠ []) (hcs : ∀ x ∈ cs, InGrid n n x)
    (hrs : ∀ x ∈ rs, InGrid n n x) (hF : ∀ k, 0 ≤ (F.dest k).1 ∧ (F.dest k).1 < n ∧ 0 ≤ (F.dest k).2 ∧ (F.dest k).2 < n) :
    ∃ fuel s w, runModel (pqStepper ((carsCode F).pqueue keys) (cs.length + rs.length)) none none fuel (carsPStart F keys n n cs rs) = .done (s, w) ∧
      (∀ p ∈ w.1.ride.riders, p.pc = .dead ∧ ∃ t, p.trip = some t ∧ p.pos = t.dest) ∧ (∀ q ∈ w.1.ride.cabs, q.pc = .dead) ∧ s.queue = [] ∧ s.time = .inf ∧ s.agents = [] ∧
      w.1.ride.total = (w.1.ride.riders.map (fun p => p.trip.elim 0 Trip.tip)).sum ∧ w.1.ride.total = (w.1.ride.cabs.map Cab.earnings).sum := by
  have hne : 0 < cs.length + rs.length := Nat.add_pos_left (List.length_pos_of_ne_nil hcs0) _
  obtain ⟨fuel, s, w, e1, e2, e3⟩ := C248_ends F keys n hn cs rs hcs0 hcs hrs hF (30 + (rs.length - 1) * max (47 + 4 * (n - 1)) 90 + 106 + 4 * (n - 1) + 32) _ rfl
  have e2 := e2 (by omega)
  obtain ⟨g1, g2, g3, g4, g5, g6⟩ := e3 (by omega)
  obtain ⟨order, perm, h⟩ := C247_refines (carsCode F) (cars_plain F) keys (cs.length + rs.length) 1 (by decide +kernel) (List.range (cs.length + rs.length))
    (cars_pop_ne hne) (by simp) ⟨Ride.init n n cs rs, 0⟩
  unfold runModel at e1
  split at e1
  · cases e1
  rename_i hna
  obtain ⟨m, h1, h2, h3⟩ := runLoop_done _ _ _ e1
  have hsafe := C248_safe F keys n hn cs rs hcs0 hcs hrs hF
  have hstop : s.running = false := by
    obtain ⟨-, k2, -, -, -, -, k7, -⟩ := h m (fun j _ => hsafe j)
    have hy : pqueueRun (carsCode F) keys (cs.length + rs.length) 1 (List.range (cs.length + rs.length)) ⟨Ride.init n n cs rs, 0⟩ m = (s, w) := h1.symm
    rw [hy] at k2 k7
    have hs : (s, w).1.running = s.running := rfl
    rw [← hs, k7, k2]
    have hs2 : (s, w).1.time = .inf := g2
    rw [hs2]
    simp
  refine ⟨m, s, w, ?_, e2, g4, g1, g2, g3, g5, g6⟩
  unfold runModel
  rw [if_neg hna]
  refine (runLoop_done_at _ _ _ m _ ?_ ?_).trans (congrArg _ h1.symm)
  · intro j hj
    obtain ⟨q1, q2⟩ := h3 j hj
    refine ⟨?_, q2⟩
    simp only [isDone] at q1 ⊢
    exact (Bool.or_eq_false_iff.1 q1).1
  · rw [← h1]
    show (!s.running) = true
    rw [hstop]
    rfl

/-- The city of C246 with ids as tie-breakers. -/
def smallPRun (k : Nat) : PSched × CarsSim × Nat := carsPRun smallFate (fun r _ => r) 3 3 [(1, 1)] [(0, 2), (2, 2)] k

set_option maxRecDepth 100000 in
example : (smallPRun 50).1.time = .fin 104 ∧ (smallPRun 50).1.agents = [0, 1, 2] ∧ (smallPRun 50).1.running = true := by decide +kernel
set_option maxRecDepth 100000 in
example : (smallPRun 120).1.time = .inf ∧ (smallPRun 120).1.agents = [] ∧ (smallPRun 120).1.running = false ∧ (smallPRun 120).2.1.ride.total = 43 := by decide +kernel

end Verif
