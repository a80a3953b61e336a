import Verif.Proofs.CarsRun
import Verif.Props.CarsEnd
import Verif.Props.Rounds
import Verif.Props.RunLoop
import Verif.Props.ExNoop
import Verif.Props.Simulation

/-!
# C246: whole simulations of the cars example
-/

namespace Verif
open Spec

theorem CarsSim.turn_ops (F : CarsFate) (r : Ref) (now : Time) (w : CarsSim) : (w.turn F r now).2.1 = [] ∨ (w.turn F r now).2.1 = [.remove r] := by
  unfold CarsSim.turn
  simp only
  split
  · exact Or.inl rfl
  · split
    · exact Or.inl rfl
    · split
      · exact Or.inl rfl
      · exact Or.inr rfl

/-- Everybody raises, or waits at least 1. -/
theorem CarsSim.turn_wait (F : CarsFate) (r : Ref) (now : Time) (w : CarsSim) (d : Option Time) (h : (w.turn F r now).1 = .ret d) : (1 : Time) ≤ effDelay 1 d := by
  unfold CarsSim.turn at h
  simp only at h
  split at h
  · cases h
  · rename_i t0 h0
    split at h
    · cases h
    · rename_i hx
      split at h
      · rename_i t ht
        cases h
        have h1 := ({ w.ride with now := wholeTime now } : Ride).act_later (w.ride.eventOf F w.used r)
          (by have : ({ w.ride with now := wholeTime now } : Ride).due (w.ride.eventOf F w.used r) = some t0 := h0
              rw [this]; simp) (Bool.eq_false_iff.2 hx) t ht
        have h2 : wholeTime now + 1 ≤ t := h1
        have h3 : ((wholeTime now : Rat)) + 1 ≤ (t : Rat) := by exact_mod_cast h2
        have h4 : ¬ (Time.fin ((t : Rat) - (wholeTime now : Rat)) = 0) := by
          intro hc
          have h5 : (t : Rat) - (wholeTime now : Rat) = 0 := Time.fin.inj hc
          linarith
        simp only [effDelay, h4, if_false]
        show Time.fin ((1 : Nat) : Rat) ≤ _
        rw [Time.fin_le]
        push_cast
        linarith
      · cases h
        split
        · have : effDelay 1 (some .inf) = .inf := by simp [effDelay]
          rw [this]
          exact Time.le_inf _
        · exact le_refl _

theorem cars_good (F : CarsFate) (r : Ref) (s : Sched) (w : CarsSim × Nat) : ((carsHost F).step r s w).1 = .error ∨ GoodReply ((carsHost F).step r s w).1 := by
  cases h : ((carsHost F).step r s w).1 with
  | error => exact Or.inl rfl
  | dead => exact Or.inr trivial
  | ret d =>
    right
    have := CarsSim.turn_wait F r s.time w.1 d h
    cases d with
    | none => trivial
    | some t =>
      show (0 : Time) ≤ t
      by_cases ht : t = 0
      · rw [ht]
      · simp only [effDelay, ht, if_false] at this
        refine le_trans ?_ this
        show Time.fin 0 ≤ Time.fin ((1 : Nat) : Rat)
        simp

theorem cars_keeps (F : CarsFate) (width height : Nat) (cs rs : List GridCell) :
    KeepsInv (carsHost F) 1 (fun s w => CarsInv F width height cs rs s.log s.agents w.1.ride) where
  same s s' w h hl ha _ := by rw [hl, ha]; exact h
  shuffle s l w h := h
  act r s w hi h hmem hmin _ hg := by
    have hne : (w.1.turn F r s.time).1 ≠ .error := by
      intro he
      have : ((carsHost F).step r s w).1 = .error := he
      rw [this] at hg
      exact hg
    have := h.turn hmem hmin hne
    show CarsInv F width height cs rs ((s.applyOps (w.1.turn F r s.time).2.1).logAct r s.time (w.1.turn F r s.time).1).log
      ((s.applyOps (w.1.turn F r s.time).2.1).logAct r s.time (w.1.turn F r s.time).1).agents (w.1.turn F r s.time).2.2.ride
    rcases w.1.turn_ops F r s.time with e | e
    · rw [e] at this ⊢
      exact this
    · rw [e] at this ⊢
      exact this

/-- All about a state of the simulation. -/
structure CarsOk (F : CarsFate) (width height : Nat) (cs rs : List GridCell) (x : Sched × CarsSim × Nat) : Prop where
  inv : Inv x.1
  interval : x.1.interval = 1
  good : GoodLog x.1.log
  fine : CarsInv F width height cs rs x.1.log x.1.agents x.2.1.ride
  running : x.1.running = true
  log : x.1.log ≠ []

theorem runBucket_good {W : Type} {H : Host W} (hge : ∀ r s w, (H.step r s w).1 = .error ∨ GoodReply (H.step r s w).1) (now : Time) (b : List Ref) (s : Sched)
    (w : W) (hg : GoodLog s.log) (hb : (runBucket H now b s w).2.2 = false) : GoodLog (runBucket H now b s w).1.log := by
  induction b generalizing s w with
  | nil => exact hg
  | cons r rest ih =>
    rw [runBucket_cons] at hb ⊢
    simp only at hb ⊢
    split
    · rename_i he
      rw [if_pos he] at hb
      cases hb
    · rename_i he
      rw [if_neg he] at hb
      refine ih _ _ ?_ hb
      rw [afterAct_log]
      obtain ⟨l3, hl3, ha3⟩ := applyOps_log s (H.step r s w).2.1
      rw [hl3]
      intro e hme
      rcases List.mem_append.1 hme with hme | hme
      · rcases List.mem_append.1 hme with hme | hme
        · exact hg e hme
        · cases e with
          | added q t => trivial
          | act q t rep =>
            have : q ∈ actRefs l3 := List.mem_filterMap.2 ⟨_, hme, rfl⟩
            rw [ha3] at this
            cases this
      · rw [List.mem_singleton.1 hme]
        exact (hge r s w).resolve_left he

theorem step_good {W : Type} {H : Host W} (hge : ∀ r s w, (H.step r s w).1 = .error ∨ GoodReply (H.step r s w).1) (s : Sched) (w : W) (hg : GoodLog s.log)
    (hb : (s.step H w).2.2 = false) : GoodLog (s.step H w).1.log := by
  unfold Sched.step at hb ⊢
  split
  · exact hg
  · rename_i t b q hq
    split
    · exact hg
    · rename_i hlt
      simp only [hq, if_neg hlt] at hb
      simp only
      unfold finishStep at hb ⊢
      split
      · rename_i hx
        rw [if_pos hx, hx] at hb
        cases hb
      · rename_i hx
        exact runBucket_good hge _ _ _ _ hg (Bool.eq_false_iff.2 hx)

theorem runBucket_running {W : Type} {H : Host W} (hns : ∀ r s w, SOp.stop ∉ (H.step r s w).2.1) (now : Time) (b : List Ref) (s : Sched) (w : W) :
    (runBucket H now b s w).1.running = s.running := by
  induction b generalizing s w with
  | nil => rfl
  | cons r b ih =>
    have hr := applyOps_running s _ (hns r s w)
    simp only [runBucket]
    split
    · exact hr
    · exact (ih _ _).trans hr
    · refine (ih _ _).trans ?_
      split
      · exact hr
      · exact hr

theorem step_running {W : Type} {H : Host W} (hns : ∀ r s w, SOp.stop ∉ (H.step r s w).2.1) (s : Sched) (w : W) : (s.step H w).1.running = s.running := by
  unfold Sched.step
  split
  · rfl
  · split
    · rfl
    · unfold finishStep
      simp only
      split
      · exact runBucket_running hns _ _ _ _
      · exact runBucket_running hns _ _ _ _

theorem cars_nostop (F : CarsFate) (r : Ref) (s : Sched) (w : CarsSim × Nat) : SOp.stop ∉ ((carsHost F).step r s w).2.1 := by
  show SOp.stop ∉ (w.1.turn F r s.time).2.1
  rcases w.1.turn_ops F r s.time with e | e <;> rw [e] <;> simp

theorem CarsOk.step {F : CarsFate} {width height : Nat} {cs rs : List GridCell} {x : Sched × CarsSim × Nat} (h : CarsOk F width height cs rs x)
    (hb : (x.1.step (carsHost F) x.2).2.2 = false) :
    CarsOk F width height cs rs ((x.1.step (carsHost F) x.2).1, (x.1.step (carsHost F) x.2).2.1) := by
  have hg := step_good (cars_good F) x.1 x.2 h.good hb
  obtain ⟨i1, -, -⟩ := h.inv.step (carsHost F) x.2 hg
  refine ⟨i1, (execAll_interval (carsHost F) [.step] x).trans h.interval, hg, (cars_keeps F width height cs rs).step h.inv h.interval (w := x.2) h.fine hg,
    (step_running (cars_nostop F) x.1 x.2).trans h.running, ?_⟩
  obtain ⟨l, hl⟩ := (Cmd.step (W := CarsSim × Nat)).exec_log (carsHost F) x
  have : (x.1.step (carsHost F) x.2).1.log = x.1.log ++ l := hl
  simp only
  rw [this]
  simp [h.log]

theorem Ride.init_wake (width height : Nat) (cs rs : List GridCell) (r : Ref) :
    (Ride.init width height cs rs).wake r = if r < cs.length + rs.length then some 0 else none := by
  unfold Ride.wake Ride.due Ride.init
  simp only [List.length_map, List.getElem?_map]
  split
  · rename_i hr
    rw [List.getElem?_eq_getElem hr, if_pos (Nat.lt_of_lt_of_le hr (Nat.le_add_right _ _))]
    simp
  · rename_i hr
    have h2 := Nat.not_lt.1 hr
    by_cases hlt : r < cs.length + rs.length
    · have : r - cs.length < rs.length := Nat.sub_lt_left_of_lt_add h2 hlt
      rw [List.getElem?_eq_getElem this, if_pos hlt]
      simp
    · rw [if_neg hlt, List.getElem?_eq_none_iff.2 (Nat.le_sub_of_add_le (by rw [Nat.add_comm]; exact Nat.not_lt.1 hlt))]
      rfl

theorem adds_log (iv : Time) (sh : Bool) (n : Nat) :
    ((Sched.init iv sh).applyOps ((List.range n).map (fun r => .add r none))).log = (List.range n).map (fun r => Ev.added r 0) := by
  rw [applyOps_adds_log]
  rfl

theorem range_filter_eq (n i : Nat) : (List.range n).filter (· = i) = if i < n then [i] else [] := by
  induction n with
  | zero => simp
  | succ n ih =>
    rw [List.range_succ, List.filter_append, ih]
    rcases lt_trichotomy i n with h | h | h
    · rw [if_pos h, if_pos (by omega), List.filter_cons_of_neg (by simp; omega)]; rfl
    · subst h
      rw [if_neg (by omega), if_pos (by omega), List.filter_cons_of_pos (by simp)]; rfl
    · rw [if_neg (by omega), if_neg (by omega), List.filter_cons_of_neg (by simp; omega)]; rfl

theorem adds_pending (iv : Time) (n : Nat) (r : Ref) : pendingOf (cal iv ((List.range n).map (fun r => Ev.added r 0))) r = if r < n then [0] else [] := by
  have := pendingOf_cal_adds iv [] (List.range n) 0 r
  rw [List.nil_append] at this
  rw [this, range_filter_eq]
  split <;> rfl

theorem carsInv_init (F : CarsFate) (width height : Nat) (cs rs : List GridCell) :
    CarsInv F width height cs rs ((List.range (cs.length + rs.length)).map (fun r => Ev.added r 0)) (List.range (cs.length + rs.length))
      (Ride.init width height cs rs) := by
  refine ⟨⟨[], rfl, rfl, fun j d tip hx => (nomatch hx)⟩, by simp [Ride.init], by simp [Ride.init], ?_, ?_, ?_, List.nodup_range⟩
  · intro r t hr
    rw [Ride.init_wake] at hr
    rw [adds_pending]
    split at hr
    · rename_i hlt
      cases hr
      rw [if_pos hlt]
      simp
    · cases hr
  · intro r hr
    rw [Ride.init_wake] at hr
    left
    rw [adds_pending]
    split at hr
    · cases hr
    · rename_i hlt
      rw [if_neg hlt]
  · intro r
    rw [Ride.init_wake, List.mem_range]
    split
    · rename_i hlt
      simp [hlt]
    · rename_i hlt
      simp [hlt]

theorem cars_start_ok (F : CarsFate) (width height : Nat) (cs rs : List GridCell) (sh : Bool) (hne : 0 < cs.length + rs.length) :
    CarsOk F width height cs rs (carsStart width height cs rs sh) := by
  have hn := noop_adds (cs.length + rs.length) (.fin 1) sh
  simp only at hn
  have hlog := adds_log (.fin 1) sh (cs.length + rs.length)
  refine ⟨?_, hn.2.2.2.2.1, ?_, ?_, hn.2.2.2.2.2, ?_⟩
  · have h1 : ∀ (os : List SOp) (s : Sched), Inv s → Inv (s.applyOps os) := by
      intro os
      induction os with
      | nil => exact fun s h => h
      | cons o os ih => exact fun s h => ih _ (h.op o)
    refine h1 _ _ (Inv.init ?_ sh)
    show Time.fin 0 < Time.fin 1
    simp
  · show GoodLog ((Sched.init (.fin 1) sh).applyOps ((List.range (cs.length + rs.length)).map (fun r => .add r none))).log
    rw [hlog]
    intro e he
    obtain ⟨r, -, rfl⟩ := List.mem_map.1 he
    trivial
  · show CarsInv F width height cs rs ((Sched.init (.fin 1) sh).applyOps ((List.range (cs.length + rs.length)).map (fun r => .add r none))).log
      ((Sched.init (.fin 1) sh).applyOps ((List.range (cs.length + rs.length)).map (fun r => .add r none))).agents (Ride.init width height cs rs)
    rw [hlog, hn.2.1]
    exact carsInv_init F width height cs rs
  · show ((Sched.init (.fin 1) sh).applyOps ((List.range (cs.length + rs.length)).map (fun r => .add r none))).log ≠ []
    rw [hlog]
    intro h0
    have := congrArg List.length h0
    simp only [List.length_map, List.length_range, List.length_nil] at this
    omega

/-- The simulation after `k` steps. -/
def carsRun (F : CarsFate) (width height : Nat) (cs rs : List GridCell) (sh : Bool) (k : Nat) : Sched × CarsSim × Nat :=
  iterStep (timedStepper (carsHost F)) k (carsStart width height cs rs sh)

theorem cars_run_ok (F : CarsFate) (width height : Nat) (cs rs : List GridCell) (sh : Bool) (hne : 0 < cs.length + rs.length) (k : Nat)
    (hk : ∀ m < k, ((timedStepper (carsHost F)).step (carsRun F width height cs rs sh m)).2 = false) :
    CarsOk F width height cs rs (carsRun F width height cs rs sh k) := by
  induction k with
  | zero => exact cars_start_ok F width height cs rs sh hne
  | succ k ih =>
    unfold carsRun
    rw [iterStep_succ]
    exact (ih (fun m hm => hk m (by omega))).step (hk k (by omega))

theorem Ride.passengers_agents {c : Ride} {agents : List Ref} (hl : ∀ r, r ∈ agents ↔ c.wake r ≠ none) (hn : agents.Nodup) :
    c.passengers = agents.countP (fun r => decide (c.cabs.length ≤ r)) := by
  have h1 : c.passengers = ((List.range c.riders.length).filter (fun j => decide (c.wake (c.cabs.length + j) ≠ none))).length := by
    unfold Ride.passengers
    rw [List.countP_eq_length_filter]
    have hj : ∀ (l : List Rider) (n : Nat), (∀ (j : Nat) p, l[j]? = some p → (c.wake (c.cabs.length + (n + j)) ≠ none ↔ p.pc ≠ .dead)) →
        (l.filter (fun p => decide (p.pc ≠ .dead))).length = ((List.range' n l.length).filter (fun j => decide (c.wake (c.cabs.length + j) ≠ none))).length := by
      intro l
      induction l with
      | nil => intro n _; rfl
      | cons p l ih =>
        intro n h
        have h0 := h 0 p rfl
        have ih' := ih (n + 1) (fun j q hq => by
          have := h (j + 1) q hq
          rwa [show n + (j + 1) = n + 1 + j by omega] at this)
        rw [List.length_cons, List.range'_succ]
        rw [Nat.add_zero] at h0
        by_cases hp : p.pc = .dead
        · rw [List.filter_cons_of_neg (by simp [hp]), List.filter_cons_of_neg (by rw [decide_eq_true_eq, h0]; simp [hp])]
          exact ih'
        · rw [List.filter_cons_of_pos (by simp [hp]), List.filter_cons_of_pos (by rw [decide_eq_true_eq, h0]; exact hp), List.length_cons, List.length_cons, ih']
    have := hj c.riders 0 (by
      intro j p hp
      rw [Nat.zero_add]
      unfold Ride.wake Ride.due
      rw [if_neg (Nat.not_lt.2 (Nat.le_add_right _ _)), Nat.add_sub_cancel_left]
      simp only [hp, Option.bind_some]
      by_cases hd : p.pc = .dead <;> simp [hd])
    rw [this, List.range_eq_range']
  rw [h1, List.countP_eq_length_filter]
  have hmap : ((List.range c.riders.length).filter (fun j => decide (c.wake (c.cabs.length + j) ≠ none))).length =
      (((List.range c.riders.length).filter (fun j => decide (c.wake (c.cabs.length + j) ≠ none))).map (c.cabs.length + ·)).length := by simp
  rw [hmap]
  apply List.Perm.length_eq
  refine (List.perm_ext_iff_of_nodup ?_ (hn.filter _)).2 ?_
  · exact (List.nodup_range.filter _).map (fun a b hab => Nat.add_left_cancel hab)
  · intro r
    simp only [List.mem_map, List.mem_filter, List.mem_range, decide_eq_true_eq]
    constructor
    · rintro ⟨j, ⟨-, hw⟩, rfl⟩
      exact ⟨(hl _).2 hw, Nat.le_add_right _ _⟩
    · rintro ⟨hr, hc⟩
      have hw := (hl r).1 hr
      obtain ⟨t, ht⟩ := Option.ne_none_iff_exists'.1 hw
      have hlt := Ride.wake_lt ht
      exact ⟨r - c.cabs.length, ⟨Nat.sub_lt_left_of_lt_add hc hlt, by rw [Nat.add_sub_cancel' hc]; exact hw⟩, Nat.add_sub_cancel' hc⟩

/-- C246: any state that a simulation reaches without an exception, whatever chance decides, is one that activations "in turn" lead to, so that all that was
proved of those (C152 to C161, C245) holds of it; every agent that goes on is scheduled once, for the time it asked for, and nobody else is but passengers that
have just arrived, for one time unit later; the agents of the scheduler are those that go on, so that `count_agents(agent_class=Passenger)` counts the passengers
on their way. -/
theorem C246_run (F : CarsFate) (width height : Nat) (cs rs : List GridCell) (sh : Bool) (hne : 0 < cs.length + rs.length) (k : Nat)
    (hk : ∀ m < k, ((timedStepper (carsHost F)).step (carsRun F width height cs rs sh m)).2 = false)
    (s : Sched) (w : CarsSim × Nat) (hx : carsRun F width height cs rs sh k = (s, w)) :
    (∃ es, w.1.ride = (Ride.run (Ride.init width height cs rs) es).1 ∧ (Ride.run (Ride.init width height cs rs) es).2 = false ∧
      ∀ j d tip, RideEv.rider j d tip ∈ es → ∃ k, d = F.dest k ∧ tip = F.tip k) ∧
    (∀ (i : Nat) q, w.1.ride.cabs[i]? = some q → pendingOf (pending s) i = if q.pc = .dead then [] else [.fin (q.next : Rat)]) ∧
    (∀ (j : Nat) p, w.1.ride.riders[j]? = some p →
      if p.pc = .dead then pendingOf (pending s) (cs.length + j) = [] ∨
        ∃ u : Nat, u ≤ w.1.ride.now ∧ pendingOf (pending s) (cs.length + j) = [.fin ((u : Rat) + 1)]
      else pendingOf (pending s) (cs.length + j) = [.fin (p.next : Rat)]) ∧
    (∀ r, cs.length + rs.length ≤ r → pendingOf (pending s) r = []) ∧
    w.1.ride.passengers = s.agents.countP (fun r => decide (cs.length ≤ r)) := by
  have h := cars_run_ok F width height cs rs sh hne k hk
  rw [hx] at h
  have hf := h.fine
  simp only at hf
  have hpp := h.inv.pending_perm
  rw [h.interval] at hpp
  simp only at hpp
  have hpe : ∀ r l, pendingOf (cal 1 s.log) r = l → l.length ≤ 1 → pendingOf (pending s) r = l := by
    intro r l hl h1
    have : (pendingOf (pending s) r).Perm (pendingOf (cal 1 s.log) r) := (hpp.filter _).map _
    rw [hl] at this
    match l, h1 with
    | [], _ => exact List.perm_nil.1 this
    | [a], _ => exact List.perm_singleton.1 this
  refine ⟨hf.run, ?_, ?_, ?_, ?_⟩
  · intro i q hq
    have hlt := (List.getElem?_eq_some_iff.1 hq).1
    by_cases hd : q.pc = .dead
    · rw [if_pos hd]
      have hw : w.1.ride.wake i = none := by simp only [Ride.wake, if_pos hlt, Ride.due, hq, Option.bind_some, if_pos hd]
      rcases hf.gone i hw with h1 | ⟨h1, -⟩
      · exact hpe _ _ h1 (by simp)
      · rw [hf.cabs] at hlt
        omega
    · rw [if_neg hd]
      exact hpe _ _ (hf.wake i q.next (by simp only [Ride.wake, if_pos hlt, Ride.due, hq, Option.bind_some, if_neg hd])) (by simp)
  · intro j p hp
    have hwk : w.1.ride.wake (cs.length + j) = if p.pc = .dead then none else some p.next := by
      unfold Ride.wake Ride.due
      rw [hf.cabs, if_neg (Nat.not_lt.2 (Nat.le_add_right _ _)), Nat.add_sub_cancel_left]
      simp only [hp, Option.bind_some]
    by_cases hd : p.pc = .dead
    · rw [if_pos hd]
      rw [if_pos hd] at hwk
      rcases hf.gone _ hwk with h1 | ⟨-, -, u, h2, h3⟩
      · exact Or.inl (hpe _ _ h1 (by simp))
      · exact Or.inr ⟨u, h2, hpe _ _ h3 (by simp)⟩
    · rw [if_neg hd]
      rw [if_neg hd] at hwk
      exact hpe _ _ (hf.wake _ _ hwk) (by simp)
  · intro r hr
    have hw : w.1.ride.wake r = none := by
      cases hc : w.1.ride.wake r with
      | none => rfl
      | some t =>
        have := Ride.wake_lt hc
        rw [hf.cabs, hf.riders] at this
        exact absurd this (Nat.not_lt.2 hr)
    rcases hf.gone r hw with h1 | ⟨-, h1, -⟩
    · exact hpe _ _ h1 (by simp)
    · exact absurd h1 (Nat.not_lt.2 hr)
  · rw [Ride.passengers_agents hf.live hf.nodup, hf.cabs]

/-! ### Square grids -/

/-- The destinations that `asking` draws are in the grid. -/
def CarsFate.Inside (F : CarsFate) (n : Nat) : Prop := ∀ k, 0 ≤ (F.dest k).1 ∧ (F.dest k).1 < n ∧ 0 ≤ (F.dest k).2 ∧ (F.dest k).2 < n

theorem CarsInv.fine {F : CarsFate} {n : Nat} {cs rs : List GridCell} {log : List Ev} {agents : List Ref} {c : Ride} (hn : 2 ≤ n) (hF : F.Inside n)
    (hcs0 : cs ≠ []) (hcs : ∀ x ∈ cs, InGrid n n x) (hrs : ∀ x ∈ rs, InGrid n n x) (h : CarsInv F n n cs rs log agents c) :
    c.Fine n (carsLast n rs.length) rs ∧ c.now ≤ carsLast n rs.length + 136 + 4 * (n - 1) := by
  obtain ⟨es, e1, -, e3⟩ := h.run
  have hes : ∀ j d tip, RideEv.rider j d tip ∈ es → InGrid n n d := by
    intro j d tip hm
    obtain ⟨k, rfl, -⟩ := e3 j d tip hm
    exact hF k
  rw [e1]
  exact ⟨(Ride.Fine.run hn es hes _ (Ride.init_fine n cs rs hcs0 hcs hrs)).1, (C245_ends n hn cs rs es hcs0 hcs hrs hes).1⟩

/-- While somebody is to be activated, the first of them is in turn. -/
theorem Ride.first_turn {c : Ride} {r : Ref} {t : Nat} (F : CarsFate) (h : c.wake r = some t) :
    ∃ (r' : Ref) (t' : Nat), c.wake r' = some t' ∧ t' ≤ t ∧ c.turn (c.eventOf F 0 r') t' = true := by
  classical
  have hex : ∃ t, ∃ r, c.wake r = some t := ⟨t, r, h⟩
  obtain ⟨r', hr'⟩ := Nat.find_spec hex
  refine ⟨r', Nat.find hex, hr', Nat.find_min' hex ⟨r, h⟩, ?_⟩
  exact Ride.turn_of _ _ _ (by rw [Ride.due_eventOf, hr']) (fun q t' hq => Nat.find_min' hex ⟨q, hq⟩)

theorem CarsInv.safe {F : CarsFate} {n : Nat} {cs rs : List GridCell} {log : List Ev} {agents : List Ref} {w : CarsSim} (hn : 2 ≤ n) (hF : F.Inside n)
    (hcs0 : cs ≠ []) (hcs : ∀ x ∈ cs, InGrid n n x) (hrs : ∀ x ∈ rs, InGrid n n x) (h : CarsInv F n n cs rs log agents w.ride) {r : Ref} {now : Time}
    (hmem : (r, now) ∈ cal 1 log) (hmin : ∀ p ∈ cal 1 log, now ≤ p.2) : (w.turn F r now).1 ≠ .error := by
  have hpend := mem_pendingOf.2 hmem
  unfold CarsSim.turn
  simp only [Ride.due_eventOf]
  cases hw : w.ride.wake r with
  | none => simp
  | some t =>
    have hnow : now = .fin (t : Rat) := by
      rw [h.wake r t hw] at hpend
      exact List.mem_singleton.1 hpend
    subst hnow
    have hturn : w.ride.turn (w.ride.eventOf F w.used r) t = true := by
      refine Ride.turn_of _ _ _ (by rw [Ride.due_eventOf, hw]) ?_
      intro q t' hq
      have hm : (q, Time.fin (t' : Rat)) ∈ cal 1 log := mem_pendingOf.1 (by rw [h.wake q t' hq]; simp)
      have h2 : (t : Rat) ≤ (t' : Rat) := hmin _ hm
      exact_mod_cast h2
    obtain ⟨h1, -⟩ := (h.fine hn hF hcs0 hcs hrs).1.act hn _ t hturn (by
      intro j d tip he
      unfold Ride.eventOf at he
      split at he
      · cases he
      · cases he
        exact hF _)
    simp only [wholeTime_nat]
    rw [h1]
    simp only [Bool.false_eq_true, if_false]
    split <;> simp

theorem CarsOk.safe {F : CarsFate} {n : Nat} {cs rs : List GridCell} (hn : 2 ≤ n) (hF : F.Inside n) (hcs0 : cs ≠ []) (hcs : ∀ x ∈ cs, InGrid n n x)
    (hrs : ∀ x ∈ rs, InGrid n n x) {x : Sched × CarsSim × Nat} (h : CarsOk F n n cs rs x) : (x.1.step (carsHost F) x.2).2.2 = false := by
  have hg : GoodLog (x.1.step (carsHost F) x.2).1.log := by
    by_contra hb
    obtain ⟨r, s1, w1, h1, -, h2, h3, -, -, h4⟩ := (cars_keeps F n n cs rs).steps_error (cars_good F) h.inv h.interval (w := x.2) h.fine 0 h.good hb
    exact h1.safe hn hF hcs0 hcs hrs h2 h4 h3
  exact (h.inv.step (carsHost F) x.2 hg).2.1

theorem cars_run_fine {F : CarsFate} {n : Nat} {cs rs : List GridCell} (hn : 2 ≤ n) (hF : F.Inside n) (hcs0 : cs ≠ []) (hcs : ∀ x ∈ cs, InGrid n n x)
    (hrs : ∀ x ∈ rs, InGrid n n x) (sh : Bool) (k : Nat) : CarsOk F n n cs rs (carsRun F n n cs rs sh k) := by
  have hne : 0 < cs.length + rs.length := by
    have := List.length_pos_iff.2 hcs0
    omega
  induction k with
  | zero => exact cars_start_ok F n n cs rs sh hne
  | succ k ih =>
    unfold carsRun
    rw [iterStep_succ]
    exact ih.step (ih.safe hn hF hcs0 hcs hrs)

/-- C246: on square grids with at least one driver no step of the scheduler ever raises, whatever chance decides. -/
theorem C246_safe (F : CarsFate) (n : Nat) (hn : 2 ≤ n) (cs rs : List GridCell) (hcs0 : cs ≠ []) (hcs : ∀ x ∈ cs, InGrid n n x)
    (hrs : ∀ x ∈ rs, InGrid n n x) (hF : ∀ k, 0 ≤ (F.dest k).1 ∧ (F.dest k).1 < n ∧ 0 ≤ (F.dest k).2 ∧ (F.dest k).2 < n) (sh : Bool) (k : Nat) :
    ((timedStepper (carsHost F)).step (carsRun F n n cs rs sh k)).2 = false :=
  (cars_run_fine hn hF hcs0 hcs hrs sh k).safe hn hF hcs0 hcs hrs

theorem CarsOk.time_le {F : CarsFate} {width height : Nat} {cs rs : List GridCell} {x : Sched × CarsSim × Nat} (h : CarsOk F width height cs rs x) {r : Ref} {t : Nat}
    (hw : x.2.1.ride.wake r = some t) : x.1.time ≤ .fin (t : Rat) := by
  have hm : (r, Time.fin (t : Rat)) ∈ cal 1 x.1.log := mem_pendingOf.1 (by rw [h.fine.wake r t hw]; simp)
  rw [← h.interval] at hm
  exact h.inv.mid.mem_le _ hm

theorem CarsOk.home {F : CarsFate} {n : Nat} {cs rs : List GridCell} (hn : 2 ≤ n) (hF : F.Inside n) (hcs0 : cs ≠ []) (hcs : ∀ x ∈ cs, InGrid n n x)
    (hrs : ∀ x ∈ rs, InGrid n n x) {x : Sched × CarsSim × Nat} (h : CarsOk F n n cs rs x)
    (ht : Time.fin ((carsLast n rs.length + 106 + 4 * (n - 1) : Nat) : Rat) < x.1.time) :
    ∀ p ∈ x.2.1.ride.riders, p.pc = .dead ∧ ∃ t, p.trip = some t ∧ p.pos = t.dest := by
  intro p hp
  obtain ⟨j, hj⟩ := List.mem_iff_getElem?.1 hp
  obtain ⟨hf, -⟩ := h.fine.fine hn hF hcs0 hcs hrs
  have hd : p.pc = .dead := by
    by_contra hd
    have hw : x.2.1.ride.wake (x.2.1.ride.cabs.length + j) = some p.next := by
      unfold Ride.wake Ride.due
      rw [if_neg (Nat.not_lt.2 (Nat.le_add_right _ _)), Nat.add_sub_cancel_left]
      simp only [hj, Option.bind_some, if_neg hd]
    obtain ⟨r', t', h1, -, h3⟩ := Ride.first_turn F hw
    have h4 := (hf.ending.tick t' (hf.ok.turn_now h3)).alive_now (hf.ok.tick _ _ h3) (j := j) (p := p) hj hd
    have h5 : t' ≤ carsLast n rs.length + 106 + 4 * (n - 1) := h4
    have h6 := lt_of_lt_of_le ht (h.time_le h1)
    have h7 : ((carsLast n rs.length + 106 + 4 * (n - 1) : Nat) : Rat) < (t' : Rat) := h6
    have h8 : carsLast n rs.length + 106 + 4 * (n - 1) < t' := by exact_mod_cast h7
    omega
  obtain ⟨t, ht, _, _, h3⟩ := (hf.ok.rider j p hj).trip (by rw [hd]; simp)
  exact ⟨hd, t, ht, h3 hd⟩

theorem CarsOk.ended {F : CarsFate} {n : Nat} {cs rs : List GridCell} (hn : 2 ≤ n) (hF : F.Inside n) (hcs0 : cs ≠ []) (hcs : ∀ x ∈ cs, InGrid n n x)
    (hrs : ∀ x ∈ rs, InGrid n n x) {x : Sched × CarsSim × Nat} (h : CarsOk F n n cs rs x)
    (ht : Time.fin ((carsLast n rs.length + 137 + 4 * (n - 1) : Nat) : Rat) < x.1.time) :
    x.1.queue = [] ∧ x.1.time = .inf ∧ x.1.agents = [] ∧ (∀ q ∈ x.2.1.ride.cabs, q.pc = .dead) ∧ 
    x.2.1.ride.total = (x.2.1.ride.riders.map (fun p => p.trip.elim 0 Trip.tip)).sum ∧ x.2.1.ride.total = (x.2.1.ride.cabs.map Cab.earnings).sum := by
  obtain ⟨hf, hnow⟩ := h.fine.fine hn hF hcs0 hcs hrs
  have hno : ∀ r, x.2.1.ride.wake r = none := by
    intro r
    cases hw : x.2.1.ride.wake r with
    | none => rfl
    | some t =>
      exfalso
      obtain ⟨r', t', h1, -, h3⟩ := Ride.first_turn F hw
      have h6 := lt_of_lt_of_le ht (h.time_le h1)
      have h7 : ((carsLast n rs.length + 137 + 4 * (n - 1) : Nat) : Rat) < (t' : Rat) := h6
      have h8 : carsLast n rs.length + 137 + 4 * (n - 1) < t' := by exact_mod_cast h7
      have hlt := Ride.wake_lt h1
      unfold Ride.wake at h1
      split at h1
      · obtain ⟨q, hq, hx⟩ := Option.bind_eq_some_iff.1 h1
        split at hx
        · cases hx
        · rename_i hne
          cases hx
          have := hf.ending.last r' q hq hne
          omega
      · obtain ⟨p, hp, hx⟩ := Option.bind_eq_some_iff.1 h1
        split at hx
        · cases hx
        · rename_i hne
          cases hx
          have h4 := (hf.ending.tick p.next (hf.ok.turn_now h3)).alive_now (hf.ok.tick _ _ h3) hp hne
          have h5 : p.next ≤ carsLast n rs.length + 106 + 4 * (n - 1) := h4
          omega
  have hq : x.1.queue = [] := by
    by_contra hq
    have hcal : cal 1 x.1.log = [] := by
      rw [List.eq_nil_iff_forall_not_mem]
      intro p hp
      have hp2 := mem_pendingOf.2 (show (p.1, p.2) ∈ cal 1 x.1.log from hp)
      rcases h.fine.gone p.1 (hno p.1) with h1 | ⟨-, -, u, h2, h3⟩
      · rw [h1] at hp2; cases hp2
      · rw [h3] at hp2
        have h4 := List.mem_singleton.1 hp2
        have h5 : x.1.time ≤ p.2 := by
          have hp' := hp
          rw [← h.interval] at hp'
          exact h.inv.mid.mem_le _ hp'
        rw [h4] at h5
        have h6 := lt_of_lt_of_le ht h5
        have h7 : ((carsLast n rs.length + 137 + 4 * (n - 1) : Nat) : Rat) < (u : Rat) + 1 := h6
        have h8 : carsLast n rs.length + 137 + 4 * (n - 1) < u + 1 := by exact_mod_cast h7
        omega
    have hp := h.inv.pending_perm
    rw [h.interval, hcal] at hp
    have hp0 := List.perm_nil.1 hp
    obtain ⟨c, q, hc⟩ := List.exists_cons_of_ne_nil hq
    have hcne := h.inv.ne c (by rw [hc]; simp)
    obtain ⟨r, l, hrl⟩ := List.exists_cons_of_ne_nil hcne
    unfold pending at hp0
    rw [hc] at hp0
    simp [hrl] at hp0
  refine ⟨hq, (h.inv.empty hq).resolve_left h.log, ?_, ?_⟩
  · rw [List.eq_nil_iff_forall_not_mem]
    intro r hr
    exact (h.fine.live r).1 hr (hno r)
  · obtain ⟨es, e1, -, -⟩ := h.fine.run
    rcases C245_complete n n cs rs es _ e1 with ⟨e, t, h1⟩ | ⟨h1, -, h2, h3⟩
    · exfalso
      have hd := Ride.turn_due h1
      cases e with
      | cab i k =>
        obtain ⟨q, hq1, -⟩ := Option.bind_eq_some_iff.1 hd
        have hlt := (List.getElem?_eq_some_iff.1 hq1).1
        have := hno i
        unfold Ride.wake at this
        rw [if_pos hlt] at this
        have h5 : x.2.1.ride.due (.cab i 0) = some t := hd
        rw [h5] at this
        cases this
      | rider j d tip =>
        have := hno (x.2.1.ride.cabs.length + j)
        unfold Ride.wake at this
        rw [if_neg (Nat.not_lt.2 (Nat.le_add_right _ _)), Nat.add_sub_cancel_left] at this
        have h5 : x.2.1.ride.due (.rider j (0, 0) 0) = some t := hd
        rw [h5] at this
        cases this
    · exact ⟨h1, h2, h3⟩

/-- C246: in the scheduler too everybody gets home: once the clock is later than the bound (on a square grid of side `n` with `k` passengers:
30 + (k - 1) · max (47 + 4 (n - 1)) 90 + 106 + 4 (n - 1)), all passengers are at their destinations and have stopped. -/
theorem C246_home (F : CarsFate) (n : Nat) (hn : 2 ≤ n) (cs rs : List GridCell) (hcs0 : cs ≠ []) (hcs : ∀ x ∈ cs, InGrid n n x)
    (hrs : ∀ x ∈ rs, InGrid n n x) (hF : ∀ k, 0 ≤ (F.dest k).1 ∧ (F.dest k).1 < n ∧ 0 ≤ (F.dest k).2 ∧ (F.dest k).2 < n) (sh : Bool) (k : Nat)
    (ht : Time.fin ((30 + (rs.length - 1) * max (47 + 4 * (n - 1)) 90 + 106 + 4 * (n - 1) : Nat) : Rat) < (carsRun F n n cs rs sh k).1.time) :
    ∀ p ∈ (carsRun F n n cs rs sh k).2.1.ride.riders, p.pc = .dead ∧ ∃ t, p.trip = some t ∧ p.pos = t.dest :=
  (cars_run_fine hn hF hcs0 hcs hrs sh k).home hn hF hcs0 hcs hrs ht

theorem cars_reach (F : CarsFate) (width height : Nat) (cs rs : List GridCell) (sh : Bool) :
    carsStart width height cs rs sh = reach (carsHost F) 1 sh (⟨Ride.init width height cs rs, 0⟩, 0) ((List.range (cs.length + rs.length)).map (fun r => .op (.add r none))) := by
  have key : ∀ (l : List Ref) (s : Sched) (w : CarsSim × Nat), execAll (carsHost F) (l.map (fun r => Cmd.op (.add r none))) (s, w) = (s.applyOps (l.map (fun r => .add r none)), w) := by
    intro l
    induction l with
    | nil => intro s w; rfl
    | cons r l ih => intro s w; exact ih _ w
  unfold reach
  rw [key]
  rfl

/-- C246: a simulation with a `max_time` ends without an exception, whatever chance decides. If `max_time` is later than the bound, everybody is at home at the
end. If it is later by 32 or more, all drivers have stopped too, there are no agents left, nothing is scheduled (the clock is at infinity), and `total_earnings` is the sum
of the tips of all passengers and what the drivers earned. -/
theorem C246_ends (F : CarsFate) (n : Nat) (hn : 2 ≤ n) (cs rs : List GridCell) (hcs0 : cs ≠ []) (hcs : ∀ x ∈ cs, InGrid n n x)
    (hrs : ∀ x ∈ rs, InGrid n n x) (hF : ∀ k, 0 ≤ (F.dest k).1 ∧ (F.dest k).1 < n ∧ 0 ≤ (F.dest k).2 ∧ (F.dest k).2 < n) (sh : Bool) (maxTime bound : Nat)
    (hb : bound = 30 + (rs.length - 1) * max (47 + 4 * (n - 1)) 90 + 106 + 4 * (n - 1)) :
    ∃ fuel s w, runModel (timedStepper (carsHost F)) (some (.fin (maxTime : Rat))) none fuel (carsStart n n cs rs sh) = .done (s, w) ∧
      (bound < maxTime → ∀ p ∈ w.1.ride.riders, p.pc = .dead ∧ ∃ t, p.trip = some t ∧ p.pos = t.dest) ∧
      (bound + 31 < maxTime → s.queue = [] ∧ s.time = .inf ∧ s.agents = [] ∧ (∀ q ∈ w.1.ride.cabs, q.pc = .dead) ∧
        w.1.ride.total = (w.1.ride.riders.map (fun p => p.trip.elim 0 Trip.tip)).sum ∧ w.1.ride.total = (w.1.ride.cabs.map Cab.earnings).sum) := by
  have hne : 0 < cs.length + rs.length := by
    have := List.length_pos_iff.2 hcs0
    omega
  have h0 := cars_start_ok F n n cs rs sh hne
  have hna : (timedStepper (carsHost F)).noAgents (carsStart n n cs rs sh) = false := by
    have hn' := noop_adds (cs.length + rs.length) (.fin 1) sh
    simp only at hn'
    have : (carsStart n n cs rs sh).1.agents = List.range (cs.length + rs.length) := hn'.2.1
    simp only [timedStepper, this]
    rw [List.isEmpty_eq_false_iff]
    intro hc
    have := congrArg List.length hc
    simp only [List.length_range, List.length_nil] at this
    omega
  obtain ⟨fuel, hfuel⟩ := C18_terminates_host (carsHost F) 1 (by decide +kernel) sh (⟨Ride.init n n cs rs, 0⟩, 0)
    ((List.range (cs.length + rs.length)).map (fun r => .op (.add r none))) (by rw [← cars_reach]; exact h0.good) (maxTime : Rat) 1 (by norm_num) none
    (fun r s w d h => CarsSim.turn_wait F r s.time w.1 d h)
    (fun r s w q wh => by
      show SOp.add q wh ∉ (w.1.turn F r s.time).2.1
      rcases w.1.turn_ops F r s.time with e | e <;> rw [e] <;> simp)
  rw [← cars_reach F n n cs rs sh] at hfuel
  have hrun : ∀ fuel k, (∃ x, runLoop (timedStepper (carsHost F)) (some (.fin (maxTime : Rat))) none fuel (carsRun F n n cs rs sh k) = .running x) ∨
      ∃ m, runLoop (timedStepper (carsHost F)) (some (.fin (maxTime : Rat))) none fuel (carsRun F n n cs rs sh k) = .done (carsRun F n n cs rs sh m) ∧
        isDone (timedStepper (carsHost F)) (some (.fin (maxTime : Rat))) none (carsRun F n n cs rs sh m) = true := by
    intro fuel
    induction fuel with
    | zero =>
      intro k
      unfold runLoop
      split
      · rename_i hd
        exact Or.inr ⟨k, rfl, hd⟩
      · exact Or.inl ⟨_, rfl⟩
    | succ fuel ih =>
      intro k
      unfold runLoop
      split
      · rename_i hd
        exact Or.inr ⟨k, rfl, hd⟩
      · simp only
        rw [C246_safe F n hn cs rs hcs0 hcs hrs hF sh k]
        have : ((timedStepper (carsHost F)).step (carsRun F n n cs rs sh k)).1 = carsRun F n n cs rs sh (k + 1) := by
          unfold carsRun
          rw [iterStep_succ]
        rw [this]
        exact ih (k + 1)
  refine ⟨fuel, ?_⟩
  unfold runModel at hfuel ⊢
  rw [hna] at hfuel ⊢
  simp only [Bool.false_eq_true, if_false] at hfuel ⊢
  rcases hrun fuel 0 with ⟨x, hx⟩ | ⟨m, hx, hd⟩
  · exact absurd hx (hfuel x)
  · have hok := cars_run_fine hn hF hcs0 hcs hrs sh m
    have htime : Time.fin (maxTime : Rat) ≤ (carsRun F n n cs rs sh m).1.time := by
      simp only [isDone, Bool.or_eq_true, decide_eq_true_eq] at hd
      rcases hd with hd | hd
      · have : (timedStepper (carsHost F)).running (carsRun F n n cs rs sh m) = true := hok.running
        rw [this] at hd
        cases hd
      · exact hd
    refine ⟨(carsRun F n n cs rs sh m).1, (carsRun F n n cs rs sh m).2, hx, ?_, ?_⟩
    · intro hlt
      refine hok.home hn hF hcs0 hcs hrs (lt_of_lt_of_le ?_ htime)
      rw [Time.fin_lt]
      have : carsLast n rs.length + 106 + 4 * (n - 1) < maxTime := by unfold carsLast; omega
      exact_mod_cast this
    · intro hlt
      refine hok.ended hn hF hcs0 hcs hrs (lt_of_lt_of_le ?_ htime)
      rw [Time.fin_lt]
      have : carsLast n rs.length + 137 + 4 * (n - 1) < maxTime := by unfold carsLast; omega
      exact_mod_cast this

/-- C246: the simulation of the file (`easy(simulation)`: one driver, two passengers, 100 × 100 cells, `max_time=1000`) ends without an exception, and both passengers
are at home at its end, whatever chance decides. -/
theorem C246_default (F : CarsFate) (a b1 b2 : GridCell) (ha : InGrid 100 100 a) (hb1 : InGrid 100 100 b1) (hb2 : InGrid 100 100 b2)
    (hF : ∀ k, 0 ≤ (F.dest k).1 ∧ (F.dest k).1 < 100 ∧ 0 ≤ (F.dest k).2 ∧ (F.dest k).2 < 100) (sh : Bool) :
    ∃ fuel s w, runModel (timedStepper (carsHost F)) (some (.fin ((1000 : Nat) : Rat))) none fuel (carsStart 100 100 [a] [b1, b2] sh) = .done (s, w) ∧
      ∀ p ∈ w.1.ride.riders, p.pc = .dead ∧ ∃ t, p.trip = some t ∧ p.pos = t.dest := by
  obtain ⟨fuel, s, w, h1, h2, -⟩ := C246_ends F 100 (by omega) [a] [b1, b2] (by simp) (by simpa using ha) (by
    intro x hx
    simp only [List.mem_cons, List.not_mem_nil, or_false] at hx
    rcases hx with rfl | rfl
    · exact hb1
    · exact hb2) hF sh 1000 _ rfl
  exact ⟨fuel, s, w, h1, h2 (by simp)⟩

/-- An activation that does not find its agent dead. -/
def Ev.alive : Ev → Bool
  | .act _ _ .dead => false
  | .act _ _ _ => true
  | .added _ _ => false

private theorem cars_draw_act {F : CarsFate} {s : Sched} {w : CarsSim × Nat} (h : w.1.used = s.log.countP Ev.alive) (r : Ref) (now : Time) :
    ((carsHost F).step r s w).2.2.1.used =
      (afterAct (s.applyOps ((carsHost F).step r s w).2.1) r now ((carsHost F).step r s w).1).log.countP Ev.alive := by
  have hlog : ∀ ops : List SOp, ops = [] ∨ ops = [.remove r] → (s.applyOps ops).log = s.log := by
    intro ops ho
    rcases ho with rfl | rfl <;> rfl
  have key : (((carsHost F).step r s w).2.1 = [] ∨ ((carsHost F).step r s w).2.1 = [.remove r]) ∧
      ((carsHost F).step r s w).2.2.1.used = w.1.used + [Ev.act r now ((carsHost F).step r s w).1].countP Ev.alive := by
    simp only [carsHost, AgentCode.timed, carsCode, CarsSim.turn]
    cases w.1.ride.due (w.1.ride.eventOf F w.1.used r) with
    | none => exact ⟨.inl rfl, rfl⟩
    | some t =>
      simp only
      split
      · exact ⟨.inl rfl, rfl⟩
      · split
        · exact ⟨.inl rfl, rfl⟩
        · exact ⟨.inr rfl, rfl⟩
  rw [afterAct_log, List.countP_append, hlog _ key.1, ← h]
  exact key.2

private theorem cars_draw_bucket {F : CarsFate} (now : Time) (b : List Ref) {s : Sched} {w : CarsSim × Nat} (h : w.1.used = s.log.countP Ev.alive) :
    (runBucket (carsHost F) now b s w).2.1.1.used = (runBucket (carsHost F) now b s w).1.log.countP Ev.alive := by
  induction b generalizing s w with
  | nil => exact h
  | cons r b ih =>
    rw [runBucket_cons]
    simp only
    split
    · exact cars_draw_act h r now
    · exact ih (cars_draw_act h r now)

/-- C246: after any number of steps, in any city, even after an exception, every activation of an agent that is not dead has drawn numbers of its own: as many have been
used as there were such activations. -/
theorem C246_draws (F : CarsFate) (width height : Nat) (cs rs : List GridCell) (sh : Bool) (k : Nat) :
    (carsRun F width height cs rs sh k).2.1.used = (carsRun F width height cs rs sh k).1.log.countP Ev.alive := by
  unfold carsRun
  induction k with
  | zero =>
    obtain ⟨l, hl, hl'⟩ := applyOps_log (Sched.init 1 sh) ((List.range (cs.length + rs.length)).map (fun r => .add r none))
    have : (carsStart width height cs rs sh).1.log = [] ++ l := hl
    have hz : l.countP Ev.alive = 0 := by
      rw [List.countP_eq_zero]
      intro e he ha
      cases e with
      | added r t => cases ha
      | act r t rep =>
        have : r ∈ actRefs l := by
          unfold actRefs
          exact List.mem_filterMap.mpr ⟨_, he, rfl⟩
        rw [hl'] at this
        cases this
    have e : (0 : Nat) = (carsStart width height cs rs sh).1.log.countP Ev.alive := by
      rw [this, List.nil_append, hz]
    exact e
  | succ k ih =>
    rw [iterStep_succ]
    generalize iterStep (timedStepper (carsHost F)) k (carsStart width height cs rs sh) = x at ih ⊢
    obtain ⟨s, w⟩ := x
    simp only at ih
    change (s.step (carsHost F) w).2.1.1.used = (s.step (carsHost F) w).1.log.countP Ev.alive
    simp only [Sched.step]
    split
    · exact ih
    · rename_i t b q _
      split
      · exact ih
      · have h0 : (runOrder (carsHost F) s b w).2.1.used = ({ s with queue := q } : Sched).log.countP Ev.alive := by
          simp only [runOrder]
          split <;> exact ih
        have := cars_draw_bucket (F := F) s.time (runOrder (carsHost F) s b w).1 h0
        simp only [finishStep]
        split
        · exact this
        · exact this

/-- Two passengers and a driver in a small city, with some of the orders reversed. -/
def smallFate : CarsFate where
  pick k := k
  dest k := if k % 2 = 0 then (2, 0) else (0, 1)
  tip k := 20 + k
  order k l := if k % 2 = 0 then l else l.reverse
  perm k l := by
    split
    · exact List.Perm.refl _
    · exact List.reverse_perm l

/-- The example satisfies the hypotheses; both passengers get home, the first at 121 (and is then still scheduled once more), and after 120 steps nothing is scheduled
and the driver has earned both tips. -/
def smallRun (k : Nat) : Sched × CarsSim × Nat := carsRun smallFate 3 3 [(1, 1)] [(0, 2), (2, 2)] true k

example : ∀ k, 0 ≤ (smallFate.dest k).1 ∧ (smallFate.dest k).1 < (3 : Nat) ∧ 0 ≤ (smallFate.dest k).2 ∧ (smallFate.dest k).2 < (3 : Nat) := by
  intro k
  unfold smallFate
  dsimp only
  split <;> decide

set_option maxRecDepth 100000 in
example : (smallRun 50).1.time = .fin 104 ∧ (smallRun 50).1.agents = [0, 1, 2] ∧ (smallRun 50).2.1.ride.total = 21 := by decide +kernel
set_option maxRecDepth 100000 in
example : (smallRun 120).1.time = .inf ∧ (smallRun 120).1.agents = [] ∧ (smallRun 120).2.1.ride.total = 43 ∧ (smallRun 120).2.1.ride.cabs.map Cab.earnings = [43] := by decide +kernel

set_option maxRecDepth 100000 in
example : (smallRun 50).2.1.used = (smallRun 50).1.log.countP Ev.alive ∧ (smallRun 50).2.1.used = 73 := by decide +kernel

set_option maxRecDepth 100000 in
/-- C246: it is not so that only the agents of the simulation are scheduled: a passenger that has got home calls `die` but does not return its result
(examples/cars/cars_sim.py:222), so that it is scheduled once more although it has been removed from the agents. `C246_run` says that this is all. -/
theorem C246_scheduled_false : ¬ ∀ (F : CarsFate) (n : Nat) (cs rs : List GridCell) (sh : Bool) (k : Nat) (r : Ref) (t : Time),
    (r, t) ∈ pending (carsRun F n n cs rs sh k).1 → r ∈ (carsRun F n n cs rs sh k).1.agents := by
  intro h
  have h0 : pendingOf (pending (smallRun 68).1) 1 = [.fin 122] := by decide +kernel
  have h1 : (1, Time.fin 122) ∈ pending (smallRun 68).1 := mem_pendingOf.1 (by rw [h0]; simp)
  have h2 : 1 ∉ (smallRun 68).1.agents := by decide +kernel
  exact h2 (h smallFate 3 _ _ _ _ _ _ h1)

end Verif
