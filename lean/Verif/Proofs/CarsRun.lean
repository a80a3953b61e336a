import Verif.Model.CarsRun
import Verif.Proofs.CarsEnd
import Verif.Proofs.RunInv
import Verif.Proofs.ExRabbits2

/-!
# The cars example inside the scheduler: lemmas
-/

namespace Verif
open Spec

/-- When the agent with the number `r` will be activated. -/
def Ride.wake (c : Ride) (r : Ref) : Option Nat :=
  if r < c.cabs.length then c.due (.cab r 0) else c.due (.rider (r - c.cabs.length) (0, 0) 0)

theorem Ride.due_eventOf (c : Ride) (F : CarsFate) (k : Nat) (r : Ref) : c.due (c.eventOf F k r) = c.wake r := by
  unfold Ride.eventOf Ride.wake
  split <;> rfl

theorem set_self_eq {α : Type} {l : List α} {i : Nat} {a b : α} (h : (l.set i a)[i]? = some b) : b = a := by
  have hi : i < l.length := by
    have := (List.getElem?_eq_some_iff.1 h).1
    simpa using this
  rw [List.getElem?_set_self hi] at h
  exact (Option.some.inj h).symm

theorem Ride.actCab_later (c : Ride) (i k : Nat) (h0 : c.due (.cab i k) ≠ none) (he : (c.actCab i k).2 = false) (t : Nat)
    (ht : (c.actCab i k).1.due (.cab i k) = some t) : c.now < t := by
  have key : ∀ (c' : Ride) q', c'.cabs = c.cabs.set i q' → (q'.pc = .dead ∨ c.now < q'.next) → c'.due (.cab i k) = some t → c.now < t := by
    intro c' q' h1 h2 h3
    obtain ⟨q1, hq1, hx⟩ := Option.bind_eq_some_iff.1 h3
    rw [h1] at hq1
    have := set_self_eq hq1
    subst this
    split at hx
    · cases hx
    · rename_i hne
      cases hx
      exact h2.resolve_left hne
  have listen : ∀ q g, ∃ q', (c.listen i q g).cabs = c.cabs.set i q' ∧ (q'.pc = .dead ∨ c.now < q'.next) := by
    intro q g
    unfold Ride.listen
    split
    · exact ⟨_, rfl, Or.inl rfl⟩
    · exact ⟨_, rfl, Or.inr (by simp)⟩
  have roam : ∀ q g, (c.roam i q g k).2 = false → ∃ q', (c.roam i q g k).1.cabs = c.cabs.set i q' ∧ (q'.pc = .dead ∨ c.now < q'.next) := by
    intro q g hx
    unfold Ride.roam at hx ⊢
    split at hx
    · rename_i p hp
      try simp only [hp]
      split at hx
      · rename_i hin
        rw [if_pos hin]
        exact listen _ _
      · cases hx
    · rename_i hp
      try simp only [hp]
      split at hx
      · cases hx
      · rename_i g' hg'
        simp only [hg']
        exact listen _ _
  have carry : ∀ q j tr, (c.carry i q j tr).2 = false → ∃ q', (c.carry i q j tr).1.cabs = c.cabs.set i q' ∧ (q'.pc = .dead ∨ c.now < q'.next) := by
    intro q j tr hx
    unfold Ride.carry at hx ⊢
    split at hx
    · rename_i hp
      try simp only [hp]
      unfold Ride.collect
      simp only
      split
      · exact ⟨_, rfl, Or.inl rfl⟩
      · exact ⟨_, rfl, Or.inr (by simp)⟩
    · rename_i p hp
      try simp only [hp]
      split at hx
      · rename_i hin
        rw [if_pos hin]
        exact ⟨_, rfl, Or.inr (by simp)⟩
      · cases hx
  suffices h : ∃ q', (c.actCab i k).1.cabs = c.cabs.set i q' ∧ (q'.pc = .dead ∨ c.now < q'.next) by
    obtain ⟨q', h1, h2⟩ := h
    exact key _ q' h1 h2 ht
  clear ht key
  cases hq : c.cabs[i]? with
  | none => exact absurd (by simp [Ride.due, hq]) h0
  | some q =>
    have hne : q.pc ≠ .dead := fun hd => h0 (by simp [Ride.due, hq, hd])
    unfold Ride.actCab at he ⊢
    simp only [hq] at he ⊢
    cases hpc : q.pc with
    | dead => exact absurd hpc hne
    | wander =>
      simp only [hpc] at he ⊢
      split
      · exact ⟨_, rfl, Or.inl rfl⟩
      · rename_i hp
        rw [if_neg hp] at he
        exact roam _ _ he
    | loop g =>
      simp only [hpc] at he ⊢
      cases hj : q.journey with
      | none =>
        simp only [hj] at he ⊢
        exact roam _ _ he
      | some j =>
        exact ⟨_, rfl, Or.inr (by simp)⟩
    | ask a e =>
      simp only [hpc] at he ⊢
      split
      · split
        · exact ⟨_, rfl, Or.inr (by simp)⟩
        · exact ⟨_, rfl, Or.inr (by simp)⟩
      · exact ⟨_, rfl, Or.inr (by simp)⟩
    | toOrigin =>
      simp only [hpc] at he ⊢
      cases hj : q.journey with
      | none => simp [hj] at he
      | some j =>
        simp only [hj] at he ⊢
        cases htr : (c.riders[j]?).bind Rider.trip with
        | none => simp [htr] at he
        | some tr =>
          simp only [htr] at he ⊢
          cases hw : towards q.pos tr.origin with
          | some p =>
            simp only [hw] at he ⊢
            split
            · exact ⟨_, rfl, Or.inr (by simp)⟩
            · rename_i hin
              rw [if_neg hin] at he
              cases he
          | none =>
            simp only [hw] at he ⊢
            exact carry _ _ _ he
    | toDest =>
      simp only [hpc] at he ⊢
      cases hj : q.journey with
      | none => simp [hj] at he
      | some j =>
        simp only [hj] at he ⊢
        cases htr : (c.riders[j]?).bind Rider.trip with
        | none => simp [htr] at he
        | some tr =>
          simp only [htr] at he ⊢
          exact carry _ _ _ he

theorem Ride.actRider_later (c : Ride) (j : Nat) (d : GridCell) (tip : Int) (h0 : c.due (.rider j d tip) ≠ none) (he : (c.actRider j d tip).2 = false) (t : Nat)
    (ht : (c.actRider j d tip).1.due (.rider j d tip) = some t) : c.now < t := by
  have key : ∀ (c' c'' : Ride) p', c''.riders = c'.riders.set j p' → (p'.pc = .dead ∨ c.now < p'.next) → c''.due (.rider j d tip) = some t → c.now < t := by
    intro c' c'' p' h1 h2 h3
    obtain ⟨p1, hp1, hx⟩ := Option.bind_eq_some_iff.1 h3
    rw [h1] at hp1
    have := set_self_eq hp1
    subst this
    split at hx
    · cases hx
    · rename_i hne
      cases hx
      exact h2.resolve_left hne
  have await : ∀ (c' : Ride) p e, c'.now = c.now → ∃ p', (c'.await j p e).riders = c'.riders.set j p' ∧ (p'.pc = .dead ∨ c.now < p'.next) := by
    intro c' p e hn
    unfold Ride.await
    simp only
    split
    · exact ⟨_, rfl, Or.inr (by simp [hn])⟩
    · exact ⟨_, rfl, Or.inr (by simp [hn])⟩
  have home : ∀ (c' : Ride) p, c'.now = c.now → (c'.homeward j p).2 = false →
      ∃ p', (c'.homeward j p).1.riders = c'.riders.set j p' ∧ (p'.pc = .dead ∨ c.now < p'.next) := by
    intro c' p hn hx
    unfold Ride.homeward at hx ⊢
    split at hx
    · cases hx
    · rename_i tr htr
      try simp only [htr]
      split
      · exact ⟨_, rfl, Or.inr (by simp [hn])⟩
      · exact ⟨_, rfl, Or.inl rfl⟩
  suffices h : ∃ (c' : Ride) (p' : Rider), (c.actRider j d tip).1.riders = c'.riders.set j p' ∧ (p'.pc = .dead ∨ c.now < p'.next) by
    obtain ⟨c', p', h1, h2⟩ := h
    exact key c' _ p' h1 h2 ht
  clear ht key
  cases hp : c.riders[j]? with
  | none => exact absurd (by simp [Ride.due, hp]) h0
  | some p =>
    have hne : p.pc ≠ .dead := fun hd => h0 (by simp [Ride.due, hp, hd])
    unfold Ride.actRider at he ⊢
    simp only [hp] at he ⊢
    cases hpc : p.pc with
    | dead => exact absurd hpc hne
    | start =>
      exact ⟨_, await _ _ _ rfl⟩
    | wait e =>
      simp only [hpc] at he ⊢
      split
      · exact ⟨_, await _ _ _ rfl⟩
      · exact ⟨_, await _ _ _ rfl⟩
    | home =>
      simp only [hpc] at he ⊢
      exact ⟨_, home _ _ rfl he⟩
    | ride e =>
      simp only [hpc] at he ⊢
      split
      · rename_i hlt
        rw [if_pos hlt] at he
        split
        · exact ⟨c, _, rfl, Or.inr (by simp)⟩
        · rename_i hin
          rw [if_neg hin] at he
          exact ⟨_, home _ _ rfl he⟩
      · rename_i hlt
        rw [if_neg hlt] at he
        exact ⟨_, home _ _ rfl he⟩

/-- An activation that does not raise puts the agent's next one later. -/
theorem Ride.act_later (c : Ride) (e : RideEv) (h0 : c.due e ≠ none) (he : (c.act e).2 = false) (t : Nat) (ht : (c.act e).1.due e = some t) : c.now < t := by
  cases e with
  | cab i k => exact c.actCab_later i k h0 he t ht
  | rider j d tip => exact c.actRider_later j d tip h0 he t ht

theorem lt_add_of_sub {n a b : Nat} (h1 : n ≤ a) (h2 : a - n < b) : a < n + b := by omega

theorem sub_ne {n a b : Nat} (h1 : n ≤ a) (h2 : n ≤ b) (h : a ≠ b) : a - n ≠ b - n := by omega

/-- An activation only changes when the agent itself is due. -/
theorem Ride.act_frame (c : Ride) (F : CarsFate) (k : Nat) (r : Ref) :
    (c.act (c.eventOf F k r)).1.cabs.length = c.cabs.length ∧ (c.act (c.eventOf F k r)).1.riders.length = c.riders.length ∧
    (c.act (c.eventOf F k r)).1.now = c.now ∧ ∀ r', r' ≠ r → (c.act (c.eventOf F k r)).1.wake r' = c.wake r' := by
  unfold Ride.eventOf
  split
  · rename_i hr
    obtain ⟨h1, ⟨m, f, hf, h2⟩, h3, -⟩ := c.actCab_frame r (F.pick k)
    have hl : (c.actCab r (F.pick k)).1.cabs.length = c.cabs.length := by
      rcases h1 with h1 | ⟨q', h1⟩ <;> rw [h1]
      simp
    refine ⟨hl, by show (c.actCab r (F.pick k)).1.riders.length = _; rw [h2]; simp, h3, ?_⟩
    intro r' hne
    show (c.actCab r (F.pick k)).1.wake r' = _
    unfold Ride.wake
    rw [hl]
    split
    · simp only [Ride.due]
      rcases h1 with h1 | ⟨q', h1⟩
      · rw [h1]
      · rw [h1, List.getElem?_set_ne (Ne.symm hne)]
    · simp only [Ride.due]
      rw [h2, List.getElem?_modify]
      cases c.riders[r' - c.cabs.length]? with
      | none => rfl
      | some p =>
        simp only [Option.map_eq_map, Option.map_some, Option.bind_some]
        split
        · rw [(hf p).1, (hf p).2.2]
        · rfl
  · rename_i hr
    obtain ⟨⟨f, h1⟩, h2, h3, -⟩ := c.actRider_frame (r - c.cabs.length) (F.dest k) (F.tip k)
    have hl : (c.actRider (r - c.cabs.length) (F.dest k) (F.tip k)).1.cabs.length = c.cabs.length := by rw [h1]; simp
    refine ⟨hl, ?_, h3, ?_⟩
    · show (c.actRider (r - c.cabs.length) (F.dest k) (F.tip k)).1.riders.length = _
      rcases h2 with h2 | ⟨p, p', -, h2, -⟩ <;> rw [h2]
      simp
    · intro r' hne
      show (c.actRider (r - c.cabs.length) (F.dest k) (F.tip k)).1.wake r' = _
      unfold Ride.wake
      rw [hl]
      split
      · simp only [Ride.due]
        rw [h1, List.getElem?_map]
        cases c.cabs[r']? with
        | none => rfl
        | some q => rfl
      · simp only [Ride.due]
        rcases h2 with h2 | ⟨p, p', -, h2, -⟩
        · rw [h2]
        · rename_i hr'
          rw [h2, List.getElem?_set_ne (sub_ne (Nat.not_lt.1 hr) (Nat.not_lt.1 hr') (Ne.symm hne))]

theorem Ride.run_cons (c : Ride) (e : RideEv) (es : List RideEv) : c.run (e :: es) = match c.due e with
    | none => c.run es
    | some t =>
      if c.turn e t then
        if (({ c with now := t } : Ride).act e).2 then ({ c with now := t } : Ride).act e else (({ c with now := t } : Ride).act e).1.run es
      else c.run es := by
  rw [Ride.run]
  rfl

theorem Ride.run_append (c : Ride) (es es' : List RideEv) (h : (c.run es).2 = false) : c.run (es ++ es') = (c.run es).1.run es' := by
  induction es generalizing c with
  | nil => rfl
  | cons e es ih =>
    rw [Ride.run_cons] at h
    rw [List.cons_append, Ride.run_cons, Ride.run_cons c e es]
    cases hd : c.due e with
    | none =>
      simp only [hd] at h ⊢
      exact ih c h
    | some t =>
      simp only [hd] at h ⊢
      by_cases ht : c.turn e t = true
      · simp only [ht, if_true] at h ⊢
        by_cases hx : (({ c with now := t } : Ride).act e).2 = true
        · rw [if_pos hx] at h
          rw [hx] at h
          cases h
        · simp only [hx, Bool.false_eq_true, if_false] at h ⊢
          exact ih _ h
      · simp only [ht, Bool.false_eq_true, if_false] at h ⊢
        exact ih c h

theorem Ride.run_one (c : Ride) (e : RideEv) (t : Nat) (h : c.turn e t = true) : c.run [e] = ({ c with now := t } : Ride).act e := by
  have hd := Ride.turn_due h
  unfold Ride.run
  simp only [hd, h, if_true]
  split
  · rfl
  · rename_i hx
    simp only [Ride.run]
    rw [Prod.ext_iff]
    exact ⟨rfl, by simpa using (Eq.symm (Bool.eq_false_iff.2 hx))⟩

/-- It is the turn of an agent if nobody is due before. -/
theorem Ride.turn_of (c : Ride) (e : RideEv) (t : Nat) (h : c.due e = some t) (hmin : ∀ r t', c.wake r = some t' → t ≤ t') : c.turn e t = true := by
  unfold Ride.turn
  simp only [Bool.and_eq_true, List.all_eq_true, decide_eq_true_eq]
  refine ⟨⟨h, ?_⟩, ?_⟩
  · intro q hq
    obtain ⟨i, hi⟩ := List.mem_iff_getElem?.1 hq
    by_cases hd : q.pc = .dead
    · exact Or.inl hd
    · have hlt := (List.getElem?_eq_some_iff.1 hi).1
      exact Or.inr (hmin i q.next (by simp only [Ride.wake, if_pos hlt, Ride.due, hi, Option.bind_some, if_neg hd]))
  · intro p hp
    obtain ⟨j, hj⟩ := List.mem_iff_getElem?.1 hp
    by_cases hd : p.pc = .dead
    · exact Or.inl hd
    · exact Or.inr (hmin (c.cabs.length + j) p.next (by simp [Ride.wake, Ride.due, hj, hd]))

theorem wholeTime_nat (n : Nat) : wholeTime (.fin (n : Rat)) = n := by simp [wholeTime]

/-- What holds of the log and the agents of the scheduler, and the city. -/
structure CarsInv (F : CarsFate) (width height : Nat) (cs rs : List GridCell) (log : List Ev) (agents : List Ref) (c : Ride) : Prop where
  run : ∃ es, c = (Ride.run (Ride.init width height cs rs) es).1 ∧ (Ride.run (Ride.init width height cs rs) es).2 = false ∧
    ∀ j d tip, RideEv.rider j d tip ∈ es → ∃ k, d = F.dest k ∧ tip = F.tip k
  cabs : c.cabs.length = cs.length
  riders : c.riders.length = rs.length
  wake : ∀ r t, c.wake r = some t → pendingOf (cal 1 log) r = [.fin (t : Rat)]
  gone : ∀ r, c.wake r = none → pendingOf (cal 1 log) r = [] ∨
    (cs.length ≤ r ∧ r < cs.length + rs.length ∧ ∃ u : Nat, u ≤ c.now ∧ pendingOf (cal 1 log) r = [.fin ((u : Rat) + 1)])
  live : ∀ r, r ∈ agents ↔ c.wake r ≠ none
  nodup : agents.Nodup

/-- The agents of the scheduler after the operations of an activation. -/
def agentsAfter (as : List Ref) (ops : List SOp) : List Ref :=
  ops.foldl (fun as o => match o with | .remove r => as.erase r | _ => as) as

theorem Ride.wake_lt {c : Ride} {r : Ref} {t : Nat} (h : c.wake r = some t) : r < c.cabs.length + c.riders.length := by
  unfold Ride.wake at h
  split at h
  · rename_i hr
    exact Nat.lt_of_lt_of_le hr (Nat.le_add_right _ _)
  · rename_i hr
    obtain ⟨p, hp, -⟩ := Option.bind_eq_some_iff.1 h
    have := (List.getElem?_eq_some_iff.1 hp).1
    have h2 := Nat.not_lt.1 hr
    exact lt_add_of_sub h2 this

theorem CarsInv.turn {F : CarsFate} {width height : Nat} {cs rs : List GridCell} {log : List Ev} {agents : List Ref} {w : CarsSim}
    (h : CarsInv F width height cs rs log agents w.ride) {r : Ref} {now : Time} (hmem : (r, now) ∈ cal 1 log) (hmin : ∀ p ∈ cal 1 log, now ≤ p.2)
    (hg : (w.turn F r now).1 ≠ .error) :
    CarsInv F width height cs rs (log ++ [.act r now (w.turn F r now).1]) (agentsAfter agents (w.turn F r now).2.1) (w.turn F r now).2.2.ride := by
  have hpend := mem_pendingOf.2 hmem
  unfold CarsSim.turn at hg ⊢
  simp only [Ride.due_eventOf] at hg ⊢
  cases hw : w.ride.wake r with
  | none =>
    simp only [hw] at hg ⊢
    have hp := fun q => pendingOf_cal_act 1 log r q now .dead
    refine ⟨h.run, h.cabs, h.riders, ?_, ?_, h.live, h.nodup⟩
    · intro q t hq
      rw [hp]
      have hne : q ≠ r := by rintro rfl; rw [hw] at hq; cases hq
      rw [if_neg hne]
      exact h.wake q t hq
    · intro q hq
      rw [hp]
      by_cases hne : q = r
      · subst hne
        rw [if_pos rfl]
        left
        rcases h.gone q hq with hx | ⟨-, -, u, -, hx⟩
        · rw [hx] at hpend; cases hpend
        · rw [hx] at hpend ⊢
          rw [List.mem_singleton.1 hpend]
          simp [nextWake]
      · rw [if_neg hne]
        exact h.gone q hq
  | some t =>
    have hnow : now = .fin (t : Rat) := by
      rw [h.wake r t hw] at hpend
      exact List.mem_singleton.1 hpend
    subst hnow
    have hdue : w.ride.due (w.ride.eventOf F w.used r) = some t := by rw [Ride.due_eventOf, hw]
    have hturn : w.ride.turn (w.ride.eventOf F w.used r) t = true := by
      refine Ride.turn_of _ _ _ hdue ?_
      intro q t' hq
      have := h.wake q t' hq
      have hm : (q, Time.fin (t' : Rat)) ∈ cal 1 log := mem_pendingOf.1 (by rw [this]; simp)
      have := hmin _ hm
      have h2 : (t : Rat) ≤ (t' : Rat) := this
      exact_mod_cast h2
    simp only [hw, wholeTime_nat] at hg ⊢
    obtain ⟨f1, f2, f3, f4⟩ := ({ w.ride with now := t } : Ride).act_frame F w.used r
    have hev : ({ w.ride with now := t } : Ride).eventOf F w.used r = w.ride.eventOf F w.used r := rfl
    have hwk : ∀ q, ({ w.ride with now := t } : Ride).wake q = w.ride.wake q := fun q => rfl
    rw [hev] at f1 f2 f3 f4
    have f1' : (({ w.ride with now := t } : Ride).act (w.ride.eventOf F w.used r)).1.cabs.length = w.ride.cabs.length := f1
    have f2' : (({ w.ride with now := t } : Ride).act (w.ride.eventOf F w.used r)).1.riders.length = w.ride.riders.length := f2
    have hself : (({ w.ride with now := t } : Ride).act (w.ride.eventOf F w.used r)).1.due (w.ride.eventOf F w.used r) =
        (({ w.ride with now := t } : Ride).act (w.ride.eventOf F w.used r)).1.wake r := by
      unfold Ride.wake
      rw [f1']
      unfold Ride.eventOf
      split <;> rfl
    have hrun : (({ w.ride with now := t } : Ride).act (w.ride.eventOf F w.used r)).2 = false →
        ∃ es, (({ w.ride with now := t } : Ride).act (w.ride.eventOf F w.used r)).1 = (Ride.run (Ride.init width height cs rs) es).1 ∧
          (Ride.run (Ride.init width height cs rs) es).2 = false ∧ ∀ j d tip, RideEv.rider j d tip ∈ es → ∃ k, d = F.dest k ∧ tip = F.tip k := by
      intro hx
      obtain ⟨es, e1, e2, e3⟩ := h.run
      refine ⟨es ++ [w.ride.eventOf F w.used r], ?_, ?_, ?_⟩
      · rw [Ride.run_append _ _ _ e2, ← e1, Ride.run_one _ _ _ hturn]
      · rw [Ride.run_append _ _ _ e2, ← e1, Ride.run_one _ _ _ hturn, hx]
      · intro j d tip hm
        rcases List.mem_append.1 hm with hm | hm
        · exact e3 j d tip hm
        · have := List.mem_singleton.1 hm
          unfold Ride.eventOf at this
          split at this
          · cases this
          · cases this
            exact ⟨w.used, rfl, rfl⟩
    have hok : w.ride.Ok := by
      obtain ⟨es, e1, -, -⟩ := h.run
      rw [e1]
      exact Ride.run_ok width height cs rs es
    have hle : w.ride.now ≤ t := hok.turn_now hturn
    have hlater := fun a b => ({ w.ride with now := t } : Ride).act_later (w.ride.eventOf F w.used r) a b
    have hdne : ({ w.ride with now := t } : Ride).due (w.ride.eventOf F w.used r) ≠ none := by
      have : ({ w.ride with now := t } : Ride).due (w.ride.eventOf F w.used r) = some t := hdue
      rw [this]
      simp
    generalize ({ w.ride with now := t } : Ride).act (w.ride.eventOf F w.used r) = x at *
    have f3' : x.1.now = t := f3
    by_cases hx : x.2 = true
    · rw [if_pos hx] at hg
      exact absurd rfl hg
    · have hx' : x.2 = false := Bool.eq_false_iff.2 hx
      rw [if_neg hx] at hg ⊢
      rw [hself]
      rw [hself] at hg
      have hothers : ∀ (rep : Reply) q, q ≠ r → pendingOf (cal 1 (log ++ [.act r (.fin (t : Rat)) rep])) q = pendingOf (cal 1 log) q :=
        fun rep q hq => by rw [pendingOf_cal_act, if_neg hq]
      have hmine : ∀ (rep : Reply), pendingOf (cal 1 (log ++ [.act r (.fin (t : Rat)) rep])) r = (nextWake 1 (.fin (t : Rat)) rep).toList :=
        fun rep => by rw [pendingOf_cal_act, if_pos rfl, h.wake r t hw]; simp
      have hgone : ∀ (rep : Reply) q, q ≠ r → x.1.wake q = none → pendingOf (cal 1 (log ++ [.act r (.fin (t : Rat)) rep])) q = [] ∨
          (cs.length ≤ q ∧ q < cs.length + rs.length ∧ ∃ u : Nat, u ≤ x.1.now ∧ pendingOf (cal 1 (log ++ [.act r (.fin (t : Rat)) rep])) q = [.fin ((u : Rat) + 1)]) := by
        intro rep q hq hn
        rw [hothers rep q hq]
        rw [f4 q hq, hwk] at hn
        rcases h.gone q hn with h1 | ⟨h1, h2, u, h3, h4⟩
        · exact Or.inl h1
        · exact Or.inr ⟨h1, h2, u, by omega, h4⟩
      cases hn : x.1.wake r with
      | some t' =>
        simp only
        have hlt : t < t' := hlater hdne hx' t' (by rw [hself]; exact hn)
        refine ⟨hrun hx', by rw [f1', h.cabs], by rw [f2', h.riders], ?_, ?_, ?_, h.nodup⟩
        · intro q u hq
          by_cases hne : q = r
          · subst hne
            rw [hn] at hq
            cases hq
            rw [hmine]
            have h0 : (t' : Rat) - (t : Rat) ≠ 0 := by
              have : (t : Rat) < (t' : Rat) := by exact_mod_cast hlt
              linarith
            have h1 : ¬ (Time.fin ((t' : Rat) - (t : Rat)) = 0) := fun hc => h0 (Time.fin.inj hc)
            simp only [nextWake, effDelay, h1, if_false, Time.fin_add]
            simp
          · rw [hothers _ q hne]
            rw [f4 q hne, hwk] at hq
            exact h.wake q u hq
        · intro q hq
          have hne : q ≠ r := by rintro rfl; rw [hn] at hq; cases hq
          exact hgone _ q hne hq
        · intro q
          show q ∈ agents ↔ _
          rw [h.live]
          by_cases hne : q = r
          · subst hne
            rw [hn, hw]
            simp
          · rw [f4 q hne, hwk]
      | none =>
        simp only
        have hrN := Ride.wake_lt hw
        rw [h.cabs, h.riders] at hrN
        refine ⟨hrun hx', by rw [f1', h.cabs], by rw [f2', h.riders], ?_, ?_, ?_, ?_⟩
        · intro q u hq
          have hne : q ≠ r := by rintro rfl; rw [hn] at hq; cases hq
          rw [hothers _ q hne]
          rw [f4 q hne, hwk] at hq
          exact h.wake q u hq
        · intro q hq
          by_cases hne : q = r
          · subst hne
            rw [hmine]
            by_cases hc : q < w.ride.cabs.length
            · left
              rw [if_pos hc]
              simp [nextWake, effDelay]
            · right
              rw [if_neg hc]
              refine ⟨by rw [← h.cabs]; exact Nat.not_lt.1 hc, hrN, t, by omega, ?_⟩
              have e1 : nextWake 1 (.fin (t : Rat)) (.ret none) = some (.fin ((t : Rat) + 1)) := by
                simp only [nextWake]
                have : Time.fin (t : Rat) + effDelay 1 none = .fin ((t : Rat) + 1) := by
                  show Time.fin (t : Rat) + Time.fin ((1 : Nat) : Rat) = _
                  simp
                simp only [this]
                rfl
              rw [e1]
              rfl
          · exact hgone _ q hne hq
        · intro q
          show q ∈ agents.erase r ↔ _
          rw [h.nodup.mem_erase_iff, h.live]
          by_cases hne : q = r
          · subst hne
            rw [hn]
            simp
          · rw [f4 q hne, hwk]
            simp [hne]
        · exact h.nodup.erase r

end Verif
