import Verif.Proofs.CarsEnd

/-!
# C245: in the example of drivers and passengers everybody gets home, and the simulation ends
-/

namespace Verif

/-- How many activations a simulation has. -/
def Ride.acts (c : Ride) : List RideEv → Nat
  | [] => 0
  | e :: es => match c.due e with
    | none => c.acts es
    | some t =>
      if c.turn e t then
        if (({ c with now := t } : Ride).act e).2 then 1 else 1 + (({ c with now := t } : Ride).act e).1.acts es
      else c.acts es

/-- When the last journey is taken at the latest, on a grid of side `n` with `k` passengers. -/
def carsLast (n k : Nat) : Nat := 30 + (k - 1) * max (47 + 4 * (n - 1)) 90

theorem Ride.init_fine (n : Nat) (cs rs : List GridCell) (hcs0 : cs ≠ []) (hcs : ∀ x ∈ cs, InGrid n n x) (hrs : ∀ x ∈ rs, InGrid n n x) :
    (Ride.init n n cs rs).Fine n (carsLast n rs.length) rs := by
  have cab : ∀ (i : Nat) q, (Ride.init n n cs rs).cabs[i]? = some q → q.pc = .wander ∧ q.next = 0 ∧ q.journey = none := by
    intro i q hq
    simp only [Ride.init, List.getElem?_map] at hq
    obtain ⟨x, _, rfl⟩ := Option.map_eq_some_iff.1 hq
    exact ⟨rfl, rfl, rfl⟩
  have rider : ∀ (j : Nat) p, (Ride.init n n cs rs).riders[j]? = some p → p.pc = .start ∧ p.next = 0 ∧ p.trip = none := by
    intro j p hp
    simp only [Ride.init, List.getElem?_map] at hp
    obtain ⟨x, _, rfl⟩ := Option.map_eq_some_iff.1 hp
    exact ⟨rfl, rfl, rfl⟩
  refine ⟨Ride.init_ok n n cs rs, Ride.init_geo n n cs rs hcs hrs, ⟨?_, ?_⟩, ?_⟩
  · intro i q g hq hpc
    rw [(cab i q hq).1] at hpc
    cases hpc
  · intro j p t hp ht
    rw [(rider j p hp).2.2] at ht
    cases ht
  constructor
  · exact fun j p hp _ => (rider j p hp).2.1
  · intro j p e hp hpc
    rw [(rider j p hp).1] at hpc
    cases hpc
  · intro i q hq hpc
    rw [(cab i q hq).1] at hpc
    cases hpc
  · right
    obtain ⟨x, l, rfl⟩ := List.exists_cons_of_ne_nil hcs0
    refine ⟨30, ⟨x, x, none, 0, [], .wander, 0⟩, rfl, Nat.zero_le _, fun _ _ _ _ => ⟨fun _ => Nat.le_refl _, ?_⟩, ?_⟩
    · intro e he
      rename_i j p hp _
      rw [(rider j p hp).1] at he
      cases he
    · have : (Ride.init n n (x :: l) rs).freeRiders ≤ rs.length := by
        refine Nat.le_trans List.countP_le_length ?_
        simp [Ride.init]
      have := Nat.mul_le_mul_right (carsPace n) (show (Ride.init n n (x :: l) rs).freeRiders - 1 ≤ rs.length - 1 by omega)
      unfold carsLast carsPace at *
      omega
  · intro i q hq hi
    exact absurd (Or.inl (cab i q hq).1) hi
  · intro j p hp hpc
    rw [(rider j p hp).1] at hpc
    cases hpc
  · intro j p e hp hpc
    rw [(rider j p hp).1] at hpc
    cases hpc
  · intro i q hq _
    rw [(cab i q hq).2.1]
    omega

theorem Ride.Fine.run {n T : Nat} {rs : List GridCell} (h2 : 2 ≤ n) (es : List RideEv)
    (hes : ∀ j d tip, RideEv.rider j d tip ∈ es → InGrid n n d) (c : Ride) (h : c.Fine n T rs) :
    (c.run es).1.Fine n T rs ∧ c.acts es + (c.run es).1.room (T + 136 + 4 * (n - 1)) ≤ c.room (T + 136 + 4 * (n - 1)) := by
  induction es generalizing c with
  | nil => exact ⟨h, by simp only [Ride.acts, Ride.run]; omega⟩
  | cons e es ih =>
    have hes' : ∀ j d tip, RideEv.rider j d tip ∈ es → InGrid n n d := fun j d tip hx => hes j d tip (List.mem_cons_of_mem _ hx)
    unfold Ride.run Ride.acts
    cases hd : c.due e with
    | none => exact ih hes' c h
    | some t =>
      by_cases ht : c.turn e t = true
      · obtain ⟨h3, h4, h5⟩ := h.act h2 e t ht (fun j d tip hx => hes j d tip (hx ▸ List.mem_cons_self ..))
        simp only [ht, h3, Bool.false_eq_true, if_false, if_true]
        obtain ⟨h6, h7⟩ := ih hes' _ h4
        exact ⟨h6, by omega⟩
      · simp only [ht, if_false]
        exact ih hes' c h

/-- C245: on square grids (sides of `n` cells) with at least one driver every passenger gets home: while some passenger is not there yet,
the time is at most the bound. -/
theorem C245_home (n : Nat) (hn : 2 ≤ n) (cs rs : List GridCell) (es : List RideEv) (hcs0 : cs ≠ []) (hcs : ∀ x ∈ cs, InGrid n n x)
    (hrs : ∀ x ∈ rs, InGrid n n x) (hes : ∀ j d tip, RideEv.rider j d tip ∈ es → 0 ≤ d.1 ∧ d.1 < n ∧ 0 ≤ d.2 ∧ d.2 < n)
    (c : Ride) (hc : c = (Ride.run (Ride.init n n cs rs) es).1)
    (hnow : 30 + (rs.length - 1) * max (47 + 4 * (n - 1)) 90 + 106 + 4 * (n - 1) < c.now) :
    ∀ p ∈ c.riders, p.pc = .dead ∧ ∃ t, p.trip = some t ∧ p.pos = t.dest := by
  obtain ⟨hf, _⟩ := Ride.Fine.run hn es hes _ (Ride.init_fine n cs rs hcs0 hcs hrs)
  rw [← hc] at hf
  intro p hp
  obtain ⟨j, hj⟩ := List.mem_iff_getElem?.1 hp
  have hd : p.pc = .dead := by
    by_contra hx
    have := hf.ending.alive_now hf.ok hj hx
    unfold carsLast at this
    omega
  obtain ⟨t, ht, _, _, h3⟩ := (hf.ok.rider j p hj).trip (by rw [hd]; simp)
  exact ⟨hd, t, ht, h3 hd⟩

/-- C245: the simulation ends: no activation is later than the bound, and there are at most as many activations as agents times that. -/
theorem C245_ends (n : Nat) (hn : 2 ≤ n) (cs rs : List GridCell) (es : List RideEv) (hcs0 : cs ≠ []) (hcs : ∀ x ∈ cs, InGrid n n x)
    (hrs : ∀ x ∈ rs, InGrid n n x) (hes : ∀ j d tip, RideEv.rider j d tip ∈ es → 0 ≤ d.1 ∧ d.1 < n ∧ 0 ≤ d.2 ∧ d.2 < n) :
    (Ride.run (Ride.init n n cs rs) es).1.now ≤ 30 + (rs.length - 1) * max (47 + 4 * (n - 1)) 90 + 136 + 4 * (n - 1) ∧
    (Ride.init n n cs rs).acts es ≤
      (cs.length + rs.length) * (30 + (rs.length - 1) * max (47 + 4 * (n - 1)) 90 + 137 + 4 * (n - 1)) := by
  have h0 := Ride.init_fine n cs rs hcs0 hcs hrs
  constructor
  · have key : ∀ (es : List RideEv) (c : Ride), (∀ j d tip, RideEv.rider j d tip ∈ es → InGrid n n d) → c.Fine n (carsLast n rs.length) rs →
        c.now ≤ carsLast n rs.length + 136 + 4 * (n - 1) → (c.run es).1.now ≤ carsLast n rs.length + 136 + 4 * (n - 1) := by
      intro es
      induction es with
      | nil => intro c _ _ h; exact h
      | cons e es ih =>
        intro c hes h hle
        have hes' : ∀ j d tip, RideEv.rider j d tip ∈ es → InGrid n n d := fun j d tip hx => hes j d tip (List.mem_cons_of_mem _ hx)
        unfold Ride.run
        split
        · exact ih c hes' h hle
        · rename_i t hdue
          split
          · rename_i ht
            obtain ⟨h3, h4, _⟩ := h.act hn e t ht (fun j d tip hx => hes j d tip (hx ▸ List.mem_cons_self ..))
            simp only [h3]
            refine ih _ hes' h4 ?_
            have hnow : (({ c with now := t } : Ride).act e).1.now = t := by
              cases e with
              | cab i k => exact (Ride.actCab_frame ({ c with now := t } : Ride) i k).2.2.1
              | rider j d tip => exact (Ride.actRider_frame ({ c with now := t } : Ride) j d tip).2.2.1
            rw [hnow]
            cases e with
            | cab i k =>
              obtain ⟨q, hq, hx⟩ := Option.bind_eq_some_iff.1 hdue
              split at hx
              · cases hx
              · rename_i hne
                cases hx
                exact h.ending.last i q hq hne
            | rider j d tip =>
              obtain ⟨p, hp, hx⟩ := Option.bind_eq_some_iff.1 hdue
              split at hx
              · cases hx
              · rename_i hne
                cases hx
                have := (h.ending.tick p.next ((h.ok.rider j p hp).next hne)).alive_now (h.ok.tick _ _ ht) (j := j) (p := p) hp hne
                have h5 : p.next ≤ carsLast n rs.length + 106 + 4 * (n - 1) := this
                omega
          · exact ih c hes' h hle
    exact key es _ hes h0 (Nat.zero_le _)
  · have h1 := (Ride.Fine.run hn es hes _ h0).2
    have h2 : (Ride.init n n cs rs).room (carsLast n rs.length + 136 + 4 * (n - 1)) =
        (cs.length + rs.length) * (carsLast n rs.length + 137 + 4 * (n - 1)) := by
      unfold Ride.room Ride.init
      have e1 : (List.map (Cab.room (carsLast n rs.length + 136 + 4 * (n - 1))) (cs.map (fun p => (⟨p, p, none, 0, [], .wander, 0⟩ : Cab)))).sum =
          cs.length * (carsLast n rs.length + 137 + 4 * (n - 1)) := by
        rw [List.map_map]
        have : (Cab.room (carsLast n rs.length + 136 + 4 * (n - 1)) ∘ fun p => (⟨p, p, none, 0, [], .wander, 0⟩ : Cab)) =
            fun _ => carsLast n rs.length + 137 + 4 * (n - 1) := by
          funext p
          simp only [Function.comp, Cab.room]
          simp
          omega
        rw [this, List.map_const', List.sum_replicate_nat]
      have e2 : (List.map (Rider.room (carsLast n rs.length + 136 + 4 * (n - 1))) (rs.map (fun p => (⟨p, p, none, none, [], .start, 0⟩ : Rider)))).sum =
          rs.length * (carsLast n rs.length + 137 + 4 * (n - 1)) := by
        rw [List.map_map]
        have : (Rider.room (carsLast n rs.length + 136 + 4 * (n - 1)) ∘ fun p => (⟨p, p, none, none, [], .start, 0⟩ : Rider)) =
            fun _ => carsLast n rs.length + 137 + 4 * (n - 1) := by
          funext p
          simp only [Function.comp, Rider.room]
          simp
          omega
        rw [this, List.map_const', List.sum_replicate_nat]
      simp only
      rw [e1, e2, Nat.add_mul]
    unfold carsLast at h1 h2
    omega

/-- C245: in any state that a simulation reaches somebody can be activated, or all have stopped; then all passengers are at their
destinations and the drivers have earned the tips of all. (So every simulation that goes on long enough comes to that, see `C245_ends`.) -/
theorem C245_complete (w h : Nat) (cs rs : List GridCell) (es : List RideEv) (c : Ride) (hc : c = (Ride.run (Ride.init w h cs rs) es).1) :
    (∃ e t, c.turn e t = true) ∨
    ((∀ q ∈ c.cabs, q.pc = .dead) ∧ (∀ p ∈ c.riders, p.pc = .dead ∧ ∃ t, p.trip = some t ∧ p.pos = t.dest) ∧
      c.total = (c.riders.map (fun p => p.trip.elim 0 Trip.tip)).sum ∧ c.total = (c.cabs.map Cab.earnings).sum) := by
  have hok : c.Ok := by rw [hc]; exact Ride.run_ok w h cs rs es
  have hm : c.Money := by rw [hc]; exact Ride.run_money w h cs rs es
  by_cases hdue : ∃ t e, c.due e = some t
  · left
    classical
    obtain ⟨e, he⟩ := Nat.find_spec hdue
    refine ⟨e, Nat.find hdue, ?_⟩
    unfold Ride.turn
    simp only [Bool.and_eq_true, List.all_eq_true, decide_eq_true_eq]
    refine ⟨⟨he, ?_⟩, ?_⟩
    · intro q hq
      by_cases hd : q.pc = .dead
      · exact Or.inl hd
      · right
        obtain ⟨i, hi⟩ := List.mem_iff_getElem?.1 hq
        exact Nat.find_min' hdue ⟨.cab i 0, by simp [Ride.due, hi, hd]⟩
    · intro p hp
      by_cases hd : p.pc = .dead
      · exact Or.inl hd
      · right
        obtain ⟨j, hj⟩ := List.mem_iff_getElem?.1 hp
        exact Nat.find_min' hdue ⟨.rider j (0, 0) 0, by simp [Ride.due, hj, hd]⟩
  · right
    push Not at hdue
    have hcd : ∀ (i : Nat) q, c.cabs[i]? = some q → q.pc = .dead := by
      intro i q hq
      by_contra hd
      exact hdue q.next (.cab i 0) (by simp [Ride.due, hq, hd])
    have hrd : ∀ (j : Nat) p, c.riders[j]? = some p → p.pc = .dead := by
      intro j p hp
      by_contra hd
      exact hdue p.next (.rider j (0, 0) 0) (by simp [Ride.due, hp, hd])
    have hpaid : ∀ (j : Nat) p, c.riders[j]? = some p → j ∈ c.paid := by
      intro j p hp
      have hd := hrd j p hp
      obtain ⟨t, ht, h1, h2, _⟩ := (hok.rider j p hp).trip (by rw [hd]; simp)
      cases hx : t.driver with
      | none =>
        obtain ⟨e, he⟩ := (h1 hx).1.1
        rw [hd] at he
        cases he
      | some i =>
        rcases h2 i hx with hy | ⟨q, hq, hqj⟩
        · exact hy
        · obtain ⟨p1, _, t1, _, _, hlink⟩ := (hok.cab i q hq).busy j hqj
          rw [hcd i q hq] at hlink
          exact hlink
    have hperm : c.paid.Perm (List.range c.riders.length) := by
      refine (List.perm_ext_iff_of_nodup hok.nodup List.nodup_range).2 ?_
      intro j
      rw [List.mem_range]
      constructor
      · intro hj
        obtain ⟨p, _, hp, _⟩ := hok.paid j hj
        exact (List.getElem?_eq_some_iff.1 hp).1
      · intro hj
        exact hpaid j _ (List.getElem?_eq_getElem hj)
    refine ⟨?_, ?_, ?_, hm.sum⟩
    · intro q hq
      obtain ⟨i, hi⟩ := List.mem_iff_getElem?.1 hq
      exact hcd i q hi
    · intro p hp
      obtain ⟨j, hj⟩ := List.mem_iff_getElem?.1 hp
      have hd := hrd j p hj
      obtain ⟨t, ht, _, _, h3⟩ := (hok.rider j p hj).trip (by rw [hd]; simp)
      exact ⟨hd, t, ht, h3 hd⟩
    · rw [hm.total, (hperm.map c.tipOf).sum_eq]
      congr 1
      apply List.ext_getElem
      · simp
      · intro i h1 h2
        simp only [List.getElem_map, List.getElem_range]
        simp only [List.length_map, List.length_range] at h1
        simp [Ride.tipOf, List.getElem?_eq_getElem h1]

/-- C245: in the simulation of the file (one driver, two passengers, 100 × 100 cells, `max_time=1000`) both passengers are at home before
the end, whatever is drawn. -/
theorem C245_default (a b1 b2 : GridCell) (es : List RideEv) (ha : InGrid 100 100 a) (hb1 : InGrid 100 100 b1) (hb2 : InGrid 100 100 b2)
    (hes : ∀ j d tip, RideEv.rider j d tip ∈ es → 0 ≤ d.1 ∧ d.1 < 100 ∧ 0 ≤ d.2 ∧ d.2 < 100)
    (c : Ride) (hc : c = (Ride.run (Ride.init 100 100 [a] [b1, b2]) es).1) (hnow : 976 ≤ c.now) :
    ∀ p ∈ c.riders, p.pc = .dead ∧ ∃ t, p.trip = some t ∧ p.pos = t.dest := by
  refine C245_home 100 (by omega) [a] [b1, b2] es (by simp) (by simpa using ha) ?_ hes c hc ?_
  · intro x hx
    simp only [List.mem_cons, List.not_mem_nil, or_false] at hx
    rcases hx with rfl | rfl
    · exact hb1
    · exact hb2
  · simp
    omega

/-- C245: without drivers nobody ever gets home. -/
theorem C245_alone (w h : Nat) (rs : List GridCell) (es : List RideEv) :
    ∀ p ∈ (Ride.run (Ride.init w h [] rs) es).1.riders, p.pc ≠ .dead := by
  have hok := Ride.run_ok w h [] rs es
  have key : (Ride.run (Ride.init w h [] rs) es).1.cabs = [] ∧ (Ride.run (Ride.init w h [] rs) es).1.paid = [] := by
    refine (Ride.run_inv (fun c => c.cabs = [] ∧ c.paid = []) (fun _ => True) ?_ ?_ ?_ es _ (Ride.init_ok w h [] rs) (fun _ _ => trivial)
      ⟨rfl, rfl⟩).1
    · intro c e t _ _ hI
      exact hI
    · intro c i k q q' _ hq _ _ _ _ hI
      rw [hI.1] at hq
      cases hq
    · intro c j d tip _ _ _ hI
      obtain ⟨⟨f, hf⟩, _, _, _, _, h1, _⟩ := c.actRider_frame j d tip
      refine ⟨?_, by rw [h1]; exact hI.2⟩
      rw [hf, hI.1]
      rfl
  intro p hp hd
  obtain ⟨j, hj⟩ := List.mem_iff_getElem?.1 hp
  obtain ⟨t, ht, h1, h2, _⟩ := (hok.rider j p hj).trip (by rw [hd]; simp)
  cases hx : t.driver with
  | none =>
    obtain ⟨e, he⟩ := (h1 hx).1.1
    rw [hd] at he
    cases he
  | some i =>
    rcases h2 i hx with hy | ⟨q, hq, _⟩
    · rw [key.2] at hy
      cases hy
    · rw [key.1] at hq
      cases hq

/-- One driver and two passengers on a grid of 3 × 3 cells. -/
def carsSample : List RideEv :=
  (List.replicate 300 [RideEv.cab 0 1, .rider 0 (2, 1) 10, .rider 1 (0, 2) 50]).flatten

set_option maxRecDepth 100000 in
example : (Ride.run (Ride.init 3 3 [(0, 0)] [(2, 2), (1, 0)]) carsSample).1.now = 178 ∧
    (Ride.run (Ride.init 3 3 [(0, 0)] [(2, 2), (1, 0)]) carsSample).1.riders.map (fun p => (p.pc, p.pos)) = [(.dead, (2, 1)), (.dead, (0, 2))] ∧
    (Ride.run (Ride.init 3 3 [(0, 0)] [(2, 2), (1, 0)]) carsSample).1.cabs.map Cab.pc = [.dead] ∧
    (Ride.run (Ride.init 3 3 [(0, 0)] [(2, 2), (1, 0)]) carsSample).1.total = 60 := by decide +kernel

end Verif
