import Verif.Props.ExCars

/-!
# How the simulations of drivers and passengers end (examples/cars/cars_sim.py): what each activation does, and the invariant

No code is modelled here.
-/

namespace Verif

/-- No driver has taken the journey of the passenger (perhaps there is no journey yet). -/
def Rider.free (p : Rider) : Bool := decide (p.trip.bind Trip.driver = none)

/-- How many passengers have no driver. -/
def Ride.freeRiders (c : Ride) : Nat := c.riders.countP Rider.free

/-- A driver without journey. -/
def Cab.idle (q : Cab) : Prop := q.pc = .wander ∨ ((∃ g, q.pc = .loop g) ∧ q.journey = none)

/-- Passengers that differ only in what does not matter here. -/
def SameRiders (l l' : List Rider) : Prop :=
  ∃ m f, (∀ r : Rider, (f r).pc = r.pc ∧ (f r).next = r.next ∧ (f r).free = r.free) ∧ l' = l.modify m f

theorem SameRiders.refl (l : List Rider) : SameRiders l l := ⟨0, id, fun _ => ⟨rfl, rfl, rfl⟩, by rw [List.modify_id]⟩

/-- What becomes of a driver `q` in an activation. -/
inductive CabFate (c c' : Ride) (i : Nat) (q : Cab) : Cab → Prop where
  | dies (q' : Cab) : q'.pc = .dead → c.passengers = 0 → c'.riders = c.riders → CabFate c c' i q q'
  | rests (q' : Cab) : c.passengers ≠ 0 → q.idle → c'.riders = c.riders → (∃ g, q'.pc = .loop g) → q'.journey = none → q'.inbox = [] →
      q'.next = c.now + 30 →
      (∀ j e p t, (j, e) ∈ q.inbox → c.now ≤ e → c.riders[j]? = some p → p.trip = some t → t.driver ≠ none) → CabFate c c' i q q'
  | takes (q' : Cab) (j : Nat) (p : Rider) (t : Trip) : c.passengers ≠ 0 → q.idle → c.riders[j]? = some p → p.trip = some t → t.driver = none →
      c'.riders = c.riders.modify j (fun p => { p with trip := some { t with driver := some i } }) → (∃ g, q'.pc = .loop g) →
      q'.journey = some j → q'.inbox = [] → q'.next = c.now + 30 → CabFate c c' i q q'
  | asks (q' : Cab) (a j : Nat) : (∃ g, q.pc = .loop g) → q.journey = some j → q'.pc = .ask a (c.now + 60) → q'.next = c.now + 5 →
      q'.inbox = q.inbox → SameRiders c.riders c'.riders → CabFate c c' i q q'
  | waits (q' : Cab) (a e : Nat) : q.pc = .ask a e → q'.pc = .ask a e → q'.next = c.now + 5 → q'.inbox = q.inbox → c'.riders = c.riders →
      CabFate c c' i q q'
  | leaves (q' : Cab) (a e : Nat) : q.pc = .ask a e → q'.pc = .toOrigin → q'.next = c.now + 1 → q'.inbox = q.inbox → q'.pos = q.pos →
      c'.riders = c.riders → CabFate c c' i q q'
  | drives (q' : Cab) : q.driving → q'.driving → q'.next = c.now + 1 → q'.inbox = q.inbox → q'.journey = q.journey →
      (∀ j p t, q.journey = some j → c.riders[j]? = some p → p.trip = some t → q'.left t + 1 = q.left t) → SameRiders c.riders c'.riders →
      CabFate c c' i q q'
  | collects (q' : Cab) : c.passengers ≠ 0 → q.driving → q'.pc = .wander → q'.next = c.now + 1 → q'.inbox = q.inbox → c'.riders = c.riders →
      CabFate c c' i q q'

theorem Ride.listen_fate (c : Ride) (i : Nat) (q q0 : Cab) (g : GridCell) (hi : q.idle) (hin : q0.inbox = q.inbox) (hj : q0.journey = none) :
    ∃ q', (c.listen i q0 g).cabs = c.cabs.set i q' ∧ (c.listen i q0 g).now = c.now ∧ CabFate c (c.listen i q0 g) i q q' := by
  unfold Ride.listen
  split
  · rename_i h0
    exact ⟨{ q0 with pc := .dead }, rfl, rfl, .dies _ rfl h0 rfl⟩
  · rename_i h0
    simp only [hj]
    rcases hearTrips_free c.now i q0.inbox c.riders with ⟨h1, h2⟩ | ⟨m, e, p, t, _, _, hp, ht, hd, h1⟩
    · rw [h1]
      exact ⟨_, rfl, by trivial, .rests _ h0 hi rfl ⟨g, rfl⟩ rfl rfl rfl (by rw [← hin]; exact h2)⟩
    · rw [h1]
      exact ⟨_, rfl, by trivial, .takes _ m p t h0 hi hp ht hd rfl ⟨g, rfl⟩ rfl rfl rfl⟩

theorem Ride.roam_fate (c : Ride) (i : Nat) (q q0 : Cab) (g : Option GridCell) (k : Nat) (hi : q.idle) (hin : q0.inbox = q.inbox)
    (hj : q0.journey = none) (he : (c.roam i q0 g k).2 = false) :
    ∃ q', (c.roam i q0 g k).1.cabs = c.cabs.set i q' ∧ (c.roam i q0 g k).1.now = c.now ∧ CabFate c (c.roam i q0 g k).1 i q q' := by
  unfold Ride.roam at he ⊢
  split
  · rename_i p hp
    rw [hp] at he
    split
    · exact c.listen_fate i q _ _ hi hin hj
    · rename_i hx
      simp [hx] at he
  · rename_i hp
    rw [hp] at he
    split
    · rename_i hx
      simp [hx] at he
    · exact c.listen_fate i q _ _ hi hin hj

theorem Ride.carry_fate (c : Ride) (i : Nat) (q : Cab) (j : Nat) (p : Rider) (t : Trip) (hd : q.driving) (hj : q.journey = some j)
    (hp : c.riders[j]? = some p) (ht : p.trip = some t) (ho : q.pc = .toOrigin → q.pos = t.origin) (he : (c.carry i q j t).2 = false) :
    ∃ q', (c.carry i q j t).1.cabs = c.cabs.set i q' ∧ (c.carry i q j t).1.now = c.now ∧ CabFate c (c.carry i q j t).1 i q q' := by
  have hleft : q.left t = gridDist q.pos t.dest := by
    unfold Cab.left
    split
    · rename_i hpc
      rw [ho hpc]
      simp [gridDist]
    · rfl
  unfold Ride.carry at he ⊢
  split
  · unfold Ride.collect
    simp only
    split
    · rename_i hz
      exact ⟨{ q with earnings := q.earnings + t.tip, pc := .dead }, rfl, rfl, .dies _ rfl hz rfl⟩
    · rename_i hz
      exact ⟨{ q with earnings := q.earnings + t.tip, pc := .wander, next := c.now + 1 }, rfl, rfl, .collects _ hz hd rfl rfl rfl rfl⟩
  · rename_i x hx
    rw [hx] at he
    split
    · refine ⟨{ q with pos := x, cell := x, pc := .toDest, next := c.now + 1 }, rfl, rfl, .drives _ hd (Or.inr rfl) rfl rfl rfl ?_
        ⟨j, _, by intro r; exact ⟨rfl, rfl, rfl⟩, rfl⟩⟩
      intro j' p' t' hj' hp' ht'
      rw [hj] at hj'; cases hj'
      rw [hp] at hp'; cases hp'
      rw [ht] at ht'; cases ht'
      rw [hleft]
      exact (towards_some hx).1
    · rename_i hy
      simp [hy] at he

theorem Ride.actCab_fate {c : Ride} (hok : c.Ok) (i k : Nat) (q : Cab) (hq : c.cabs[i]? = some q) (hne : q.pc ≠ .dead) (hn : c.now = q.next)
    (he : (c.actCab i k).2 = false) :
    ∃ q', (c.actCab i k).1.cabs = c.cabs.set i q' ∧ (c.actCab i k).1.now = c.now ∧ CabFate c (c.actCab i k).1 i q q' := by
  have hc := hok.cab i q hq
  unfold Ride.actCab at he ⊢
  simp only [hq] at he ⊢
  cases hpc : q.pc with
  | dead => exact absurd hpc hne
  | wander =>
    simp only [hpc] at he ⊢
    split
    · rename_i h0
      exact ⟨{ q with pc := .dead }, by simp [Ride.cabDies], rfl, .dies _ rfl h0 rfl⟩
    · rename_i h0
      simp only [h0, if_false] at he
      exact c.roam_fate i q _ _ _ (Or.inl hpc) rfl rfl he
  | loop g =>
    simp only [hpc] at he ⊢
    cases hj : q.journey with
    | none =>
      simp only [hj] at he ⊢
      exact c.roam_fate i q _ _ _ (Or.inr ⟨⟨g, hpc⟩, hj⟩) rfl hj he
    | some j =>
      simp only
      exact ⟨_, rfl, by trivial, .asks _ _ j ⟨g, hpc⟩ hj rfl rfl rfl ⟨j, _, by intro r; exact ⟨rfl, rfl, rfl⟩, rfl⟩⟩
  | ask a exp =>
    simp only [hpc] at he ⊢
    have hlt : c.now < exp := by
      cases hj : q.journey with
      | none =>
        rcases hc.idle hj with hx | ⟨g, hx⟩ | hx <;> rw [hpc] at hx <;> cases hx
      | some j =>
        obtain ⟨p, _, t, _, _, hm⟩ := hc.busy j hj
        rw [hpc] at hm
        have := hm.2.2.1
        omega
    simp only [hlt, if_true]
    split
    · exact ⟨_, rfl, rfl, .leaves _ a exp hpc rfl rfl rfl rfl rfl⟩
    · exact ⟨{ q with next := c.now + 5 }, by simp [hpc], rfl, .waits _ a exp hpc hpc rfl rfl rfl⟩
  | toOrigin =>
    simp only [hpc] at he ⊢
    cases hj : q.journey with
    | none => simp [hj] at he
    | some j =>
      simp only [hj] at he ⊢
      split
      · rename_i hx
        simp [hx] at he
      · rename_i t ht
        simp only [ht] at he
        obtain ⟨p, hp, ht⟩ := Option.bind_eq_some_iff.1 ht
        split
        · rename_i x hx
          simp only [hx] at he
          split
          · refine ⟨{ q with pos := x, cell := x, next := c.now + 1 }, by simp [hj, hpc], rfl, .drives _ (Or.inl hpc) (Or.inl hpc) rfl rfl rfl ?_ (.refl _)⟩
            intro j' p' t' hj' hp' ht'
            rw [hj] at hj'; cases hj'
            rw [hp] at hp'; cases hp'
            rw [ht] at ht'; cases ht'
            have := (towards_some hx).1
            simp only [Cab.left, hpc, if_true]
            omega
          · rename_i hy
            simp [hy] at he
        · rename_i hx
          simp only [hx] at he
          exact c.carry_fate i q j p t (Or.inl hpc) hj hp ht (fun _ => towards_none hx) he
  | toDest =>
    simp only [hpc] at he ⊢
    cases hj : q.journey with
    | none => simp [hj] at he
    | some j =>
      simp only [hj] at he ⊢
      split
      · rename_i hx
        simp [hx] at he
      · rename_i t ht
        simp only [ht] at he
        obtain ⟨p, hp, ht⟩ := Option.bind_eq_some_iff.1 ht
        exact c.carry_fate i q j p t (Or.inr hpc) hj hp ht (fun x => by rw [hpc] at x; cases x) he

/-- What becomes of a passenger `p` in an activation; `f`: the messages that the drivers have then. -/
inductive RiderFate (c c' : Ride) (j : Nat) (p : Rider) (f : Cab → List (Nat × Nat)) : Rider → Prop where
  | calls (p' : Rider) : (p.pc = .start ∨ ∃ e, p.pc = .wait e) → p'.pc = .wait (c.now + 60) → p'.next = c.now + 10 →
      (∀ q : Cab, q.pc ≠ .dead → (j, c.now + 60) ∈ f q) → RiderFate c c' j p f p'
  | waits (p' : Rider) (e : Nat) : p.pc = .wait e → c.now < e → p'.pc = .wait e → p'.next = c.now + 10 → RiderFate c c' j p f p'
  | answers (p' : Rider) : (∃ e, p.pc = .wait e) → p.inbox ≠ [] → p'.pc = .home → p'.next = c.now + 1 → RiderFate c c' j p f p'
  | rides (p' : Rider) (t : Trip) : p.Riding j → p.trip = some t → p.pos ≠ t.dest → p'.pc = .ride (c.now + 60) → p'.next = c.now + 1 →
      RiderFate c c' j p f p'
  | stays (p' : Rider) (e : Nat) : p.pc = .ride e → c.now < e → p'.pc = .ride e → p'.next = c.now + 1 → RiderFate c c' j p f p'
  | stops (p' : Rider) : p'.pc = .dead → RiderFate c c' j p f p'

theorem hearAsks_none (ms : List (Nat × Nat)) (as : List (Option Nat)) (h : (hearAsks ms none as).1 = none) : ms = [] := by
  have key : ∀ (ms : List (Nat × Nat)) g as, (hearAsks ms (some g) as).1 ≠ none := by
    intro ms
    induction ms with
    | nil => intro g as h; cases h
    | cons m ms ih => intro g as h; obtain ⟨a, j⟩ := m; exact ih j _ h
  cases ms with
  | nil => rfl
  | cons m ms => obtain ⟨a, j⟩ := m; exact absurd h (key ms j _)

/-- What an activation of passenger `j` does. -/
structure RiderStep (c c' : Ride) (j : Nat) (p : Rider) : Prop where
  now : c'.now = c.now
  fate : ∃ p' f, c'.riders = c.riders.set j p' ∧ p'.free = p.free ∧ c'.cabs = c.cabs.map (fun q => { q with inbox := f q }) ∧
    (∀ q : Cab, ∀ m ∈ q.inbox, m ∈ f q) ∧ RiderFate c c' j p f p'

theorem Ride.actRider_fate {c : Ride} (hok : c.Ok) (j : Nat) (d : GridCell) (tip : Int) (p : Rider) (hp : c.riders[j]? = some p)
    (hne : p.pc ≠ .dead) (he : (c.actRider j d tip).2 = false) : RiderStep c (c.actRider j d tip).1 j p := by
  have h0 := hok.rider j p hp
  have keep : ∀ q : Cab, ∀ m ∈ q.inbox, m ∈ announced j c.now q := by
    intro q m hm
    unfold announced
    split
    · exact hm
    · exact List.mem_append_left _ hm
  have home : p.Riding j → (c.homeward j p).2 = false → RiderStep c (c.homeward j p).1 j p := by
    intro hr he
    obtain ⟨t, ht, _⟩ := h0.trip (by rcases hr.2.2 with hx | ⟨e, hx⟩ | hx <;> rw [hx] <;> simp)
    unfold Ride.homeward
    rw [hr.1]
    simp only [Option.bind_some, hp, ht, hr.2.1, hearAsks]
    split
    · rename_i hx
      refine ⟨rfl, _, fun q => q.inbox, rfl, by simp [Rider.free, ht], map_same_inbox _, fun _ _ h => h, .rides _ t hr ht ?_ rfl rfl⟩
      intro h
      rw [h] at hx
      simp at hx
    · exact ⟨rfl, _, fun q => q.inbox, rfl, by simp [Rider.free, ht], map_same_inbox _, fun _ _ h => h, .stops _ rfl⟩
  have riding : p.pc ≠ .start → (∀ e, p.pc ≠ .wait e) → p.Riding j := by
    intro h1 h2
    rcases hok.phase hp h1 with ⟨⟨e, hx⟩, _⟩ | hx
    · exact absurd hx (h2 e)
    · exact hx
  unfold Ride.actRider at he ⊢
  simp only [hp] at he ⊢
  cases hpc : p.pc with
  | dead => exact absurd hpc hne
  | start =>
    obtain ⟨h1, h2, h3⟩ := h0.start hpc
    simp only
    unfold Ride.await
    simp only [h3, hearAsks]
    refine ⟨rfl, { p with journey := none, trip := some ⟨p.pos, d, tip, none⟩, pc := .wait (c.now + 60), next := c.now + 10 }, announced j c.now, ?_, ?_, ?_, keep,
      .calls _ (Or.inl hpc) rfl rfl ?_⟩
    · simp [Ride.announce, h3]
    · simp [Rider.free, h1]
    · exact announce_cabs _ j
    · intro q hq
      simp [announced, hq]
  | wait e =>
    have hw : p.Waiting := by
      rcases hok.phase hp (by rw [hpc]; simp) with hx | hx
      · exact hx
      · rcases hx.2.2 with hy | ⟨e, hy⟩ | hy <;> rw [hpc] at hy <;> cases hy
    simp only
    split
    · rename_i hlt
      unfold Ride.await
      simp only
      cases hh : (hearAsks p.inbox p.journey c.asks).1 with
      | some g =>
        simp only
        refine ⟨rfl, _, fun q => q.inbox, rfl, rfl, map_same_inbox _, fun _ _ h => h, .answers _ ⟨e, hpc⟩ ?_ rfl rfl⟩
        intro h
        rw [h, hw.2] at hh
        cases hh
      | none =>
        exact ⟨rfl, _, fun q => q.inbox, rfl, rfl, map_same_inbox _, fun _ _ h => h, .waits _ e hpc hlt rfl rfl⟩
    · unfold Ride.await
      simp only
      have hasks : (c.announce j).asks = c.asks := rfl
      rw [hasks]
      cases hh : (hearAsks p.inbox p.journey c.asks).1 with
      | some g =>
        simp only
        refine ⟨rfl, _, announced j c.now, rfl, rfl, announce_cabs _ j, keep, .answers _ ⟨e, hpc⟩ ?_ rfl rfl⟩
        intro h
        rw [h, hw.2] at hh
        cases hh
      | none =>
        refine ⟨rfl, _, announced j c.now, rfl, rfl, announce_cabs _ j, keep, .calls _ (Or.inr ⟨e, hpc⟩) rfl rfl ?_⟩
        intro q hq
        simp [announced, hq]
  | home =>
    simp only [hpc] at he ⊢
    exact home (riding (by rw [hpc]; simp) (by rw [hpc]; simp)) he
  | ride e =>
    simp only [hpc] at he ⊢
    have hr := riding (by rw [hpc]; simp) (by rw [hpc]; simp)
    split
    · rename_i hlt
      rw [if_pos hr.2.1]
      exact ⟨rfl, _, fun q => q.inbox, rfl, rfl, map_same_inbox _, fun _ _ h => h, .stays _ e hpc hlt (by simp) rfl⟩
    · rename_i hlt
      rw [if_neg hlt] at he
      exact home hr he

/-- By when a driver will be without journey. `D` is the length of the longest way. -/
def Ride.Ready (c : Ride) (D : Nat) (q : Cab) (x : Nat) : Prop :=
  match q.pc with
  | .wander => q.next ≤ x
  | .loop _ => if q.journey = none then q.next ≤ x else q.next + 17 + D ≤ x
  | .ask _ e => e + D ≤ x + 43
  | .toOrigin => ∀ j p t, q.journey = some j → c.riders[j]? = some p → p.trip = some t → q.next + q.left t + 1 ≤ x
  | .toDest => ∀ j p t, q.journey = some j → c.riders[j]? = some p → p.trip = some t → q.next + q.left t + 1 ≤ x
  | .dead => True

theorem Ride.Ready.driving {c : Ride} {D : Nat} {q : Cab} {x : Nat} (hd : q.driving) :
    c.Ready D q x ↔ ∀ j p t, q.journey = some j → c.riders[j]? = some p → p.trip = some t → q.next + q.left t + 1 ≤ x := by
  unfold Ride.Ready
  rcases hd with h | h <;> rw [h]

theorem Ride.Ready.idle {c : Ride} {D : Nat} {q : Cab} {x : Nat} (hi : q.idle) : c.Ready D q x ↔ q.next ≤ x := by
  unfold Ride.Ready
  rcases hi with h | ⟨⟨g, h⟩, hj⟩
  · rw [h]
  · simp [h, hj]

theorem Cab.driving.not_idle {q : Cab} (hd : q.driving) : ¬ q.idle := by
  rintro (h | ⟨⟨g, h⟩, _⟩) <;> rcases hd with hd | hd <;> rw [h] at hd <;> cases hd

/-- What is ready by `x` is not later than `x` now. -/
theorem Ride.Ok.ready_now {c : Ride} (hok : c.Ok) {D i : Nat} {q : Cab} {x : Nat} (hq : c.cabs[i]? = some q) (hne : q.pc ≠ .dead)
    (h : c.Ready D q x) : c.now ≤ x ∧ (¬ q.idle → c.now + 1 ≤ x) := by
  have hc := hok.cab i q hq
  have hn := hc.next hne
  have drv : q.driving → c.now + 1 ≤ x := by
    intro hd
    rw [Ride.Ready.driving hd] at h
    cases hj : q.journey with
    | none =>
      rcases hc.idle hj with hx | ⟨g, hx⟩ | hx <;> rcases hd with hd | hd <;> rw [hd] at hx <;> cases hx
    | some j =>
      obtain ⟨p, hp, t, ht, _⟩ := hc.busy j hj
      have := h j p t hj hp ht
      omega
  cases hpc : q.pc with
  | dead => exact absurd hpc hne
  | wander =>
    rw [Ride.Ready.idle (Or.inl hpc)] at h
    exact ⟨by omega, fun hi => absurd (Or.inl hpc) hi⟩
  | loop g =>
    unfold Ride.Ready at h
    simp only [hpc] at h
    split at h
    · rename_i hj
      exact ⟨by omega, fun hi => absurd (Or.inr ⟨⟨g, hpc⟩, hj⟩) hi⟩
    · exact ⟨by omega, fun _ => by omega⟩
  | ask a e =>
    unfold Ride.Ready at h
    simp only [hpc] at h
    cases hj : q.journey with
    | none => rcases hc.idle hj with hx | ⟨g, hx⟩ | hx <;> rw [hpc] at hx <;> cases hx
    | some j =>
      obtain ⟨p, _, t, _, _, hm⟩ := hc.busy j hj
      rw [hpc] at hm
      have := hm.2.2.1
      exact ⟨by omega, fun _ => by omega⟩
  | toOrigin => exact ⟨by have := drv (Or.inl hpc); omega, fun _ => drv (Or.inl hpc)⟩
  | toDest => exact ⟨by have := drv (Or.inr hpc); omega, fun _ => drv (Or.inr hpc)⟩

/-- Whatever happens to the passengers and the messages, the time does not change. -/
theorem Ride.Ready.keep {c c' : Ride} {D : Nat} {q : Cab} {x : Nat} (hok : c.Ok) {i : Nat} (hq : c.cabs[i]? = some q) (hk : c.Keeps c') (ms : List (Nat × Nat))
    (h : c.Ready D q x) : c'.Ready D { q with inbox := ms } x := by
  have hc := hok.cab i q hq
  have drv : q.driving → ∀ j p t, q.journey = some j → c'.riders[j]? = some p → p.trip = some t → q.next + q.left t + 1 ≤ x := by
    intro hd j p' t' hj hp' ht'
    rw [Ride.Ready.driving hd] at h
    obtain ⟨p, hp, t, ht, _⟩ := hc.busy j hj
    obtain ⟨p1, t1, hp1, ht1, _, hl⟩ := hk.left hp ht
    rw [hp'] at hp1; cases hp1
    rw [ht'] at ht1; cases ht1
    rw [hl]
    exact h j p t hj hp ht
  cases hpc : q.pc with
  | dead => simp only [Ride.Ready, hpc]
  | wander => simp only [Ride.Ready, hpc] at h ⊢; exact h
  | loop g => simp only [Ride.Ready, hpc] at h ⊢; exact h
  | ask a e => simp only [Ride.Ready, hpc] at h ⊢; exact h
  | toOrigin =>
    simp only [Ride.Ready, hpc]
    intro j p t hj hp ht
    have := drv (Or.inl hpc) j p t hj hp ht
    simp only [Cab.left, hpc] at this ⊢
    exact this
  | toDest =>
    simp only [Ride.Ready, hpc]
    intro j p t hj hp ht
    have := drv (Or.inr hpc) j p t hj hp ht
    simp only [Cab.left, hpc] at this ⊢
    exact this

theorem freeCount_modify_le (P : Rider → Bool) (f : Rider → Rider) (hf : ∀ r, P (f r) = true → P r = true) (l : List Rider) (m : Nat) :
    (l.modify m f).countP P ≤ l.countP P := by
  induction l generalizing m with
  | nil => simp
  | cons a l ih =>
    cases m with
    | zero =>
      simp only [List.modify_zero_cons, List.countP_cons]
      have := hf a
      by_cases h1 : P (f a) = true
      · simp [h1, this h1]
      · simp [h1]
    | succ m =>
      simp only [List.modify_succ_cons, List.countP_cons]
      have := ih m
      omega

theorem countP_modify_lt (P : Rider → Bool) (f : Rider → Rider) (l : List Rider) (m : Nat) (r : Rider) (hr : l[m]? = some r)
    (h1 : P r = true) (h2 : P (f r) = false) : (l.modify m f).countP P + 1 = l.countP P := by
  induction l generalizing m with
  | nil => simp at hr
  | cons a l ih =>
    cases m with
    | zero =>
      simp only [List.getElem?_cons_zero, Option.some.injEq] at hr
      subst hr
      simp [List.modify_zero_cons, List.countP_cons, h1, h2]
    | succ m =>
      simp only [List.getElem?_cons_succ] at hr
      simp only [List.modify_succ_cons, List.countP_cons]
      have := ih m hr
      omega

theorem SameRiders.back {l l' : List Rider} (h : SameRiders l l') (j : Nat) (p' : Rider) (hp' : l'[j]? = some p') :
    ∃ p, l[j]? = some p ∧ p'.pc = p.pc ∧ p'.next = p.next ∧ (p'.free = true → p.free = true) := by
  obtain ⟨m, f, hf, rfl⟩ := h
  obtain ⟨p, hp, h | ⟨_, h⟩⟩ := modify_getElem?_cases hp'
  · subst h
    exact ⟨p', hp, rfl, rfl, fun h => h⟩
  · subst h
    exact ⟨p, hp, (hf p).1, (hf p).2.1, fun h => by rw [← (hf p).2.2]; exact h⟩

theorem SameRiders.count {l l' : List Rider} (h : SameRiders l l') : l'.countP Rider.free ≤ l.countP Rider.free := by
  obtain ⟨m, f, hf, rfl⟩ := h
  exact freeCount_modify_le _ f (fun r hr => by rw [← (hf r).2.2]; exact hr) l m

theorem CabFate.riders {c c' : Ride} {i : Nat} {q q' : Cab} (h : CabFate c c' i q q') :
    (∀ (j : Nat) p', c'.riders[j]? = some p' → ∃ p, c.riders[j]? = some p ∧ p'.pc = p.pc ∧ p'.next = p.next ∧ (p'.free = true → p.free = true)) ∧
    c'.freeRiders ≤ c.freeRiders := by
  have same : c'.riders = c.riders →
      (∀ (j : Nat) p', c'.riders[j]? = some p' → ∃ p, c.riders[j]? = some p ∧ p'.pc = p.pc ∧ p'.next = p.next ∧ (p'.free = true → p.free = true)) ∧
      c'.freeRiders ≤ c.freeRiders := by
    intro h
    refine ⟨fun j p' hp' => ⟨p', by rw [← h]; exact hp', rfl, rfl, fun h => h⟩, ?_⟩
    unfold Ride.freeRiders
    rw [h]
  cases h with
  | dies _ _ h => exact same h
  | rests _ _ h => exact same h
  | takes j p t _ _ hp ht hd hr =>
    constructor
    · intro m p' hp'
      rw [hr] at hp'
      obtain ⟨p0, hp0, h | ⟨hm, h⟩⟩ := modify_getElem?_cases hp'
      · subst h
        exact ⟨p', hp0, rfl, rfl, fun h => h⟩
      · subst h
        refine ⟨p0, hp0, rfl, rfl, ?_⟩
        intro hx
        simp [Rider.free] at hx
    · unfold Ride.freeRiders
      rw [hr]
      exact freeCount_modify_le _ _ (fun r hx => by simp [Rider.free] at hx) _ _
  | asks _ _ _ _ _ _ _ h => exact ⟨h.back, h.count⟩
  | waits _ _ _ _ _ _ h => exact same h
  | leaves _ _ _ _ _ _ _ h => exact same h
  | drives _ _ _ _ _ _ h => exact ⟨h.back, h.count⟩
  | collects _ _ _ _ _ h => exact same h

/-- Where no passenger is alive, none is waiting for a driver. -/
theorem Ride.Ok.free_alive {c : Ride} (hok : c.Ok) {j : Nat} {p : Rider} (hp : c.riders[j]? = some p) (hf : p.free = true) :
    p.pc = .start ∨ ∃ e, p.pc = .wait e := by
  by_cases hs : p.pc = .start
  · exact Or.inl hs
  · right
    obtain ⟨t, ht, h1, _⟩ := (hok.rider j p hp).trip hs
    have hd : t.driver = none := by
      simpa [Rider.free, ht] using hf
    exact (h1 hd).1.1

theorem Ride.Ok.free_zero {c : Ride} (hok : c.Ok) (h : c.passengers = 0) : c.freeRiders = 0 := by
  unfold Ride.freeRiders
  rw [List.countP_eq_zero]
  intro p hp hf
  obtain ⟨j, hj⟩ := List.mem_iff_getElem?.1 hp
  have hd := (Ride.passengers_zero c).1 h j p hj
  rcases hok.free_alive hj hf with hx | ⟨e, hx⟩ <;> rw [hd] at hx <;> cases hx

theorem Ride.free_pos {c : Ride} {j : Nat} {p : Rider} (hp : c.riders[j]? = some p) (hf : p.free = true) : c.freeRiders ≠ 0 := by
  unfold Ride.freeRiders
  intro h
  rw [List.countP_eq_zero] at h
  exact h p (List.mem_of_getElem? hp) hf

theorem Ride.free_ex {c : Ride} (h : c.freeRiders ≠ 0) : ∃ (j : Nat) (p : Rider), c.riders[j]? = some p ∧ p.free = true := by
  unfold Ride.freeRiders at h
  have := List.countP_pos_iff.1 (Nat.pos_of_ne_zero h)
  obtain ⟨p, hp, hf⟩ := this
  obtain ⟨j, hj⟩ := List.mem_iff_getElem?.1 hp
  exact ⟨j, p, hj, hf⟩

theorem gridDist_le {n : Nat} {p t : GridCell} (hp : InGrid n n p) (ht : InGrid n n t) : gridDist p t ≤ 2 * (n - 1) := by
  unfold InGrid at hp ht
  unfold gridDist
  omega

theorem Cab.left_le {n : Nat} {q : Cab} {t : Trip} (hq : InGrid n n q.pos) (ho : InGrid n n t.origin) (hd : InGrid n n t.dest) :
    q.left t ≤ 4 * (n - 1) := by
  unfold Cab.left
  have h1 := gridDist_le hq ho
  have h2 := gridDist_le ho hd
  have h3 := gridDist_le hq hd
  split <;> omega

/-- A driver with a journey gets on as fast as was foreseen. -/
theorem CabFate.ready {c c' : Ride} {n i : Nat} {q q' : Cab} {x : Nat} (h : CabFate c c' i q q') (hok : c.Ok) (hq : c.cabs[i]? = some q)
    (hn : c.now = q.next) (hk : c.Keeps c') (hpos : InGrid n n q.pos) (ha : c.Aims n n) (hi : ¬ q.idle)
    (hr : c.Ready (4 * (n - 1)) q x) : c'.Ready (4 * (n - 1)) q' x ∧ (q'.pc ≠ .dead → q'.next ≤ x + 4 ∧ q'.next ≤ c.now + 30) := by
  have hc := hok.cab i q hq
  cases h with
  | dies h1 => exact ⟨by simp only [Ride.Ready, h1], fun h => absurd h1 h⟩
  | rests _ h => exact absurd h hi
  | takes _ _ _ _ h => exact absurd h hi
  | asks a j h1 h2 h3 h4 =>
    obtain ⟨g, h1⟩ := h1
    simp only [Ride.Ready, h1, h2] at hr
    simp only [Ride.Ready, h3, h4]
    simp at hr
    exact ⟨by omega, fun _ => by omega⟩
  | waits a e h1 h2 h3 =>
    have := (hok.ready_now hq (by rw [h1]; simp) hr).2 hi
    simp only [Ride.Ready, h1] at hr
    simp only [Ride.Ready, h2]
    exact ⟨by omega, fun _ => by omega⟩
  | leaves a e h1 h2 h3 h4 h5 h6 =>
    have hb := (hok.ready_now hq (by rw [h1]; simp) hr).2 hi
    simp only [Ride.Ready, h1] at hr
    have he : c.now + 45 ≤ e := by
      cases hj : q.journey with
      | none => rcases hc.idle hj with hx | ⟨g, hx⟩ | hx <;> rw [h1] at hx <;> cases hx
      | some j =>
        obtain ⟨p, _, t, _, _, hm⟩ := hc.busy j hj
        rw [h1] at hm
        have := hm.2.2.1
        omega
    refine ⟨?_, fun _ => by omega⟩
    rw [Ride.Ready.driving (Or.inl h2)]
    intro j p t _ hp ht
    rw [h6] at hp
    obtain ⟨a1, a2⟩ := ha.rider j p t hp ht
    have := Cab.left_le (q := q') (by rw [h5]; exact hpos) a1 a2
    omega
  | drives h1 h2 h3 h4 h5 h6 =>
    have hb := (hok.ready_now hq (by rcases h1 with h1 | h1 <;> rw [h1] <;> simp) hr).2 hi
    refine ⟨?_, fun _ => by omega⟩
    rw [Ride.Ready.driving h1] at hr
    rw [Ride.Ready.driving h2]
    intro j p' t' hj hp' ht'
    rw [h5] at hj
    obtain ⟨p, hp, t, ht, _⟩ := hc.busy j hj
    obtain ⟨p1, t1, hp1, ht1, _, hl⟩ := hk.left hp ht
    rw [hp'] at hp1; cases hp1
    rw [ht'] at ht1; cases ht1
    rw [hl]
    have := hr j p t hj hp ht
    have := h6 j p t hj hp ht
    omega
  | collects _ h1 h2 h3 =>
    have hb := (hok.ready_now hq (by rcases h1 with h1 | h1 <;> rw [h1] <;> simp) hr).2 hi
    refine ⟨?_, fun _ => by omega⟩
    rw [Ride.Ready.idle (Or.inl h2)]
    omega

/-- The longest time between two journeys of a driver, while there are passengers that wait. -/
def carsPace (n : Nat) : Nat := max (47 + 4 * (n - 1)) 90

/-- What holds until the end; `T` is when the last journey is taken at the latest. -/
structure Ride.Ending (n T : Nat) (c : Ride) : Prop where
  first : ∀ (j : Nat) p, c.riders[j]? = some p → p.pc = .start → p.next = 0
  wait : ∀ (j : Nat) p e, c.riders[j]? = some p → p.pc = .wait e → e ≤ c.now + 60 ∧ ∃ k, e = p.next + 10 * k
  dead : ∀ (i : Nat) q, c.cabs[i]? = some q → q.pc = .dead → c.passengers = 0
  chase : c.freeRiders = 0 ∨ ∃ τ q, c.cabs[0]? = some q ∧ c.Ready (4 * (n - 1)) q τ ∧
    (∀ (j : Nat) p, c.riders[j]? = some p → p.free = true → (p.pc = .start → 30 ≤ τ) ∧ ∀ e, p.pc = .wait e → (j, e) ∈ q.inbox ∨ e + 30 ≤ τ) ∧
    τ + (c.freeRiders - 1) * carsPace n ≤ T
  busy : ∀ (i : Nat) q, c.cabs[i]? = some q → ¬ q.idle → c.Ready (4 * (n - 1)) q (T + 47 + 4 * (n - 1))
  home : ∀ (j : Nat) p, c.riders[j]? = some p → p.pc = .home → p.next ≤ T + 47 + 4 * (n - 1)
  ride : ∀ (j : Nat) p e, c.riders[j]? = some p → p.pc = .ride e → p.next ≤ e ∧ e ≤ T + 106 + 4 * (n - 1)
  last : ∀ (i : Nat) q, c.cabs[i]? = some q → q.pc ≠ .dead → q.next ≤ T + 136 + 4 * (n - 1)

theorem Ride.Ending.free_now {n T : Nat} {c : Ride} (h : c.Ending n T) (hok : c.Ok) {j : Nat} {p : Rider} (hp : c.riders[j]? = some p)
    (hf : p.free = true) : c.now ≤ T := by
  rcases h.chase with h0 | ⟨τ, q, hq, hr, _, hT⟩
  · exact absurd h0 (Ride.free_pos hp hf)
  · have hne : q.pc ≠ .dead := by
      intro hd
      exact Ride.free_pos hp hf (hok.free_zero (h.dead 0 q hq hd))
    have := (hok.ready_now hq hne hr).1
    omega

theorem Ride.Ending.unpaid_now {n T : Nat} {c : Ride} (h : c.Ending n T) (hok : c.Ok) {j : Nat} {p : Rider} (hp : c.riders[j]? = some p)
    (hs : p.pc ≠ .start) (hj : j ∉ c.paid) : c.now + 1 ≤ T + 47 + 4 * (n - 1) := by
  obtain ⟨t, ht, _, h2, _⟩ := (hok.rider j p hp).trip hs
  cases hd : t.driver with
  | none =>
    have := h.free_now hok hp (by simp [Rider.free, ht, hd])
    omega
  | some i =>
    rcases h2 i hd with hx | ⟨q, hq, hqj⟩
    · exact absurd hx hj
    · obtain ⟨p1, hp1, t1, ht1, _, hm⟩ := (hok.cab i q hq).busy j hqj
      have hne : q.pc ≠ .dead := by
        intro hx
        rw [hx] at hm
        exact hj hm
      have hi : ¬ q.idle := by
        rintro (hx | ⟨_, hx⟩)
        · rw [hx] at hm
          exact hj hm
        · rw [hqj] at hx
          cases hx
      exact (hok.ready_now hq hne (h.busy i q hq hi)).2 hi

/-- While there are passengers, it is not too late. -/
theorem Ride.Ending.alive_now {n T : Nat} {c : Ride} (h : c.Ending n T) (hok : c.Ok) {j : Nat} {p : Rider} (hp : c.riders[j]? = some p)
    (hne : p.pc ≠ .dead) : c.now ≤ T + 106 + 4 * (n - 1) := by
  have hn := (hok.rider j p hp).next hne
  cases hpc : p.pc with
  | dead => exact absurd hpc hne
  | start =>
    have := h.first j p hp hpc
    omega
  | wait e =>
    have hj : j ∉ c.paid := by
      intro hx
      obtain ⟨p1, t1, hp1, _, _, _, hr⟩ := hok.paid j hx
      rw [hp] at hp1; cases hp1
      rcases hr.2.2 with hy | ⟨e, hy⟩ | hy <;> rw [hpc] at hy <;> cases hy
    have := h.unpaid_now hok hp (by rw [hpc]; simp) hj
    omega
  | home =>
    have := h.home j p hp hpc
    omega
  | ride e =>
    have := h.ride j p e hp hpc
    omega

theorem Ride.passengers_ne {c : Ride} (h : c.passengers ≠ 0) : ∃ (j : Nat) (p : Rider), c.riders[j]? = some p ∧ p.pc ≠ .dead := by
  by_contra hx
  push Not at hx
  exact h ((Ride.passengers_zero c).2 hx)

theorem Ride.Ending.tick {n T : Nat} {c : Ride} (h : c.Ending n T) (t : Nat) (ht : c.now ≤ t) : ({ c with now := t } : Ride).Ending n T where
  first := h.first
  wait := fun j p e hp hpc => ⟨by have := (h.wait j p e hp hpc).1; show e ≤ t + 60; omega, (h.wait j p e hp hpc).2⟩
  dead := h.dead
  chase := h.chase
  busy := h.busy
  home := h.home
  ride := h.ride
  last := h.last

theorem Ride.Ending.cab {n T : Nat} {c c' : Ride} {i : Nat} {q q' : Cab} (h : c.Ending n T) (hok : c.Ok) (hk : c.Keeps c')
    (hq : c.cabs[i]? = some q) (hne : q.pc ≠ .dead) (hn : c.now = q.next) (hpos : InGrid n n q.pos) (ha : c.Aims n n)
    (hcabs : c'.cabs = c.cabs.set i q') (hnow : c'.now = c.now) (hf : CabFate c c' i q q') : c'.Ending n T := by
  obtain ⟨hback, hcount⟩ := hf.riders
  have hlt := (List.getElem?_eq_some_iff.1 hq).1
  have hself : c'.cabs[i]? = some q' := by rw [hcabs, List.getElem?_set]; simp [hlt]
  have hzero : c.passengers = 0 → c'.passengers = 0 := by
    intro h0
    rw [Ride.passengers_zero] at h0 ⊢
    intro j p' hp'
    obtain ⟨p, hp, h1, _⟩ := hback j p' hp'
    rw [h1]
    exact h0 j p hp
  have hbusy : ∀ x, ¬ q.idle → c.Ready (4 * (n - 1)) q x →
      c'.Ready (4 * (n - 1)) q' x ∧ (q'.pc ≠ .dead → q'.next ≤ x + 4 ∧ q'.next ≤ c.now + 30) :=
    fun x hi hr => hf.ready hok hq hn hk hpos ha hi hr
  have hfreeT : ∀ (p : Rider) (j : Nat), c.riders[j]? = some p → p.free = true → c.now ≤ T := fun p j hp hx => h.free_now hok hp hx
  constructor
  · intro j p' hp' hpc
    obtain ⟨p, hp, h1, h2, _⟩ := hback j p' hp'
    rw [h2]
    exact h.first j p hp (by rw [← h1]; exact hpc)
  · intro j p' e hp' hpc
    obtain ⟨p, hp, h1, h2, _⟩ := hback j p' hp'
    rw [h2, hnow]
    exact h.wait j p e hp (by rw [← h1]; exact hpc)
  · intro m q1 hq1 hd
    rw [hcabs] at hq1
    rcases set_getElem?_cases hq1 with ⟨rfl, rfl⟩ | ⟨_, hq1⟩
    · cases hf with
      | dies _ h0 => exact hzero h0
      | rests _ _ _ hx => obtain ⟨g, hx⟩ := hx; rw [hd] at hx; cases hx
      | takes _ _ _ _ _ _ _ _ _ hx => obtain ⟨g, hx⟩ := hx; rw [hd] at hx; cases hx
      | asks _ _ _ _ hx => rw [hd] at hx; cases hx
      | waits _ _ _ hx => rw [hd] at hx; cases hx
      | leaves _ _ _ hx => rw [hd] at hx; cases hx
      | drives _ hx => rcases hx with hx | hx <;> rw [hd] at hx <;> cases hx
      | collects _ _ hx => rw [hd] at hx; cases hx
    · exact hzero (h.dead m q1 hq1 hd)
  · by_cases h0' : c'.freeRiders = 0
    · exact Or.inl h0'
    right
    rcases h.chase with h0 | ⟨τ, q0, hq0, hr, hfree, hT⟩
    · exact absurd (Nat.le_zero.1 (h0 ▸ hcount)) h0'
    have hT' : τ + (c'.freeRiders - 1) * carsPace n ≤ T := by
      have := Nat.mul_le_mul_right (carsPace n) (show c'.freeRiders - 1 ≤ c.freeRiders - 1 by omega)
      omega
    by_cases hi0 : i = 0
    · subst hi0
      rw [hq] at hq0; cases hq0
      have keep : ¬ q.idle → q'.inbox = q.inbox → ∃ τ q, c'.cabs[0]? = some q ∧ c'.Ready (4 * (n - 1)) q τ ∧
          (∀ (j : Nat) p, c'.riders[j]? = some p → p.free = true → (p.pc = .start → 30 ≤ τ) ∧
            ∀ e, p.pc = .wait e → (j, e) ∈ q.inbox ∨ e + 30 ≤ τ) ∧
          τ + (c'.freeRiders - 1) * carsPace n ≤ T := by
        intro hi hin
        refine ⟨τ, q', hself, (hbusy τ hi hr).1, ?_, hT'⟩
        intro j p' hp' hx
        obtain ⟨p, hp, h1, _, h3⟩ := hback j p' hp'
        rw [h1, hin]
        exact hfree j p hp (h3 hx)
      cases hf with
      | dies h1 h2 => exact absurd (Nat.le_zero.1 ((hok.free_zero h2) ▸ hcount)) h0'
      | rests hpa hi hrid hpc hj hin hnx hno =>
        have hnotin : ∀ (j : Nat) p e, c.riders[j]? = some p → p.free = true → p.pc = .wait e → (j, e) ∉ q.inbox := by
          intro j p e hp hx hpe hin
          obtain ⟨t, ht, _⟩ := (hok.rider j p hp).trip (by rw [hpe]; simp)
          have hd : t.driver = none := by simpa [Rider.free, ht] using hx
          obtain ⟨k, hk⟩ := (h.wait j p e hp hpe).2
          have hle := (hok.rider j p hp).next (by rw [hpe]; simp)
          exact hno j e p t hin (by omega) hp ht hd
        have hidle : q'.idle := Or.inr ⟨hpc, hj⟩
        have hready : q'.next ≤ τ := by
          obtain ⟨j, p', hp', hx⟩ := Ride.free_ex h0'
          rw [hrid] at hp'
          have hle : p'.pc ≠ .dead → c.now ≤ p'.next := (hok.rider j p' hp').next
          rcases hok.free_alive hp' hx with hs | ⟨e, he⟩
          · have h1 := (hfree j p' hp' hx).1 hs
            have h2 := h.first j p' hp' hs
            have := hle (by rw [hs]; simp)
            omega
          · rcases (hfree j p' hp' hx).2 e he with h1 | h1
            · exact absurd h1 (hnotin j p' e hp' hx he)
            · obtain ⟨k, hk⟩ := (h.wait j p' e hp' he).2
              have := hle (by rw [he]; simp)
              omega
        refine ⟨τ, q', hself, (Ride.Ready.idle hidle).2 hready, ?_, hT'⟩
        intro j p' hp' hx
        rw [hrid] at hp'
        refine ⟨(hfree j p' hp' hx).1, ?_⟩
        intro e he
        right
        rcases (hfree j p' hp' hx).2 e he with h1 | h1
        · exact absurd h1 (hnotin j p' e hp' hx he)
        · exact h1
      | takes j p t hpa hi hp ht hd hrid hpc hj hin hnx =>
        have hlt : c'.freeRiders + 1 = c.freeRiders := by
          unfold Ride.freeRiders
          rw [hrid]
          exact countP_modify_lt _ _ _ _ p hp (by simp [Rider.free, ht, hd]) (by simp [Rider.free])
        have hτ : c.now ≤ τ := by
          rw [Ride.Ready.idle hi] at hr
          omega
        have hM1 : 47 + 4 * (n - 1) ≤ carsPace n := Nat.le_max_left _ _
        have hM2 : 90 ≤ carsPace n := Nat.le_max_right _ _
        obtain ⟨g, hpc⟩ := hpc
        refine ⟨c.now + carsPace n, q', hself, ?_, ?_, ?_⟩
        · simp only [Ride.Ready, hpc, hj]
          simp
          omega
        · intro m p' hp' hx
          obtain ⟨p0, hp0, h1, _, h3⟩ := hback m p' hp'
          rw [h1]
          refine ⟨fun _ => by omega, fun e he => Or.inr ?_⟩
          have := (h.wait m p0 e hp0 he).1
          omega
        · obtain ⟨x, hx⟩ : ∃ x, c'.freeRiders = x + 1 := ⟨c'.freeRiders - 1, by omega⟩
          rw [← hlt] at hT
          rw [hx] at hT ⊢
          simp only [Nat.add_sub_cancel] at hT ⊢
          rw [Nat.add_mul] at hT
          omega
      | asks a j h1 h2 h3 h4 h5 h6 =>
        refine keep ?_ h5
        rintro (hx | ⟨_, hx⟩)
        · obtain ⟨g, h1⟩ := h1
          rw [hx] at h1
          cases h1
        · rw [h2] at hx
          cases hx
      | waits a e h1 h2 h3 h4 =>
        refine keep ?_ h4
        rintro (hx | ⟨⟨g, hx⟩, _⟩) <;> rw [h1] at hx <;> cases hx
      | leaves a e h1 h2 h3 h4 =>
        refine keep ?_ h4
        rintro (hx | ⟨⟨g, hx⟩, _⟩) <;> rw [h1] at hx <;> cases hx
      | drives h1 h2 h3 h4 => exact keep h1.not_idle h4
      | collects _ h1 h2 h3 h4 => exact keep h1.not_idle h4
    · refine ⟨τ, q0, by rw [hcabs, List.getElem?_set_ne hi0]; exact hq0, hr.keep hok hq0 hk q0.inbox, ?_, hT'⟩
      intro j p' hp' hx
      obtain ⟨p, hp, h1, _, h3⟩ := hback j p' hp'
      rw [h1]
      exact hfree j p hp (h3 hx)
  · intro m q1 hq1 hi1
    rw [hcabs] at hq1
    rcases set_getElem?_cases hq1 with ⟨rfl, rfl⟩ | ⟨_, hq1⟩
    · by_cases hi : q.idle
      · cases hf with
        | dies h1 => simp only [Ride.Ready, h1]
        | rests _ _ _ h1 h2 => exact absurd (Or.inr ⟨h1, h2⟩) hi1
        | takes j p t _ _ hp ht hd _ hpc hj _ hnx =>
          obtain ⟨g, hpc⟩ := hpc
          have := hfreeT p j hp (by simp [Rider.free, ht, hd])
          simp only [Ride.Ready, hpc, hj]
          simp
          omega
        | asks a j h1 h2 =>
          rcases hi with hx | ⟨_, hx⟩
          · obtain ⟨g, h1⟩ := h1
            rw [hx] at h1
            cases h1
          · rw [h2] at hx
            cases hx
        | waits a e h1 => rcases hi with hx | ⟨⟨g, hx⟩, _⟩ <;> rw [h1] at hx <;> cases hx
        | leaves a e h1 => rcases hi with hx | ⟨⟨g, hx⟩, _⟩ <;> rw [h1] at hx <;> cases hx
        | drives h1 => exact absurd hi h1.not_idle
        | collects _ h1 => exact absurd hi h1.not_idle
      · exact (hbusy _ hi (h.busy i q hq hi)).1
    · exact (h.busy m q1 hq1 hi1).keep hok hq1 hk q1.inbox
  · intro j p' hp' hpc
    obtain ⟨p, hp, h1, h2, _⟩ := hback j p' hp'
    rw [h2]
    exact h.home j p hp (by rw [← h1]; exact hpc)
  · intro j p' e hp' hpc
    obtain ⟨p, hp, h1, h2, _⟩ := hback j p' hp'
    rw [h2]
    exact h.ride j p e hp (by rw [← h1]; exact hpc)
  · intro m q1 hq1 hd1
    rw [hcabs] at hq1
    rcases set_getElem?_cases hq1 with ⟨rfl, rfl⟩ | ⟨_, hq1⟩
    · by_cases hi : q.idle
      · have halive : c.passengers ≠ 0 → c.now ≤ T + 106 + 4 * (n - 1) := by
          intro hx
          obtain ⟨j, p, hp, hpd⟩ := Ride.passengers_ne hx
          exact h.alive_now hok hp hpd
        cases hf with
        | dies h1 => exact absurd h1 hd1
        | rests hx _ _ _ _ _ hnx => have := halive hx; omega
        | takes j p t hx _ _ _ _ _ _ _ _ hnx => have := halive hx; omega
        | asks a j h1 h2 =>
          rcases hi with hx | ⟨_, hx⟩
          · obtain ⟨g, h1⟩ := h1
            rw [hx] at h1
            cases h1
          · rw [h2] at hx
            cases hx
        | waits a e h1 => rcases hi with hx | ⟨⟨g, hx⟩, _⟩ <;> rw [h1] at hx <;> cases hx
        | leaves a e h1 => rcases hi with hx | ⟨⟨g, hx⟩, _⟩ <;> rw [h1] at hx <;> cases hx
        | drives h1 => exact absurd hi h1.not_idle
        | collects _ h1 => exact absurd hi h1.not_idle
      · have := ((hbusy _ hi (h.busy i q hq hi)).2 hd1).1
        omega
    · exact h.last m q1 hq1 hd1

theorem Ride.Ending.rider {n T : Nat} {c c' : Ride} {j : Nat} {p : Rider} (h : c.Ending n T) (hok : c.Ok) (hk : c.Keeps c')
    (hp : c.riders[j]? = some p) (hne : p.pc ≠ .dead) (hn : c.now = p.next) (hs : RiderStep c c' j p) : c'.Ending n T := by
  obtain ⟨hnow, p', f, hriders, hfree, hcabs, hsub, hf⟩ := hs
  have hlt := (List.getElem?_eq_some_iff.1 hp).1
  have hself : c'.riders[j]? = some p' := by rw [hriders, List.getElem?_set]; simp [hlt]
  have hcab : ∀ (i : Nat) q', c'.cabs[i]? = some q' → ∃ q, c.cabs[i]? = some q ∧ q' = { q with inbox := f q } := by
    intro i q' hq'
    rw [hcabs, List.getElem?_map] at hq'
    obtain ⟨q, hq, rfl⟩ := Option.map_eq_some_iff.1 hq'
    exact ⟨q, hq, rfl⟩
  have hpa : c.passengers ≠ 0 := by
    intro h0
    exact hne ((Ride.passengers_zero c).1 h0 j p hp)
  have hcnt : c'.freeRiders = c.freeRiders := by
    have hmod : c.riders.set j p' = c.riders.modify j (fun _ => p') := by
      rw [List.set_eq_modify]
    unfold Ride.freeRiders
    rw [hriders]
    have hget := (List.getElem?_eq_some_iff.1 hp).2
    rw [List.countP_set (h := hlt), hget, hfree]
    by_cases hx : p.free = true
    · have : 0 < c.riders.countP Rider.free := List.countP_pos_iff.2 ⟨p, List.mem_of_getElem? hp, hx⟩
      simp [hx]
      omega
    · simp [hx]
  have hother : ∀ (m : Nat) p1, c'.riders[m]? = some p1 → (m = j ∧ p1 = p') ∨ c.riders[m]? = some p1 := by
    intro m p1 hp1
    rw [hriders] at hp1
    rcases set_getElem?_cases hp1 with ⟨hm, h1⟩ | ⟨_, h1⟩
    · exact Or.inl ⟨hm.symm, h1⟩
    · exact Or.inr h1
  have hidle : ∀ q : Cab, ({ q with inbox := f q } : Cab).idle ↔ q.idle := fun q => Iff.rfl
  constructor
  · intro m p1 hp1 hpc
    rcases hother m p1 hp1 with ⟨rfl, rfl⟩ | hp1
    · cases hf with
      | calls _ h1 => rw [hpc] at h1; cases h1
      | waits e _ _ h1 => rw [hpc] at h1; cases h1
      | answers _ _ h1 => rw [hpc] at h1; cases h1
      | rides t _ _ _ h1 => rw [hpc] at h1; cases h1
      | stays e _ _ h1 => rw [hpc] at h1; cases h1
      | stops h1 => rw [hpc] at h1; cases h1
    · exact h.first m p1 hp1 hpc
  · intro m p1 e hp1 hpc
    rw [hnow]
    rcases hother m p1 hp1 with ⟨rfl, rfl⟩ | hp1
    · cases hf with
      | calls _ h1 h2 =>
        rw [hpc] at h1
        cases h1
        exact ⟨Nat.le_refl _, 5, by omega⟩
      | waits e' h0 h1 h2 h3 =>
        rw [hpc] at h2
        cases h2
        obtain ⟨h4, k, h5⟩ := h.wait m p e hp h0
        exact ⟨h4, k - 1, by omega⟩
      | answers _ _ h1 => rw [hpc] at h1; cases h1
      | rides t _ _ _ h1 => rw [hpc] at h1; cases h1
      | stays e _ _ h1 => rw [hpc] at h1; cases h1
      | stops h1 => rw [hpc] at h1; cases h1
    · exact h.wait m p1 e hp1 hpc
  · intro i q' hq' hd
    obtain ⟨q, hq, rfl⟩ := hcab i q' hq'
    exact absurd (h.dead i q hq hd) hpa
  · rw [hcnt]
    rcases h.chase with h0 | ⟨τ, q, hq, hr, hfr, hT⟩
    · exact Or.inl h0
    right
    have hqne : q.pc ≠ .dead := fun hd => hpa (h.dead 0 q hq hd)
    refine ⟨τ, { q with inbox := f q }, by rw [hcabs, List.getElem?_map, hq]; rfl, hr.keep hok hq hk _, ?_, hT⟩
    intro m p1 hp1 hx
    rcases hother m p1 hp1 with ⟨rfl, rfl⟩ | hp1
    · rw [hfree] at hx
      cases hf with
      | calls _ h1 h2 h3 =>
        refine ⟨fun hs => (by rw [hs] at h1; cases h1), fun e he => ?_⟩
        rw [he] at h1
        cases h1
        exact Or.inl (h3 q hqne)
      | waits e' h0 h1 h2 h3 =>
        refine ⟨fun hs => (by rw [hs] at h2; cases h2), fun e he => ?_⟩
        rw [he] at h2
        cases h2
        rcases (hfr m p hp hx).2 e' h0 with h4 | h4
        · exact Or.inl (hsub q _ h4)
        · exact Or.inr h4
      | answers _ _ h1 => exact ⟨fun hs => (by rw [hs] at h1; cases h1), fun e he => by rw [he] at h1; cases h1⟩
      | rides t _ _ _ h1 => exact ⟨fun hs => (by rw [hs] at h1; cases h1), fun e he => by rw [he] at h1; cases h1⟩
      | stays e _ _ h1 => exact ⟨fun hs => (by rw [hs] at h1; cases h1), fun e he => by rw [he] at h1; cases h1⟩
      | stops h1 => exact ⟨fun hs => (by rw [hs] at h1; cases h1), fun e he => by rw [he] at h1; cases h1⟩
    · refine ⟨(hfr m p1 hp1 hx).1, fun e he => ?_⟩
      rcases (hfr m p1 hp1 hx).2 e he with h4 | h4
      · exact Or.inl (hsub q _ h4)
      · exact Or.inr h4
  · intro i q' hq' hi
    obtain ⟨q, hq, rfl⟩ := hcab i q' hq'
    exact (h.busy i q hq (fun hx => hi ((hidle q).2 hx))).keep hok hq hk _
  · intro m p1 hp1 hpc
    rcases hother m p1 hp1 with ⟨rfl, rfl⟩ | hp1
    · cases hf with
      | calls _ h1 => rw [hpc] at h1; cases h1
      | waits e _ _ h1 => rw [hpc] at h1; cases h1
      | answers _ hin h1 h2 =>
        obtain ⟨i, q, a, e, hq, hqj, hqpc, _⟩ := hok.asked m p hp hin
        have hi : ¬ q.idle := by rintro (hx | ⟨⟨g, hx⟩, _⟩) <;> rw [hqpc] at hx <;> cases hx
        have := (hok.ready_now hq (by rw [hqpc]; simp) (h.busy i q hq hi)).2 hi
        omega
      | rides t _ _ _ h1 => rw [hpc] at h1; cases h1
      | stays e _ _ h1 => rw [hpc] at h1; cases h1
      | stops h1 => rw [hpc] at h1; cases h1
    · exact h.home m p1 hp1 hpc
  · intro m p1 e hp1 hpc
    rcases hother m p1 hp1 with ⟨rfl, rfl⟩ | hp1
    · cases hf with
      | calls _ h1 => rw [hpc] at h1; cases h1
      | waits e _ _ h1 => rw [hpc] at h1; cases h1
      | answers _ _ h1 => rw [hpc] at h1; cases h1
      | rides t hr ht hd h1 h2 =>
        rw [hpc] at h1
        cases h1
        have hj : m ∉ c.paid := by
          intro hx
          obtain ⟨p2, t2, hp2, ht2, _, hpos, _⟩ := hok.paid m hx
          rw [hp] at hp2; cases hp2
          rw [ht] at ht2; cases ht2
          exact hd hpos
        have := h.unpaid_now hok hp (by rcases hr.2.2 with hy | ⟨e, hy⟩ | hy <;> rw [hy] <;> simp) hj
        omega
      | stays e' h0 h1 h2 h3 =>
        rw [hpc] at h2
        cases h2
        have := h.ride m p e hp h0
        omega
      | stops h1 => rw [hpc] at h1; cases h1
    · exact h.ride m p1 e hp1 hpc
  · intro i q' hq' hd
    obtain ⟨q, hq, rfl⟩ := hcab i q' hq'
    exact h.last i q hq hd

/-- How often drivers (passengers) may still be activated until the time `Y`. -/
def Cab.room (Y : Nat) (q : Cab) : Nat := if q.pc = .dead then 0 else Y + 1 - q.next
def Rider.room (Y : Nat) (p : Rider) : Nat := if p.pc = .dead then 0 else Y + 1 - p.next
def Ride.room (Y : Nat) (c : Ride) : Nat := (c.cabs.map (Cab.room Y)).sum + (c.riders.map (Rider.room Y)).sum

theorem sum_set_room {α : Type} (w : α → Nat) (l : List α) (i : Nat) (a b : α) (h : l[i]? = some a) :
    ((l.set i b).map w).sum + w a = (l.map w).sum + w b := by
  induction l generalizing i with
  | nil => cases h
  | cons x l ih =>
    cases i with
    | zero =>
      simp only [List.getElem?_cons_zero, Option.some.injEq] at h
      subst h
      simp only [List.set_cons_zero, List.map_cons, List.sum_cons]
      omega
    | succ i =>
      simp only [List.getElem?_cons_succ] at h
      simp only [List.set_cons_succ, List.map_cons, List.sum_cons]
      have := ih i h
      omega

theorem map_modify_room {α β : Type} (w : α → β) (f : α → α) (hf : ∀ r, w (f r) = w r) (l : List α) (m : Nat) :
    (l.modify m f).map w = l.map w := by
  induction l generalizing m with
  | nil => simp
  | cons a l ih =>
    cases m with
    | zero => simp [hf]
    | succ m => simp [ih]

theorem CabFate.room {c c' : Ride} {i : Nat} {q q' : Cab} (h : CabFate c c' i q q') (Y : Nat) :
    c'.riders.map (Rider.room Y) = c.riders.map (Rider.room Y) ∧ (q'.pc = .dead ∨ c.now + 1 ≤ q'.next) := by
  have same : SameRiders c.riders c'.riders → c'.riders.map (Rider.room Y) = c.riders.map (Rider.room Y) := by
    rintro ⟨m, f, hf, hr⟩
    rw [hr]
    exact map_modify_room _ f (fun r => by simp only [Rider.room, (hf r).1, (hf r).2.1]) _ _
  cases h with
  | dies h1 _ h2 => exact ⟨by rw [h2], Or.inl h1⟩
  | rests _ _ h2 _ _ _ h1 => exact ⟨by rw [h2], Or.inr (by omega)⟩
  | takes j p t _ _ _ _ _ h2 _ _ _ h1 =>
    refine ⟨?_, Or.inr (by omega)⟩
    rw [h2]
    exact map_modify_room _ _ (by intro r; rfl) _ _
  | asks _ _ _ _ _ h1 _ h2 => exact ⟨same h2, Or.inr (by omega)⟩
  | waits _ _ _ _ h1 _ h2 => exact ⟨by rw [h2], Or.inr (by omega)⟩
  | leaves _ _ _ _ h1 _ _ h2 => exact ⟨by rw [h2], Or.inr (by omega)⟩
  | drives _ _ h1 _ _ _ h2 => exact ⟨same h2, Or.inr (by omega)⟩
  | collects _ _ _ h1 _ h2 => exact ⟨by rw [h2], Or.inr (by omega)⟩

theorem Ride.Ending.room_cab {n T : Nat} {c c' : Ride} {i : Nat} {q q' : Cab} (h : c.Ending n T)
    (hq : c.cabs[i]? = some q) (hne : q.pc ≠ .dead) (hn : c.now = q.next)
    (hcabs : c'.cabs = c.cabs.set i q') (hf : CabFate c c' i q q') :
    c'.room (T + 136 + 4 * (n - 1)) + 1 ≤ c.room (T + 136 + 4 * (n - 1)) := by
  obtain ⟨h1, h2⟩ := hf.room (T + 136 + 4 * (n - 1))
  have h3 := sum_set_room (Cab.room (T + 136 + 4 * (n - 1))) c.cabs i q q' hq
  have h4 := h.last i q hq hne
  unfold Ride.room
  rw [h1, hcabs]
  have h5 : q.room (T + 136 + 4 * (n - 1)) = T + 136 + 4 * (n - 1) + 1 - q.next := by simp only [Cab.room, hne, if_false]
  have h6 : q'.room (T + 136 + 4 * (n - 1)) + 1 ≤ T + 136 + 4 * (n - 1) + 1 - q.next := by
    unfold Cab.room
    split
    · omega
    · rename_i hd
      rcases h2 with h2 | h2
      · exact absurd h2 hd
      · omega
  omega

theorem Ride.Ending.room_rider {n T : Nat} {c c' : Ride} {j : Nat} {p : Rider} (h : c.Ending n T) (hok : c.Ok)
    (hp : c.riders[j]? = some p) (hne : p.pc ≠ .dead) (hn : c.now = p.next) (hs : RiderStep c c' j p) :
    c'.room (T + 136 + 4 * (n - 1)) + 1 ≤ c.room (T + 136 + 4 * (n - 1)) := by
  obtain ⟨_, p', f, hriders, _, hcabs, _, hf⟩ := hs
  have h3 := sum_set_room (Rider.room (T + 136 + 4 * (n - 1))) c.riders j p p' hp
  have h4 := h.alive_now hok hp hne
  have h2 : p'.pc = .dead ∨ c.now + 1 ≤ p'.next := by
    cases hf with
    | calls _ _ h1 => exact Or.inr (by omega)
    | waits e _ _ _ h1 => exact Or.inr (by omega)
    | answers _ _ _ h1 => exact Or.inr (by omega)
    | rides t _ _ _ _ h1 => exact Or.inr (by omega)
    | stays e _ _ _ h1 => exact Or.inr (by omega)
    | stops h1 => exact Or.inl h1
  have h1 : c'.cabs.map (Cab.room (T + 136 + 4 * (n - 1))) = c.cabs.map (Cab.room (T + 136 + 4 * (n - 1))) := by
    rw [hcabs, List.map_map]
    rfl
  unfold Ride.room
  rw [h1, hriders]
  have h5 : p.room (T + 136 + 4 * (n - 1)) = T + 136 + 4 * (n - 1) + 1 - p.next := by simp only [Rider.room, hne, if_false]
  have h6 : p'.room (T + 136 + 4 * (n - 1)) + 1 ≤ T + 136 + 4 * (n - 1) + 1 - p.next := by
    unfold Rider.room
    split
    · omega
    · rename_i hd
      rcases h2 with h2 | h2
      · exact absurd h2 hd
      · omega
  omega

/-- Everything that holds until the end. -/
structure Ride.Fine (n T : Nat) (rs : List GridCell) (c : Ride) : Prop where
  ok : c.Ok
  geo : c.Geo n n rs
  aims : c.Aims n n
  ending : c.Ending n T

theorem Ride.turn_due {c : Ride} {e : RideEv} {t : Nat} (h : c.turn e t = true) : c.due e = some t := by
  unfold Ride.turn at h
  simp only [Bool.and_eq_true] at h
  exact of_decide_eq_true h.1.1

theorem Ride.Ok.turn_now {c : Ride} (hok : c.Ok) {e : RideEv} {t : Nat} (h : c.turn e t = true) : c.now ≤ t := by
  have hd := Ride.turn_due h
  cases e with
  | cab i k =>
    obtain ⟨q, hq, hx⟩ := Option.bind_eq_some_iff.1 hd
    split at hx
    · cases hx
    · rename_i hne
      cases hx
      exact (hok.cab i q hq).next hne
  | rider j d tip =>
    obtain ⟨p, hp, hx⟩ := Option.bind_eq_some_iff.1 hd
    split at hx
    · cases hx
    · rename_i hne
      cases hx
      exact (hok.rider j p hp).next hne

theorem Ride.Fine.act {n T : Nat} {rs : List GridCell} {c : Ride} (h : c.Fine n T rs) (h2 : 2 ≤ n) (e : RideEv) (t : Nat)
    (ht : c.turn e t = true) (hE : ∀ j d tip, e = .rider j d tip → InGrid n n d) :
    (({ c with now := t } : Ride).act e).2 = false ∧ (({ c with now := t } : Ride).act e).1.Fine n T rs ∧
    (({ c with now := t } : Ride).act e).1.room (T + 136 + 4 * (n - 1)) + 1 ≤ c.room (T + 136 + 4 * (n - 1)) := by
  have hk := h.ok.tick e t ht
  have hok' := h.ok.act e t ht
  have hg : ({ c with now := t } : Ride).Geo n n rs := ⟨h.geo.width, h.geo.height, h.geo.cab, h.geo.rider⟩
  have ha : ({ c with now := t } : Ride).Aims n n := ⟨h.aims.cab, h.aims.rider⟩
  have he := h.ending.tick t (h.ok.turn_now ht)
  have hsafe := Ride.act_safe hk hg ha (Or.inl h2) e
  have hdue := Ride.turn_due ht
  refine ⟨hsafe, ?_⟩
  have hroom : c.room (T + 136 + 4 * (n - 1)) = ({ c with now := t } : Ride).room (T + 136 + 4 * (n - 1)) := rfl
  rw [hroom]
  cases e with
  | cab i k =>
    obtain ⟨q, hq, hx⟩ := Option.bind_eq_some_iff.1 hdue
    split at hx
    · cases hx
    rename_i hne
    have hn : ({ c with now := t } : Ride).now = q.next := by cases hx; rfl
    obtain ⟨q', hcabs, hnow, hf⟩ := Ride.actCab_fate hk i k q hq hne hn hsafe
    have hgeo : (({ c with now := t } : Ride).actCab i k).1.Geo n n rs ∧ (({ c with now := t } : Ride).actCab i k).1.Aims n n := by
      rcases Ride.actCab_step hk i k with hsame | ⟨q0, q0', hq0, _, hst⟩
      · rw [hsame]
        exact ⟨hg, ha⟩
      · exact ⟨hg.actCab hk hq0 hst hok', ha.actCab hg.width hg.height hk hq0 hst hok'⟩
    exact ⟨⟨hok', hgeo.1, hgeo.2, he.cab hk (Ride.actCab_keeps _ i k) hq hne hn (h.geo.cab i q hq).1 ha hcabs hnow hf⟩,
      he.room_cab hq hne hn hcabs hf⟩
  | rider j d tip =>
    obtain ⟨p, hp, hx⟩ := Option.bind_eq_some_iff.1 hdue
    split at hx
    · cases hx
    rename_i hne
    have hn : ({ c with now := t } : Ride).now = p.next := by cases hx; rfl
    have hs := Ride.actRider_fate hk j d tip p hp hne hsafe
    exact ⟨⟨hok', hg.actRider hk, ha.actRider hk hg (hE j d tip rfl), he.rider hk (Ride.actRider_keeps hk j d tip) hp hne hn hs⟩,
      he.room_rider hk hp hne hn hs⟩

end Verif
