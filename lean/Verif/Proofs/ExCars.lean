import Verif.Model.ExCars
import Mathlib.Tactic.Ring
import Mathlib.Tactic.Linarith

/-!
# The invariant of the taxi simulation
-/

namespace Verif

/-- A passenger waits for an answer. -/
def Rider.Waiting (p : Rider) : Prop := (∃ e, p.pc = .wait e) ∧ p.journey = none

/-- A passenger whose journey was confirmed. -/
def Rider.Riding (j : Nat) (p : Rider) : Prop :=
  p.journey = some j ∧ p.inbox = [] ∧ (p.pc = .home ∨ (∃ e, p.pc = .ride e) ∨ p.pc = .dead)

/-- How driver `i` and the passenger `j` of its journey are related. -/
def Linked (paid : List Nat) (asks : List (Option Nat)) (i : Nat) (q : Cab) (j : Nat) (p : Rider) : Prop :=
  ∃ t, p.trip = some t ∧ t.driver = some i ∧
    match q.pc with
    | .wander => j ∈ paid
    | .dead => j ∈ paid
    | .loop _ => j ∉ paid ∧ p.Waiting ∧ p.inbox = [] ∧ p.pos = t.origin
    | .ask a exp => j ∉ paid ∧ p.pos = t.origin ∧ q.next + 45 ≤ exp ∧
        ((asks[a]? = some none ∧ p.Waiting ∧ p.inbox = [(a, j)] ∧ p.next + 50 ≤ exp) ∨ (asks[a]? = some (some j) ∧ p.Riding j))
    | .toOrigin => j ∉ paid ∧ p.pos = t.origin ∧ p.Riding j
    | .toDest => j ∉ paid ∧ p.pos = q.pos ∧ p.Riding j

/-- What holds of a driver. -/
structure CabOk (c : Ride) (i : Nat) (q : Cab) : Prop where
  idle : q.journey = none → q.pc = .wander ∨ (∃ t, q.pc = .loop t) ∨ q.pc = .dead
  busy : ∀ j, q.journey = some j → ∃ p, c.riders[j]? = some p ∧ Linked c.paid c.asks i q j p
  inbox : ∀ m ∈ q.inbox, ∃ p t, c.riders[m.1]? = some p ∧ p.trip = some t
  next : q.pc ≠ .dead → c.now ≤ q.next

/-- What holds of a passenger. -/
structure RiderOk (c : Ride) (j : Nat) (p : Rider) : Prop where
  start : p.pc = .start → p.trip = none ∧ p.journey = none ∧ p.inbox = []
  trip : p.pc ≠ .start → ∃ t, p.trip = some t ∧
    (t.driver = none → p.Waiting ∧ p.inbox = [] ∧ p.pos = t.origin) ∧
    (∀ i, t.driver = some i → j ∈ c.paid ∨ ∃ q, c.cabs[i]? = some q ∧ q.journey = some j) ∧
    (p.pc = .dead → p.pos = t.dest)
  wait : ∀ e, p.pc = .wait e → p.next ≤ c.now + 10
  next : p.pc ≠ .dead → c.now ≤ p.next

/-- The invariant. -/
structure Ride.Ok (c : Ride) : Prop where
  cab : ∀ (i : Nat) q, c.cabs[i]? = some q → CabOk c i q
  rider : ∀ (j : Nat) p, c.riders[j]? = some p → RiderOk c j p
  paid : ∀ j ∈ c.paid, ∃ p t, c.riders[j]? = some p ∧ p.trip = some t ∧ t.driver ≠ none ∧ p.pos = t.dest ∧ p.Riding j
  nodup : c.paid.Nodup
  uniq : ∀ (i i' : Nat) q q' a e e', c.cabs[i]? = some q → c.cabs[i']? = some q' → q.pc = .ask a e → q'.pc = .ask a e' → i = i'

theorem Ride.init_ok (w h : Nat) (cs rs : List GridCell) : (Ride.init w h cs rs).Ok where
  cab := by
    intro i q hq
    simp only [Ride.init, List.getElem?_map] at hq
    obtain ⟨x, _, rfl⟩ := Option.map_eq_some_iff.1 hq
    exact ⟨fun _ => Or.inl rfl, fun j hj => (by cases hj), fun m hm => (by cases hm), fun _ => Nat.le_refl _⟩
  rider := by
    intro j p hp
    simp only [Ride.init, List.getElem?_map] at hp
    obtain ⟨x, _, rfl⟩ := Option.map_eq_some_iff.1 hp
    exact ⟨fun _ => ⟨rfl, rfl, rfl⟩, fun hne => absurd rfl hne, fun e he => (by cases he), fun _ => Nat.le_refl _⟩
  paid := by intro j hj; cases hj
  nodup := List.nodup_nil
  uniq := by
    intro i i' q q' a e e' hq _ ha _
    simp only [Ride.init, List.getElem?_map] at hq
    obtain ⟨x, _, rfl⟩ := Option.map_eq_some_iff.1 hq
    cases ha

/-- The time passes until the next activation. -/
theorem Ride.Ok.tick {c : Ride} (h : c.Ok) (e : RideEv) (t : Nat) (ht : c.turn e t = true) : ({ c with now := t } : Ride).Ok := by
  unfold Ride.turn at ht
  simp only [Bool.and_eq_true, decide_eq_true_eq, List.all_eq_true] at ht
  obtain ⟨⟨hd, hc⟩, hr⟩ := ht
  have hnow : c.now ≤ t := by
    cases e with
    | cab i k =>
      simp only [Ride.due] at hd
      cases hq : c.cabs[i]? with
      | none => rw [hq] at hd; cases hd
      | some q =>
        rw [hq] at hd
        simp only [Option.bind_some] at hd
        split at hd
        · cases hd
        · rename_i hne
          cases hd
          exact (h.cab i q hq).next hne
    | rider j d tip =>
      simp only [Ride.due] at hd
      cases hq : c.riders[j]? with
      | none => rw [hq] at hd; cases hd
      | some p =>
        rw [hq] at hd
        simp only [Option.bind_some] at hd
        split at hd
        · cases hd
        · rename_i hne
          cases hd
          exact (h.rider j p hq).next hne
  refine ⟨?_, ?_, h.paid, h.nodup, h.uniq⟩
  · intro i q hq
    have hq0 := h.cab i q hq
    refine ⟨hq0.idle, hq0.busy, hq0.inbox, fun hne => ?_⟩
    rcases hc q (List.mem_of_getElem? hq) with h1 | h1
    · exact absurd h1 hne
    · exact h1
  · intro j p hp
    have hp0 := h.rider j p hp
    refine ⟨hp0.start, hp0.trip, fun e he => ?_, fun hne => ?_⟩
    · have := hp0.wait e he
      show p.next ≤ t + 10
      omega
    · rcases hr p (List.mem_of_getElem? hp) with h1 | h1
      · exact absurd h1 hne
      · exact h1

/-- Other parts of the state are not affected by an activation of a driver that concerns the passengers in `S` only. -/
theorem Ride.Ok.ofCab {c c' : Ride} (h : c.Ok) (i : Nat) (q q' : Cab) (S : Nat → Prop) (hq : c.cabs[i]? = some q)
    (hcabs : c'.cabs = c.cabs.set i q') (hnow : c'.now = c.now)
    (hr : ∀ j, ¬ S j → c'.riders[j]? = c.riders[j]?)
    (hpaid : ∀ j, ¬ S j → (j ∈ c'.paid ↔ j ∈ c.paid)) (hsub : ∀ j ∈ c.paid, j ∈ c'.paid)
    (hasks : ∀ (a : Nat) v, c.asks[a]? = some v → c'.asks[a]? = some v)
    (hS : ∀ j, S j → ∃ p p' t t', c.riders[j]? = some p ∧ c'.riders[j]? = some p' ∧ p.trip = some t ∧ p'.trip = some t' ∧
      (t.driver = some i ∨ t.driver = none) ∧ RiderOk c' j p')
    (hown : ∀ j, q.journey = some j → S j ∨ j ∈ c'.paid ∨ q'.journey = some j)
    (hcab : CabOk c' i q')
    (hpok : ∀ j ∈ c'.paid, S j → ∃ p t, c'.riders[j]? = some p ∧ p.trip = some t ∧ t.driver ≠ none ∧ p.pos = t.dest ∧ p.Riding j)
    (hnd : c'.paid.Nodup)
    (hask : ∀ a e, q'.pc = .ask a e → (∃ e', q.pc = .ask a e') ∨ c.asks.length ≤ a) : c'.Ok := by
  have hlt := (List.getElem?_eq_some_iff.1 hq).1
  have hget : ∀ i' : Nat, c'.cabs[i']? = if i = i' then some q' else c.cabs[i']? := by
    intro i'
    rw [hcabs, List.getElem?_set]
    by_cases hi : i = i'
    · subst hi; simp [hlt]
    · simp [hi]
  have hsome : ∀ (m : Nat) p t, c.riders[m]? = some p → p.trip = some t → ∃ p' t', c'.riders[m]? = some p' ∧ p'.trip = some t' := by
    intro m p t hp ht
    by_cases hm : S m
    · obtain ⟨_, p', _, t', _, h2, _, h4, _⟩ := hS m hm
      exact ⟨p', t', h2, h4⟩
    · exact ⟨p, t, by rw [hr m hm]; exact hp, ht⟩
  refine ⟨?_, ?_, ?_, hnd, ?_⟩
  · intro i' q1 hq1
    rw [hget] at hq1
    by_cases hi : i = i'
    · rw [if_pos hi] at hq1
      cases hq1
      subst hi
      exact hcab
    · rw [if_neg hi] at hq1
      have h0 := h.cab i' q1 hq1
      refine ⟨h0.idle, ?_, ?_, ?_⟩
      · intro j hj
        obtain ⟨p, hp, hl⟩ := h0.busy j hj
        have hn : ¬ S j := by
          intro hs
          obtain ⟨p0, _, t, _, h1, _, h3, _, h5, _⟩ := hS j hs
          rw [hp] at h1
          cases h1
          obtain ⟨t', ht', hd, _⟩ := hl
          rw [h3] at ht'
          cases ht'
          rcases h5 with h5 | h5 <;> rw [hd] at h5
          · cases h5; exact hi rfl
          · cases h5
        refine ⟨p, by rw [hr j hn]; exact hp, ?_⟩
        obtain ⟨t, ht, hd, hm⟩ := hl
        refine ⟨t, ht, hd, ?_⟩
        cases hpc : q1.pc with
        | wander => rw [hpc] at hm; simp only at hm ⊢; exact hsub j hm
        | dead => rw [hpc] at hm; simp only at hm ⊢; exact hsub j hm
        | loop tg => rw [hpc] at hm; simp only at hm ⊢; exact ⟨fun hx => hm.1 ((hpaid j hn).1 hx), hm.2⟩
        | ask a exp =>
          rw [hpc] at hm
          simp only at hm ⊢
          refine ⟨fun hx => hm.1 ((hpaid j hn).1 hx), hm.2.1, hm.2.2.1, ?_⟩
          rcases hm.2.2.2 with hx | hx
          · exact Or.inl ⟨hasks _ _ hx.1, hx.2⟩
          · exact Or.inr ⟨hasks _ _ hx.1, hx.2⟩
        | toOrigin => rw [hpc] at hm; simp only at hm ⊢; exact ⟨fun hx => hm.1 ((hpaid j hn).1 hx), hm.2⟩
        | toDest => rw [hpc] at hm; simp only at hm ⊢; exact ⟨fun hx => hm.1 ((hpaid j hn).1 hx), hm.2⟩
      · intro m hm
        obtain ⟨p, t, hp, ht⟩ := h0.inbox m hm
        exact hsome m.1 p t hp ht
      · intro hne
        rw [hnow]
        exact h0.next hne
  · intro j p' hp'
    by_cases hs : S j
    · obtain ⟨_, p1, _, _, _, h2, _, _, _, h6⟩ := hS j hs
      rw [hp'] at h2
      cases h2
      exact h6
    · rw [hr j hs] at hp'
      have h0 := h.rider j p' hp'
      refine ⟨h0.start, ?_, ?_, ?_⟩
      · intro hne
        obtain ⟨t, ht, h1, h2, h3⟩ := h0.trip hne
        refine ⟨t, ht, h1, ?_, h3⟩
        intro i' hi'
        rcases h2 i' hi' with hx | ⟨q1, hq1, hj⟩
        · exact Or.inl (hsub j hx)
        · by_cases hi : i = i'
          · subst hi
            rw [hq] at hq1
            cases hq1
            rcases hown j hj with hx | hx | hx
            · exact absurd hx hs
            · exact Or.inl hx
            · exact Or.inr ⟨q', by rw [hget, if_pos rfl], hx⟩
          · exact Or.inr ⟨q1, by rw [hget, if_neg hi]; exact hq1, hj⟩
      · intro e he; rw [hnow]; exact h0.wait e he
      · intro hne; rw [hnow]; exact h0.next hne
  · intro j hj
    by_cases hs : S j
    · exact hpok j hj hs
    · obtain ⟨p, t, hp, hx⟩ := h.paid j ((hpaid j hs).1 hj)
      exact ⟨p, t, by rw [hr j hs]; exact hp, hx⟩
  · have key : ∀ (i1 : Nat) q1 a e e', i ≠ i1 → c.cabs[i1]? = some q1 → q'.pc = .ask a e → q1.pc = .ask a e' → False := by
      intro i1 q1 a e e' hi hq1 ha ha'
      rcases hask a e ha with ⟨e0, hx⟩ | hx
      · exact hi (h.uniq i i1 q q1 a _ _ hq hq1 hx ha')
      · have hc := h.cab i1 q1 hq1
        cases hj : q1.journey with
        | none =>
          rcases hc.idle hj with h1 | ⟨t, h1⟩ | h1 <;> rw [h1] at ha' <;> cases ha'
        | some j =>
          obtain ⟨p, _, t, _, _, hm⟩ := hc.busy j hj
          rw [ha'] at hm
          simp only at hm
          rcases hm.2.2.2 with hy | hy
          · have := (List.getElem?_eq_some_iff.1 hy.1).1; omega
          · have := (List.getElem?_eq_some_iff.1 hy.1).1; omega
    intro i1 i2 q1 q2 a e e' h1 h2 ha ha'
    rw [hget] at h1 h2
    by_cases hi1 : i = i1
    · by_cases hi2 : i = i2
      · rw [← hi1, ← hi2]
      · rw [if_pos hi1] at h1
        rw [if_neg hi2] at h2
        cases h1
        exact (key i2 q2 a e e' hi2 h2 ha ha').elim
    · by_cases hi2 : i = i2
      · rw [if_neg hi1] at h1
        rw [if_pos hi2] at h2
        cases h2
        exact (key i1 q1 a e' e hi1 h1 ha' ha).elim
      · rw [if_neg hi1] at h1
        rw [if_neg hi2] at h2
        exact h.uniq i1 i2 q1 q2 a e e' h1 h2 ha ha'

/-- The driver of a waiting or riding passenger. -/
theorem Ride.Ok.asked {c : Ride} (h : c.Ok) (j : Nat) (p : Rider) (hp : c.riders[j]? = some p) (hne : p.inbox ≠ []) :
    ∃ (i : Nat) (q : Cab) (a e : Nat), c.cabs[i]? = some q ∧ q.journey = some j ∧ q.pc = .ask a e ∧ p.inbox = [(a, j)] := by
  have h0 := h.rider j p hp
  by_cases hs : p.pc = .start
  · exact absurd (h0.start hs).2.2 hne
  · obtain ⟨t, ht, h1, h2, _⟩ := h0.trip hs
    cases hd : t.driver with
    | none => exact absurd (h1 hd).2.1 hne
    | some i =>
      rcases h2 i hd with hx | ⟨q, hq, hj⟩
      · obtain ⟨p1, _, hp1, _, _, _, hr⟩ := h.paid j hx
        rw [hp] at hp1
        cases hp1
        exact absurd hr.2.1 hne
      · obtain ⟨p1, hp1, t1, _, _, hm⟩ := (h.cab i q hq).busy j hj
        rw [hp] at hp1
        cases hp1
        cases hpc : q.pc with
        | wander =>
          rw [hpc] at hm
          obtain ⟨p2, _, hp2, _, _, _, hr⟩ := h.paid j hm
          rw [hp] at hp2
          cases hp2
          exact absurd hr.2.1 hne
        | dead =>
          rw [hpc] at hm
          obtain ⟨p2, _, hp2, _, _, _, hr⟩ := h.paid j hm
          rw [hp] at hp2
          cases hp2
          exact absurd hr.2.1 hne
        | loop tg => rw [hpc] at hm; exact absurd hm.2.2.1 hne
        | toOrigin => rw [hpc] at hm; exact absurd hm.2.2.2.1 hne
        | toDest => rw [hpc] at hm; exact absurd hm.2.2.2.1 hne
        | ask a e =>
          rw [hpc] at hm
          simp only at hm
          rcases hm.2.2.2 with hx | hx
          · exact ⟨i, q, a, e, hq, hj, hpc, hx.2.2.1⟩
          · exact absurd hx.2.2.1 hne

/-- The same for an activation of a passenger. -/
theorem Ride.Ok.ofRider {c c' : Ride} (h : c.Ok) (j : Nat) (p p' : Rider) (f : Cab → List (Nat × Nat)) (hp : c.riders[j]? = some p)
    (hriders : c'.riders = c.riders.set j p') (hcabs : c'.cabs = c.cabs.map (fun q => { q with inbox := f q }))
    (hf : ∀ q, ∀ m ∈ f q, m ∈ q.inbox ∨ (m.1 = j ∧ p'.trip ≠ none))
    (hnow : c'.now = c.now) (hpaid : c'.paid = c.paid)
    (htrip : p.trip ≠ none → p'.trip = p.trip) (hpos : p'.pos = p.pos) (hriding : p.Riding j → p'.Riding j)
    (hasks : ∀ a : Nat, (∀ x, (a, x) ∉ p.inbox) → c'.asks[a]? = c.asks[a]?)
    (hrider : RiderOk c' j p')
    (hlink : ∀ (i : Nat) q, c.cabs[i]? = some q → q.journey = some j → Linked c'.paid c'.asks i q j p') : c'.Ok := by
  have hlt := (List.getElem?_eq_some_iff.1 hp).1
  have hget : ∀ j' : Nat, c'.riders[j']? = if j = j' then some p' else c.riders[j']? := by
    intro j'
    rw [hriders, List.getElem?_set]
    by_cases hj : j = j'
    · subst hj; simp [hlt]
    · simp [hj]
  have hgc : ∀ i' : Nat, c'.cabs[i']? = (c.cabs[i']?).map (fun q => { q with inbox := f q }) := by
    intro i'
    rw [hcabs, List.getElem?_map]
  refine ⟨?_, ?_, ?_, by rw [hpaid]; exact h.nodup, ?_⟩
  · intro i q1 hq1
    rw [hgc] at hq1
    obtain ⟨q, hq, rfl⟩ := Option.map_eq_some_iff.1 hq1
    have h0 := h.cab i q hq
    refine ⟨h0.idle, ?_, ?_, by rw [hnow]; exact h0.next⟩
    · intro j' hj'
      by_cases hj : j = j'
      · subst hj
        exact ⟨p', by rw [hget, if_pos rfl], hlink i q hq hj'⟩
      · obtain ⟨p1, hp1, t, ht, hd, hm⟩ := h0.busy j' hj'
        refine ⟨p1, by rw [hget, if_neg hj]; exact hp1, t, ht, hd, ?_⟩
        rw [hpaid]
        cases hpc : q.pc with
        | wander => rw [hpc] at hm; exact hm
        | dead => rw [hpc] at hm; exact hm
        | loop tg => rw [hpc] at hm; exact hm
        | toOrigin => rw [hpc] at hm; exact hm
        | toDest => rw [hpc] at hm; exact hm
        | ask a e =>
          rw [hpc] at hm
          simp only at hm ⊢
          have ha : c'.asks[a]? = c.asks[a]? := by
            apply hasks
            intro x hx
            have hne : p.inbox ≠ [] := by intro he; rw [he] at hx; cases hx
            obtain ⟨i1, q1, a1, e1, hq1, hj1, hpc1, hin⟩ := h.asked j p hp hne
            rw [hin] at hx
            simp only [List.mem_singleton, Prod.mk.injEq] at hx
            obtain ⟨rfl, rfl⟩ := hx
            have := h.uniq i i1 q q1 a e e1 hq hq1 hpc hpc1
            subst this
            rw [hq] at hq1
            cases hq1
            rw [hj'] at hj1
            cases hj1
            exact hj rfl
          rw [ha]
          exact hm
    · intro m hm
      have keep : ∀ (n : Nat) p1 t1, c.riders[n]? = some p1 → p1.trip = some t1 → ∃ p2 t2, c'.riders[n]? = some p2 ∧ p2.trip = some t2 := by
        intro n p1 t1 hp1 ht1
        by_cases hj : j = n
        · subst hj
          rw [hp] at hp1
          cases hp1
          exact ⟨p', t1, by rw [hget, if_pos rfl], by rw [htrip (by rw [ht1]; simp)]; exact ht1⟩
        · exact ⟨p1, t1, by rw [hget, if_neg hj]; exact hp1, ht1⟩
      rcases hf q m hm with hx | ⟨hx, hy⟩
      · obtain ⟨p1, t1, hp1, ht1⟩ := h0.inbox m hx
        exact keep _ _ _ hp1 ht1
      · cases ht : p'.trip with
        | none => exact absurd ht hy
        | some t => exact ⟨p', t, by rw [hget, if_pos hx.symm], ht⟩
  · intro j' p1 hp1
    rw [hget] at hp1
    by_cases hj : j = j'
    · rw [if_pos hj] at hp1
      cases hp1
      subst hj
      exact hrider
    · rw [if_neg hj] at hp1
      have h0 := h.rider j' p1 hp1
      refine ⟨h0.start, ?_, by rw [hnow]; exact h0.wait, by rw [hnow]; exact h0.next⟩
      intro hne
      obtain ⟨t, ht, h1, h2, h3⟩ := h0.trip hne
      refine ⟨t, ht, h1, ?_, h3⟩
      intro i hi
      rcases h2 i hi with hx | ⟨q, hq, hx⟩
      · exact Or.inl (by rw [hpaid]; exact hx)
      · exact Or.inr ⟨{ q with inbox := f q }, by rw [hgc, hq]; rfl, hx⟩
  · intro j' hj'
    rw [hpaid] at hj'
    obtain ⟨p1, t, hp1, ht, hd, hx, hr⟩ := h.paid j' hj'
    by_cases hj : j = j'
    · subst hj
      rw [hp] at hp1
      cases hp1
      exact ⟨p', t, by rw [hget, if_pos rfl], by rw [htrip (by rw [ht]; simp)]; exact ht, hd, by rw [hpos]; exact hx, hriding hr⟩
    · exact ⟨p1, t, by rw [hget, if_neg hj]; exact hp1, ht, hd, hx, hr⟩
  · intro i1 i2 q1 q2 a e e' h1 h2 ha ha'
    rw [hgc] at h1 h2
    obtain ⟨q1, hq1, rfl⟩ := Option.map_eq_some_iff.1 h1
    obtain ⟨q2, hq2, rfl⟩ := Option.map_eq_some_iff.1 h2
    exact h.uniq i1 i2 q1 q2 a e e' hq1 hq2 ha ha'

/-! ### Activations of drivers -/

theorem getElem?_modify_r (l : List Rider) (j : Nat) (f : Rider → Rider) (m : Nat) :
    (l.modify j f)[m]? = if j = m then (l[m]?).map f else l[m]? := by
  rw [List.getElem?_modify]
  by_cases h : j = m
  · simp [h]
  · simp [h]

theorem hearTrips_busy (now i : Nat) (ms : List (Nat × Nat)) (j : Nat) (ps : List Rider) :
    hearTrips now i ms (some j) ps = (some j, ps) := by
  induction ms with
  | nil => rfl
  | cons m ms ih =>
    obtain ⟨a, e⟩ := m
    unfold hearTrips
    split
    · exact ih
    · exact ih

/-- What a driver without a journey makes of its messages. -/
theorem hearTrips_free (now i : Nat) (ms : List (Nat × Nat)) (ps : List Rider) :
    (hearTrips now i ms none ps = (none, ps) ∧
      ∀ j e p t, (j, e) ∈ ms → now ≤ e → ps[j]? = some p → p.trip = some t → t.driver ≠ none) ∨
    ∃ j e p t, (j, e) ∈ ms ∧ now ≤ e ∧ ps[j]? = some p ∧ p.trip = some t ∧ t.driver = none ∧
      hearTrips now i ms none ps = (some j, ps.modify j (fun p => { p with trip := some { t with driver := some i } })) := by
  induction ms with
  | nil => exact Or.inl ⟨rfl, fun _ _ _ _ hm => by cases hm⟩
  | cons m ms ih =>
    obtain ⟨a, e⟩ := m
    have lift : hearTrips now i ((a, e) :: ms) none ps = hearTrips now i ms none ps →
        (∀ p t, now ≤ e → ps[a]? = some p → p.trip = some t → t.driver ≠ none) →
        (hearTrips now i ((a, e) :: ms) none ps = (none, ps) ∧
          ∀ j e' p t, (j, e') ∈ (a, e) :: ms → now ≤ e' → ps[j]? = some p → p.trip = some t → t.driver ≠ none) ∨
        ∃ j e' p t, (j, e') ∈ (a, e) :: ms ∧ now ≤ e' ∧ ps[j]? = some p ∧ p.trip = some t ∧ t.driver = none ∧
          hearTrips now i ((a, e) :: ms) none ps = (some j, ps.modify j (fun p => { p with trip := some { t with driver := some i } })) := by
      intro he hd
      rw [he]
      rcases ih with ⟨h1, h2⟩ | ⟨j, e', p, t, h1, h2⟩
      · left
        refine ⟨h1, ?_⟩
        intro j e' p t hm hn hp ht
        rcases List.mem_cons.1 hm with hm | hm
        · cases hm
          exact hd p t hn hp ht
        · exact h2 j e' p t hm hn hp ht
      · right
        exact ⟨j, e', p, t, List.mem_cons_of_mem _ h1, h2⟩
    by_cases hx : e < now
    · apply lift
      · conv_lhs => unfold hearTrips
        rw [if_pos hx]
      · intro p t hn
        omega
    · cases hb : (ps[a]?).bind Rider.trip with
      | none =>
        apply lift
        · conv_lhs => unfold hearTrips
          rw [if_neg hx]
          simp [hb]
        · intro p t _ hp ht
          rw [hp] at hb
          simp [ht] at hb
      | some t =>
        obtain ⟨p, hp, ht⟩ := Option.bind_eq_some_iff.1 hb
        by_cases hd : t.driver = none
        · right
          refine ⟨a, e, p, t, by simp, by omega, hp, ht, hd, ?_⟩
          conv_lhs => unfold hearTrips
          rw [if_neg hx]
          simp only [hb, hd, if_true]
          rw [hearTrips_busy]
        · apply lift
          · conv_lhs => unfold hearTrips
            rw [if_neg hx]
            simp [hb, hd]
          · intro p' t' _ hp' ht'
            rw [hp] at hp'
            cases hp'
            rw [ht] at ht'
            cases ht'
            exact hd

theorem Ride.Ok.cabDies {c : Ride} (h : c.Ok) {i : Nat} {q q0 : Cab} (hq : c.cabs[i]? = some q) (hin : ∀ m ∈ q0.inbox, m ∈ q.inbox)
    (hj0 : ∀ j, q0.journey = some j → j ∈ c.paid ∧ q.journey = some j) (hj : ∀ j, q.journey = some j → j ∈ c.paid) :
    (c.cabDies i q0).Ok := by
  refine h.ofCab i q { q0 with pc := .dead } (fun _ => False) hq rfl rfl (fun _ _ => rfl) (fun _ _ => Iff.rfl) (fun _ hx => hx)
    (fun _ _ hx => hx) (fun _ hx => hx.elim) (fun j hx => Or.inr (Or.inl (hj j hx))) ?_ (fun _ _ hx => hx.elim) h.nodup
    (fun a e hx => by cases hx)
  refine ⟨fun _ => Or.inr (Or.inr rfl), ?_, ?_, fun hx => absurd rfl hx⟩
  · intro j hx
    obtain ⟨h1, h2⟩ := hj0 j hx
    obtain ⟨p, hp, t, ht, hd, _⟩ := (h.cab i q hq).busy j h2
    exact ⟨p, hp, t, ht, hd, h1⟩
  · intro m hm
    exact (h.cab i q hq).inbox m (hin m hm)

theorem Ride.Ok.listen {c : Ride} (h : c.Ok) {i : Nat} {q q0 : Cab} (hq : c.cabs[i]? = some q) (hin : q0.inbox = q.inbox)
    (hj0 : q0.journey = none) (hj : ∀ j, q.journey = some j → j ∈ c.paid) (target : GridCell) : (c.listen i q0 target).Ok := by
  unfold Ride.listen
  split
  · exact h.cabDies hq (fun m hm => by rw [hin] at hm; exact hm) (fun j hx => by rw [hj0] at hx; cases hx) hj
  · simp only [hj0]
    rcases hearTrips_free c.now i q0.inbox c.riders with ⟨h1, _⟩ | ⟨j, e, p, t, hm, _, hp, ht, hd, h1⟩
    · rw [h1]
      refine h.ofCab i q { q0 with journey := none, inbox := [], pc := .loop target, next := c.now + 30 } (fun _ => False) hq rfl rfl
        (fun _ _ => rfl) (fun _ _ => Iff.rfl) (fun _ hx => hx)
        (fun _ _ hx => hx) (fun _ hx => hx.elim) (fun j hx => Or.inr (Or.inl (hj j hx))) ?_ (fun _ _ hx => hx.elim) h.nodup
        (fun a e hx => by cases hx)
      exact ⟨fun _ => Or.inr (Or.inl ⟨_, rfl⟩), fun j hx => (by cases hx), fun m hm => (by cases hm), fun _ => Nat.le_add_right _ _⟩
    · rw [h1]
      have h0 := h.rider j p hp
      have hns : p.pc ≠ .start := by
        intro hs
        rw [(h0.start hs).1] at ht
        cases ht
      obtain ⟨t', ht', hw, _, _⟩ := h0.trip hns
      rw [ht] at ht'
      cases ht'
      obtain ⟨hwait, hinb, hpos⟩ := hw hd
      have hnp : j ∉ c.paid := by
        intro hx
        obtain ⟨p1, t1, hp1, ht1, hd1, _⟩ := h.paid j hx
        rw [hp] at hp1
        cases hp1
        rw [ht] at ht1
        cases ht1
        exact hd1 hd
      have hlt := (List.getElem?_eq_some_iff.1 hq).1
      have hp' : (c.riders.modify j (fun p => { p with trip := some { t with driver := some i } }))[j]? =
          some { p with trip := some { t with driver := some i } } := by
        rw [getElem?_modify_r, if_pos rfl, hp]; rfl
      refine h.ofCab i q { q0 with journey := some j, inbox := [], pc := .loop target, next := c.now + 30 } (fun x => x = j) hq rfl rfl
        (fun m hm => ?_) (fun _ _ => Iff.rfl) (fun _ hx => hx)
        (fun _ _ hx => hx) (fun m hm => ?_) (fun j hx => Or.inr (Or.inl (hj j hx))) ?_ (fun m hm hx => ?_) h.nodup
        (fun a e hx => by cases hx)
      · show (c.riders.modify j _)[m]? = _
        rw [getElem?_modify_r, if_neg (fun hx => hm hx.symm)]
      · subst hm
        refine ⟨p, _, t, _, hp, hp', ht, rfl, Or.inr hd, ?_⟩
        refine ⟨fun hs => absurd hs hns, fun _ => ⟨_, rfl, fun hx => (by cases hx), ?_, ?_⟩, h0.wait, h0.next⟩
        · intro i' hi'
          cases hi'
          right
          refine ⟨{ q0 with journey := some m, inbox := [], pc := .loop target, next := c.now + 30 }, ?_, rfl⟩
          show (c.cabs.set i _)[i]? = _
          rw [List.getElem?_set]
          simp only [if_true, hlt]
        · intro hx
          obtain ⟨e', he'⟩ := hwait.1
          rw [he'] at hx
          cases hx
      · refine ⟨fun hx => (by cases hx), ?_, fun m hm => (by cases hm), fun _ => Nat.le_add_right _ _⟩
        intro j' hx
        cases hx
        exact ⟨_, hp', _, rfl, rfl, hnp, hwait, hinb, hpos⟩
      · rw [hx] at hm
        exact absurd hm hnp

theorem Ride.Ok.roam {c : Ride} (h : c.Ok) {i : Nat} {q q0 : Cab} (hq : c.cabs[i]? = some q) (hin : q0.inbox = q.inbox)
    (hj0 : q0.journey = none) (hj : ∀ j, q.journey = some j → j ∈ c.paid) (target : Option GridCell) (k : Nat) :
    (c.roam i q0 target k).1.Ok := by
  unfold Ride.roam
  split
  · split
    · rename_i p _ _
      exact h.listen (q0 := { q0 with pos := p, cell := p }) hq hin hj0 hj _
    · exact h
  · split
    · exact h
    · exact h.listen hq hin hj0 hj _

theorem towards_none {p t : GridCell} (h : towards p t = none) : p = t := by
  unfold towards at h
  split at h
  · rename_i hx
    exact Prod.ext hx.1.symm hx.2.symm
  · repeat' split at h
    all_goals cases h

theorem Ride.Ok.collect {c : Ride} (h : c.Ok) {i : Nat} {q : Cab} (hq : c.cabs[i]? = some q) {j : Nat} {p : Rider} {t : Trip}
    (hj : q.journey = some j) (hp : c.riders[j]? = some p) (ht : p.trip = some t) (hd : t.driver = some i) (hn : j ∉ c.paid)
    (hpos : p.pos = t.dest) (hr : p.Riding j) : (c.collect i q j t).Ok := by
  have hlt := (List.getElem?_eq_some_iff.1 hq).1
  have h0 := h.rider j p hp
  have key : ∀ (c' : Ride) (q' : Cab), c'.cabs = c.cabs.set i q' → c'.riders = c.riders → c'.asks = c.asks → c'.now = c.now →
      c'.paid = c.paid ++ [j] → q'.journey = some j → q'.inbox = q.inbox → (q'.pc = .dead ∨ q'.pc = .wander ∧ q'.next = c.now + 1) → c'.Ok := by
    intro c' q' e1 e2 e3 e4 e5 e6 e7 e8
    refine h.ofCab i q q' (fun x => x = j) hq e1 e4 (fun m _ => by rw [e2]) (fun m hm => ?_) (fun m hm => ?_)
      (fun _ _ hx => by rw [e3]; exact hx) (fun m hm => ?_) (fun m hm => ?_) ?_ (fun m _ hx => ?_) ?_ (fun a e hx => ?_)
    · rw [e5]; simp [hm]
    · rw [e5]; simp [hm]
    · subst hm
      refine ⟨p, p, t, t, hp, by rw [e2]; exact hp, ht, ht, Or.inl hd, ?_⟩
      refine ⟨h0.start, fun hns => ?_, by rw [e4]; exact h0.wait, by rw [e4]; exact h0.next⟩
      obtain ⟨t', ht', h1, _, h3⟩ := h0.trip hns
      exact ⟨t', ht', h1, fun _ _ => Or.inl (by rw [e5]; simp), h3⟩
    · rw [hj] at hm
      cases hm
      exact Or.inl rfl
    · refine ⟨fun hx => (by rw [e6] at hx; cases hx), ?_, ?_, ?_⟩
      · intro j' hj'
        rw [e6] at hj'
        cases hj'
        refine ⟨p, by rw [e2]; exact hp, t, ht, hd, ?_⟩
        rcases e8 with e8 | ⟨e8, _⟩ <;> rw [e8] <;> simp [e5]
      · intro m hm
        rw [e7] at hm
        rw [e2]
        exact (h.cab i q hq).inbox m hm
      · intro hx
        rcases e8 with e8 | ⟨_, e8⟩
        · exact absurd e8 hx
        · rw [e4, e8]; omega
    · subst hx
      exact ⟨p, t, by rw [e2]; exact hp, ht, by rw [hd]; simp, hpos, hr⟩
    · rw [e5]
      exact List.nodup_append.2 ⟨h.nodup, by simp, by
        intro a ha b hb
        simp only [List.mem_singleton] at hb
        subst hb
        rintro rfl
        exact hn ha⟩
    · rcases e8 with e8 | ⟨e8, _⟩ <;> rw [e8] at hx <;> cases hx
  unfold Ride.collect
  simp only
  split
  · exact key _ { q with earnings := q.earnings + t.tip, pc := .dead } rfl rfl rfl rfl rfl hj rfl (Or.inl rfl)
  · exact key _ { q with earnings := q.earnings + t.tip, pc := .wander, next := c.now + 1 } rfl rfl rfl rfl rfl hj rfl (Or.inr ⟨rfl, rfl⟩)

theorem Ride.Ok.carry {c : Ride} (h : c.Ok) {i : Nat} {q : Cab} (hq : c.cabs[i]? = some q) {j : Nat} {p : Rider} {t : Trip}
    (hj : q.journey = some j) (hp : c.riders[j]? = some p) (ht : p.trip = some t) (hd : t.driver = some i) (hn : j ∉ c.paid)
    (hpos : p.pos = q.pos) (hr : p.Riding j) : (c.carry i q j t).1.Ok := by
  have hlt := (List.getElem?_eq_some_iff.1 hq).1
  have h0 := h.rider j p hp
  unfold Ride.carry
  split
  · rename_i hx
    exact h.collect hq hj hp ht hd hn (by rw [hpos]; exact towards_none hx) hr
  · rename_i x hx
    split
    · have hns : p.pc ≠ .start := by
        intro hs
        rw [(h0.start hs).1] at ht
        cases ht
      obtain ⟨t', ht', _, _, hdead⟩ := h0.trip hns
      rw [ht] at ht'
      cases ht'
      have hnd : p.pc ≠ .dead := by
        intro hx'
        have := hdead hx'
        rw [hpos] at this
        rw [this] at hx
        unfold towards at hx
        simp at hx
      have hp' : (c.riders.modify j (fun r => { r with pos := x }))[j]? = some { p with pos := x } := by
        rw [getElem?_modify_r, if_pos rfl, hp]; rfl
      refine h.ofCab i q { q with pos := x, cell := x, pc := .toDest, next := c.now + 1 } (fun m => m = j) hq rfl rfl (fun m hm => ?_)
        (fun _ _ => Iff.rfl) (fun _ hm => hm) (fun _ _ hm => hm) (fun m hm => ?_) (fun m hm => ?_) ?_ (fun m hm hx => ?_) h.nodup
        (fun a e hx => by cases hx)
      · show (c.riders.modify j _)[m]? = _
        rw [getElem?_modify_r, if_neg (fun hx => hm hx.symm)]
      · subst hm
        refine ⟨p, _, t, t, hp, hp', ht, ht, Or.inl hd, ?_⟩
        refine ⟨fun hs => absurd hs hns, fun _ => ⟨t, ht, fun hx => (by rw [hd] at hx; cases hx), ?_, fun hx => absurd hx hnd⟩,
          h0.wait, h0.next⟩
        intro i' hi'
        rw [hd] at hi'
        cases hi'
        right
        refine ⟨{ q with pos := x, cell := x, pc := .toDest, next := c.now + 1 }, ?_, hj⟩
        show (c.cabs.set i _)[i]? = _
        rw [List.getElem?_set]
        simp [hlt]
      · rw [hj] at hm
        cases hm
        exact Or.inl rfl
      · refine ⟨fun hx => ?_, ?_, fun m hm => ?_, fun _ => Nat.le_add_right _ _⟩
        · rw [hj] at hx; cases hx
        · intro j' hj'
          rw [hj] at hj'
          cases hj'
          exact ⟨_, hp', t, ht, hd, hn, rfl, hr⟩
        · obtain ⟨p1, t1, hp1, ht1⟩ := (h.cab i q hq).inbox m hm
          by_cases hm' : j = m.1
          · exact ⟨{ p with pos := x }, t, by rw [← hm']; exact hp', ht⟩
          · refine ⟨p1, t1, ?_, ht1⟩
            show (c.riders.modify j _)[m.1]? = _
            rw [getElem?_modify_r, if_neg hm']
            exact hp1
      · subst hx
        exact absurd hm hn
    · exact h

/-- The invariant is kept by activations of drivers. -/
theorem Ride.Ok.actCab {c : Ride} (h : c.Ok) (i k : Nat) (hdue : ∀ q, c.cabs[i]? = some q → q.pc ≠ .dead → c.now = q.next) :
    (c.actCab i k).1.Ok := by
  unfold Ride.actCab
  split
  · exact h
  rename_i q hq
  have hlt := (List.getElem?_eq_some_iff.1 hq).1
  have hc := h.cab i q hq
  -- changes of the driver only
  have solo : ∀ q' : Cab, q'.journey = q.journey → q'.inbox = q.inbox → (q'.pc ≠ .dead → c.now ≤ q'.next) →
      (q'.journey = none → q'.pc = .wander ∨ (∃ t, q'.pc = .loop t) ∨ q'.pc = .dead) →
      (∀ j p, q.journey = some j → c.riders[j]? = some p → Linked c.paid c.asks i q j p → Linked c.paid c.asks i q' j p) →
      (∀ a e, q'.pc = .ask a e → ∃ e', q.pc = .ask a e') →
      ({ c with cabs := c.cabs.set i q' } : Ride).Ok := by
    intro q' e1 e2 e3 e4 e5 e6
    refine h.ofCab i q q' (fun _ => False) hq rfl rfl (fun _ _ => rfl) (fun _ _ => Iff.rfl) (fun _ hx => hx)
      (fun _ _ hx => hx) (fun _ hx => hx.elim) (fun j hx => Or.inr (Or.inr (by rw [e1]; exact hx))) ?_ (fun _ _ hx => hx.elim) h.nodup
      (fun a e hx => Or.inl (e6 a e hx))
    refine ⟨e4, ?_, ?_, e3⟩
    · intro j hx
      rw [e1] at hx
      obtain ⟨p, hp, hl⟩ := hc.busy j hx
      exact ⟨p, hp, e5 j p hx hp hl⟩
    · intro m hm
      rw [e2] at hm
      exact hc.inbox m hm
  split
  · exact h
  · -- wander
    rename_i hpc
    have hpaid : ∀ j, q.journey = some j → j ∈ c.paid := by
      intro j hj
      obtain ⟨p, _, t, _, _, hm⟩ := hc.busy j hj
      rw [hpc] at hm
      exact hm
    split
    · exact h.cabDies hq (fun _ hm => hm) (fun j hj => ⟨hpaid j hj, hj⟩) hpaid
    · exact h.roam (q0 := { q with journey := none }) hq rfl rfl hpaid none k
  · -- loop
    rename_i target hpc
    split
    · rename_i hj
      exact h.roam hq rfl hj (fun j hx => by rw [hj] at hx; cases hx) (some target) k
    · rename_i j hj
      obtain ⟨p, hp, t, ht, hd, hm⟩ := hc.busy j hj
      rw [hpc] at hm
      obtain ⟨hn, hw, hin, hpos⟩ := hm
      have h0 := h.rider j p hp
      have hns : p.pc ≠ .start := by
        intro hs
        rw [(h0.start hs).1] at ht
        cases ht
      obtain ⟨e, he⟩ := hw.1
      have hnd : p.pc ≠ .dead := by rw [he]; simp
      have hp' : (c.riders.modify j (fun r => { r with inbox := r.inbox ++ [(c.asks.length, j)] }))[j]? =
          some { p with inbox := [(c.asks.length, j)] } := by
        rw [getElem?_modify_r, if_pos rfl, hp, Option.map_some, hin]; rfl
      refine h.ofCab i q { q with pc := .ask c.asks.length (c.now + 60), next := c.now + 5 } (fun m => m = j) hq rfl rfl (fun m hm => ?_)
        (fun _ _ => Iff.rfl) (fun _ hm => hm) (fun a v hm => ?_) (fun m hm => ?_) (fun m hm => ?_) ?_ (fun m hm hx => ?_) h.nodup
        (fun a e hx => ?_)
      · show (c.riders.modify j _)[m]? = _
        rw [getElem?_modify_r, if_neg (fun hx => hm hx.symm)]
      · show (c.asks ++ [none])[a]? = _
        rw [List.getElem?_append_left (List.getElem?_eq_some_iff.1 hm).1]
        exact hm
      · subst hm
        refine ⟨p, _, t, t, hp, hp', ht, ht, Or.inl hd, ?_⟩
        refine ⟨fun hs => absurd hs hns, fun _ => ⟨t, ht, fun hx => (by rw [hd] at hx; cases hx), ?_, fun hx => absurd hx hnd⟩,
          h0.wait, h0.next⟩
        intro i' hi'
        rw [hd] at hi'
        cases hi'
        right
        refine ⟨{ q with pc := .ask c.asks.length (c.now + 60), next := c.now + 5 }, ?_, hj⟩
        show (c.cabs.set i _)[i]? = _
        rw [List.getElem?_set]
        simp [hlt]
      · rw [hj] at hm
        cases hm
        exact Or.inl rfl
      · refine ⟨fun hx => ?_, ?_, fun m hm => ?_, fun _ => Nat.le_add_right _ _⟩
        · rw [hj] at hx; cases hx
        · intro j' hj'
          rw [hj] at hj'
          cases hj'
          refine ⟨_, hp', t, ht, hd, hn, hpos, ?_, Or.inl ⟨?_, hw, rfl, ?_⟩⟩
          · show c.now + 5 + 45 ≤ c.now + 60
            omega
          · show (c.asks ++ [none])[c.asks.length]? = _
            simp
          · have := h0.wait e he
            show p.next + 50 ≤ c.now + 60
            omega
        · obtain ⟨p1, t1, hp1, ht1⟩ := hc.inbox m hm
          by_cases hm' : j = m.1
          · exact ⟨{ p with inbox := [(c.asks.length, j)] }, t, by rw [← hm']; exact hp', ht⟩
          · refine ⟨p1, t1, ?_, ht1⟩
            show (c.riders.modify j _)[m.1]? = _
            rw [getElem?_modify_r, if_neg hm']
            exact hp1
      · subst hx
        exact absurd hm hn
      · cases hx
        exact Or.inr (Nat.le_refl _)
  · -- ask
    rename_i a exp hpc
    have hnow := hdue q hq (by rw [hpc]; simp)
    cases hj : q.journey with
    | none => rcases hc.idle hj with hx | ⟨t, hx⟩ | hx <;> rw [hpc] at hx <;> cases hx
    | some j =>
      obtain ⟨p, hp, t, ht, hd, hm⟩ := hc.busy j hj
      rw [hpc] at hm
      simp only at hm
      obtain ⟨hn, hpos, hexp, hm⟩ := hm
      rw [if_pos (by omega)]
      rcases hm with ⟨ha, hw, hin, hnx⟩ | ⟨ha, hr⟩
      · simp only [ha, Option.bind_some, id]
        refine solo _ hj.symm rfl (fun _ => Nat.le_add_right _ _) (fun hx => absurd hx (by simp)) ?_ (fun a' e' hx => ⟨e', hx⟩)
        intro j' p' hj' hp' hl
        rw [hj] at hj'
        cases hj'
        rw [hp] at hp'
        cases hp'
        obtain ⟨e, he⟩ := hw.1
        have hle : c.now ≤ p.next := (h.rider j p hp).next (by rw [he]; simp)
        refine ⟨t, ht, hd, ?_⟩
        simp only [hpc]
        exact ⟨hn, hpos, by omega, Or.inl ⟨ha, hw, hin, hnx⟩⟩
      · simp only [ha, Option.bind_some, id]
        refine solo _ hj.symm rfl (fun _ => Nat.le_add_right _ _) (fun hx => by cases hx) ?_ (fun a' e' hx => by cases hx)
        intro j' p' hj' hp' hl
        rw [hj] at hj'
        cases hj'
        rw [hp] at hp'
        cases hp'
        exact ⟨t, ht, hd, hn, hpos, hr⟩
  · -- toOrigin
    rename_i hpc
    cases hj : q.journey with
    | none => exact h
    | some j =>
      obtain ⟨p, hp, t, ht, hd, hm⟩ := hc.busy j hj
      rw [hpc] at hm
      obtain ⟨hn, hpos, hr⟩ := hm
      simp only [hp, Option.bind_some, ht]
      split
      · split
        · refine solo _ hj.symm rfl (fun _ => Nat.le_add_right _ _) (fun hx => absurd hx (by simp)) ?_ (fun a' e' hx => ⟨e', hx⟩)
          intro j' p' hj' hp' hl
          rw [hj] at hj'
          cases hj'
          rw [hp] at hp'
          cases hp'
          refine ⟨t, ht, hd, ?_⟩
          simp only [hpc]
          exact ⟨hn, hpos, hr⟩
        · exact h
      · rename_i hx
        exact h.carry hq hj hp ht hd hn (by rw [hpos]; exact (towards_none hx).symm) hr
  · -- toDest
    rename_i hpc
    cases hj : q.journey with
    | none => exact h
    | some j =>
      obtain ⟨p, hp, t, ht, hd, hm⟩ := hc.busy j hj
      rw [hpc] at hm
      obtain ⟨hn, hpos, hr⟩ := hm
      simp only [hp, Option.bind_some, ht]
      exact h.carry hq hj hp ht hd hn hpos hr

/-! ### Activations of passengers -/

/-- A passenger waits or rides. -/
theorem Ride.Ok.phase {c : Ride} (h : c.Ok) {j : Nat} {p : Rider} (hp : c.riders[j]? = some p) (hs : p.pc ≠ .start) :
    p.Waiting ∨ p.Riding j := by
  obtain ⟨t, ht, h1, h2, _⟩ := (h.rider j p hp).trip hs
  cases hd : t.driver with
  | none => exact Or.inl (h1 hd).1
  | some i =>
    have hpaid : j ∈ c.paid → p.Riding j := by
      intro hx
      obtain ⟨p1, _, hp1, _, _, _, hr⟩ := h.paid j hx
      rw [hp] at hp1
      cases hp1
      exact hr
    rcases h2 i hd with hx | ⟨q, hq, hj⟩
    · exact Or.inr (hpaid hx)
    · obtain ⟨p1, hp1, t1, _, _, hm⟩ := (h.cab i q hq).busy j hj
      rw [hp] at hp1
      cases hp1
      cases hpc : q.pc with
      | wander => rw [hpc] at hm; exact Or.inr (hpaid hm)
      | dead => rw [hpc] at hm; exact Or.inr (hpaid hm)
      | loop tg => rw [hpc] at hm; exact Or.inl hm.2.1
      | toOrigin => rw [hpc] at hm; exact Or.inr hm.2.2
      | toDest => rw [hpc] at hm; exact Or.inr hm.2.2
      | ask a e =>
        rw [hpc] at hm
        rcases hm.2.2.2 with hx | hx
        · exact Or.inl hx.2.1
        · exact Or.inr hx.2

theorem Rider.Waiting.not_riding {p : Rider} {j : Nat} (h : p.Waiting) : ¬ p.Riding j := by
  intro hr
  have := hr.1
  rw [h.2] at this
  cases this

/-- A passenger that stays in its phase, and sees no messages. -/
theorem Linked.same {paid : List Nat} {asks : List (Option Nat)} {i j : Nat} {q : Cab} {p p' : Rider} (h : Linked paid asks i q j p)
    (htrip : p'.trip = p.trip) (hpos : p'.pos = p.pos) (hin : p'.inbox = []) (hin0 : p.inbox = [])
    (hw : p.Waiting → p'.Waiting) (hr : p.Riding j → p'.Riding j) : Linked paid asks i q j p' := by
  obtain ⟨t, ht, hd, hm⟩ := h
  refine ⟨t, by rw [htrip]; exact ht, hd, ?_⟩
  cases hpc : q.pc with
  | wander => rw [hpc] at hm; exact hm
  | dead => rw [hpc] at hm; exact hm
  | loop tg => rw [hpc] at hm; exact ⟨hm.1, hw hm.2.1, hin, by rw [hpos]; exact hm.2.2.2⟩
  | toOrigin => rw [hpc] at hm; exact ⟨hm.1, by rw [hpos]; exact hm.2.1, hr hm.2.2⟩
  | toDest => rw [hpc] at hm; exact ⟨hm.1, by rw [hpos]; exact hm.2.1, hr hm.2.2⟩
  | ask a e =>
    rw [hpc] at hm
    simp only at hm ⊢
    refine ⟨hm.1, by rw [hpos]; exact hm.2.1, hm.2.2.1, ?_⟩
    rcases hm.2.2.2 with hx | hx
    · rw [hin0] at hx
      cases hx.2.2.1
    · exact Or.inr ⟨hx.1, hr hx.2⟩

/-- What `announce` appends. -/
def announced (j now : Nat) (q : Cab) : List (Nat × Nat) := if q.pc = .dead then q.inbox else q.inbox ++ [(j, now + 60)]

theorem announce_cabs (c : Ride) (j : Nat) : (c.announce j).cabs = c.cabs.map (fun q => { q with inbox := announced j c.now q }) := by
  unfold Ride.announce announced
  apply List.map_congr_left
  intro q _
  split <;> rfl

theorem map_same_inbox (l : List Cab) : l = l.map (fun q => { q with inbox := q.inbox }) := by
  simp

theorem Ride.Ok.drivers_keep {c c' : Ride} {j : Nat} {t : Trip} (f : Cab → List (Nat × Nat))
    (hcabs : c'.cabs = c.cabs.map (fun q => { q with inbox := f q })) (hpaid : c'.paid = c.paid)
    (h : ∀ i, t.driver = some i → j ∈ c.paid ∨ ∃ q, c.cabs[i]? = some q ∧ q.journey = some j) :
    ∀ i, t.driver = some i → j ∈ c'.paid ∨ ∃ q, c'.cabs[i]? = some q ∧ q.journey = some j := by
  intro i hi
  rw [hpaid]
  rcases h i hi with hx | ⟨q, hq, hx⟩
  · exact Or.inl hx
  · exact Or.inr ⟨{ q with inbox := f q }, by rw [hcabs, List.getElem?_map, hq]; rfl, hx⟩

/-- A waiting passenger at the end of its wait. -/
theorem Ride.Ok.await {c c1 : Ride} (h : c.Ok) {j : Nat} {p : Rider} (hp : c.riders[j]? = some p) (e0 : Nat) (hpc : p.pc = .wait e0)
    (exp : Nat) (hc1 : c1 = c ∨ c1 = c.announce j) : (c1.await j p exp).Ok := by
  have h0 := h.rider j p hp
  have hns : p.pc ≠ .start := by rw [hpc]; simp
  obtain ⟨t, ht, hnone, hdrv, _⟩ := h0.trip hns
  have hw : p.Waiting := by
    rcases h.phase hp hns with hx | hx
    · exact hx
    · rcases hx.2.2 with hy | ⟨e, hy⟩ | hy <;> rw [hpc] at hy <;> cases hy
  obtain ⟨f, hcabs, hf⟩ : ∃ f : Cab → List (Nat × Nat), c1.cabs = c.cabs.map (fun q => { q with inbox := f q }) ∧
      ∀ q, ∀ m ∈ f q, m ∈ q.inbox ∨ m.1 = j := by
    rcases hc1 with rfl | rfl
    · exact ⟨fun q => q.inbox, map_same_inbox _, fun q m hm => Or.inl hm⟩
    · refine ⟨announced j c.now, announce_cabs c j, fun q m hm => ?_⟩
      unfold announced at hm
      split at hm
      · exact Or.inl hm
      · rcases List.mem_append.1 hm with hm | hm
        · exact Or.inl hm
        · simp only [List.mem_singleton] at hm
          rw [hm]
          exact Or.inr rfl
  have hriders : c1.riders = c.riders := by rcases hc1 with rfl | rfl <;> rfl
  have hasks : c1.asks = c.asks := by rcases hc1 with rfl | rfl <;> rfl
  have hnow : c1.now = c.now := by rcases hc1 with rfl | rfl <;> rfl
  have hpaid : c1.paid = c.paid := by rcases hc1 with rfl | rfl <;> rfl
  have htne : p.trip ≠ none := by rw [ht]; simp
  unfold Ride.await
  by_cases hin : p.inbox = []
  · simp only [hin, hearAsks, hw.2]
    refine h.ofRider j p { p with inbox := [], journey := none, pc := .wait exp, next := c1.now + 10 } f hp (by simp [hriders]) hcabs
      (fun q m hm => (hf q m hm).imp id (fun hx => ⟨hx, htne⟩)) hnow hpaid (fun _ => rfl) rfl (fun hr => absurd hr hw.not_riding)
      (fun a _ => by rw [← hasks]) ?_ ?_
    · refine ⟨fun hs => (by cases hs), fun _ => ⟨t, ht, ?_, ?_, fun hx => (by cases hx)⟩, fun e _ => Nat.le_refl _, fun _ => Nat.le_add_right _ _⟩
      · intro hd
        exact ⟨⟨⟨exp, rfl⟩, rfl⟩, rfl, (hnone hd).2.2⟩
      · exact Ride.Ok.drivers_keep (c := c) f hcabs hpaid hdrv
    · intro i q hq hj
      obtain ⟨p1, hp1, hl⟩ := (h.cab i q hq).busy j hj
      rw [hp] at hp1
      cases hp1
      show Linked c1.paid c1.asks i q j _
      rw [hpaid, hasks]
      exact hl.same rfl rfl rfl hin (fun _ => ⟨⟨exp, rfl⟩, rfl⟩) (fun hr => absurd hr hw.not_riding)
  · obtain ⟨i, q, a, e, hq, hj, hqpc, hin'⟩ := h.asked j p hp hin
    simp only [hin', hearAsks]
    refine h.ofRider j p { p with journey := some j, inbox := [], pc := .home, next := c1.now + 1 } f hp (by simp [hriders]) hcabs
      (fun q m hm => (hf q m hm).imp id (fun hx => ⟨hx, htne⟩)) hnow hpaid (fun _ => rfl) rfl (fun hr => absurd hr hw.not_riding)
      (fun a' ha' => ?_) ?_ ?_
    · show (c1.asks.set a (some j))[a']? = _
      rw [hasks, List.getElem?_set_ne]
      rintro rfl
      exact ha' j (by rw [hin']; simp)
    · refine ⟨fun hs => (by cases hs), fun _ => ⟨t, ht, ?_, ?_, fun hx => (by cases hx)⟩, fun e he => (by cases he), fun _ => Nat.le_add_right _ _⟩
      · intro hd
        exact absurd (hnone hd).2.1 hin
      · exact Ride.Ok.drivers_keep (c := c) f hcabs hpaid hdrv
    · intro i' q' hq' hj'
      obtain ⟨p1, hp1, t1, ht1, hd1, hm1⟩ := (h.cab i q hq).busy j hj
      obtain ⟨p2, hp2, t2, ht2, hd2, hm2⟩ := (h.cab i' q' hq').busy j hj'
      rw [hp] at hp1 hp2
      cases hp1
      cases hp2
      rw [ht1] at ht2
      cases ht2
      rw [hd1] at hd2
      cases hd2
      rw [hq] at hq'
      cases hq'
      rw [hqpc] at hm1
      simp only at hm1
      refine ⟨t1, ht1, hd1, ?_⟩
      rw [hqpc]
      simp only
      refine ⟨by rw [hpaid]; exact hm1.1, hm1.2.1, hm1.2.2.1, ?_⟩
      rcases hm1.2.2.2 with hx | hx
      · right
        refine ⟨?_, rfl, rfl, Or.inl rfl⟩
        have := (List.getElem?_eq_some_iff.1 hx.1).1
        rw [hasks, List.getElem?_set]
        simp [this]
      · exact absurd hx.2 hw.not_riding

/-- A passenger that rides. -/
theorem Ride.Ok.riding {c : Ride} (h : c.Ok) {j : Nat} {p : Rider} (hp : c.riders[j]? = some p) (hr : p.Riding j) (p' : Rider)
    (htrip : p'.trip = p.trip) (hpos : p'.pos = p.pos) (hr' : p'.Riding j) (hnx : p'.pc ≠ .dead → p'.next = c.now + 1)
    (hdead : p'.pc = .dead → ∀ t, p.trip = some t → p.pos = t.dest) :
    ({ c with riders := c.riders.set j p' } : Ride).Ok := by
  have h0 := h.rider j p hp
  have hns : p.pc ≠ .start := by
    intro hs
    rcases hr.2.2 with hy | ⟨e, hy⟩ | hy <;> rw [hs] at hy <;> cases hy
  obtain ⟨t, ht, hnone, hdrv, _⟩ := h0.trip hns
  have hnw : ¬ p.Waiting := fun hw => hw.not_riding hr
  refine h.ofRider j p p' (fun q => q.inbox) hp rfl (map_same_inbox _) (fun q m hm => Or.inl hm) rfl rfl (fun _ => htrip) hpos (fun _ => hr')
    (fun a _ => rfl) ?_ ?_
  · refine ⟨?_, fun _ => ⟨t, by rw [htrip]; exact ht, fun hd => absurd (hnone hd).1 hnw, hdrv, fun hx => by rw [hpos]; exact hdead hx t ht⟩,
      ?_, fun hx => by rw [hnx hx]; exact Nat.le_add_right _ _⟩
    · intro hs
      rcases hr'.2.2 with hy | ⟨e, hy⟩ | hy <;> rw [hs] at hy <;> cases hy
    · intro e he
      rcases hr'.2.2 with hy | ⟨e, hy⟩ | hy <;> rw [he] at hy <;> cases hy
  · intro i q hq hj
    obtain ⟨p1, hp1, hl⟩ := (h.cab i q hq).busy j hj
    rw [hp] at hp1
    cases hp1
    exact hl.same htrip hpos hr'.2.1 hr.2.1 (fun hw => absurd hw hnw) (fun _ => hr')

theorem Ride.Ok.homeward {c : Ride} (h : c.Ok) {j : Nat} {p : Rider} (hp : c.riders[j]? = some p) (hr : p.Riding j) :
    (c.homeward j p).1.Ok := by
  unfold Ride.homeward
  split
  · exact h
  · rename_i t ht
    rw [hr.1] at ht
    simp only [Option.bind_some, hp] at ht
    simp only [hr.2.1, hearAsks]
    split
    · exact h.riding hp hr { p with journey := p.journey, inbox := [], pc := .ride (c.now + 60), next := c.now + 1 } rfl rfl
        ⟨hr.1, rfl, Or.inr (Or.inl ⟨_, rfl⟩)⟩ (fun _ => rfl) (fun hx => by cases hx)
    · rename_i hx
      refine h.riding hp hr { p with inbox := [], pc := .dead } rfl rfl ⟨hr.1, rfl, Or.inr (Or.inr rfl)⟩ (fun hx => absurd rfl hx) (fun _ t' ht' => ?_)
      rw [ht] at ht'
      cases ht'
      simp only [not_or, not_not] at hx
      exact Prod.ext hx.1 hx.2

/-- The invariant is kept by activations of passengers. -/
theorem Ride.Ok.actRider {c : Ride} (h : c.Ok) (j : Nat) (dest : GridCell) (tip : Int) : (c.actRider j dest tip).1.Ok := by
  unfold Ride.actRider
  split
  · exact h
  rename_i p hp
  have h0 := h.rider j p hp
  have ride : p.pc ≠ .start → (∀ e, p.pc ≠ .wait e) → p.Riding j := by
    intro h1 h2
    rcases h.phase hp h1 with hx | hx
    · obtain ⟨e, he⟩ := hx.1
      exact absurd he (h2 e)
    · exact hx
  split
  · exact h
  · rename_i hpc
    obtain ⟨htr, hjn, hin⟩ := h0.start hpc
    have hcabs := announce_cabs ({ c with riders := c.riders.set j { p with journey := none, trip := some ⟨p.pos, dest, tip, none⟩ } } : Ride) j
    simp only [Ride.await, hin, hearAsks]
    refine h.ofRider j p { p with journey := none, trip := some ⟨p.pos, dest, tip, none⟩, pc := .wait (c.now + 60), next := c.now + 10 }
      (announced j c.now) hp ?_ hcabs (fun q m hm => ?_) rfl rfl (fun hx => absurd htr hx) rfl (fun hr => ?_) (fun a _ => rfl) ?_ ?_
    · show (c.riders.set j _).set j _ = _
      rw [List.set_set]
      simp [Ride.announce, hin]
    · unfold announced at hm
      split at hm
      · exact Or.inl hm
      · rcases List.mem_append.1 hm with hm | hm
        · exact Or.inl hm
        · simp only [List.mem_singleton] at hm
          rw [hm]
          exact Or.inr ⟨rfl, by simp⟩
    · rcases hr.2.2 with hy | ⟨e, hy⟩ | hy <;> rw [hpc] at hy <;> cases hy
    · refine ⟨fun hs => (by cases hs), fun _ => ⟨_, rfl, fun _ => ⟨⟨⟨_, rfl⟩, rfl⟩, hin, rfl⟩, fun i hi => (by cases hi), fun hx => (by cases hx)⟩,
        fun e _ => Nat.le_refl _, fun _ => Nat.le_add_right _ _⟩
    · intro i q hq hj
      obtain ⟨p1, hp1, t1, ht1, _⟩ := (h.cab i q hq).busy j hj
      rw [hp] at hp1
      cases hp1
      rw [htr] at ht1
      cases ht1
  · rename_i e hpc
    split
    · exact h.await hp e hpc _ (Or.inl rfl)
    · exact h.await hp e hpc _ (Or.inr rfl)
  · rename_i hpc
    exact h.homeward hp (ride (by rw [hpc]; simp) (by rw [hpc]; simp))
  · rename_i e hpc
    have hr := ride (by rw [hpc]; simp) (by rw [hpc]; simp)
    split
    · rw [if_pos hr.2.1]
      exact h.riding hp hr { p with next := c.now + 1 } rfl rfl hr (fun _ => rfl) (fun hx => by rw [show p.pc = .dead from hx] at hpc; cases hpc)
    · exact h.homeward hp hr

theorem Ride.Ok.act {c : Ride} (h : c.Ok) (e : RideEv) (t : Nat) (ht : c.turn e t = true) : (({ c with now := t } : Ride).act e).1.Ok := by
  have hk := h.tick e t ht
  cases e with
  | cab i k =>
    refine hk.actCab i k ?_
    intro q hq hne
    unfold Ride.turn at ht
    simp only [Bool.and_eq_true] at ht
    have hq' : c.cabs[i]? = some q := hq
    have := of_decide_eq_true ht.1.1
    simp only [Ride.due, hq', Option.bind_some, if_neg hne, Option.some.injEq] at this
    exact this.symm
  | rider j d tip => exact hk.actRider j d tip

/-- What is kept by all activations holds at any time. -/
theorem Ride.run_induct (P : Ride → Prop) (hact : ∀ c e t, P c → c.turn e t = true → P (({ c with now := t } : Ride).act e).1) :
    ∀ es c, P c → P (Ride.run c es).1 := by
  intro es
  induction es with
  | nil => intro c hc; exact hc
  | cons e es ih =>
    intro c hc
    unfold Ride.run
    split
    · exact ih c hc
    · rename_i t _
      split
      · rename_i ht
        have := hact c e t hc ht
        by_cases hr : (({ c with now := t } : Ride).act e).2 = true
        · simp only [hr, if_true]
          exact this
        · simp only [hr]
          exact ih _ this
      · exact ih c hc

theorem Ride.run_ok (w h : Nat) (cs rs : List GridCell) (es : List RideEv) : (Ride.run (Ride.init w h cs rs) es).1.Ok :=
  Ride.run_induct Ride.Ok (fun _ e t hc ht => hc.act e t ht) es _ (Ride.init_ok w h cs rs)

end Verif
