import Verif.Proofs.ExCars
import Mathlib.Data.List.Nodup
import Mathlib.Data.List.Perm.Basic
import Mathlib.Data.List.Range

/-!
# C152–C161: drivers and passengers (examples/cars)
-/

namespace Verif

/-! ### What happens to journeys -/

/-- Journeys are only given drivers. -/
def Ride.Keeps (c c' : Ride) : Prop :=
  ∀ (j : Nat) p t, c.riders[j]? = some p → p.trip = some t → ∃ p' t', c'.riders[j]? = some p' ∧ p'.trip = some t' ∧
    t'.origin = t.origin ∧ t'.dest = t.dest ∧ t'.tip = t.tip ∧ (t'.driver = t.driver ∨ t.driver = none)

theorem Ride.Keeps.refl (c : Ride) : c.Keeps c := fun _ p t hp ht => ⟨p, t, hp, ht, rfl, rfl, rfl, Or.inl rfl⟩

theorem Ride.Keeps.of_eq {c c' : Ride} (h : c'.riders = c.riders) : c.Keeps c' :=
  fun _ p t hp ht => ⟨p, t, by rw [h]; exact hp, ht, rfl, rfl, rfl, Or.inl rfl⟩

theorem Ride.Keeps.trans {c c' c'' : Ride} (h : c.Keeps c') (h' : c'.Keeps c'') : c.Keeps c'' := by
  intro j p t hp ht
  obtain ⟨p1, t1, hp1, ht1, a1, a2, a3, a4⟩ := h j p t hp ht
  obtain ⟨p2, t2, hp2, ht2, b1, b2, b3, b4⟩ := h' j p1 t1 hp1 ht1
  refine ⟨p2, t2, hp2, ht2, b1.trans a1, b2.trans a2, b3.trans a3, ?_⟩
  rcases a4 with a4 | a4
  · rcases b4 with b4 | b4
    · exact Or.inl (b4.trans a4)
    · exact Or.inr (a4 ▸ b4)
  · exact Or.inr a4

theorem Ride.Keeps.modify {c c' : Ride} (m : Nat) (f : Rider → Rider) (hf : ∀ r, (f r).trip = r.trip) (h : c'.riders = c.riders.modify m f) :
    c.Keeps c' := by
  intro j p t hp ht
  by_cases hm : m = j
  · exact ⟨f p, t, by rw [h, getElem?_modify_r, if_pos hm, hp]; rfl, by rw [hf]; exact ht, rfl, rfl, rfl, Or.inl rfl⟩
  · exact ⟨p, t, by rw [h, getElem?_modify_r, if_neg hm]; exact hp, ht, rfl, rfl, rfl, Or.inl rfl⟩

theorem Ride.Keeps.set {c c' : Ride} (m : Nat) (p0 p1 : Rider) (hp0 : c.riders[m]? = some p0) (htr : p0.trip ≠ none → p1.trip = p0.trip)
    (h : c'.riders = c.riders.set m p1) : c.Keeps c' := by
  intro j p t hp ht
  by_cases hm : m = j
  · subst hm
    rw [hp] at hp0
    cases hp0
    have hlt := (List.getElem?_eq_some_iff.1 hp).1
    exact ⟨p1, t, by rw [h, List.getElem?_set]; simp [hlt], by rw [htr (by rw [ht]; simp)]; exact ht, rfl, rfl, rfl, Or.inl rfl⟩
  · exact ⟨p, t, by rw [h, List.getElem?_set_ne hm]; exact hp, ht, rfl, rfl, rfl, Or.inl rfl⟩

theorem Ride.listen_keeps (c : Ride) (i : Nat) (q : Cab) (target : GridCell) : c.Keeps (c.listen i q target) := by
  unfold Ride.listen
  split
  · exact .of_eq rfl
  · cases hj : q.journey with
    | some j =>
      simp only [hearTrips_busy]
      exact .of_eq rfl
    | none =>
      rcases hearTrips_free c.now i q.inbox c.riders with ⟨h1, _⟩ | ⟨m, e, p, t, _, _, hp, ht, hd, h1⟩
      · simp only [h1]
        exact .of_eq rfl
      · simp only [h1]
        intro j p' t' hp' ht'
        by_cases hm : m = j
        · subst hm
          rw [hp] at hp'
          cases hp'
          rw [ht] at ht'
          cases ht'
          refine ⟨{ p with trip := some { t with driver := some i } }, { t with driver := some i }, ?_, rfl, rfl, rfl, rfl, Or.inr hd⟩
          show (c.riders.modify m _)[m]? = _
          rw [getElem?_modify_r, if_pos rfl, hp]
          rfl
        · refine ⟨p', t', ?_, ht', rfl, rfl, rfl, Or.inl rfl⟩
          show (c.riders.modify m _)[j]? = _
          rw [getElem?_modify_r, if_neg hm]
          exact hp'

theorem Ride.roam_keeps (c : Ride) (i : Nat) (q : Cab) (target : Option GridCell) (k : Nat) : c.Keeps (c.roam i q target k).1 := by
  unfold Ride.roam
  split
  · split
    · exact c.listen_keeps _ _ _
    · exact .refl c
  · split
    · exact .refl c
    · exact c.listen_keeps _ _ _

theorem Ride.carry_keeps (c : Ride) (i : Nat) (q : Cab) (j : Nat) (t : Trip) : c.Keeps (c.carry i q j t).1 := by
  unfold Ride.carry
  split
  · unfold Ride.collect
    simp only
    split <;> exact .of_eq rfl
  · split
    · exact .modify j _ (by intro _; rfl) rfl
    · exact .refl c

theorem Ride.actCab_keeps (c : Ride) (i k : Nat) : c.Keeps (c.actCab i k).1 := by
  unfold Ride.actCab
  split
  · exact .refl c
  split
  · exact .refl c
  · split
    · exact .of_eq rfl
    · exact c.roam_keeps _ _ _ _
  · split
    · exact c.roam_keeps _ _ _ _
    · exact .modify _ _ (by intro _; rfl) rfl
  · split
    · split <;> exact .of_eq rfl
    · exact .of_eq rfl
  · split
    · exact .refl c
    · split
      · exact .refl c
      · split
        · split
          · exact .of_eq rfl
          · exact .refl c
        · exact c.carry_keeps _ _ _ _
  · split
    · exact .refl c
    · split
      · exact .refl c
      · exact c.carry_keeps _ _ _ _

theorem Ride.await_keeps {c c0 : Ride} (j : Nat) (p p0 : Rider) (exp : Nat) (hp0 : c0.riders[j]? = some p0) (htr : p0.trip ≠ none → p.trip = p0.trip)
    (h : ∀ p', c.riders.set j p' = c0.riders.set j p') : c0.Keeps (c.await j p exp) := by
  unfold Ride.await
  simp only
  split
  · refine .set j p0 _ hp0 ?_ (h _)
    exact htr
  · refine .set j p0 _ hp0 ?_ (h _)
    exact htr

theorem Ride.homeward_keeps {c c0 : Ride} (j : Nat) (p p0 : Rider) (hp0 : c0.riders[j]? = some p0) (htr : p.trip = p0.trip)
    (h : ∀ p', c.riders.set j p' = c0.riders.set j p') (h' : c.riders = c0.riders ∨ c.riders = c0.riders.set j p) :
    c0.Keeps (c.homeward j p).1 := by
  unfold Ride.homeward
  split
  · rcases h' with h' | h'
    · exact .of_eq h'
    · exact .set j p0 p hp0 (fun _ => htr) h'
  · simp only
    split
    · exact .set j p0 _ hp0 (by intro _; exact htr) (h _)
    · exact .set j p0 _ hp0 (by intro _; exact htr) (h _)

theorem Ride.actRider_keeps {c : Ride} (h : c.Ok) (j : Nat) (dest : GridCell) (tip : Int) : c.Keeps (c.actRider j dest tip).1 := by
  unfold Ride.actRider
  split
  · exact .refl c
  rename_i p hp
  split
  · exact .refl c
  · rename_i hpc
    refine Ride.await_keeps j _ p _ hp (fun hx => absurd ((h.rider j p hp).start hpc).1 hx) ?_
    intro p'
    show (c.riders.set j _).set j p' = _
    rw [List.set_set]
  · split
    · exact Ride.await_keeps j p p _ hp (fun _ => rfl) (fun _ => rfl)
    · exact Ride.await_keeps j p p _ hp (fun _ => rfl) (fun _ => rfl)
  · exact Ride.homeward_keeps j p p hp rfl (fun _ => rfl) (Or.inl rfl)
  · split
    · split
      · exact .set j p _ hp (by intro _; rfl) rfl
      · refine Ride.homeward_keeps j _ p hp rfl (fun p' => ?_) (Or.inr rfl)
        show (c.riders.set j _).set j p' = _
        rw [List.set_set]
    · exact Ride.homeward_keeps j p p hp rfl (fun _ => rfl) (Or.inl rfl)

theorem Ride.act_keeps {c : Ride} (h : c.Ok) (e : RideEv) (t : Nat) (ht : c.turn e t = true) :
    c.Keeps (({ c with now := t } : Ride).act e).1 := by
  have hk := h.tick e t ht
  cases e with
  | cab i k => exact Ride.actCab_keeps ({ c with now := t } : Ride) i k
  | rider j d tip => exact Ride.actRider_keeps hk j d tip

theorem Ride.run_keeps {c : Ride} (h : c.Ok) (es : List RideEv) : c.Keeps (c.run es).1 := by
  have := Ride.run_induct (fun x => x.Ok ∧ c.Keeps x) (fun x e t hx ht => ⟨hx.1.act e t ht, hx.2.trans (Ride.act_keeps hx.1 e t ht)⟩) es c
    ⟨h, .refl c⟩
  exact this.2

/-- C152: the driver of a journey never changes, whatever happens afterwards; nor do its origin, destination and tip. -/
theorem C152_driver_kept (w h : Nat) (cs rs : List GridCell) (es es' : List RideEv) (j : Nat) (p : Rider) (t : Trip) (i : Nat)
    (hp : (Ride.run (Ride.init w h cs rs) es).1.riders[j]? = some p) (ht : p.trip = some t) (hd : t.driver = some i) :
    ∃ p' t', (Ride.run (Ride.run (Ride.init w h cs rs) es).1 es').1.riders[j]? = some p' ∧ p'.trip = some t' ∧ t' = t := by
  obtain ⟨p', t', h1, h2, h3, h4, h5, h6⟩ := Ride.run_keeps (Ride.run_ok w h cs rs es) es' j p t hp ht
  refine ⟨p', t', h1, h2, ?_⟩
  rcases h6 with h6 | h6
  · cases t; cases t'; simp_all
  · rw [hd] at h6; cases h6

/-- C152: a driver's journey is one whose driver it is; so no two drivers ever have the same journey. -/
theorem C152_one_driver (w h : Nat) (cs rs : List GridCell) (es : List RideEv) :
    (∀ (i : Nat) q j, (Ride.run (Ride.init w h cs rs) es).1.cabs[i]? = some q → q.journey = some j →
      ∃ p t, (Ride.run (Ride.init w h cs rs) es).1.riders[j]? = some p ∧ p.trip = some t ∧ t.driver = some i) ∧
    (∀ (i i' : Nat) q q' j, (Ride.run (Ride.init w h cs rs) es).1.cabs[i]? = some q →
      (Ride.run (Ride.init w h cs rs) es).1.cabs[i']? = some q' → q.journey = some j → q'.journey = some j → i = i') := by
  have hok := Ride.run_ok w h cs rs es
  have h1 : ∀ (i : Nat) q j, (Ride.run (Ride.init w h cs rs) es).1.cabs[i]? = some q → q.journey = some j →
      ∃ p t, (Ride.run (Ride.init w h cs rs) es).1.riders[j]? = some p ∧ p.trip = some t ∧ t.driver = some i := by
    intro i q j hq hj
    obtain ⟨p, hp, t, ht, hd, _⟩ := (hok.cab i q hq).busy j hj
    exact ⟨p, t, hp, ht, hd⟩
  refine ⟨h1, ?_⟩
  intro i i' q q' j hq hq' hj hj'
  obtain ⟨p, t, hp, ht, hd⟩ := h1 i q j hq hj
  obtain ⟨p', t', hp', ht', hd'⟩ := h1 i' q' j hq' hj'
  rw [hp] at hp'
  cases hp'
  rw [ht] at ht'
  cases ht'
  rw [hd] at hd'
  cases hd'
  rfl

/-- C154: a question of a driver to its passenger never times out: whenever the driver is activated while it waits for the answer, the
expiration is still at least 45 away; the driver goes on waiting or starts driving, with the same journey. -/
theorem C154_never_times_out (w h : Nat) (cs rs : List GridCell) (es : List RideEv) (i k t : Nat) (q : Cab) (a exp : Nat)
    (hq : (Ride.run (Ride.init w h cs rs) es).1.cabs[i]? = some q) (hpc : q.pc = .ask a exp)
    (ht : (Ride.run (Ride.init w h cs rs) es).1.turn (.cab i k) t = true) :
    t + 45 ≤ exp ∧ ∃ q' j, (({ (Ride.run (Ride.init w h cs rs) es).1 with now := t } : Ride).act (.cab i k)).1.cabs[i]? = some q' ∧
      q.journey = some j ∧ q'.journey = some j ∧ ((q'.pc = .ask a exp ∧ q'.next = t + 5) ∨ (q'.pc = .toOrigin ∧ q'.next = t + 1)) := by
  have hok := Ride.run_ok w h cs rs es
  generalize (Ride.run (Ride.init w h cs rs) es).1 = c at *
  have hlt := (List.getElem?_eq_some_iff.1 hq).1
  have hc := hok.cab i q hq
  have hnow : t = q.next := by
    unfold Ride.turn at ht
    simp only [Bool.and_eq_true] at ht
    have := of_decide_eq_true ht.1.1
    simp only [Ride.due, hq, Option.bind_some, hpc] at this
    simpa using this.symm
  cases hj : q.journey with
  | none => rcases hc.idle hj with hx | ⟨t, hx⟩ | hx <;> rw [hpc] at hx <;> cases hx
  | some j =>
    obtain ⟨p, hp, t', ht', hd, hm⟩ := hc.busy j hj
    rw [hpc] at hm
    obtain ⟨hn, hpos, hexp, hm⟩ := hm
    refine ⟨by omega, ?_⟩
    unfold Ride.act Ride.actCab
    simp only [hq, hpc]
    rw [if_pos (by omega)]
    rcases hm with ⟨ha, _⟩ | ⟨ha, _⟩
    · simp only [ha, Option.bind_some, id]
      refine ⟨{ q with next := t + 5 }, j, ?_, rfl, hj, Or.inl ⟨hpc, rfl⟩⟩
      rw [List.getElem?_set]
      simp [hlt, hpc]
    · simp only [ha, Option.bind_some, id]
      refine ⟨{ q with journey := some j, pc := .toOrigin, next := t + 1 }, j, ?_, rfl, rfl, Or.inr ⟨rfl, rfl⟩⟩
      rw [List.getElem?_set]
      simp [hlt]

/-! ### Frames -/

/-- An activation of a driver changes this driver only, and of one passenger at most the position, the messages and the driver of its
journey. -/
theorem Ride.actCab_frame (c : Ride) (i k : Nat) :
    ((c.actCab i k).1.cabs = c.cabs ∨ ∃ q', (c.actCab i k).1.cabs = c.cabs.set i q') ∧
    (∃ m f, (∀ r : Rider, (f r).pc = r.pc ∧ (f r).cell = r.cell ∧ (f r).next = r.next) ∧ (c.actCab i k).1.riders = c.riders.modify m f) ∧
    (c.actCab i k).1.now = c.now ∧ (c.actCab i k).1.width = c.width ∧ (c.actCab i k).1.height = c.height := by
  have same : ∃ m f, (∀ r : Rider, (f r).pc = r.pc ∧ (f r).cell = r.cell ∧ (f r).next = r.next) ∧ c.riders = c.riders.modify m f :=
    ⟨0, id, fun _ => ⟨rfl, rfl, rfl⟩, by rw [List.modify_id]⟩
  have listen : ∀ q target, ((c.listen i q target).cabs = c.cabs ∨ ∃ q', (c.listen i q target).cabs = c.cabs.set i q') ∧
      (∃ m f, (∀ r : Rider, (f r).pc = r.pc ∧ (f r).cell = r.cell ∧ (f r).next = r.next) ∧ (c.listen i q target).riders = c.riders.modify m f) ∧
      (c.listen i q target).now = c.now ∧ (c.listen i q target).width = c.width ∧ (c.listen i q target).height = c.height := by
    intro q target
    unfold Ride.listen
    split
    · exact ⟨Or.inr ⟨_, rfl⟩, same, rfl, rfl, rfl⟩
    · refine ⟨Or.inr ⟨_, rfl⟩, ?_, rfl, rfl, rfl⟩
      simp only
      cases hj : q.journey with
      | some j => rw [hearTrips_busy]; exact same
      | none =>
        rcases hearTrips_free c.now i q.inbox c.riders with ⟨h1, _⟩ | ⟨m, e, p, t, _, _, _, _, _, h1⟩
        · rw [h1]; exact same
        · rw [h1]; exact ⟨m, _, by intro r; exact ⟨rfl, rfl, rfl⟩, rfl⟩
  have roam : ∀ q target, ((c.roam i q target k).1.cabs = c.cabs ∨ ∃ q', (c.roam i q target k).1.cabs = c.cabs.set i q') ∧
      (∃ m f, (∀ r : Rider, (f r).pc = r.pc ∧ (f r).cell = r.cell ∧ (f r).next = r.next) ∧ (c.roam i q target k).1.riders = c.riders.modify m f) ∧
      (c.roam i q target k).1.now = c.now ∧ (c.roam i q target k).1.width = c.width ∧ (c.roam i q target k).1.height = c.height := by
    intro q target
    unfold Ride.roam
    split
    · split
      · exact listen _ _
      · exact ⟨Or.inl rfl, same, rfl, rfl, rfl⟩
    · split
      · exact ⟨Or.inl rfl, same, rfl, rfl, rfl⟩
      · exact listen _ _
  have carry : ∀ q j t, ((c.carry i q j t).1.cabs = c.cabs ∨ ∃ q', (c.carry i q j t).1.cabs = c.cabs.set i q') ∧
      (∃ m f, (∀ r : Rider, (f r).pc = r.pc ∧ (f r).cell = r.cell ∧ (f r).next = r.next) ∧ (c.carry i q j t).1.riders = c.riders.modify m f) ∧
      (c.carry i q j t).1.now = c.now ∧ (c.carry i q j t).1.width = c.width ∧ (c.carry i q j t).1.height = c.height := by
    intro q j t
    unfold Ride.carry
    split
    · unfold Ride.collect
      simp only
      split
      · exact ⟨Or.inr ⟨_, rfl⟩, same, rfl, rfl, rfl⟩
      · exact ⟨Or.inr ⟨_, rfl⟩, same, rfl, rfl, rfl⟩
    · split
      · exact ⟨Or.inr ⟨_, rfl⟩, ⟨j, _, by intro r; exact ⟨rfl, rfl, rfl⟩, rfl⟩, rfl, rfl, rfl⟩
      · exact ⟨Or.inl rfl, same, rfl, rfl, rfl⟩
  unfold Ride.actCab
  split
  · exact ⟨Or.inl rfl, same, rfl, rfl, rfl⟩
  split
  · exact ⟨Or.inl rfl, same, rfl, rfl, rfl⟩
  · split
    · exact ⟨Or.inr ⟨_, rfl⟩, same, rfl, rfl, rfl⟩
    · exact roam _ _
  · split
    · exact roam _ _
    · exact ⟨Or.inr ⟨_, rfl⟩, ⟨_, _, by intro r; exact ⟨rfl, rfl, rfl⟩, rfl⟩, rfl, rfl, rfl⟩
  · split
    · split
      · exact ⟨Or.inr ⟨_, rfl⟩, same, rfl, rfl, rfl⟩
      · exact ⟨Or.inr ⟨_, rfl⟩, same, rfl, rfl, rfl⟩
    · exact ⟨Or.inr ⟨_, rfl⟩, same, rfl, rfl, rfl⟩
  · split
    · exact ⟨Or.inl rfl, same, rfl, rfl, rfl⟩
    · split
      · exact ⟨Or.inl rfl, same, rfl, rfl, rfl⟩
      · split
        · split
          · exact ⟨Or.inr ⟨_, rfl⟩, same, rfl, rfl, rfl⟩
          · exact ⟨Or.inl rfl, same, rfl, rfl, rfl⟩
        · exact carry _ _ _
  · split
    · exact ⟨Or.inl rfl, same, rfl, rfl, rfl⟩
    · split
      · exact ⟨Or.inl rfl, same, rfl, rfl, rfl⟩
      · exact carry _ _ _

/-- An activation of a passenger changes this passenger only, not its position, and of the drivers only the messages. -/
theorem Ride.actRider_frame (c : Ride) (j : Nat) (dest : GridCell) (tip : Int) :
    (∃ f : Cab → List (Nat × Nat), (c.actRider j dest tip).1.cabs = c.cabs.map (fun q => { q with inbox := f q })) ∧
    ((c.actRider j dest tip).1.riders = c.riders ∨ ∃ p p', c.riders[j]? = some p ∧ (c.actRider j dest tip).1.riders = c.riders.set j p' ∧
      p'.pos = p.pos ∧ p'.cell = p.cell ∧ p.pc ≠ .dead ∧ (p'.trip = p.trip ∨ p'.trip = some ⟨p.pos, dest, tip, none⟩)) ∧
    (c.actRider j dest tip).1.now = c.now ∧ (c.actRider j dest tip).1.width = c.width ∧ (c.actRider j dest tip).1.height = c.height ∧
    (c.actRider j dest tip).1.paid = c.paid ∧ (c.actRider j dest tip).1.total = c.total := by
  have same : ∃ f : Cab → List (Nat × Nat), c.cabs = c.cabs.map (fun q => { q with inbox := f q }) := ⟨fun q => q.inbox, map_same_inbox _⟩
  have anno : ∀ c : Ride, ∃ f : Cab → List (Nat × Nat), (c.announce j).cabs = c.cabs.map (fun q => { q with inbox := f q }) :=
    fun c => ⟨_, announce_cabs c j⟩
  have awt : ∀ (c : Ride) p exp, (c.await j p exp).cabs = c.cabs ∧ (c.await j p exp).now = c.now ∧ (c.await j p exp).width = c.width ∧
      (c.await j p exp).height = c.height ∧ (c.await j p exp).paid = c.paid ∧ (c.await j p exp).total = c.total ∧
      ∃ p', (c.await j p exp).riders = c.riders.set j p' ∧ p'.pos = p.pos ∧ p'.cell = p.cell ∧ p'.trip = p.trip := by
    intro c p exp
    unfold Ride.await
    simp only
    split
    · exact ⟨rfl, rfl, rfl, rfl, rfl, rfl, _, rfl, rfl, rfl, rfl⟩
    · exact ⟨rfl, rfl, rfl, rfl, rfl, rfl, _, rfl, rfl, rfl, rfl⟩
  have hw : ∀ (c : Ride) p, (c.homeward j p).1.cabs = c.cabs ∧ (c.homeward j p).1.now = c.now ∧ (c.homeward j p).1.width = c.width ∧
      (c.homeward j p).1.height = c.height ∧ (c.homeward j p).1.paid = c.paid ∧ (c.homeward j p).1.total = c.total ∧
      ((c.homeward j p).1.riders = c.riders ∨ ∃ p', (c.homeward j p).1.riders = c.riders.set j p' ∧ p'.pos = p.pos ∧ p'.cell = p.cell ∧ p'.trip = p.trip) := by
    intro c p
    unfold Ride.homeward
    split
    · exact ⟨rfl, rfl, rfl, rfl, rfl, rfl, Or.inl rfl⟩
    · simp only
      split
      · exact ⟨rfl, rfl, rfl, rfl, rfl, rfl, Or.inr ⟨_, rfl, rfl, rfl, rfl⟩⟩
      · exact ⟨rfl, rfl, rfl, rfl, rfl, rfl, Or.inr ⟨_, rfl, rfl, rfl, rfl⟩⟩
  unfold Ride.actRider
  split
  · exact ⟨same, Or.inl rfl, rfl, rfl, rfl, rfl, rfl⟩
  rename_i p hp
  split
  · exact ⟨same, Or.inl rfl, rfl, rfl, rfl, rfl, rfl⟩
  · rename_i hpc
    simp only
    obtain ⟨a1, a2, a3, a4, a5, a6, p', a7, a8, a9, a10⟩ := awt (({ c with riders := c.riders.set j { p with journey := none, trip := some ⟨p.pos, dest, tip, none⟩ } } : Ride).announce j)
      { p with journey := none, trip := some ⟨p.pos, dest, tip, none⟩ } (c.now + 60)
    refine ⟨?_, Or.inr ⟨p, p', hp, ?_, a8, a9, by rw [hpc]; simp, Or.inr a10⟩, a2, a3, a4, a5, a6⟩
    · rw [a1]
      exact anno _
    · rw [a7]
      show (c.riders.set j _).set j p' = _
      rw [List.set_set]
  · rename_i e hpc
    split
    · obtain ⟨a1, a2, a3, a4, a5, a6, p', a7, a8, a9, a10⟩ := awt c p e
      exact ⟨by rw [a1]; exact same, Or.inr ⟨p, p', hp, a7, a8, a9, by rw [hpc]; simp, Or.inl a10⟩, a2, a3, a4, a5, a6⟩
    · obtain ⟨a1, a2, a3, a4, a5, a6, p', a7, a8, a9, a10⟩ := awt (c.announce j) p (c.now + 60)
      exact ⟨by rw [a1]; exact anno c, Or.inr ⟨p, p', hp, a7, a8, a9, by rw [hpc]; simp, Or.inl a10⟩, a2, a3, a4, a5, a6⟩
  · rename_i hpc
    obtain ⟨a1, a2, a3, a4, a5, a6, a7⟩ := hw c p
    refine ⟨by rw [a1]; exact same, ?_, a2, a3, a4, a5, a6⟩
    rcases a7 with a7 | ⟨p', a7, a8, a9, a10⟩
    · exact Or.inl a7
    · exact Or.inr ⟨p, p', hp, a7, a8, a9, by rw [hpc]; simp, Or.inl a10⟩
  · rename_i e hpc
    have hnd : p.pc ≠ .dead := by rw [hpc]; simp
    split
    · split
      · exact ⟨same, Or.inr ⟨p, _, hp, rfl, rfl, rfl, hnd, Or.inl rfl⟩, rfl, rfl, rfl, rfl, rfl⟩
      · simp only
        obtain ⟨a1, a2, a3, a4, a5, a6, a7⟩ := hw ({ c with riders := c.riders.set j { p with journey := (hearAsks p.inbox p.journey c.asks).1, inbox := [] }, asks := (hearAsks p.inbox p.journey c.asks).2 } : Ride) { p with journey := (hearAsks p.inbox p.journey c.asks).1, inbox := [] }
        refine ⟨by rw [a1]; exact same, Or.inr ?_, a2, a3, a4, a5, a6⟩
        rcases a7 with a7 | ⟨p', a7, a8, a9, a10⟩
        · exact ⟨p, _, hp, a7, rfl, rfl, hnd, Or.inl rfl⟩
        · refine ⟨p, p', hp, ?_, a8, a9, hnd, Or.inl a10⟩
          rw [a7]
          show (c.riders.set j _).set j p' = _
          rw [List.set_set]
    · obtain ⟨a1, a2, a3, a4, a5, a6, a7⟩ := hw c p
      refine ⟨by rw [a1]; exact same, ?_, a2, a3, a4, a5, a6⟩
      rcases a7 with a7 | ⟨p', a7, a8, a9, a10⟩
      · exact Or.inl a7
      · exact Or.inr ⟨p, p', hp, a7, a8, a9, hnd, Or.inl a10⟩

/-! ### One step of a driver -/

/-- Distance in steps. -/
def gridDist (p t : GridCell) : Nat := (p.1 - t.1).natAbs + (p.2 - t.2).natAbs

/-- The steps that a driver on its way still has to do for the journey. -/
def Cab.left (q : Cab) (t : Trip) : Nat :=
  if q.pc = .toOrigin then gridDist q.pos t.origin + gridDist t.origin t.dest else gridDist q.pos t.dest

/-- On the way, to the passenger or with it. -/
def Cab.driving (q : Cab) : Prop := q.pc = .toOrigin ∨ q.pc = .toDest

theorem towards_some {p t x : GridCell} (h : towards p t = some x) :
    gridDist x t + 1 = gridDist p t ∧ gridDist p x = 1 ∧
    min p.1 t.1 ≤ x.1 ∧ x.1 ≤ max p.1 t.1 ∧ min p.2 t.2 ≤ x.2 ∧ x.2 ≤ max p.2 t.2 := by
  unfold towards at h
  obtain ⟨p1, p2⟩ := p
  obtain ⟨t1, t2⟩ := t
  simp only [gridDist] at *
  split at h
  · cases h
  · split at h
    · cases h; simp only; omega
    · split at h
      · cases h; simp only; omega
      · split at h
        · cases h; simp only; omega
        · cases h; simp only; omega

/-- What an activation of driver `i` does: `q` the driver before, `q'` after. -/
structure CabStep (c c' : Ride) (i : Nat) (q q' : Cab) : Prop where
  cabs : c'.cabs = c.cabs.set i q'
  pos : q'.pos = q.pos ∨ c.inside q'.pos = true
  cell : q.cell = q.pos → q'.cell = q'.pos
  dies : q'.pc = .dead → c.passengers = 0
  money : (c'.paid = c.paid ∧ c'.total = c.total ∧ q'.earnings = q.earnings) ∨
    ∃ j p t, q.journey = some j ∧ q.driving ∧ c.riders[j]? = some p ∧ p.trip = some t ∧ c'.riders = c.riders ∧
      c'.paid = c.paid ++ [j] ∧ c'.total = c.total + t.tip ∧ q'.earnings = q.earnings + t.tip
  riders : ∃ m f, (∀ r : Rider, (f r).pc = r.pc ∧ (f r).cell = r.cell ∧ (f r).next = r.next ∧
      ((f r).pos = r.pos ∨ ((f r).pos = q'.pos ∧ c.inside q'.pos = true ∧
        (c.riders[m]? = some r → r.pc ≠ .start)))) ∧ c'.riders = c.riders.modify m f
  drive : ∀ j p t, q.driving → q.journey = some j → c.riders[j]? = some p → p.trip = some t →
    (c'.paid = c.paid ++ [j] ∧ q.left t = 0) ∨
    (q'.journey = some j ∧ q'.driving ∧ q'.next = c.now + 1 ∧ q'.left t + 1 = q.left t)
  target : ∀ g, q'.pc = .loop g → c.inside g = true ∨ q.pc = .loop g

theorem Ride.around_inside {c : Ride} {p g : GridCell} (h : g ∈ c.around p) : c.inside g = true := by
  unfold Ride.around at h
  exact (List.mem_filter.1 h).2

theorem Ride.listen_step (c : Ride) (i : Nat) (q q0 : Cab) (g : GridCell) (hnd : ¬ q.driving) (he : q0.earnings = q.earnings)
    (hpos : q0.pos = q.pos ∨ c.inside q0.pos = true) (hcell : q.cell = q.pos → q0.cell = q0.pos)
    (hg : c.inside g = true ∨ q.pc = .loop g) : ∃ q', CabStep c (c.listen i q0 g) i q q' := by
  have same : ∀ q' : Cab, ∃ m f, (∀ r : Rider, (f r).pc = r.pc ∧ (f r).cell = r.cell ∧ (f r).next = r.next ∧
      ((f r).pos = r.pos ∨ ((f r).pos = q'.pos ∧ c.inside q'.pos = true ∧
        (c.riders[m]? = some r → r.pc ≠ .start)))) ∧ c.riders = c.riders.modify m f :=
    fun _ => ⟨0, id, fun _ => ⟨rfl, rfl, rfl, Or.inl rfl⟩, by rw [List.modify_id]⟩
  unfold Ride.listen
  split
  · rename_i h0
    refine ⟨{ q0 with pc := .dead }, rfl, hpos, hcell, fun _ => h0, Or.inl ⟨rfl, rfl, he⟩, same _, fun _ _ _ h => absurd h hnd, ?_⟩
    intro g' hg'
    cases hg'
  · refine ⟨_, rfl, hpos, hcell, (fun h => by cases h), Or.inl ⟨rfl, rfl, he⟩, ?_, fun _ _ _ h => absurd h hnd, ?_⟩
    · simp only
      cases hj : q0.journey with
      | some j => rw [hearTrips_busy]; exact same _
      | none =>
        rcases hearTrips_free c.now i q0.inbox c.riders with ⟨h1, _⟩ | ⟨m, e, p, t, _, _, _, _, _, h1⟩
        · rw [h1]; exact same _
        · rw [h1]; exact ⟨m, _, by intro r; exact ⟨rfl, rfl, rfl, Or.inl rfl⟩, rfl⟩
    · intro g' hg'
      simp only [CabPc.loop.injEq] at hg'
      subst hg'
      exact hg

theorem Ride.roam_step (c : Ride) (i : Nat) (q q0 : Cab) (g : Option GridCell) (k : Nat) (hnd : ¬ q.driving) (he : q0.earnings = q.earnings)
    (hpos : q0.pos = q.pos) (hcell : q0.cell = q.cell) (hg : ∀ x, g = some x → q.pc = .loop x) :
    (c.roam i q0 g k).1 = c ∨ ∃ q', CabStep c (c.roam i q0 g k).1 i q q' := by
  unfold Ride.roam
  split
  · rename_i p hp
    split
    · rename_i hin
      refine Or.inr (c.listen_step i q _ _ hnd he (Or.inr hin) (fun _ => rfl) ?_)
      cases g with
      | none => cases hp
      | some x => exact Or.inr (hg x rfl)
    · exact Or.inl rfl
  · split
    · exact Or.inl rfl
    · rename_i t ht
      exact Or.inr (c.listen_step i q q0 t hnd he (Or.inl hpos) (fun h => by rw [hcell, hpos]; exact h)
        (Or.inl (Ride.around_inside (List.mem_of_getElem? ht))))

theorem Ride.carry_step (c : Ride) (i : Nat) (q : Cab) (j : Nat) (p : Rider) (t : Trip) (hd : q.driving) (hj : q.journey = some j)
    (hp : c.riders[j]? = some p) (ht : p.trip = some t) (hs : p.pc ≠ .start) (ho : q.pc = .toOrigin → q.pos = t.origin) :
    (c.carry i q j t).1 = c ∨ ∃ q', CabStep c (c.carry i q j t).1 i q q' := by
  have same : ∀ q' : Cab, ∃ m f, (∀ r : Rider, (f r).pc = r.pc ∧ (f r).cell = r.cell ∧ (f r).next = r.next ∧
      ((f r).pos = r.pos ∨ ((f r).pos = q'.pos ∧ c.inside q'.pos = true ∧
        (c.riders[m]? = some r → r.pc ≠ .start)))) ∧ c.riders = c.riders.modify m f :=
    fun _ => ⟨0, id, fun _ => ⟨rfl, rfl, rfl, Or.inl rfl⟩, by rw [List.modify_id]⟩
  have hleft : q.left t = gridDist q.pos t.dest := by
    unfold Cab.left
    split
    · rename_i hpc
      rw [ho hpc]
      simp [gridDist]
    · rfl
  unfold Ride.carry
  split
  · rename_i hn
    have h0 : q.left t = 0 := by rw [hleft, towards_none hn]; simp [gridDist]
    right
    unfold Ride.collect
    simp only
    split
    · rename_i hz
      refine ⟨{ q with earnings := q.earnings + t.tip, pc := .dead }, rfl, Or.inl rfl, fun h => h, fun _ => hz,
        Or.inr ⟨j, p, t, hj, hd, hp, ht, rfl, rfl, rfl, rfl⟩, same _, ?_, fun g hg => by cases hg⟩
      intro j' p' t' _ hj' hp' ht'
      rw [hj] at hj'; cases hj'
      rw [hp] at hp'; cases hp'
      rw [ht] at ht'; cases ht'
      exact Or.inl ⟨rfl, h0⟩
    · refine ⟨{ q with earnings := q.earnings + t.tip, pc := .wander, next := c.now + 1 }, rfl, Or.inl rfl, fun h => h, (fun h => by cases h),
        Or.inr ⟨j, p, t, hj, hd, hp, ht, rfl, rfl, rfl, rfl⟩, same _, ?_, fun g hg => by cases hg⟩
      intro j' p' t' _ hj' hp' ht'
      rw [hj] at hj'; cases hj'
      rw [hp] at hp'; cases hp'
      rw [ht] at ht'; cases ht'
      exact Or.inl ⟨rfl, h0⟩
  · rename_i x hx
    split
    · rename_i hin
      right
      refine ⟨{ q with pos := x, cell := x, pc := .toDest, next := c.now + 1 }, rfl, Or.inr hin, fun _ => rfl, (fun h => by cases h),
        Or.inl ⟨rfl, rfl, rfl⟩, ⟨j, _, by intro r; exact ⟨rfl, rfl, rfl, Or.inr ⟨rfl, hin, fun x => by rw [hp] at x; cases x; exact hs⟩⟩, rfl⟩, ?_, fun g hg => by cases hg⟩
      intro j' p' t' _ hj' hp' ht'
      rw [hj] at hj'; cases hj'
      rw [hp] at hp'; cases hp'
      rw [ht] at ht'; cases ht'
      refine Or.inr ⟨hj, Or.inr rfl, rfl, ?_⟩
      rw [hleft]
      exact (towards_some hx).1
    · exact Or.inl rfl

theorem Ride.actCab_step {c : Ride} (hok : c.Ok) (i k : Nat) :
    (c.actCab i k).1 = c ∨ ∃ q q', c.cabs[i]? = some q ∧ q.pc ≠ .dead ∧ CabStep c (c.actCab i k).1 i q q' := by
  have same : ∀ q' : Cab, ∃ m f, (∀ r : Rider, (f r).pc = r.pc ∧ (f r).cell = r.cell ∧ (f r).next = r.next ∧
      ((f r).pos = r.pos ∨ ((f r).pos = q'.pos ∧ c.inside q'.pos = true ∧
        (c.riders[m]? = some r → r.pc ≠ .start)))) ∧ c.riders = c.riders.modify m f :=
    fun _ => ⟨0, id, fun _ => ⟨rfl, rfl, rfl, Or.inl rfl⟩, by rw [List.modify_id]⟩
  have lift : ∀ {x : Ride} {q : Cab}, c.cabs[i]? = some q → q.pc ≠ .dead → (x = c ∨ ∃ q', CabStep c x i q q') →
      x = c ∨ ∃ q q', c.cabs[i]? = some q ∧ q.pc ≠ .dead ∧ CabStep c x i q q' := by
    intro x q hq hpc hx
    rcases hx with hx | ⟨q', hx⟩
    · exact Or.inl hx
    · exact Or.inr ⟨q, q', hq, hpc, hx⟩
  have hns : ∀ (j : Nat) p t, c.riders[j]? = some p → p.trip = some t → p.pc ≠ .start := by
    intro j p t hp ht hs
    rw [((hok.rider j p hp).start hs).1] at ht
    cases ht
  unfold Ride.actCab
  split
  · exact Or.inl rfl
  rename_i q hq
  split
  · exact Or.inl rfl
  · rename_i hpc
    have hnd : ¬ q.driving := by unfold Cab.driving; rw [hpc]; simp
    refine lift hq (by rw [hpc]; simp) ?_
    split
    · rename_i h0
      exact Or.inr ⟨{ q with pc := .dead }, rfl, Or.inl rfl, fun x => x, fun _ => h0, Or.inl ⟨rfl, rfl, rfl⟩, same _, fun _ _ _ x => absurd x hnd,
        fun g hg => by cases hg⟩
    · exact c.roam_step i q _ _ _ hnd rfl rfl rfl (fun x hx => by cases hx)
  · rename_i g hpc
    have hnd : ¬ q.driving := by unfold Cab.driving; rw [hpc]; simp
    refine lift hq (by rw [hpc]; simp) ?_
    split
    · exact c.roam_step i q _ _ _ hnd rfl rfl rfl (fun x hx => by cases hx; exact hpc)
    · exact Or.inr ⟨_, rfl, Or.inl rfl, fun x => x, (fun x => by cases x), Or.inl ⟨rfl, rfl, rfl⟩,
        ⟨_, _, by intro r; exact ⟨rfl, rfl, rfl, Or.inl rfl⟩, rfl⟩, fun _ _ _ x => absurd x hnd, fun g hg => by cases hg⟩
  · rename_i a exp hpc
    have hnd : ¬ q.driving := by unfold Cab.driving; rw [hpc]; simp
    refine lift hq (by rw [hpc]; simp) (Or.inr ?_)
    split
    · split
      · exact ⟨_, rfl, Or.inl rfl, fun x => x, (fun x => by cases x), Or.inl ⟨rfl, rfl, rfl⟩, same _, fun _ _ _ x => absurd x hnd,
          fun g hg => by cases hg⟩
      · exact ⟨{ q with next := c.now + 5 }, rfl, Or.inl rfl, fun x => x, (fun x => by simp only [hpc] at x; cases x), Or.inl ⟨rfl, rfl, rfl⟩, same _,
          fun _ _ _ x => absurd x hnd, fun g hg => by simp only [hpc] at hg; cases hg⟩
    · exact ⟨_, rfl, Or.inl rfl, fun x => x, (fun x => by cases x), Or.inl ⟨rfl, rfl, rfl⟩, same _, fun _ _ _ x => absurd x hnd,
        fun g hg => by cases hg⟩
  · rename_i hpc
    refine lift hq (by rw [hpc]; simp) ?_
    split
    · exact Or.inl rfl
    · rename_i j hj
      split
      · exact Or.inl rfl
      · rename_i t ht
        obtain ⟨p, hp, ht⟩ := Option.bind_eq_some_iff.1 ht
        split
        · rename_i x hx
          split
          · rename_i hin
            refine Or.inr ⟨{ q with pos := x, cell := x, next := c.now + 1 }, rfl, Or.inr hin, fun _ => rfl, (fun y => by simp only [hpc] at y; cases y),
              Or.inl ⟨rfl, rfl, rfl⟩, same _, ?_, fun g hg => by simp only [hpc] at hg; cases hg⟩
            intro j' p' t' _ hj' hp' ht'
            rw [hj] at hj'; cases hj'
            rw [hp] at hp'; cases hp'
            rw [ht] at ht'; cases ht'
            refine Or.inr ⟨hj, Or.inl hpc, rfl, ?_⟩
            have := (towards_some hx).1
            simp only [Cab.left, hpc, if_true]
            omega
          · exact Or.inl rfl
        · rename_i hx
          exact c.carry_step i q j p t (Or.inl hpc) hj hp ht (hns j p t hp ht) (fun _ => towards_none hx)
  · rename_i hpc
    refine lift hq (by rw [hpc]; simp) ?_
    split
    · exact Or.inl rfl
    · rename_i j hj
      split
      · exact Or.inl rfl
      · rename_i t ht
        obtain ⟨p, hp, ht⟩ := Option.bind_eq_some_iff.1 ht
        exact c.carry_step i q j p t (Or.inr hpc) hj hp ht (hns j p t hp ht) (fun x => by rw [hpc] at x; cases x)

/-- Invariants of simulations whose events satisfy `E`; the second part: whether an exception can escape. -/
theorem Ride.run_inv (P : Ride → Prop) (E : RideEv → Prop) (htick : ∀ c e t, c.Ok → c.turn e t = true → P c → P { c with now := t })
    (hcab : ∀ c i k q q', c.Ok → c.cabs[i]? = some q → c.now = q.next → q.pc ≠ .dead → CabStep c (c.actCab i k).1 i q q' → (c.actCab i k).1.Ok → P c →
      P (c.actCab i k).1)
    (hrider : ∀ c j d tip, c.Ok → E (.rider j d tip) → (c.actRider j d tip).1.Ok → P c → P (c.actRider j d tip).1) :
    ∀ es c, c.Ok → (∀ e ∈ es, E e) → P c →
      P (Ride.run c es).1 ∧ ((∀ c e, c.Ok → P c → E e → (c.act e).2 = false) → (Ride.run c es).2 = false) := by
  intro es
  induction es with
  | nil => intro c _ _ hP; exact ⟨hP, fun _ => rfl⟩
  | cons e es ih =>
    intro c hc hE hP
    have hE' : ∀ e ∈ es, E e := fun e he => hE e (List.mem_cons_of_mem _ he)
    unfold Ride.run
    split
    · exact ih c hc hE' hP
    · rename_i t _
      split
      · rename_i ht
        have h1 := hc.act e t ht
        have h2 : P (({ c with now := t } : Ride).act e).1 := by
          have hk := hc.tick e t ht
          have hP' := htick c e t hc ht hP
          cases e with
          | cab i k =>
            rcases Ride.actCab_step hk i k with h | ⟨q, q', hq, hne, h⟩
            · show P (Ride.actCab _ i k).1
              rw [h]
              exact hP'
            · refine hcab _ i k q q' hk hq ?_ hne h h1 hP'
              unfold Ride.turn at ht
              simp only [Bool.and_eq_true] at ht
              have hq' : c.cabs[i]? = some q := hq
              have := of_decide_eq_true ht.1.1
              simp only [Ride.due, hq', Option.bind_some, if_neg hne, Option.some.injEq] at this
              exact this.symm
          | rider j d tip => exact hrider _ j d tip hk (hE _ (List.mem_cons_self ..)) h1 hP'
        by_cases hr : (({ c with now := t } : Ride).act e).2 = true
        · simp only [hr, if_true]
          refine ⟨h2, fun hno => ?_⟩
          have := hno _ e (hc.tick e t ht) (htick c e t hc ht hP) (hE _ (List.mem_cons_self ..))
          rw [hr] at this
          cases this
        · simp only [hr]
          exact ih _ h1 hE' h2
      · exact ih c hc hE' hP

theorem set_getElem?_cases {α : Type} {l : List α} {i m : Nat} {a b : α} (h : (l.set i a)[m]? = some b) :
    (i = m ∧ b = a) ∨ (i ≠ m ∧ l[m]? = some b) := by
  rw [List.getElem?_set] at h
  by_cases hi : i = m
  · rw [if_pos hi] at h
    split at h
    · cases h; exact Or.inl ⟨hi, rfl⟩
    · cases h
  · rw [if_neg hi] at h
    exact Or.inr ⟨hi, h⟩

theorem modify_getElem?_cases {l : List Rider} {m j : Nat} {f : Rider → Rider} {p : Rider} (h : (l.modify m f)[j]? = some p) :
    ∃ p0, l[j]? = some p0 ∧ (p = p0 ∨ (m = j ∧ p = f p0)) := by
  rw [getElem?_modify_r] at h
  by_cases hm : m = j
  · rw [if_pos hm] at h
    obtain ⟨p0, h1, h2⟩ := Option.map_eq_some_iff.1 h
    exact ⟨p0, h1, Or.inr ⟨hm, h2.symm⟩⟩
  · rw [if_neg hm] at h
    exact ⟨p, h, Or.inl rfl⟩

/-! ### The money -/

/-- The tip of the journey of passenger `j`. -/
def Ride.tipOf (c : Ride) (j : Nat) : Int := ((c.riders[j]?).bind Rider.trip).elim 0 Trip.tip

/-- The driver of the journey of passenger `j`. -/
def Ride.drivenBy (c : Ride) (j : Nat) : Option Nat := ((c.riders[j]?).bind Rider.trip).bind Trip.driver

/-- The accounts, for the journeys that are paid. -/
structure Ride.Money (c : Ride) : Prop where
  each : ∀ (i : Nat) q, c.cabs[i]? = some q → q.earnings = ((c.paid.filter (fun j => decide (c.drivenBy j = some i))).map c.tipOf).sum
  total : c.total = (c.paid.map c.tipOf).sum
  sum : c.total = (c.cabs.map Cab.earnings).sum

theorem Ride.Ok.paid_keep {c c' : Ride} (h : c.Ok) (hk : c.Keeps c') {j : Nat} (hj : j ∈ c.paid) :
    c'.tipOf j = c.tipOf j ∧ c'.drivenBy j = c.drivenBy j := by
  obtain ⟨p, t, hp, ht, hd, _⟩ := h.paid j hj
  obtain ⟨p', t', hp', ht', _, _, a3, a4⟩ := hk j p t hp ht
  simp only [Ride.tipOf, Ride.drivenBy, hp, hp', Option.bind_some, ht, ht', Option.elim]
  rcases a4 with a4 | a4
  · exact ⟨a3, a4⟩
  · exact absurd a4 hd

theorem sum_set_earn (l : List Cab) (i : Nat) (q q' : Cab) (h : l[i]? = some q) :
    ((l.set i q').map Cab.earnings).sum = (l.map Cab.earnings).sum - q.earnings + q'.earnings := by
  induction l generalizing i with
  | nil => cases h
  | cons a l ih =>
    cases i with
    | zero =>
      simp only [List.getElem?_cons_zero, Option.some.injEq] at h
      subst h
      simp only [List.set_cons_zero, List.map_cons, List.sum_cons]
      omega
    | succ i =>
      rw [List.getElem?_cons_succ] at h
      simp only [List.set_cons_succ, List.map_cons, List.sum_cons, ih i h]
      omega

theorem Ride.Money.same {c c' : Ride} (hok : c.Ok) (h : c.Money) (hk : c.Keeps c') (hp : c'.paid = c.paid) (ht : c'.total = c.total)
    (hc : ∀ (i : Nat) q', c'.cabs[i]? = some q' → ∃ q, c.cabs[i]? = some q ∧ q'.earnings = q.earnings)
    (hs : (c'.cabs.map Cab.earnings).sum = (c.cabs.map Cab.earnings).sum) : c'.Money := by
  refine ⟨?_, ?_, by rw [ht, hs]; exact h.sum⟩
  · intro i q' hq'
    obtain ⟨q, hq, he⟩ := hc i q' hq'
    rw [he, h.each i q hq, hp]
    have h1 : c.paid.filter (fun j => decide (c'.drivenBy j = some i)) = c.paid.filter (fun j => decide (c.drivenBy j = some i)) :=
      List.filter_congr (fun j hj => by rw [(hok.paid_keep hk hj).2])
    rw [h1]
    congr 1
    refine List.map_congr_left (fun j hj => ((hok.paid_keep hk (List.mem_filter.1 hj).1).1).symm)
  · rw [ht, hp, h.total]
    congr 1
    exact List.map_congr_left (fun j hj => (hok.paid_keep hk hj).1.symm)

theorem Ride.run_money (w h : Nat) (cs rs : List GridCell) (es : List RideEv) : (Ride.run (Ride.init w h cs rs) es).1.Money := by
  refine (Ride.run_inv Ride.Money (fun _ => True) ?_ ?_ ?_ es _ (Ride.init_ok w h cs rs) (fun _ _ => trivial) ?_).1
  · intro c e t _ _ hm
    exact ⟨hm.each, hm.total, hm.sum⟩
  · intro c i k q q' hok hq _ _ hst _ hm
    have hk := Ride.actCab_keeps c i k
    rcases hst.money with ⟨h1, h2, h3⟩ | ⟨j, p, t, hj, hdr, hp, ht, hr, h1, h2, h3⟩
    · refine hm.same hok hk h1 h2 ?_ ?_
      · intro m q1 hq1
        rw [hst.cabs] at hq1
        rcases set_getElem?_cases hq1 with ⟨rfl, rfl⟩ | ⟨_, hq1⟩
        · exact ⟨q, hq, h3⟩
        · exact ⟨q1, hq1, rfl⟩
      · rw [hst.cabs, sum_set_earn _ _ _ _ hq, h3]
        omega
    · obtain ⟨p1, hp1, t1, ht1, hd1, _⟩ := (hok.cab i q hq).busy j hj
      rw [hp] at hp1; cases hp1
      rw [ht] at ht1; cases ht1
      have htip : (c.actCab i k).1.tipOf = c.tipOf := by funext m; simp only [Ride.tipOf, hr]
      have hdrv : (c.actCab i k).1.drivenBy = c.drivenBy := by funext m; simp only [Ride.drivenBy, hr]
      have htj : c.tipOf j = t.tip := by simp [Ride.tipOf, hp, ht]
      have hdj : c.drivenBy j = some i := by simp [Ride.drivenBy, hp, ht, hd1]
      refine ⟨?_, ?_, ?_⟩
      · intro m q1 hq1
        rw [h1, htip, hdrv, List.filter_append, List.map_append, List.sum_append]
        rw [hst.cabs] at hq1
        rcases set_getElem?_cases hq1 with ⟨rfl, rfl⟩ | ⟨hne, hq1⟩
        · rw [h3, hm.each i q hq]
          simp [hdj, htj]
        · rw [hm.each m q1 hq1]
          simp [hdj, hne]
      · rw [h1, h2, htip, hm.total, List.map_append, List.sum_append]
        simp [htj]
      · rw [h2, hst.cabs, sum_set_earn _ _ _ _ hq, h3, hm.sum]
        omega
  · intro c j d tip hok _ _ hm
    obtain ⟨⟨f, hf⟩, _, _, _, _, h1, h2⟩ := c.actRider_frame j d tip
    refine hm.same hok (Ride.actRider_keeps hok j d tip) h1 h2 ?_ ?_
    · intro i q' hq'
      rw [hf, List.getElem?_map] at hq'
      obtain ⟨q, hq, rfl⟩ := Option.map_eq_some_iff.1 hq'
      exact ⟨q, hq, rfl⟩
    · rw [hf, List.map_map]
      rfl
  · refine ⟨?_, rfl, ?_⟩
    · intro i q hq
      simp only [Ride.init, List.getElem?_map] at hq
      obtain ⟨x, _, rfl⟩ := Option.map_eq_some_iff.1 hq
      rfl
    · simp only [Ride.init, List.map_map]
      induction cs with
      | nil => rfl
      | cons a l ih => simpa using ih

/-- C153: at any time there is a list of journeys, none twice, all of which have ended at their destination, such that every driver has
earned the tips of its own journeys among them, and `total_earnings` is the sum of their tips and of what the drivers earned; every other
journey that has a driver is still the current journey of that driver. -/
theorem C153_earnings (w h : Nat) (cs rs : List GridCell) (es : List RideEv) (c : Ride) (hc : c = (Ride.run (Ride.init w h cs rs) es).1) :
    ∃ L : List Nat, L.Nodup ∧
      (∀ j ∈ L, ∃ p t, c.riders[j]? = some p ∧ p.trip = some t ∧ p.pos = t.dest ∧ p.journey = some j) ∧
      (∀ (i : Nat) q, c.cabs[i]? = some q → q.earnings = ((L.filter (fun j => decide (c.drivenBy j = some i))).map c.tipOf).sum) ∧
      c.total = (L.map c.tipOf).sum ∧ c.total = (c.cabs.map Cab.earnings).sum ∧
      (∀ j i, c.drivenBy j = some i → j ∉ L → ∃ q, c.cabs[i]? = some q ∧ q.journey = some j ∧ q.pc ≠ .wander ∧ q.pc ≠ .dead) := by
  have hok : c.Ok := by rw [hc]; exact Ride.run_ok w h cs rs es
  have hm : c.Money := by rw [hc]; exact Ride.run_money w h cs rs es
  refine ⟨c.paid, hok.nodup, ?_, hm.each, hm.total, hm.sum, ?_⟩
  · intro j hj
    obtain ⟨p, t, hp, ht, _, hpos, hr⟩ := hok.paid j hj
    exact ⟨p, t, hp, ht, hpos, hr.1⟩
  · intro j i hd hj
    unfold Ride.drivenBy at hd
    obtain ⟨t, ht, hd⟩ := Option.bind_eq_some_iff.1 hd
    obtain ⟨p, hp, ht⟩ := Option.bind_eq_some_iff.1 ht
    have hs : p.pc ≠ .start := by
      intro hs
      rw [((hok.rider j p hp).start hs).1] at ht
      cases ht
    obtain ⟨t', ht', _, h2, _⟩ := (hok.rider j p hp).trip hs
    rw [ht] at ht'; cases ht'
    rcases h2 i hd with h2 | ⟨q, hq, hqj⟩
    · exact absurd h2 hj
    · refine ⟨q, hq, hqj, ?_, ?_⟩
      all_goals
        intro hpc
        obtain ⟨p', hp', t', ht', _, hl⟩ := (hok.cab i q hq).busy j hqj
        rw [hpc] at hl
        exact hj hl

/-! ### Driving -/

/-- C155: `move_towards` goes one cell, along one axis, one step closer to the target, without leaving the rectangle between the two; it
stops exactly at the target. -/
theorem C155_step (p t : GridCell) :
    (towards p t = none ↔ p = t) ∧
    ∀ x, towards p t = some x → gridDist p x = 1 ∧ gridDist x t + 1 = gridDist p t ∧
      min p.1 t.1 ≤ x.1 ∧ x.1 ≤ max p.1 t.1 ∧ min p.2 t.2 ≤ x.2 ∧ x.2 ≤ max p.2 t.2 := by
  refine ⟨⟨towards_none, fun h => ?_⟩, fun x hx => ?_⟩
  · subst h
    simp [towards]
  · have := towards_some hx
    exact ⟨this.2.1, this.1, this.2.2⟩

theorem Ride.Keeps.left {c c' : Ride} (hk : c.Keeps c') {j : Nat} {p : Rider} {t : Trip} (hp : c.riders[j]? = some p) (ht : p.trip = some t) :
    ∃ p' t', c'.riders[j]? = some p' ∧ p'.trip = some t' ∧ t'.dest = t.dest ∧ ∀ q : Cab, q.left t' = q.left t := by
  obtain ⟨p', t', hp', ht', a1, a2, _⟩ := hk j p t hp ht
  exact ⟨p', t', hp', ht', a2, fun q => by simp only [Cab.left, a1, a2]⟩

/-- C155: a driver on its way delivers its passenger in exactly the time it takes to drive there: once the time is later than that of its
next step plus the number of steps that are left, the passenger is at its destination and the driver has been paid. -/
theorem C155_delivery (w h : Nat) (cs rs : List GridCell) (es es' : List RideEv) (c c' : Ride) (hc : c = (Ride.run (Ride.init w h cs rs) es).1)
    (hc' : c' = (c.run es').1) (i j : Nat) (q : Cab) (p : Rider) (t : Trip) (hq : c.cabs[i]? = some q) (hd : q.driving)
    (hj : q.journey = some j) (hp : c.riders[j]? = some p) (ht : p.trip = some t) (hnow : q.next + q.left t < c'.now) :
    j ∈ c'.paid ∧ ∃ p', c'.riders[j]? = some p' ∧ p'.pos = t.dest := by
  have hok : c.Ok := by rw [hc]; exact Ride.run_ok w h cs rs es
  have hok' : c'.Ok := by rw [hc']; exact Ride.run_induct Ride.Ok (fun _ e t hc ht => hc.act e t ht) es' _ hok
  have hk : c.Keeps c' := by rw [hc']; exact Ride.run_keeps hok es'
  have hinv : j ∈ c'.paid ∨ ∃ q1 p1 t1, c'.cabs[i]? = some q1 ∧ q1.driving ∧ q1.journey = some j ∧ c'.riders[j]? = some p1 ∧
      p1.trip = some t1 ∧ q1.next + q1.left t1 = q.next + q.left t := by
    rw [hc']
    refine (Ride.run_inv (fun c => j ∈ c.paid ∨ ∃ q1 p1 t1, c.cabs[i]? = some q1 ∧ q1.driving ∧ q1.journey = some j ∧
      c.riders[j]? = some p1 ∧ p1.trip = some t1 ∧ q1.next + q1.left t1 = q.next + q.left t) (fun _ => True) ?_ ?_ ?_ es' c hok
      (fun _ _ => trivial) ?_).1
    · intro c e t _ _ hI
      exact hI
    · intro c m k q0 q0' hok hq0 hn _ hst _ hI
      have hmono : ∀ x ∈ c.paid, x ∈ (c.actCab m k).1.paid := by
        intro x hx
        rcases hst.money with ⟨h1, _⟩ | ⟨_, _, _, _, _, _, _, _, h1, _⟩
        · rw [h1]; exact hx
        · rw [h1]; exact List.mem_append_left _ hx
      rcases hI with hI | ⟨q1, p1, t1, hq1, hd1, hj1, hp1, ht1, hT⟩
      · exact Or.inl (hmono _ hI)
      · obtain ⟨p2, t2, hp2, ht2, _, hl⟩ := (Ride.actCab_keeps c m k).left hp1 ht1
        by_cases hm : m = i
        · subst hm
          rw [hq0] at hq1
          cases hq1
          have hlt := (List.getElem?_eq_some_iff.1 hq0).1
          rcases hst.drive j p1 t1 hd1 hj1 hp1 ht1 with ⟨h1, _⟩ | ⟨h1, h2, h3, h4⟩
          · left
            rw [h1]
            simp
          · right
            refine ⟨q0', p2, t2, ?_, h2, h1, hp2, ht2, ?_⟩
            · rw [hst.cabs, List.getElem?_set]
              simp [hlt]
            · rw [hl]
              omega
        · right
          refine ⟨q1, p2, t2, ?_, hd1, hj1, hp2, ht2, by rw [hl]; exact hT⟩
          rw [hst.cabs, List.getElem?_set_ne hm]
          exact hq1
    · intro c m d tip hok _ _ hI
      obtain ⟨⟨f, hf⟩, _, _, _, _, h1, _⟩ := c.actRider_frame m d tip
      rcases hI with hI | ⟨q1, p1, t1, hq1, hd1, hj1, hp1, ht1, hT⟩
      · left
        rw [h1]
        exact hI
      · obtain ⟨p2, t2, hp2, ht2, _, hl⟩ := (Ride.actRider_keeps hok m d tip).left hp1 ht1
        right
        refine ⟨{ q1 with inbox := f q1 }, p2, t2, ?_, hd1, hj1, hp2, ht2, ?_⟩
        · rw [hf, List.getElem?_map, hq1]
          rfl
        · rw [hl]
          exact hT
    · exact Or.inr ⟨q, p, t, hq, hd, hj, hp, ht, rfl⟩
  have hpaid : j ∈ c'.paid := by
    rcases hinv with hinv | ⟨q1, p1, t1, hq1, hd1, hj1, hp1, ht1, hT⟩
    · exact hinv
    · have := (hok'.cab i q1 hq1).next (by rcases hd1 with hd1 | hd1 <;> rw [hd1] <;> simp)
      omega
  refine ⟨hpaid, ?_⟩
  obtain ⟨p1, t1, hp1, ht1, _, hpos, _⟩ := hok'.paid j hpaid
  obtain ⟨p2, t2, hp2, ht2, hdest, _⟩ := hk.left hp ht
  rw [hp1] at hp2; cases hp2
  rw [ht1] at ht2; cases ht2
  exact ⟨p1, hp1, by rw [hpos, hdest]⟩

/-- C156: where a passenger is: at the origin of its journey until its driver has got there, then where its driver is, and at its
destination when its driver has finished or it has stopped. -/
theorem C156_positions (w h : Nat) (cs rs : List GridCell) (es : List RideEv) (c : Ride) (hc : c = (Ride.run (Ride.init w h cs rs) es).1)
    (j : Nat) (p : Rider) (t : Trip) (hp : c.riders[j]? = some p) (ht : p.trip = some t) :
    (t.driver = none → p.pos = t.origin) ∧ (p.pc = .dead → p.pos = t.dest) ∧
    ∀ i q, t.driver = some i → c.cabs[i]? = some q →
      if q.journey ≠ some j ∨ q.pc = .wander ∨ q.pc = .dead then p.pos = t.dest
      else if q.pc = .toDest then p.pos = q.pos else p.pos = t.origin := by
  have hok : c.Ok := by rw [hc]; exact Ride.run_ok w h cs rs es
  have hs : p.pc ≠ .start := by
    intro hs
    rw [((hok.rider j p hp).start hs).1] at ht
    cases ht
  obtain ⟨t', ht', h1, h2, h3⟩ := (hok.rider j p hp).trip hs
  rw [ht] at ht'; cases ht'
  have hpd : j ∈ c.paid → p.pos = t.dest := by
    intro hj
    obtain ⟨p1, t1, hp1, ht1, _, hpos, _⟩ := hok.paid j hj
    rw [hp] at hp1; cases hp1
    rw [ht] at ht1; cases ht1
    exact hpos
  refine ⟨fun hd => (h1 hd).2.2, h3, ?_⟩
  intro i q hd hq
  by_cases hqj : q.journey = some j
  · obtain ⟨p1, hp1, t1, ht1, _, hl⟩ := (hok.cab i q hq).busy j hqj
    rw [hp] at hp1; cases hp1
    rw [ht] at ht1; cases ht1
    cases hpc : q.pc <;> rw [hpc] at hl <;> simp only [hqj, ne_eq, not_true_eq_false, false_or, reduceCtorEq, or_self, or_false, or_true, if_true, if_false]
    · exact hpd hl
    · exact hl.2.2.2
    · exact hl.2.1
    · exact hl.2.1
    · exact hl.2.1
    · exact hpd hl
  · rw [if_pos (Or.inl hqj)]
    rcases h2 i hd with h2 | ⟨q', hq', hj'⟩
    · exact hpd h2
    · rw [hq] at hq'; cases hq'
      exact absurd hj' hqj

/-! ### The grid -/

/-- A cell of a grid of the given size. -/
def InGrid (w h : Nat) (p : GridCell) : Prop := 0 ≤ p.1 ∧ p.1 < w ∧ 0 ≤ p.2 ∧ p.2 < h

instance (w h : Nat) (p : GridCell) : Decidable (InGrid w h p) := inferInstanceAs (Decidable (_ ∧ _))

theorem Ride.inside_iff (c : Ride) (p : GridCell) : c.inside p = true ↔ InGrid c.width c.height p := by
  unfold Ride.inside InGrid
  rw [decide_eq_true_iff]

/-- Everybody is in the grid; the grid has the drivers where they are, and the passengers where they were. -/
structure Ride.Geo (w h : Nat) (rs : List GridCell) (c : Ride) : Prop where
  width : c.width = w
  height : c.height = h
  cab : ∀ (i : Nat) q, c.cabs[i]? = some q → InGrid w h q.pos ∧ q.cell = q.pos
  rider : ∀ (j : Nat) p, c.riders[j]? = some p → InGrid w h p.pos ∧ rs[j]? = some p.cell ∧ (p.pc = .start → p.pos = p.cell) ∧
    ∀ t, p.trip = some t → t.origin = p.cell

theorem Ride.actRider_start {c : Ride} (hok : c.Ok) {j : Nat} {d : GridCell} {tip : Int} {p p' : Rider} (hp : c.riders[j]? = some p)
    (h : (c.actRider j d tip).1.riders[j]? = some p') : p'.pc = .start → p' = p := by
  intro hs
  have hlt := (List.getElem?_eq_some_iff.1 hp).1
  have setj : ∀ x : Rider, (c.riders.set j x)[j]? = some x := fun x => by rw [List.getElem?_set]; simp [hlt]
  have hw : ∀ (c1 : Ride) (p1 : Rider), c1.riders.length = c.riders.length → (c1.homeward j p1).1.riders[j]? = some p' →
      (c1.homeward j p1).1.riders = c1.riders := by
    intro c1 p1 hl h1
    unfold Ride.homeward at h1 ⊢
    split
    · rfl
    · exfalso
      rename_i t ht
      rw [ht] at h1
      have set1 : ∀ x : Rider, (c1.riders.set j x)[j]? = some x := fun x => by rw [List.getElem?_set]; simp [hl, hlt]
      simp only at h1
      split at h1
      · simp only [set1, Option.some.injEq] at h1
        rw [← h1] at hs
        cases hs
      · simp only [set1, Option.some.injEq] at h1
        rw [← h1] at hs
        cases hs
  have aw : ∀ (c1 : Ride) (p1 : Rider) e, c1.riders.length = c.riders.length → (c1.await j p1 e).riders[j]? = some p' → False := by
    intro c1 p1 e hl h1
    have set1 : ∀ x : Rider, (c1.riders.set j x)[j]? = some x := fun x => by rw [List.getElem?_set]; simp [hl, hlt]
    unfold Ride.await at h1
    simp only at h1
    split at h1
    · simp only [set1, Option.some.injEq] at h1
      rw [← h1] at hs
      cases hs
    · simp only [set1, Option.some.injEq] at h1
      rw [← h1] at hs
      cases hs
  unfold Ride.actRider at h
  rw [hp] at h
  simp only at h
  split at h
  · rw [hp] at h; cases h; rfl
  · exact (aw _ _ _ (by simp [Ride.announce]) h).elim
  · split at h
    · exact (aw _ _ _ rfl h).elim
    · exact (aw _ _ _ (by simp [Ride.announce]) h).elim
  · have := hw _ _ rfl h
    rw [this, hp] at h
    cases h; rfl
  · rename_i e hpc
    split at h
    · split at h
      · simp only [setj, Option.some.injEq] at h
        rw [← h] at hs
        simp only [hpc] at hs
        cases hs
      · have := hw _ _ (by simp) h
        rw [this] at h
        simp only [setj, Option.some.injEq] at h
        rw [← h] at hs
        simp only [hpc] at hs
        cases hs
    · have := hw _ _ rfl h
      rw [this, hp] at h
      cases h; rfl

theorem Ride.init_geo (w h : Nat) (cs rs : List GridCell) (hcs : ∀ x ∈ cs, InGrid w h x) (hrs : ∀ x ∈ rs, InGrid w h x) :
    (Ride.init w h cs rs).Geo w h rs := by
  refine ⟨rfl, rfl, ?_, ?_⟩
  · intro i q hq
    simp only [Ride.init, List.getElem?_map] at hq
    obtain ⟨x, hx, rfl⟩ := Option.map_eq_some_iff.1 hq
    exact ⟨hcs x (List.mem_of_getElem? hx), rfl⟩
  · intro j p hp
    simp only [Ride.init, List.getElem?_map] at hp
    obtain ⟨x, hx, rfl⟩ := Option.map_eq_some_iff.1 hp
    exact ⟨hrs x (List.mem_of_getElem? hx), hx, fun _ => rfl, fun t ht => by cases ht⟩

theorem Ride.Ok.not_start {c : Ride} (h : c.Ok) {j : Nat} {p : Rider} {t : Trip} (hp : c.riders[j]? = some p) (ht : p.trip = some t) :
    p.pc ≠ .start := by
  intro hs
  rw [((h.rider j p hp).start hs).1] at ht
  cases ht

theorem Ride.Geo.actCab {w h : Nat} {rs : List GridCell} {c : Ride} {i k : Nat} {q q' : Cab} (hok : c.Ok) (hq : c.cabs[i]? = some q)
    (hst : CabStep c (c.actCab i k).1 i q q') (hok' : (c.actCab i k).1.Ok) (hg : c.Geo w h rs) : (c.actCab i k).1.Geo w h rs := by
  obtain ⟨_, _, _, hw, hh⟩ := c.actCab_frame i k
  refine ⟨hw.trans hg.width, hh.trans hg.height, ?_, ?_⟩
  · intro m q1 hq1
    rw [hst.cabs] at hq1
    rcases set_getElem?_cases hq1 with ⟨rfl, rfl⟩ | ⟨_, hq1⟩
    · refine ⟨?_, hst.cell (hg.cab i q hq).2⟩
      rcases hst.pos with hp | hp
      · rw [hp]; exact (hg.cab i q hq).1
      · have := (c.inside_iff _).1 hp
        rw [hg.width, hg.height] at this
        exact this
    · exact hg.cab m q1 hq1
  · intro j p hp
    obtain ⟨m, f, hf, hr⟩ := hst.riders
    have hpm := hp
    rw [hr] at hpm
    obtain ⟨p0, hp0, hcase⟩ := modify_getElem?_cases hpm
    obtain ⟨g1, g2, g3, g4⟩ := hg.rider j p0 hp0
    have key : p.pc = p0.pc ∧ p.cell = p0.cell ∧ (p.pos = p0.pos ∨ (InGrid w h p.pos ∧ p0.pc ≠ .start)) := by
      rcases hcase with rfl | ⟨rfl, rfl⟩
      · exact ⟨rfl, rfl, Or.inl rfl⟩
      · obtain ⟨a1, a2, _, a3⟩ := hf p0
        refine ⟨a1, a2, ?_⟩
        rcases a3 with a3 | ⟨a3, a4, a5⟩
        · exact Or.inl a3
        · right
          refine ⟨?_, a5 hp0⟩
          have := (c.inside_iff _).1 a4
          rw [hg.width, hg.height, ← a3] at this
          exact this
    obtain ⟨k1, k2, k3⟩ := key
    refine ⟨?_, by rw [k2]; exact g2, ?_, ?_⟩
    · rcases k3 with k3 | k3
      · rw [k3]; exact g1
      · exact k3.1
    · intro hs
      rw [k1] at hs
      rcases k3 with k3 | k3
      · rw [k3, k2]; exact g3 hs
      · exact absurd hs k3.2
    · intro t ht
      have hs := hok'.not_start hp ht
      rw [k1] at hs
      obtain ⟨t0, ht0, _⟩ := (hok.rider j p0 hp0).trip hs
      obtain ⟨p1, t1, hp1, ht1, ho, _⟩ := Ride.actCab_keeps c i k j p0 t0 hp0 ht0
      rw [hp] at hp1; cases hp1
      rw [ht] at ht1; cases ht1
      rw [ho, k2]
      exact g4 t0 ht0

theorem Ride.Geo.actRider {w h : Nat} {rs : List GridCell} {c : Ride} {j : Nat} {d : GridCell} {tip : Int} (hok : c.Ok)
    (hg : c.Geo w h rs) : (c.actRider j d tip).1.Geo w h rs := by
  obtain ⟨⟨f, hf⟩, hr, _, hw, hh, _⟩ := c.actRider_frame j d tip
  refine ⟨hw.trans hg.width, hh.trans hg.height, ?_, ?_⟩
  · intro i q' hq'
    rw [hf, List.getElem?_map] at hq'
    obtain ⟨q, hq, rfl⟩ := Option.map_eq_some_iff.1 hq'
    exact hg.cab i q hq
  · intro m p1 hp1
    rcases hr with hr | ⟨p, p', hp, hr, h1, h2, h3, h4⟩
    · rw [hr] at hp1
      exact hg.rider m p1 hp1
    · have hp1' := hp1
      rw [hr] at hp1'
      rcases set_getElem?_cases hp1' with ⟨rfl, rfl⟩ | ⟨_, hp1'⟩
      · obtain ⟨g1, g2, g3, g4⟩ := hg.rider j p hp
        refine ⟨by rw [h1]; exact g1, by rw [h2]; exact g2, ?_, ?_⟩
        · intro hs
          have := Ride.actRider_start hok hp hp1 hs
          subst this
          exact g3 hs
        · intro t ht
          rcases h4 with h4 | h4
          · rw [h4] at ht
            rw [h2]
            exact g4 t ht
          · by_cases hs : p.pc = .start
            · rw [h4] at ht
              cases ht
              rw [h2]
              exact g3 hs
            · obtain ⟨t0, ht0, _⟩ := (hok.rider j p hp).trip hs
              obtain ⟨p2, t2, hp2, ht2, ho, _⟩ := Ride.actRider_keeps hok j d tip j p t0 hp ht0
              rw [hp1] at hp2; cases hp2
              rw [ht] at ht2; cases ht2
              rw [ho, h2]
              exact g4 t0 ht0
      · exact hg.rider m p1 hp1'

theorem Ride.run_geo (w h : Nat) (cs rs : List GridCell) (es : List RideEv) (hcs : ∀ x ∈ cs, InGrid w h x) (hrs : ∀ x ∈ rs, InGrid w h x) :
    (Ride.run (Ride.init w h cs rs) es).1.Geo w h rs := by
  refine (Ride.run_inv (Ride.Geo w h rs) (fun _ => True) ?_ ?_ ?_ es _ (Ride.init_ok w h cs rs) (fun _ _ => trivial)
    (Ride.init_geo w h cs rs hcs hrs)).1
  · intro c e t _ _ hg
    exact ⟨hg.width, hg.height, hg.cab, hg.rider⟩
  · intro c i k q q' hok hq _ _ hst hok' hg
    exact hg.actCab hok hq hst hok'
  · intro c j d tip hok _ _ hg
    exact hg.actRider hok

/-- C157 is false on every grid that is not square: among the destinations that `asking` may draw (first coordinate below the height, second
below the width) there is one outside of the grid, and a passenger that drew it never gets there and its driver is never paid. -/
theorem C157_reachable_false (w h : Nat) (hw : 0 < w) (hh : 0 < h) (hne : w ≠ h) :
    ∃ d : GridCell, (0 ≤ d.1 ∧ d.1 < h ∧ 0 ≤ d.2 ∧ d.2 < w) ∧ ∀ (cs rs : List GridCell) (es : List RideEv),
      (∀ x ∈ cs, InGrid w h x) → (∀ x ∈ rs, InGrid w h x) →
      ∀ (j : Nat) p t, (Ride.run (Ride.init w h cs rs) es).1.riders[j]? = some p → p.trip = some t → t.dest = d →
        p.pos ≠ d ∧ p.pc ≠ .dead ∧ j ∉ (Ride.run (Ride.init w h cs rs) es).1.paid := by
  refine ⟨((h : Int) - 1, (w : Int) - 1), by simp only; omega, ?_⟩
  intro cs rs es hcs hrs j p t hp ht hd
  have hok := Ride.run_ok w h cs rs es
  have hg := ((Ride.run_geo w h cs rs es hcs hrs).rider j p hp).1
  have hpos : p.pos ≠ ((h : Int) - 1, (w : Int) - 1) := by
    intro hx
    rw [hx] at hg
    unfold InGrid at hg
    simp only at hg
    omega
  refine ⟨hpos, ?_, ?_⟩
  · intro hdead
    obtain ⟨t', ht', _, _, h3⟩ := (hok.rider j p hp).trip (by rw [hdead]; simp)
    rw [ht] at ht'; cases ht'
    exact hpos (by rw [h3 hdead, hd])
  · intro hj
    obtain ⟨p1, t1, hp1, ht1, _, hpos', _⟩ := hok.paid j hj
    rw [hp] at hp1; cases hp1
    rw [ht] at ht1; cases ht1
    exact hpos (by rw [hpos', hd])

/-- The targets of wandering drivers and the destinations are in the grid. -/
structure Ride.Aims (w h : Nat) (c : Ride) : Prop where
  cab : ∀ (i : Nat) q g, c.cabs[i]? = some q → q.pc = .loop g → InGrid w h g
  rider : ∀ (j : Nat) p t, c.riders[j]? = some p → p.trip = some t → InGrid w h t.origin ∧ InGrid w h t.dest

theorem towards_inGrid {w h : Nat} {p t x : GridCell} (hp : InGrid w h p) (ht : InGrid w h t) (hx : towards p t = some x) : InGrid w h x := by
  have := towards_some hx
  unfold InGrid at *
  omega

theorem Ride.around_ne {c : Ride} {p : GridCell} (hp : InGrid c.width c.height p) (h2 : 2 ≤ c.width ∨ 2 ≤ c.height) : c.around p ≠ [] := by
  intro h0
  unfold Ride.around at h0
  rw [List.filter_eq_nil_iff] at h0
  have h1 := h0 (p.1 - 1, p.2) (by simp)
  have h3 := h0 (p.1, p.2 - 1) (by simp)
  have h4 := h0 (p.1, p.2 + 1) (by simp)
  have h5 := h0 (p.1 + 1, p.2) (by simp)
  rw [Ride.inside_iff] at h1 h3 h4 h5
  unfold InGrid at *
  simp only at *
  omega

theorem Ride.roam_ok {w h : Nat} {c : Ride} {i k : Nat} {q : Cab} {g : Option GridCell} (hw : c.width = w) (hh : c.height = h)
    (h2 : 2 ≤ w ∨ 2 ≤ h) (hq : InGrid w h q.pos) (hg : ∀ x, g = some x → InGrid w h x) : (c.roam i q g k).2 = false := by
  unfold Ride.roam
  split
  · rename_i p hp
    rw [if_pos]
    obtain ⟨x, hx, hp⟩ := Option.bind_eq_some_iff.1 hp
    rw [Ride.inside_iff, hw, hh]
    exact towards_inGrid hq (hg x hx) hp
  · have hne : c.around q.pos ≠ [] := Ride.around_ne (by rw [hw, hh]; exact hq) (by rw [hw, hh]; exact h2)
    have hlt := Nat.mod_lt k (List.length_pos_of_ne_nil hne)
    rw [List.getElem?_eq_getElem hlt]

theorem Ride.act_safe {w h : Nat} {rs : List GridCell} {c : Ride} (hok : c.Ok) (hg : c.Geo w h rs) (ha : c.Aims w h) (h2 : 2 ≤ w ∨ 2 ≤ h)
    (e : RideEv) : (c.act e).2 = false := by
  have carry : ∀ i q j t, InGrid w h q.pos → InGrid w h t.dest → (c.carry i q j t).2 = false := by
    intro i q j t hq ht
    unfold Ride.carry
    split
    · rfl
    · rename_i x hx
      rw [if_pos]
      rw [Ride.inside_iff, hg.width, hg.height]
      exact towards_inGrid hq ht hx
  have hw : ∀ (c1 : Ride) j p t g, p.journey = some g → (c1.riders[g]?).bind Rider.trip = some t → (c1.homeward j p).2 = false := by
    intro c1 j p t g hj ht
    unfold Ride.homeward
    simp only [hj, Option.bind_some, ht]
    split <;> rfl
  cases e with
  | cab i k =>
    unfold Ride.act Ride.actCab
    simp only
    cases hq : c.cabs[i]? with
    | none => rfl
    | some q =>
      have gq := (hg.cab i q hq).1
      have hc := hok.cab i q hq
      simp only
      cases hpc : q.pc with
      | dead => rfl
      | wander =>
        simp only
        split
        · rfl
        · exact Ride.roam_ok hg.width hg.height h2 gq (fun x hx => by cases hx)
      | loop g =>
        simp only
        split
        · exact Ride.roam_ok hg.width hg.height h2 gq (fun x hx => by cases hx; exact ha.cab i q _ hq hpc)
        · rfl
      | ask a exp =>
        simp only
        split
        · split <;> rfl
        · rfl
      | toOrigin =>
        simp only
        cases hj : q.journey with
        | none => rcases hc.idle hj with hx | ⟨t, hx⟩ | hx <;> rw [hpc] at hx <;> cases hx
        | some j =>
          obtain ⟨p, hp, t, ht, _⟩ := hc.busy j hj
          obtain ⟨a1, a2⟩ := ha.rider j p t hp ht
          simp only [hp, Option.bind_some, ht]
          split
          · rename_i x hx
            rw [if_pos]
            rw [Ride.inside_iff, hg.width, hg.height]
            exact towards_inGrid gq a1 hx
          · exact carry i q j t gq a2
      | toDest =>
        simp only
        cases hj : q.journey with
        | none => rcases hc.idle hj with hx | ⟨t, hx⟩ | hx <;> rw [hpc] at hx <;> cases hx
        | some j =>
          obtain ⟨p, hp, t, ht, _⟩ := hc.busy j hj
          obtain ⟨a1, a2⟩ := ha.rider j p t hp ht
          simp only [hp, Option.bind_some, ht]
          exact carry i q j t gq a2
  | rider j d tip =>
    unfold Ride.act Ride.actRider
    simp only
    cases hp : c.riders[j]? with
    | none => rfl
    | some p =>
      simp only
      have riding : p.pc ≠ .start → ¬ p.Waiting → ∃ t, p.Riding j ∧ p.trip = some t := by
        intro hs hnw
        obtain ⟨t, ht, _⟩ := (hok.rider j p hp).trip hs
        rcases hok.phase hp hs with hx | hx
        · exact absurd hx hnw
        · exact ⟨t, hx, ht⟩
      cases hpc : p.pc with
      | dead => rfl
      | start => rfl
      | wait e =>
        simp only
        split <;> rfl
      | home =>
        simp only
        obtain ⟨t, hr, ht⟩ := riding (by rw [hpc]; simp) (by rintro ⟨⟨e, he⟩, _⟩; rw [hpc] at he; cases he)
        exact hw c j p t j hr.1 (by rw [hp]; exact ht)
      | ride e =>
        obtain ⟨t, hr, ht⟩ := riding (by rw [hpc]; simp) (by rintro ⟨⟨e, he⟩, _⟩; rw [hpc] at he; cases he)
        simp only
        rw [if_pos hr.2.1]
        split
        · rfl
        · exact hw c j p t j hr.1 (by rw [hp]; exact ht)

theorem Ride.Aims.actCab {w h : Nat} {c : Ride} {i k : Nat} {q q' : Cab} (hw : c.width = w) (hh : c.height = h) (hok : c.Ok) (hq : c.cabs[i]? = some q)
    (hst : CabStep c (c.actCab i k).1 i q q') (hok' : (c.actCab i k).1.Ok) (ha : c.Aims w h) : (c.actCab i k).1.Aims w h := by
  refine ⟨?_, ?_⟩
  · intro m q1 g hq1 hpc
    rw [hst.cabs] at hq1
    rcases set_getElem?_cases hq1 with ⟨rfl, rfl⟩ | ⟨_, hq1⟩
    · rcases hst.target g hpc with hx | hx
      · rw [Ride.inside_iff, hw, hh] at hx
        exact hx
      · exact ha.cab i q g hq hx
    · exact ha.cab m q1 g hq1 hpc
  · intro j p t hp ht
    obtain ⟨m, f, hf, hr⟩ := hst.riders
    have hpm := hp
    rw [hr] at hpm
    obtain ⟨p0, hp0, hcase⟩ := modify_getElem?_cases hpm
    have k1 : p.pc = p0.pc := by
      rcases hcase with rfl | ⟨rfl, rfl⟩
      · rfl
      · exact (hf p0).1
    have hs := hok'.not_start hp ht
    rw [k1] at hs
    obtain ⟨t0, ht0, _⟩ := (hok.rider j p0 hp0).trip hs
    obtain ⟨p1, t1, hp1, ht1, ho, hd, _⟩ := Ride.actCab_keeps c i k j p0 t0 hp0 ht0
    rw [hp] at hp1; cases hp1
    rw [ht] at ht1; cases ht1
    rw [ho, hd]
    exact ha.rider j p0 t0 hp0 ht0

theorem Ride.Aims.actRider {w h : Nat} {rs : List GridCell} {c : Ride} {j : Nat} {d : GridCell} {tip : Int} (hok : c.Ok) (hg : c.Geo w h rs)
    (hd : InGrid w h d) (ha : c.Aims w h) : (c.actRider j d tip).1.Aims w h := by
  obtain ⟨⟨f, hf⟩, hr, _⟩ := c.actRider_frame j d tip
  refine ⟨?_, ?_⟩
  · intro i q' g hq' hpc
    rw [hf, List.getElem?_map] at hq'
    obtain ⟨q, hq, rfl⟩ := Option.map_eq_some_iff.1 hq'
    exact ha.cab i q g hq hpc
  · intro m p1 t hp1 ht
    rcases hr with hr | ⟨p, p', hp, hr, h1, h2, h3, h4⟩
    · rw [hr] at hp1
      exact ha.rider m p1 t hp1 ht
    · have hp1' := hp1
      rw [hr] at hp1'
      rcases set_getElem?_cases hp1' with ⟨rfl, rfl⟩ | ⟨_, hp1'⟩
      · rcases h4 with h4 | h4
        · rw [h4] at ht
          exact ha.rider j p t hp ht
        · rw [h4] at ht
          cases ht
          exact ⟨(hg.rider j p hp).1, hd⟩
      · exact ha.rider m p1 t hp1' ht

/-- C157 (square grids): if the grid is a square with at least two cells per side, drivers and passengers start inside and the destinations are
what `asking` draws, then no exception escapes, and everybody, the origins and the destinations are always inside. -/
theorem C157_square_partial (n : Nat) (hn : 2 ≤ n) (cs rs : List GridCell) (es : List RideEv) (hcs : ∀ x ∈ cs, InGrid n n x)
    (hrs : ∀ x ∈ rs, InGrid n n x) (hes : ∀ j d tip, RideEv.rider j d tip ∈ es → 0 ≤ d.1 ∧ d.1 < n ∧ 0 ≤ d.2 ∧ d.2 < n) :
    (Ride.run (Ride.init n n cs rs) es).2 = false ∧
    (∀ q ∈ (Ride.run (Ride.init n n cs rs) es).1.cabs, InGrid n n q.pos) ∧
    (∀ p ∈ (Ride.run (Ride.init n n cs rs) es).1.riders, InGrid n n p.pos ∧
      ∀ t, p.trip = some t → InGrid n n t.origin ∧ InGrid n n t.dest) := by
  have key := Ride.run_inv (fun c => c.Geo n n rs ∧ c.Aims n n) (fun e => ∀ j d tip, e = .rider j d tip → InGrid n n d) ?_ ?_ ?_ es _
    (Ride.init_ok n n cs rs) (fun e he j d tip hx => hes j d tip (hx ▸ he)) ⟨Ride.init_geo n n cs rs hcs hrs, ?_, ?_⟩
  · obtain ⟨⟨k1, k2⟩, k3⟩ := key
    refine ⟨k3 (fun c e hok hP _ => Ride.act_safe hok hP.1 hP.2 (Or.inl hn) e), ?_, ?_⟩
    · intro q hq
      obtain ⟨i, hi⟩ := List.mem_iff_getElem?.1 hq
      exact (k1.cab i q hi).1
    · intro p hp
      obtain ⟨j, hj⟩ := List.mem_iff_getElem?.1 hp
      exact ⟨(k1.rider j p hj).1, fun t ht => k2.rider j p t hj ht⟩
  · intro c e t _ _ hP
    exact ⟨⟨hP.1.width, hP.1.height, hP.1.cab, hP.1.rider⟩, hP.2.cab, hP.2.rider⟩
  · intro c i k q q' hok hq _ _ hst hok' hP
    exact ⟨hP.1.actCab hok hq hst hok', hP.2.actCab hP.1.width hP.1.height hok hq hst hok'⟩
  · intro c j d tip hok hE _ hP
    exact ⟨hP.1.actRider hok, hP.2.actRider hok hP.1 (hE j d tip rfl)⟩
  · intro i q g hq hpc
    simp only [Ride.init, List.getElem?_map] at hq
    obtain ⟨x, _, rfl⟩ := Option.map_eq_some_iff.1 hq
    cases hpc
  · intro j p t hp ht
    simp only [Ride.init, List.getElem?_map] at hp
    obtain ⟨x, _, rfl⟩ := Option.map_eq_some_iff.1 hp
    cases ht

/-- C158 is false for every passenger that was driven somewhere else: the grid still has it in the cell where it started, not where it is. -/
theorem C158_passengers_false (w h : Nat) (cs rs : List GridCell) (es : List RideEv) (hcs : ∀ x ∈ cs, InGrid w h x)
    (hrs : ∀ x ∈ rs, InGrid w h x) (j : Nat) (p : Rider) (t : Trip) (hp : (Ride.run (Ride.init w h cs rs) es).1.riders[j]? = some p)
    (ht : p.trip = some t) : p.cell = t.origin ∧ (p.pc = .dead → t.dest ≠ t.origin → p.cell ≠ p.pos) := by
  have hok := Ride.run_ok w h cs rs es
  have hg := (Ride.run_geo w h cs rs es hcs hrs).rider j p hp
  have ho := (hg.2.2.2 t ht).symm
  refine ⟨ho, ?_⟩
  intro hd hne heq
  obtain ⟨t', ht', _, _, h3⟩ := (hok.rider j p hp).trip (by rw [hd]; simp)
  rw [ht] at ht'; cases ht'
  exact hne (by rw [← h3 hd, ← heq, ho])

/-- C158 (drivers, and passengers that were not picked up): the grid has every driver in the cell where it is, and every passenger that is
still at the origin of its journey. -/
theorem C158_drivers_partial (w h : Nat) (cs rs : List GridCell) (es : List RideEv) (hcs : ∀ x ∈ cs, InGrid w h x)
    (hrs : ∀ x ∈ rs, InGrid w h x) :
    (∀ q ∈ (Ride.run (Ride.init w h cs rs) es).1.cabs, q.cell = q.pos) ∧
    (∀ p ∈ (Ride.run (Ride.init w h cs rs) es).1.riders, (∀ t, p.trip = some t → p.pos = t.origin) → p.cell = p.pos) := by
  have hok := Ride.run_ok w h cs rs es
  have hg := Ride.run_geo w h cs rs es hcs hrs
  refine ⟨?_, ?_⟩
  · intro q hq
    obtain ⟨i, hi⟩ := List.mem_iff_getElem?.1 hq
    exact (hg.cab i q hi).2
  · intro p hp hx
    obtain ⟨j, hj⟩ := List.mem_iff_getElem?.1 hp
    obtain ⟨_, _, g3, g4⟩ := hg.rider j p hj
    by_cases hs : p.pc = .start
    · exact (g3 hs).symm
    · obtain ⟨t, ht, _⟩ := (hok.rider j p hj).trip hs
      rw [hx t ht]
      exact (g4 t ht).symm

/-! ### The end -/

theorem Ride.passengers_zero (c : Ride) : c.passengers = 0 ↔ ∀ (j : Nat) p, c.riders[j]? = some p → p.pc = .dead := by
  unfold Ride.passengers
  rw [List.countP_eq_zero]
  constructor
  · intro h j p hp
    have := h p (List.mem_of_getElem? hp)
    simpa using this
  · intro h p hp
    obtain ⟨j, hj⟩ := List.mem_iff_getElem?.1 hp
    simp [h j p hj]

/-- C159: drivers stop only when all passengers have. -/
theorem C159_drivers_stop_last (w h : Nat) (cs rs : List GridCell) (es : List RideEv) (q : Cab)
    (hq : q ∈ (Ride.run (Ride.init w h cs rs) es).1.cabs) (hd : q.pc = .dead) :
    ∀ p ∈ (Ride.run (Ride.init w h cs rs) es).1.riders, p.pc = .dead := by
  have key : ∀ (i : Nat) q, (Ride.run (Ride.init w h cs rs) es).1.cabs[i]? = some q → q.pc = .dead →
      ∀ (j : Nat) p, (Ride.run (Ride.init w h cs rs) es).1.riders[j]? = some p → p.pc = .dead := by
    refine (Ride.run_inv (fun c => ∀ (i : Nat) q, c.cabs[i]? = some q → q.pc = .dead → ∀ (j : Nat) p, c.riders[j]? = some p → p.pc = .dead)
      (fun _ => True) ?_ ?_ ?_ es _ (Ride.init_ok w h cs rs) (fun _ _ => trivial) ?_).1
    · intro c e t _ _ hP
      exact hP
    · intro c i k q q' hok hq _ hne hst _ hP m q1 hq1 hdead j p hp
      obtain ⟨m', f, hf, hr⟩ := hst.riders
      rw [hr] at hp
      obtain ⟨p0, hp0, hcase⟩ := modify_getElem?_cases hp
      have k1 : p.pc = p0.pc := by
        rcases hcase with rfl | ⟨rfl, rfl⟩
        · rfl
        · exact (hf p0).1
      rw [k1]
      rw [hst.cabs] at hq1
      rcases set_getElem?_cases hq1 with ⟨rfl, rfl⟩ | ⟨_, hq1⟩
      · exact (c.passengers_zero.1 (hst.dies hdead)) j p0 hp0
      · exact hP m q1 hq1 hdead j p0 hp0
    · intro c m d tip hok _ _ hP i q' hq' hdead j p hp
      obtain ⟨⟨f, hf⟩, hr, _⟩ := c.actRider_frame m d tip
      rw [hf, List.getElem?_map] at hq'
      obtain ⟨q, hq, rfl⟩ := Option.map_eq_some_iff.1 hq'
      have hall := hP i q hq hdead
      rcases hr with hr | ⟨p1, p', hp1, hr, _, _, h3, _⟩
      · rw [hr] at hp
        exact hall j p hp
      · exact absurd (hall m p1 hp1) h3
    · intro i q hq hdead
      simp only [Ride.init, List.getElem?_map] at hq
      obtain ⟨x, _, rfl⟩ := Option.map_eq_some_iff.1 hq
      cases hdead
  obtain ⟨i, hi⟩ := List.mem_iff_getElem?.1 hq
  intro p hp
  obtain ⟨j, hj⟩ := List.mem_iff_getElem?.1 hp
  exact key i q hi hd j p hj

/-- C159: once all passengers have stopped, a driver without a journey stops the next time it is activated, and one that brings the last
passenger stops right when it is paid. -/
theorem C159_drivers_stop (w h : Nat) (cs rs : List GridCell) (es : List RideEv) (c : Ride) (hc : c = (Ride.run (Ride.init w h cs rs) es).1)
    (i k t : Nat) (q : Cab) (hall : ∀ p ∈ c.riders, p.pc = .dead) (hq : c.cabs[i]? = some q)
    (hok : (({ c with now := t } : Ride).act (.cab i k)).2 = false) :
    ((q.pc = .wander ∨ (∃ g, q.pc = .loop g) ∧ q.journey = none) →
      ∃ q', (({ c with now := t } : Ride).act (.cab i k)).1.cabs[i]? = some q' ∧ q'.pc = .dead) ∧
    (∀ j p tr, q.driving → q.journey = some j → c.riders[j]? = some p → p.trip = some tr → q.left tr = 0 →
      ∃ q', (({ c with now := t } : Ride).act (.cab i k)).1.cabs[i]? = some q' ∧ q'.pc = .dead ∧ q'.earnings = q.earnings + tr.tip) := by
  have hlt := (List.getElem?_eq_some_iff.1 hq).1
  have h0 : ({ c with now := t } : Ride).passengers = 0 := by
    rw [Ride.passengers_zero]
    intro j p hp
    exact hall p (List.mem_of_getElem? hp)
  have setc : ∀ x : Cab, (c.cabs.set i x)[i]? = some x := fun x => by rw [List.getElem?_set]; simp [hlt]
  have listen : ∀ q0 g, ∃ q', (({ c with now := t } : Ride).listen i q0 g).cabs[i]? = some q' ∧ q'.pc = .dead := by
    intro q0 g
    unfold Ride.listen
    rw [if_pos h0]
    exact ⟨_, setc _, rfl⟩
  have roam : ∀ q0 g, (({ c with now := t } : Ride).roam i q0 g k).2 = false →
      ∃ q', (({ c with now := t } : Ride).roam i q0 g k).1.cabs[i]? = some q' ∧ q'.pc = .dead := by
    intro q0 g hf
    unfold Ride.roam at hf ⊢
    split
    · rename_i x hx
      rw [hx] at hf
      simp only at hf
      by_cases hin : ({ c with now := t } : Ride).inside x = true
      · rw [if_pos hin]
        exact listen _ _
      · rw [if_neg hin] at hf
        cases hf
    · rename_i hx
      rw [hx] at hf
      simp only at hf
      split
      · rename_i hy
        rw [hy] at hf
        cases hf
      · exact listen _ _
  unfold Ride.act Ride.actCab at hok ⊢
  simp only [hq] at hok ⊢
  refine ⟨?_, ?_⟩
  · rintro (hpc | ⟨⟨g, hpc⟩, hj⟩)
    · simp only [hpc, h0, if_true]
      exact ⟨_, setc _, rfl⟩
    · simp only [hpc, hj] at hok ⊢
      exact roam _ _ hok
  · intro j p tr hd hj hp ht hl
    have carry : q.pos = tr.dest → ∃ q', (({ c with now := t } : Ride).carry i q j tr).1.cabs[i]? = some q' ∧ q'.pc = .dead ∧
        q'.earnings = q.earnings + tr.tip := by
      intro hx
      unfold Ride.carry
      rw [(C155_step q.pos tr.dest).1.2 hx]
      simp only
      unfold Ride.collect
      simp only [h0, if_true]
      exact ⟨_, setc _, rfl, rfl⟩
    have zero : ∀ a b : GridCell, gridDist a b = 0 → a = b := by
      rintro ⟨a1, a2⟩ ⟨b1, b2⟩ hx
      simp only [gridDist] at hx
      simp only [Prod.mk.injEq]
      omega
    rcases hd with hpc | hpc
    · simp only [hpc, hj, hp, Option.bind_some, ht]
      unfold Cab.left at hl
      rw [if_pos hpc] at hl
      have h1 := zero q.pos tr.origin (by omega)
      have h2 := zero tr.origin tr.dest (by omega)
      rw [(C155_step q.pos tr.origin).1.2 h1]
      exact carry (h1.trans h2)
    · simp only [hpc, hj, hp, Option.bind_some, ht]
      unfold Cab.left at hl
      rw [if_neg (by rw [hpc]; simp)] at hl
      exact carry (zero _ _ hl)

theorem sum_tips (c : Ride) : ((List.range c.riders.length).map c.tipOf).sum = (c.riders.map (fun p => p.trip.elim 0 Trip.tip)).sum := by
  congr 1
  apply List.ext_getElem
  · simp
  · intro n h1 h2
    simp only [List.getElem_map, List.getElem_range, Ride.tipOf]
    rw [List.length_map, List.length_range] at h1
    rw [List.getElem?_eq_getElem h1]
    rfl

/-- C153: when all drivers have stopped (and there is one), every passenger has stopped at its destination, and `total_earnings` is the sum of
all tips. -/
theorem C153_end (w h : Nat) (cs rs : List GridCell) (hcs : cs ≠ []) (es : List RideEv) (c : Ride)
    (hc : c = (Ride.run (Ride.init w h cs rs) es).1) (hall : ∀ q ∈ c.cabs, q.pc = .dead) :
    (∀ p ∈ c.riders, p.pc = .dead ∧ ∃ t, p.trip = some t ∧ p.pos = t.dest) ∧
    c.total = (c.riders.map (fun p => p.trip.elim 0 Trip.tip)).sum := by
  have hok : c.Ok := by rw [hc]; exact Ride.run_ok w h cs rs es
  have hm : c.Money := by rw [hc]; exact Ride.run_money w h cs rs es
  have hlen : c.cabs.length = cs.length := by
    rw [hc]
    refine (Ride.run_inv (fun c => c.cabs.length = cs.length) (fun _ => True) ?_ ?_ ?_ es _ (Ride.init_ok w h cs rs) (fun _ _ => trivial) ?_).1
    · intro c e t _ _ hP; exact hP
    · intro c i k q q' _ _ _ _ hst _ hP
      rw [hst.cabs, List.length_set]
      exact hP
    · intro c j d tip _ _ _ hP
      obtain ⟨⟨f, hf⟩, _⟩ := c.actRider_frame j d tip
      rw [hf, List.length_map]
      exact hP
    · simp [Ride.init]
  have hne : ∃ q, q ∈ c.cabs := by
    cases hcc : c.cabs with
    | nil =>
      rw [hcc] at hlen
      exact absurd (List.length_eq_zero_iff.1 hlen.symm) hcs
    | cons q l => exact ⟨q, List.mem_cons_self ..⟩
  obtain ⟨q0, hq0⟩ := hne
  have hdead : ∀ p ∈ c.riders, p.pc = .dead := by
    have := C159_drivers_stop_last w h cs rs es q0 (hc ▸ hq0) (hall q0 hq0)
    rw [← hc] at this
    exact this
  refine ⟨?_, ?_⟩
  · intro p hp
    obtain ⟨j, hj⟩ := List.mem_iff_getElem?.1 hp
    have hd := hdead p hp
    obtain ⟨t, ht, _, _, h3⟩ := (hok.rider j p hj).trip (by rw [hd]; simp)
    exact ⟨hd, t, ht, h3 hd⟩
  · rw [hm.total, ← sum_tips]
    apply List.Perm.sum_eq
    apply List.Perm.map
    rw [List.perm_ext_iff_of_nodup hok.nodup List.nodup_range]
    intro j
    rw [List.mem_range]
    constructor
    · intro hj
      obtain ⟨p, _, hp, _⟩ := hok.paid j hj
      exact (List.getElem?_eq_some_iff.1 hp).1
    · intro hj
      have hp := List.getElem?_eq_getElem hj
      generalize c.riders[j] = p at hp
      have hd := hdead p (List.mem_of_getElem? hp)
      obtain ⟨t, ht, h1, h2, _⟩ := (hok.rider j p hp).trip (by rw [hd]; simp)
      cases hdr : t.driver with
      | none =>
        obtain ⟨⟨⟨e, he⟩, _⟩, _⟩ := h1 hdr
        rw [hd] at he
        cases he
      | some i =>
        rcases h2 i hdr with h2 | ⟨q, hq, hqj⟩
        · exact h2
        · obtain ⟨p', hp', t', ht', _, hl⟩ := (hok.cab i q hq).busy j hqj
          rw [hall q (List.mem_of_getElem? hq)] at hl
          exact hl

/-- What a passenger does whose journey was confirmed. -/
def Rider.rides (now : Nat) (dest : GridCell) (p : Rider) : Rider :=
  match p.pc with
  | .ride e => if now < e then { p with next := now + 1 } else if p.pos = dest then { p with pc := .dead }
      else { p with pc := .ride (now + 60), next := now + 1 }
  | .dead => p
  | _ => if p.pos = dest then { p with pc := .dead } else { p with pc := .ride (now + 60), next := now + 1 }

theorem Ride.homeward_rides {c : Ride} {j : Nat} {p : Rider} {t : Trip} (hp : c.riders[j]? = some p) (hr : p.Riding j) (ht : p.trip = some t) :
    (c.homeward j p).1.riders = c.riders.set j (if p.pos = t.dest then { p with pc := .dead } else { p with pc := .ride (c.now + 60), next := c.now + 1 }) := by
  obtain ⟨hj, hi, _⟩ := hr
  unfold Ride.homeward
  simp only [hj, Option.bind_some, hp, ht, hi, hearAsks]
  by_cases hx : p.pos = t.dest
  · rw [if_pos hx, if_neg (by rw [hx]; simp)]
  · have hx' : p.pos.1 ≠ t.dest.1 ∨ p.pos.2 ≠ t.dest.2 := by
      by_contra hn
      simp only [not_or, ne_eq, Decidable.not_not] at hn
      exact hx (Prod.ext hn.1 hn.2)
    rw [if_neg hx, if_pos hx']

theorem Ride.actRider_rides {c : Ride} {j : Nat} {p : Rider} {t : Trip} (d : GridCell) (tip : Int) (hp : c.riders[j]? = some p) (hr : p.Riding j)
    (ht : p.trip = some t) : (c.actRider j d tip).1.riders[j]? = some (p.rides c.now t.dest) := by
  have hlt := (List.getElem?_eq_some_iff.1 hp).1
  have setj : ∀ x : Rider, (c.riders.set j x)[j]? = some x := fun x => by rw [List.getElem?_set]; simp [hlt]
  unfold Ride.actRider Rider.rides
  simp only [hp]
  rcases hr.2.2 with hpc | ⟨e, hpc⟩ | hpc
  · simp only [hpc]
    rw [Ride.homeward_rides hp hr ht, setj]
  · simp only [hpc]
    by_cases hn : c.now < e
    · simp only [if_pos hn, hr.2.1]
      simp only [if_true]
      rw [setj, ← hr.2.1, ← hpc]
    · simp only [if_neg hn]
      rw [Ride.homeward_rides hp hr ht, setj]
  · simp only [hpc, hp]

/-- When riding passengers look next. -/
def Rider.Timely (now : Nat) (p : Rider) : Prop := (p.pc = .home → p.next ≤ now + 1) ∧ ∀ e, p.pc = .ride e → e ≤ now + 60 ∧ p.next ≤ now + 1

theorem Rider.rides_timely {now : Nat} {dest : GridCell} {p : Rider} {j : Nat} (hr : p.Riding j) (h : p.Timely now) : (p.rides now dest).Timely now := by
  unfold Rider.rides
  rcases hr.2.2 with hpc | ⟨e, hpc⟩ | hpc
  · simp only [hpc]
    split
    · exact ⟨fun hx => (by cases hx), fun e hx => by cases hx⟩
    · exact ⟨fun hx => (by cases hx), fun e hx => by cases hx; exact ⟨Nat.le_refl _, Nat.le_refl _⟩⟩
  · simp only [hpc]
    split
    · exact ⟨fun hx => (by cases hx), fun e' hx => ⟨(h.2 e' (hpc.trans hx)).1, Nat.le_refl _⟩⟩
    · split
      · exact ⟨fun hx => (by cases hx), fun e hx => by cases hx⟩
      · exact ⟨fun hx => (by cases hx), fun e hx => by cases hx; exact ⟨Nat.le_refl _, Nat.le_refl _⟩⟩
  · simp only [hpc]
    exact h

theorem Ride.await_timely {c : Ride} {j : Nat} {p p' : Rider} {e : Nat} (hlt : j < c.riders.length) (h : (c.await j p e).riders[j]? = some p') :
    p'.Timely c.now := by
  have setj : ∀ x : Rider, (c.riders.set j x)[j]? = some x := fun x => by rw [List.getElem?_set]; simp [hlt]
  unfold Ride.await at h
  simp only at h
  split at h
  · simp only [setj, Option.some.injEq] at h
    subst h
    exact ⟨fun _ => Nat.le_refl _, fun e hx => by cases hx⟩
  · simp only [setj, Option.some.injEq] at h
    subst h
    exact ⟨fun hx => (by cases hx), fun e hx => by cases hx⟩

theorem Ride.run_timely (w h : Nat) (cs rs : List GridCell) (es : List RideEv) (j : Nat) (p : Rider)
    (hp : (Ride.run (Ride.init w h cs rs) es).1.riders[j]? = some p) : p.Timely (Ride.run (Ride.init w h cs rs) es).1.now := by
  revert j p
  refine (Ride.run_inv (fun c => ∀ (j : Nat) p, c.riders[j]? = some p → p.Timely c.now) (fun _ => True) ?_ ?_ ?_ es _ (Ride.init_ok w h cs rs)
    (fun _ _ => trivial) ?_).1
  · intro c e t hok ht hP j p hp
    have hle : p.pc ≠ .dead → t ≤ p.next := ((hok.tick e t ht).rider j p hp).next
    have h0 := hP j p hp
    have hnow : p.pc ≠ .dead → c.now ≤ p.next := (hok.rider j p hp).next
    have hct : c.now ≤ t := by
      have hd : c.due e = some t := by
        unfold Ride.turn at ht
        simp only [Bool.and_eq_true] at ht
        exact of_decide_eq_true ht.1.1
      cases e with
      | cab i k =>
        obtain ⟨q, hq, hd⟩ := Option.bind_eq_some_iff.1 hd
        split at hd
        · cases hd
        · rename_i hne
          cases hd
          exact (hok.cab i q hq).next hne
      | rider m d tip =>
        obtain ⟨q, hq, hd⟩ := Option.bind_eq_some_iff.1 hd
        split at hd
        · cases hd
        · rename_i hne
          cases hd
          exact (hok.rider m q hq).next hne
    refine ⟨fun hx => ?_, fun e hx => ?_⟩
    · have := h0.1 hx
      show p.next ≤ t + 1
      omega
    · have := h0.2 e hx
      show e ≤ t + 60 ∧ p.next ≤ t + 1
      omega
  · intro c i k q q' _ _ _ _ hst _ hP j p hp
    obtain ⟨_, _, hn, _⟩ := c.actCab_frame i k
    obtain ⟨m, f, hf, hr⟩ := hst.riders
    rw [hr] at hp
    obtain ⟨p0, hp0, hcase⟩ := modify_getElem?_cases hp
    have h0 := hP j p0 hp0
    rw [hn]
    rcases hcase with rfl | ⟨_, rfl⟩
    · exact h0
    · obtain ⟨a1, _, a2, _⟩ := hf p0
      exact ⟨fun hx => (by rw [a2]; exact h0.1 (a1 ▸ hx)), fun e hx => by rw [a2]; exact h0.2 e (a1 ▸ hx)⟩
  · intro c m d tip hok _ _ hP j p' hp'
    obtain ⟨_, hr, hn, _⟩ := c.actRider_frame m d tip
    rw [hn]
    by_cases hjm : m = j
    · subst hjm
      cases hp : c.riders[m]? with
      | none =>
        rcases hr with hr | ⟨p0, _, hp0, _⟩
        · rw [hr, hp] at hp'; cases hp'
        · rw [hp] at hp0; cases hp0
      | some p =>
        have hlt := (List.getElem?_eq_some_iff.1 hp).1
        by_cases hs : p.pc = .start
        · unfold Ride.actRider at hp'
          simp only [hp, hs] at hp'
          have hx := Ride.await_timely (by simpa [Ride.announce] using hlt) hp'
          exact hx
        · rcases hok.phase hp hs with ⟨⟨e, he⟩, _⟩ | hrd
          · unfold Ride.actRider at hp'
            simp only [hp, he] at hp'
            split at hp'
            · exact Ride.await_timely hlt hp'
            · exact Ride.await_timely (c := Ride.announce c m) (by simpa [Ride.announce] using hlt) hp'
          · obtain ⟨t, ht, _⟩ := (hok.rider m p hp).trip hs
            rw [Ride.actRider_rides d tip hp hrd ht] at hp'
            cases hp'
            exact Rider.rides_timely hrd (hP m p hp)
    · rcases hr with hr | ⟨_, p1, _, hr, _⟩
      · rw [hr] at hp'; exact hP j p' hp'
      · rw [hr, List.getElem?_set_ne hjm] at hp'
        exact hP j p' hp'
  · intro j p hp
    simp only [Ride.init, List.getElem?_map] at hp
    obtain ⟨x, _, rfl⟩ := Option.map_eq_some_iff.1 hp
    exact ⟨fun hx => (by cases hx), fun e hx => by cases hx⟩

/-- C161: a passenger whose driver has finished its journey stops within 60 time units: later than that, it has stopped. -/
theorem C161_passenger_stops (w h : Nat) (cs rs : List GridCell) (es es' : List RideEv) (c c' : Ride)
    (hc : c = (Ride.run (Ride.init w h cs rs) es).1) (hc' : c' = (c.run es').1) (i j : Nat) (q : Cab) (p : Rider) (t : Trip)
    (hp : c.riders[j]? = some p) (ht : p.trip = some t) (hd : t.driver = some i) (hq : c.cabs[i]? = some q)
    (hfin : q.journey ≠ some j ∨ q.pc = .wander ∨ q.pc = .dead) (hnow : c.now + 60 < c'.now) :
    ∃ p', c'.riders[j]? = some p' ∧ p'.pc = .dead ∧ p'.pos = t.dest := by
  have hok : c.Ok := by rw [hc]; exact Ride.run_ok w h cs rs es
  have hok' : c'.Ok := by rw [hc']; exact Ride.run_induct Ride.Ok (fun _ e t hc ht => hc.act e t ht) es' _ hok
  have hk : c.Keeps c' := by rw [hc']; exact Ride.run_keeps hok es'
  have htm : p.Timely c.now := by
    have := Ride.run_timely w h cs rs es j p (hc ▸ hp)
    rw [← hc] at this
    exact this
  have hpaid : j ∈ c.paid := by
    obtain ⟨t', ht', _, h2, _⟩ := (hok.rider j p hp).trip (hok.not_start hp ht)
    rw [ht] at ht'; cases ht'
    rcases h2 i hd with h2 | ⟨q', hq', hj'⟩
    · exact h2
    · rw [hq] at hq'; cases hq'
      rcases hfin with hfin | hfin
      · exact absurd hj' hfin
      · obtain ⟨_, _, _, _, _, hl⟩ := (hok.cab i q hq).busy j hj'
        rcases hfin with hfin | hfin <;> rw [hfin] at hl <;> exact hl
  have hinv : j ∈ c'.paid ∧ ∃ p1, c'.riders[j]? = some p1 ∧ (p1.pc = .dead ∨ (p1.pc = .home ∧ p1.next ≤ c.now + 1) ∨
      ∃ e, p1.pc = .ride e ∧ e ≤ c.now + 60 ∧ (p1.next ≤ c.now + 1 ∨ p1.next ≤ e)) := by
    rw [hc']
    refine (Ride.run_inv (fun x => j ∈ x.paid ∧ ∃ p1, x.riders[j]? = some p1 ∧ (p1.pc = .dead ∨ (p1.pc = .home ∧ p1.next ≤ c.now + 1) ∨
      ∃ e, p1.pc = .ride e ∧ e ≤ c.now + 60 ∧ (p1.next ≤ c.now + 1 ∨ p1.next ≤ e))) (fun _ => True) ?_ ?_ ?_ es' c hok
      (fun _ _ => trivial) ?_).1
    · intro x e t _ _ hP
      exact hP
    · intro x m k q0 q0' _ _ _ _ hst _ hP
      obtain ⟨h1, p1, hp1, h2⟩ := hP
      refine ⟨?_, ?_⟩
      · rcases hst.money with ⟨h3, _⟩ | ⟨_, _, _, _, _, _, _, _, h3, _⟩
        · rw [h3]; exact h1
        · rw [h3]; exact List.mem_append_left _ h1
      · obtain ⟨m', f, hf, hr⟩ := hst.riders
        by_cases hm : m' = j
        · refine ⟨f p1, by rw [hr, getElem?_modify_r, if_pos hm, hp1]; rfl, ?_⟩
          rw [(hf p1).1, (hf p1).2.2.1]
          exact h2
        · exact ⟨p1, by rw [hr, getElem?_modify_r, if_neg hm]; exact hp1, h2⟩
    · intro x m d tip hokx _ hokx' hP
      obtain ⟨h1, p1, hp1, h2⟩ := hP
      obtain ⟨_, hr, _, _, _, hpd, _⟩ := x.actRider_frame m d tip
      refine ⟨by rw [hpd]; exact h1, ?_⟩
      by_cases hm : m = j
      · subst hm
        obtain ⟨pp, tt, hpp, htt, _, hpos, hrd⟩ := hokx.paid m h1
        rw [hp1] at hpp; cases hpp
        refine ⟨_, Ride.actRider_rides d tip hp1 hrd htt, ?_⟩
        unfold Rider.rides
        rcases h2 with h2 | ⟨h2, _⟩ | ⟨e, h2, h3, _⟩
        · left
          simp only [h2]
        · left
          simp only [h2, if_pos hpos]
        · by_cases hlt : x.now < e
          · simp only [h2, if_pos hlt]
            exact Or.inr (Or.inr ⟨e, rfl, h3, Or.inr hlt⟩)
          · left
            simp only [h2, if_neg hlt, if_pos hpos]
      · rcases hr with hr | ⟨_, p2, _, hr, _⟩
        · exact ⟨p1, by rw [hr]; exact hp1, h2⟩
        · exact ⟨p1, by rw [hr, List.getElem?_set_ne hm]; exact hp1, h2⟩
    · refine ⟨hpaid, p, hp, ?_⟩
      obtain ⟨pp, _, hpp, _, _, _, hrd⟩ := hok.paid j hpaid
      rw [hp] at hpp; cases hpp
      rcases hrd.2.2 with hpc | ⟨e, hpc⟩ | hpc
      · exact Or.inr (Or.inl ⟨hpc, htm.1 hpc⟩)
      · exact Or.inr (Or.inr ⟨e, hpc, (htm.2 e hpc).1, Or.inl (htm.2 e hpc).2⟩)
      · exact Or.inl hpc
  obtain ⟨h1, p1, hp1, h2⟩ := hinv
  obtain ⟨pp, tt, hpp, htt, _, hpos, _⟩ := hok'.paid j h1
  rw [hp1] at hpp; cases hpp
  obtain ⟨p2, t2, hp2, ht2, hdest, _⟩ := hk.left hp ht
  rw [hp1] at hp2; cases hp2
  rw [htt] at ht2; cases ht2
  refine ⟨p1, hp1, ?_, by rw [hpos, hdest]⟩
  by_contra hne
  have := (hok'.rider j p1 hp1).next hne
  rcases h2 with h2 | ⟨_, h2⟩ | ⟨e, _, h2, h3⟩
  · exact hne h2
  · omega
  · omega

/-! ### The first cells -/

/-- C160: agents start in different cells of the grid, never in `(0, 0)`. -/
theorem C160_placed (w h : Nat) (ks : List Nat) (l : List GridCell) (hl : placeAll ks (gridCells w h) = some l) :
    l.length = ks.length ∧ l.Nodup ∧ ∀ p ∈ l, InGrid w h p ∧ p ≠ (0, 0) := by
  have key : ∀ (ks : List Nat) (es l : List GridCell), es.Nodup → placeAll ks es = some l →
      l.length = ks.length ∧ l.Nodup ∧ ∀ p ∈ l, p ∈ es ∧ p ≠ (0, 0) := by
    intro ks
    induction ks with
    | nil =>
      intro es l _ hl
      simp only [placeAll, Option.some.injEq] at hl
      subst hl
      exact ⟨rfl, List.nodup_nil, fun p hp => by cases hp⟩
    | cons k ks ih =>
      intro es l hnd hl
      simp only [placeAll] at hl
      split at hl
      · cases hl
      · rename_i p hp
        obtain ⟨l', hl', rfl⟩ := Option.map_eq_some_iff.1 hl
        obtain ⟨h1, h2, h3⟩ := ih _ l' (hnd.erase p) hl'
        have hmem := List.mem_filter.1 (List.mem_of_getElem? hp)
        refine ⟨by simp [h1], ?_, ?_⟩
        · rw [List.nodup_cons]
          refine ⟨fun hx => ?_, h2⟩
          exact absurd (h3 p hx).1 (hnd.not_mem_erase)
        · intro x hx
          rcases List.mem_cons.1 hx with rfl | hx
          · exact ⟨hmem.1, of_decide_eq_true hmem.2⟩
          · exact ⟨List.mem_of_mem_erase (h3 x hx).1, (h3 x hx).2⟩
  have hnd : (gridCells w h).Nodup := by
    unfold gridCells
    rw [List.nodup_flatMap]
    refine ⟨?_, ?_⟩
    · intro x _
      refine List.Nodup.map ?_ List.nodup_range
      intro a b hab
      simp only [Prod.mk.injEq] at hab
      omega
    · refine List.Pairwise.imp ?_ (List.nodup_range (n := w))
      intro a b hab x hx hy
      simp only [List.mem_map] at hx hy
      obtain ⟨_, _, rfl⟩ := hx
      obtain ⟨_, _, hy⟩ := hy
      simp only [Prod.mk.injEq] at hy
      omega
  obtain ⟨h1, h2, h3⟩ := key ks _ l hnd hl
  refine ⟨h1, h2, fun p hp => ⟨?_, (h3 p hp).2⟩⟩
  have hm := (h3 p hp).1
  unfold gridCells at hm
  simp only [List.mem_flatMap, List.mem_map, List.mem_range] at hm
  obtain ⟨x, hx, y, hy, rfl⟩ := hm
  unfold InGrid
  simp only
  omega

theorem gridCells_nodup (w h : Nat) : (gridCells w h).Nodup := by
  unfold gridCells
  rw [List.nodup_flatMap]
  refine ⟨?_, ?_⟩
  · intro x _
    refine List.Nodup.map ?_ List.nodup_range
    intro a b hab
    simp only [Prod.mk.injEq] at hab
    omega
  · refine List.Pairwise.imp ?_ (List.nodup_range (n := w))
    intro a b hab x hx hy
    simp only [List.mem_map] at hx hy
    obtain ⟨_, _, rfl⟩ := hx
    obtain ⟨_, _, hy⟩ := hy
    simp only [Prod.mk.injEq] at hy
    omega

/-- C160: the model cannot be made exactly if there are at least as many agents as cells, whatever is drawn. -/
theorem C160_too_many (w h : Nat) (hw : 0 < w) (hh : 0 < h) (ks : List Nat) :
    placeAll ks (gridCells w h) = none ↔ w * h ≤ ks.length := by
  have key : ∀ (ks : List Nat) (es : List GridCell), es.Nodup →
      (placeAll ks es = none ↔ (es.filter (fun p => decide (p ≠ (0, 0)))).length < ks.length) := by
    intro ks
    induction ks with
    | nil => intro es _; simp [placeAll]
    | cons k ks ih =>
      intro es hnd
      simp only [placeAll]
      generalize hF : es.filter (fun p => decide (p ≠ (0, 0))) = F
      by_cases hF0 : F = []
      · rw [hF0]
        simp
      · have hlt := Nat.mod_lt k (List.length_pos_of_ne_nil hF0)
        rw [List.getElem?_eq_getElem hlt]
        simp only [Option.map_eq_none_iff]
        rw [ih _ (hnd.erase _)]
        have hmem : F[k % F.length] ∈ F := List.getElem_mem hlt
        have hfl : (es.erase F[k % F.length]).filter (fun p => decide (p ≠ (0, 0))) = F.erase F[k % F.length] := by
          generalize F[k % F.length] = g
          subst hF
          rw [hnd.erase_eq_filter, (hnd.filter _).erase_eq_filter, List.filter_filter, List.filter_filter]
          refine List.filter_congr (fun x _ => ?_)
          rw [Bool.and_comm]
        rw [hfl, List.length_erase_of_mem hmem, List.length_cons]
        have := List.length_pos_of_ne_nil hF0
        omega
  rw [key ks _ (gridCells_nodup w h)]
  have hlen : (gridCells w h).length = w * h := by
    unfold gridCells
    rw [List.length_flatMap]
    simp
  have h0 : (0, 0) ∈ gridCells w h := by
    unfold gridCells
    simp only [List.mem_flatMap, List.mem_map, List.mem_range]
    exact ⟨0, hw, 0, hh, rfl⟩
  have hf : (gridCells w h).filter (fun p => decide (p ≠ (0, 0))) = (gridCells w h).erase (0, 0) := by
    rw [(gridCells_nodup w h).erase_eq_filter]
    refine List.filter_congr (fun x _ => ?_)
    by_cases hx : x = (0, 0) <;> simp [hx]
  rw [hf, List.length_erase_of_mem h0, hlen]
  have : 0 < w * h := Nat.mul_pos hw hh
  omega

/-! ### Examples -/

/-- All agents in turn, `n` times. -/
def rounds (n : Nat) (d : GridCell) : List RideEv := (List.replicate n [RideEv.cab 0 1, .rider 0 d 20, .rider 1 (0, 1) 35]).flatten

/-- One driver and two passengers in a grid of three by three cells. -/
def smallCity (n : Nat) : Ride × Bool := (Ride.init 3 3 [(1, 1)] [(0, 2), (2, 2)]).run (rounds n (2, 0))


set_option maxRecDepth 100000 in
/-- C153, C157–C159: both passengers are brought home, the driver gets both tips and stops; the grid has the passengers where they were. -/
example : (smallCity 140).2 = false ∧ (smallCity 140).1.total = 55 ∧ (smallCity 140).1.cabs.map (fun q => (q.pc, q.earnings)) = [(.dead, 55)] ∧
    (smallCity 140).1.riders.map (fun p => (p.pc, p.pos, p.cell)) = [(.dead, (2, 0), (0, 2)), (.dead, (0, 1), (2, 2))] := by decide +kernel

set_option maxRecDepth 100000 in
/-- C152, C153: later than the first tip, the second journey has its driver and is not paid. -/
example : (smallCity 30).1.paid = [0] ∧ (smallCity 30).1.drivenBy 0 = some 0 ∧ (smallCity 30).1.drivenBy 1 = some 0 ∧
    (smallCity 30).1.total = 20 ∧ (smallCity 30).1.cabs.map Cab.journey = [some 1] := by decide +kernel

set_option maxRecDepth 100000 in
/-- C154: the driver asks until 120 and is next activated at 65. -/
example : (smallCity 10).1.cabs.map (fun q => (q.pc, q.journey, q.next)) = [(.ask 0 120, some 0, 65)] ∧
    (smallCity 10).1.turn (.cab 0 1) 65 = false ∧ (smallCity 11).1.turn (.cab 0 1) 65 = true := by decide +kernel

set_option maxRecDepth 100000 in
/-- C155, C156: on the way to the first passenger (with 7 steps left at 66, so it is delivered at 73), and with it. -/
example : (smallCity 12).1.cabs.map (fun q => (q.pc, q.pos, q.next, q.left ⟨(0, 2), (2, 0), 20, some 0⟩)) = [(.toOrigin, (1, 0), 66, 7)] ∧
    ((smallCity 12).1.riders.map Rider.pos)[0]? = some (0, 2) ∧
    (smallCity 16).1.cabs.map (fun q => (q.pc, q.pos)) = [(.toDest, (1, 2))] ∧ ((smallCity 16).1.riders.map Rider.pos)[0]? = some (1, 2) ∧
    (smallCity 19).1.paid = [] ∧ (smallCity 20).1.paid = [0] ∧ (smallCity 20).1.now = 73 := by decide +kernel

/-- C155. -/
example : towards (1, 1) (0, 5) = some (0, 1) ∧ towards (0, 1) (0, 5) = some (0, 2) ∧ towards (3, 4) (3, 2) = some (3, 3) ∧
    towards (3, 2) (3, 2) = none := by decide

set_option maxRecDepth 100000 in
/-- C157: in a grid of four by three cells the passenger wants to go to `(2, 3)`, which `asking` may draw; the simulation ends with an
exception. -/
example : ((Ride.init 4 3 [(1, 1)] [(0, 2), (2, 2)]).run (rounds 80 (2, 3))).2 = true := by decide +kernel

set_option maxRecDepth 100000 in
/-- C161: the first journey ends at 73, its passenger stops at 121. -/
example : (smallCity 20).1.now = 73 ∧ ((smallCity 20).1.riders.map Rider.pc)[0]? = some (.ride 121) ∧
    ((smallCity 66).1.riders.map Rider.pc)[0]? = some (.ride 121) ∧ (smallCity 66).1.now = 120 ∧
    ((smallCity 68).1.riders.map Rider.pc)[0]? = some .dead ∧ (smallCity 68).1.now = 122 := by decide +kernel

/-- C160: three agents in a grid of two by two cells; a fourth does not fit. -/
example : placeAll [5, 7, 1] (gridCells 2 2) = some [(1, 1), (1, 0), (0, 1)] ∧ placeAll [0, 0, 0, 0] (gridCells 2 2) = none := by decide

end Verif
