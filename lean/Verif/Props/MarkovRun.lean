import Verif.Model.MarkovRun
import Verif.Props.ExMarkov
import Verif.Props.Rounds
import Verif.Props.Lockstep
import Verif.Proofs.RunInv
import Verif.Props.ExRabbits5
import Verif.Proofs.ExRabbits2
import Mathlib.Algebra.Order.Archimedean.Basic

/-!
# C238: the journeys of the drivers in whole simulations
-/

namespace Verif
open Spec

/-- A city in which one can drive: every intersection has a way out, every street has an edge with the key 0 and a travel time that is not
negative; it is positive if there are lazy drivers, which divide by it (C149). -/
structure Streets.Drivable (S : Streets) (ds : List (Bool × Nat)) : Prop where
  out : ∀ u, S.nbrs u ≠ []
  time : ∀ u, ∀ v ∈ S.nbrs u, ∃ t, S.travelTime u v = some t ∧ 0 ≤ t ∧ ((∃ d ∈ ds, d.1 = true) → 0 < t)
  key : ∀ u, ∀ v ∈ S.nbrs u, v ≠ u → S.key0 u v = true

/-- A journey: the intersections that are reached one after the other, with the travel times of the fastest streets to them. -/
def Streets.Route (S : Streets) : Nat → List (Nat × Rat) → Nat → Prop
  | p, [], e => p = e
  | p, (q, d) :: l, e => q ∈ S.nbrs p ∧ S.travelTime p q = some d ∧ S.Route q l e

theorem Streets.Route.snoc {S : Streets} {p e q : Nat} {d : Rat} {l : List (Nat × Rat)} (h : S.Route p l e) (hq : q ∈ S.nbrs e)
    (hd : S.travelTime e q = some d) : S.Route p (l ++ [(q, d)]) q := by
  induction l generalizing p with
  | nil =>
    have e1 : p = e := h
    subst e1
    exact ⟨hq, hd, rfl⟩
  | cons x l ih =>
    obtain ⟨x1, x2⟩ := x
    exact ⟨h.1, h.2.1, ih h.2.2⟩

/-- How long a driver is on a street with the travel time `d`: a street that takes no time takes one interval of the scheduler. -/
def onStreet (iv d : Rat) : Rat := if d = 0 then iv else d

/-- When a driver that is free at the time `t` is free again after a journey: on each street for its time (with `gradual_move`), and one
interval at each intersection. -/
def freeAt (gradual : Bool) (iv : Rat) : Rat → List (Nat × Rat) → Rat
  | t, [] => t
  | t, (_, d) :: l => freeAt gradual iv (t + (if gradual then onStreet iv d else 0) + iv) l

/-- The activations of such a journey: with `gradual_move` two on each leg, at the beginning and at the end. -/
def travelLog (gradual : Bool) (iv : Rat) (i : Ref) : Rat → List (Nat × Rat) → List Ev
  | _, [] => []
  | t, (_, d) :: l =>
    (if gradual then [.act i (.fin t) (.ret (some (.fin d))), .act i (.fin (t + onStreet iv d)) (.ret (some 0))]
      else [.act i (.fin t) (.ret (some 0))]) ++
    travelLog gradual iv i (t + (if gradual then onStreet iv d else 0) + iv) l

theorem freeAt_snoc (gradual : Bool) (iv t : Rat) (l : List (Nat × Rat)) (q : Nat) (d : Rat) :
    freeAt gradual iv t (l ++ [(q, d)]) = freeAt gradual iv t l + (if gradual then onStreet iv d else 0) + iv := by
  induction l generalizing t with
  | nil => rfl
  | cons x l ih => exact ih _

theorem travelLog_snoc (gradual : Bool) (iv : Rat) (i : Ref) (t : Rat) (l : List (Nat × Rat)) (q : Nat) (d : Rat) :
    travelLog gradual iv i t (l ++ [(q, d)]) = travelLog gradual iv i t l ++
      (if gradual then [.act i (.fin (freeAt gradual iv t l)) (.ret (some (.fin d))),
          .act i (.fin (freeAt gradual iv t l + onStreet iv d)) (.ret (some 0))]
        else [.act i (.fin (freeAt gradual iv t l)) (.ret (some 0))]) := by
  induction l generalizing t with
  | nil => simp [travelLog, freeAt]
  | cons x l ih =>
    obtain ⟨x1, x2⟩ := x
    simp only [List.cons_append, travelLog, ih, freeAt, List.append_assoc]

/-- What the simulation says of the driver `i`, which started at `p`: there is a journey from `p` to where it is, its activations have been
those of the journey, and either it is about to set out when it is free again, or it did so then and is on the way to the next intersection. -/
def Travels (S : Streets) (gradual : Bool) (iv : Rat) (i : Ref) (p : Nat) (log : List Ev) (a : Driver) (due : Rat) : Prop :=
  ∃ legs, S.Route p legs a.pos ∧
    ((a.target = none ∧ due = freeAt gradual iv 0 legs ∧ log.filter (·.ref = i) = .added i 0 :: travelLog gradual iv i 0 legs) ∨
      ∃ q d, gradual = true ∧ a.target = some q ∧ q ∈ S.nbrs a.pos ∧ S.travelTime a.pos q = some d ∧
        due = freeAt gradual iv 0 legs + onStreet iv d ∧
        log.filter (·.ref = i) = .added i 0 :: travelLog gradual iv i 0 legs ++ [.act i (.fin (freeAt gradual iv 0 legs)) (.ret (some (.fin d)))])

theorem chooseNext_good {S : Streets} {ds : List (Bool × Nat)} (hS : S.Drivable ds) (a : Driver) (ha : a.picky = true → ∃ d ∈ ds, d.1 = true)
    (k : Nat) (r : Rat) (hr : IsDraw r) : ∃ q d, S.chooseNext a k r = some (q, d) := by
  by_cases hp : a.picky = true
  · have hm : ∀ (l : List Nat), (∀ v ∈ l, v ∈ S.nbrs a.pos) → ∃ times, l.mapM (S.travelTime a.pos) = some times ∧ ∀ t ∈ times, 0 < t := by
      intro l
      induction l with
      | nil => exact fun _ => ⟨[], rfl, by simp⟩
      | cons v l ih =>
        intro h
        obtain ⟨ts, h1, h2⟩ := ih (fun x hx => h x (List.mem_cons_of_mem _ hx))
        obtain ⟨t, h3, -, h4⟩ := hS.time a.pos v (h v (by simp))
        refine ⟨t :: ts, ?_, ?_⟩
        · rw [List.mapM_cons, h3, h1]; rfl
        · intro x hx
          rcases List.mem_cons.1 hx with rfl | hx
          · exact h4 (ha hp)
          · exact h2 x hx
    obtain ⟨times, h1, h2⟩ := hm _ (fun v h => h)
    obtain ⟨m, dst, t, -, -, h3, -⟩ := C149_lazy_partial S a k r hr hp times h1 h2 (hS.out _)
    exact ⟨dst, t, h3⟩
  · have hne := hS.out a.pos
    have hlen : 0 < (S.nbrs a.pos).length := List.length_pos_iff.2 hne
    have hlt := Nat.mod_lt k hlen
    obtain ⟨t, h1, -⟩ := hS.time a.pos _ (List.getElem_mem hlt)
    refine ⟨(S.nbrs a.pos)[k % (S.nbrs a.pos).length], t, ?_⟩
    unfold Streets.chooseNext
    simp only [hp, Bool.false_eq_true, if_false]
    rw [List.getElem?_eq_getElem hlt]
    simp only [h1, Option.map_some]

/-- What an activation of a driver does, and says. -/
theorem act_spec {S : Streets} {ds : List (Bool × Nat)} (hS : S.Drivable ds) (gradual : Bool) (c : Town) (i k : Nat) (r : Rat) (hr : IsDraw r) (a : Driver)
    (ha : c.drivers[i]? = some a) (hp : a.picky = true → ∃ d ∈ ds, d.1 = true) :
    (a.target = none ∧ ∃ q d, q ∈ S.nbrs a.pos ∧ S.travelTime a.pos q = some d ∧
      ((gradual = true ∧ (c.act S gradual i k r).2 = .wait d ∧
          (c.act S gradual i k r).1.drivers = c.drivers.set i { a with waiting := true, target := some q }) ∨
        (gradual = false ∧ (c.act S gradual i k r).2 = .wait 0 ∧
          (c.act S gradual i k r).1.drivers = c.drivers.set i { a with pos := q, target := none, waiting := false }))) ∨
    ∃ q, a.target = some q ∧ (c.act S gradual i k r).2 = .wait 0 ∧
      (c.act S gradual i k r).1.drivers = c.drivers.set i { a with pos := q, target := none, waiting := false } := by
  cases ht : a.target with
  | some q =>
    refine Or.inr ⟨q, rfl, ?_⟩
    unfold Town.act
    rw [ha]
    simp only [ht]
    split <;> exact ⟨rfl, rfl⟩
  | none =>
    obtain ⟨q, d, hc⟩ := chooseNext_good hS a hp k r hr
    obtain ⟨h1, h2⟩ := chooseNext_nbr S a k r q d hc
    refine Or.inl ⟨rfl, q, d, h1, h2, ?_⟩
    unfold Town.act
    rw [ha]
    simp only [ht, hc]
    cases gradual with
    | false => exact Or.inr ⟨rfl, rfl, rfl⟩
    | true =>
      left
      refine ⟨rfl, ?_⟩
      simp only [if_true]
      by_cases hq : q = a.pos
      · rw [if_pos hq]; exact ⟨rfl, rfl⟩
      · rw [if_neg hq, if_pos (hS.key _ _ h1 hq)]; exact ⟨rfl, rfl⟩

/-- The state of a simulation: every driver is on its journey, and what is pending for it is what the journey says. -/
def TownFine (S : Streets) (gradual : Bool) (iv : Rat) (ds : List (Bool × Nat)) (s : Sched) (w : TownSim) : Prop :=
  w.town.drivers.length = ds.length ∧ (∀ e ∈ s.log, e.ref < ds.length) ∧
  ∀ (i : Nat) (d : Bool × Nat), ds[i]? = some d → ∃ a due, w.town.drivers[i]? = some a ∧ a.picky = d.1 ∧
    Travels S gradual iv i d.2 s.log a due ∧ pendingOf (cal (.fin iv) s.log) i = [.fin due]

theorem wake_fin {iv : Rat} (t d : Rat) : nextWake (.fin iv) (.fin t) (.ret (some (.fin d))) = some (.fin (t + onStreet iv d)) := by
  by_cases hd : d = 0
  · subst hd
    rfl
  · have : ¬ (Time.fin d = 0) := fun h => hd (Time.fin.inj h)
    simp only [nextWake, effDelay, this, if_false, onStreet, hd]
    rfl

theorem town_keeps (L : Type) {S : Streets} {ds : List (Bool × Nat)} (hS : S.Drivable ds) (gradual : Bool) (F : Fate) (hF : ∀ k, IsDraw (F.draw k)) (iv : Rat) :
    KeepsInv (townHost L S gradual F) (.fin iv) (fun s w => TownFine S gradual iv ds s w.2) where
  same s s' w h hl _ _ := by
    obtain ⟨h1, h2, h3⟩ := h
    refine ⟨h1, by rw [hl]; exact h2, ?_⟩
    rw [hl]
    exact h3
  shuffle s l w h := h
  act r s w hi h hmem _ _ _ := by
    obtain ⟨h1, h2, h3⟩ := h
    have hc : ∀ e ∈ cal (.fin iv) s.log, e.1 < ds.length := by
      have : ∀ l : List Ev, (∀ e ∈ l, e.ref < ds.length) → ∀ e ∈ cal (.fin iv) l, e.1 < ds.length := by
        intro l
        induction l using List.reverseRecOn with
        | nil => intro _ e he; cases he
        | append_singleton l x ih =>
          intro hl e he
          have ih := ih (fun e he => hl e (List.mem_append_left _ he))
          have hx := hl x (by simp)
          simp only [cal, List.foldl_append, List.foldl_cons, List.foldl_nil] at he
          cases x with
          | added q t =>
            simp only [calStep, List.mem_append, List.mem_singleton] at he
            rcases he with he | rfl
            · exact ih e he
            · exact hx
          | act q t rep =>
            simp only [calStep, List.mem_append] at he
            rcases he with he | he
            · exact ih e (List.mem_of_mem_erase he)
            · rw [Option.mem_toList, Option.map_eq_some_iff] at he
              obtain ⟨u, -, rfl⟩ := he
              exact hx
      exact this _ h2
    have hr : r < ds.length := hc _ hmem
    obtain ⟨a, due, ha, hpk, htr, hpe⟩ := h3 r ds[r] (List.getElem?_eq_getElem hr)
    have hdue : s.time = .fin due := by
      have := mem_pendingOf.2 hmem
      rw [hpe] at this
      exact List.mem_singleton.1 this
    have hpk' : a.picky = true → ∃ d ∈ ds, d.1 = true := fun h => ⟨ds[r], List.getElem_mem hr, by rw [← hpk]; exact h⟩
    have spec := act_spec hS gradual w.2.town r (F.pick w.2.used) (F.draw w.2.used) (hF _) a ha hpk'
    have hlt : r < w.2.town.drivers.length := by rw [h1]; exact hr
    have hlog : ∀ rep, ((s.applyOps []).logAct r s.time rep).log = s.log ++ [.act r (.fin due) rep] := by
      intro rep; rw [← hdue]; rfl
    -- the other drivers
    have others : ∀ (rep : Reply) (c' : Town) (a' : Driver), c'.drivers = w.2.town.drivers.set r a' → a'.picky = a.picky → ∀ due',
        nextWake (.fin iv) (.fin due) rep = some (.fin due') →
        Travels S gradual iv r ds[r].2 (s.log ++ [.act r (.fin due) rep]) a' due' →
        TownFine S gradual iv ds ((s.applyOps []).logAct r s.time rep) ⟨c', w.2.used + 1⟩ := by
      intro rep c' a' hd hk due' hw ht
      refine ⟨by simp only [hd, List.length_set, h1], ?_, ?_⟩
      · rw [hlog]
        intro e he
        rcases List.mem_append.1 he with he | he
        · exact h2 e he
        · rw [List.mem_singleton.1 he]; exact hr
      · intro i d hid
        rw [hlog, pendingOf_cal_act]
        by_cases hir : i = r
        · subst hir
          have ed : ds[i] = d := Option.some.inj (by rw [← hid, List.getElem?_eq_getElem hr])
          refine ⟨a', due', ?_, by rw [hk, hpk, ed], ed ▸ ht, ?_⟩
          · simp only [hd]
            exact List.getElem?_set_self hlt
          · simp [hpe, hw]
        · obtain ⟨b, db, hb1, hb2, hb3, hb4⟩ := h3 i d hid
          refine ⟨b, db, ?_, hb2, ?_, by rw [if_neg hir]; exact hb4⟩
          · simp only [hd]
            rw [List.getElem?_set_ne (Ne.symm hir)]; exact hb1
          · have : (s.log ++ [Ev.act r (.fin due) rep]).filter (·.ref = i) = s.log.filter (·.ref = i) := by
              rw [List.filter_append, List.filter_cons_of_neg (by rw [decide_eq_true_eq]; exact fun h => hir (Eq.symm h)), List.filter_nil, List.append_nil]
            obtain ⟨legs, g1, g2⟩ := hb3
            refine ⟨legs, g1, ?_⟩
            rw [this]
            exact g2
    have mine : ∀ rep, (s.log ++ [Ev.act r (.fin due) rep]).filter (·.ref = r) = s.log.filter (·.ref = r) ++ [.act r (.fin due) rep] := by
      intro rep
      rw [List.filter_append, List.filter_cons_of_pos (by simp [Ev.ref]), List.filter_nil]
    obtain ⟨legs, hroute, hcase⟩ := htr
    show TownFine S gradual iv ds ((s.applyOps []).logAct r s.time (w.2.turn S gradual F r).1) (w.2.turn S gradual F r).2
    rcases spec with ⟨ht, q, d, hq, hd, ⟨hg, e1, e2⟩ | ⟨hg, e1, e2⟩⟩ | ⟨q, ht, e1, e2⟩
    · -- sets out
      have hw : (w.2.turn S gradual F r).1 = .ret (some (.fin d)) := by simp only [TownSim.turn, e1, RoamOut.reply]
      rcases hcase with ⟨-, g2, g3⟩ | ⟨q', _, _, g2, _⟩
      · rw [hw]
        refine others _ _ _ e2 rfl (due + onStreet iv d) (wake_fin due d) ⟨legs, hroute, Or.inr ⟨q, d, hg, rfl, hq, hd, by rw [g2], ?_⟩⟩
        rw [mine, g3, g2]
      · rw [ht] at g2; cases g2
    · -- is there at once
      have hw : (w.2.turn S gradual F r).1 = .ret (some (.fin 0)) := by simp only [TownSim.turn, e1, RoamOut.reply]
      rcases hcase with ⟨-, g2, g3⟩ | ⟨q', _, _, g2, _⟩
      · rw [hw]
        refine others _ _ _ e2 rfl (due + iv) (by rw [wake_fin]; simp [onStreet]) ⟨legs ++ [(q, d)], hroute.snoc hq hd, Or.inl ⟨rfl, ?_, ?_⟩⟩
        · rw [freeAt_snoc, g2, hg]; simp
        · rw [mine, g3, travelLog_snoc, g2, hg]; rfl
      · rw [ht] at g2; cases g2
    · -- arrives
      have hw : (w.2.turn S gradual F r).1 = .ret (some (.fin 0)) := by simp only [TownSim.turn, e1, RoamOut.reply]
      rcases hcase with ⟨g1, _⟩ | ⟨q', d, hg, g2, hq, hd, g3, g4⟩
      · rw [ht] at g1; cases g1
      · rw [ht] at g2
        cases g2
        rw [hw]
        refine others _ _ _ e2 rfl (due + iv) (by rw [wake_fin]; simp [onStreet]) ⟨legs ++ [(q, d)], hroute.snoc hq hd, Or.inl ⟨rfl, ?_, ?_⟩⟩
        · rw [freeAt_snoc, g3, hg]; simp
        · rw [mine, g4, travelLog_snoc, g3, hg]; simp

/-- All about a state of the simulation. -/
structure TownOk {L : Type} (S : Streets) (gradual : Bool) (iv : Rat) (ds : List (Bool × Nat)) (x : Sched × L × TownSim) : Prop where
  inv : Inv x.1
  interval : x.1.interval = .fin iv
  good : GoodLog x.1.log
  fine : TownFine S gradual iv ds x.1 x.2.2

theorem TownOk.step {L : Type} {S : Streets} {gradual : Bool} {iv : Rat} {ds : List (Bool × Nat)} (hS : S.Drivable ds) {F : Fate} (hF : ∀ k, IsDraw (F.draw k))
    {x : Sched × L × TownSim} (h : TownOk S gradual iv ds x) :
    (x.1.step (townHost L S gradual F) x.2).2.2 = false ∧ x.1.time ≤ (x.1.step (townHost L S gradual F) x.2).1.time ∧
    TownOk S gradual iv ds ((x.1.step (townHost L S gradual F) x.2).1, (x.1.step (townHost L S gradual F) x.2).2.1) := by
  have hK := town_keeps L hS gradual F hF iv
  have hge : ∀ r s w, ((townHost L S gradual F).step r s w).1 = .error ∨ GoodReply ((townHost L S gradual F).step r s w).1 := by
    intro r s w
    simp only [townHost, TownSim.turn]
    have : ∀ c k u, (Town.act S gradual c r k u).2 = .raises ∨ ∃ t, (Town.act S gradual c r k u).2 = .wait t ∧ 0 ≤ t := by
      intro c k u
      unfold Town.act
      split
      · exact Or.inl rfl
      · split
        · split <;> exact Or.inr ⟨0, rfl, le_refl _⟩
        · rename_i a _ _ _
          cases hc : S.chooseNext a k u with
          | none => exact Or.inl rfl
          | some p =>
            obtain ⟨q, d⟩ := p
            obtain ⟨h1, h2⟩ := chooseNext_nbr S a k u q d hc
            obtain ⟨t, h3, h4, -⟩ := hS.time _ _ h1
            rw [h2] at h3
            cases h3
            simp only
            split
            · split
              · exact Or.inr ⟨d, rfl, h4⟩
              · split
                · exact Or.inr ⟨d, rfl, h4⟩
                · exact Or.inl rfl
            · exact Or.inr ⟨0, rfl, le_refl _⟩
    rcases this w.2.town (F.pick w.2.used) (F.draw w.2.used) with e | ⟨t, e, ht⟩
    · rw [e]; exact Or.inl rfl
    · rw [e]
      refine Or.inr ?_
      show (0 : Time) ≤ .fin t
      exact Time.fin_le.2 ht
  have hg : GoodLog (x.1.step (townHost L S gradual F) x.2).1.log := by
    by_contra hb
    obtain ⟨r, s1, w1, h1, hg1, h2, h3, -⟩ := hK.steps_error hge h.inv h.interval (w := x.2) h.fine 0 h.good hb
    obtain ⟨g1, g2, g3⟩ := h1
    have hr : r < ds.length := by
      by_contra hr
      have : pendingOf (cal (.fin iv) s1.log) r = [] := by
        have : ∀ l : List Ev, (∀ e ∈ l, e.ref < ds.length) → pendingOf (cal (.fin iv) l) r = [] := by
          intro l
          induction l using List.reverseRecOn with
          | nil => intro _; rfl
          | append_singleton l e ih =>
            intro hl
            have ih := ih (fun e he => hl e (List.mem_append_left _ he))
            have he := hl e (by simp)
            cases e with
            | added q t =>
              have hq : q ≠ r := by rintro rfl; exact hr he
              have := pendingOf_cal_adds (.fin iv) l [q] t r
              simp only [List.map_cons, List.map_nil] at this
              rw [this, ih]
              simp [hq]
            | act q t rep =>
              have hq : r ≠ q := by rintro rfl; exact hr he
              rw [pendingOf_cal_act, if_neg hq, ih]
        exact this _ g2
      have h2' := mem_pendingOf.2 h2
      rw [this] at h2'
      cases h2'
    obtain ⟨a, due, ha, hpk, -⟩ := g3 r ds[r] (List.getElem?_eq_getElem hr)
    have spec := act_spec hS gradual w1.2.town r (F.pick w1.2.used) (F.draw w1.2.used) (hF _) a ha
      (fun h => ⟨ds[r], List.getElem_mem hr, by rw [← hpk]; exact h⟩)
    have h3' : (w1.2.turn S gradual F r).1 = .error := h3
    rcases spec with ⟨-, q, d, -, -, ⟨-, e1, -⟩ | ⟨-, e1, -⟩⟩ | ⟨q, -, e1, -⟩ <;>
    · simp only [TownSim.turn, e1, RoamOut.reply] at h3'
      cases h3'
  obtain ⟨i1, i2, i3⟩ := h.inv.step (townHost L S gradual F) x.2 hg
  exact ⟨i2, i3, i1, (execAll_interval (townHost L S gradual F) [.step] x).trans h.interval, hg, hK.step h.inv h.interval h.fine hg⟩

theorem townStart_ok {L : Type} (S : Streets) (gradual : Bool) {iv : Rat} (hiv : 0 < iv) (ds : List (Bool × Nat)) (sh : Bool) (l : L) :
    TownOk S gradual iv ds (townStart l ds iv sh) := by
  have hlog : ∀ n, ((Sched.init (.fin iv) sh).applyOps ((List.range n).map (fun r => .add r none))).log = (List.range n).map (fun r => Ev.added r 0) := by
    intro n
    induction n with
    | zero => rfl
    | succ n ih =>
      have ht := (noop_adds n (.fin iv) sh).2.2.1
      rw [List.range_succ, List.map_append, List.map_append]
      simp only [Sched.applyOps, List.foldl_append, List.map_cons, List.map_nil, List.foldl_cons, List.foldl_nil] at ih ht ⊢
      simp only [Sched.applyOp, Sched.addAgent, Sched.schedule]
      rw [ih, ht]
  have hgood : GoodLog (townStart l ds iv sh).1.log := by
    simp only [townStart, roundsStart, hlog]
    intro e he
    obtain ⟨r, -, rfl⟩ := List.mem_map.1 he
    trivial
  refine ⟨?_, (noop_adds ds.length (.fin iv) sh).2.2.2.2.1, hgood, ?_⟩
  · have h1 : ∀ (os : List SOp) (s : Sched), Inv s → Inv (s.applyOps os) := by
      intro os
      induction os with
      | nil => exact fun s h => h
      | cons o os ih => exact fun s h => ih _ (h.op o)
    exact h1 _ _ (Inv.init (by exact hiv) sh)
  · simp only [townStart, roundsStart]
    refine ⟨by simp [Town.init], ?_, ?_⟩
    · rw [hlog]
      intro e he
      obtain ⟨r, hr, rfl⟩ := List.mem_map.1 he
      exact List.mem_range.1 hr
    · intro i d hid
      have hi : i < ds.length := (List.getElem?_eq_some_iff.1 hid).1
      rw [hlog]
      have hf : ∀ n, (List.range n).filter (· = i) = if i < n then [i] else [] := by
        intro n
        induction n with
        | zero => simp
        | succ n ih =>
          rw [List.range_succ, List.filter_append, ih]
          rcases lt_trichotomy i n with h | h | h
          · rw [if_pos h, if_pos (by omega), List.filter_cons_of_neg (by simp; omega)]; rfl
          · subst h
            rw [if_neg (by omega), if_pos (by omega), List.filter_cons_of_pos (by simp)]; rfl
          · rw [if_neg (by omega), if_neg (by omega), List.filter_cons_of_neg (by simp; omega)]; rfl
      refine ⟨⟨d.1, d.2, none, false⟩, 0, by simp [Town.init, hid], rfl, ⟨[], rfl, Or.inl ⟨rfl, rfl, ?_⟩⟩, ?_⟩
      · rw [List.filter_map]
        have : ((fun e : Ev => decide (e.ref = i)) ∘ fun r => Ev.added r 0) = fun r => decide (r = i) := rfl
        rw [this, hf, if_pos hi]
        rfl
      · have := pendingOf_cal_adds (.fin iv) [] (List.range ds.length) 0 i
        rw [List.nil_append] at this
        rw [this, hf, if_pos hi]
        rfl

/-- The simulation without `Lockstepper`, after `k` steps of the scheduler. -/
def townRun (S : Streets) (gradual : Bool) (F : Fate) (ds : List (Bool × Nat)) (iv : Rat) (sh : Bool) (k : Nat) : Sched × Unit × TownSim :=
  iterStep (timedStepper (townHost Unit S gradual F)) k (townStart () ds iv sh)

theorem town_iter {L : Type} {S : Streets} {ds : List (Bool × Nat)} (hS : S.Drivable ds) (gradual : Bool) {F : Fate} (hF : ∀ k, IsDraw (F.draw k))
    {iv : Rat} {x : Sched × L × TownSim} (h : TownOk S gradual iv ds x) (k : Nat) :
    TownOk S gradual iv ds (iterStep (timedStepper (townHost L S gradual F)) k x) := by
  induction k with
  | zero => exact h
  | succ k ih =>
    rw [iterStep_succ]
    exact (ih.step hS hF).2.2

theorem TownOk.due {L : Type} {S : Streets} {gradual : Bool} {iv : Rat} {ds : List (Bool × Nat)} {x : Sched × L × TownSim} (h : TownOk S gradual iv ds x)
    (i : Nat) (d : Bool × Nat) (hd : ds[i]? = some d) :
    ∃ a due, x.2.2.town.drivers[i]? = some a ∧ Travels S gradual iv i d.2 x.1.log a due ∧ x.1.time ≤ .fin due := by
  obtain ⟨a, due, h1, -, h3, h4⟩ := h.fine.2.2 i d hd
  refine ⟨a, due, h1, h3, ?_⟩
  have hm : (i, Time.fin due) ∈ cal (.fin iv) x.1.log := mem_pendingOf.1 (by rw [h4]; simp)
  rw [← h.interval] at hm
  exact h.inv.mid.mem_le _ hm

/-- C238, what holds: in a city in which one can drive, whatever chance decides, no step ever raises, and at any time every driver is on a
journey along the streets from where it started, on which everything has been done that was due before now. Missing: that it goes on at
once when it has arrived, see below. -/
theorem C238_journeys_partial (S : Streets) (ds : List (Bool × Nat)) (hS : S.Drivable ds) (gradual : Bool) (F : Fate) (hF : ∀ k, IsDraw (F.draw k))
    (iv : Rat) (hiv : 0 < iv) (sh : Bool) (k : Nat) :
    let x := townRun S gradual F ds iv sh k
    (x.1.step (townHost Unit S gradual F) x.2).2.2 = false ∧
    ∀ (i : Nat) (d : Bool × Nat), ds[i]? = some d → ∃ a due, x.2.2.town.drivers[i]? = some a ∧
      Travels S gradual iv i d.2 x.1.log a due ∧ x.1.time ≤ .fin due := by
  intro x
  have h : TownOk S gradual iv ds x := town_iter hS gradual hF (townStart_ok S gradual hiv ds sh ()) k
  exact ⟨(h.step hS hF).1, h.due⟩

/-- The time a journey takes: the time on the streets (with `gradual_move`), and an interval for every intersection. -/
theorem freeAt_eq (gradual : Bool) (iv t : Rat) (l : List (Nat × Rat)) :
    freeAt gradual iv t l = t + (if gradual then (l.map (fun x => onStreet iv x.2)).sum else 0) + l.length * iv := by
  induction l generalizing t with
  | nil => cases gradual <;> simp [freeAt]
  | cons x l ih =>
    rw [freeAt, ih]
    cases gradual
    · simp; ring
    · simp; ring

/-- C238 is false: a driver asks for a delay of 0 when it has arrived, and waits a whole interval. However far it has got, and whatever chance decides,
it is not free again before the sum of the travel times plus an interval for each intersection; without `gradual_move` it needs exactly an interval for
each, whatever the travel times. -/
theorem C238_rest_false (S : Streets) (ds : List (Bool × Nat)) (hS : S.Drivable ds) (gradual : Bool) (F : Fate) (hF : ∀ k, IsDraw (F.draw k))
    (iv : Rat) (hiv : 0 < iv) (sh : Bool) (k : Nat) (i : Nat) (d : Bool × Nat) (hd : ds[i]? = some d) :
    let x := townRun S gradual F ds iv sh k
    ∃ a legs, x.2.2.town.drivers[i]? = some a ∧ S.Route d.2 legs a.pos ∧
      (a.target = none → ∃ due, pendingOf (pending x.1) i = [.fin due] ∧
        (gradual = true → (legs.map Prod.snd).sum + legs.length * iv ≤ due) ∧ (gradual = false → due = legs.length * iv)) := by
  intro x
  have h : TownOk S gradual iv ds x := town_iter hS gradual hF (townStart_ok S gradual hiv ds sh ()) k
  obtain ⟨a, due, h1, -, ⟨legs, h3, h4⟩, h5⟩ := h.fine.2.2 i d hd
  refine ⟨a, legs, h1, h3, fun ht => ⟨due, ?_, ?_⟩⟩
  · have hp := h.inv.pending_perm
    rw [h.interval] at hp
    have : (pendingOf (pending x.1) i).Perm (pendingOf (cal (.fin iv) x.1.log) i) := (hp.filter _).map _
    rw [h5] at this
    exact List.perm_singleton.1 this
  · rcases h4 with ⟨-, e, -⟩ | ⟨q, _, _, e, _⟩
    · rw [e, freeAt_eq]
      refine ⟨fun hg => ?_, fun hg => by rw [hg]; simp⟩
      rw [if_pos hg, zero_add]
      have key : ∀ (p : Nat) (l : List (Nat × Rat)), S.Route p l a.pos → (l.map Prod.snd).sum ≤ (l.map (fun x => onStreet iv x.2)).sum := by
        intro p l
        induction l generalizing p with
        | nil => simp
        | cons y l ih =>
          intro hr
          obtain ⟨q, t⟩ := y
          have := ih q hr.2.2
          simp only [List.map_cons, List.sum_cons]
          have h1 : t ≤ onStreet iv t := by
            unfold onStreet
            split
            · rename_i h0; rw [h0]; exact le_of_lt hiv
            · exact le_refl _
          linarith
      have := key _ _ h3
      linarith
    · rw [ht] at e; cases e

/-- A step activates somebody, and everything in it happens now. -/
theorem town_step_log {L : Type} {S : Streets} {gradual : Bool} {iv : Rat} {ds : List (Bool × Nat)} {F : Fate} {x : Sched × L × TownSim}
    (h : TownOk S gradual iv ds x) (hq : x.1.queue ≠ []) :
    ∃ l, l ≠ [] ∧ (x.1.step (townHost L S gradual F) x.2).1.log = x.1.log ++ l ∧ ∀ e ∈ l, e.time = x.1.time := by
  have hb : ∀ (b : List Ref) (s : Sched) (w : L × TownSim) (now : Time), ∃ l, (runBucket (townHost L S gradual F) now b s w).1.log = s.log ++ l ∧
      (b ≠ [] → l ≠ []) ∧ ∀ e ∈ l, e.time = now := by
    intro b
    induction b with
    | nil => exact fun s w now => ⟨[], by simp [runBucket], fun h => absurd rfl h, by simp⟩
    | cons r b ih =>
      intro s w now
      rw [runBucket_cons]
      simp only
      have e : (afterAct (s.applyOps ((townHost L S gradual F).step r s w).2.1) r now ((townHost L S gradual F).step r s w).1).log =
          s.log ++ [.act r now ((townHost L S gradual F).step r s w).1] := by
        rw [afterAct_log]; rfl
      split
      · exact ⟨[.act r now _], e, by simp, by simp [Ev.time]⟩
      · obtain ⟨l, h1, h2, h3⟩ := ih (afterAct (s.applyOps ((townHost L S gradual F).step r s w).2.1) r now ((townHost L S gradual F).step r s w).1)
          ((townHost L S gradual F).step r s w).2.2 now
        refine ⟨.act r now ((townHost L S gradual F).step r s w).1 :: l, ?_, by simp, ?_⟩
        · rw [h1, e]; simp
        · intro e' he
          rcases List.mem_cons.1 he with rfl | he
          · rfl
          · exact h3 e' he
  cases hqe : x.1.queue with
  | nil => exact absurd hqe hq
  | cons c q =>
    obtain ⟨t, b⟩ := c
    rw [h.inv.step_eq _ x.2 hqe, finishStep_log]
    obtain ⟨l, h1, h2, h3⟩ := hb (runOrder (townHost L S gradual F) x.1 b x.2).1 { x.1 with queue := q } (runOrder (townHost L S gradual F) x.1 b x.2).2 x.1.time
    refine ⟨l, h2 ?_, h1, h3⟩
    intro h0
    have hp := runOrder_perm (townHost L S gradual F) x.1 b x.2
    rw [h0] at hp
    exact h.inv.ne (t, b) (by rw [hqe]; simp) (List.nil_perm.1 hp)

theorem length_by_ref {B : Nat} : ∀ (n : Nat) (l : List Ev), (∀ e ∈ l, e.ref < n) → (∀ i < n, (l.filter (·.ref = i)).length ≤ B) → l.length ≤ n * B
  | 0, l, h, _ => by
    cases l with
    | nil => simp
    | cons e l => exact absurd (h e (by simp)) (Nat.not_lt_zero _)
  | n + 1, l, h, hB => by
    have h1 := length_by_ref n (l.filter (fun e => ! decide (e.ref = n))) (by
      intro e he
      rw [List.mem_filter] at he
      have := h e he.1
      have h2 : ¬ e.ref = n := by simpa using he.2
      exact Nat.lt_of_le_of_ne (Nat.le_of_lt_succ this) h2) (by
      intro i hi
      refine le_trans ?_ (hB i (by omega))
      rw [List.filter_filter]
      refine List.Sublist.length_le ?_
      refine List.monotone_filter_right l ?_
      intro e he
      simp only [Bool.and_eq_true] at he
      exact he.1)
    have h2 := hB n (by omega)
    have h3 : l.length = (l.filter (·.ref = n)).length + (l.filter (fun e => ! decide (e.ref = n))).length := by
      rw [← List.countP_eq_length_filter, ← List.countP_eq_length_filter]
      have := List.length_eq_countP_add_countP (fun e : Ev => decide (e.ref = n)) (l := l)
      simpa using this
    rw [Nat.succ_mul]
    omega

theorem travelLog_length {gradual : Bool} {iv δ : Rat} (h1 : δ ≤ iv) (i : Ref) (t : Rat) (l : List (Nat × Rat)) (h2 : ∀ x ∈ l, δ ≤ onStreet iv x.2) :
    t + (travelLog gradual iv i t l).length * δ ≤ freeAt gradual iv t l := by
  induction l generalizing t with
  | nil => simp [travelLog, freeAt]
  | cons x l ih =>
    obtain ⟨q, d⟩ := x
    have := ih (t + (if gradual then onStreet iv d else 0) + iv) (fun x hx => h2 x (List.mem_cons_of_mem _ hx))
    have h3 : δ ≤ onStreet iv d := h2 (q, d) (by simp)
    rw [travelLog, freeAt, List.length_append]
    refine le_trans ?_ this
    push_cast
    cases gradual
    · simp only [Bool.false_eq_true, if_false, List.length_singleton]
      push_cast
      linarith
    · simp only [if_true, List.length_cons, List.length_nil]
      push_cast
      linarith

/-- The streets of a finite city: there is a shortest travel time. -/
def Streets.NotShorter (S : Streets) (δ : Rat) : Prop := ∀ u v t, v ∈ S.nbrs u → S.travelTime u v = some t → t = 0 ∨ δ ≤ t

theorem travels_bound {S : Streets} {gradual : Bool} {iv δ : Rat} (hδ : 0 < δ) (h1 : δ ≤ iv) (hS : S.NotShorter δ) {i : Ref} {p : Nat} {log : List Ev} {a : Driver}
    {due : Rat} (h : Travels S gradual iv i p log a due) {T : Rat} (hT : 0 ≤ T) (hpast : ∀ e ∈ log, e.time ≤ .fin T) :
    ((log.filter (·.ref = i)).length : Rat) * δ ≤ T + 2 * δ := by
  have hst : ∀ u v t, v ∈ S.nbrs u → S.travelTime u v = some t → δ ≤ onStreet iv t := by
    intro u v t hv ht
    unfold onStreet
    split
    · exact h1
    · rename_i h0
      exact (hS u v t hv ht).resolve_left h0
  have hroute : ∀ (p : Nat) (l : List (Nat × Rat)) (e : Nat), S.Route p l e → ∀ x ∈ l, δ ≤ onStreet iv x.2 := by
    intro p l e
    induction l generalizing p with
    | nil => intro _ x hx; cases hx
    | cons y l ih =>
      obtain ⟨q, d⟩ := y
      intro hr x hx
      rcases List.mem_cons.1 hx with rfl | hx
      · exact hst p q d hr.1 hr.2.1
      · exact ih q hr.2.2 x hx
  obtain ⟨legs, hr, hc⟩ := h
  have hl := hroute _ _ _ hr
  have hp : ∀ t rep, Ev.act i (.fin t) rep ∈ log.filter (·.ref = i) → t ≤ T := by
    intro t rep hm
    exact Time.fin_le.1 (hpast _ (List.mem_of_mem_filter hm))
  rcases hc with ⟨-, -, e⟩ | ⟨q, d, hg, -, hq, hd, -, e⟩
  · rcases List.eq_nil_or_concat legs with rfl | ⟨l, y, rfl⟩
    · rw [e]
      simp only [travelLog, List.length_cons, List.length_nil]
      push_cast
      linarith
    · obtain ⟨q, d⟩ := y
      have h3 := travelLog_length (gradual := gradual) h1 i 0 l (fun x hx => hl x (by simp [hx]))
      have h4 : δ ≤ onStreet iv d := hl (q, d) (by simp)
      rw [List.concat_eq_append, travelLog_snoc] at e
      rw [e] at hp ⊢
      cases gradual
      · have := hp (freeAt false iv 0 l) (.ret (some 0)) (by simp)
        simp only [Bool.false_eq_true, if_false, List.length_cons, List.length_append, List.length_nil]
        push_cast
        linarith
      · have := hp (freeAt true iv 0 l + onStreet iv d) (.ret (some 0)) (by simp)
        simp only [if_true, List.length_cons, List.length_append, List.length_nil]
        push_cast
        linarith
  · have h3 := travelLog_length (gradual := gradual) h1 i 0 legs hl
    rw [e] at hp ⊢
    have := hp (freeAt gradual iv 0 legs) (.ret (some (.fin d))) (by simp)
    simp only [List.length_cons, List.length_append, List.length_nil]
    push_cast
    linarith

/-- The clock passes every time. -/
theorem town_passes {L : Type} {S : Streets} {ds : List (Bool × Nat)} (hS : S.Drivable ds) (hds : ds ≠ []) (gradual : Bool) {F : Fate} (hF : ∀ k, IsDraw (F.draw k))
    {iv δ : Rat} (hδ : 0 < δ) (h1 : δ ≤ iv) (hn : S.NotShorter δ) {x : Sched × L × TownSim} (h : TownOk S gradual iv ds x) (E : Rat) :
    ∃ k, Time.fin E ≤ (iterStep (timedStepper (townHost L S gradual F)) k x).1.time := by
  by_contra hcon
  have hlt : ∀ k, (iterStep (timedStepper (townHost L S gradual F)) k x).1.time < .fin E := fun k => by
    rcases lt_or_ge (iterStep (timedStepper (townHost L S gradual F)) k x).1.time (Time.fin E) with h | h
    · exact h
    · exact absurd ⟨k, h⟩ hcon
  have hok := fun k => town_iter (F := F) hS gradual hF h k
  have hE : 0 ≤ E := Time.fin_le.1 (le_trans (hok 0).inv.time_nonneg (le_of_lt (hlt 0)))
  have hq : ∀ k, (iterStep (timedStepper (townHost L S gradual F)) k x).1.queue ≠ [] := by
    intro k h0
    obtain ⟨d, ds', rfl⟩ := List.exists_cons_of_ne_nil hds
    obtain ⟨a, due, -, -, ⟨legs, -, hc⟩, -⟩ := (hok k).fine.2.2 0 d rfl
    rcases (hok k).inv.empty h0 with e | e
    · rw [e] at hc
      rcases hc with ⟨-, -, hc⟩ | ⟨_, _, _, _, _, _, _, hc⟩ <;> cases hc
    · have := hlt k
      rw [e] at this
      exact absurd (Time.le_inf _) (not_le.2 this)
  have hlen : ∀ k, k ≤ (iterStep (timedStepper (townHost L S gradual F)) k x).1.log.length := by
    intro k
    induction k with
    | zero => exact Nat.zero_le _
    | succ k ih =>
      obtain ⟨l, g1, g2, -⟩ := town_step_log (F := F) (hok k) (hq k)
      rw [iterStep_succ]
      simp only [timedStepper] at ih ⊢ g2
      rw [g2, List.length_append]
      have := List.length_pos_iff.2 g1
      omega
  obtain ⟨B, hB⟩ := exists_nat_gt ((E + 2 * δ) / δ)
  have hlen2 : ∀ k, (iterStep (timedStepper (townHost L S gradual F)) k x).1.log.length ≤ ds.length * B := by
    intro k
    refine length_by_ref _ _ (hok k).fine.2.1 ?_
    intro i hi
    obtain ⟨a, due, -, -, ht, -⟩ := (hok k).fine.2.2 i ds[i] (List.getElem?_eq_getElem hi)
    have := travels_bound hδ h1 hn ht hE (fun e he => le_trans ((hok k).inv.past e he) (le_of_lt (hlt k)))
    rw [div_lt_iff₀ hδ] at hB
    have h4 : (((iterStep (timedStepper (townHost L S gradual F)) k x).1.log.filter (·.ref = i)).length : Rat) * δ < B * δ := lt_of_le_of_lt this hB
    have h5 := lt_of_mul_lt_mul_right h4 (le_of_lt hδ)
    exact_mod_cast le_of_lt h5
  have a1 := hlen (ds.length * B + 1)
  have a2 := hlen2 (ds.length * B + 1)
  omega

theorem lockLoop_fuel {W : Type} {H : Host W} {E : Time} {f g : Nat} {x y : Sched × W} (h : lockLoop H E f x = .done y) (hfg : f ≤ g) : lockLoop H E g x = .done y := by
  induction f generalizing g x with
  | zero =>
    unfold lockLoop at h ⊢
    split at h
    · cases h
    · rename_i hE
      rw [if_neg hE]
      exact h
  | succ f ih =>
    obtain ⟨g, rfl⟩ : ∃ g', g = g' + 1 := ⟨g - 1, by omega⟩
    unfold lockLoop at h ⊢
    split at h
    · rename_i hE
      rw [if_pos hE]
      simp only at h ⊢
      split at h
      · cases h
      · rename_i hr
        rw [if_neg hr]
        exact ih h (by omega)
    · rename_i hE
      rw [if_neg hE]
      exact h

/-- The loop of a `Lockstepper` ends as soon as the clock of the scheduler has come to the end of the interval. -/
theorem town_lockLoop {S : Streets} {ds : List (Bool × Nat)} (hS : S.Drivable ds) (hds : ds ≠ []) (gradual : Bool) {F : Fate} (hF : ∀ k, IsDraw (F.draw k))
    {iv : Rat} {E : Time} (k : Nat) (x : Sched × Lock × TownSim) (h : TownOk S gradual iv ds x)
    (hk : E ≤ (iterStep (timedStepper (townHost Lock S gradual F)) k x).1.time)
    (hact : ∀ e ∈ x.1.log, e.isAct = true → e.time < E) (fuel : Nat) (hf : k ≤ fuel) :
    ∃ y, lockLoop (townHost Lock S gradual F) E fuel x = .done y ∧ TownOk S gradual iv ds y ∧ E ≤ y.1.time ∧
      ∀ e ∈ y.1.log, e.isAct = true → e.time < E := by
  induction k generalizing x fuel with
  | zero =>
    refine ⟨x, ?_, h, hk, hact⟩
    have hk' : ¬ x.1.time < E := not_lt.2 hk
    unfold lockLoop
    rw [if_neg hk']
  | succ k ih =>
    by_cases hE : x.1.time < E
    · obtain ⟨f, rfl⟩ : ∃ f, fuel = f + 1 := ⟨fuel - 1, by omega⟩
      obtain ⟨h1, h2, h3⟩ := h.step hS (F := F) hF
      have hq : x.1.queue ≠ [] := by
        intro h0
        obtain ⟨d, ds', rfl⟩ := List.exists_cons_of_ne_nil hds
        obtain ⟨a, due, -, -, ⟨legs, -, hc⟩, -⟩ := h.fine.2.2 0 d rfl
        rcases h.inv.empty h0 with e | e
        · rw [e] at hc
          rcases hc with ⟨-, -, hc⟩ | ⟨_, _, _, _, _, _, _, hc⟩ <;> cases hc
        · rw [e] at hE
          exact absurd (Time.le_inf _) (not_le.2 hE)
      obtain ⟨l, -, g2, g3⟩ := town_step_log (F := F) h hq
      obtain ⟨y, e1, e2⟩ := ih _ h3 hk (by
        intro e he ha
        simp only [g2] at he
        rcases List.mem_append.1 he with he | he
        · exact hact e he ha
        · rw [g3 e he]; exact hE) f (by omega)
      refine ⟨y, ?_, e2⟩
      unfold lockLoop
      rw [if_pos hE]
      simp only [h1, Bool.false_eq_true, if_false]
      exact e1
    · refine ⟨x, ?_, h, not_lt.1 hE, hact⟩
      unfold lockLoop
      rw [if_neg hE]

/-- C238 with `lockstep=True`, the default: in a finite city with at least one driver every step of the environment comes to its end, and after `m` of them
the clock is at `m`, everything up to there and nothing else has happened, and every driver is on its journey. Missing: as above. -/
theorem C238_lockstep_partial (S : Streets) (ds : List (Bool × Nat)) (hS : S.Drivable ds) (hds : ds ≠ []) (gradual : Bool) (F : Fate)
    (hF : ∀ k, IsDraw (F.draw k)) (iv δ : Rat) (hδ : 0 < δ) (hiv : δ ≤ iv) (hn : S.NotShorter δ) (sh : Bool) (m : Nat) :
    ∃ fuel₀, ∀ fuel ≥ fuel₀, ∃ x, lockRun (townHost Lock S gradual F) fuel m (townLocked ds iv sh) = .done x ∧ x.2.1 = ⟨.fin m, m, 1⟩ ∧
      (∀ e ∈ x.1.log, e.isAct = true → e.time < .fin m) ∧
      ∀ (i : Nat) (d : Bool × Nat), ds[i]? = some d → ∃ a due, x.2.2.town.drivers[i]? = some a ∧
        Travels S gradual iv i d.2 x.1.log a due ∧ m ≤ due := by
  have hlock : ∀ (x y : Sched × Lock × TownSim) (E : Time) (fuel : Nat), lockLoop (townHost Lock S gradual F) E fuel x = .done y → y.2.1 = x.2.1 :=
    fun x y E fuel h => lockLoop_lock (fun _ _ _ => rfl) (fun _ _ => rfl) h
  have gen : ∀ (m j : Nat) (x : Sched × Lock × TownSim), TownOk S gradual iv ds x → x.2.1 = ⟨.fin j, j, 1⟩ →
      (∀ e ∈ x.1.log, e.isAct = true → e.time < .fin j) → Time.fin j ≤ x.1.time →
      ∃ fuel₀, ∀ fuel ≥ fuel₀, ∃ y, lockRun (townHost Lock S gradual F) fuel m x = .done y ∧ y.2.1 = ⟨.fin (j + m : Nat), j + m, 1⟩ ∧
        TownOk S gradual iv ds y ∧ (∀ e ∈ y.1.log, e.isAct = true → e.time < .fin (j + m : Nat)) ∧ Time.fin (j + m : Nat) ≤ y.1.time := by
    intro m
    induction m with
    | zero => exact fun j x h1 h2 h3 h4 => ⟨0, fun fuel _ => ⟨x, rfl, h2, h1, h3, h4⟩⟩
    | succ m ih =>
      intro j x h1 h2 h3 h4
      have hend : x.2.1.time + x.2.1.interval = Time.fin ((j + 1 : Nat) : Rat) := by
        rw [h2]
        show Time.fin ((j : Rat) + 1) = _
        push_cast
        rfl
      have hlt : Time.fin (j : Rat) < .fin ((j + 1 : Nat) : Rat) := by
        rw [Time.fin_lt]
        push_cast
        linarith
      obtain ⟨k, hk⟩ := town_passes hS hds gradual hF hδ hiv hn h1 ((j + 1 : Nat) : Rat)
      have hl := town_lockLoop hS hds gradual hF k x h1 hk (fun e he ha => lt_trans (h3 e he ha) hlt)
      obtain ⟨z, hz, z1, z2, z3⟩ := hl k (le_refl _)
      have hzl : z.2.1 = ⟨.fin j, j, 1⟩ := (hlock _ _ _ _ hz).trans h2
      obtain ⟨f0, hf0⟩ := ih (j + 1) (z.1, { z.2.1 with time := .fin ((j + 1 : Nat) : Rat), steps := z.2.1.steps + 1 }, z.2.2)
        ⟨z1.inv, z1.interval, z1.good, z1.fine⟩ (by simp only [hzl]) z3 z2
      refine ⟨max k f0, fun fuel hf => ?_⟩
      obtain ⟨y, hy, y1, y2, y3, y4⟩ := hf0 fuel (le_trans (le_max_right _ _) hf)
      have hzf : lockLoop (townHost Lock S gradual F) (.fin ((j + 1 : Nat) : Rat)) fuel x = .done z :=
        lockLoop_fuel hz (le_trans (le_max_left _ _) hf)
      have e : j + 1 + m = j + (m + 1) := by omega
      rw [e] at y1 y3 y4
      refine ⟨y, ?_, y1, y2, y3, y4⟩
      unfold lockRun
      have : lockStep (townHost Lock S gradual F) fuel x =
          .done (z.1, { z.2.1 with time := .fin ((j + 1 : Nat) : Rat), steps := z.2.1.steps + 1 }, z.2.2) := by
        unfold lockStep
        simp only [hend, hzf]
      rw [this]
      exact hy
  have hiv0 : 0 < iv := lt_of_lt_of_le hδ hiv
  have h0 : TownOk S gradual iv ds (townLocked ds iv sh) := townStart_ok S gradual hiv0 ds sh _
  have hno : ∀ e ∈ (townLocked ds iv sh).1.log, e.isAct = true → e.time < .fin ((0 : Nat) : Rat) := by
    intro e he ha
    exfalso
    have : ∀ (os : List SOp) (s : Sched), (∀ e ∈ s.log, e.isAct = false) → ∀ e ∈ (s.applyOps os).log, e.isAct = false := by
      intro os
      induction os with
      | nil => exact fun s h => h
      | cons o os ih =>
        intro s h
        refine ih _ ?_
        cases o with
        | add r t =>
          intro e he
          simp only [Sched.applyOp, Sched.addAgent, Sched.schedule, List.mem_append, List.mem_singleton] at he
          rcases he with he | rfl
          · exact h e he
          · rfl
        | remove r => exact h
        | stop => exact h
    have hf := this ((List.range ds.length).map (fun r => .add r none)) (Sched.init (.fin iv) sh) (by intro e he; cases he) e he
    rw [hf] at ha
    cases ha
  obtain ⟨f0, hf0⟩ := gen m 0 (townLocked ds iv sh) h0 (by
    simp only [townLocked, townStart, roundsStart, Lock.init, Sched.init]
    rfl) hno h0.inv.time_nonneg
  refine ⟨f0, fun fuel hf => ?_⟩
  obtain ⟨x, e1, e2, e3, e4, e5⟩ := hf0 fuel hf
  rw [Nat.zero_add] at e2 e4 e5
  refine ⟨x, e1, e2, e4, fun i d hd => ?_⟩
  obtain ⟨a, due, g1, g2, g3⟩ := e3.due i d hd
  exact ⟨a, due, g1, g2, Time.fin_le.1 (le_trans e5 g3)⟩

/-- C238 is false without drivers (`n_assets=0`), with `lockstep=True`: the first step of the environment never comes to its end. -/
theorem C238_empty_false (S : Streets) (gradual : Bool) (F : Fate) (iv : Rat) (sh : Bool) (fuel : Nat) :
    lockStep (townHost Lock S gradual F) fuel (townLocked [] iv sh) = .running (townLocked [] iv sh) :=
  C14_lockstep_hangs_when_empty _ _ rfl (by show (0 : Time) < 0 + 1; decide +kernel) fuel

/-- C238: after any number of steps, in any city, even after an exception, the occupation of an edge is the number of drivers that have started along it and have
not arrived, and the list of every intersection consists of the drivers that are there, none twice. -/
theorem C238_occupation (S : Streets) (ds : List (Bool × Nat)) (gradual : Bool) (F : Fate) (iv : Rat) (sh : Bool) (k : Nat) :
    let c := (townRun S gradual F ds iv sh k).2.2.town
    (∀ e, c.occ e = c.drivers.countP (Driver.onEdge S e)) ∧
    ∀ n, (c.cells n).Nodup ∧ ∀ i, i ∈ c.cells n ↔ ∃ a, c.drivers[i]? = some a ∧ a.pos = n := by
  intro c
  have h : c.Ok S := by
    have := stepsKeep (townHost Unit S gradual F) (fun w => w.2.town.Ok S) (fun r s w h => h.act gradual r _ _) (fun l w h => h) k
      (townStart () ds iv sh) (Town.init_ok S ds)
    rw [← iterStep_timed] at this
    exact this
  exact ⟨h.occ, fun n => ⟨h.nodup n, fun i => h.mem i n⟩⟩

/-- What drivers leave alone, and the chances they use up: the invariant of `C238_agents`. -/
private def TownKept {L : Type} (n : Nat) (s : Sched) (w : L × TownSim) : Prop :=
  s.agents = List.range n ∧ s.running = true ∧ (actRefs s.log).length ≤ w.2.used ∧ (s.shuffle = false → w.2.used = (actRefs s.log).length)

private theorem TownKept.act {L : Type} {n : Nat} {S : Streets} {gradual : Bool} {F : Fate} {s : Sched} {w : L × TownSim} (h : TownKept n s w)
    (r : Ref) (now : Time) :
    TownKept n (afterAct (s.applyOps ((townHost L S gradual F).step r s w).2.1) r now ((townHost L S gradual F).step r s w).1)
      ((townHost L S gradual F).step r s w).2.2 := by
  obtain ⟨h1, h2, h3, h4⟩ := h
  have ha : ∀ rep, (afterAct s r now rep).agents = s.agents ∧ (afterAct s r now rep).running = s.running := by
    intro rep
    cases rep with
    | ret d => by_cases hh : Time.pyOr d s.interval + now = .inf <;> simp [afterAct, Sched.logAct, Sched.schedule, hh]
    | dead => exact ⟨rfl, rfl⟩
    | error => exact ⟨rfl, rfl⟩
  have hl : ∀ rep, (actRefs (afterAct s r now rep).log).length = (actRefs s.log).length + 1 := by
    intro rep
    rw [afterAct_log, actRefs_append, List.length_append]
    rfl
  refine ⟨(ha _).1.trans h1, (ha _).2.trans h2, ?_, ?_⟩
  · exact (hl _).le.trans (Nat.succ_le_succ h3)
  · intro hs
    have hs' : s.shuffle = false := (afterAct_shuffle s r now _).symm.trans hs
    exact (congrArg (· + 1) (h4 hs')).trans (hl _).symm

private theorem TownKept.bucket {L : Type} {n : Nat} {S : Streets} {gradual : Bool} {F : Fate} (now : Time) (b : List Ref) {s : Sched} {w : L × TownSim}
    (h : TownKept n s w) :
    TownKept n (runBucket (townHost L S gradual F) now b s w).1 (runBucket (townHost L S gradual F) now b s w).2.1 := by
  induction b generalizing s w with
  | nil => exact h
  | cons r b ih =>
    rw [runBucket_cons]
    simp only
    split
    · exact h.act r now
    · exact ih (h.act r now)

private theorem TownKept.step {L : Type} {n : Nat} {S : Streets} {gradual : Bool} {F : Fate} {s : Sched} {w : L × TownSim} (h : TownKept n s w) :
    TownKept n (s.step (townHost L S gradual F) w).1 (s.step (townHost L S gradual F) w).2.1 := by
  simp only [Sched.step]
  split
  · exact h
  · rename_i t b q _
    split
    · exact h
    · have h0 : TownKept n { s with queue := q } (runOrder (townHost L S gradual F) s b w).2 := by
        obtain ⟨h1, h2, h3, h4⟩ := h
        simp only [runOrder]
        split
        · rename_i hs
          exact ⟨h1, h2, Nat.le_succ_of_le h3, fun hf => absurd (hs.symm.trans hf) (by decide)⟩
        · exact ⟨h1, h2, h3, h4⟩
      have := h0.bucket (S := S) (gradual := gradual) (F := F) s.time (runOrder (townHost L S gradual F) s b w).1
      simp only [finishStep]
      split
      · exact this
      · exact this

/-- C238: after any number of steps, in any city, even after an exception, the scheduler has all the drivers and nobody else, in the order in which they
were added, and the simulation has not been stopped: nobody leaves, and nobody arrives. Every activation has a chance of its own: when the scheduler does not
shuffle, as many have been used as drivers have been activated; when it does, no less. -/
theorem C238_agents (S : Streets) (ds : List (Bool × Nat)) (gradual : Bool) (F : Fate) (iv : Rat) (sh : Bool) (k : Nat) :
    let x := townRun S gradual F ds iv sh k
    x.1.agents = List.range ds.length ∧ x.1.running = true ∧ (actRefs x.1.log).length ≤ x.2.2.used ∧
      (sh = false → x.2.2.used = (actRefs x.1.log).length) := by
  intro x
  have h : TownKept ds.length x.1 x.2 ∧ x.1.shuffle = sh := by
    simp only [x, townRun]
    induction k with
    | zero =>
      obtain ⟨h1, h2, h3, h4, h5, h6⟩ := noop_adds ds.length (.fin iv) sh
      obtain ⟨l, hl, hl'⟩ := applyOps_log (Sched.init (.fin iv) sh) ((List.range ds.length).map (fun r => .add r none))
      have hz : (actRefs (townStart () ds iv sh).1.log).length = 0 := by
        have : (townStart () ds iv sh).1.log = [] ++ l := hl
        rw [this, List.nil_append, hl']
        rfl
      exact ⟨⟨h2, h6, hz.le, fun _ => hz.symm⟩, rounds_adds ds.length (.fin iv) sh⟩
    | succ k ih =>
      rw [iterStep_succ]
      exact ⟨ih.1.step, (step_shuffle _ _ _).trans ih.2⟩
  exact ⟨h.1.1, h.1.2.1, h.1.2.2.1, fun hs => h.1.2.2.2 (h.2.trans hs)⟩

/-- A town with three intersections in a row: from 0 to 1 it takes 1/2 (or 3, on a second street), from 1 to 2 it takes 2. -/
def rowTown : Streets where
  directed := false
  nbrs u := if u = 1 then [0, 2] else [1]
  times u v := if u + v = 1 then [3, 1 / 2] else [2]
  key0 _ _ := true

/-- Chance: always the next neighbour in turn, and nothing is shuffled. -/
def rowFate : Fate where
  pick k := k
  draw _ := 1 / 2
  order _ l := l
  perm _ l := List.Perm.refl l

theorem rowTown_drivable (ds : List (Bool × Nat)) : rowTown.Drivable ds where
  out u := by simp only [rowTown]; split <;> simp
  time u v _ := by
    simp only [Streets.travelTime, rowTown]
    split
    · rename_i h
      split at h
      · cases h
      · cases h
    · rename_i t ts h
      split at h
      · cases h; exact ⟨1 / 2, by decide +kernel, by norm_num, fun _ => by norm_num⟩
      · cases h; exact ⟨2, rfl, by norm_num, fun _ => by norm_num⟩
  key _ _ _ _ := rfl

set_option maxRecDepth 100000 in
example :
    (townRun rowTown true rowFate [(false, 0), (false, 2)] 1 true 5).1.log =
      [.added 0 0, .added 1 0, .act 0 0 (.ret (some (.fin (1 / 2)))), .act 1 0 (.ret (some 2)), .act 0 (.fin (1 / 2)) (.ret (some 0)),
        .act 0 (.fin (3 / 2)) (.ret (some (.fin (1 / 2)))), .act 1 2 (.ret (some 0)), .act 0 2 (.ret (some 0)),
        .act 1 3 (.ret (some 2)), .act 0 3 (.ret (some (.fin (1 / 2))))] ∧
    (townRun rowTown true rowFate [(false, 0), (false, 2)] 1 true 5).2.2.town.drivers = [⟨false, 0, some 1, true⟩, ⟨false, 1, some 2, true⟩] ∧
    (townRun rowTown false rowFate [(false, 0), (false, 2)] 1 true 5).1.time = 5 ∧
    (lockRun (townHost Lock rowTown true rowFate) 10 3 (townLocked [(false, 0), (false, 2)] 1 true)).returned
      (fun x => decide (x.1.log.length = 8 ∧ x.2.1 = ⟨3, 3, 1⟩)) = true ∧
    (townRun rowTown true rowFate [(false, 0), (false, 2)] 1 false 5).2.2.used = 6 := by
  decide +kernel

end Verif
