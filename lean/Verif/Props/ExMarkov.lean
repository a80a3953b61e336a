import Verif.Model.ExMarkov
import Verif.Proofs.Random
import Mathlib.Algebra.BigOperators.Group.List.Basic
import Mathlib.Tactic.Ring

/-!
# C146-C151: drivers in a city
-/

namespace Verif

/-- Driver `a` is on its way along the edge `e`. -/
def Driver.onEdge (S : Streets) (e : Nat × Nat) (a : Driver) : Bool :=
  match a.target with
  | some d => decide (d ≠ a.pos ∧ S.edge a.pos d = e)
  | none => false

theorem countP_set {α : Type} (p : α → Bool) (l : List α) (i : Nat) (a b : α) (h : l[i]? = some a) :
    ((l.set i b).countP p : Int) = l.countP p - (if p a then 1 else 0) + (if p b then 1 else 0) := by
  induction l generalizing i with
  | nil => simp at h
  | cons x l ih =>
    cases i with
    | zero =>
      simp only [List.getElem?_cons_zero, Option.some.injEq] at h
      subst h
      simp only [List.set_cons_zero, List.countP_cons]
      push_cast
      split <;> split <;> omega
    | succ i =>
      simp only [List.getElem?_cons_succ] at h
      simp only [List.set_cons_succ, List.countP_cons]
      push_cast
      rw [ih i h]
      ring

/-- What is invariant. -/
structure Town.Ok (S : Streets) (c : Town) : Prop where
  occ : ∀ e, c.occ e = c.drivers.countP (Driver.onEdge S e)
  mem : ∀ i n, i ∈ c.cells n ↔ ∃ a, c.drivers[i]? = some a ∧ a.pos = n
  nodup : ∀ n, (c.cells n).Nodup

theorem Town.init_ok (S : Streets) (ds : List (Bool × Nat)) : (Town.init ds).Ok S := by
  refine ⟨?_, ?_, ?_⟩
  · intro e
    have : (Town.init ds).drivers.countP (Driver.onEdge S e) = 0 := by
      rw [List.countP_eq_zero]
      intro a ha
      obtain ⟨d, _, rfl⟩ := List.mem_map.1 ha
      simp [Driver.onEdge]
    rw [this]
    rfl
  · intro i n
    simp only [Town.init, List.mem_filter, List.mem_range, decide_eq_true_eq, List.getElem?_map]
    constructor
    · rintro ⟨_, h⟩
      obtain ⟨d, hd, rfl⟩ := Option.map_eq_some_iff.1 h
      exact ⟨_, by rw [hd]; rfl, rfl⟩
    · rintro ⟨a, h, rfl⟩
      obtain ⟨d, hd, rfl⟩ := Option.map_eq_some_iff.1 h
      exact ⟨(List.getElem?_eq_some_iff.1 hd).1, by rw [hd]; rfl⟩
  · intro n
    exact List.nodup_range.filter _

theorem Town.set_same (S : Streets) (c : Town) (h : c.Ok S) (i : Nat) (a b : Driver) (ha : c.drivers[i]? = some a) (hpos : b.pos = a.pos)
    (occ : Nat × Nat → Int) (hocc : ∀ e, occ e = c.occ e - (if a.onEdge S e then 1 else 0) + (if b.onEdge S e then 1 else 0)) :
    ({ c with drivers := c.drivers.set i b, occ := occ } : Town).Ok S := by
  have hlt := (List.getElem?_eq_some_iff.1 ha).1
  refine ⟨?_, ?_, h.nodup⟩
  · intro e
    show occ e = _
    rw [hocc, h.occ, countP_set _ _ i a b ha]
  · intro j n
    show j ∈ c.cells n ↔ _
    rw [h.mem]
    by_cases hj : j = i
    · subst hj
      simp only [List.getElem?_set_self hlt, Option.some.injEq, exists_eq_left', ha, hpos]
    · simp only [List.getElem?_set_ne (Ne.symm hj)]

theorem Town.move_ok (S : Streets) (c : Town) (i : Nat) (a : Driver) (dst : Nat) (ha : c.drivers[i]? = some a)
    (hocc : ∀ e, c.occ e = c.drivers.countP (Driver.onEdge S e) - (if a.onEdge S e then 1 else 0))
    (hmem : ∀ i n, i ∈ c.cells n ↔ ∃ a, c.drivers[i]? = some a ∧ a.pos = n) (hnd : ∀ n, (c.cells n).Nodup) :
    (c.moveAgent i a dst).Ok S := by
  have hlt := (List.getElem?_eq_some_iff.1 ha).1
  have hcell : ∀ j n, (j ∈ if n = a.pos then (c.cells n).erase i else c.cells n) ↔ j ≠ i ∧ j ∈ c.cells n := by
    intro j n
    split
    · exact (hnd n).mem_erase_iff
    · rename_i hn
      constructor
      · intro hj
        refine ⟨?_, hj⟩
        rintro rfl
        obtain ⟨b, hb, hbn⟩ := (hmem _ _).1 hj
        rw [ha] at hb
        cases hb
        exact hn hbn.symm
      · exact fun h => h.2
  refine ⟨?_, ?_, ?_⟩
  · intro e
    show c.occ e = _
    simp only [Town.moveAgent]
    rw [countP_set _ _ i a _ ha, hocc]
    simp [Driver.onEdge]
  · intro j n
    simp only [Town.moveAgent]
    by_cases hj : j = i
    · subst hj
      simp only [List.getElem?_set_self hlt, Option.some.injEq, exists_eq_left']
      split
      · rename_i hn
        simp [hn]
      · rename_i hn
        rw [hcell]
        simp only [ne_eq, not_true_eq_false, false_and, false_iff]
        exact fun h => hn h.symm
    · simp only [List.getElem?_set_ne (Ne.symm hj)]
      rw [← hmem]
      split
      · rw [List.mem_append, hcell]
        simp [hj]
      · rw [hcell]
        simp [hj]
  · intro n
    simp only [Town.moveAgent]
    have h1 : (if n = a.pos then (c.cells n).erase i else c.cells n).Nodup := by
      split
      · exact (hnd n).erase i
      · exact hnd n
    split
    · rw [List.nodup_append]
      refine ⟨h1, by simp, ?_⟩
      intro x hx y hy
      rw [hcell] at hx
      simp only [List.mem_singleton] at hy
      rw [hy]
      exact hx.1
    · exact h1

theorem Town.Ok.act {S : Streets} {c : Town} (h : c.Ok S) (gradual : Bool) (i k : Nat) (r : Rat) : (c.act S gradual i k r).1.Ok S := by
  unfold Town.act
  cases ha : c.drivers[i]? with
  | none => exact h
  | some a =>
    simp only
    cases ht : a.target with
    | some dst =>
      simp only
      split
      · rename_i hd
        refine Town.move_ok S c i a dst ha ?_ h.mem h.nodup
        intro e
        rw [h.occ]
        simp [Driver.onEdge, ht, hd]
      · rename_i hd
        refine Town.move_ok S (c.addOcc (S.edge a.pos dst) (-1)) i a dst ha ?_ h.mem h.nodup
        intro e
        simp only [Town.addOcc, h.occ]
        by_cases he : e = S.edge a.pos dst
        · subst he
          simp [Driver.onEdge, ht, hd]
          ring
        · have : ¬ (S.edge a.pos dst = e) := fun h => he h.symm
          simp [Driver.onEdge, ht, he, this]
    | none =>
      simp only
      have hn : ∀ e, a.onEdge S e = false := fun e => by simp [Driver.onEdge, ht]
      have keep : ({ c with drivers := c.drivers.set i ⟨a.picky, a.pos, none, true⟩ } : Town).Ok S := by
        refine Town.set_same S c h i a ⟨a.picky, a.pos, none, true⟩ ha rfl c.occ ?_
        intro e
        have : Driver.onEdge S e ⟨a.picky, a.pos, none, true⟩ = false := by simp [Driver.onEdge]
        simp [hn, this]
      cases hc : S.chooseNext a k r with
      | none => simp only; exact keep
      | some p =>
        obtain ⟨dst, delay⟩ := p
        simp only
        split
        · split
          · rename_i hd
            refine Town.set_same S c h i a { a with waiting := true, target := some dst } ha rfl c.occ ?_
            intro e
            have : Driver.onEdge S e { a with waiting := true, target := some dst } = false := by simp [Driver.onEdge, hd]
            simp [hn, this]
          · rename_i hd
            split
            · refine Town.set_same S c h i a { a with waiting := true, target := some dst } ha rfl
                (fun f => if f = S.edge a.pos dst then c.occ f + 1 else c.occ f) ?_
              intro e
              rw [hn]
              by_cases he : e = S.edge a.pos dst
              · subst he
                simp [Driver.onEdge, hd]
              · have : ¬ (S.edge a.pos dst = e) := fun h => he h.symm
                simp [Driver.onEdge, he, this]
            · exact keep
        · refine Town.move_ok S c i a dst ha ?_ h.mem h.nodup
          intro e
          rw [h.occ]
          simp [hn]

theorem Town.run_induct (S : Streets) (gradual : Bool) (Q : Town → Prop) (hs : ∀ c i k r, Q c → Q (c.act S gradual i k r).1)
    (h : List (Nat × Nat × Rat)) (c : Town) (hc : Q c) : Q (Town.run S gradual h c) := by
  induction h generalizing c with
  | nil => exact hc
  | cons e h ih =>
    obtain ⟨i, k, r⟩ := e
    simp only [Town.run]
    split
    · exact hs c i k r hc
    · exact ih _ (hs c i k r hc)

theorem Town.run_ok (S : Streets) (gradual : Bool) (ds : List (Bool × Nat)) (h : List (Nat × Nat × Rat)) :
    (Town.run S gradual h (Town.init ds)).Ok S :=
  Town.run_induct S gradual (fun c => c.Ok S) (fun _ i k r hc => hc.act gradual i k r) h _ (Town.init_ok S ds)

/-- C146: at any time, whatever the streets, the schedule and the random numbers, the occupation of an edge is the number of drivers that
have started along it and have not arrived. -/
theorem C146_occupation (S : Streets) (gradual : Bool) (ds : List (Bool × Nat)) (h : List (Nat × Nat × Rat)) (e : Nat × Nat) :
    (Town.run S gradual h (Town.init ds)).occ e =
      (Town.run S gradual h (Town.init ds)).drivers.countP
        (Driver.onEdge S e) :=
  (Town.run_ok S gradual ds h).occ e

/-- C146: the drivers that count are those on the way from `u` to `v` and, if streets have no directions, from `v` to `u`. -/
theorem C146_directions (S : Streets) (gradual : Bool) (ds : List (Bool × Nat)) (h : List (Nat × Nat × Rat)) (u v : Nat) (huv : u ≠ v) :
    (Town.run S gradual h (Town.init ds)).occ (S.edge u v) =
      (Town.run S gradual h (Town.init ds)).drivers.countP
        (fun a => decide ((a.pos = u ∧ a.target = some v) ∨ (S.directed = false ∧ a.pos = v ∧ a.target = some u))) := by
  rw [C146_occupation]
  congr 1
  refine List.countP_congr (fun a _ => ?_)
  unfold Driver.onEdge Streets.edge
  cases ht : a.target with
  | none => simp
  | some d =>
    simp only [decide_eq_true_eq, Option.some.injEq]
    cases S.directed
    · simp only [Bool.false_eq_true, if_false, Prod.mk.injEq, true_and]
      omega
    · simp only [if_true, Prod.mk.injEq, Bool.true_eq_false, false_and, or_false]
      omega

theorem occ_le_aux (S : Streets) (es : List (Nat × Nat)) (hes : es.Nodup) (l : List Driver) :
    (es.map (fun e => (l.countP (Driver.onEdge S e) : Int))).sum ≤ l.length := by
  induction l with
  | nil => simp
  | cons a l ih =>
    have key : (es.map (fun e => ((a :: l).countP (Driver.onEdge S e) : Int))).sum =
        (es.map (fun e => (l.countP (Driver.onEdge S e) : Int))).sum + (es.countP (fun e => a.onEdge S e) : Int) := by
      clear ih hes
      induction es with
      | nil => simp
      | cons e es ih2 =>
        rw [List.map_cons, List.sum_cons, ih2, List.map_cons, List.sum_cons, List.countP_cons, List.countP_cons]
        push_cast
        ring
    have one : es.countP (fun e => a.onEdge S e) ≤ 1 := by
      unfold Driver.onEdge
      cases a.target with
      | none => simp
      | some d =>
        refine le_trans ?_ (List.nodup_iff_count.1 hes (S.edge a.pos d))
        rw [List.count]
        apply List.countP_mono_left
        intro e _ he
        simp only [decide_eq_true_eq] at he
        simp [he.2]
    rw [key]
    simp only [List.length_cons]
    push_cast
    have : (es.countP (fun e => a.onEdge S e) : Int) ≤ 1 := by exact_mod_cast one
    omega

/-- C146: no occupation is negative, together they are at most the number of drivers, and without `gradual_move` all are 0. -/
theorem C146_bounds (S : Streets) (gradual : Bool) (ds : List (Bool × Nat)) (h : List (Nat × Nat × Rat)) :
    (∀ e, 0 ≤ (Town.run S gradual h (Town.init ds)).occ e) ∧
    (∀ es : List (Nat × Nat), es.Nodup → (es.map (Town.run S gradual h (Town.init ds)).occ).sum ≤ ds.length) ∧
    (gradual = false → ∀ e, (Town.run S gradual h (Town.init ds)).occ e = 0) := by
  have hok := Town.run_ok S gradual ds h
  have hlen : (Town.run S gradual h (Town.init ds)).drivers.length = ds.length := by
    refine Town.run_induct S gradual (fun c => c.drivers.length = ds.length) ?_ h _ (by simp [Town.init])
    intro c i k r hc
    unfold Town.act
    repeat' split
    all_goals simp_all [Town.moveAgent, Town.addOcc]
  refine ⟨?_, ?_, ?_⟩
  · intro e
    rw [hok.occ]
    exact Int.natCast_nonneg _
  · intro es hes
    have : es.map (Town.run S gradual h (Town.init ds)).occ =
        es.map (fun e => ((Town.run S gradual h (Town.init ds)).drivers.countP (Driver.onEdge S e) : Int)) :=
      List.map_congr_left (fun e _ => hok.occ e)
    rw [this, ← hlen]
    exact occ_le_aux S es hes _
  · intro hg e
    have : ∀ a ∈ (Town.run S gradual h (Town.init ds)).drivers, a.target = none := by
      refine Town.run_induct S gradual (fun c => ∀ a ∈ c.drivers, a.target = none) ?_ h _ ?_
      · intro c i k r hc
        unfold Town.act
        cases ha : c.drivers[i]? with
        | none => exact hc
        | some a =>
          simp only [hc a (List.mem_of_getElem? ha)]
          have hset : ∀ b : Driver, b.target = none → ∀ x ∈ c.drivers.set i b, x.target = none := by
            intro b hb x hx
            rcases List.mem_or_eq_of_mem_set hx with hx | rfl
            · exact hc x hx
            · exact hb
          cases S.chooseNext a k r with
          | none => exact hset _ rfl
          | some p =>
            simp only [hg, Bool.false_eq_true, if_false]
            exact hset _ rfl
      · intro a ha
        obtain ⟨d, _, rfl⟩ := List.mem_map.1 ha
        rfl
    rw [hok.occ, List.countP_eq_zero.2]
    · rfl
    · intro a ha
      simp [Driver.onEdge, this a ha]

/-- C147: at any time the list of agents of every intersection consists of the drivers that are there, none twice. -/
theorem C147_cells (S : Streets) (gradual : Bool) (ds : List (Bool × Nat)) (h : List (Nat × Nat × Rat)) (n : Nat) :
    ((Town.run S gradual h (Town.init ds)).cells n).Nodup ∧
    (∀ i, i ∈ (Town.run S gradual h (Town.init ds)).cells n ↔
      ∃ a, (Town.run S gradual h (Town.init ds)).drivers[i]? = some a ∧ a.pos = n) :=
  ⟨(Town.run_ok S gradual ds h).nodup n, fun i => (Town.run_ok S gradual ds h).mem i n⟩

theorem cells_perm {S : Streets} {c : Town} (h : c.Ok S) (n : Nat) : (c.cells n).length = c.drivers.countP (fun a => decide (a.pos = n)) := by
  have hp : List.Perm (c.cells n) ((List.range c.drivers.length).filter (fun i => decide ((c.drivers[i]?).map Driver.pos = some n))) := by
    refine (List.perm_ext_iff_of_nodup (h.nodup n) (List.nodup_range.filter _)).2 ?_
    intro i
    rw [h.mem]
    simp only [List.mem_filter, List.mem_range, decide_eq_true_eq]
    constructor
    · rintro ⟨a, ha, rfl⟩
      exact ⟨(List.getElem?_eq_some_iff.1 ha).1, by rw [ha]; rfl⟩
    · rintro ⟨_, he⟩
      obtain ⟨a, ha, rfl⟩ := Option.map_eq_some_iff.1 he
      exact ⟨a, ha, rfl⟩
  rw [hp.length_eq]
  generalize c.drivers = l
  induction l with
  | nil => rfl
  | cons a l ih =>
    rw [List.length_cons, List.range_succ_eq_map, List.filter_cons, List.countP_cons, ← ih]
    simp only [List.getElem?_cons_zero, Option.map_some, Option.some.injEq, decide_eq_true_eq]
    rw [List.filter_map, apply_ite List.length, List.length_cons, List.length_map]
    have : ((fun i => decide (Option.map Driver.pos (a :: l)[i]? = some n)) ∘ Nat.succ) =
        (fun i => decide (Option.map Driver.pos l[i]? = some n)) := by
      funext i
      simp
    rw [this]
    split <;> rfl

/-- C147: the node occupations sum to the number of drivers: for every list of different intersections that contains the positions of
all drivers. -/
theorem C147_total (S : Streets) (gradual : Bool) (ds : List (Bool × Nat)) (h : List (Nat × Nat × Rat)) (ns : List Nat) (hns : ns.Nodup)
    (hall : ∀ a ∈ (Town.run S gradual h (Town.init ds)).drivers, a.pos ∈ ns) :
    (ns.map (fun n => ((Town.run S gradual h (Town.init ds)).cells n).length)).sum =
      (Town.run S gradual h (Town.init ds)).drivers.length := by
  have hok := Town.run_ok S gradual ds h
  rw [List.map_congr_left (fun n _ => cells_perm hok n)]
  generalize (Town.run S gradual h (Town.init ds)).drivers = l at hall
  induction l with
  | nil => simp
  | cons a l ih =>
    have hin := hall a (by simp)
    have h1 := ih (fun b hb => hall b (by simp [hb]))
    rw [List.length_cons, ← h1]
    clear ih h1
    have hc : ns.countP (fun n => decide (a.pos = n)) = 1 := by
      have : ns.count a.pos = 1 := le_antisymm (List.nodup_iff_count.1 hns a.pos) (List.count_pos_iff.2 hin)
      rw [List.count] at this
      rw [← this]
      congr 1
      funext n
      by_cases he : a.pos = n
      · simp [he]
      · have : ¬ n = a.pos := fun e => he e.symm
        simp [he, this]
    rw [← hc]
    clear hc hns hall hin
    induction ns with
    | nil => simp
    | cons n ns ih2 =>
      rw [List.map_cons, List.sum_cons, ih2, List.map_cons, List.sum_cons, List.countP_cons, List.countP_cons]
      ring

theorem mapM_get {α β : Type} {f : α → Option β} {l : List α} {ys : List β} (h : l.mapM f = some ys) (i : Nat) (x : α) (y : β)
    (hx : l[i]? = some x) (hy : ys[i]? = some y) : f x = some y := by
  induction l generalizing ys i with
  | nil => simp at hx
  | cons a l ih =>
    rw [List.mapM_cons] at h
    cases ha : f a with
    | none => rw [ha] at h; cases h
    | some b =>
      rw [ha] at h
      cases hl : l.mapM f with
      | none => rw [hl] at h; cases h
      | some bs =>
        rw [hl] at h
        cases h
        cases i with
        | zero =>
          simp only [List.getElem?_cons_zero, Option.some.injEq] at hx hy
          rw [← hx, ← hy, ha]
        | succ i => exact ih hl i (by simpa using hx) (by simpa using hy)

theorem chooseNext_nbr (S : Streets) (a : Driver) (k : Nat) (r : Rat) (dst : Nat) (t' : Rat) (hc : S.chooseNext a k r = some (dst, t')) :
    dst ∈ S.nbrs a.pos ∧ S.travelTime a.pos dst = some t' := by
  unfold Streets.chooseNext at hc
  simp only at hc
  split at hc
  · cases hm : (S.nbrs a.pos).mapM (S.travelTime a.pos) with
    | none => rw [hm] at hc; cases hc
    | some times =>
      rw [hm] at hc
      simp only at hc
      split at hc
      · cases hc
      · split at hc
        · rename_i idx rest hch
          split at hc
          · rename_i p t'' hp htt
            cases hc
            refine ⟨List.mem_of_getElem? hp, ?_⟩
            exact mapM_get hm idx dst t' hp htt
          · cases hc
        · cases hc
  · cases hp : (S.nbrs a.pos)[k % (S.nbrs a.pos).length]? with
    | none => rw [hp] at hc; cases hc
    | some p =>
      rw [hp] at hc
      obtain ⟨t'', h1, h2⟩ := Option.map_eq_some_iff.1 hc
      cases h2
      exact ⟨List.mem_of_getElem? hp, h1⟩

theorem mapM_length {α β : Type} {f : α → Option β} {l : List α} {ys : List β} (h : l.mapM f = some ys) : l.length = ys.length := by
  induction l generalizing ys with
  | nil => cases h; rfl
  | cons a l ih =>
    rw [List.mapM_cons] at h
    cases ha : f a with
    | none => rw [ha] at h; cases h
    | some b =>
      rw [ha] at h
      cases hl : l.mapM f with
      | none => rw [hl] at h; cases h
      | some bs =>
        rw [hl] at h
        cases h
        simp [ih hl]

/-- C148: the travel time between two intersections is that of the fastest street between them. -/
theorem C148_fastest (S : Streets) (u v : Nat) (t : Rat) :
    S.travelTime u v = some t ↔ t ∈ S.times u v ∧ ∀ s ∈ S.times u v, t ≤ s := by
  have key : ∀ (l : List Rat) (a : Rat), (l.foldl min a ∈ a :: l) ∧ ∀ s ∈ a :: l, l.foldl min a ≤ s := by
    intro l
    induction l with
    | nil => intro a; simp
    | cons b l ih =>
      intro a
      obtain ⟨h1, h2⟩ := ih (min a b)
      simp only [List.foldl_cons]
      refine ⟨?_, ?_⟩
      · rcases List.mem_cons.1 h1 with h1 | h1
        · rw [h1]
          rcases min_choice a b with h | h <;> rw [h] <;> simp
        · simp [h1]
      · intro s hs
        have h0 := h2 (min a b) (by simp)
        rcases List.mem_cons.1 hs with rfl | hs
        · exact le_trans h0 (min_le_left _ _)
        · rcases List.mem_cons.1 hs with rfl | hs
          · exact le_trans h0 (min_le_right _ _)
          · exact h2 s (by simp [hs])
  unfold Streets.travelTime
  cases hl : S.times u v with
  | nil => simp
  | cons a l =>
    obtain ⟨h1, h2⟩ := key l a
    simp only [Option.some.injEq]
    constructor
    · rintro rfl
      exact ⟨h1, h2⟩
    · rintro ⟨h3, h4⟩
      exact le_antisymm (h2 t h3) (h4 _ h1)

/-- C148: with `gradual_move` a driver first asks for the travel time of the fastest street to a neighbouring intersection, and moves there when it is
activated again. -/
theorem C148_start (S : Streets) (c : Town) (i k : Nat) (r : Rat) (a : Driver) (ha : c.drivers[i]? = some a) (ht : a.target = none)
    (t : Rat) (hw : (c.act S true i k r).2 = .wait t) :
    ∃ dst, dst ∈ S.nbrs a.pos ∧ S.travelTime a.pos dst = some t ∧
      (c.act S true i k r).1.drivers = c.drivers.set i { a with waiting := true, target := some dst } ∧
      ∀ c' : Town, c'.drivers[i]? = some { a with waiting := true, target := some dst } → ∀ k' r',
        (c'.act S true i k' r').2 = .wait 0 ∧
        (c'.act S true i k' r').1.drivers = c'.drivers.set i { a with pos := dst, target := none, waiting := false } := by
  have next : ∀ dst, ∀ c' : Town, c'.drivers[i]? = some { a with waiting := true, target := some dst } → ∀ k' r',
        (c'.act S true i k' r').2 = .wait 0 ∧
        (c'.act S true i k' r').1.drivers = c'.drivers.set i { a with pos := dst, target := none, waiting := false } := by
    intro dst c' hc' k' r'
    unfold Town.act
    rw [hc']
    simp only
    split <;> exact ⟨rfl, rfl⟩
  have hact : c.act S true i k r = match S.chooseNext a k r with
      | none => ({ c with drivers := c.drivers.set i { a with waiting := true } }, .raises)
      | some (dst, delay) =>
          if dst = a.pos then ({ c with drivers := c.drivers.set i { a with waiting := true, target := some dst } }, .wait delay)
          else if S.key0 a.pos dst then
            (({ c with drivers := c.drivers.set i { a with waiting := true, target := some dst } } : Town).addOcc (S.edge a.pos dst) 1,
              .wait delay)
          else ({ c with drivers := c.drivers.set i { a with waiting := true } }, .raises) := by
    unfold Town.act
    rw [ha]
    simp only [ht]
    cases S.chooseNext a k r with
    | none => rfl
    | some p => rfl
  rw [hact] at hw ⊢
  cases hc : S.chooseNext a k r with
  | none => rw [hc] at hw; cases hw
  | some p =>
    obtain ⟨dst, t'⟩ := p
    obtain ⟨h1, h2⟩ := chooseNext_nbr S a k r dst t' hc
    rw [hc] at hw
    simp only at hw ⊢
    refine ⟨dst, h1, ?_, ?_, next dst⟩
    · split at hw
      · cases hw; exact h2
      · split at hw
        · cases hw; exact h2
        · cases hw
    · split
      · rfl
      · rename_i hd
        rw [if_neg hd] at hw
        split
        · rfl
        · rename_i hk
          rw [if_neg hk] at hw
          cases hw
/-- C148: without `gradual_move` a driver is on the next intersection at once, whatever the travel time, and waits for nothing. -/
theorem C148_instant (S : Streets) (c : Town) (i k : Nat) (r : Rat) (a : Driver) (ha : c.drivers[i]? = some a) (ht : a.target = none)
    (t : Rat) (hw : (c.act S false i k r).2 = .wait t) :
    t = 0 ∧ ∃ dst d, S.chooseNext a k r = some (dst, d) ∧
      (c.act S false i k r).1.drivers = c.drivers.set i { a with pos := dst, target := none, waiting := false } ∧
      (c.act S false i k r).1.occ = c.occ := by
  unfold Town.act at hw ⊢
  simp only [ha, ht] at hw ⊢
  cases hc : S.chooseNext a k r with
  | none => rw [hc] at hw; cases hw
  | some x =>
    obtain ⟨dst, d⟩ := x
    rw [hc] at hw
    simp only [Bool.false_eq_true, if_false] at hw ⊢
    injection hw with hw
    exact ⟨hw.symm, dst, d, rfl, rfl, rfl⟩

/-- C148: drivers only move in their own activations, and only along streets: at any time, whatever the streets, the schedule and the
random numbers. -/
theorem C148_streets (S : Streets) (gradual : Bool) (ds : List (Bool × Nat)) (h : List (Nat × Nat × Rat)) (i k : Nat) (r : Rat) (j : Nat)
    (a : Driver) (ha : (Town.run S gradual h (Town.init ds)).drivers[j]? = some a) :
    ∃ a', ((Town.run S gradual h (Town.init ds)).act S gradual i k r).1.drivers[j]? = some a' ∧
      (a'.pos = a.pos ∨ (j = i ∧ a'.pos ∈ S.nbrs a.pos)) := by
  have inv : ∀ (j : Nat) a, (Town.run S gradual h (Town.init ds)).drivers[j]? = some a → ∀ d, a.target = some d → d ∈ S.nbrs a.pos := by
    refine Town.run_induct S gradual (fun c => ∀ (j : Nat) a, c.drivers[j]? = some a → ∀ d, a.target = some d → d ∈ S.nbrs a.pos) ?_ h _ ?_
    · intro c i k r hc j a ha d hd
      have hset : ∀ b : Driver, (c.drivers.set i b)[j]? = some a → (∀ d, b.target = some d → d ∈ S.nbrs b.pos) → d ∈ S.nbrs a.pos := by
        intro b h1 h2
        rw [List.getElem?_set] at h1
        split at h1
        · split at h1
          · cases h1; exact h2 d hd
          · cases h1
        · exact hc j a h1 d hd
      unfold Town.act at ha
      cases hb : c.drivers[i]? with
      | none => rw [hb] at ha; exact hc j a ha d hd
      | some b =>
        rw [hb] at ha
        simp only at ha
        cases ht : b.target with
        | some dst =>
          rw [ht] at ha
          simp only at ha
          split at ha <;> exact hset _ ha (by simp)
        | none =>
          rw [ht] at ha
          simp only at ha
          cases hch : S.chooseNext b k r with
          | none => rw [hch] at ha; exact hset _ ha (by simp)
          | some p =>
            obtain ⟨dst, t⟩ := p
            have hn := (chooseNext_nbr S b k r dst t hch).1
            rw [hch] at ha
            simp only at ha
            split at ha
            · split at ha
              · exact hset _ ha (by rintro d ⟨⟩; exact hn)
              · split at ha
                · exact hset _ ha (by rintro d ⟨⟩; exact hn)
                · exact hset _ ha (by simp)
            · exact hset _ ha (by simp)
    · intro j a ha d hd
      simp only [Town.init, List.getElem?_map] at ha
      obtain ⟨x, _, rfl⟩ := Option.map_eq_some_iff.1 ha
      cases hd
  generalize Town.run S gradual h (Town.init ds) = c at ha inv
  have hset : ∀ b b' : Driver, c.drivers[i]? = some b → (b'.pos = b.pos ∨ b'.pos ∈ S.nbrs b.pos) →
      ∃ a', (c.drivers.set i b')[j]? = some a' ∧ (a'.pos = a.pos ∨ (j = i ∧ a'.pos ∈ S.nbrs a.pos)) := by
    intro b b' hb hb'
    by_cases hij : i = j
    · subst hij
      rw [ha] at hb
      cases hb
      refine ⟨b', List.getElem?_set_self (List.getElem?_eq_some_iff.1 ha).1, ?_⟩
      rcases hb' with h | h
      · exact Or.inl h
      · exact Or.inr ⟨rfl, h⟩
    · exact ⟨a, by rw [List.getElem?_set_ne hij, ha], Or.inl rfl⟩
  unfold Town.act
  cases hb : c.drivers[i]? with
  | none => exact ⟨a, ha, Or.inl rfl⟩
  | some b =>
    simp only
    cases ht : b.target with
    | some dst =>
      have hn := inv i b hb dst ht
      simp only
      split
      · exact hset b _ hb (Or.inr hn)
      · exact hset b _ hb (Or.inr hn)
    | none =>
      simp only
      cases hch : S.chooseNext b k r with
      | none => exact hset b _ hb (Or.inl rfl)
      | some p =>
        obtain ⟨dst, t⟩ := p
        have hn := (chooseNext_nbr S b k r dst t hch).1
        simp only
        split
        · split
          · exact hset b _ hb (Or.inl rfl)
          · split
            · exact hset b _ hb (Or.inl rfl)
            · exact hset b _ hb (Or.inl rfl)
        · exact hset b _ hb (Or.inr hn)

/-- C149: a lazy driver goes to a neighbouring intersection with a probability that is inversely proportional to the travel time: number
`m` is chosen exactly for the draws in an interval of the length `(1 / tₘ) / Σ (1 / tⱼ)`. -/
theorem C149_lazy_partial (S : Streets) (a : Driver) (k : Nat) (r : Rat) (hr : IsDraw r) (hl : a.picky = true) (times : List Rat)
    (ht : (S.nbrs a.pos).mapM (S.travelTime a.pos) = some times) (hpos : ∀ t ∈ times, 0 < t) (hne : S.nbrs a.pos ≠ []) :
    ∃ m dst t, (S.nbrs a.pos)[m]? = some dst ∧ times[m]? = some t ∧ S.chooseNext a k r = some (dst, t) ∧
      (((times.map (fun t => 1 / t)).take m).sum) / (times.map (fun t => 1 / t)).sum ≤ r ∧
      r < (((times.map (fun t => 1 / t)).take m).sum + 1 / t) / (times.map (fun t => 1 / t)).sum := by
  have hlen : times.length = (S.nbrs a.pos).length := by
    have := mapM_length ht
    exact this.symm
  have hw : ∀ w ∈ times.map (fun t => 1 / t), 0 ≤ w := by
    intro w hw
    obtain ⟨t, ht, rfl⟩ := List.mem_map.1 hw
    exact le_of_lt (one_div_pos.2 (hpos t ht))
  have htne : times ≠ [] := by
    rintro rfl
    exact hne (List.length_eq_zero_iff.1 hlen.symm)
  have hsum : 0 < (times.map (fun t => 1 / t)).sum := by
    obtain ⟨t, ts, rfl⟩ := List.exists_cons_of_ne_nil htne
    rw [List.map_cons, List.sum_cons]
    have h1 : 0 < 1 / t := one_div_pos.2 (hpos t (by simp))
    have h2 : 0 ≤ (ts.map (fun t => 1 / t)).sum := List.sum_nonneg (fun w hw' => hw w (by simp only [List.map_cons, List.mem_cons]; exact Or.inr hw'))
    linarith
  obtain ⟨h1, h2, h3⟩ := pick_interval _ hw hsum r hr
  have hm : pick (times.map (fun t => 1 / t)) r < times.length := by simpa using h1
  generalize hme : pick (times.map (fun t => 1 / t)) r = m at h1 h2 h3 hm
  refine ⟨m, (S.nbrs a.pos)[m]'(by omega), times[m], List.getElem?_eq_getElem _, List.getElem?_eq_getElem _, ?_, ?_, ?_⟩
  · unfold Streets.chooseNext
    simp only [hl, if_true, ht]
    have h0 : (0 : Rat) ∉ times := fun h => lt_irrefl _ (hpos 0 h)
    rw [if_neg h0]
    have hch : choices (List.range times.length) (times.map (fun t => 1 / t)) [r] = some [m] := by
      unfold choices
      rw [if_neg (by simp only [List.length_map, List.length_range, ne_eq, not_true_eq_false, List.map_eq_nil_iff, htne, not_le.2 hsum, or_self, not_false_eq_true])]
      rw [List.mapM_cons, hme, List.getElem?_range hm]
      rfl
    rw [hch]
    simp only
    rw [List.getElem?_eq_getElem (by omega), List.getElem?_eq_getElem hm]
  · rw [div_le_iff₀ hsum]
    exact h2
  · rw [lt_div_iff₀ hsum]
    rw [List.take_succ_eq_append_getElem h1, List.sum_append] at h3
    simpa using h3

/-- C149 is false if a street takes no time: then a lazy driver next to it raises (`ZeroDivisionError`). -/
theorem C149_zero_false (S : Streets) (gradual : Bool) (c : Town) (i k : Nat) (r : Rat) (a : Driver) (ha : c.drivers[i]? = some a)
    (ht : a.target = none) (hl : a.picky = true) (p : Nat) (hp : p ∈ S.nbrs a.pos) (h0 : S.travelTime a.pos p = some 0) :
    (c.act S gradual i k r).2 = .raises := by
  have : S.chooseNext a k r = none := by
    unfold Streets.chooseNext
    simp only [hl, if_true]
    cases hm : (S.nbrs a.pos).mapM (S.travelTime a.pos) with
    | none => rfl
    | some times =>
      simp only
      obtain ⟨idx, hidx⟩ := List.mem_iff_getElem?.1 hp
      have hlen := mapM_length hm
      have hlt := (List.getElem?_eq_some_iff.1 hidx).1
      have hg : times[idx]? = some times[idx] := List.getElem?_eq_getElem (by omega)
      have := mapM_get hm idx p _ hidx hg
      rw [h0] at this
      rw [if_pos]
      rw [Option.some.inj this]
      exact List.getElem_mem _
  unfold Town.act
  rw [ha]
  simp [ht, this]

/-- C150 is false: a square city with more than one intersection cannot be made. -/
theorem C150_square_false (side : Nat) (h : 2 ≤ side) : squareCity side = none := by
  have : (0, side) ∈ gridEdges side := by
    unfold gridEdges
    rw [List.mem_flatMap]
    refine ⟨0, List.mem_range.2 (by omega), ?_⟩
    rw [List.mem_flatMap]
    refine ⟨0, List.mem_range.2 (by omega), ?_⟩
    rw [List.mem_append]
    left
    rw [if_pos (by omega)]
    simp
  unfold squareCity
  split
  · rename_i he
    rw [he] at this
    cases this
  · rfl

/-- C150 is false even for streets without parallel edges in general: whatever the graph, the first activation of any driver raises. -/
theorem C150_simple_false (nbrs : Nat → List Nat) (gradual : Bool) (ds : List (Bool × Nat)) (i k : Nat) (r : Rat) :
    ((Town.init ds).act (Streets.simple nbrs) gradual i k r).2 = .raises := by
  unfold Town.act
  cases ha : (Town.init ds).drivers[i]? with
  | none => rfl
  | some a =>
    have ht : a.target = none := by
      simp only [Town.init, List.getElem?_map] at ha
      obtain ⟨x, _, rfl⟩ := Option.map_eq_some_iff.1 ha
      rfl
    have : (Streets.simple nbrs).chooseNext a k r = none := by
      unfold Streets.chooseNext
      have tt : ∀ u v, (Streets.simple nbrs).travelTime u v = none := fun _ _ => rfl
      have tf : (Streets.simple nbrs).travelTime a.pos = fun _ => none := rfl
      simp only
      split
      · rw [tf]
        cases hn : (Streets.simple nbrs).nbrs a.pos with
        | nil => simp [choices]
        | cons x xs => simp [List.mapM_cons]
      · split
        · rfl
        · rw [tt]; rfl
    simp [ht, this]

/-- C150 (partial: one intersection at most): the environment can be made. -/
theorem C150_square_partial (side : Nat) (h : side < 2) : (squareCity side).isSome = true := by
  rcases (show side = 0 ∨ side = 1 by omega) with rfl | rfl <;> rfl

/-- C151 is false with `gradual_move`: `move_to` with a position always raises, with the driver left where it was; if the position is
next to it, the street has a driver more than there are on it, from then on. -/
theorem C151_move_to_false (S : Streets) (ds : List (Bool × Nat)) (h : List (Nat × Nat × Rat)) (i dst : Nat) (a : Driver)
    (ha : (Town.run S true h (Town.init ds)).drivers[i]? = some a) (ht : a.target = none) :
    ((Town.run S true h (Town.init ds)).moveTo S true i dst).2 = .raises ∧
    (∃ a', ((Town.run S true h (Town.init ds)).moveTo S true i dst).1.drivers[i]? = some a' ∧ a'.pos = a.pos) ∧
    (dst ≠ a.pos → S.key0 a.pos dst = true →
      ((Town.run S true h (Town.init ds)).moveTo S true i dst).1.occ (S.edge a.pos dst) =
        ((Town.run S true h (Town.init ds)).moveTo S true i dst).1.drivers.countP (Driver.onEdge S (S.edge a.pos dst)) + 1) := by
  have hok := Town.run_ok S true ds h
  generalize Town.run S true h (Town.init ds) = c at ha hok
  have hlt := (List.getElem?_eq_some_iff.1 ha).1
  unfold Town.moveTo
  rw [ha]
  simp only [if_true]
  refine ⟨?_, ?_, ?_⟩
  · split
    · rfl
    · split <;> rfl
  · refine ⟨{ a with waiting := true }, ?_, rfl⟩
    split
    · exact List.getElem?_set_self hlt
    · split <;> exact List.getElem?_set_self hlt
  · intro hd hk
    rw [if_neg hd, if_pos hk]
    simp only [Town.addOcc, if_true]
    rw [countP_set _ _ i a _ ha, hok.occ]
    simp [Driver.onEdge, ht]

/-- C151 (partial: without `gradual_move`): the driver is moved at once, wherever the position is, and the lists of the intersections
stay right. -/
theorem C151_move_to_partial (S : Streets) (ds : List (Bool × Nat)) (h : List (Nat × Nat × Rat)) (i dst : Nat) (a : Driver)
    (ha : (Town.run S false h (Town.init ds)).drivers[i]? = some a) :
    ((Town.run S false h (Town.init ds)).moveTo S false i dst).2 = .wait 0 ∧
    (∃ a', ((Town.run S false h (Town.init ds)).moveTo S false i dst).1.drivers[i]? = some a' ∧ a'.pos = dst ∧ a'.waiting = false) ∧
    (∀ j n, j ∈ ((Town.run S false h (Town.init ds)).moveTo S false i dst).1.cells n ↔
      ∃ b, ((Town.run S false h (Town.init ds)).moveTo S false i dst).1.drivers[j]? = some b ∧ b.pos = n) := by
  have hok := Town.run_ok S false ds h
  have hz := (C146_bounds S false ds h).2.2 rfl
  generalize Town.run S false h (Town.init ds) = c at ha hok hz
  have hlt := (List.getElem?_eq_some_iff.1 ha).1
  have hn : ∀ e, a.onEdge S e = false := by
    intro e
    have h1 := hz e
    rw [hok.occ e] at h1
    have h2 : c.drivers.countP (Driver.onEdge S e) = 0 := by exact_mod_cast h1
    have := List.countP_eq_zero.1 h2 a (List.mem_of_getElem? ha)
    simpa using this
  have hm := Town.move_ok S c i a dst ha (by intro e; rw [hn, hok.occ]; simp) hok.mem hok.nodup
  unfold Town.moveTo
  rw [ha]
  simp only [Bool.false_eq_true, if_false]
  exact ⟨trivial, ⟨_, List.getElem?_set_self hlt, rfl, rfl⟩, hm.mem⟩

/-! ## Examples -/

/-- Three intersections in a row; two parallel streets between the first two. -/
def exStreets : Streets :=
  ⟨false, fun n => if n = 1 then [0, 2] else [1], fun u v => if u + v = 1 then [5, 3] else [2], fun _ _ => true⟩

/-- Two drivers start, one arrives. -/
example : ((Town.run exStreets true [(0, 0, 0), (1, 1, 0), (0, 0, 0)] (Town.init [(false, 0), (false, 1)])).occ (1, 2),
    (Town.run exStreets true [(0, 0, 0), (1, 1, 0), (0, 0, 0)] (Town.init [(false, 0), (false, 1)])).occ (0, 1),
    (Town.run exStreets true [(0, 0, 0), (1, 1, 0), (0, 0, 0)] (Town.init [(false, 0), (false, 1)])).cells 1) = (1, 0, [1, 0]) := by
  decide +kernel

/-- The lazy driver between streets of 3 and 2: the shares are 2/5 and 3/5. -/
example : (exStreets.chooseNext ⟨true, 1, none, false⟩ 0 (39/100), exStreets.chooseNext ⟨true, 1, none, false⟩ 0 (2/5)) =
    (some (0, 3), some (2, 2)) := by decide +kernel

/-- Two drivers in opposite directions on the same street without directions: both count, under either name of the street. -/
example :
    let t := Town.run (Streets.mk false (fun u => [1 - u]) (fun _ _ => [4, 3, 5]) (fun _ _ => true)) true [(0, 0, 0), (1, 0, 0)]
      (Town.init [(false, 0), (false, 1)])
    (t.occ (Streets.edge ⟨false, fun u => [1 - u], fun _ _ => [4, 3, 5], fun _ _ => true⟩ 0 1),
     t.occ (Streets.edge ⟨false, fun u => [1 - u], fun _ _ => [4, 3, 5], fun _ _ => true⟩ 1 0),
     t.drivers.map (fun a => (a.pos, a.target))) = (2, 2, [(0, some 1), (1, some 0)]) := by decide +kernel

/-- The fastest of three parallel streets. -/
example : (Streets.mk false (fun u => [1 - u]) (fun _ _ => [4, 3, 5]) (fun _ _ => true)).travelTime 0 1 = some 3 := by decide +kernel

/-- Without `gradual_move` a driver is in the next place at once. -/
example : (((Town.init [(false, 0), (false, 1)]).act exStreets false 1 1 0).1.drivers.map Driver.pos,
    ((Town.init [(false, 0), (false, 1)]).act exStreets false 1 1 0).2) = ([0, 2], .wait 0) := by decide +kernel

end Verif
