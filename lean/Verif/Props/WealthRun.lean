import Verif.Model.WealthRun
import Verif.Props.ExSocial

/-!
# Whole simulations of mesa's wealth model (C244)
-/

namespace Verif

/-- Specification: two different cells of a torus that touch each other. -/
def TorusNext (width height : Nat) (c d : Square) : Prop :=
  d ≠ c ∧ ∃ dx dy : Int, -1 ≤ dx ∧ dx ≤ 1 ∧ -1 ≤ dy ∧ dy ≤ 1 ∧ (d.1 : Int) = ((c.1 : Int) + dx) % width ∧ (d.2 : Int) = ((c.2 : Int) + dy) % height

theorem torus_coord (width x dx : Nat) (hw : 0 < width) : (((x + width + dx - 1) % width : Nat) : Int) = ((x : Int) + ((dx : Int) - 1)) % width := by
  have : ((x + width + dx - 1 : Nat) : Int) = ((x : Int) + ((dx : Int) - 1)) + width := by omega
  rw [Int.natCast_emod, this, Int.add_emod_right]

theorem mem_torusMoore {width height : Nat} {c d : Square} : d ∈ torusMoore width height c ↔
    d ≠ c ∧ ∃ dx < 3, ∃ dy < 3, d = ((c.1 + width + dx - 1) % width, (c.2 + height + dy - 1) % height) := by
  simp only [torusMoore, List.mem_filter, List.mem_eraseDups, List.mem_flatMap, List.mem_map, List.mem_range, decide_eq_true_eq]
  constructor
  · rintro ⟨⟨dx, h1, dy, h2, h⟩, h0⟩
    exact ⟨h0, dx, h1, dy, h2, h.symm⟩
  · rintro ⟨h0, dx, h1, dy, h2, h⟩
    exact ⟨⟨dx, h1, dy, h2, h.symm⟩, h0⟩

theorem torusMoore_next {width height : Nat} (hw : 0 < width) (hh : 0 < height) {c d : Square} (h : d ∈ torusMoore width height c) :
    TorusNext width height c d := by
  obtain ⟨h0, dx, h1, dy, h2, h⟩ := mem_torusMoore.1 h
  refine ⟨h0, (dx : Int) - 1, (dy : Int) - 1, by omega, by omega, by omega, by omega, ?_, ?_⟩
  · rw [h]; exact torus_coord _ _ _ hw
  · rw [h]; exact torus_coord _ _ _ hh

theorem torusMoore_grid {width height : Nat} (hw : 0 < width) (hh : 0 < height) {c d : Square} (h : d ∈ torusMoore width height c) :
    d ∈ moneyCells width height := by
  obtain ⟨h0, dx, h1, dy, h2, h⟩ := mem_torusMoore.1 h
  rw [mem_moneyCells, h]
  exact ⟨Nat.mod_lt _ hw, Nat.mod_lt _ hh⟩

theorem torusMoore_ne {width height : Nat} (h : 1 < width * height) {c : Square} (hc : c ∈ moneyCells width height) :
    torusMoore width height c ≠ [] := by
  rw [mem_moneyCells] at hc
  obtain ⟨x, y⟩ := c
  simp only at hc
  obtain ⟨hx, hy⟩ := hc
  have key : ∃ d : Square, d ∈ torusMoore width height (x, y) := by
    have ex : (x + width + 1 - 1) % width = x := by rw [Nat.add_sub_cancel, Nat.add_mod_right, Nat.mod_eq_of_lt hx]
    have ey : (y + height + 1 - 1) % height = y := by rw [Nat.add_sub_cancel, Nat.add_mod_right, Nat.mod_eq_of_lt hy]
    have e2 : ∀ a b : Nat, a < b → 1 < b → (a + b + 2 - 1) % b ≠ a := by
      intro a b hab hb
      rw [show a + b + 2 - 1 = a + 1 + b by omega, Nat.add_mod_right]
      by_cases h : a + 1 = b
      · rw [h, Nat.mod_self]; omega
      · rw [Nat.mod_eq_of_lt (by omega)]; omega
    by_cases hw : 1 < width
    · refine ⟨_, mem_torusMoore.2 ⟨?_, 2, by omega, 1, by omega, rfl⟩⟩
      simp only [ne_eq, Prod.mk.injEq, not_and]
      intro h1
      exact absurd h1 (e2 x width hx hw)
    · have hw1 : width = 1 := by omega
      have hh : 1 < height := by rw [hw1] at h; omega
      refine ⟨_, mem_torusMoore.2 ⟨?_, 1, by omega, 2, by omega, rfl⟩⟩
      simp only [ne_eq, Prod.mk.injEq, not_and]
      intro _ h1
      exact e2 y height hy hh h1
  intro h0
  obtain ⟨d, hd⟩ := key
  rw [h0] at hd
  cases hd

/-- The coins of agent `j`. -/
def Money.coins (m : Money) (j : Nat) : Int := (m.wealth[j]?).getD 0

theorem coins_modify (l : List Int) (i : Nat) (f : Int → Int) (j : Nat) (hi : i < l.length) :
    ((l.modify i f)[j]?).getD 0 = if i = j then f ((l[j]?).getD 0) else (l[j]?).getD 0 := by
  rw [getElem?_modify_int]
  by_cases h : i = j
  · subst h
    rw [if_pos rfl, if_pos rfl, List.getElem?_eq_getElem hi]
    rfl
  · rw [if_neg h, if_neg h]

/-- What the turn of agent `r` does. -/
theorem plainTurn_spec (R : MoneyRng) {width height n : Nat} (hg : 1 < width * height) {r : Ref} (hr : r < n) {w : MoneyWorld}
    (h : MoneyInv width height n w) :
    ∃ w', plainTurn R (torusMoore width height) r w = some w' ∧ MoneyInv width height n w' ∧
      (∃ c d, w.money.pos[r]? = some c ∧ w'.money.pos[r]? = some d ∧ TorusNext width height c d) ∧
      (∀ j, j ≠ r → w'.money.pos[j]? = w.money.pos[j]? ∧ w.money.coins j ≤ w'.money.coins j ∧ w'.money.coins j ≤ w.money.coins j + 1) ∧
      w.money.coins r - 1 ≤ w'.money.coins r ∧ w'.money.coins r ≤ w.money.coins r := by
  have hw : 0 < width := Nat.pos_of_ne_zero (by rintro rfl; simp at hg)
  have hh : 0 < height := Nat.pos_of_ne_zero (by rintro rfl; simp at hg)
  have hr' : r < w.money.pos.length := by rw [h.positions]; exact hr
  have hrw : r < w.money.wealth.length := by rw [h.wealths]; exact hr
  have hp : w.money.pos[r]? = some w.money.pos[r] := List.getElem?_eq_getElem hr'
  obtain ⟨dst, hd, hch⟩ := R.choice_some w.used (torusMoore_ne hg (h.grid _ (List.getElem_mem hr')))
  have hmove : w.money.move (torusMoore width height) r dst = some { w.money with pos := w.money.pos.set r dst } := by
    simp only [Money.move, hp, if_pos hd]
  have hstep : ∃ m', w.money.step .plain (torusMoore width height) r dst
      ((R.choice (w.used + 1) (MoneyKind.plain.options { w.money with pos := w.money.pos.set r dst } r)).getD 0) = some m' := by
    simp only [Money.step, hmove, List.getElem?_eq_getElem hrw]
    split
    · by_cases he : (MoneyKind.plain.options { w.money with pos := w.money.pos.set r dst } r).isEmpty = true
      · rw [if_pos he]; exact ⟨_, rfl⟩
      · rw [if_neg he]
        obtain ⟨o, ho, hc⟩ := R.choice_some (w.used + 1) (l := MoneyKind.plain.options { w.money with pos := w.money.pos.set r dst } r)
          (by intro h0; rw [h0] at he; exact he rfl)
        rw [hc, Option.getD_some, if_pos ho]
        exact ⟨_, rfl⟩
    · exact ⟨_, rfl⟩
  obtain ⟨m', hm'⟩ := hstep
  have hturn : plainTurn R (torusMoore width height) r w = some ⟨m', w.used + 2⟩ := by
    simp only [plainTurn, hp, hch, hmove, hm']
  obtain ⟨i1, i2, i3, i4⟩ := Money.step_inv (h.wealths.trans h.positions.symm) h.solvent hm'
  obtain ⟨-, hpos, hwealth⟩ := C125_step hm'
  have hc : (∀ j, j ≠ r → w.money.coins j ≤ m'.coins j ∧ m'.coins j ≤ w.money.coins j + 1) ∧
      w.money.coins r - 1 ≤ m'.coins r ∧ m'.coins r ≤ w.money.coins r := by
    unfold Money.coins
    rcases hwealth with hwe | ⟨v, hv, -, ho, -, hwe⟩
    · rw [hwe]
      exact ⟨fun j _ => ⟨le_refl _, by omega⟩, by omega, le_refl _⟩
    · have hol : (((R.choice (w.used + 1) (MoneyKind.plain.options { w.money with pos := w.money.pos.set r dst } r)).getD 0)) < w.money.wealth.length := by
        have := (List.getElem?_eq_some_iff.1 ho).1
        rw [hpos, List.length_set, h.positions] at this
        rw [h.wealths]
        exact this
      generalize (R.choice (w.used + 1) (MoneyKind.plain.options { w.money with pos := w.money.pos.set r dst } r)).getD 0 = other at hol hwe
      rw [hwe]
      have e : ∀ j, (((w.money.wealth.modify other (· + 1)).modify r (· - 1))[j]?).getD 0 =
          (if r = j then (if other = j then (w.money.wealth[j]?).getD 0 + 1 else (w.money.wealth[j]?).getD 0) - 1
            else (if other = j then (w.money.wealth[j]?).getD 0 + 1 else (w.money.wealth[j]?).getD 0)) := by
        intro j
        rw [coins_modify _ _ _ _ (by rw [List.length_modify]; exact hrw), coins_modify _ _ _ _ hol]
      refine ⟨fun j hj => ?_, ?_⟩
      · rw [e j, if_neg (Ne.symm hj)]
        split <;> omega
      · rw [e r, if_pos rfl]
        split <;> omega
  refine ⟨_, hturn, ⟨i2.trans h.wealths, ?_, i3.trans h.total, i4, ?_⟩, ⟨_, dst, hp, ?_, torusMoore_next hw hh hd⟩, fun j hj => ⟨?_, hc.1 j hj⟩, hc.2⟩
  · show m'.pos.length = n
    rw [hpos, List.length_set]
    exact h.positions
  · intro c hc
    have hc : c ∈ m'.pos := hc
    rw [hpos] at hc
    rcases List.mem_or_eq_of_mem_set hc with hc | rfl
    · exact h.grid c hc
    · exact torusMoore_grid hw hh hd
  · show m'.pos[r]? = _
    rw [hpos, List.getElem?_set_self hr']
  · show m'.pos[j]? = _
    rw [hpos, List.getElem?_set_ne (Ne.symm hj)]

theorem wealthTurns_spec (R : MoneyRng) {width height n : Nat} (hg : 1 < width * height) (l : List Ref) (hl : ∀ r ∈ l, r < n) (hnd : l.Nodup) {w : MoneyWorld}
    (h : MoneyInv width height n w) :
    ∃ w', wealthTurns R (torusMoore width height) l w = some w' ∧ MoneyInv width height n w' ∧
      (∀ j ∈ l, (∃ c d, w.money.pos[j]? = some c ∧ w'.money.pos[j]? = some d ∧ TorusNext width height c d) ∧
        w.money.coins j - 1 ≤ w'.money.coins j ∧ w'.money.coins j + 1 ≤ w.money.coins j + l.length) ∧
      (∀ j, j ∉ l → w'.money.pos[j]? = w.money.pos[j]? ∧ w.money.coins j ≤ w'.money.coins j ∧ w'.money.coins j ≤ w.money.coins j + l.length) := by
  induction l generalizing w with
  | nil => exact ⟨w, rfl, h, fun j hj => by (cases hj), fun j _ => ⟨rfl, le_refl _, by simp⟩⟩
  | cons r l ih =>
    obtain ⟨w1, e1, h1, hm1, ho1, hc1⟩ := plainTurn_spec R hg (hl r (by simp)) h
    obtain ⟨hrl, hnd'⟩ := List.nodup_cons.1 hnd
    obtain ⟨w2, e2, h2, hm2, ho2⟩ := ih (fun r hr => hl r (by simp [hr])) hnd' h1
    refine ⟨w2, ?_, h2, ?_, ?_⟩
    · simp only [wealthTurns, e1, e2]
    · intro j hj
      simp only [List.length_cons]
      rcases List.mem_cons.1 hj with rfl | hj
      · obtain ⟨p, q, s⟩ := ho2 j hrl
        rw [p]
        refine ⟨hm1, by omega, by push_cast; omega⟩
      · have hne : j ≠ r := fun h0 => hrl (h0 ▸ hj)
        obtain ⟨p, q, s⟩ := hm2 j hj
        obtain ⟨p', q', s'⟩ := ho1 j hne
        rw [p'] at p
        exact ⟨p, by omega, by push_cast; omega⟩
    · intro j hj
      simp only [List.length_cons]
      have hne : j ≠ r := fun h => hj (by simp [h])
      obtain ⟨p, q, s⟩ := ho2 j (fun h => hj (by simp [h]))
      obtain ⟨p', q', s'⟩ := ho1 j hne
      exact ⟨p.trans p', by omega, by push_cast; omega⟩

/-- The wealths as numbers. -/
def WealthModel.wealths (s : WealthModel) : List Rat := s.world.money.wealth.map (fun v : Int => (v : Rat))

theorem wealthStep_spec (R : MoneyRng) {width height n : Nat} (hn : 0 < n) (hg : 1 < width * height) (s : WealthModel) (h : MoneyInv width height n s.world) :
    ∃ s', s.step R (torusMoore width height) = some s' ∧ MoneyInv width height n s'.world ∧ s'.time = s.time + 1 ∧
      s'.rows = s.rows ++ [(Spec.gini s.wealths, s.world.money.wealth)] ∧
      ∀ j < n, (∃ c d, s.world.money.pos[j]? = some c ∧ s'.world.money.pos[j]? = some d ∧ TorusNext width height c d) ∧
        s.world.money.coins j - 1 ≤ s'.world.money.coins j ∧ s'.world.money.coins j + 1 ≤ s.world.money.coins j + n := by
  have hsum : s.wealths.sum ≠ 0 := by
    unfold WealthModel.wealths
    rw [cast_sum, h.total]
    exact_mod_cast hn.ne'
  have hgini := (C126_compute_gini s.wealths).1 hsum
  have hperm := R.shuf_perm s.world.used (List.range s.world.money.wealth.length)
  rw [h.wealths] at hperm
  obtain ⟨w', e, hI, hm, -⟩ := wealthTurns_spec R hg (R.shuf s.world.used (List.range n)).1
    (fun r hr => List.mem_range.1 (hperm.mem_iff.1 hr)) (hperm.nodup_iff.2 List.nodup_range)
    (w := { s.world with used := (R.shuf s.world.used (List.range n)).2 }) ⟨h.wealths, h.positions, h.total, h.solvent, h.grid⟩
  refine ⟨⟨w', s.time + 1, s.rows ++ [(Spec.gini s.wealths, s.world.money.wealth)]⟩, ?_, hI, rfl, rfl, ?_⟩
  · unfold WealthModel.step
    unfold WealthModel.wealths at hgini
    rw [hgini, h.wealths]
    simp only
    rw [e]
    rfl
  · intro j hj
    have := hm j (hperm.mem_iff.2 (List.mem_range.2 hj))
    rw [hperm.length_eq, List.length_range] at this
    exact this

theorem wealthRun_succ (R : MoneyRng) (nb : Square → List Square) (k : Nat) (s : WealthModel) :
    wealthRun R nb (k + 1) s = (wealthRun R nb k s).bind (fun s => s.step R nb) := by
  induction k generalizing s with
  | zero =>
    have e : (wealthRun R nb 0 s).bind (fun s => s.step R nb) = s.step R nb := rfl
    rw [e, wealthRun]
    cases s.step R nb <;> rfl
  | succ k ih =>
    rw [wealthRun]
    conv => rhs; rw [wealthRun]
    cases s.step R nb with
    | none => rfl
    | some s' => exact ih s'

/-- C244, what holds on a torus with more than one cell, for any number of agents and any random numbers: the model can be built, and simulations of any length end
without an exception; after `k` steps (`x k`) the clock is at `k`, the agents have `n` coins in all, nobody is in debt, all are on the grid; the `k` rows of the
collector are the states before each step, with their Gini coefficients; and in each step every agent moves once, to a cell that touches its own, gives at most one coin, and
gets at most `n - 1`. Missing: the state at the end is not recorded (`C244_last_false`), and a coin may be given to oneself (`C244_self_false`). -/
theorem C244_run_partial (width height n : Nat) (hn : 0 < n) (hg : 1 < width * height) (places : Nat → Nat × Nat) (R : MoneyRng) :
    ∃ x : Nat → WealthModel, wealthInit width height n places = some (x 0) ∧ ∀ k,
      wealthRun R (torusMoore width height) k (x 0) = some (x k) ∧ (x k).time = k ∧
      (x k).world.money.wealth.length = n ∧ (x k).world.money.wealth.sum = n ∧ (∀ v ∈ (x k).world.money.wealth, 0 ≤ v) ∧
      (x k).world.money.pos.length = n ∧ (∀ c ∈ (x k).world.money.pos, c.1 < width ∧ c.2 < height) ∧
      (x k).rows = (List.range k).map (fun i => (Spec.gini (x i).wealths, (x i).world.money.wealth)) ∧
      (∃ g, (x k).reported = some g ∧ g = Spec.gini (x k).wealths ∧ 0 ≤ g ∧ g ≤ 1 - 1 / (n : Rat)) ∧
      ∀ j < n, (∃ c d, (x k).world.money.pos[j]? = some c ∧ (x (k + 1)).world.money.pos[j]? = some d ∧ TorusNext width height c d) ∧
        (x k).world.money.coins j - 1 ≤ (x (k + 1)).world.money.coins j ∧ (x (k + 1)).world.money.coins j ≤ (x k).world.money.coins j + (n - 1) := by
  have hw : 0 < width := Nat.pos_of_ne_zero (by rintro rfl; simp at hg)
  have hh : 0 < height := Nat.pos_of_ne_zero (by rintro rfl; simp at hg)
  let s0 : WealthModel := ⟨⟨⟨List.replicate n 1, (List.range n).map (fun i => ((places i).1 % width, (places i).2 % height))⟩, 0⟩, 0, []⟩
  have hinit : wealthInit width height n places = some s0 := by
    unfold wealthInit
    rw [if_neg (by omega)]
  have hI0 : MoneyInv width height n s0.world := by
    refine ⟨by simp [s0], by simp [s0], by simp [s0], ?_, ?_⟩
    · intro v hv
      rw [(List.mem_replicate.1 hv).2]
      omega
    · intro c hc
      obtain ⟨i, -, rfl⟩ := List.mem_map.1 hc
      exact mem_moneyCells.2 ⟨Nat.mod_lt _ hw, Nat.mod_lt _ hh⟩
  let x : Nat → WealthModel := fun k => (wealthRun R (torusMoore width height) k s0).getD s0
  have main : ∀ k, wealthRun R (torusMoore width height) k s0 = some (x k) ∧ MoneyInv width height n (x k).world ∧ (x k).time = k ∧
      (x k).rows = (List.range k).map (fun i => (Spec.gini (x i).wealths, (x i).world.money.wealth)) := by
    intro k
    induction k with
    | zero => exact ⟨rfl, hI0, rfl, rfl⟩
    | succ k ih =>
      obtain ⟨i1, i2, i3, i4⟩ := ih
      obtain ⟨s', e, h1, h2, h3, -⟩ := wealthStep_spec R hn hg (x k) i2
      have hrun : wealthRun R (torusMoore width height) (k + 1) s0 = some s' := by rw [wealthRun_succ, i1]; exact e
      have hx : x (k + 1) = s' := by show (wealthRun R (torusMoore width height) (k + 1) s0).getD s0 = s'; rw [hrun]; rfl
      refine ⟨by rw [hx]; exact hrun, by rw [hx]; exact h1, by rw [hx, h2, i3], ?_⟩
      rw [hx, h3, i4, List.range_succ, List.map_append]
      rfl
  refine ⟨x, hinit, fun k => ?_⟩
  obtain ⟨m1, m2, m3, m4⟩ := main k
  obtain ⟨s', e, -, -, -, hj⟩ := wealthStep_spec R hn hg (x k) m2
  have hx : x (k + 1) = s' := by
    have hrun : wealthRun R (torusMoore width height) (k + 1) s0 = some s' := by rw [wealthRun_succ, m1]; exact e
    show (wealthRun R (torusMoore width height) (k + 1) s0).getD s0 = s'
    rw [hrun]
    rfl
  refine ⟨m1, m3, m2.wealths, m2.total, m2.solvent, m2.positions, fun c hc => mem_moneyCells.1 (m2.grid c hc), m4, ?_, ?_⟩
  · have hsum : (x k).wealths.sum ≠ 0 := by
      unfold WealthModel.wealths
      rw [cast_sum, m2.total]
      exact_mod_cast hn.ne'
    have hb := gini_bounds (x k).wealths (by
      intro v hv
      obtain ⟨u, hu, rfl⟩ := List.mem_map.1 hv
      exact_mod_cast m2.solvent u hu) hsum
    have hlen : (x k).wealths.length = n := by unfold WealthModel.wealths; rw [List.length_map, m2.wealths]
    rw [hlen] at hb
    exact ⟨_, (C126_compute_gini _).1 hsum, rfl, hb.1, hb.2⟩
  · intro j hjn
    rw [hx]
    obtain ⟨p, q, r⟩ := hj j hjn
    exact ⟨p, q, by omega⟩

/-- C244 is violated (other grids and populations): without agents the first step raises (`compute_gini` divides by zero), and with a single cell too, since there is
nowhere to go; without cells agents cannot be placed. -/
theorem C244_degenerate_false (places : Nat → Nat × Nat) (R : MoneyRng) :
    (∀ width height, ∃ s, wealthInit width height 0 places = some s ∧ ∀ k, wealthRun R (torusMoore width height) (k + 1) s = none) ∧
    (∀ n, 0 < n → ∃ s, wealthInit 1 1 n places = some s ∧ ∀ k, wealthRun R (torusMoore 1 1) (k + 1) s = none) ∧
    ∀ width height n, 0 < n → width * height = 0 → wealthInit width height n places = none := by
  refine ⟨fun width height => ⟨_, by unfold wealthInit; rw [if_neg (by omega)], fun k => ?_⟩, fun n hn => ⟨_, by unfold wealthInit; rw [if_neg (by omega)], fun k => ?_⟩, ?_⟩
  · have e : ∀ s : WealthModel, s.world.money.wealth = [] → s.step R (torusMoore width height) = none := by
      intro s hs
      unfold WealthModel.step
      rw [hs, List.map_nil, (C126_compute_gini []).2 rfl]
    rw [wealthRun, e _ rfl]
  · obtain ⟨m, rfl⟩ : ∃ m, n = m + 1 := ⟨n - 1, by omega⟩
    rw [wealthRun]
    have : ∀ s : WealthModel, s.world.money.wealth.length = m + 1 → (∀ c ∈ s.world.money.pos, c = (0, 0)) → s.step R (torusMoore 1 1) = none := by
      intro s hs hp
      unfold WealthModel.step
      cases computeGini (s.world.money.wealth.map (fun v : Int => (v : Rat))) with
      | none => rfl
      | some g =>
        simp only
        have hperm := R.shuf_perm s.world.used (List.range s.world.money.wealth.length)
        have hlen := hperm.length_eq
        rw [List.length_range, hs] at hlen
        rw [hs]
        cases hl : (R.shuf s.world.used (List.range (m + 1))).1 with
        | nil => rw [hl] at hlen; cases hlen
        | cons r l =>
          have : plainTurn R (torusMoore 1 1) r { s.world with used := (R.shuf s.world.used (List.range (m + 1))).2 } = none := by
            unfold plainTurn
            simp only
            cases hc : s.world.money.pos[r]? with
            | none => rfl
            | some c =>
              simp only
              rw [hp c (List.mem_of_getElem? hc)]
              have : torusMoore 1 1 (0, 0) = [] := by decide
              rw [this]
              simp [MoneyRng.choice]
          simp only [wealthTurns, this]
    rw [this _ (by simp) (by
      intro c hc
      obtain ⟨i, -, rfl⟩ := List.mem_map.1 hc
      simp [Nat.mod_one])]
  · intro width height n hn h0
    unfold wealthInit
    rw [if_pos ⟨hn, Nat.mul_eq_zero.1 h0⟩]

/-! ### Examples and violations -/

/-- Numbers that depend on the position. -/
def exCoinRng (f : Nat → Nat) : MoneyRng where
  pick := f
  shuf u l := (l.reverse, u + 1)
  shuf_perm _ l := List.reverse_perm l

/-- C244 is violated: the state at the end is not among the data. Two agents on a torus of two cells: after one step the collector has one row, in which everybody has
one coin, although one of them has both by then (as `BatchRunner` reports). -/
theorem C244_last_false : ∃ (R : MoneyRng) (places : Nat → Nat × Nat) (s s' : WealthModel), wealthInit 1 2 2 places = some s ∧
    wealthRun R (torusMoore 1 2) 1 s = some s' ∧ s'.rows = [(0, [1, 1])] ∧ s'.world.money.wealth = [2, 0] ∧ s'.reported = some (1 / 2) := by
  refine ⟨exCoinRng (fun _ => 0), fun i => (0, i), ⟨⟨⟨[1, 1], [(0, 0), (0, 1)]⟩, 0⟩, 0, []⟩, ⟨⟨⟨[2, 0], [(0, 1), (0, 0)]⟩, 5⟩, 1, [(0, [1, 1])]⟩, ?_, ?_, rfl, rfl, ?_⟩
  · rfl
  · decide +kernel
  · decide +kernel

/-- C244 is violated: an agent with a coin and company may give it to itself, so that nothing is given: two agents meet, and both keep what they have. -/
theorem C244_self_false : ∃ (R : MoneyRng) (w w' : MoneyWorld), MoneyInv 1 2 2 w ∧ plainTurn R (torusMoore 1 2) 0 w = some w' ∧
    w'.money.pos = [(0, 1), (0, 1)] ∧ 0 < w.money.coins 0 ∧ w'.money.wealth = w.money.wealth := by
  refine ⟨exCoinRng (fun _ => 0), ⟨⟨[1, 1], [(0, 0), (0, 1)]⟩, 0⟩, ⟨⟨[1, 1], [(0, 1), (0, 1)]⟩, 2⟩, ⟨rfl, rfl, rfl, by decide, by decide⟩, rfl, rfl, by decide, rfl⟩

set_option maxRecDepth 100000 in
/-- Four agents on a torus of three by two cells, after three steps. -/
example : ((wealthInit 3 2 4 (fun i => (i, i + 1))).bind (wealthRun (exCoinRng (fun u => u * 5 + 2)) (torusMoore 3 2) 3)).map
      (fun s => (s.world.money.wealth, s.rows.map (·.1), s.reported)) = some ([2, 1, 1, 0], [0, 3 / 8, 3 / 8], some (3 / 8)) := by
  decide +kernel

end Verif
