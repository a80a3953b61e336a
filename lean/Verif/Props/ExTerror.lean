import Verif.Model.ExTerror
import Mathlib.Tactic.Linarith
import Mathlib.Tactic.Ring
import Mathlib.Tactic.NormNum
import Mathlib.Algebra.Order.Field.Rat
import Mathlib.Algebra.Order.BigOperators.Group.List

/-!
# C140-C145: the terrorism example
-/

namespace Verif

/-- The settings are probabilities. -/
structure TerrParams.Ok (P : TerrParams) : Prop where
  intensity : 0 ≤ P.intensity ∧ P.intensity ≤ 1
  extra : 0 ≤ P.extra ∧ P.extra ≤ 1
  training : 0 ≤ P.training ∧ P.training ≤ 1
  haven : 0 ≤ P.haven ∧ P.haven ≤ 1

/-- What is assumed about the inputs: centralities are not negative, and a number in `[0, 1]` to the power of another one is between
itself and 1. -/
structure TerrIn.Ok (x : TerrIn) : Prop where
  deg : ∀ j, 0 ≤ x.deg j
  pow : ∀ a e, 0 ≤ a → a ≤ 1 → 0 ≤ e → e ≤ 1 → a ≤ x.pow a e ∧ x.pow a e ≤ 1

/-- Belief and vulnerability between 0 and 1. -/
def Terr.Ok (v : Terr) : Prop := (0 ≤ v.belief ∧ v.belief ≤ 1) ∧ (0 ≤ v.vuln ∧ v.vuln ≤ 1)

theorem deg_sum_nonneg (deg : Nat → Rat) (h : ∀ j, 0 ≤ deg j) (l : List Nat) : 0 ≤ (l.map deg).sum := by
  apply List.sum_nonneg
  intro x hx
  obtain ⟨j, _, rfl⟩ := List.mem_map.1 hx
  exact h j

theorem sum_div_bounds (f deg : Nat → Rat) (s M : Rat) (hs : 0 < s) (l : List Nat) (hd : ∀ j, 0 ≤ deg j)
    (hf : ∀ j ∈ l, 0 ≤ f j ∧ f j ≤ M) :
    0 ≤ (l.map (fun j => f j * deg j / s)).sum ∧ (l.map (fun j => f j * deg j / s)).sum ≤ M * ((l.map deg).sum / s) := by
  induction l with
  | nil => simp
  | cons a l ih =>
    obtain ⟨h1, h2⟩ := ih (fun j hj => hf j (by simp [hj]))
    obtain ⟨h3, h4⟩ := hf a (by simp)
    simp only [List.map_cons, List.sum_cons]
    have h5 : 0 ≤ f a * deg a / s := div_nonneg (mul_nonneg h3 (hd a)) (le_of_lt hs)
    have h6 : f a * deg a / s ≤ M * (deg a / s) := by
      rw [mul_div_assoc]
      exact mul_le_mul_of_nonneg_right h4 (div_nonneg (hd a) (le_of_lt hs))
    refine ⟨by linarith, ?_⟩
    rw [add_div, mul_add]
    linarith

/-- The weighted mean is between 0 and the largest belief. -/
theorem weightedBelief_bounds (vs : List Terr) (deg : Nat → Rat) (l : List Nat) (m M : Rat) (hM : 0 ≤ M) (hd : ∀ j, 0 ≤ deg j)
    (hb : ∀ j ∈ l, 0 ≤ beliefOf vs j ∧ beliefOf vs j ≤ M) (h : weightedBelief vs deg l = some m) : 0 ≤ m ∧ m ≤ M := by
  unfold weightedBelief at h
  split at h
  · cases h
  · rename_i hn
    cases h
    by_cases hl : l = []
    · subst hl; simpa using hM
    · have hpos : 0 < (l.map deg).sum := lt_of_le_of_ne (deg_sum_nonneg deg hd l) (fun e => hn ⟨hl, e.symm⟩)
      obtain ⟨h1, h2⟩ := sum_div_bounds (beliefOf vs) deg _ M hpos l hd hb
      rw [div_self (ne_of_gt hpos), mul_one] at h2
      exact ⟨h1, h2⟩

theorem mix_bounds (a b t M : Rat) (ha : 0 ≤ a ∧ a ≤ M) (hb : 0 ≤ b ∧ b ≤ M) (ht : 0 ≤ t ∧ t ≤ 1) :
    0 ≤ a * t + b * (1 - t) ∧ a * t + b * (1 - t) ≤ M := by
  have h1 : 0 ≤ a * t := mul_nonneg ha.1 ht.1
  have h2 : 0 ≤ b * (1 - t) := mul_nonneg hb.1 (by linarith [ht.2])
  have h3 : a * t ≤ M * t := mul_le_mul_of_nonneg_right ha.2 ht.1
  have h4 : b * (1 - t) ≤ M * (1 - t) := mul_le_mul_of_nonneg_right hb.2 (by linarith [ht.2])
  constructor
  · linarith
  · have : M * t + M * (1 - t) = M := by ring
    linarith

theorem mem_terrNeighbours {adj : Nat → List Nat} {vs : List Terr} {i j : Nat} {c : Terr → Bool} (h : j ∈ terrNeighbours adj vs i c) :
    j ∈ adj i ∧ ∃ v, vs[j]? = some v ∧ c v = true := by
  obtain ⟨h1, h2⟩ := List.mem_filter.1 h
  refine ⟨h1, ?_⟩
  cases hv : vs[j]? with
  | none => rw [hv] at h2; cases h2
  | some v => rw [hv] at h2; exact ⟨v, rfl, h2⟩

/-- A civilian's new belief (examples/terrorism/TerroristNetworkModel_sim.py:90-96). -/
def newBelief (P : TerrParams) (v : Terr) (m : Rat) : Rat :=
  (m * P.intensity + v.belief * (1 - P.intensity)) * v.vuln + v.belief * (1 - v.vuln)

theorem newBelief_bounds (P : TerrParams) (hP : P.Ok) (v : Terr) (m M : Rat) (hm : 0 ≤ m ∧ m ≤ M) (hb : 0 ≤ v.belief ∧ v.belief ≤ M)
    (hv : 0 ≤ v.vuln ∧ v.vuln ≤ 1) : 0 ≤ newBelief P v m ∧ newBelief P v m ≤ M :=
  mix_bounds _ _ _ M (mix_bounds _ _ _ M hm hb hP.intensity) hb hv

theorem set_cases {α : Type} (l : List α) (i j : Nat) (a b : α) (h : (l.set i a)[j]? = some b) :
    (i = j ∧ b = a) ∨ (i ≠ j ∧ l[j]? = some b) := by
  rw [List.getElem?_set] at h
  by_cases hij : i = j
  · subst hij
    simp only [if_true] at h
    split at h
    · cases h; exact Or.inl ⟨rfl, rfl⟩
    · cases h
  · simp only [hij, if_false] at h
    exact Or.inr ⟨hij, h⟩

theorem changeVuln_get (f : Rat → Rat) (js : List Nat) (vs : List Terr) (j : Nat) (v' : Terr)
    (h : (changeVuln f js vs)[j]? = some v') :
    ∃ (v : Terr) (k : Nat), vs[j]? = some v ∧ v' = { v with vuln := f^[k] v.vuln } := by
  induction js generalizing vs with
  | nil => exact ⟨v', 0, h, rfl⟩
  | cons a js ih =>
    simp only [changeVuln, List.foldl_cons] at h
    obtain ⟨v, k, hv, e⟩ := ih (vs.modify a (fun v => { v with vuln := f v.vuln })) h
    rw [List.getElem?_modify] at hv
    cases hw : vs[j]? with
    | none => rw [hw] at hv; cases hv
    | some w =>
      rw [hw] at hv
      by_cases haj : a = j
      · have hv' : v = { w with vuln := f w.vuln } := by
          simp only [haj, if_true] at hv
          cases hv
          rfl
        refine ⟨w, k + 1, rfl, ?_⟩
        rw [e, hv']
        simp only [Function.iterate_succ, Function.comp]
      · have hv' : v = w := by
          simp only [haj, if_false] at hv
          cases hv
          rfl
        exact ⟨w, k, rfl, by rw [e, hv']⟩

theorem iterate_unit (f : Rat → Rat) (hf : ∀ u, 0 ≤ u → u ≤ 1 → 0 ≤ f u ∧ f u ≤ 1) (k : Nat) (u : Rat) (h0 : 0 ≤ u) (h1 : u ≤ 1) :
    0 ≤ f^[k] u ∧ f^[k] u ≤ 1 := by
  induction k generalizing u with
  | zero => exact ⟨h0, h1⟩
  | succ k ih =>
    rw [Function.iterate_succ, Function.comp]
    obtain ⟨a, b⟩ := hf u h0 h1
    exact ih _ a b

/-- What one activation does to every agent: kinds never change; beliefs and states are only changed by the agent itself. -/
theorem actTerr_cases (P : TerrParams) (adj : Nat → List Nat) (vs : List Terr) (i : Nat) (x : TerrIn) (j : Nat) (v' : Terr)
    (h : (actTerr P adj vs i x).1[j]? = some v') :
    (∃ (v : Terr) (f : Rat → Rat) (k : Nat), vs[j]? = some v ∧ v' = { v with vuln := f^[k] v.vuln } ∧
      (f = id ∨ f = (fun u => if P.trainMin < u then x.pow u (1 - P.training) else u) ∨
        f = (fun u => if P.havenMin < u then u * (1 - P.haven) else u) ∨
        f = (fun u => if u < P.havenMax then x.pow u (1 - P.haven) else u))) ∨
    (j = i ∧ ∃ v, vs[i]? = some v ∧ v.kind = .haven ∧ v.state = .civilian ∧ v' = { v with state := .terrorist }) ∨
    (j = i ∧ ∃ v, vs[i]? = some v ∧ v.kind = .person ∧
      ((v.state = .civilian ∧ ((v' = { v with state := .terrorist } ∧ (4 : Rat) / 5 ≤ v.belief) ∨
          ∃ m, weightedBelief vs x.deg ((terrNeighbours adj vs i (fun v => decide (v.kind = .person))).filter
              (fun j => decide (x.draw j ≤ P.interact))) = some m ∧
            v' = { v with belief := newBelief P v m, state := if (4 : Rat) / 5 ≤ newBelief P v m then .terrorist else .civilian })) ∨
        (v.state = .leader ∧ ∃ s, v' = { v with belief := x.pow v.belief (1 - P.extra), state := s } ∧ s ≠ .civilian) ∨
        (v.state = .terrorist ∧ ∃ s b, v' = { v with belief := b, state := s } ∧ s ≠ .civilian ∧
          (b = v.belief ∨ b = x.pow v.belief (1 - P.extra))))) := by
  have unchanged : vs[j]? = some v' → ∃ (v : Terr) (f : Rat → Rat) (k : Nat), vs[j]? = some v ∧ v' = { v with vuln := f^[k] v.vuln } ∧
      (f = id ∨ f = (fun u => if P.trainMin < u then x.pow u (1 - P.training) else u) ∨
        f = (fun u => if P.havenMin < u then u * (1 - P.haven) else u) ∨
        f = (fun u => if u < P.havenMax then x.pow u (1 - P.haven) else u)) :=
    fun h => ⟨v', id, 0, h, rfl, Or.inl rfl⟩
  unfold actTerr at h
  cases hv : vs[i]? with
  | none => rw [hv] at h; exact Or.inl (unchanged h)
  | some v =>
    rw [hv] at h
    simp only at h
    cases hk : v.kind with
    | training =>
      rw [hk] at h
      simp only at h
      obtain ⟨w, k, hw, e⟩ := changeVuln_get _ _ _ _ _ h
      exact Or.inl ⟨w, _, k, hw, e, Or.inr (Or.inl rfl)⟩
    | haven =>
      rw [hk] at h
      cases hs : v.state with
      | civilian =>
        rw [hs] at h
        simp only at h
        split at h
        · rcases set_cases _ _ _ _ _ h with ⟨hij, e⟩ | ⟨_, h⟩
          · exact Or.inr (Or.inl ⟨hij.symm, v, rfl, hk, hs, by rw [e, hk]⟩)
          · exact Or.inl (unchanged h)
        · simp only at h
          obtain ⟨w, k, hw, e⟩ := changeVuln_get _ _ _ _ _ h
          exact Or.inl ⟨w, _, k, hw, e, Or.inr (Or.inr (Or.inl rfl))⟩
      | terrorist =>
        rw [hs] at h
        simp only at h
        obtain ⟨w, k, hw, e⟩ := changeVuln_get _ _ _ _ _ h
        exact Or.inl ⟨w, _, k, hw, e, Or.inr (Or.inr (Or.inr rfl))⟩
      | leader =>
        rw [hs] at h
        simp only at h
        obtain ⟨w, k, hw, e⟩ := changeVuln_get _ _ _ _ _ h
        exact Or.inl ⟨w, _, k, hw, e, Or.inr (Or.inr (Or.inr rfl))⟩
    | person =>
      rw [hk] at h
      cases hs : v.state with
      | civilian =>
        rw [hs] at h
        simp only [actCivilian] at h
        split at h
        · simp only at h
          split at h
          · rename_i hb
            rcases set_cases _ _ _ _ _ h with ⟨hij, e⟩ | ⟨_, h⟩
            · exact Or.inr (Or.inr ⟨hij.symm, v, rfl, hk, Or.inl ⟨hs, Or.inl ⟨by rw [e], hb⟩⟩⟩)
            · exact Or.inl (unchanged h)
          · exact Or.inl (unchanged h)
        · cases hm : weightedBelief vs x.deg ((terrNeighbours adj vs i (fun v => decide (v.kind = .person))).filter
              (fun j => decide (x.draw j ≤ P.interact))) with
          | none => rw [hm] at h; exact Or.inl (unchanged h)
          | some m =>
            rw [hm] at h
            rcases set_cases _ _ _ _ _ h with ⟨hij, e⟩ | ⟨_, h⟩
            · exact Or.inr (Or.inr ⟨hij.symm, v, rfl, hk, Or.inl ⟨hs, Or.inr ⟨m, rfl, by rw [e]; rfl⟩⟩⟩)
            · exact Or.inl (unchanged h)
      | leader =>
        rw [hs] at h
        simp only [actLeader] at h
        rcases set_cases _ _ _ _ _ h with ⟨hij, e⟩ | ⟨_, h⟩
        · refine Or.inr (Or.inr ⟨hij.symm, v, rfl, hk, Or.inr (Or.inl ⟨hs, _, e, ?_⟩)⟩)
          split <;> simp
        · exact Or.inl (unchanged h)
      | terrorist =>
        rw [hs] at h
        simp only [actTerrorist] at h
        split at h
        · exact Or.inl (unchanged h)
        · rcases set_cases _ _ _ _ _ h with ⟨hij, e⟩ | ⟨_, h⟩
          · refine Or.inr (Or.inr ⟨hij.symm, v, rfl, hk, Or.inr (Or.inr ⟨hs, _, _, e, ?_, ?_⟩)⟩)
            · split
              · simp
              · split <;> simp
            · split
              · exact Or.inl rfl
              · exact Or.inr rfl
          · exact Or.inl (unchanged h)

theorem vuln_unit (P : TerrParams) (hP : P.Ok) (x : TerrIn) (hx : x.Ok) (f : Rat → Rat)
    (hf : f = id ∨ f = (fun u => if P.trainMin < u then x.pow u (1 - P.training) else u) ∨
        f = (fun u => if P.havenMin < u then u * (1 - P.haven) else u) ∨
        f = (fun u => if u < P.havenMax then x.pow u (1 - P.haven) else u)) (u : Rat) (h0 : 0 ≤ u) (h1 : u ≤ 1) : 0 ≤ f u ∧ f u ≤ 1 := by
  rcases hf with rfl | rfl | rfl | rfl
  · exact ⟨h0, h1⟩
  · simp only
    split
    · obtain ⟨a, b⟩ := hx.pow u (1 - P.training) h0 h1 (by linarith [hP.training.2]) (by linarith [hP.training.1])
      exact ⟨le_trans h0 a, b⟩
    · exact ⟨h0, h1⟩
  · simp only
    split
    · exact ⟨mul_nonneg h0 (by linarith [hP.haven.2]), by
        have := mul_le_mul_of_nonneg_left (show 1 - P.haven ≤ 1 by linarith [hP.haven.1]) h0
        linarith⟩
    · exact ⟨h0, h1⟩
  · simp only
    split
    · obtain ⟨a, b⟩ := hx.pow u (1 - P.haven) h0 h1 (by linarith [hP.haven.2]) (by linarith [hP.haven.1])
      exact ⟨le_trans h0 a, b⟩
    · exact ⟨h0, h1⟩

theorem beliefOf_le (vs : List Terr) (M : Rat) (hM : 0 ≤ M) (j : Nat)
    (h : ∀ v, vs[j]? = some v → 0 ≤ v.belief ∧ v.belief ≤ M) : 0 ≤ beliefOf vs j ∧ beliefOf vs j ≤ M := by
  unfold beliefOf
  cases hv : vs[j]? with
  | none => exact ⟨le_refl 0, hM⟩
  | some v => exact h v hv

theorem actTerr_ok (P : TerrParams) (hP : P.Ok) (adj : Nat → List Nat) (vs : List Terr) (i : Nat) (x : TerrIn) (hx : x.Ok)
    (hvs : ∀ (j : Nat) v, vs[j]? = some v → v.Ok) (j : Nat) (v' : Terr) (h : (actTerr P adj vs i x).1[j]? = some v') : v'.Ok := by
  rcases actTerr_cases P adj vs i x j v' h with ⟨v, f, k, hv, rfl, hf⟩ | ⟨_, v, hv, _, _, rfl⟩ | ⟨_, v, hv, _, hc⟩
  · obtain ⟨a, b⟩ := hvs j v hv
    exact ⟨a, iterate_unit f (vuln_unit P hP x hx f hf) k v.vuln b.1 b.2⟩
  · exact hvs i v hv
  · obtain ⟨a, b⟩ := hvs i v hv
    rcases hc with ⟨_, ⟨rfl, _⟩ | ⟨m, hm, rfl⟩⟩ | ⟨_, s, rfl, _⟩ | ⟨_, s, b', rfl, _, hb⟩
    · exact ⟨a, b⟩
    · refine ⟨newBelief_bounds P hP v m 1 (weightedBelief_bounds vs x.deg _ m 1 (by norm_num) hx.deg ?_ hm) a b, b⟩
      intro k _
      exact beliefOf_le vs 1 (by norm_num) k (fun v hv => (hvs k v hv).1)
    · obtain ⟨p, q⟩ := hx.pow v.belief (1 - P.extra) a.1 a.2 (by linarith [hP.extra.2]) (by linarith [hP.extra.1])
      exact ⟨⟨le_trans a.1 p, q⟩, b⟩
    · rcases hb with rfl | rfl
      · exact ⟨a, b⟩
      · obtain ⟨p, q⟩ := hx.pow v.belief (1 - P.extra) a.1 a.2 (by linarith [hP.extra.2]) (by linarith [hP.extra.1])
        exact ⟨⟨le_trans a.1 p, q⟩, b⟩

theorem runTerr_induct (P : TerrParams) (adj : Nat → List Nat) (Q : List Terr → Prop) (h : List (Nat × TerrIn))
    (hs : ∀ vs, ∀ e ∈ h, Q vs → Q (actTerr P adj vs e.1 e.2).1) (vs : List Terr) (h0 : Q vs) : Q (runTerr P adj h vs).1 := by
  induction h generalizing vs with
  | nil => exact h0
  | cons e h ih =>
    obtain ⟨i, x⟩ := e
    simp only [runTerr]
    have h1 := hs vs (i, x) (by simp) h0
    split
    · exact h1
    · exact ih (fun vs e he => hs vs e (by simp [he])) _ h1

/-- C140: if the settings are probabilities, then, whatever the schedule, the random numbers and the network, beliefs and
vulnerabilities stay between 0 and 1. -/
theorem C140_bounds (P : TerrParams) (hP : P.Ok) (adj : Nat → List Nat) (h : List (Nat × TerrIn)) (hx : ∀ e ∈ h, e.2.Ok)
    (vs : List Terr) (h0 : ∀ (j : Nat) v, vs[j]? = some v → v.Ok) (j : Nat) (v : Terr) (hv : (runTerr P adj h vs).1[j]? = some v) :
    (0 ≤ v.belief ∧ v.belief ≤ 1) ∧ (0 ≤ v.vuln ∧ v.vuln ≤ 1) :=
  runTerr_induct P adj (fun vs => ∀ (j : Nat) v, vs[j]? = some v → v.Ok) h
    (fun vs e he hQ j v hv => actTerr_ok P hP adj vs e.1 e.2 (hx e he) hQ j v hv) vs h0 j v hv

/-- C141: nobody becomes a terrorist by itself: if all persons are civilians and no belief is more than `M`, with `M` less than 0.8,
then this remains so for ever, whatever training areas and havens do. -/
theorem C141_no_spontaneous (P : TerrParams) (hP : P.Ok) (adj : Nat → List Nat) (h : List (Nat × TerrIn)) (hx : ∀ e ∈ h, e.2.Ok)
    (M : Rat) (hM : M < 4 / 5) (vs : List Terr)
    (h0 : ∀ (j : Nat) v, vs[j]? = some v → v.Ok ∧ (v.kind = .person → v.state = .civilian ∧ v.belief ≤ M))
    (j : Nat) (v : Terr) (hv : (runTerr P adj h vs).1[j]? = some v) (hk : v.kind = .person) : v.state = .civilian ∧ v.belief ≤ M := by
  refine (runTerr_induct P adj
    (fun vs => ∀ (j : Nat) v, vs[j]? = some v → v.Ok ∧ (v.kind = .person → v.state = .civilian ∧ v.belief ≤ M)) h
    ?_ vs h0 j v hv).2 hk
  intro vs e he hQ j v' hv'
  refine ⟨actTerr_ok P hP adj vs e.1 e.2 (hx e he) (fun j v h => (hQ j v h).1) j v' hv', ?_⟩
  rcases actTerr_cases P adj vs e.1 e.2 j v' hv' with ⟨v, f, k, hv, rfl, hf⟩ | ⟨_, v, hv, hk, _, rfl⟩ | ⟨_, v, hv, hk, hc⟩
  · exact (hQ j v hv).2
  · intro hk'
    simp only at hk'
    rw [hk] at hk'
    cases hk'
  · intro _
    obtain ⟨⟨hb, hu⟩, hci⟩ := hQ e.1 v hv
    obtain ⟨hcs, hbM⟩ := hci hk
    rcases hc with ⟨_, ⟨rfl, hb'⟩ | ⟨m, hm, rfl⟩⟩ | ⟨hs, _⟩ | ⟨hs, _⟩
    · exact absurd hb' (by linarith)
    · have hM0 : 0 ≤ M := le_trans hb.1 hbM
      have hmb := weightedBelief_bounds vs e.2.deg _ m M hM0 (hx e he).deg (fun k hk' => by
        obtain ⟨w, hw, hwk⟩ := (mem_terrNeighbours (List.mem_filter.1 hk').1).2
        have := hQ k w hw
        have hb2 := (this.2 (by simpa using hwk)).2
        simp only [beliefOf, hw]
        exact ⟨this.1.1.1, hb2⟩) hm
      have hnb := newBelief_bounds P hP v m M hmb ⟨hb.1, hbM⟩ hu
      simp only
      refine ⟨?_, hnb.2⟩
      rw [if_neg (by linarith [hnb.2])]
    · rw [hcs] at hs; cases hs
    · rw [hcs] at hs; cases hs

/-- C141: once a terrorist (or a leader), a person never goes back, and its belief never decreases. -/
theorem C141_for_ever (P : TerrParams) (hP : P.Ok) (adj : Nat → List Nat) (h : List (Nat × TerrIn)) (hx : ∀ e ∈ h, e.2.Ok)
    (vs : List Terr) (h0 : ∀ (j : Nat) v, vs[j]? = some v → v.Ok) (j : Nat) (v : Terr) (hv : vs[j]? = some v) (hk : v.kind = .person)
    (hs : v.state ≠ .civilian) (v' : Terr) (hv' : (runTerr P adj h vs).1[j]? = some v') : v'.state ≠ .civilian ∧ v.belief ≤ v'.belief := by
  have := runTerr_induct P adj (fun ws => (∀ (j : Nat) v, ws[j]? = some v → v.Ok) ∧
      ∀ w, ws[j]? = some w → w.kind = .person ∧ w.state ≠ .civilian ∧ v.belief ≤ w.belief) h ?_ vs ⟨h0, ?_⟩
  · exact (this.2 v' hv').2
  · rintro ws e he ⟨hQ, hR⟩
    refine ⟨actTerr_ok P hP adj ws e.1 e.2 (hx e he) hQ, ?_⟩
    intro w' hw'
    rcases actTerr_cases P adj ws e.1 e.2 j w' hw' with ⟨w, f, k, hw, rfl, hf⟩ | ⟨rfl, w, hw, hk, _, rfl⟩ | ⟨rfl, w, hw, hk, hc⟩
    · exact hR w hw
    · have := (hR w hw).1
      rw [hk] at this
      cases this
    · obtain ⟨h1, h2, h3⟩ := hR w hw
      have hw1 := (hQ _ w hw).1
      have hpow := (hx e he).pow w.belief (1 - P.extra) hw1.1 hw1.2 (by linarith [hP.extra.2]) (by linarith [hP.extra.1])
      rcases hc with ⟨hcs, _⟩ | ⟨_, s, rfl, hsn⟩ | ⟨_, s, b, rfl, hsn, hb⟩
      · exact absurd hcs h2
      · exact ⟨hk, hsn, le_trans h3 hpow.1⟩
      · refine ⟨hk, hsn, ?_⟩
        rcases hb with rfl | rfl
        · exact h3
        · exact le_trans h3 hpow.1
  · intro w hw
    rw [hv] at hw
    cases hw
    exact ⟨hk, hs, le_refl _⟩

/-- C142 is false: a civilian with neighbours that interacts with none of them loses some of its belief: the mean of no beliefs counts
as 0. -/
theorem C142_no_interaction_false (P : TerrParams) (adj : Nat → List Nat) (vs : List Terr) (i : Nat) (v : Terr) (x : TerrIn)
    (hv : vs[i]? = some v) (hk : v.kind = .person) (hs : v.state = .civilian)
    (hn : terrNeighbours adj vs i (fun v => decide (v.kind = .person)) ≠ []) (hno : ∀ j ∈ adj i, P.interact < x.draw j)
    (hb : 0 < v.belief) (hi : 0 < P.intensity) (hu : 0 < v.vuln) :
    ∃ v', (actTerr P adj vs i x).1[i]? = some v' ∧ v'.belief = v.belief * (1 - P.intensity * v.vuln) ∧ v'.belief < v.belief := by
  have hfil : (terrNeighbours adj vs i (fun v => decide (v.kind = .person))).filter (fun j => decide (x.draw j ≤ P.interact)) = [] := by
    rw [List.filter_eq_nil_iff]
    intro j hj
    have := hno j (mem_terrNeighbours hj).1
    simp only [decide_eq_true_eq, not_le]
    exact this
  have hlt := (List.getElem?_eq_some_iff.1 hv).1
  have hval : ((0 : Rat) * P.intensity + v.belief * (1 - P.intensity)) * v.vuln + v.belief * (1 - v.vuln) =
      v.belief * (1 - P.intensity * v.vuln) := by ring
  refine ⟨{ v with belief := v.belief * (1 - P.intensity * v.vuln), state := if (4 : Rat) / 5 ≤ v.belief * (1 - P.intensity * v.vuln) then .terrorist else .civilian }, ?_, rfl, ?_⟩
  · unfold actTerr
    rw [hv]
    simp only [hk, hs, actCivilian]
    rw [if_neg hn, hfil]
    simp only [weightedBelief, ne_eq, not_true_eq_false, false_and, if_false, List.map_nil, List.sum_nil, hval]
    rw [List.getElem?_set_self hlt]
  · simp only
    have := mul_pos hb (mul_pos hi hu)
    have e : v.belief * (1 - P.intensity * v.vuln) = v.belief - v.belief * (P.intensity * v.vuln) := by ring
    rw [e]
    linarith

/-- C142 (partial: no neighbours at all): the belief stays as it is. -/
theorem C142_alone_partial (P : TerrParams) (adj : Nat → List Nat) (vs : List Terr) (i : Nat) (v : Terr) (x : TerrIn)
    (hv : vs[i]? = some v) (hk : v.kind = .person) (hs : v.state = .civilian)
    (hn : terrNeighbours adj vs i (fun v => decide (v.kind = .person)) = []) :
    ∃ v', (actTerr P adj vs i x).1[i]? = some v' ∧ v'.belief = v.belief := by
  have hlt := (List.getElem?_eq_some_iff.1 hv).1
  unfold actTerr
  rw [hv]
  simp only [hk, hs, actCivilian]
  rw [if_pos hn]
  simp only
  split
  · exact ⟨_, List.getElem?_set_self hlt, rfl⟩
  · exact ⟨v, hv, rfl⟩

/-- C143 is false: what the neighbours believe makes no difference to a terrorist: whatever the other agents' beliefs are changed to, its
belief after the activation is the same (unless one of the two raises, which they do together). -/
theorem C143_influence_false (P : TerrParams) (adj : Nat → List Nat) (vs : List Terr) (i : Nat) (v : Terr) (x : TerrIn)
    (hv : vs[i]? = some v) (hk : v.kind = .person) (hs : v.state = .terrorist) (g : Nat → Rat) :
    let ws := vs.mapIdx (fun j w => if j = i then w else { w with belief := g j })
    (actTerr P adj ws i x).2 = (actTerr P adj vs i x).2 ∧
      (actTerr P adj ws i x).1[i]? = (actTerr P adj vs i x).1[i]? := by
  intro ws
  have hget : ∀ j : Nat, ws[j]? = vs[j]?.map (fun w => if j = i then w else { w with belief := g j }) := by
    intro j
    simp only [ws, List.getElem?_mapIdx]
  have hwi : ws[i]? = some v := by rw [hget, hv]; simp
  have hnb : ∀ c : Terr → Bool, (∀ w b, c { w with belief := b } = c w) → terrNeighbours adj ws i c = terrNeighbours adj vs i c := by
    intro c hc
    unfold terrNeighbours
    congr 1
    funext j
    rw [hget]
    cases vs[j]? with
    | none => rfl
    | some w =>
      simp only [Option.map_some]
      split
      · rfl
      · exact hc w (g j)
  have hraise : ∀ l, (weightedBelief ws x.deg l = none ↔ weightedBelief vs x.deg l = none) := by
    intro l
    unfold weightedBelief
    split <;> simp
  have hled : ∀ l : List Nat, l.any (isLeader ws) = l.any (isLeader vs) := by
    intro l
    congr 1
    funext j
    unfold isLeader
    rw [hget]
    cases vs[j]? with
    | none => rfl
    | some w =>
      simp only [Option.map_some]
      split <;> rfl
  have hlt := (List.getElem?_eq_some_iff.1 hv).1
  have hlt' := (List.getElem?_eq_some_iff.1 hwi).1
  unfold actTerr
  rw [hv, hwi]
  simp only [hk, hs, actTerrorist]
  rw [hnb (fun v => decide (v.kind = .person ∧ (v.state = .terrorist ∨ v.state = .leader))) (fun _ _ => rfl)]
  generalize terrNeighbours adj vs i (fun v => decide (v.kind = .person ∧ (v.state = .terrorist ∨ v.state = .leader))) = ns
  have := hraise ns
  cases h1 : weightedBelief vs x.deg ns with
  | none =>
    rw [this.2 h1]
    exact ⟨rfl, by rw [hwi, hv]⟩
  | some a =>
    cases h2 : weightedBelief ws x.deg ns with
    | none => rw [this.1 h2] at h1; cases h1
    | some b =>
      simp only [hled]
      refine ⟨trivial, ?_⟩
      rw [List.getElem?_set_self hlt, List.getElem?_set_self hlt']

/-- C143 (partial: only whether there is a group): with at least one terrorist or leader among its neighbours the belief of a terrorist
is raised to the power, otherwise it stays. -/
theorem C143_group_partial (P : TerrParams) (adj : Nat → List Nat) (vs : List Terr) (i : Nat) (v : Terr) (x : TerrIn)
    (hv : vs[i]? = some v) (hk : v.kind = .person) (hs : v.state = .terrorist) (hr : (actTerr P adj vs i x).2 = false) :
    ∃ v', (actTerr P adj vs i x).1[i]? = some v' ∧
      ((∃ j ∈ adj i, ∃ w, vs[j]? = some w ∧ w.kind = .person ∧ w.state ≠ .civilian) → v'.belief = x.pow v.belief (1 - P.extra)) ∧
      ((∀ j ∈ adj i, ∀ w, vs[j]? = some w → w.kind = .person → w.state = .civilian) → v'.belief = v.belief) := by
  have hlt := (List.getElem?_eq_some_iff.1 hv).1
  unfold actTerr at hr ⊢
  rw [hv] at hr ⊢
  simp only [hk, hs, actTerrorist] at hr ⊢
  cases hm : weightedBelief vs x.deg
      (terrNeighbours adj vs i (fun v => decide (v.kind = .person ∧ (v.state = .terrorist ∨ v.state = .leader)))) with
  | none => rw [hm] at hr; cases hr
  | some m =>
    simp only
    refine ⟨_, List.getElem?_set_self hlt, ?_, ?_⟩
    · rintro ⟨j, hj, w, hw, hwk, hws⟩
      have : j ∈ terrNeighbours adj vs i (fun v => decide (v.kind = .person ∧ (v.state = .terrorist ∨ v.state = .leader))) := by
        refine List.mem_filter.2 ⟨hj, ?_⟩
        rw [hw]
        cases hst : w.state <;> simp_all
      simp only
      rw [if_neg (List.ne_nil_of_mem this)]
    · intro h
      have : terrNeighbours adj vs i (fun v => decide (v.kind = .person ∧ (v.state = .terrorist ∨ v.state = .leader))) = [] := by
        rw [List.eq_nil_iff_forall_not_mem]
        intro j hj
        obtain ⟨hja, w, hw, hc⟩ := mem_terrNeighbours hj
        simp only [decide_eq_true_eq] at hc
        rw [h j hja w hw hc.1] at hc
        rcases hc.2 with h | h <;> cases h
      simp only
      rw [if_pos this]

/-- C213: a terrorist with a leader among the terrorists next to it stays a terrorist; without one it becomes the leader unless one of them is more
central than it is. -/
theorem C213_terrorist (P : TerrParams) (adj : Nat → List Nat) (vs : List Terr) (i : Nat) (v : Terr) (x : TerrIn)
    (hv : vs[i]? = some v) (hk : v.kind = .person) (hs : v.state = .terrorist) (hr : (actTerr P adj vs i x).2 = false) :
    ∃ v', (actTerr P adj vs i x).1[i]? = some v' ∧ (v'.state = .terrorist ∨ v'.state = .leader) ∧
      (v'.state = .leader ↔ ∀ j ∈ adj i, ∀ w, vs[j]? = some w → w.kind = .person → w.state ≠ .leader ∧
        (w.state = .terrorist → x.btw j ≤ x.btw i)) := by
  have hlt := (List.getElem?_eq_some_iff.1 hv).1
  unfold actTerr at hr ⊢
  rw [hv] at hr ⊢
  simp only [hk, hs, actTerrorist] at hr ⊢
  have hmem : ∀ j, j ∈ terrNeighbours adj vs i (fun v => decide (v.kind = .person ∧ (v.state = .terrorist ∨ v.state = .leader))) ↔
      j ∈ adj i ∧ ∃ w, vs[j]? = some w ∧ w.kind = .person ∧ (w.state = .terrorist ∨ w.state = .leader) := by
    intro j
    constructor
    · intro hj
      obtain ⟨hja, w, hw, hc⟩ := mem_terrNeighbours hj
      exact ⟨hja, w, hw, by simpa using hc⟩
    · rintro ⟨hja, w, hw, hc⟩
      refine List.mem_filter.2 ⟨hja, ?_⟩
      rw [hw]
      simpa using hc
  generalize terrNeighbours adj vs i (fun v => decide (v.kind = .person ∧ (v.state = .terrorist ∨ v.state = .leader))) = ns at hr hmem ⊢
  cases hm : weightedBelief vs x.deg ns with
  | none => rw [hm] at hr; cases hr
  | some m =>
    simp only
    refine ⟨_, List.getElem?_set_self hlt, ?_, ?_⟩
    · simp only
      split
      · exact .inl rfl
      · split
        · exact .inl rfl
        · exact .inr rfl
    · simp only
      by_cases hled : ns.any (isLeader vs) = true
      · rw [if_pos hled]
        refine ⟨fun h => (nomatch h), fun h => ?_⟩
        obtain ⟨j, hj, hl⟩ := List.any_eq_true.1 hled
        obtain ⟨hja, w, hw, hwk, _⟩ := (hmem j).1 hj
        unfold isLeader at hl
        rw [hw] at hl
        exact absurd (of_decide_eq_true hl) (h j hja w hw hwk).1
      · rw [if_neg hled]
        by_cases hb : ns.any (fun j => decide (x.btw i < x.btw j)) = true
        · rw [if_pos hb]
          refine ⟨fun h => (nomatch h), fun h => ?_⟩
          obtain ⟨j, hj, hl⟩ := List.any_eq_true.1 hb
          obtain ⟨hja, w, hw, hwk, hst⟩ := (hmem j).1 hj
          obtain ⟨h1, h2⟩ := h j hja w hw hwk
          have := h2 (hst.resolve_right h1)
          exact absurd (of_decide_eq_true hl) (not_lt.2 this)
        · rw [if_neg hb]
          refine ⟨fun _ j hja w hw hwk => ⟨fun hst => hled ?_, fun hst => ?_⟩, fun _ => rfl⟩
          · refine List.any_eq_true.2 ⟨j, (hmem j).2 ⟨hja, w, hw, hwk, .inr hst⟩, ?_⟩
            unfold isLeader
            rw [hw]
            exact decide_eq_true hst
          · by_contra hc
            exact hb (List.any_eq_true.2 ⟨j, (hmem j).2 ⟨hja, w, hw, hwk, .inl hst⟩, decide_eq_true (not_le.1 hc)⟩)

/-- C213: a leader steps down exactly if one of the terrorists or leaders next to it, of whatever class, is more central. -/
theorem C213_leader (P : TerrParams) (adj : Nat → List Nat) (vs : List Terr) (i : Nat) (v : Terr) (x : TerrIn)
    (hv : vs[i]? = some v) (hk : v.kind = .person) (hs : v.state = .leader) :
    ∃ v', (actTerr P adj vs i x).1[i]? = some v' ∧ (v'.state = .terrorist ∨ v'.state = .leader) ∧
      (v'.state = .terrorist ↔ ∃ j ∈ adj i, ∃ w, vs[j]? = some w ∧ (w.state = .terrorist ∨ w.state = .leader) ∧ x.btw i < x.btw j) := by
  have hlt := (List.getElem?_eq_some_iff.1 hv).1
  unfold actTerr
  rw [hv]
  simp only [hk, hs, actLeader]
  refine ⟨_, List.getElem?_set_self hlt, ?_, ?_⟩
  · simp only
    split
    · exact .inl rfl
    · exact .inr rfl
  · simp only
    by_cases hb : (terrNeighbours adj vs i (fun v => decide (v.state = .terrorist ∨ v.state = .leader))).any
        (fun j => decide (x.btw i < x.btw j)) = true
    · rw [if_pos hb]
      refine ⟨fun _ => ?_, fun _ => rfl⟩
      obtain ⟨j, hj, hl⟩ := List.any_eq_true.1 hb
      obtain ⟨hja, w, hw, hc⟩ := mem_terrNeighbours hj
      exact ⟨j, hja, w, hw, by simpa using hc, of_decide_eq_true hl⟩
    · rw [if_neg hb]
      refine ⟨fun h => (nomatch h), fun h => ?_⟩
      obtain ⟨j, hja, w, hw, hc, hl⟩ := h
      refine absurd (List.any_eq_true.2 ⟨j, List.mem_filter.2 ⟨hja, ?_⟩, decide_eq_true hl⟩) hb
      rw [hw]
      simpa using hc

private theorem leader_before (P : TerrParams) (adj : Nat → List Nat) (vs : List Terr) (i : Nat) (x : TerrIn) (j : Nat) (v' : Terr)
    (h : (actTerr P adj vs i x).1[j]? = some v') (hk : v'.kind = .person) (hs : v'.state = .leader) :
    ∃ v, vs[j]? = some v ∧ v.kind = .person ∧ (v.state = .leader ∨ (j = i ∧ v.state = .terrorist)) := by
  rcases actTerr_cases P adj vs i x j v' h with ⟨v, f, k, hv, rfl, hf⟩ | ⟨_, v, hv, hk', _, rfl⟩ | ⟨rfl, v, hv, hk', hc⟩
  · exact ⟨v, hv, hk, .inl hs⟩
  · cases hs
  · refine ⟨v, hv, hk', ?_⟩
    rcases hc with ⟨_, ⟨rfl, _⟩ | ⟨m, _, rfl⟩⟩ | ⟨hs', _⟩ | ⟨hs', _⟩
    · cases hs
    · simp only at hs
      split at hs <;> cases hs
    · exact .inl hs'
    · exact .inr ⟨rfl, hs'⟩

/-- C213: there are never two leaders next to each other, if there were none in the beginning and the network is undirected. -/
theorem C213_apart (P : TerrParams) (adj : Nat → List Nat) (hsym : ∀ a b, b ∈ adj a → a ∈ adj b) (h : List (Nat × TerrIn)) (vs : List Terr)
    (h0 : ∀ a b va vb, a ≠ b → b ∈ adj a → vs[a]? = some va → vs[b]? = some vb → va.kind = .person → vb.kind = .person →
      ¬ (va.state = .leader ∧ vb.state = .leader))
    (a b : Nat) (va vb : Terr) (hab : a ≠ b) (hadj : b ∈ adj a) (ha : (runTerr P adj h vs).1[a]? = some va)
    (hb : (runTerr P adj h vs).1[b]? = some vb) (hka : va.kind = .person) (hkb : vb.kind = .person) :
    ¬ (va.state = .leader ∧ vb.state = .leader) := by
  refine runTerr_induct P adj (fun vs => ∀ (a b : Nat) va vb, a ≠ b → b ∈ adj a → vs[a]? = some va → vs[b]? = some vb →
      va.kind = .person → vb.kind = .person → ¬ (va.state = .leader ∧ vb.state = .leader)) h ?_ vs h0 a b va vb hab hadj ha hb hka hkb
  rintro vs ⟨i, x⟩ _ hQ a b va vb hab hadj ha hb hka hkb ⟨hla, hlb⟩
  simp only at ha hb
  obtain ⟨wa, hwa, hwka, hca⟩ := leader_before P adj vs i x a va ha hka hla
  obtain ⟨wb, hwb, hwkb, hcb⟩ := leader_before P adj vs i x b vb hb hkb hlb
  have new : ∀ (c d : Nat) (wc vc wd : Terr), c ≠ d → d ∈ adj c → c = i → vs[c]? = some wc → wc.kind = .person → wc.state = .terrorist →
      (actTerr P adj vs i x).1[c]? = some vc → vc.state = .leader → vs[d]? = some wd → wd.kind = .person → wd.state = .leader → False := by
    intro c d wc vc wd _ hcd hci hwc hkc hsc hvc hlc hwd hkd hsd
    subst hci
    cases hr : (actTerr P adj vs c x).2 with
    | true =>
      have e : (actTerr P adj vs c x).1 = vs := by
        unfold actTerr at hr ⊢
        rw [hwc] at hr ⊢
        simp only [hkc, hsc, actTerrorist] at hr ⊢
        split at hr
        · rfl
        · cases hr
      rw [e, hwc] at hvc
      cases hvc
      rw [hsc] at hlc
      cases hlc
    | false =>
      obtain ⟨v', hv', _, hiff⟩ := C213_terrorist P adj vs c wc x hwc hkc hsc hr
      rw [hvc] at hv'
      cases hv'
      exact (hiff.1 hlc d hcd wd hwd hkd).1 hsd
  rcases hca with hca | ⟨hai, hca⟩
  · rcases hcb with hcb | ⟨hbi, hcb⟩
    · exact hQ a b wa wb hab hadj hwa hwb hwka hwkb ⟨hca, hcb⟩
    · exact new b a wb vb wa (fun e => hab e.symm) (hsym a b hadj) hbi hwb hwkb hcb hb hlb hwa hwka hca
  · rcases hcb with hcb | ⟨hbi, hcb⟩
    · exact new a b wa va wb hab hadj hai hwa hwka hca ha hla hwb hwkb hcb
    · exact hab (hai.trans hbi.symm)

/-- Three terrorists in a row: the one in the middle is more central and becomes the leader. -/
example : ((runTerr ⟨1, 1 / 2, 1, 0, 0, 0, 0, 1⟩ (fun i => if i = 1 then [0, 2] else [1])
      ([0, 1, 2, 0].map (fun i => (i, ⟨fun _ => 0, fun _ => 1, fun j => if j = 1 then 1 else 0, fun b _ => b⟩)))
      (List.replicate 3 ⟨.person, .terrorist, 1, 1⟩)).1).map (·.state) = [.terrorist, .leader, .terrorist] := by decide +kernel

/-- C144 is false: persons of the class `TerroristNetworkModel` raise with every activation as a terrorist or leader; as long as nobody
raises, no terrorist or leader has been activated. -/
theorem C144_network_false (P : TerrParams) (adj : Nat → List Nat) (vs : List Terr) (i : Nat) (v : Terr) (x : TerrIn)
    (h : List (Nat × TerrIn)) (hv : vs[i]? = some v) (hk : v.kind = .person) (hs : v.state ≠ .civilian) :
    (runNetTerr P adj ((i, x) :: h) vs).2 = true := by
  have : actNetTerr P adj vs i x = (vs, true) := by
    unfold actNetTerr
    rw [hv]
    simp [hk, hs]
  simp [runNetTerr, this]

/-- C144 (partial): a run of such persons without an exception is the same as that of the base class. -/
theorem C144_network_partial (P : TerrParams) (adj : Nat → List Nat) (h : List (Nat × TerrIn)) (vs : List Terr)
    (hok : (runNetTerr P adj h vs).2 = false) : runNetTerr P adj h vs = runTerr P adj h vs := by
  induction h generalizing vs with
  | nil => rfl
  | cons e h ih =>
    obtain ⟨i, x⟩ := e
    have he : (actNetTerr P adj vs i x).2 = false := by
      by_contra hc
      simp only [Bool.not_eq_false] at hc
      simp [runNetTerr, hc] at hok
    have e1 : actNetTerr P adj vs i x = actTerr P adj vs i x := by
      unfold actNetTerr at he ⊢
      cases hv : vs[i]? with
      | none => simp [actTerr, hv]
      | some v =>
        rw [hv] at he
        simp only at he ⊢
        split at he
        · cases he
        · rename_i hc
          rw [if_neg hc]
    simp only [runNetTerr, runTerr, e1] at hok ⊢
    rw [e1] at he
    simp only [he, Bool.false_eq_true, if_false] at hok ⊢
    exact ih _ hok

/-- C144 (partial): exactly which runs of such persons end with an exception: those that do in the base class, and those where a person that
is a terrorist or a leader is activated; training areas, havens and civilians are as in the base class. -/
theorem C144_exact_partial (P : TerrParams) (adj : Nat → List Nat) (h : List (Nat × TerrIn)) (vs : List Terr) :
    (runNetTerr P adj h vs).2 = true ↔ (runTerr P adj h vs).2 = true ∨
      ∃ h1 i x h2 v, h = h1 ++ (i, x) :: h2 ∧ (runTerr P adj h1 vs).2 = false ∧ (runTerr P adj h1 vs).1[i]? = some v ∧
        v.kind = .person ∧ v.state ≠ .civilian := by
  induction h generalizing vs with
  | nil =>
    simp only [runNetTerr, runTerr, Bool.false_eq_true, false_or, false_iff]
    rintro ⟨h1, i, x, h2, v, hx, _⟩
    simp at hx
  | cons e h ih =>
    obtain ⟨i, x⟩ := e
    by_cases hb : ∃ v, vs[i]? = some v ∧ v.kind = .person ∧ v.state ≠ .civilian
    · obtain ⟨v, hv, hk, hs⟩ := hb
      constructor
      · intro _
        exact Or.inr ⟨[], i, x, h, v, rfl, rfl, hv, hk, hs⟩
      · intro _
        have : actNetTerr P adj vs i x = (vs, true) := by
          unfold actNetTerr
          rw [hv]
          simp [hk, hs]
        simp [runNetTerr, this]
    · have e1 : actNetTerr P adj vs i x = actTerr P adj vs i x := by
        unfold actNetTerr
        cases hv : vs[i]? with
        | none => simp [actTerr, hv]
        | some v =>
          simp only
          rw [if_neg]
          rintro ⟨h1, h2⟩
          exact hb ⟨v, hv, h1, h2⟩
      by_cases ha : (actTerr P adj vs i x).2 = true
      · simp [runNetTerr, runTerr, e1, ha]
      · have n1 : runNetTerr P adj ((i, x) :: h) vs = runNetTerr P adj h (actTerr P adj vs i x).1 := by simp [runNetTerr, e1, ha]
        have n2 : ∀ l, runTerr P adj ((i, x) :: l) vs = runTerr P adj l (actTerr P adj vs i x).1 := fun l => by simp [runTerr, ha]
        rw [n1, n2, ih]
        constructor
        · rintro (hx | ⟨h1, i', x', h2, v, hx, hy, hz⟩)
          · exact Or.inl hx
          · exact Or.inr ⟨(i, x) :: h1, i', x', h2, v, by rw [hx]; rfl, by rw [n2]; exact hy, by rw [n2]; exact hz⟩
        · rintro (hx | ⟨h1, i', x', h2, v, hx, hy, hz⟩)
          · exact Or.inl hx
          · cases h1 with
            | nil =>
              simp only [List.nil_append, List.cons.injEq, Prod.mk.injEq] at hx
              obtain ⟨⟨rfl, rfl⟩, _⟩ := hx
              exact absurd ⟨v, hz⟩ hb
            | cons e' h1 =>
              simp only [List.cons_append, List.cons.injEq] at hx
              obtain ⟨rfl, hx⟩ := hx
              rw [n2] at hy hz
              exact Or.inr ⟨h1, i', x', h2, v, hx, hy, hz⟩

/-- C145 is false: after `degree` has been called at the current time, `betweenness` uses the centralities of an old network, as soon as it
was called once before, however often the network has changed. -/
theorem C145_stale_false {α : Type} (c : CentralCache α) (old net : α) (now : Rat) (hb : c.betweenness = some old) (hd : c.degree ≠ none)
    (hl : c.last < now) : ((c.getDegree net now).2.getBetweenness net now).1 = old := by
  obtain ⟨d, hd⟩ := Option.ne_none_iff_exists'.1 hd
  simp [CentralCache.getDegree, CentralCache.getBetweenness, hd, hl, hb]

/-- C145 is false the other way round as well: `betweenness` makes the degrees look up to date. -/
theorem C145_stale_degree_false {α : Type} (c : CentralCache α) (old net : α) (now : Rat) (hb : c.betweenness ≠ none) (hd : c.degree = some old)
    (hl : c.last < now) : ((c.getBetweenness net now).2.getDegree net now).1 = old := by
  obtain ⟨b, hb⟩ := Option.ne_none_iff_exists'.1 hb
  simp [CentralCache.getDegree, CentralCache.getBetweenness, hd, hl, hb]

/-- C145 (partial: degrees only): if only `degree` is called, the first call at a time after the last one uses the network of that
moment, and further calls at the same time use the same. -/
theorem C145_degree_partial {α : Type} (c : CentralCache α) (net later : α) (now : Rat) (hl : c.last < now) :
    (c.getDegree net now).1 = net ∧ ((c.getDegree net now).2.getDegree later now).1 = net := by
  cases hd : c.degree <;> simp [CentralCache.getDegree, hd, hl]

/-! ## Examples -/

/-- The settings of the example. -/
def terrParams : TerrParams := ⟨7/10, 35/1000, 1/2, 1/5, 0, 1/5, 0, 7/10⟩

example : terrParams.Ok := by
  constructor <;> simp only [terrParams] <;> constructor <;> norm_num

/-- Inputs with all degrees 1 and no change by `**`. -/
def plainIn (d : Rat) : TerrIn := ⟨fun _ => d, fun _ => 1, fun j => (j : Rat), fun a _ => a⟩

example (d : Rat) : (plainIn d).Ok := ⟨fun _ => by simp [plainIn], fun a e _ h _ _ => ⟨le_refl a, h⟩⟩

/-- A civilian between two leaders becomes a terrorist. -/
example : (runTerr terrParams (fun i => if i = 1 then [0, 2] else [1]) [(1, plainIn 0), (1, plainIn 0)]
    [⟨.person, .leader, 1, 1/2⟩, ⟨.person, .civilian, 1/2, 1⟩, ⟨.person, .leader, 1, 1/2⟩]).1[1]?.map (fun v => (v.state, v.belief)) =
    some (.terrorist, 17/20) := by decide +kernel

/-- Without interaction it loses belief. -/
example : (runTerr terrParams (fun i => if i = 1 then [0, 2] else [1]) [(1, plainIn 1)]
    [⟨.person, .leader, 1, 1/2⟩, ⟨.person, .civilian, 1/2, 1⟩, ⟨.person, .leader, 1, 1/2⟩]).1[1]?.map (fun v => (v.state, v.belief)) =
    some (.civilian, 3/20) := by decide +kernel

/-- A haven without civilians becomes one of terrorists; a training area leaves beliefs alone. -/
example : (runTerr terrParams (fun i => if i = 0 then [1] else [0]) [(1, plainIn 1)]
    [⟨.person, .leader, 1, 1/2⟩, ⟨.haven, .civilian, 0, 0⟩]).1.map (·.state) = [.leader, .terrorist] := by decide +kernel

/-- The networked version: a civilian and a training area act without an exception, the leader raises one. -/
example : (runNetTerr terrParams (fun i => if i = 0 then [1, 2] else [0]) [(1, plainIn 1), (2, plainIn 1)]
      [⟨.person, .leader, 1, 1/2⟩, ⟨.person, .civilian, 1/2, 1⟩, ⟨.training, .terrorist, 0, 0⟩]).2 = false ∧
    (runNetTerr terrParams (fun i => if i = 0 then [1, 2] else [0]) [(1, plainIn 1), (2, plainIn 1), (0, plainIn 1)]
      [⟨.person, .leader, 1, 1/2⟩, ⟨.person, .civilian, 1/2, 1⟩, ⟨.training, .terrorist, 0, 0⟩]).2 = true := by decide +kernel

/-- A cached degree of the first network is returned for the second one, because the betweenness was asked for first. -/
example : (((CentralCache.mk (some 1) (some 1) 0).getBetweenness 2 1).2.getDegree 2 1).1 = 1 ∧
    ((CentralCache.mk (some 1) (some 1) 0).getDegree 2 1).1 = 2 := by decide +kernel

end Verif
