import Verif.Model.TerrNet
import Verif.Props.ExTerror
import Verif.Props.Raises
import Verif.Props.BuiltinRun

/-!
# C241, C242: new relationships of terrorists; whole simulations of the example
-/

namespace Verif
open Spec

namespace Spec

/-- The probability of a new relationship: the social distance and the distance, with their weights. -/
def relChance (x : RelIn) (j : Nat) : Rat :=
  x.social * (match x.hops j with
    | none => 0
    | some k => 1 / (k : Rat)) + x.link * (1 - x.dist j)

/-- Lengths of shortest paths: 0 for the agent itself only. -/
def IsHops (i : Nat) (x : RelIn) : Prop := ∀ j, x.hops j = some 0 ↔ j = i

/-- Agent `j`, of whatever class, is in the state `civilian`. -/
def CivilianAt (vs : List Terr) (j : Nat) : Prop := ∃ v, vs[j]? = some v ∧ v.state = .civilian

/-- There is a neighbour in the state `civilian`. -/
def HasCivilian (adj : Nat → List Nat) (vs : List Terr) (i : Nat) : Prop := ∃ j ∈ adj i, CivilianAt vs j

end Spec

theorem isCivilian_iff (vs : List Terr) (j : Nat) : isCivilian vs j = true ↔ CivilianAt vs j := by
  unfold isCivilian CivilianAt
  cases h : vs[j]? with
  | none => simp
  | some v => simp

theorem relProb_of (x : RelIn) (j : Nat) (h : x.hops j ≠ some 0) : relProb x j = some (relChance x j) := by
  unfold relProb relChance
  cases hh : x.hops j with
  | none => simp
  | some k =>
    cases k with
    | zero => exact absurd hh h
    | succ k => simp

theorem noCivilian_iff (adj : Nat → List Nat) (vs : List Terr) (i : Nat) :
    terrNeighbours adj vs i (fun v => decide (v.state = .civilian)) = [] ↔ ¬ HasCivilian adj vs i := by
  unfold terrNeighbours HasCivilian CivilianAt
  rw [List.filter_eq_nil_iff]
  constructor
  · rintro h ⟨j, hj, v, hv, hs⟩
    exact h j hj (by rw [hv]; simpa using hs)
  · intro h j hj hc
    cases hv : vs[j]? with
    | none => rw [hv] at hc; cases hc
    | some v => rw [hv] at hc; exact h ⟨j, hj, v, hv, by simpa using hc⟩

/-- The loop over `a, a+1, …, i, …`: somebody before `i` is chosen, or it raises at `i`. -/
theorem relLoop_range (vs : List Terr) (x : RelIn) (i : Nat) (hh : IsHops i x) (d : Nat) (rest : List Nat) :
    (∃ j < d, relLoop vs x (List.range' (i - d) d ++ i :: rest) = .linked (i - d + j) ∧ CivilianAt vs (i - d + j) ∧ x.draw (i - d + j) < relChance x (i - d + j) ∧
      ∀ k < j, ¬ (CivilianAt vs (i - d + k) ∧ x.draw (i - d + k) < relChance x (i - d + k))) ∨
    (relLoop vs x (List.range' (i - d) d ++ i :: rest) = .raised ∧ ∀ k < d, d ≤ i → ¬ (CivilianAt vs (i - d + k) ∧ x.draw (i - d + k) < relChance x (i - d + k))) ∨ i < d := by
  induction d with
  | zero =>
    right; left
    refine ⟨?_, fun k hk => absurd hk (Nat.not_lt_zero _)⟩
    have : relProb x i = none := by
      unfold relProb
      rw [(hh i).2 rfl]
    simp [relLoop, this]
  | succ d ih =>
    by_cases hd : i < d + 1
    · exact Or.inr (Or.inr hd)
    have hp : relProb x (i - (d + 1)) = some (relChance x (i - (d + 1))) := relProb_of x _ (fun h => by have := (hh _).1 h; omega)
    have e : i - (d + 1) + 1 = i - d := by omega
    rw [List.range'_succ, List.cons_append, e]
    simp only [relLoop, hp]
    by_cases hc : isCivilian vs (i - (d + 1)) = true ∧ x.draw (i - (d + 1)) < relChance x (i - (d + 1))
    · rw [if_pos hc]
      exact Or.inl ⟨0, by omega, rfl, (isCivilian_iff _ _).1 hc.1, hc.2, fun k hk => absurd hk (Nat.not_lt_zero _)⟩
    · rw [if_neg hc]
      rw [isCivilian_iff] at hc
      have e2 : ∀ j, i - (d + 1) + (j + 1) = i - d + j := fun j => by omega
      rcases ih with ⟨j, h1, h2, h3, h4, h5⟩ | ⟨h1, h2⟩ | h
      · refine Or.inl ⟨j + 1, by omega, by rw [e2]; exact h2, by rw [e2]; exact h3, by rw [e2]; exact h4, ?_⟩
        intro k hk
        cases k with
        | zero => exact hc
        | succ k => rw [e2]; exact h5 k (by omega)
      · refine Or.inr (Or.inl ⟨h1, ?_⟩)
        intro k hk _
        cases k with
        | zero => exact hc
        | succ k => rw [e2]; exact h2 k (by omega) (by omega)
      · exact absurd h (by omega)

theorem updateRel_cases (adj : Nat → List Nat) (vs : List Terr) (i : Nat) (hi : i < vs.length) (x : RelIn) (hh : IsHops i x) (hc : ¬ HasCivilian adj vs i) :
    (∃ j < i, updateRel adj vs i x = .linked j ∧ CivilianAt vs j ∧ x.draw j < relChance x j ∧ ∀ k < j, ¬ (CivilianAt vs k ∧ x.draw k < relChance x k)) ∨
    (updateRel adj vs i x = .raised ∧ ∀ k < i, ¬ (CivilianAt vs k ∧ x.draw k < relChance x k)) := by
  unfold updateRel agentsOf
  rw [if_pos ((noCivilian_iff adj vs i).2 hc)]
  have e : List.range vs.length = List.range' 0 i ++ i :: List.range' (i + 1) (vs.length - (i + 1)) := by
    rw [List.range_eq_range']
    have h1 : vs.length = i + (1 + (vs.length - (i + 1))) := by omega
    conv_lhs => rw [h1]
    rw [← List.range'_append_1, Nat.zero_add]
    congr 1
    rw [Nat.add_comm 1, List.range'_succ]
  rw [e]
  have := relLoop_range vs x i hh i (List.range' (i + 1) (vs.length - (i + 1)))
  rw [Nat.sub_self] at this
  simp only [Nat.zero_add] at this
  rcases this with h | ⟨h1, h2⟩ | h
  · exact Or.inl h
  · exact Or.inr ⟨h1, fun k hk => h2 k hk (le_refl _)⟩
  · exact absurd h (lt_irrefl _)

/-- C241 (partial: what is true of it): a terrorist with a civilian among its neighbours looks for nobody; a new relationship is always with a civilian that is not a neighbour,
for whom the number drawn is below the probability; exactly this edge is added, in both directions. -/
theorem C241_link_partial (adj : Nat → List Nat) (vs : List Terr) (i : Nat) (hi : i < vs.length) (x : RelIn) (hh : IsHops i x) :
    (HasCivilian adj vs i → updateRel adj vs i x = .nothing) ∧
    ∀ j, updateRel adj vs i x = .linked j → CivilianAt vs j ∧ j ∉ adj i ∧ j ≠ i ∧ x.draw j < relChance x j ∧
      ∀ a b, b ∈ addLink adj i j a ↔ b ∈ adj a ∨ (a = i ∧ b = j) ∨ (a = j ∧ b = i) := by
  constructor
  · intro h
    unfold updateRel
    rw [if_neg (fun e => (noCivilian_iff adj vs i).1 e h)]
  · intro j hj
    have hc : ¬ HasCivilian adj vs i := by
      intro h
      unfold updateRel at hj
      rw [if_neg (fun e => (noCivilian_iff adj vs i).1 e h)] at hj
      cases hj
    rcases updateRel_cases adj vs i hi x hh hc with ⟨j', h1, h2, h3, h4, -⟩ | ⟨h1, -⟩
    · rw [hj] at h2
      cases h2
      refine ⟨h3, fun h => hc ⟨j, h, h3⟩, by omega, h4, ?_⟩
      intro a b
      unfold addLink
      have hij : i ≠ j := by omega
      split
      · rename_i ha
        subst ha
        split
        · rename_i hm
          constructor
          · exact Or.inl
          · rintro (h | ⟨-, rfl⟩ | ⟨h, -⟩)
            · exact h
            · exact hm
            · exact absurd h hij
        · simp only [List.mem_append, List.mem_singleton]
          constructor
          · rintro (h | h)
            · exact Or.inl h
            · exact Or.inr (Or.inl ⟨trivial, h⟩)
          · rintro (h | ⟨-, h⟩ | ⟨h, -⟩)
            · exact Or.inl h
            · exact Or.inr h
            · exact absurd h hij
      · rename_i ha
        split
        · rename_i hb
          subst hb
          split
          · rename_i hm
            constructor
            · exact Or.inl
            · rintro (h | ⟨h, -⟩ | ⟨-, rfl⟩)
              · exact h
              · exact absurd h ha
              · exact hm
          · simp only [List.mem_append, List.mem_singleton]
            constructor
            · rintro (h | h)
              · exact Or.inl h
              · exact Or.inr (Or.inr ⟨trivial, h⟩)
            · rintro (h | ⟨h, -⟩ | ⟨-, h⟩)
              · exact Or.inl h
              · exact absurd h ha
              · exact Or.inr h
        · rename_i hb
          constructor
          · exact Or.inl
          · rintro (h | ⟨h, -⟩ | ⟨h, -⟩)
            · exact h
            · exact absurd h ha
            · exact absurd h hb
    · rw [hj] at h1
      cases h1

/-- C241 is false: a terrorist without civilian neighbours that does not befriend anybody raises (the loop comes to the agent itself, and `1 / 0`); it happens exactly if for
none of the civilians with smaller ids the number drawn is below the probability, in particular always for agent 0, and always if all agents before it are terrorists. -/
theorem C241_raises_false (adj : Nat → List Nat) (vs : List Terr) (i : Nat) (hi : i < vs.length) (x : RelIn) (hh : IsHops i x) :
    (updateRel adj vs i x = .raised ↔ ¬ HasCivilian adj vs i ∧ ∀ k < i, CivilianAt vs k → relChance x k ≤ x.draw k) ∧
    (¬ HasCivilian adj vs i → updateRel adj vs i x ≠ .nothing) := by
  by_cases hc : HasCivilian adj vs i
  · have := (C241_link_partial adj vs i hi x hh).1 hc
    rw [this]
    exact ⟨⟨fun h => (nomatch h), fun h => absurd hc h.1⟩, fun h => absurd hc h⟩
  · rcases updateRel_cases adj vs i hi x hh hc with ⟨j, h1, h2, h3, h4, -⟩ | ⟨h1, h2⟩
    · rw [h2]
      exact ⟨⟨fun h => (nomatch h), fun h => absurd h4 (not_lt.2 (h.2 j h1 h3))⟩, fun _ => fun h => nomatch h⟩
    · rw [h1]
      refine ⟨⟨fun _ => ⟨hc, fun k hk hck => ?_⟩, fun _ => rfl⟩, fun _ => fun h => nomatch h⟩
      by_contra hlt
      exact h2 k hk ⟨hck, not_le.1 hlt⟩

/-- C241 is false: who is within sight or within the sphere of influence makes no difference: the first civilian in the order of the ids for whom the number drawn is below the
probability is befriended, however far away; and civilians with greater ids never are, however near. -/
theorem C241_far_false (adj : Nat → List Nat) (vs : List Terr) (i : Nat) (hi : i < vs.length) (x : RelIn) (hh : IsHops i x) (hc : ¬ HasCivilian adj vs i) :
    (∀ close steps, updateRel adj vs i { x with close := close, steps := steps } = updateRel adj vs i x) ∧
    ∀ j, updateRel adj vs i x = .linked j ↔ j < i ∧ CivilianAt vs j ∧ x.draw j < relChance x j ∧ ∀ k < j, CivilianAt vs k → relChance x k ≤ x.draw k := by
  have hu : ∀ y : RelIn, ∀ {k j}, (¬ (CivilianAt vs k ∧ y.draw k < relChance y k)) ∧ j = k → CivilianAt vs j → relChance y j ≤ y.draw j := by
    rintro y k j ⟨h, rfl⟩ hj
    by_contra hlt
    exact h ⟨hj, not_le.1 hlt⟩
  constructor
  · intro close steps
    have hloop : ∀ l, relLoop vs { x with close := close, steps := steps } l = relLoop vs x l := by
      intro l
      induction l with
      | nil => rfl
      | cons j l ih =>
        have hp : relProb { x with close := close, steps := steps } j = relProb x j := rfl
        simp only [relLoop, hp]
        rw [ih]
    unfold updateRel agentsOf
    rw [hloop]
  · intro j
    rcases updateRel_cases adj vs i hi x hh hc with ⟨j', h1, h2, h3, h4, h5⟩ | ⟨h1, h2⟩
    · rw [h2]
      constructor
      · intro h
        cases h
        exact ⟨h1, h3, h4, fun k hk => hu x ⟨h5 k hk, rfl⟩⟩
      · rintro ⟨g1, g2, g3, g4⟩
        have : j' = j := by
          rcases Nat.lt_trichotomy j' j with h | h | h
          · exact absurd h4 (not_lt.2 (g4 j' h h3))
          · exact h
          · exact absurd ⟨g2, g3⟩ (h5 j h)
        rw [this]
    · rw [h1]
      exact ⟨fun h => (nomatch h), fun h => absurd ⟨h.2.1, h.2.2.1⟩ (h2 j h.1)⟩

/-- Without the network, an activation is that of `actNetTerr`, and the network changes only together with an exception. -/
theorem C241_refines (P : TerrParams) (n : TerrNet) (i : Nat) (x : TerrIn) (y : RelIn) :
    ((n.act P i x y).1.vs, (n.act P i x y).2) = actNetTerr P n.adj n.vs i x ∧ ((n.act P i x y).2 = false → (n.act P i x y).1.adj = n.adj) := by
  unfold TerrNet.act actNetTerr
  cases hv : n.vs[i]? with
  | none => exact ⟨rfl, fun _ => rfl⟩
  | some v =>
    simp only
    split
    · split
      · exact ⟨rfl, fun h => nomatch h⟩
      · exact ⟨rfl, fun _ => rfl⟩
    · exact ⟨rfl, fun _ => rfl⟩

/-! ## C242 -/

/-- The state after `k` steps, with the default scheduler. -/
def terrRunT (C : TerrCode) (turn : TerrCode → Ref → TerrWorld → Reply × TerrWorld) (iv : Rat) (sh : Bool) (w : TerrWorld) (k : Nat) : Sched × TerrWorld :=
  iterStep (timedStepper (terrHost C turn)) k (roundsStart w.net.vs.length iv sh w)

/-- The state after `k` steps, with `PQueueActivation`. -/
def terrRunP (C : TerrCode) (turn : TerrCode → Ref → TerrWorld → Reply × TerrWorld) (iv : Rat) (loop : Nat) (w : TerrWorld) (k : Nat) : PSched × TerrWorld :=
  iterStep (pqStepper (terrPHost C turn) loop) k (roundsPStart (terrPHost C turn) w.net.vs.length iv w)

/-- Somebody that is not a civilian any more. -/
def RadicalAt (vs : List Terr) (r : Nat) : Prop := ∃ v, vs[r]? = some v ∧ v.kind = .person ∧ v.state ≠ .civilian

theorem changeVuln_length (f : Rat → Rat) (js : List Nat) (vs : List Terr) : (changeVuln f js vs).length = vs.length := by
  induction js generalizing vs with
  | nil => rfl
  | cons a js ih =>
    have : changeVuln f (a :: js) vs = changeVuln f js (vs.modify a (fun v => { v with vuln := f v.vuln })) := rfl
    rw [this, ih, List.length_modify]

theorem actTerr_length (P : TerrParams) (adj : Nat → List Nat) (vs : List Terr) (i : Nat) (x : TerrIn) : (actTerr P adj vs i x).1.length = vs.length := by
  unfold actTerr
  cases hv : vs[i]? with
  | none => rfl
  | some v =>
    simp only
    cases v.kind with
    | training => simp only [changeVuln_length]
    | haven =>
      simp only
      split
      · split
        · exact List.length_set
        · simp only [changeVuln_length]
      · simp only [changeVuln_length]
    | person =>
      simp only
      cases v.state with
      | leader => exact List.length_set
      | civilian =>
        simp only [actCivilian]
        split
        · split
          · exact List.length_set
          · rfl
        · split
          · rfl
          · exact List.length_set
      | terrorist =>
        simp only [actTerrorist]
        split
        · rfl
        · exact List.length_set

theorem actTerr_radical (P : TerrParams) (adj : Nat → List Nat) (vs : List Terr) (i : Nat) (x : TerrIn) (r : Nat) (h : RadicalAt vs r) :
    RadicalAt (actTerr P adj vs i x).1 r := by
  obtain ⟨v, hv, hk, hs⟩ := h
  have hlen : (actTerr P adj vs i x).1.length = vs.length := actTerr_length P adj vs i x
  have hlt := (List.getElem?_eq_some_iff.1 hv).1
  obtain ⟨v', hv'⟩ : ∃ v', (actTerr P adj vs i x).1[r]? = some v' := ⟨_, List.getElem?_eq_getElem (by omega)⟩
  refine ⟨v', hv', ?_⟩
  rcases actTerr_cases P adj vs i x r v' hv' with ⟨w, f, k, hw, rfl, -⟩ | ⟨rfl, w, hw, hwk, -, rfl⟩ | ⟨rfl, w, hw, hwk, hc⟩
  · rw [hv] at hw; cases hw; exact ⟨hk, hs⟩
  · rw [hv] at hw; cases hw; rw [hk] at hwk; cases hwk
  · rw [hv] at hw; cases hw
    rcases hc with ⟨h, -⟩ | ⟨-, s, rfl, h⟩ | ⟨-, s, b, rfl, h, -⟩
    · exact absurd h hs
    · exact ⟨hk, h⟩
    · exact ⟨hk, h⟩

theorem terrAct_radical (P : TerrParams) (n : TerrNet) (i : Nat) (x : TerrIn) (y : RelIn) (r : Nat) (h : RadicalAt n.vs r) : RadicalAt (n.act P i x y).1.vs r := by
  have e := congrArg Prod.fst (C241_refines P n i x y).1
  simp only at e
  rw [e]
  unfold actNetTerr
  cases hv : n.vs[i]? with
  | none => exact h
  | some v =>
    simp only
    split
    · exact h
    · exact actTerr_radical P n.adj n.vs i x r h

theorem terrAct_raises (P : TerrParams) (n : TerrNet) (i : Nat) (x : TerrIn) (y : RelIn) (h : RadicalAt n.vs i) : (n.act P i x y).2 = true := by
  obtain ⟨v, hv, hk, hs⟩ := h
  have e := congrArg Prod.snd (C241_refines P n i x y).1
  simp only at e
  rw [e]
  unfold actNetTerr
  rw [hv]
  simp [hk, hs]

theorem terr_plain (C : TerrCode) (turn : TerrCode → Ref → TerrWorld → Reply × TerrWorld) (h : turn = terrTurn ∨ turn = spreadTurn) (a : Ref) (w : TerrWorld) :
    (turn C a w).1 = .error ∨ (turn C a w).1 = .ret none := by
  rcases h with rfl | rfl
  · simp only [terrTurn]
    split
    · exact Or.inl rfl
    · exact Or.inr rfl
  · simp only [spreadTurn]
    split
    · exact Or.inl rfl
    · exact Or.inr rfl

/-- C242 is false: in a simulation of the example, as soon as a person is a leader or a terrorist after `k` steps (for `k = 0`: one of the leaders of the start), the next step
raises, with either scheduler, in whatever order the agents are activated: no simulation of more than `k` steps returns. -/
theorem C242_radical_false (C : TerrCode) (iv : Rat) (hiv : 0 < iv) (sh : Bool) (loop : Nat) (w : TerrWorld) (hl : w.net.vs.length ≤ loop) (k r : Nat) (hr : r < w.net.vs.length)
    (steps fuel : Nat) (hs : k < steps) (hf : k < fuel) :
    (RadicalAt (terrRunT C terrTurn iv sh w k).2.net.vs r →
      ∃ y, runModel (timedStepper (terrHost C terrTurn)) none (some steps) fuel (roundsStart w.net.vs.length iv sh w) = .raised y) ∧
    (RadicalAt (terrRunP C terrTurn iv loop w k).2.net.vs r →
      ∃ y, runModel (pqStepper (terrPHost C terrTurn) loop) none (some steps) fuel (roundsPStart (terrPHost C terrTurn) w.net.vs.length iv w) = .raised y) := by
  have hkeep : ∀ a w, RadicalAt w.net.vs r → RadicalAt (terrTurn C a w).2.net.vs r := fun a w h => terrAct_radical _ _ _ _ _ r h
  have hraise : ∀ w : TerrWorld, RadicalAt w.net.vs r → (terrTurn C r w).1 = .error := by
    intro w h
    have := terrAct_raises C.P w.net r (C.input w.used r w.net) (C.rel w.used r w.net) h
    simp [terrTurn, this]
  constructor
  · intro h
    exact later_raise (H := terrHost C terrTurn) (fun a _ w => (terr_plain C terrTurn (Or.inl rfl) a w).imp id (fun h => ⟨h, rfl⟩)) (fun w => RadicalAt w.net.vs r)
      (fun a _ w => hkeep a w) (fun _ _ h => h) w.net.vs.length r hr (fun _ w => hraise w) iv hiv sh w k h steps fuel hs hf
  · intro h
    exact plater_raise (H := terrPHost C terrTurn) (fun a _ w => (terr_plain C terrTurn (Or.inl rfl) a w).imp id (fun h => ⟨h, rfl⟩)) (fun w => RadicalAt w.net.vs r)
      (fun a _ w => hkeep a w) (fun _ _ h => h) w.net.vs.length r hr (fun _ w => hraise w) ⟨fun a w => (terrTurn C a w).2, fun _ _ _ => rfl⟩ iv hiv loop hl w k h steps fuel hs hf

/-- What is assumed about the inputs of the activations: see `TerrIn.Ok`, and an agent with neighbours has a positive degree centrality. -/
def TerrFair (C : TerrCode) : Prop := ∀ u r n, (C.input u r n).Ok ∧ ∀ j, n.adj j ≠ [] → 0 < (C.input u r n).deg j

/-- The network is undirected. -/
def TerrSym (adj : Nat → List Nat) : Prop := ∀ a b, b ∈ adj a → a ∈ adj b

theorem weighted_some (vs : List Terr) (deg : Nat → Rat) (l : List Nat) (h : ∀ j ∈ l, 0 < deg j) : weightedBelief vs deg l ≠ none := by
  unfold weightedBelief
  split
  · rename_i hc
    exfalso
    obtain ⟨hne, h0⟩ := hc
    cases l with
    | nil => exact hne rfl
    | cons a l =>
      rw [List.map_cons, List.sum_cons] at h0
      have h1 := h a (by simp)
      have h2 : 0 ≤ (l.map deg).sum := by
        apply List.sum_nonneg
        intro x hx
        obtain ⟨j, hj, rfl⟩ := List.mem_map.1 hx
        exact le_of_lt (h j (by simp [hj]))
      linarith
  · simp

theorem actTerr_quiet (P : TerrParams) (adj : Nat → List Nat) (hsym : TerrSym adj) (vs : List Terr) (i : Nat) (x : TerrIn) (hx : ∀ j, adj j ≠ [] → 0 < x.deg j) :
    (actTerr P adj vs i x).2 = false := by
  have hmem : ∀ c, ∀ j ∈ terrNeighbours adj vs i c, 0 < x.deg j := by
    intro c j hj
    have := hsym i j (mem_terrNeighbours hj).1
    exact hx j (List.ne_nil_of_mem this)
  unfold actTerr
  cases hv : vs[i]? with
  | none => rfl
  | some v =>
    simp only
    cases v.kind with
    | training => rfl
    | haven =>
      simp only
      split
      · split <;> rfl
      · rfl
    | person =>
      simp only
      cases v.state with
      | leader => rfl
      | civilian =>
        simp only [actCivilian]
        split
        · rfl
        · split
          · rename_i h
            exact absurd h (weighted_some _ _ _ (fun j hj => hmem _ j (List.mem_filter.1 hj).1))
          · rfl
      | terrorist =>
        simp only [actTerrorist]
        split
        · rename_i h
          exact absurd h (weighted_some _ _ _ (fun j hj => hmem _ j hj))
        · rfl

namespace Spec

/-- A history of `k` rounds: every one of the `n` agents has had `k` turns, with fair inputs, and nothing was raised. -/
def TerrHistory (P : TerrParams) (adj : Nat → List Nat) (n k : Nat) (vs vs' : List Terr) : Prop :=
  ∃ h : List (Nat × TerrIn), (∀ e ∈ h, e.1 < n ∧ e.2.Ok) ∧ (∀ r < n, (h.map Prod.fst).count r = k) ∧ runTerr P adj h vs = (vs', false)

end Spec

theorem runTerr_append (P : TerrParams) (adj : Nat → List Nat) (h1 h2 : List (Nat × TerrIn)) (vs u t : List Terr) (a : runTerr P adj h1 vs = (u, false))
    (b : runTerr P adj h2 u = (t, false)) : runTerr P adj (h1 ++ h2) vs = (t, false) := by
  induction h1 generalizing vs with
  | nil => cases a; exact b
  | cons e h1 ih =>
    obtain ⟨i, x⟩ := e
    simp only [List.cons_append, runTerr] at a ⊢
    split at a
    · rename_i hb
      rw [a] at hb
      cases hb
    · rename_i hb
      rw [if_neg hb]
      exact ih _ a

theorem terr_fold {P : TerrParams} {adj : Nat → List Nat} (hsym : TerrSym adj) (f : TerrWorld → Ref → TerrWorld)
    (hf : ∀ w r, w.net.adj = adj → ∃ d : TerrIn, d.Ok ∧ (∀ j, adj j ≠ [] → 0 < d.deg j) ∧ (f w r).net.adj = adj ∧ (f w r).net.vs = (actTerr P adj w.net.vs r d).1)
    (l : List Ref) (w : TerrWorld) (hw : w.net.adj = adj) :
    ∃ h : List (Nat × TerrIn), h.map Prod.fst = l ∧ (∀ e ∈ h, e.2.Ok) ∧ runTerr P adj h w.net.vs = ((l.foldl f w).net.vs, false) := by
  induction l generalizing w with
  | nil => exact ⟨[], rfl, by simp, rfl⟩
  | cons r l ih =>
    obtain ⟨d, hd, hp, ha, hv⟩ := hf w r hw
    have hq := actTerr_quiet P adj hsym w.net.vs r d hp
    obtain ⟨h, h1, h2, h3⟩ := ih (f w r) ha
    refine ⟨(r, d) :: h, by simp [h1], ?_, ?_⟩
    · intro e he
      rcases List.mem_cons.1 he with rfl | he
      · exact hd
      · exact h2 e he
    · simp only [runTerr, hq, Bool.false_eq_true, if_false, List.foldl_cons]
      rw [← hv]
      exact h3

theorem history_succ {P : TerrParams} {adj : Nat → List Nat} {n k : Nat} {vs u t : List Terr} (h : TerrHistory P adj n k vs u) (l : List (Nat × TerrIn))
    (hl : (l.map Prod.fst).Perm (List.range n)) (hok : ∀ e ∈ l, e.2.Ok) (hr : runTerr P adj l u = (t, false)) : TerrHistory P adj n (k + 1) vs t := by
  obtain ⟨h, h1, h2, h3⟩ := h
  refine ⟨h ++ l, ?_, ?_, runTerr_append P adj h l vs u t h3 hr⟩
  · intro e he
    rcases List.mem_append.1 he with he | he
    · exact h1 e he
    · exact ⟨List.mem_range.1 (hl.subset (List.mem_map_of_mem he)), hok e he⟩
  · intro r hr
    rw [List.map_append, List.count_append, h2 r hr, hl.count_eq]
    have : (List.range n).count r = 1 := List.count_eq_one_of_mem List.nodup_range (List.mem_range.2 hr)
    omega

theorem spread_mesa {C : TerrCode} (hC : TerrFair C) {adj : Nat → List Nat} (hsym : TerrSym adj) (n : Nat) (iv : Rat) :
    MesaHost (terrHost C spreadTurn) n iv (fun r _ _ _ w => (spreadTurn C r w).2) (fun w => w.net.adj = adj) where
  step r _ s w t hw _ := by
    have := actTerr_quiet C.P w.net.adj (by rw [hw]; exact hsym) w.net.vs r (C.input w.used r w.net) (hC w.used r w.net).2
    simp only [terrHost, spreadTurn, this, Bool.false_eq_true, if_false]
  inv r _ _ _ _ w hw := hw
  shuffle _ _ hw := hw

theorem spread_mesaP {C : TerrCode} (hC : TerrFair C) {adj : Nat → List Nat} (hsym : TerrSym adj) (n : Nat) (iv : Rat) :
    MesaPHost (terrPHost C spreadTurn) n iv (fun r _ _ _ w => (spreadTurn C r w).2) (fun w => w.net.adj = adj) where
  step r _ s w t hw _ := by
    have := actTerr_quiet C.P w.net.adj (by rw [hw]; exact hsym) w.net.vs r (C.input w.used r w.net) (hC w.used r w.net).2
    simp only [terrPHost, spreadTurn, this, Bool.false_eq_true, if_false]
  inv r _ _ _ _ w hw := hw
  key _ _ hw := hw

theorem pstart_net (C : TerrCode) (turn : TerrCode → Ref → TerrWorld → Reply × TerrWorld) (iv : Rat) (loop : Nat) (w : TerrWorld) :
    (terrRunP C turn iv loop w 0).2.net = w.net := by
  obtain ⟨s0, w1, e0, -, hw1, -⟩ := prounds_start (terrPHost C turn) (fun _ => True) (fun _ _ _ => trivial) w.net.vs.length iv w trivial
  have : (terrRunP C turn iv loop w 0).2 = w1 := by simp [terrRunP, iterStep, roundsPStart, e0]
  rw [this, hw1]
  have : ∀ (l : List Ref) (w : TerrWorld), (l.foldl (fun w r => ((terrPHost C turn).key r w).2) w).net = w.net := by
    intro l
    induction l with
    | nil => exact fun _ => rfl
    | cons r l ih => exact fun w => ih _
  exact this _ _

theorem spread_step {C : TerrCode} (hC : TerrFair C) {adj : Nat → List Nat} (w : TerrWorld) (r : Ref) (hw : w.net.adj = adj) :
    ∃ d : TerrIn, d.Ok ∧ (∀ j, adj j ≠ [] → 0 < d.deg j) ∧ ((spreadTurn C r w).2).net.adj = adj ∧ ((spreadTurn C r w).2).net.vs = (actTerr C.P adj w.net.vs r d).1 :=
  ⟨C.input w.used r w.net, (hC w.used r w.net).1, by rw [← hw]; exact (hC w.used r w.net).2, hw, by rw [← hw]; rfl⟩

/-- C242 (partial: persons of the class `TerroristSpreadModel`): nothing is raised, with either scheduler; after `k` steps the clock is at `k` intervals and every agent has had
`k` turns; a simulation with `max_steps` returns after exactly that number of steps. -/
theorem C242_spread_partial (C : TerrCode) (hC : TerrFair C) (iv : Rat) (hiv : 0 < iv) (sh : Bool) (loop : Nat) (w : TerrWorld) (hsym : TerrSym w.net.adj)
    (hn : 0 < w.net.vs.length) (hl : w.net.vs.length ≤ loop) (k fuel : Nat) (hf : k ≤ fuel) :
    ((terrRunT C spreadTurn iv sh w k).1.time = .fin (k * iv) ∧ TerrHistory C.P w.net.adj w.net.vs.length k w.net.vs (terrRunT C spreadTurn iv sh w k).2.net.vs ∧
      runModel (timedStepper (terrHost C spreadTurn)) none (some k) fuel (roundsStart w.net.vs.length iv sh w) = .done (terrRunT C spreadTurn iv sh w k)) ∧
    ((terrRunP C spreadTurn iv loop w k).1.time = .fin (k * iv) ∧ TerrHistory C.P w.net.adj w.net.vs.length k w.net.vs (terrRunP C spreadTurn iv loop w k).2.net.vs ∧
      runModel (pqStepper (terrPHost C spreadTurn) loop) none (some k) fuel (roundsPStart (terrPHost C spreadTurn) w.net.vs.length iv w) = .done (terrRunP C spreadTurn iv loop w k)) := by
  have hm := spread_mesa hC hsym w.net.vs.length iv
  have hp := spread_mesaP hC hsym w.net.vs.length iv
  have h0 : TerrHistory C.P w.net.adj w.net.vs.length 0 w.net.vs w.net.vs := ⟨[], by simp, by simp, rfl⟩
  obtain ⟨ms, -, -, h3⟩ := mesa_iter hn hiv hm sh w rfl
  have ht := (h3 k).2.1.round.time
  rw [(h3 k).1] at ht
  refine ⟨⟨ht, ?_, (C230_ends_partial _ w.net.vs.length hn iv hiv _ _ hm sh w rfl fuel k hf).1⟩,
    (C230_pqueue_partial _ w.net.vs.length hn iv hiv _ _ hp loop hl w rfl k).1, ?_, (C230_pqueue_ends_partial _ w.net.vs.length hn iv hiv _ _ hp loop hl w rfl fuel k hf).1⟩
  · clear h3 ht hf ms
    induction k with
    | zero => exact h0
    | succ k ih =>
      obtain ⟨order, w1, h1, h2, h3⟩ := mesa_order hn hiv hm sh w rfl k
      have hv : w1.net = (terrRunT C spreadTurn iv sh w k).2.net := by
        rcases h2 with ⟨-, -, rfl⟩ | ⟨l, rfl⟩
        · rfl
        · rfl
      have ok : w1.net.adj = w.net.adj := by
        rw [hv]
        exact mesa_inv hn hiv hm sh w rfl k
      obtain ⟨h, g1, g2, g3⟩ := terr_fold hsym (fun w r => (spreadTurn C r w).2) (fun w r hw => spread_step hC w r hw) order w1 ok
      rw [hv] at g3
      refine history_succ ih h (by rw [g1]; exact h1) g2 ?_
      rw [g3]
      show _ = ((iterStep (timedStepper (terrHost C spreadTurn)) (k + 1) (roundsStart w.net.vs.length iv sh w)).2.net.vs, false)
      rw [h3]
  · clear h3 ht hf ms
    induction k with
    | zero => rw [pstart_net]; exact h0
    | succ k ih =>
      obtain ⟨-, -, -, -, order, h1, h2, -⟩ := C230_pqueue_partial _ w.net.vs.length hn iv hiv _ _ hp loop hl w rfl k
      have ok : (terrRunP C spreadTurn iv loop w k).2.net.adj = w.net.adj := (prounds_iter hn hiv hp loop hl w rfl k).inv
      obtain ⟨h, g1, g2, g3⟩ := terr_fold hsym (turnWith (terrPHost C spreadTurn) (fun r _ _ _ w => (spreadTurn C r w).2) k k (List.range w.net.vs.length))
        (fun w r hw => spread_step hC w r hw) order (terrRunP C spreadTurn iv loop w k).2 ok
      refine history_succ ih h (by rw [g1]; exact h1) g2 ?_
      rw [g3]
      show _ = ((iterStep (pqStepper (terrPHost C spreadTurn) loop) (k + 1) (roundsPStart (terrPHost C spreadTurn) w.net.vs.length iv w)).2.net.vs, false)
      rw [h2]
      rfl

/-- C242: what a history does to the persons, so that C140, C141 and C213 hold after every number of steps: beliefs and vulnerabilities stay between 0 and 1, nobody becomes a
civilian again or loses belief, and no two leaders are next to each other if there were none in the beginning. -/
theorem C242_history (P : TerrParams) (hP : P.Ok) (adj : Nat → List Nat) (hsym : TerrSym adj) (n k : Nat) (vs vs' : List Terr) (h : TerrHistory P adj n k vs vs')
    (hok : ∀ (j : Nat) v, vs[j]? = some v → v.Ok) :
    (∀ (j : Nat) v, vs'[j]? = some v → (0 ≤ v.belief ∧ v.belief ≤ 1) ∧ (0 ≤ v.vuln ∧ v.vuln ≤ 1)) ∧
    (∀ (j : Nat) v v', vs[j]? = some v → vs'[j]? = some v' → v.kind = .person → v.state ≠ .civilian → v'.state ≠ .civilian ∧ v.belief ≤ v'.belief) ∧
    ((∀ a b va vb, a ≠ b → b ∈ adj a → vs[a]? = some va → vs[b]? = some vb → va.kind = .person → vb.kind = .person → ¬ (va.state = .leader ∧ vb.state = .leader)) →
      ∀ a b va vb, a ≠ b → b ∈ adj a → vs'[a]? = some va → vs'[b]? = some vb → va.kind = .person → vb.kind = .person → ¬ (va.state = .leader ∧ vb.state = .leader)) := by
  obtain ⟨l, h1, -, h3⟩ := h
  have e : vs' = (runTerr P adj l vs).1 := by rw [h3]
  subst e
  refine ⟨fun j v hv => C140_bounds P hP adj l (fun e he => (h1 e he).2) vs hok j v hv,
    fun j v v' hv hv' hk hs => C141_for_ever P hP adj l (fun e he => (h1 e he).2) vs hok j v hv hk hs v' hv',
    fun h0 a b va vb hab hadj ha hb hka hkb => C213_apart P adj hsym l vs h0 a b va vb hab hadj ha hb hka hkb⟩

namespace Spec

/-- Peace: all persons are civilians, and no belief is more than `M`. -/
def TerrPeace (M : Rat) (vs : List Terr) : Prop := ∀ (j : Nat) v, vs[j]? = some v → v.Ok ∧ (v.kind = .person → v.state = .civilian ∧ v.belief ≤ M)

end Spec

theorem peace_step (P : TerrParams) (hP : P.Ok) (adj : Nat → List Nat) (M : Rat) (hM : M < 4 / 5) (vs : List Terr) (i : Nat) (x : TerrIn) (hx : x.Ok) (h : TerrPeace M vs) :
    TerrPeace M (actTerr P adj vs i x).1 := by
  intro j v hv
  refine ⟨actTerr_ok P hP adj vs i x hx (fun j v h' => (h j v h').1) j v hv, fun hk => ?_⟩
  refine C141_no_spontaneous P hP adj [(i, x)] (by simpa using hx) M hM vs h j v ?_ hk
  simp only [runTerr]
  split <;> exact hv

theorem peace_turn {C : TerrCode} {M : Rat} (w : TerrWorld) (hw : TerrPeace M w.net.vs) (r : Ref) : terrTurn C r w = spreadTurn C r w := by
  have : w.net.act C.P r (C.input w.used r w.net) (C.rel w.used r w.net) =
      ({ w.net with vs := (actTerr C.P w.net.adj w.net.vs r (C.input w.used r w.net)).1 }, (actTerr C.P w.net.adj w.net.vs r (C.input w.used r w.net)).2) := by
    unfold TerrNet.act
    cases hv : w.net.vs[r]? with
    | none => simp [actTerr, hv]
    | some v =>
      have hc : ¬ (v.kind = .person ∧ v.state ≠ .civilian) := fun h => h.2 ((hw r v hv).2 h.1).1
      simp only [if_neg hc]
  simp only [terrTurn, spreadTurn, this]

/-- C242 (partial: no leaders in the beginning): if all persons of the example are civilians with beliefs of at most `M`, less than 0.8, then the simulation returns after
`max_steps` steps, with either scheduler, and they still are. -/
theorem C242_peace_partial (C : TerrCode) (hC : TerrFair C) (hP : C.P.Ok) (iv : Rat) (hiv : 0 < iv) (sh : Bool) (loop : Nat) (w : TerrWorld) (hsym : TerrSym w.net.adj)
    (hn : 0 < w.net.vs.length) (hl : w.net.vs.length ≤ loop) (M : Rat) (hM : M < 4 / 5) (hw : TerrPeace M w.net.vs) (k fuel : Nat) (hf : k ≤ fuel) :
    (TerrPeace M (terrRunT C terrTurn iv sh w k).2.net.vs ∧
      runModel (timedStepper (terrHost C terrTurn)) none (some k) fuel (roundsStart w.net.vs.length iv sh w) = .done (terrRunT C terrTurn iv sh w k)) ∧
    (TerrPeace M (terrRunP C terrTurn iv loop w k).2.net.vs ∧
      runModel (pqStepper (terrPHost C terrTurn) loop) none (some k) fuel (roundsPStart (terrPHost C terrTurn) w.net.vs.length iv w) = .done (terrRunP C terrTurn iv loop w k)) := by
  have hq : ∀ (x : TerrWorld) r, TerrPeace M x.net.vs ∧ x.net.adj = w.net.adj → terrTurn C r x = (.ret none, (spreadTurn C r x).2) := by
    rintro x r ⟨h1, h2⟩
    have := actTerr_quiet C.P x.net.adj (by rw [h2]; exact hsym) x.net.vs r (C.input x.used r x.net) (hC x.used r x.net).2
    rw [peace_turn x h1 r]
    simp [spreadTurn, this]
  have hi : ∀ (x : TerrWorld) r, TerrPeace M x.net.vs ∧ x.net.adj = w.net.adj → TerrPeace M (spreadTurn C r x).2.net.vs ∧ (spreadTurn C r x).2.net.adj = w.net.adj :=
    fun x r h => ⟨peace_step C.P hP x.net.adj M hM x.net.vs r _ (hC x.used r x.net).1 h.1, h.2⟩
  have hm : MesaHost (terrHost C terrTurn) w.net.vs.length iv (fun r _ _ _ w => (spreadTurn C r w).2) (fun x => TerrPeace M x.net.vs ∧ x.net.adj = w.net.adj) := by
    refine ⟨fun r _ s x t hx _ => ?_, fun r _ _ _ _ x hx => hi x r hx, fun _ _ hx => hx⟩
    simp only [terrHost, hq x r hx]
  have hp : MesaPHost (terrPHost C terrTurn) w.net.vs.length iv (fun r _ _ _ w => (spreadTurn C r w).2) (fun x => TerrPeace M x.net.vs ∧ x.net.adj = w.net.adj) := by
    refine ⟨fun r _ s x t hx _ => ?_, fun r _ _ _ _ x hx => hi x r hx, fun _ _ hx => hx⟩
    simp only [terrPHost, hq x r hx]
  exact ⟨⟨(mesa_inv hn hiv hm sh w ⟨hw, rfl⟩ k).1, (C230_ends_partial _ w.net.vs.length hn iv hiv _ _ hm sh w ⟨hw, rfl⟩ fuel k hf).1⟩,
    (prounds_iter hn hiv hp loop hl w ⟨hw, rfl⟩ k).inv.1, (C230_pqueue_ends_partial _ w.net.vs.length hn iv hiv _ _ hp loop hl w ⟨hw, rfl⟩ fuel k hf).1⟩

/-! ### Examples -/

/-- Four persons in a row: a leader at the end, and civilians. -/
def rowNet (s : TerrState) : TerrNet :=
  ⟨fun i => if i = 0 then [1] else if i = 1 then [0, 2] else if i = 2 then [1, 3] else if i = 3 then [2] else [],
    [⟨.person, .civilian, 1/5, 1/2⟩, ⟨.person, .civilian, 1/2, 1⟩, ⟨.person, .civilian, 1/2, 1/2⟩, ⟨.person, s, if s = .civilian then 3/5 else 9/10, 1/2⟩]⟩

/-- Numbers of the search for new relationships in a row. -/
def rowIn (i : Nat) (draw : Rat) : RelIn := ⟨1/2, 1/2, fun j => some (if i ≤ j then j - i else i - j), fun _ => 1/2, [], [], fun _ => draw⟩

def rowCode : TerrCode := ⟨terrParams, fun _ _ _ => plainIn 0, fun _ i _ => rowIn i 0, fun u l => (l, u), fun _ _ => List.Perm.refl _, fun _ => 0⟩

example : TerrFair rowCode := fun _ _ _ => ⟨⟨fun _ => by simp [rowCode, plainIn], fun a e _ h _ _ => ⟨le_refl a, h⟩⟩, fun _ _ => by norm_num [rowCode, plainIn]⟩

example (s : TerrState) : TerrSym (rowNet s).adj := by
  intro a b h
  simp only [rowNet] at h ⊢
  split at h <;> [skip; split at h <;> [skip; split at h <;> [skip; split at h]]] <;> simp at h <;> (try rcases h with h | h) <;> subst_vars <;> decide

example (i : Nat) (d : Rat) : IsHops i (rowIn i d) := by
  intro j
  simp only [rowIn, Option.some.injEq]
  split <;> omega

/-- The terrorist at the end of the row with a civilian beside it searches nobody; with a terrorist beside it, it meets the first civilian, or it raises. -/
example : updateRel (rowNet .leader).adj (rowNet .leader).vs 3 (rowIn 3 0) = .nothing ∧
    updateRel (rowNet .leader).adj ((rowNet .leader).vs.set 2 ⟨.person, .terrorist, 9/10, 1/2⟩) 3 (rowIn 3 0) = .linked 0 ∧
    updateRel (rowNet .leader).adj ((rowNet .leader).vs.set 2 ⟨.person, .terrorist, 9/10, 1/2⟩) 3 (rowIn 3 1) = .raised := by decide +kernel

/-- The run with a leader raises; the same with the base class does not. -/
example : ((terrRunT rowCode terrTurn 1 false ⟨rowNet .leader, 0⟩ 0).1.step (terrHost rowCode terrTurn) (terrRunT rowCode terrTurn 1 false ⟨rowNet .leader, 0⟩ 0).2).2.2 = true ∧
    (terrRunT rowCode spreadTurn 1 false ⟨rowNet .leader, 0⟩ 4).1.time = .fin 4 ∧
    (terrRunT rowCode spreadTurn 1 false ⟨rowNet .leader, 0⟩ 4).2.net.vs.map (·.belief) ≠ (rowNet .leader).vs.map (·.belief) := by decide +kernel

/-- Peace, which lasts. -/
example : TerrPeace (3/5) (rowNet .civilian).vs := by
  intro j v hv
  match j, hv with
  | 0, hv => cases hv; exact ⟨by norm_num [Terr.Ok], fun _ => ⟨rfl, by norm_num⟩⟩
  | 1, hv => cases hv; exact ⟨by norm_num [Terr.Ok], fun _ => ⟨rfl, by norm_num⟩⟩
  | 2, hv => cases hv; exact ⟨by norm_num [Terr.Ok], fun _ => ⟨rfl, by norm_num⟩⟩
  | 3, hv => cases hv; exact ⟨by norm_num [Terr.Ok], fun _ => ⟨rfl, by norm_num⟩⟩
  | _ + 4, hv => cases hv

example : (terrRunP rowCode terrTurn 1 4 ⟨rowNet .civilian, 0⟩ 3).2.net.vs.map (·.state) = (rowNet .civilian).vs.map (·.state) ∧
    (terrRunP rowCode terrTurn 1 4 ⟨rowNet .civilian, 0⟩ 3).2.net.vs.map (·.belief) ≠ (rowNet .civilian).vs.map (·.belief) := by decide +kernel

end Verif
