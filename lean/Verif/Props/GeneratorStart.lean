import Verif.Props.GeneratorRun

/-!
# C254: the start of the example with a custom generator
-/

namespace Verif

/-- C254: the simulation starts with the ids 0, …, n-1 scheduled in this order; the counter with id `r` is the `r`-th one, has counted nothing, and is on the
node that it has as `node_id`. -/
theorem C254_start (n : Nat) (draws : List (Nat × Nat)) (cdraws : Nat → Rat) (picks : Nat → Nat → Nat) (G : NWorld)
    (hG : generatorInit n draws cdraws picks = some G) (sh : Bool) (rng : Nat) :
    (G.countersStart 1 sh rng).1.agents = List.range n ∧ (G.countersStart 1 sh rng).1.time = 0 ∧ (G.countersStart 1 sh rng).2.agents.length = n ∧
    ∀ r < n, ∃ (a : FAgent) (i : Nat), (G.countersStart 1 sh rng).2.agents[r]? = some a ∧ a.ref = r ∧ a.uid = r ∧ numAttr a.attrs "times" = some 0 ∧
      numAttr a.attrs "node_id" = some (i : Rat) ∧ i < G.nodes.length ∧ Dict.get? G.nodes (.int i) = some (some (some r)) := by
  obtain ⟨hraise, hinit⟩ := C254_init n draws cdraws picks
  obtain ⟨E, h1, -, -, -, -, hs, hl, hag, -⟩ := hinit G hG
  have hn0 : 0 < n := by
    rcases Nat.eq_zero_or_pos n with h | h
    · rw [hraise.2 (Or.inl h)] at hG
      cases hG
    · exact h
  have hcl : G.counters.length = n := by simp [NWorld.counters, hl]
  have hst := roundsStart_state (W := CWorld) n hn0 1 sh ⟨G.counters, rng⟩
  have hstart : G.countersStart 1 sh rng = roundsStart n 1 sh ⟨G.counters, rng⟩ := by rw [NWorld.countersStart, hcl]
  rw [hstart]
  refine ⟨?_, by rw [hst.time]; norm_num; rfl, hcl, fun r hr => ?_⟩
  · exact (noop_adds n (.fin 1) sh).2.1
  · have hr' : r < G.agents.length := by omega
    have ha : G.agents[r]? = some G.agents[r] := by simp [hr']
    obtain ⟨h2, -, i, h3, h4, h5⟩ := hag r _ ha
    refine ⟨_, i, by
      show G.counters[r]? = _
      rw [NWorld.counters, List.getElem?_mapIdx, ha]
      rfl, rfl, h2, rfl, ?_, h3, h5⟩
    simp only [h4]
    rfl

/-- C254, when it holds: every node of the generator has a counter if and only if no node was added to the network; and then the counters together count every
edge twice. -/
theorem C254_full_partial (n : Nat) (draws : List (Nat × Nat)) (cdraws : Nat → Rat) (picks : Nat → Nat → Nat) (G : NWorld) (E : List (Nat × Nat))
    (hG : generatorInit n draws cdraws picks = some G) (hE : mygenerator n draws = some E) :
    ((∀ i < n, ∃ r : Nat, Dict.get? G.nodes (.int i) = some (some (some r))) ↔ G.nodes.length = n) ∧
    (G.nodes.length = n → ∀ (σ : Nat → List Ref → List Ref) (hσ : ∀ n l, (σ n l).Perm l) (sh : Bool) (rng k : Nat), 0 < k →
      ((iterStep (timedStepper (counterHost G.degree σ hσ)) k (G.countersStart 1 sh rng)).2.agents.map
        (fun a => (numAttr a.attrs "neighbors").getD 0)).sum = 2 * (E.length : Rat)) := by
  obtain ⟨-, hinit⟩ := C254_init n draws cdraws picks
  obtain ⟨E', h1, -, hok, -, -, -, -, -, -, hlen⟩ := hinit G hG
  rw [hE] at h1
  obtain rfl := Option.some.inj h1
  have hiff : (∀ i < n, G.occupied i = true) ↔ G.nodes.length = n := by
    rw [hlen]
    constructor
    · intro h
      have : (List.range n).filter (fun i => !G.occupied i) = [] := by
        rw [List.filter_eq_nil_iff]
        intro i hi
        simp [h i (List.mem_range.1 hi)]
      rw [this]
      rfl
    · intro h i hi
      have h0 : ((List.range n).filter (fun i => !G.occupied i)).length = 0 := by omega
      have h1 := List.filter_eq_nil_iff.1 (List.length_eq_zero_iff.1 h0) i (List.mem_range.2 hi)
      simpa using h1
  refine ⟨?_, ?_⟩
  · rw [← hiff]
    exact forall₂_congr (fun i _ => (G.occupied_iff i).symm)
  · intro h σ hσ sh rng k hk
    obtain ⟨-, -, h3⟩ := C254_run_partial n draws cdraws picks G E hG hE σ hσ sh rng k k le_rfl
    obtain ⟨-, -, h4, -⟩ := h3 k
    rw [h4 hk]
    have hf : E.filter (fun e => G.occupied e.1 && G.occupied e.2) = E := by
      rw [List.filter_eq_self]
      intro e he
      obtain ⟨e1, e2⟩ := hok e he
      simp [hiff.2 h e.1 (by omega), hiff.2 h e.2 e2]
    rw [hf]

set_option maxRecDepth 100000 in
/-- With the four nodes in a row no node is added if the nodes are taken from the last to the first, and the counters count six neighbours; the first counter
is on the last node. -/
example : exGenerated.nodes.length = 4 ∧ exGenerated1.nodes.length = 7 ∧
    ((iterStep (timedStepper (counterHost exGenerated.degree (fun _ l => l.reverse) reverse_shuffle)) 3 (exGenerated.countersStart 1 true 0)).2.agents.map
      (fun a => (numAttr a.attrs "neighbors").getD 0)).sum = 6 ∧
    ((exGenerated.countersStart 1 true 0).2.agents.map (fun a => (a.ref, a.uid, numAttr a.attrs "node_id"))) =
      [(0, 0, some 3), (1, 1, some 2), (2, 2, some 1), (3, 3, some 0)] := by
  decide +kernel

end Verif
