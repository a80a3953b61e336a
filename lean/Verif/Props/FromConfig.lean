import Verif.Model.FromConfig
import Verif.Props.Distribution

/-!
# Agents from a configuration (C205)
-/

namespace Verif

/-! ### What a configuration asks for -/

/-- The kinds with the given strategy. -/
def kindsOf (st : Strategy) (l : List (Strategy × Distro)) : List Distro := (l.filter (fun p => p.1 = st)).map (·.2)

/-- Whether an item is in the topology: as it says, otherwise as the configuration says. -/
def wantsTopology (cfg : AgentCfg) (d : Distro) : Prop := d.topology = some true ∨ (d.topology = none ∧ cfg.default.topology = true)

instance (cfg : AgentCfg) (d : Distro) : Decidable (wantsTopology cfg d) := by unfold wantsTopology; infer_instance

/-- The agents given one by one that count for the total. -/
def shownFixed (cfg : AgentCfg) : Nat := (cfg.fixed.getD []).countP (fun f => f.hidden = false)

/-- The agents given one by one that have a node. -/
def topoFixed (cfg : AgentCfg) : Nat := (cfg.fixed.getD []).countP (fun f => decide (wantsTopology cfg f.spec))

/-- A configuration that makes sense: kinds for the nodes have a topology, kinds for the total have a total. -/
def SensibleCfg (cfg : AgentCfg) (topoSize : Nat) : Prop :=
  (∀ d ∈ kindsOf .topology cfg.distribution, wantsTopology cfg d ∧ 0 < topoSize) ∧ (kindsOf .total cfg.distribution ≠ [] → ∃ n : Int, cfg.n = some n ∧ n ≠ 0)

/-- All weights are there and positive. -/
def PositiveWeights (l : List Distro) : Prop := ∀ d ∈ l, ∃ w : Rat, d.weight = some w ∧ 0 < w

/-- Random numbers of `random()` and shufflings. -/
def CfgRandom.Valid (R : CfgRandom) : Prop := (∀ b k, 0 ≤ R.draws b k ∧ R.draws b k < 1) ∧ ∀ b l, (R.shuffle b l).Perm l

/-! ### Lemmas -/

private theorem topo_iff (cfg : AgentCfg) (d : Distro) : cfgTopo cfg d = true ↔ wantsTopology cfg d := by
  unfold cfgTopo wantsTopology
  cases h : d.topology with
  | none => simp
  | some b => simp

private theorem sortKinds_ok (cfg : AgentCfg) (ts : Nat) : ∀ (l : List (Strategy × Distro)) (N T : List Distro) (t : Option Bool),
    (∀ d ∈ kindsOf .topology l, wantsTopology cfg d ∧ 0 < ts) → (kindsOf .total l ≠ [] → ∃ n : Int, cfg.n = some n ∧ n ≠ 0) →
    ∃ t', sortKinds cfg ts l N T t = .ok (N ++ kindsOf .topology l, T ++ kindsOf .total l, t') ∧ (kindsOf .topology l ≠ [] → t' = some true) ∧
      (kindsOf .topology l = [] → t' = t) := by
  intro l
  induction l with
  | nil => intro N T t _ _; exact ⟨t, by simp [sortKinds, kindsOf], by simp [kindsOf], by simp⟩
  | cons p l ih =>
    obtain ⟨st, d⟩ := p
    intro N T t h1 h2
    cases st with
    | topology =>
      have e1 : kindsOf .topology ((.topology, d) :: l) = d :: kindsOf .topology l := by simp [kindsOf]
      have e2 : kindsOf .total ((.topology, d) :: l) = kindsOf .total l := by simp [kindsOf]
      rw [e1] at h1
      rw [e2] at h2
      obtain ⟨hd, hts⟩ := h1 d (List.mem_cons_self ..)
      have hc := (topo_iff cfg d).2 hd
      obtain ⟨t', h3, h4, h5⟩ := ih (N ++ [d]) T (some true) (fun x hx => h1 x (List.mem_cons_of_mem _ hx)) h2
      refine ⟨t', ?_, ?_, ?_⟩
      · rw [sortKinds, hc, if_neg (by simp), if_neg (by omega), h3, e1, e2]
        simp
      · intro _
        by_cases h : kindsOf .topology l = []
        · exact h5 h
        · exact h4 h
      · rw [e1]; intro h; cases h
    | total =>
      have e1 : kindsOf .topology ((.total, d) :: l) = kindsOf .topology l := by simp [kindsOf]
      have e2 : kindsOf .total ((.total, d) :: l) = d :: kindsOf .total l := by simp [kindsOf]
      rw [e1] at h1
      rw [e2] at h2
      obtain ⟨n, hn, hn0⟩ := h2 (by simp)
      obtain ⟨t', h3, h4, h5⟩ := ih N (T ++ [d]) t h1 (fun _ => ⟨n, hn, hn0⟩)
      refine ⟨t', ?_, by rw [e1]; exact h4, by rw [e1]; exact h5⟩
      rw [sortKinds, hn, if_neg (by simpa using hn0), h3, e1, e2]
      simp

private theorem sortKinds_bad (cfg : AgentCfg) (ts : Nat) : ∀ (l : List (Strategy × Distro)) (N T : List Distro) (t : Option Bool),
    ((∃ d ∈ kindsOf .topology l, ¬ wantsTopology cfg d ∨ ts = 0) ∨ (kindsOf .total l ≠ [] ∧ (cfg.n = none ∨ cfg.n = some 0))) →
    sortKinds cfg ts l N T t = .error .value := by
  intro l
  induction l with
  | nil => intro N T t h; simp [kindsOf] at h
  | cons p l ih =>
    obtain ⟨st, d⟩ := p
    intro N T t h
    cases st with
    | topology =>
      have e1 : kindsOf .topology ((.topology, d) :: l) = d :: kindsOf .topology l := by simp [kindsOf]
      have e2 : kindsOf .total ((.topology, d) :: l) = kindsOf .total l := by simp [kindsOf]
      rw [e1, e2] at h
      rw [sortKinds]
      by_cases hd : wantsTopology cfg d
      · rw [(topo_iff cfg d).2 hd, if_neg (by simp)]
        by_cases hts : ts = 0
        · rw [if_pos hts]
        · rw [if_neg hts]
          refine ih _ _ _ ?_
          rcases h with ⟨x, hx, hb⟩ | h
          · rcases List.mem_cons.1 hx with rfl | hx
            · rcases hb with hb | hb
              · exact absurd hd hb
              · exact absurd hb hts
            · exact Or.inl ⟨x, hx, hb⟩
          · exact Or.inr h
      · have : cfgTopo cfg d = false := by
          rw [← Bool.not_eq_true]; exact fun h => hd ((topo_iff cfg d).1 h)
        rw [this, if_pos (by simp)]
    | total =>
      have e1 : kindsOf .topology ((.total, d) :: l) = kindsOf .topology l := by simp [kindsOf]
      rw [e1] at h
      rw [sortKinds]
      by_cases hn : cfg.n = none ∨ cfg.n = some 0
      · rw [if_pos (by rcases hn with hn | hn <;> rw [hn] <;> rfl)]
      · rw [if_neg]
        · refine ih _ _ _ ?_
          rcases h with h | h
          · exact Or.inl h
          · exact absurd h.2 hn
        · intro h0
          cases hc : cfg.n with
          | none => exact hn (Or.inl hc)
          | some k => rw [hc] at h0; exact hn (Or.inr (by rw [hc]; exact congrArg some h0))

private theorem fromFixed_spec (cfg : AgentCfg) : ∀ l : List FixedAgent,
    (fromFixed cfg.default cfg.default.topology l).1 = l.map (fun f => fixedSpec f.spec cfg.default cfg.default.topology) ∧
    (fromFixed cfg.default cfg.default.topology l).2.1 = l.countP (fun f => f.hidden = false) ∧
    (fromFixed cfg.default cfg.default.topology l).2.2 = l.countP (fun f => decide (wantsTopology cfg f.spec)) := by
  intro l
  induction l with
  | nil => exact ⟨rfl, rfl, rfl⟩
  | cons f l ih =>
    obtain ⟨h1, h2, h3⟩ := ih
    refine ⟨by simp [fromFixed, h1], ?_, ?_⟩
    · rw [List.countP_cons, ← h2, fromFixed]
      cases f.hidden <;> simp <;> omega
    · rw [List.countP_cons, ← h3, fromFixed]
      have : (fixedSpec f.spec cfg.default cfg.default.topology).topology = true ↔ wantsTopology cfg f.spec := by
        unfold fixedSpec Distro.topo wantsTopology
        cases f.spec.topology <;> simp
      by_cases hw : wantsTopology cfg f.spec
      · simp only [this.2 hw, if_true, decide_eq_true hw]; omega
      · have h0 : (fixedSpec f.spec cfg.default cfg.default.topology).topology = false := by
          rw [← Bool.not_eq_true]; exact fun h => hw (this.1 h)
        simp only [h0, decide_eq_false hw, Bool.false_eq_true, if_false]; omega

private theorem exists_min : ∀ (ws : List Rat), ws ≠ [] → ∃ m ∈ ws, ∀ w ∈ ws, m ≤ w := by
  intro ws
  induction ws with
  | nil => intro h; exact absurd rfl h
  | cons w ws ih =>
    intro _
    by_cases h : ws = []
    · subst h; exact ⟨w, by simp, by simp⟩
    · obtain ⟨m, hm, hmin⟩ := ih h
      by_cases hw : w ≤ m
      · exact ⟨w, by simp, fun x hx => by
          rcases List.mem_cons.1 hx with rfl | hx
          · exact le_refl _
          · exact le_trans hw (hmin x hx)⟩
      · exact ⟨m, List.mem_cons_of_mem _ hm, fun x hx => by
          rcases List.mem_cons.1 hx with rfl | hx
          · exact le_of_lt (not_le.1 hw)
          · exact hmin x hx⟩

private theorem weights_of {l : List Distro} (h : PositiveWeights l) : ∃ ws : List Rat, l.map Distro.weight = ws.map some ∧ ∀ w ∈ ws, 0 < w := by
  induction l with
  | nil => exact ⟨[], rfl, by simp⟩
  | cons d l ih =>
    obtain ⟨ws, h1, h2⟩ := ih (fun x hx => h x (List.mem_cons_of_mem _ hx))
    obtain ⟨w, hw, hp⟩ := h d (List.mem_cons_self ..)
    exact ⟨w :: ws, by simp [hw, h1], fun x hx => by
      rcases List.mem_cons.1 hx with rfl | hx
      · exact hp
      · exact h2 x hx⟩

private theorem buildSpecs_true (distro : List Distro) (default : DistroDefault)
    (h : ∀ d ∈ distro, d.topology = some true ∨ (d.topology = none ∧ default.topology = true)) :
    ∀ (is : List Nat) (specs : List AgentSpec), buildSpecs distro default true is = some specs → ∀ s ∈ specs, s.topology = true := by
  intro is
  induction is with
  | nil => intro specs hs; simp only [buildSpecs, Option.some.injEq] at hs; subst hs; simp
  | cons i is ih =>
    intro specs hs
    simp only [buildSpecs] at hs
    cases hd : distro[i]? with
    | none => rw [hd] at hs; cases hs
    | some d =>
      have ht : d.topo default true = true := by
        unfold Distro.topo
        rcases h d (List.mem_of_getElem? hd) with h | h
        · rw [h]
        · rw [h.1]; rfl
      rw [hd] at hs
      simp only [ht] at hs
      cases hb : buildSpecs distro default true is with
      | none => rw [hb] at hs; cases hs
      | some rest =>
        rw [hb] at hs
        obtain rfl := Option.some.inj hs
        intro s hsm
        rcases List.mem_cons.1 hsm with rfl | hsm
        · rfl
        · exact ih rest hb s hsm

private theorem distroIf_spec (R : CfgRandom) (hR : R.Valid) (b : Bool) (kinds : List Distro) (hp : PositiveWeights kinds) (n : Nat) (default : DistroDefault)
    (t : Bool) : ∃ l, distroIf R b kinds n default t = .ok l ∧ (kinds ≠ [] → l.length = n) ∧ (kinds = [] → l = []) ∧
      (∀ s ∈ l, ∃ d ∈ kinds, s.cls = d.cls.getD default.cls) ∧
      ((∀ d ∈ kinds, d.topology = some true ∨ (d.topology = none ∧ default.topology = true)) → t = true → ∀ s ∈ l, s.topology = true) := by
  unfold distroIf
  by_cases hk : kinds = []
  · rw [if_pos hk]
    exact ⟨[], rfl, fun h => absurd hk h, fun _ => rfl, fun s hs => (nomatch hs), fun _ _ s hs => (nomatch hs)⟩
  · rw [if_neg hk]
    obtain ⟨ws, h1, h2⟩ := weights_of hp
    have hne : ws ≠ [] := by
      rintro rfl
      exact hk (List.map_eq_nil_iff.1 h1)
    obtain ⟨m, hm, hmin⟩ := exists_min ws hne
    obtain ⟨specs, h3, h4, h5, _⟩ := C66_count_partial kinds ws h1 h2 m hm hmin n default t (R.draws b) (hR.1 b) (R.shuffle b) (hR.2 b)
    refine ⟨specs, by rw [h3], fun _ => h4, fun h => absurd h hk, h5, ?_⟩
    intro hall ht
    subst ht
    unfold fromDistro at h3
    simp only at h3
    cases hi : distroIndices kinds n (R.draws b) with
    | none => rw [hi] at h3; cases h3
    | some is => rw [hi] at h3; exact buildSpecs_true kinds default hall _ _ h3

/-! ### Theorems -/

/-- C205, violation: `soil.config` has no `AgentConfig`, so `from_config` raises `AttributeError` for every configuration. -/
theorem C205_missing_false (R : CfgRandom) (cfg : AgentCfg) (topoSize : Nat) : packageFromConfig R cfg topoSize = .error .attribute := by
  unfold packageFromConfig agentsFromConfig
  rw [if_pos (by decide)]

/-- C205 (partial): if the classes were there: all agents given one by one, in order, with their own class, state and topology; then the agents for the free
nodes, all of them in the topology; then the others, so that agents that are not hidden and agents for nodes make up the total. For all random choices.
Missing: the classes; nodes that are left over; kinds for the total that are put in the topology. See the other theorems. -/
theorem C205_agents_partial (R : CfgRandom) (hR : R.Valid) (cfg : AgentCfg) (topoSize : Nat) (hs : SensibleCfg cfg topoSize)
    (hp : PositiveWeights (cfg.distribution.map (·.2))) (hroom : topoFixed cfg ≤ topoSize)
    (hfull : cfg.distribution ≠ [] → kindsOf .topology cfg.distribution = [] → topoFixed cfg = topoSize)
    (hn : ∀ n, cfg.n = some n → (shownFixed cfg + (if kindsOf .topology cfg.distribution = [] then 0 else topoSize - topoFixed cfg) : Nat) ≤ n) :
    ∃ one net rest, agentsFromConfig true R cfg topoSize = .ok (one ++ net ++ rest) ∧
      one.length = (cfg.fixed.getD []).length ∧
      (∀ (i : Nat) (f : FixedAgent) (a : AgentSpec), (cfg.fixed.getD [])[i]? = some f → one[i]? = some a →
        a.cls = f.spec.cls.getD cfg.default.cls ∧ (a.topology = true ↔ wantsTopology cfg f.spec) ∧
        (Dict.WF f.spec.state → ∀ k, Dict.get? a.state k = (Dict.get? f.spec.state k).or (Dict.get? cfg.default.state k))) ∧
      (kindsOf .topology cfg.distribution = [] → net = []) ∧
      (kindsOf .topology cfg.distribution ≠ [] → net.length = topoSize - topoFixed cfg) ∧
      (∀ a ∈ net, a.topology = true ∧ ∃ d ∈ kindsOf .topology cfg.distribution, a.cls = d.cls.getD cfg.default.cls) ∧
      (kindsOf .total cfg.distribution = [] → rest = []) ∧
      (kindsOf .total cfg.distribution ≠ [] → ∃ n, cfg.n = some n ∧ ((shownFixed cfg + net.length + rest.length : Nat) : Int) = n) ∧
      (∀ a ∈ rest, ∃ d ∈ kindsOf .total cfg.distribution, a.cls = d.cls.getD cfg.default.cls) := by
  have hkN : ∀ st, PositiveWeights (kindsOf st cfg.distribution) := by
    intro st d hd
    obtain ⟨p, hpm, rfl⟩ := List.mem_map.1 hd
    exact hp _ (List.mem_map.2 ⟨p, List.mem_of_mem_filter hpm, rfl⟩)
  -- the agents given one by one
  have hfix : ∃ one, cfg.fixedPart = (one, shownFixed cfg, topoFixed cfg) ∧
      one = (cfg.fixed.getD []).map (fun f => fixedSpec f.spec cfg.default cfg.default.topology) := by
    unfold AgentCfg.fixedPart shownFixed topoFixed
    cases cfg.fixed with
    | none => exact ⟨[], rfl, rfl⟩
    | some l =>
      obtain ⟨h1, h2, h3⟩ := fromFixed_spec cfg l
      exact ⟨_, by simp only [Option.getD_some]; rw [← h2, ← h3], h1⟩
  obtain ⟨one, hone, hmap⟩ := hfix
  have hitems : one.length = (cfg.fixed.getD []).length ∧ ∀ (i : Nat) (f : FixedAgent) (a : AgentSpec), (cfg.fixed.getD [])[i]? = some f → one[i]? = some a →
        a.cls = f.spec.cls.getD cfg.default.cls ∧ (a.topology = true ↔ wantsTopology cfg f.spec) ∧
        (Dict.WF f.spec.state → ∀ k, Dict.get? a.state k = (Dict.get? f.spec.state k).or (Dict.get? cfg.default.state k)) := by
    refine ⟨by rw [hmap, List.length_map], ?_⟩
    intro i f a hf ha
    rw [hmap, List.getElem?_map, hf] at ha
    obtain rfl := Option.some.inj ha
    refine ⟨rfl, ?_, ?_⟩
    · show f.spec.topo cfg.default cfg.default.topology = true ↔ wantsTopology cfg f.spec
      unfold Distro.topo wantsTopology
      cases f.spec.topology <;> simp
    · intro hwf k
      exact Dict.get?_update _ _ hwf k
  unfold agentsFromConfig
  simp only [Bool.not_true, Bool.false_eq_true, if_false, hone]
  by_cases hd : cfg.distribution = []
  · rw [if_pos hd]
    refine ⟨one, [], [], by simp, hitems.1, hitems.2, fun _ => rfl, ?_, fun a ha => (nomatch ha), fun _ => rfl, ?_, fun a ha => nomatch ha⟩
    · intro h; exact absurd (by rw [hd]; rfl) h
    · intro h; exact absurd (by rw [hd]; rfl) h
  · rw [if_neg hd]
    obtain ⟨t', h1, h2, _⟩ := sortKinds_ok cfg topoSize cfg.distribution [] [] none hs.1 hs.2
    rw [h1]
    simp only [List.nil_append]
    have e1 : ((topoSize : Int) - (topoFixed cfg : Nat)) = ((topoSize - topoFixed cfg : Nat) : Int) := by omega
    rw [e1]
    obtain ⟨net, n1, n2, n3, n4, n5⟩ := distroIf_spec R hR false _ (hkN .topology) (topoSize - topoFixed cfg) cfg.default (t'.getD false)
    rw [n1]
    simp only
    have hnet : net.length = if kindsOf .topology cfg.distribution = [] then 0 else topoSize - topoFixed cfg := by
      split
      · next h => rw [n3 h]; rfl
      · next h => exact n2 h
    have hrest : ∃ rest, distroIf R true (kindsOf .total cfg.distribution) (cfg.n.getD 0 - ((shownFixed cfg + net.length : Nat) : Int)) cfg.default false = .ok rest ∧
        (kindsOf .total cfg.distribution = [] → rest = []) ∧
        (kindsOf .total cfg.distribution ≠ [] → ∃ n, cfg.n = some n ∧ ((shownFixed cfg + net.length + rest.length : Nat) : Int) = n) ∧
        (∀ a ∈ rest, ∃ d ∈ kindsOf .total cfg.distribution, a.cls = d.cls.getD cfg.default.cls) := by
      by_cases ht : kindsOf .total cfg.distribution = []
      · refine ⟨[], ?_, fun _ => rfl, fun h => absurd ht h, fun a ha => nomatch ha⟩
        unfold distroIf
        rw [if_pos ht]
      · obtain ⟨n, hcn, _⟩ := hs.2 ht
        have hle := hn n hcn
        rw [← hnet] at hle
        have e2 : cfg.n.getD 0 - ((shownFixed cfg + net.length : Nat) : Int) = ((n - ((shownFixed cfg + net.length : Nat) : Int)).toNat : Int) := by
          rw [hcn, Option.getD_some, Int.toNat_of_nonneg (by omega)]
        rw [e2]
        obtain ⟨rest, r1, r2, _, r4, _⟩ := distroIf_spec R hR true _ (hkN .total) (n - ((shownFixed cfg + net.length : Nat) : Int)).toNat cfg.default false
        refine ⟨rest, r1, fun h => absurd h ht, fun h => ⟨n, hcn, ?_⟩, r4⟩
        rw [Nat.cast_add, r2 h, Int.toNat_of_nonneg (by omega)]
        omega
    obtain ⟨rest, r1, r2, r3, r4⟩ := hrest
    rw [r1]
    simp only
    rw [if_neg]
    · refine ⟨one, net, rest, rfl, hitems.1, hitems.2, n3, n2, ?_, r2, r3, r4⟩
      intro a ha
      refine ⟨?_, n4 a ha⟩
      have hne : kindsOf .topology cfg.distribution ≠ [] := by
        intro h; rw [n3 h] at ha; cases ha
      exact n5 (fun d hd' => (hs.1 d hd').1) (by rw [h2 hne]; rfl) a ha
    · rw [hnet]
      split
      · next h => rw [hfull hd h]; omega
      · omega

/-- C205: a kind for the nodes without topology or nodes, and a kind for the total without total, are rejected. -/
theorem C205_rejects (R : CfgRandom) (cfg : AgentCfg) (topoSize : Nat)
    (h : (∃ d ∈ kindsOf .topology cfg.distribution, ¬ wantsTopology cfg d ∨ topoSize = 0) ∨
      (kindsOf .total cfg.distribution ≠ [] ∧ (cfg.n = none ∨ cfg.n = some 0))) :
    agentsFromConfig true R cfg topoSize = .error .value := by
  have hd : cfg.distribution ≠ [] := by
    intro hd
    rw [hd] at h
    simp [kindsOf] at h
  unfold agentsFromConfig
  simp only [Bool.not_true, Bool.false_eq_true, if_false]
  rw [if_neg hd, sortKinds_bad cfg topoSize _ _ _ _ h]

private theorem distroIf_zero (R : CfgRandom) (b : Bool) (kinds : List Distro) (n : Int) (default : DistroDefault) (t : Bool) (d : Distro)
    (hd : d ∈ kinds) (h0 : d.weight = some 0) (hge : ∀ e ∈ kinds, ∀ w, e.weight = some w → 0 ≤ w) :
    distroIf R b kinds n default t = .error .distro := by
  have hne : kinds ≠ [] := List.ne_nil_of_mem hd
  have hm : minWeight (kinds.map (fun d => d.weight.getD 1)) = some 0 := by
    refine minWeight_spec _ (by simpa using hne) 0 (List.mem_map.2 ⟨d, hd, by simp [h0]⟩) (fun w hw => ?_)
    obtain ⟨e, he, rfl⟩ := List.mem_map.1 hw
    cases hx : e.weight with
    | none => decide
    | some w => exact hge e he w hx
  unfold distroIf
  rw [if_neg hne]
  simp [fromDistro, distroIndices, hm]

/-- C205: a kind with the weight 0, whether for nodes or for the total, is an error (a division by zero), and not a kind without agents. -/
theorem C205_zero_false (R : CfgRandom) (cfg : AgentCfg) (topoSize : Nat) (hs : SensibleCfg cfg topoSize) (st : Strategy) (d : Distro)
    (hd : (st, d) ∈ cfg.distribution) (h0 : d.weight = some 0) (hge : ∀ e ∈ cfg.distribution, ∀ w, e.2.weight = some w → 0 ≤ w) :
    agentsFromConfig true R cfg topoSize = .error .distro := by
  have hk : ∀ st', ∀ e ∈ kindsOf st' cfg.distribution, ∀ w, e.weight = some w → 0 ≤ w := by
    intro st' e he
    obtain ⟨p, hpm, rfl⟩ := List.mem_map.1 he
    exact hge p (List.mem_of_mem_filter hpm)
  have hmem : d ∈ kindsOf st cfg.distribution := List.mem_map.2 ⟨(st, d), List.mem_filter.2 ⟨hd, by simp⟩, rfl⟩
  have hall : ∀ (b : Bool) (kinds : List Distro) (n : Int) (t : Bool) (e : CfgFail), distroIf R b kinds n cfg.default t = .error e → e = .distro := by
    intro b kinds n t e h
    unfold distroIf at h
    split at h
    · cases h
    · split at h
      · cases h; rfl
      · cases h
  unfold agentsFromConfig
  simp only [Bool.not_true, Bool.false_eq_true, if_false]
  rw [if_neg (List.ne_nil_of_mem hd)]
  obtain ⟨t', h1, h2, _⟩ := sortKinds_ok cfg topoSize cfg.distribution [] [] none hs.1 hs.2
  rw [h1]
  simp only [List.nil_append]
  cases st with
  | topology => rw [distroIf_zero R _ _ _ _ _ d hmem h0 (hk _)]
  | total =>
    cases hn : distroIf R false (kindsOf .topology cfg.distribution) ((topoSize : Int) - cfg.fixedPart.2.2) cfg.default (t'.getD false) with
    | error e => simp only [hall _ _ _ _ _ hn]
    | ok l => simp only [distroIf_zero R _ _ _ _ _ d hmem h0 (hk _)]

example : agentsFromConfig true ⟨fun _ _ => 0, fun _ l => l⟩
    ⟨some 2, none, [(.total, ⟨some 1, none, none, [], none⟩), (.total, ⟨some 0, none, none, [], none⟩)], ⟨9, [], false⟩⟩ 0 = .error .distro := by
  decide +kernel

/-- C205, violation: even with the classes, nodes that are left over raise `NameError` instead of a warning: with kinds for the total only and a topology that the
agents given one by one do not fill, nothing is returned. -/
theorem C205_warning_false (R : CfgRandom) (hR : R.Valid) (cfg : AgentCfg) (topoSize n : Nat) (hp : PositiveWeights (cfg.distribution.map (·.2)))
    (hnone : kindsOf .topology cfg.distribution = []) (htot : kindsOf .total cfg.distribution ≠ []) (hcn : cfg.n = some (n : Int)) (hn0 : 0 < n)
    (hn : shownFixed cfg ≤ n) (hfree : topoFixed cfg < topoSize) : agentsFromConfig true R cfg topoSize = .error .name := by
  have hd : cfg.distribution ≠ [] := by
    rintro hd
    rw [hd] at htot
    exact htot rfl
  have hkN : PositiveWeights (kindsOf .total cfg.distribution) := by
    intro d hd
    obtain ⟨p, hpm, rfl⟩ := List.mem_map.1 hd
    exact hp _ (List.mem_map.2 ⟨p, List.mem_of_mem_filter hpm, rfl⟩)
  have hfix : ∃ one, cfg.fixedPart = (one, shownFixed cfg, topoFixed cfg) := by
    unfold AgentCfg.fixedPart shownFixed topoFixed
    cases cfg.fixed with
    | none => exact ⟨[], rfl⟩
    | some l =>
      obtain ⟨h1, h2, h3⟩ := fromFixed_spec cfg l
      exact ⟨_, by simp only [Option.getD_some]; rw [← h2, ← h3]⟩
  obtain ⟨one, hone⟩ := hfix
  unfold agentsFromConfig
  simp only [Bool.not_true, Bool.false_eq_true, if_false, hone]
  rw [if_neg hd]
  obtain ⟨t', h1, _, _⟩ := sortKinds_ok cfg topoSize cfg.distribution [] [] none (fun d hd' => by rw [hnone] at hd'; cases hd')
    (fun _ => ⟨n, hcn, by omega⟩)
  rw [h1]
  simp only [List.nil_append]
  have e0 : distroIf R false (kindsOf .topology cfg.distribution) ((topoSize : Int) - (topoFixed cfg : Nat)) cfg.default (t'.getD false) = .ok [] := by
    unfold distroIf; rw [if_pos hnone]
  rw [e0]
  simp only
  have e2 : cfg.n.getD 0 - ((shownFixed cfg + ([] : List AgentSpec).length : Nat) : Int) = ((n - shownFixed cfg : Nat) : Int) := by
    rw [hcn, Option.getD_some]; simp; omega
  rw [e2]
  obtain ⟨rest, r1, _⟩ := distroIf_spec R hR true _ hkN (n - shownFixed cfg) cfg.default false
  rw [r1]
  simp only
  rw [if_pos (by simpa using hfree)]

/-- A generator that does nothing. -/
private def stillRandom : CfgRandom := ⟨fun _ _ => 0, fun _ l => l⟩

/-- C205, violation: agents for the total are put in the topology as well if that is the default, although all nodes are taken: two agents for one node. -/
theorem C205_overfull_false : ∃ cfg l, SensibleCfg cfg 1 ∧ PositiveWeights (cfg.distribution.map (·.2)) ∧ agentsFromConfig true stillRandom cfg 1 = .ok l ∧
    (l.countP (fun a => a.topology)) = 2 := by
  refine ⟨⟨some 2, none, [(.topology, ⟨some 1, none, none, [], none⟩), (.total, ⟨some 1, none, none, [], none⟩)], ⟨9, [], true⟩⟩,
    [⟨9, [], true⟩, ⟨9, [], true⟩], ⟨?_, ?_⟩, ?_, ?_, ?_⟩
  · intro d hd
    simp only [kindsOf, List.filter_cons, List.filter_nil, List.map_cons, List.map_nil] at hd
    simp at hd
    subst hd
    exact ⟨Or.inr ⟨rfl, rfl⟩, by omega⟩
  · exact fun _ => ⟨2, rfl, by decide⟩
  · intro d hd
    simp at hd
    exact ⟨1, by rw [hd], by decide⟩
  · decide +kernel
  · decide +kernel

-- One hidden agent given with a node, kinds for the nodes and for the total.
example : (agentsFromConfig true stillRandom
    ⟨some 5, some [⟨⟨none, none, some 7, [("x", .num 1)], some true⟩, true⟩],
      [(.topology, ⟨some 1, none, some 1, [], some true⟩), (.total, ⟨some 1, none, some 2, [], none⟩), (.topology, ⟨some 2, none, some 3, [], some true⟩)],
      ⟨9, [("x", .num 5)], false⟩⟩ 4).toOption.map (fun l => l.map (fun a => (a.cls, a.topology))) =
    some [(7, true), (1, true), (3, true), (3, true), (2, false), (2, false)] := by decide +kernel

end Verif
