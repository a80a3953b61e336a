import Verif.Model.ExSocial
import Verif.Props.ExWealth
import Verif.Props.NetOps
import Verif.Props.Results
import Verif.Props.BuiltinRun

/-!
# Whole simulations of the social wealth model (C237)
-/

namespace Verif

/-! ### The grid -/

theorem mem_moneyCells {width height : Nat} {c : Square} : c ∈ moneyCells width height ↔ c.1 < width ∧ c.2 < height := by
  obtain ⟨x, y⟩ := c
  simp [moneyCells]

theorem mooreCells_ne {width height : Nat} (h : 1 < width * height) {c : Square} (hc : c ∈ moneyCells width height) :
    mooreCells width height c ≠ [] := by
  rw [mem_moneyCells] at hc
  obtain ⟨x, y⟩ := c
  simp only at hc
  have key : ∃ d : Square, d ∈ mooreCells width height (x, y) := by
    by_cases hx : 0 < x
    · refine ⟨(x - 1, y), List.mem_filter.2 ⟨mem_moneyCells.2 ⟨by simp only; omega, hc.2⟩, decide_eq_true ⟨?_, ?_⟩⟩⟩
      · simp only [ne_eq, Prod.mk.injEq, not_and]; omega
      · simp only; omega
    · by_cases hy : 0 < y
      · refine ⟨(x, y - 1), List.mem_filter.2 ⟨mem_moneyCells.2 ⟨hc.1, by simp only; omega⟩, decide_eq_true ⟨?_, ?_⟩⟩⟩
        · simp only [ne_eq, Prod.mk.injEq, not_and]; omega
        · simp only; omega
      · by_cases hw : 1 < width
        · refine ⟨(x + 1, y), List.mem_filter.2 ⟨mem_moneyCells.2 ⟨by simp only; omega, hc.2⟩, decide_eq_true ⟨?_, ?_⟩⟩⟩
          · simp only [ne_eq, Prod.mk.injEq, not_and]; omega
          · simp only; omega
        · have hw1 : width = 1 := by omega
          subst hw1
          refine ⟨(x, y + 1), List.mem_filter.2 ⟨mem_moneyCells.2 ⟨hc.1, by simp only; omega⟩, decide_eq_true ⟨?_, ?_⟩⟩⟩
          · simp only [ne_eq, Prod.mk.injEq, not_and]; omega
          · simp only; omega
  intro h0
  obtain ⟨d, hd⟩ := key
  rw [h0] at hd
  cases hd

theorem MoneyRng.choice_some {α : Type} (R : MoneyRng) (u : Nat) {l : List α} (h : l ≠ []) : ∃ a ∈ l, R.choice u l = some a := by
  have hl : R.pick u % l.length < l.length := Nat.mod_lt _ (List.length_pos_iff.2 h)
  exact ⟨_, List.getElem_mem hl, List.getElem?_eq_getElem hl⟩

/-! ### The agents have a node -/

/-- Every agent is on a node of the network. -/
def NWorld.Housed (w : NWorld) : Prop := ∀ a ∈ w.agents, ∃ n, a.node = some n ∧ Dict.has w.nodes n = true

theorem NWorld.Housed.neighbors {w : NWorld} (h : w.Housed) (r : Nat) (hr : r < w.agents.length) : (w.getNeighbors r).isSome = true := by
  obtain ⟨n, h1, h2⟩ := h _ (List.getElem_mem hr)
  have : (w.neighborIds r).isSome = true := by
    unfold NWorld.neighborIds
    rw [List.getElem?_eq_getElem hr]
    simp only
    rw [h1]
    simp only
    rw [if_pos h2]
    rfl
  obtain ⟨ids, hids⟩ := Option.isSome_iff_exists.1 this
  unfold NWorld.getNeighbors
  rw [hids]
  simp only
  split <;> rfl

theorem firstFree_has {nodes : Dict NId (Option (Option Nat))} {l : List NId} {n : NId} (h : firstFree nodes l = some n) :
    ∃ x, Dict.get? nodes n = some x ∧ nodeFree x = true := by
  induction l with
  | nil => cases h
  | cons m l ih =>
    simp only [firstFree] at h
    cases hg : Dict.get? nodes m with
    | none => rw [hg] at h; exact ih h
    | some x =>
      rw [hg] at h
      simp only at h
      split at h
      · next hf => cases h; exact ⟨x, hg, hf⟩
      · exact ih h

theorem length_set_ge {K V : Type} [DecidableEq K] (d : Dict K V) (k : K) (v : V) : d.length ≤ (Dict.set d k v).length := by
  rw [Dict.length_set]
  split <;> omega

/-- An agent that chooses a node `x` for itself and is then registered on `n`. -/
theorem NWorld.addIgnoring_full (w : NWorld) (n : NId) (picks : Nat → Nat) (hn : Dict.has w.nodes n = true) :
    ∃ w1 x, w.addIgnoring n picks = (w1, true) ∧ w1.agents = w.agents ++ [⟨w.nextId, true, some x, true⟩] ∧ w1.sched = w.sched ++ [w.agents.length] ∧
      w1.nextId = w.nextId + 1 ∧ w1.edges = w.edges ∧ w1.directed = w.directed ∧ Dict.has w1.nodes x = true ∧
      (∀ m, Dict.has w.nodes m = true → Dict.has w1.nodes m = true) ∧
      ((∃ v, Dict.get? w.nodes x = some v ∧ nodeFree v = true) ∨ x = .int w.nodes.length) ∧
      (∀ y, firstFree w.nodes (candidates w.nodes picks) = some y → x = y) ∧
      Dict.get? w1.nodes n = some (some (some w.agents.length)) ∧
      (∀ m, m ≠ n → m ≠ x → Dict.get? w1.nodes m = Dict.get? w.nodes m) ∧ w.nodes.length ≤ w1.nodes.length := by
  simp only [NWorld.addIgnoring, NWorld.baseAdd, NWorld.takeId, NWorld.construct, if_true, NWorld.chooseNode]
  cases hf : firstFree w.nodes (candidates w.nodes picks) with
  | some x =>
    obtain ⟨v, hv, hfree⟩ := firstFree_has hf
    have hx : Dict.has w.nodes x = true := by simp [Dict.has, hv]
    have hhn : Dict.has (Dict.set w.nodes x (some (some w.agents.length))) n = true := by simp [Dict.has_set, hn]
    simp only [hhn, if_true]
    refine ⟨_, x, rfl, rfl, rfl, rfl, rfl, rfl, by simp [Dict.has_set], fun m hm => by simp [Dict.has_set, hm], Or.inl ⟨v, hv, hfree⟩,
      fun y hy => (Option.some.inj hy), Dict.get?_set_self _ _ _, ?_, ?_⟩
    · intro m h1 h2
      rw [Dict.get?_set_ne _ _ (Ne.symm h1), Dict.get?_set_ne _ _ (Ne.symm h2)]
    · exact (length_set_ge _ _ _).trans (length_set_ge _ _ _)
  | none =>
    by_cases hnew : Dict.has w.nodes (.int w.nodes.length) = true
    · have hhn : Dict.has (Dict.set w.nodes (.int w.nodes.length) (some (some w.agents.length))) n = true := by simp [Dict.has_set, hn]
      simp only [NWorld.addGraphNode, hnew, hhn, if_true]
      refine ⟨_, .int w.nodes.length, rfl, rfl, rfl, rfl, rfl, rfl, by simp [Dict.has_set], fun m hm => by simp [Dict.has_set, hm], Or.inr rfl,
        (fun y hy => nomatch hy), Dict.get?_set_self _ _ _, ?_, ?_⟩
      · intro m h1 h2
        rw [Dict.get?_set_ne _ _ (Ne.symm h1), Dict.get?_set_ne _ _ (Ne.symm h2)]
      · exact (length_set_ge _ _ _).trans (length_set_ge _ _ _)
    · have hhn : Dict.has (Dict.set (Dict.set w.nodes (.int w.nodes.length) none) (.int w.nodes.length) (some (some w.agents.length))) n = true := by
        simp [Dict.has_set, hn]
      simp only [NWorld.addGraphNode, hnew, hhn, if_true, Bool.false_eq_true, if_false]
      refine ⟨_, .int w.nodes.length, rfl, rfl, rfl, rfl, rfl, rfl, by simp [Dict.has_set], fun m hm => by simp [Dict.has_set, hm], Or.inr rfl,
        (fun y hy => nomatch hy), Dict.get?_set_self _ _ _, ?_, ?_⟩
      · intro m h1 h2
        rw [Dict.get?_set_ne _ _ (Ne.symm h1), Dict.get?_set_ne _ _ (Ne.symm h2), Dict.get?_set_ne _ _ (Ne.symm h2)]
      · exact (length_set_ge _ _ _).trans ((length_set_ge _ _ _).trans (length_set_ge _ _ _))

/-- What holds while the star is populated, after the first agent: node 0 belongs to agent 0; the others take themselves to be elsewhere; the edges are
those of the star; ids differ. -/
structure StarInv (edges : List (NId × NId)) (w : NWorld) : Prop where
  housed : w.Housed
  centre : Dict.get? w.nodes (.int 0) = some (some (some 0))
  others : ∀ r, 0 < r → ∀ a, w.agents[r]? = some a → a.node ≠ some (.int 0)
  edges : w.edges = edges
  undirected : w.directed = false
  uids : ∀ (r : Nat) a, w.agents[r]? = some a → a.uid = r + 1
  next : w.nextId = w.agents.length + 1
  present : 0 < w.agents.length

theorem StarInv.add {edges : List (NId × NId)} {w : NWorld} (h : StarInv edges w) (n : NId) (hn0 : n ≠ .int 0) (hn : Dict.has w.nodes n = true)
    (picks : Nat → Nat) :
    ∃ w1, w.addIgnoring n picks = (w1, true) ∧ StarInv edges w1 ∧ w1.agents.length = w.agents.length + 1 ∧ w1.agents[0]? = w.agents[0]? ∧
      ∀ m, Dict.has w.nodes m = true → Dict.has w1.nodes m = true := by
  obtain ⟨w1, x, e1, e2, e3, e4, e5, e6, e7, e8, e9, -, e11, e12, e13⟩ := w.addIgnoring_full n picks hn
  have hx : x ≠ .int 0 := by
    rcases e9 with ⟨v, hv, hfree⟩ | rfl
    · rintro rfl
      rw [h.centre] at hv
      cases hv
      cases hfree
    · intro h0
      have : w.nodes.length = 0 := by injection h0
      have hc := h.centre
      rw [List.length_eq_zero_iff.1 this] at hc
      cases hc
  have hlen : w1.agents.length = w.agents.length + 1 := by rw [e2]; simp
  have hget : ∀ (r : Nat) a, w1.agents[r]? = some a → w.agents[r]? = some a ∨ (r = w.agents.length ∧ a = ⟨w.nextId, true, some x, true⟩) := by
    intro r a ha
    rw [e2] at ha
    by_cases hr : r < w.agents.length
    · rw [List.getElem?_append_left hr] at ha; exact Or.inl ha
    · rw [List.getElem?_append_right (by omega)] at ha
      have hrl : r - w.agents.length < 1 := by
        have := (List.getElem?_eq_some_iff.1 ha).1
        simpa using this
      have h0 : r - w.agents.length = 0 := by omega
      rw [h0] at ha
      exact Or.inr ⟨by omega, (Option.some.inj ha).symm⟩
  refine ⟨w1, e1, ⟨?_, ?_, ?_, e5.trans h.edges, e6.trans h.undirected, ?_, by rw [e4, hlen, h.next], by omega⟩, hlen, ?_, e8⟩
  · intro a ha
    rw [e2] at ha
    rcases List.mem_append.1 ha with ha | ha
    · obtain ⟨m, k1, k2⟩ := h.housed a ha
      exact ⟨m, k1, e8 m k2⟩
    · rw [List.mem_singleton.1 ha]
      exact ⟨x, rfl, e7⟩
  · rw [e12 _ (Ne.symm hn0) (Ne.symm hx), h.centre]
  · intro r hr a ha
    rcases hget r a ha with ha | ⟨-, rfl⟩
    · exact h.others r hr a ha
    · intro h0
      exact hx (Option.some.inj h0)
  · intro r a ha
    rcases hget r a ha with ha | ⟨hr, rfl⟩
    · exact h.uids r a ha
    · rw [hr]; exact h.next
  · rw [e2, List.getElem?_append_left h.present]

theorem StarInv.addAll {edges : List (NId × NId)} (ns : List NId) {w : NWorld} (h : StarInv edges w) (hns : ∀ n ∈ ns, n ≠ .int 0 ∧ Dict.has w.nodes n = true)
    (picks : Nat → Nat → Nat) :
    ∃ w1, w.addAllIgnoring ns picks = (w1, true) ∧ StarInv edges w1 ∧ w1.agents.length = w.agents.length + ns.length ∧ w1.agents[0]? = w.agents[0]? := by
  induction ns generalizing w picks with
  | nil => exact ⟨w, rfl, h, rfl, rfl⟩
  | cons n ns ih =>
    obtain ⟨w1, e1, e2, e3, e4, e5⟩ := h.add n (hns n (by simp)).1 (hns n (by simp)).2 (picks 0)
    obtain ⟨w2, i1, i2, i3, i4⟩ := ih e2 (fun m hm => ⟨(hns m (by simp [hm])).1, e5 m (hns m (by simp [hm])).2⟩) (fun i => picks (i + 1))
    refine ⟨w2, ?_, i2, ?_, i4.trans e4⟩
    · rw [NWorld.addAllIgnoring, e1]
      exact i1
    · rw [i3, e3, List.length_cons]
      omega

/-- With at least one node, the network is populated. -/
theorem star_populated (n : Nat) (hn : 0 < n) (picks : Nat → Nat → Nat) :
    ∃ G, (starGraph n).populateIgnoring picks = (G, true) ∧ StarInv (starGraph n).edges G ∧ G.agents.length = n ∧
      ∃ a, G.agents[0]? = some a ∧ a.node = some (.int (picks 0 0 % n)) := by
  obtain ⟨n, rfl⟩ : ∃ m, n = m + 1 := ⟨n - 1, by omega⟩
  have hfree : reserve (List.replicate (starGraph (n + 1)).nodes.length true) (starGraph (n + 1)).nodes =
      ((starGraph (n + 1)).nodes.map (fun x => (x.1, some none)), (starGraph (n + 1)).nodes.map (fun x => (x.1, true))) := by
    have : ∀ (nodes : Dict NId (Option (Option Nat))), (∀ x ∈ nodes, x.2 = none) →
        reserve (List.replicate nodes.length true) nodes = (nodes.map (fun x => (x.1, some none)), nodes.map (fun x => (x.1, true))) := by
      intro nodes
      induction nodes with
      | nil => intro _; rfl
      | cons x nodes ih =>
        intro h
        obtain ⟨m, a⟩ := x
        have : a = none := h (m, a) (by simp)
        subst this
        rw [List.length_cons, List.replicate_succ, reserve, ih (fun y hy => h y (by simp [hy]))]
        rfl
    apply this
    intro x hx
    simp only [starGraph, List.mem_map] at hx
    obtain ⟨_, _, rfl⟩ := hx
    rfl
  have hne : (starGraph (n + 1)).nodes ≠ [] := by simp [starGraph]
  unfold NWorld.populateIgnoring
  rw [if_neg hne, hfree]
  simp only
  let w0 : NWorld := { starGraph (n + 1) with nodes := (starGraph (n + 1)).nodes.map (fun x => (x.1, some none)) }
  have hkeys : ((starGraph (n + 1)).nodes.map (fun x => (x.1, true))).map Prod.fst = (List.range (n + 1)).map NId.int := by
    simp [starGraph, Function.comp_def]
  have hw0 : w0.nodes = (List.range (n + 1)).map (fun i => (NId.int i, some none)) := by
    simp [w0, starGraph, Function.comp_def]
  have hk0 : Dict.keys w0.nodes = (List.range (n + 1)).map NId.int := by
    rw [hw0]
    simp [Dict.keys, Function.comp_def]
  have hhas : ∀ i < n + 1, Dict.has w0.nodes (.int i) = true := by
    intro i hi
    refine (Dict.mem_keys _ _).1 ?_
    rw [hk0]
    exact List.mem_map_of_mem (List.mem_range.2 hi)
  rw [hkeys, List.range_succ_eq_map, List.map_cons]
  show ∃ G, w0.addAllIgnoring _ picks = (G, true) ∧ _
  obtain ⟨w1, x, e1, e2, e3, e4, e5, e6, e7, e8, e9, e10, e11, e12, e13⟩ := w0.addIgnoring_full (.int 0) (picks 0) (hhas 0 (by omega))
  have hx : x = .int (picks 0 0 % (n + 1)) := by
    apply e10
    have hlen : w0.nodes.length = n + 1 := by rw [hw0]; simp
    have hp : picks 0 0 % (n + 1) < n + 1 := Nat.mod_lt _ (by omega)
    have hc : candidates w0.nodes (picks 0) = .int (picks 0 0 % (n + 1)) ::
        ((List.range n).map (· + 1)).filterMap (fun i => (Dict.keys w0.nodes)[picks 0 i % w0.nodes.length]?) := by
      unfold candidates
      rw [hlen, List.range_succ_eq_map, List.filterMap_cons, hk0]
      have : ((List.range (n + 1)).map NId.int)[picks 0 0 % (n + 1)]? = some (.int (picks 0 0 % (n + 1))) := by
        simp [hp]
      rw [this]
    have hget : Dict.get? w0.nodes (.int (picks 0 0 % (n + 1))) = some (some none) := by
      have h1 := hhas _ hp
      simp only [Dict.has] at h1
      obtain ⟨v, hv⟩ := Option.isSome_iff_exists.1 h1
      rw [hv]
      have hm := Dict.get?_mem hv
      rw [hw0] at hm
      simp only [List.mem_map] at hm
      obtain ⟨_, _, h2⟩ := hm
      rw [← (Prod.mk.inj h2).2]
    rw [hc]
    simp only [firstFree, hget, nodeFree, if_true]
  have ha1 : w1.agents = [⟨1, true, some x, true⟩] := e2
  have hS : StarInv (starGraph (n + 1)).edges w1 := by
    refine ⟨?_, e11, ?_, e5, e6, ?_, ?_, ?_⟩
    · intro a ha
      rw [ha1] at ha
      rw [List.mem_singleton.1 ha]
      exact ⟨x, rfl, e7⟩
    · intro r hr a ha
      rw [ha1] at ha
      have := (List.getElem?_eq_some_iff.1 ha).1
      simp at this
      omega
    · intro r a ha
      rw [ha1] at ha
      have := (List.getElem?_eq_some_iff.1 ha).1
      have hr : r = 0 := by simpa using this
      subst hr
      rw [← Option.some.inj ha]
    · rw [e4, ha1]; rfl
    · rw [ha1]; simp
  obtain ⟨G, g1, g2, g3, g4⟩ := hS.addAll ((List.map Nat.succ (List.range n)).map NId.int) (by
    intro m hm
    simp only [List.map_map, List.mem_map, List.mem_range, Function.comp] at hm
    obtain ⟨i, hi, rfl⟩ := hm
    exact ⟨by intro h; injection h with h; omega, e8 _ (hhas _ (by simp only [Nat.succ_eq_add_one]; omega))⟩) (fun i => picks (i + 1))
  refine ⟨G, ?_, g2, ?_, ⟨1, true, some x, true⟩, ?_, ?_⟩
  · rw [NWorld.addAllIgnoring, e1]
    exact g1
  · rw [g3, ha1]
    simp
    omega
  · rw [g4, ha1]
    rfl
  · simp only
    rw [hx]

/-- Who is a friend of whom. -/
theorem StarInv.friends {n : Nat} {w : NWorld} (h : StarInv (starGraph n).edges w) (r j : Nat) (l : List Nat) (hl : w.getNeighbors r = some l) (hj : j ∈ l)
    (hr : ∀ a, w.agents[r]? = some a → a.node ≠ some (.int 0)) : j = 0 := by
  unfold NWorld.getNeighbors at hl
  cases hids : w.neighborIds r with
  | none => rw [hids] at hl; cases hl
  | some ids =>
    rw [hids] at hl
    simp only at hl
    split at hl
    · cases hl; cases hj
    · cases hl
      have huj := (List.mem_filter.1 hj).2
      cases hu : w.uid j with
      | none => rw [hu] at huj; cases huj
      | some u =>
        rw [hu] at huj
        have hui : u ∈ ids := of_decide_eq_true huj
        unfold NWorld.neighborIds at hids
        cases ha : w.agents[r]? with
        | none => rw [ha] at hids; cases hids
        | some a =>
          rw [ha] at hids
          simp only at hids
          cases hnode : a.node with
          | none => rw [hnode] at hids; cases hids
          | some x =>
            rw [hnode] at hids
            simp only at hids
            split at hids
            · cases hids
              obtain ⟨m, hm, hmu⟩ := List.mem_filterMap.1 hui
              have hadj := (List.mem_filter.1 hm).2
              have hx0 : x ≠ .int 0 := by
                intro h0
                exact hr a ha (by rw [hnode, h0])
              have hm0 : m = .int 0 := by
                simp only [NWorld.adjacent, h.edges, h.undirected, starGraph, Bool.not_false, Bool.true_and, Bool.or_eq_true, decide_eq_true_eq, List.mem_map,
                  Prod.mk.injEq] at hadj
                rcases hadj with ⟨i, -, h1, -⟩ | ⟨i, -, h1, -⟩
                · exact absurd h1.symm hx0
                · exact h1.symm
              subst hm0
              rw [h.centre] at hmu
              simp only [Option.map_eq_some_iff] at hmu
              obtain ⟨b, hb, hbu⟩ := hmu
              have h1 := h.uids 0 b hb
              simp only [NWorld.uid, Option.map_eq_some_iff] at hu
              obtain ⟨d, hd, hdu⟩ := hu
              have h2 := h.uids j d hd
              omega
            · cases hids

/-! ### One turn -/

/-- What holds of the agents in every state: as many wealths and positions as agents, `n` coins in all, nobody in debt, everybody on the grid. -/
structure MoneyInv (width height n : Nat) (w : MoneyWorld) : Prop where
  wealths : w.money.wealth.length = n
  positions : w.money.pos.length = n
  total : w.money.wealth.sum = n
  solvent : ∀ v ∈ w.money.wealth, 0 ≤ v
  grid : ∀ c ∈ w.money.pos, c ∈ moneyCells width height

theorem socialTurn_spec {G : NWorld} (R : MoneyRng) {width height n : Nat} (hg : 1 < width * height) {r : Ref} (hr : r < n)
    (hG : (G.getNeighbors r).isSome = true) {w : MoneyWorld} (h : MoneyInv width height n w) :
    ∃ dst other, (socialTurn G R width height r w).1 = .ret none ∧
      w.money.step G.friends (mooreCells width height) r dst other = some (socialTurn G R width height r w).2.money ∧
      MoneyInv width height n (socialTurn G R width height r w).2 := by
  have hr' : r < w.money.pos.length := by rw [h.positions]; exact hr
  have hrw : r < w.money.wealth.length := by rw [h.wealths]; exact hr
  have hp : w.money.pos[r]? = some w.money.pos[r] := List.getElem?_eq_getElem hr'
  obtain ⟨dst, hd, hch⟩ := R.choice_some w.used (mooreCells_ne hg (h.grid _ (List.getElem_mem hr')))
  have hmove : w.money.move (mooreCells width height) r dst = some { w.money with pos := w.money.pos.set r dst } := by
    simp only [Money.move, hp, if_pos hd]
  have hN : ¬ (0 < ((({ w.money with pos := w.money.pos.set r dst } : Money).wealth[r]?).getD 0) ∧ G.getNeighbors r = none) := by
    rintro ⟨-, h0⟩
    rw [h0] at hG
    cases hG
  have hstep : ∃ m', w.money.step G.friends (mooreCells width height) r dst
      ((R.choice (w.used + 1) (G.friends.options { w.money with pos := w.money.pos.set r dst } r)).getD 0) = some m' := by
    simp only [Money.step, hmove, List.getElem?_eq_getElem hrw]
    split
    · by_cases he : (G.friends.options { w.money with pos := w.money.pos.set r dst } r).isEmpty = true
      · rw [if_pos he]; exact ⟨_, rfl⟩
      · rw [if_neg he]
        obtain ⟨o, ho, hc⟩ := R.choice_some (w.used + 1) (l := G.friends.options { w.money with pos := w.money.pos.set r dst } r)
          (by intro h0; rw [h0] at he; exact he rfl)
        rw [hc, Option.getD_some, if_pos ho]
        exact ⟨_, rfl⟩
    · exact ⟨_, rfl⟩
  obtain ⟨m', hm'⟩ := hstep
  have hturn : socialTurn G R width height r w = (.ret none, ⟨m', w.used + 2⟩) := by
    simp only [socialTurn, hp, hch, hmove, if_neg hN, hm']
  obtain ⟨i1, i2, i3, i4⟩ := Money.step_inv (h.wealths.trans h.positions.symm) h.solvent hm'
  obtain ⟨-, hpos, -⟩ := C125_step hm'
  refine ⟨dst, _, by rw [hturn], by rw [hturn]; exact hm', ?_⟩
  rw [hturn]
  refine ⟨i2.trans h.wealths, ?_, i3.trans h.total, i4, ?_⟩
  · show m'.pos.length = n
    rw [hpos, List.length_set]
    exact h.positions
  · intro c hc
    have hc : c ∈ m'.pos := hc
    rw [hpos] at hc
    rcases List.mem_or_eq_of_mem_set hc with hc | rfl
    · exact h.grid c hc
    · exact (List.mem_filter.1 hd).1

theorem social_mesa {G : NWorld} (R : MoneyRng) {width height n : Nat} (hg : 1 < width * height)
    (hG : ∀ r < n, (G.getNeighbors r).isSome = true) (iv : Rat) :
    MesaHost (socialHost G R width height) n iv (fun r _ _ _ w => (socialTurn G R width height r w).2) (MoneyInv width height n) where
  step r hr s w t hI _ := by
    obtain ⟨_, _, h, -⟩ := socialTurn_spec R hg hr (hG r hr) hI
    simp only [socialHost, h]
  inv r hr t k as w hI := by
    obtain ⟨_, _, -, -, h⟩ := socialTurn_spec R hg hr (hG r hr) hI
    exact h
  shuffle l w hI := ⟨hI.wealths, hI.positions, hI.total, hI.solvent, hI.grid⟩

/-! ### The data -/

theorem range_map_getD (l : List Int) (f : Int → Rat) : (List.range l.length).map (fun r => f ((l[r]?).getD 0)) = l.map f := by
  apply List.ext_getElem?
  intro i
  by_cases hi : i < l.length
  · simp [hi]
  · simp [hi]

theorem cast_sum (l : List Int) : (l.map (fun v : Int => (v : Rat))).sum = (l.sum : Rat) := by
  induction l with
  | nil => simp
  | cons a l ih => simp only [List.map_cons, List.sum_cons, ih]; push_cast; rfl

/-- The wealths as numbers. -/
def MoneyWorld.wealths (w : MoneyWorld) : List Rat := w.money.wealth.map (fun v : Int => (v : Rat))

theorem MoneyInv.gini {width height n : Nat} (hn : 0 < n) {w : MoneyWorld} (h : MoneyInv width height n w) :
    computeGini w.wealths = some (Spec.gini w.wealths) ∧ 0 ≤ Spec.gini w.wealths ∧ Spec.gini w.wealths ≤ 1 - 1 / (n : Rat) := by
  have hs : w.wealths.sum ≠ 0 := by
    rw [MoneyWorld.wealths, cast_sum, h.total]
    exact_mod_cast Nat.pos_iff_ne_zero.1 hn
  have hb := gini_bounds w.wealths (by
    intro x hx
    obtain ⟨v, hv, rfl⟩ := List.mem_map.1 hx
    exact_mod_cast h.solvent v hv) hs
  refine ⟨(C126_compute_gini _).1 hs, hb.1, ?_⟩
  have := hb.2
  rw [MoneyWorld.wealths, List.length_map, h.wealths] at this
  exact this

/-- What a collector of mesa has recorded after `k` steps through the states `x 1`, …, `x k`: the Gini coefficient and the wealth of every agent. -/
def socialData (n k : Nat) (x : Nat → Sched × MoneyWorld) : Collector (Sched × MoneyWorld) Ref where
  modelReporters := [("Gini", giniRep)]
  modelVars := [("Gini", (List.range k).map (fun i => .num (.fin (Spec.gini (x (i + 1)).2.wealths))))]
  agentReporters := [("Wealth", wealthRep)]
  agentRecords := (List.range k).map (fun i =>
    (i + 1, (List.range n).map (fun r => (r, [.num (.fin ((((x (i + 1)).2.money.wealth[r]?).getD 0 : Int) : Rat))]))))

theorem social_collect {width height n : Nat} (hn : 0 < n) (k : Nat) (x : Nat → Sched × MoneyWorld) (hs : (x (k + 1)).1.steps = k + 1)
    (ha : (x (k + 1)).1.agents = List.range n) (hI : MoneyInv width height n (x (k + 1)).2) :
    (socialData n k x).collect socialObserved (x (k + 1)) = (socialData n (k + 1) x, false) := by
  have hg : giniRep (x (k + 1)) = some (.num (.fin (Spec.gini (x (k + 1)).2.wealths))) := by
    unfold giniRep
    rw [ha, ← hI.wealths, range_map_getD]
    have := (hI.gini hn).1
    unfold MoneyWorld.wealths at this ⊢
    rw [this]
    rfl
  have hm : collectModel (x (k + 1)) [("Gini", giniRep)] (socialData n k x).modelVars = ((socialData n (k + 1) x).modelVars, false) := by
    simp only [collectModel, hg]
    simp [socialData, Dict.set, Dict.get?, List.range_succ]
  have hr : recordAgents socialObserved [("Wealth", wealthRep)] (x (k + 1)) =
      some ((List.range n).map (fun r => (r, [.num (.fin ((((x (k + 1)).2.money.wealth[r]?).getD 0 : Int) : Rat))]))) := by
    unfold recordAgents
    have : ∀ l : List Ref, (∀ r ∈ l, r < n) → l.mapM (fun a => (([("Wealth", wealthRep)] : List (String × AgentRep (Sched × MoneyWorld) Ref)).mapM
        (fun (nf : String × AgentRep (Sched × MoneyWorld) Ref) => nf.2 (x (k + 1)) a)).map (fun vs => (a, vs))) =
        some (l.map (fun r => (r, [RVal.num (.fin ((((x (k + 1)).2.money.wealth[r]?).getD 0 : Int) : Rat))]))) := by
      intro l
      induction l with
      | nil => intro _; rfl
      | cons r l ih =>
        intro hl
        have hr : r < (x (k + 1)).2.money.wealth.length := by rw [hI.wealths]; exact hl r (by simp)
        rw [List.mapM_cons, ih (fun y hy => hl y (by simp [hy]))]
        simp only [List.mapM_cons, List.mapM_nil, wealthRep, List.getElem?_eq_getElem hr]
        simp [hr]
    show List.mapM _ (x (k + 1)).1.agents = _
    rw [ha]
    exact this _ (fun r hr => List.mem_range.1 hr)
  unfold Collector.collect
  have e1 : (socialData n k x).modelReporters = [("Gini", giniRep)] := rfl
  have e2 : (socialData n k x).agentReporters = [("Wealth", wealthRep)] := rfl
  simp only [e1, e2, hm, hr]
  simp only [Bool.false_eq_true, if_false, List.isEmpty_cons]
  refine Prod.ext ?_ rfl
  have hset : Dict.set (socialData n k x).agentRecords (socialObserved.key (x (k + 1)))
      ((List.range n).map (fun r => (r, [.num (.fin ((((x (k + 1)).2.money.wealth[r]?).getD 0 : Int) : Rat))]))) = (socialData n (k + 1) x).agentRecords := by
    rw [Dict.set_of_absent]
    · simp [socialData, List.range_succ, socialObserved, hs]
    · simp only [socialObserved, hs, Dict.keys, socialData, List.map_map, List.mem_map, not_exists, not_and, List.mem_range]
      intro i hi h
      simp at h
      omega
  simp only [hset]
  rfl

/-! ### Simulations -/

/-- The agents when the environment has been built: one coin each. -/
def moneyStart (width height n : Nat) (places : Nat → Nat × Nat) : MoneyWorld :=
  ⟨⟨List.replicate n 1, (List.range n).map (fun i => ((places i).1 % width, (places i).2 % height))⟩, 0⟩

theorem moneyStart_inv (width height n : Nat) (hg : 0 < width * height) (places : Nat → Nat × Nat) :
    MoneyInv width height n (moneyStart width height n places) := by
  refine ⟨by simp [moneyStart], by simp [moneyStart], by simp [moneyStart], ?_, ?_⟩
  · intro v hv
    rw [List.eq_of_mem_replicate hv]
    decide
  · intro c hc
    simp only [moneyStart, List.mem_map] at hc
    obtain ⟨i, -, rfl⟩ := hc
    exact mem_moneyCells.2 ⟨Nat.mod_lt _ (Nat.pos_of_mul_pos_right hg), Nat.mod_lt _ (Nat.pos_of_mul_pos_left hg)⟩

theorem moneyEnv_some (width height n : Nat) (hn : 0 < n) (hg : 0 < width * height) (iv : Rat) (sh : Bool) (picks : Nat → Nat → Nat)
    (places : Nat → Nat × Nat) :
    ∃ G, moneyEnv width height n iv sh picks places = some (G, ⟨roundsStart n iv sh (moneyStart width height n places), mesaCollector⟩) ∧
      StarInv (starGraph n).edges G ∧ G.agents.length = n ∧ ∃ a, G.agents[0]? = some a ∧ a.node = some (.int (picks 0 0 % n)) := by
  obtain ⟨G, h1, h2, h3, h4⟩ := star_populated n hn picks
  refine ⟨G, ?_, h2, h3, h4⟩
  simp only [moneyEnv, h1]
  rw [if_neg (by rintro (h | h) <;> simp [h] at hg)]
  rfl

/-- A loop that comes to its end. -/
theorem runLoop_ends {S : Type} (st : Stepper S) (mt : Option Time) (ms : Option Nat) (k fuel : Nat) (hf : k ≤ fuel) (x : S)
    (hd : isDone st mt ms (iterStep st k x) = true) (hnd : ∀ i < k, isDone st mt ms (iterStep st i x) = false)
    (hx : ∀ i < k, (st.step (iterStep st i x)).2 = false) : runLoop st mt ms fuel x = .done (iterStep st k x) := by
  induction k generalizing x fuel with
  | zero =>
    simp only [iterStep] at hd ⊢
    cases fuel <;> simp [runLoop, hd]
  | succ k ih =>
    obtain ⟨fuel, rfl⟩ : ∃ f, fuel = f + 1 := ⟨fuel - 1, by omega⟩
    have h0 := hnd 0 (by omega)
    have hx0 := hx 0 (by omega)
    simp only [iterStep] at h0 hx0
    simp only [runLoop, h0, hx0, Bool.false_eq_true, if_false]
    exact ih fuel (by omega) _ hd (fun i hi => hnd (i + 1) (by omega)) (fun i hi => hx (i + 1) (by omega))

/-- C237, what holds on grids with more than one cell, for any number of agents and any random numbers: the environment can be built; a simulation with
`max_steps = k` returns after `k` steps, at time `k · interval`; all agents are still there and on the grid, they have `n` coins in all, and nobody is in
debt; and for each of the `k` steps the Gini coefficient (between 0 and `1 - 1/n`) and the wealth of every agent have been recorded. Missing: the start (see
`C237_frames_false`), the data frames (the same) and the links of the network (see `C237_sink_false`). -/
theorem C237_run_partial (width height n : Nat) (hn : 0 < n) (hg : 1 < width * height) (iv : Rat) (hiv : 0 < iv) (sh : Bool) (picks : Nat → Nat → Nat)
    (places : Nat → Nat × Nat) (R : MoneyRng) :
    ∃ G e0, moneyEnv width height n iv sh picks places = some (G, e0) ∧ ∀ k fuel, k ≤ fuel →
      let st := timedStepper (socialHost G R width height)
      let x : Nat → Sched × MoneyWorld := fun i => iterStep st i e0.state
      runModel (dataStepper st socialObserved (fun _ => [])) none (some k) fuel e0 = .done ⟨x k, socialData n k x⟩ ∧
        (x k).1.steps = k ∧ (x k).1.time = .fin (k * iv) ∧ (x k).1.agents = List.range n ∧
        (x k).2.money.wealth.length = n ∧ (x k).2.money.wealth.sum = n ∧ (∀ v ∈ (x k).2.money.wealth, 0 ≤ v) ∧
        (x k).2.money.pos.length = n ∧ (∀ c ∈ (x k).2.money.pos, c.1 < width ∧ c.2 < height) ∧
        0 ≤ Spec.gini (x k).2.wealths ∧ Spec.gini (x k).2.wealths ≤ 1 - 1 / (n : Rat) := by
  obtain ⟨G, h1, h2, h3, -⟩ := moneyEnv_some width height n hn (by omega) iv sh picks places
  refine ⟨G, _, h1, fun k fuel hf => ?_⟩
  intro st x
  have hH := social_mesa R hg (fun r hr => h2.housed.neighbors r (by rw [h3]; exact hr)) iv (n := n)
  obtain ⟨ms, -, -, hms⟩ := mesa_iter hn hiv hH sh _ (moneyStart_inv width height n (by omega) places)
  have hst : ∀ i, (x i).1.steps = i := fun i => by
    have := (hms i).2.1.round.steps
    rw [(hms i).1] at this
    exact this
  have htm : ∀ i : Nat, (x i).1.time = .fin (i * iv) := fun i => by
    have := (hms i).2.1.round.time
    rw [(hms i).1] at this
    exact this
  have hrun : ∀ i, (x i).1.running = true := fun i => (hms i).2.1.running
  have hag : ∀ i, (x i).1.agents = List.range n := fun i => (hms i).2.1.agents
  have hinv : ∀ i, MoneyInv width height n (x i).2 := fun i => by
    have := (hms i).2.1.inv
    rw [← (hms i).2.1.world] at this
    exact this
  have hraise : ∀ i, (st.step (x i)).2 = false := fun i => (hms i).2.2
  let ds := dataStepper st socialObserved (fun _ => ([] : List (Reg (Sched × MoneyWorld) Ref)))
  let e0 : DataEnv (Sched × MoneyWorld) Ref := ⟨roundsStart n iv sh (moneyStart width height n places), mesaCollector⟩
  have hstep : ∀ i, ds.step ⟨x i, socialData n i x⟩ = (⟨x (i + 1), socialData n (i + 1) x⟩, false) := by
    intro i
    have hx1 : (st.step (x i)).1 = x (i + 1) := by
      show _ = iterStep st (i + 1) _
      rw [iterStep_succ]
    simp only [ds, dataStepper, DataEnv.step, hraise i, Bool.false_eq_true, if_false, List.foldl_nil, hx1]
    rw [social_collect hn i x (hst (i + 1)) (hag (i + 1)) (hinv (i + 1))]
  have hiter : ∀ i, iterStep ds i e0 = ⟨x i, socialData n i x⟩ := by
    intro i
    induction i with
    | zero => rfl
    | succ i ih =>
      rw [iterStep_succ, ih, hstep]
  have hI := hinv k
  refine ⟨?_, hst k, htm k, hag k, hI.wealths, hI.total, hI.solvent, hI.positions, fun c hc => mem_moneyCells.1 (hI.grid c hc), (hI.gini hn).2⟩
  have hne : ds.noAgents e0 = false := by
    have h0 := hag 0
    show (roundsStart n iv sh (moneyStart width height n places)).1.agents.isEmpty = false
    have h0 : (roundsStart n iv sh (moneyStart width height n places)).1.agents = List.range n := h0
    rw [h0]
    simp
    omega
  show runModel ds none (some k) fuel e0 = _
  unfold runModel
  rw [hne]
  simp only [Bool.false_eq_true, if_false]
  rw [runLoop_ends ds none (some k) k fuel hf e0]
  · rw [hiter]
  · rw [hiter]
    show (_ || _) = true
    simp [ds, dataStepper, st, timedStepper, hst]
  · intro i hi
    rw [hiter]
    have e1 := hst i
    have e2 := hrun i
    simp only [isDone, ds, dataStepper, st, timedStepper, e1, e2]
    simp
    omega
  · intro i _
    rw [hiter, hstep]

/-- C237 is violated (the data): the row of the start is not there (see the theorem above), and after any number of steps `model_df()` and `agent_df()` raise,
because the collector has no column `time`. The exporters, which do not use them (soil/exporters.py:96-114), find one row for each step. -/
theorem C237_frames_false (n k : Nat) (x : Nat → Sched × MoneyWorld) (cell : RVal → DbCell) (aid : Ref → Nat) (params : Dict String DbCell) (pid iid : String) :
    modelDf (socialData n k x) false = none ∧ agentDf (socialData n k x) = none ∧
      ∃ job, collectorJob cell aid (socialData n k x) params pid iid = some job ∧ job.reps = ["Gini"] ∧
        job.recs = (List.range k).map (fun i => (i, [("Gini", cell (.num (.fin (Spec.gini (x (i + 1)).2.wealths))))])) := by
  refine ⟨rfl, ?_, _, rfl, rfl, ?_⟩
  · have h : Dict.get? (socialData n k x).modelVars "time" = none := rfl
    unfold agentDf
    simp only [h]
    split
    · rfl
    · split <;> rfl
  · simp only [frameRecs, List.length_map, List.length_range, List.map_cons, List.map_nil]
    apply List.map_congr_left
    intro i hi
    have hi := List.mem_range.1 hi
    simp [hi]

/-! ### Where the money goes -/

/-- C237, the network: whatever nodes the agents take themselves to be on, everybody's friends are linked with them in the star. Missing: not all who are linked are
friends, see below. -/
theorem C237_links_partial (width height n : Nat) (hn : 0 < n) (hg : 0 < width * height) (iv : Rat) (sh : Bool) (picks : Nat → Nat → Nat)
    (places : Nat → Nat × Nat) :
    ∃ G e0, moneyEnv width height n iv sh picks places = some (G, e0) ∧
      ∀ r < n, ∃ l, G.getNeighbors r = some l ∧ ∀ j ∈ l, r = 0 ∨ j = 0 := by
  obtain ⟨G, h1, h2, h3, -⟩ := moneyEnv_some width height n hn hg iv sh picks places
  refine ⟨G, _, h1, fun r hr => ?_⟩
  obtain ⟨l, hl⟩ := Option.isSome_iff_exists.1 (h2.housed.neighbors r (by rw [h3]; exact hr))
  refine ⟨l, hl, fun j hj => ?_⟩
  by_cases h0 : r = 0
  · exact Or.inl h0
  · exact Or.inr (h2.friends r j l hl hj (h2.others r (by omega)))

/-- Agent 0 does not lose, the others do not win. -/
def Drains (m m' : Money) : Prop :=
  (m.wealth[0]?).getD 0 ≤ (m'.wealth[0]?).getD 0 ∧ ∀ r, 0 < r → (m'.wealth[r]?).getD 0 ≤ (m.wealth[r]?).getD 0

theorem drains_step {n : Nat} {G : NWorld} (h : StarInv (starGraph n).edges G) (hG : ∀ r, (hr : r < G.agents.length) → G.agents[r].node ≠ some (.int 0))
    {nb : Square → List Square} {m m' : Money} {r : Nat} {dst : Square} {other : Nat} (hs : m.step G.friends nb r dst other = some m') : Drains m m' := by
  obtain ⟨-, -, hw⟩ := C125_step hs
  rcases hw with hw | ⟨v, hv, -, -, hfr, hw⟩
  · unfold Drains
    rw [hw]
    exact ⟨le_refl _, fun _ _ => le_refl _⟩
  · have ho : other = 0 := by
      have := of_decide_eq_true (hfr _ rfl)
      cases hl : G.getNeighbors r with
      | none => rw [hl] at this; cases this
      | some l =>
        rw [hl] at this
        refine h.friends r other l hl this (fun a ha => ?_)
        obtain ⟨hr, rfl⟩ := List.getElem?_eq_some_iff.1 ha
        exact hG r hr
    subst ho
    unfold Drains
    rw [hw]
    constructor
    · rw [getElem?_modify_int, getElem?_modify_int]
      split <;> cases m.wealth[0]? <;> simp
    · intro j hj
      rw [getElem?_modify_int, getElem?_modify_int, if_neg (by omega : ¬ 0 = j)]
      split <;> cases m.wealth[j]? <;> simp

/-- C237 is violated (the links): if the first agent happens to take itself to be on another node than 0, where it is (the first number drawn when agents look for a node
decides), then the agents on the star, which are all linked with it, never get anything from it: from step to step it has at least as much as before, and everybody else
at most as much. -/
theorem C237_sink_false (width height n : Nat) (hn : 0 < n) (hg : 1 < width * height) (iv : Rat) (hiv : 0 < iv) (sh : Bool) (picks : Nat → Nat → Nat)
    (hp : picks 0 0 % n ≠ 0) (places : Nat → Nat × Nat) (R : MoneyRng) :
    ∃ G e0, moneyEnv width height n iv sh picks places = some (G, e0) ∧ ∀ k,
      let x : Nat → Sched × MoneyWorld := fun i => iterStep (timedStepper (socialHost G R width height)) i e0.state
      ((x k).2.money.wealth[0]?).getD 0 ≤ ((x (k + 1)).2.money.wealth[0]?).getD 0 ∧
        ∀ r, 0 < r → ((x (k + 1)).2.money.wealth[r]?).getD 0 ≤ ((x k).2.money.wealth[r]?).getD 0 := by
  obtain ⟨G, h1, h2, h3, a, ha, han⟩ := moneyEnv_some width height n hn (by omega) iv sh picks places
  refine ⟨G, _, h1, fun k => ?_⟩
  intro x
  have hG : ∀ r, (hr : r < G.agents.length) → G.agents[r].node ≠ some (.int 0) := by
    intro r hr
    by_cases h0 : r = 0
    · subst h0
      rw [(List.getElem?_eq_some_iff.1 ha).2, han]
      intro h
      injection h with h
      injection h with h
      exact hp h
    · exact h2.others r (by omega) _ (List.getElem?_eq_getElem hr)
  have hN : ∀ r < n, (G.getNeighbors r).isSome = true := fun r hr => h2.housed.neighbors r (by rw [h3]; exact hr)
  have hH := social_mesa R hg hN iv
  obtain ⟨order, w1, ho, hw1, hx⟩ := mesa_order hn hiv hH sh _ (moneyStart_inv width height n (by omega) places) k
  have hI := mesa_inv hn hiv hH sh _ (moneyStart_inv width height n (by omega) places) k
  have hm : w1.money = (x k).2.money := by
    rcases hw1 with ⟨-, -, rfl⟩ | ⟨l, rfl⟩ <;> rfl
  have hI1 : MoneyInv width height n w1 := by
    have e : ∀ w w' : MoneyWorld, w'.money = w.money → MoneyInv width height n w → MoneyInv width height n w' := by
      intro w w' he h
      exact ⟨by rw [he]; exact h.wealths, by rw [he]; exact h.positions, by rw [he]; exact h.total, by rw [he]; exact h.solvent, by rw [he]; exact h.grid⟩
    exact e _ _ hm hI
  have fold : ∀ (l : List Ref) (w : MoneyWorld), (∀ r ∈ l, r < n) → MoneyInv width height n w →
      Drains w.money (l.foldl (fun w r => (socialTurn G R width height r w).2) w).money := by
    intro l
    induction l with
    | nil => intro w _ _; exact ⟨le_refl _, fun _ _ => le_refl _⟩
    | cons r l ih =>
      intro w hl hw
      obtain ⟨dst, other, -, hs, hi⟩ := socialTurn_spec R hg (hl r (by simp)) (hN r (hl r (by simp))) hw
      have d1 := drains_step h2 hG hs
      have d2 := ih _ (fun y hy => hl y (by simp [hy])) hi
      exact ⟨d1.1.trans d2.1, fun j hj => (d2.2 j hj).trans (d1.2 j hj)⟩
  have := fold order w1 (fun r hr => List.mem_range.1 (ho.subset hr)) hI1
  rw [hm] at this
  rw [← hx] at this
  exact this

/-- C237 is violated (the smallest grid): with a single cell there is nowhere to go, and the first step raises. -/
theorem C237_single_false (n : Nat) (hn : 0 < n) (iv : Rat) (sh : Bool) (picks : Nat → Nat → Nat) (places : Nat → Nat × Nat) (R : MoneyRng) :
    ∃ G e0, moneyEnv 1 1 n iv sh picks places = some (G, e0) ∧
      (e0.step (timedStepper (socialHost G R 1 1)) socialObserved (fun _ => [])).2 = true := by
  obtain ⟨G, h1, h2, h3, -⟩ := moneyEnv_some 1 1 n hn (by omega) iv sh picks places
  refine ⟨G, _, h1, ?_⟩
  have hturn : ∀ (r : Ref) u, (socialTurn G R 1 1 r ⟨(moneyStart 1 1 n places).money, u⟩).1 = .error := by
    intro r u
    unfold socialTurn
    simp only
    cases hp : (moneyStart 1 1 n places).money.pos[r]? with
    | none => rfl
    | some c =>
      have hc : c = (0, 0) := by
        have hm := List.mem_of_getElem? hp
        simp only [moneyStart, List.mem_map] at hm
        obtain ⟨i, -, rfl⟩ := hm
        simp [Nat.mod_one]
      subst hc
      have : R.choice u (mooreCells 1 1 (0, 0)) = none := by
        have e : mooreCells 1 1 (0, 0) = [] := by decide
        rw [e]
        rfl
      simp only [this]
  have hS := roundsStart_state n hn iv sh (moneyStart 1 1 n places)
  obtain ⟨l, hl, -, hq⟩ := hS.queue
  have htime := hS.time
  have hraise : ((timedStepper (socialHost G R 1 1)).step (roundsStart n iv sh (moneyStart 1 1 n places))).2 = true := by
    simp only [timedStepper]
    unfold Sched.step
    rw [hq]
    simp only
    rw [if_neg (by rw [htime]; exact lt_irrefl _)]
    have hord : ∃ l' u, runOrder (socialHost G R 1 1) (roundsStart n iv sh (moneyStart 1 1 n places)).1 l (roundsStart n iv sh (moneyStart 1 1 n places)).2 =
        (l', ⟨(moneyStart 1 1 n places).money, u⟩) ∧ l' ≠ [] := by
      unfold runOrder
      split
      · exact ⟨_, _, rfl, range_ne hn ((R.shuf_perm _ _).trans hl)⟩
      · exact ⟨l, _, rfl, range_ne hn hl⟩
    obtain ⟨l', u, ho, hne⟩ := hord
    rw [ho]
    obtain ⟨r, rest, rfl⟩ := List.exists_cons_of_ne_nil hne
    have he : ((socialHost G R 1 1).step r { (roundsStart n iv sh (moneyStart 1 1 n places)).1 with queue := [] } ⟨(moneyStart 1 1 n places).money, u⟩).1 = .error :=
      hturn r u
    simp only
    rw [runBucket_cons]
    simp only [he, if_true]
    rfl
  show (DataEnv.step _ _ _ _).2 = true
  simp only [DataEnv.step]
  rw [if_pos hraise]

/-! ### Examples -/

/-- Some random numbers; lists are reversed. -/
def exMoneyRng : MoneyRng where
  pick u := u * u + 1
  shuf u l := (l.reverse, u + 1)
  shuf_perm _ l := List.reverse_perm l

/-- Three agents on two cells: their wealths after `k` steps and the column `Gini`. -/
def exSocialRun (picks : Nat → Nat → Nat) (k : Nat) : Option (List Int × List (List RVal)) :=
  (moneyEnv 2 1 3 1 true picks (fun i => (i, 0))).map (fun (Ge : NWorld × DataEnv (Sched × MoneyWorld) Ref) =>
    let e := (Ge.2.steps (timedStepper (socialHost Ge.1 exMoneyRng 2 1)) socialObserved (fun _ => []) k).1
    (e.state.2.money.wealth, e.dc.modelVars.map Prod.snd))

set_option maxRecDepth 100000 in
example : exSocialRun (fun i j => i + j) 2 = some ([2, 0, 1], [[.num (.fin (4/9)), .num (.fin (4/9))]]) ∧
    (exSocialRun (fun i j => i + j) 9).map Prod.fst = some [1, 0, 2] ∧ (exSocialRun (fun _ j => j + 1) 2).map Prod.fst = some [2, 0, 1] := by
  decide +kernel

/-- The friends of the agents if everybody finds its own node, and if the first one starts with node 1. -/
example : (List.range 3).map ((starGraph 3).populateIgnoring (fun i j => i + j)).1.getNeighbors = [some [0, 1, 2], some [0], some [0]] ∧
    (List.range 3).map ((starGraph 3).populateIgnoring (fun _ j => j + 1)).1.getNeighbors = [some [0], some [0], some []] := by
  decide +kernel

end Verif
