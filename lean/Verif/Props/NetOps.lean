import Verif.Model.NetOps
import Verif.Props.Neighbors

/-!
# Subgraphs, attributes of edges, adding many agents (C192-C195)
-/

namespace Verif

private theorem mapM_members {α β : Type} (f : α → Option β) (l : List α) (h : ∀ x ∈ l, (f x).isSome = true) :
    ∃ ys, l.mapM f = some ys ∧ ∀ y, y ∈ ys ↔ ∃ x ∈ l, f x = some y := by
  induction l with
  | nil => exact ⟨[], rfl, by simp⟩
  | cons a l ih =>
    obtain ⟨ys, h1, h2⟩ := ih (fun x hx => h x (by simp [hx]))
    obtain ⟨b, hb⟩ := Option.isSome_iff_exists.1 (h a (by simp))
    refine ⟨b :: ys, by simp [List.mapM_cons, hb, h1], ?_⟩
    intro y
    simp only [List.mem_cons, h2, exists_eq_or_imp, hb, Option.some.injEq]
    constructor
    · rintro (rfl | h); exacts [Or.inl rfl, Or.inr h]
    · rintro (rfl | h); exacts [Or.inl rfl, Or.inr h]

private theorem mapM_none {α β : Type} (f : α → Option β) (l : List α) (x : α) (hx : x ∈ l) (h : f x = none) : l.mapM f = none := by
  induction l with
  | nil => cases hx
  | cons a l ih =>
    rw [List.mapM_cons]
    rcases List.mem_cons.1 hx with rfl | hx
    · rw [h]; rfl
    · cases f a with
      | none => rfl
      | some b => rw [ih hx]; rfl

private theorem mapM_length' {α β : Type} {f : α → Option β} {l : List α} {ys : List β} (h : l.mapM f = some ys) : l.length = ys.length := by
  induction l generalizing ys with
  | nil => cases h; rfl
  | cons a l ih =>
    rw [List.mapM_cons] at h
    cases ha : f a with
    | none => rw [ha] at h; cases h
    | some b =>
      rw [ha] at h
      cases hl : l.mapM f with
      | none => rw [hl] at h; cases h
      | some zs => rw [hl] at h; cases h; simp [ih hl]

private theorem mapM_mem' {α β : Type} {f : α → Option β} {l : List α} {ys : List β} (h : l.mapM f = some ys) (y : β) (hy : y ∈ ys) :
    ∃ x ∈ l, f x = some y := by
  have hall : ∀ x ∈ l, (f x).isSome = true := by
    intro x hx
    cases hf : f x with
    | some _ => rfl
    | none => rw [mapM_none f l x hx hf] at h; cases h
  obtain ⟨zs, h1, h2⟩ := mapM_members f l hall
  rw [h] at h1
  cases h1
  exact (h2 y).1 hy

/-! ### C192 -/

/-- C192, what holds: if the agents that satisfy the criteria are network agents in the network, the subgraph of an agent in the
network has the nodes of these agents and (with `center`) its own, in the order of the network, and the edges between them.
Missing: agents that are not on the network, see below. -/
theorem C192_subgraph_partial (w : NWorld) (hI : NInv w) (hL : w.Linked) (r : Nat) (center : Bool) (sel : Nat → Bool)
    (hnet : ∀ s, (s ∈ w.sched ∧ sel s = true) ∨ s = r → ∃ b, w.agents[s]? = some b ∧ b.net = true ∧ b.alive = true) :
    ∃ N E, w.subgraph r center false sel = some (N, E) ∧ N.Sublist (Dict.keys w.nodes) ∧
      (∀ n, n ∈ N ↔ ∃ s : Nat, Dict.get? w.nodes n = some (some (some s)) ∧ ((s ∈ w.sched ∧ sel s = true) ∨ (center = true ∧ s = r))) ∧
      E.Sublist w.edges ∧ ∀ x y, (x, y) ∈ E ↔ (x, y) ∈ w.edges ∧ x ∈ N ∧ y ∈ N := by
  have hmem : ∀ s, s ∈ w.sched.filter sel ++ (if center = true then [r] else []) ↔ (s ∈ w.sched ∧ sel s = true) ∨ (center = true ∧ s = r) := by
    intro s
    cases center <;> simp
  obtain ⟨ids, h1, h2⟩ := mapM_members (fun s => (w.agents[s]?).bind NAgent.nodeAttr) (w.sched.filter sel ++ (if center = true then [r] else [])) (by
    intro s hs
    obtain ⟨b, hb, hn, _⟩ := hnet s (((hmem s).1 hs).imp id (fun h => h.2))
    simp [hb, NAgent.nodeAttr, hn])
  unfold NWorld.subgraph
  simp only [NWorld.selected, Bool.false_eq_true, if_false, h1]
  refine ⟨_, _, rfl, List.filter_sublist, ?_, List.filter_sublist, ?_⟩
  · intro n
    simp only [List.mem_filter, decide_eq_true_eq, h2]
    constructor
    · rintro ⟨hk, s, hs, he⟩
      have hs' := (hmem s).1 hs
      obtain ⟨b, hb, hn, ha⟩ := hnet s (hs'.imp id (fun h => h.2))
      refine ⟨s, ?_, hs'⟩
      obtain ⟨m, hm, hg⟩ := hL s b hb hn ha
      have : b.node = some n := by
        simpa [hb, NAgent.nodeAttr, hn] using he
      rw [hm] at this
      cases this
      exact hg
    · rintro ⟨s, hg, hs⟩
      refine ⟨(Dict.mem_keys w.nodes n).2 (by simp [hg]), s, (hmem s).2 hs, ?_⟩
      obtain ⟨b, hb, hn⟩ := hI.onNode n s hg
      simp only [hb, Option.bind_some, NAgent.nodeAttr, hn]
      cases b.net <;> rfl
  · intro x y
    simp [List.mem_filter]

/-- C192 with `limit_neighbors`: the nodes are those of the living neighbours that satisfy the criteria, and (with `center`) its own,
whatever other agents there are. -/
theorem C192_neighbors (w : NWorld) (hI : NInv w) (hu : w.UniqueIds) (r : Nat) (a : NAgent) (n0 : NId) (center : Bool) (sel : Nat → Bool)
    (ha : w.agents[r]? = some a) (hn0 : a.node = some n0) (hh : Dict.has w.nodes n0 = true) :
    ∃ N E, w.subgraph r center true sel = some (N, E) ∧ N.Sublist (Dict.keys w.nodes) ∧
      (∀ n, n ∈ N ↔ (w.adjacent n0 n = true ∧ ∃ s : Nat, s ∈ w.sched ∧ sel s = true ∧ Dict.get? w.nodes n = some (some (some s))) ∨
        (center = true ∧ n = n0)) ∧
      E.Sublist w.edges ∧ ∀ x y, (x, y) ∈ E ↔ (x, y) ∈ w.edges ∧ x ∈ N ∧ y ∈ N := by
  obtain ⟨l, hl, _, _, hlm⟩ := C43_neighbors w hI hu r a n0 ha hn0 hh
  have hattr : ∀ (b : NAgent) n, b.node = some n → b.nodeAttr = some (some n) := by
    intro b n hb
    simp only [NAgent.nodeAttr, hb]
    cases b.net <;> rfl
  have hmem : ∀ s, s ∈ l.filter sel ++ (if center = true then [r] else []) ↔ (s ∈ l ∧ sel s = true) ∨ (center = true ∧ s = r) := by
    intro s
    cases center <;> simp
  have hnode : ∀ s, s ∈ l → ∃ m b, w.adjacent n0 m = true ∧ Dict.get? w.nodes m = some (some (some s)) ∧ w.agents[s]? = some b ∧ b.node = some m := by
    intro s hs
    obtain ⟨_, m, h1, h2⟩ := (hlm s).1 hs
    obtain ⟨b, hb, hn⟩ := hI.onNode m s h2
    exact ⟨m, b, h1, h2, hb, hn⟩
  obtain ⟨ids, h1, h2⟩ := mapM_members (fun s => (w.agents[s]?).bind NAgent.nodeAttr) (l.filter sel ++ (if center = true then [r] else [])) (by
    intro s hs
    rcases (hmem s).1 hs with h | h
    · obtain ⟨m, b, _, _, hb, hn⟩ := hnode s h.1
      simp [hb, hattr b m hn]
    · rw [h.2]
      simp [ha, hattr a n0 hn0])
  unfold NWorld.subgraph
  simp only [NWorld.selected, if_true, hl, Option.map_some, h1]
  refine ⟨_, _, rfl, List.filter_sublist, ?_, List.filter_sublist, ?_⟩
  · intro n
    simp only [List.mem_filter, decide_eq_true_eq, h2]
    constructor
    · rintro ⟨hk, s, hs, he⟩
      rcases (hmem s).1 hs with h | h
      · obtain ⟨m, b, hadj, hg, hb, hn⟩ := hnode s h.1
        simp only [hb, Option.bind_some, hattr b m hn, Option.some.injEq] at he
        subst he
        exact Or.inl ⟨hadj, s, ((hlm s).1 h.1).1, h.2, hg⟩
      · obtain ⟨hc, rfl⟩ := h
        simp only [ha, Option.bind_some, hattr a n0 hn0, Option.some.injEq] at he
        exact Or.inr ⟨hc, he.symm⟩
    · rintro (⟨hadj, s, hs, hsel, hg⟩ | ⟨hc, rfl⟩)
      · refine ⟨(Dict.mem_keys w.nodes n).2 (by simp [hg]), s, (hmem s).2 (Or.inl ⟨(hlm s).2 ⟨hs, n, hadj, hg⟩, hsel⟩), ?_⟩
        obtain ⟨b, hb, hn⟩ := hI.onNode n s hg
        simp [hb, hattr b n hn]
      · exact ⟨(Dict.mem_keys w.nodes n).2 hh, r, (hmem r).2 (Or.inr ⟨hc, rfl⟩), by simp [ha, hattr a n hn0]⟩
  · intro x y
    simp [List.mem_filter]

/-- C192 is violated: one agent without a node that satisfies the criteria is enough to make `subgraph` raise, for every agent. -/
theorem C192_others_false (w : NWorld) (r s : Nat) (center : Bool) (sel : Nat → Bool) (b : NAgent) (hs : s ∈ w.sched) (hsel : sel s = true)
    (hb : w.agents[s]? = some b) (hnet : b.net = false) (hnode : b.node = none) : w.subgraph r center false sel = none := by
  unfold NWorld.subgraph
  simp only [NWorld.selected, Bool.false_eq_true, if_false]
  rw [mapM_none _ _ s (by simp [hs, hsel]) (by simp [hb, NAgent.nodeAttr, hnet, hnode])]

/-- A network of three agents on a path, and an agent without a node. -/
def exNetOps : NWorld :=
  exGraph.run [.populate [true] none (fun _ => 0) (fun _ => .ok), .add false none none (fun _ => 0) .ok]

example : exNetOps.subgraph 0 true true (fun _ => true) = some ([.int 0, .int 1], [(.int 0, .int 1)]) ∧
    exNetOps.subgraph 0 false true (fun _ => true) = some ([.int 1], []) ∧
    exNetOps.subgraph 0 true false (fun s => decide (s ≠ 3)) = some ([.int 0, .int 1, .int 2], [(.int 0, .int 1), (.int 1, .int 2)]) ∧
    exNetOps.subgraph 0 true false (fun s => decide (s = 2)) = some ([.int 0, .int 2], []) ∧
    exNetOps.subgraph 0 true false (fun _ => true) = none := by decide +kernel

/-! ### C193 -/

private theorem addEdge_net {w : NWorld} {r s : Nat} {a b : NAgent} {n m : NId} (ha : w.agents[r]? = some a) (hb : w.agents[s]? = some b)
    (hn : a.node = some n) (hm : b.node = some m) (hok : (w.addEdge r s).2 = true) :
    (w.addEdge r s).1 = w ∧ w.adjacent n m = true ∨
    (w.addEdge r s).1 = { w with edges := w.edges ++ [(n, m)] } ∧ w.adjacent n m = false := by
  unfold NWorld.addEdge at hok ⊢
  simp only [ha, hb, hn, hm] at hok ⊢
  by_cases h1 : Dict.has w.nodes n = true
  · by_cases h2 : Dict.has w.nodes m = true
    · simp only [h1, h2, if_true] at hok ⊢
      by_cases h3 : w.adjacent n m = true
      · left; simp [h3]
      · right; simp [h3]
    · simp [h1, h2] at hok
  · simp [h1] at hok

/-- The edge added: `add_edge` succeeded between agents on `n` and `m`. -/
private theorem EWorld.addEdge_spec {V : Type} (e : EWorld V) (r s : Nat) (d : Option (Dict String V)) (extra : List V) (a b : NAgent)
    (n m : NId) (ha : e.net.agents[r]? = some a) (hb : e.net.agents[s]? = some b) (hn : a.node = some n) (hm : b.node = some m)
    (hok : (e.addEdge r s d extra).2 = true) :
    extra = [] ∧ (e.net.addEdge r s).2 = true ∧ (e.addEdge r s d extra).1.net = (e.net.addEdge r s).1 ∧
    (e.addEdge r s d extra).1.attrs = fun p => if p = (e.net.addEdge r s).1.edgeKey n m then Dict.set (e.attrs p) "edge_attr_dict" (.dict d) else e.attrs p := by
  unfold EWorld.addEdge at hok ⊢
  rcases h : e.net.addEdge r s with ⟨w, ok⟩
  rw [h] at hok
  cases ok with
  | false => simp at hok
  | true =>
    simp only at hok ⊢
    by_cases hx : extra = []
    · simp [hx, ha, hb, hn, hm]
    · simp [hx] at hok

/-- C193, what holds: `add_edge` with attributes, if it returns, makes the edge as without, and changes no attribute of other edges.
Missing: the attributes, see below. -/
theorem C193_other_edges_partial {V : Type} (e : EWorld V) (r s : Nat) (d : Option (Dict String V)) (extra : List V) (a b : NAgent)
    (n m : NId) (ha : e.net.agents[r]? = some a) (hb : e.net.agents[s]? = some b) (hn : a.node = some n) (hm : b.node = some m)
    (hok : (e.addEdge r s d extra).2 = true) :
    (e.addEdge r s d extra).1.net = (e.net.addEdge r s).1 ∧
    ∀ x y k, (x, y) ≠ (n, m) → (e.net.directed = false → (y, x) ≠ (n, m)) → (e.addEdge r s d extra).1.attr x y k = e.attr x y k := by
  obtain ⟨_, h2, h3, h4⟩ := e.addEdge_spec r s d extra a b n m ha hb hn hm hok
  refine ⟨h3, ?_⟩
  intro x y k hxy hyx
  unfold EWorld.attr
  rw [h3, h4]
  have hkey : (e.net.addEdge r s).1.edgeKey x y = e.net.edgeKey x y := by
    rcases addEdge_net ha hb hn hm h2 with ⟨h, _⟩ | ⟨h, _⟩
    · rw [h]
    · rw [h]
      unfold NWorld.edgeKey
      cases hd : e.net.directed with
      | true => simp
      | false =>
        have := hyx hd
        simp only [Bool.not_false, Bool.true_and, List.mem_append, List.mem_singleton, decide_eq_true_eq, this, or_false]
  rw [hkey]
  have hne : e.net.edgeKey x y ≠ (e.net.addEdge r s).1.edgeKey n m := by
    have hdir : (e.net.addEdge r s).1.directed = e.net.directed := by
      rcases addEdge_net ha hb hn hm h2 with ⟨h, _⟩ | ⟨h, _⟩ <;> rw [h]
    unfold NWorld.edgeKey
    rw [hdir]
    cases hd : e.net.directed with
    | true => simpa using hxy
    | false =>
      have := hyx hd
      simp only [Bool.not_false, Bool.true_and, decide_eq_true_eq]
      split <;> split
      · intro he; injection he with e1 e2; exact hxy (by rw [e1, e2])
      · exact this
      · intro he; injection he with e1 e2; exact this (by rw [e1, e2])
      · exact hxy
  simp only [if_neg hne]

/-- C193 is violated: whatever attributes are given, the edge has none of them; only `edge_attr_dict` is set, to the whole dictionary. -/
theorem C193_attributes_false {V : Type} (e : EWorld V) (r s : Nat) (d : Option (Dict String V)) (extra : List V) (a b : NAgent)
    (n m : NId) (ha : e.net.agents[r]? = some a) (hb : e.net.agents[s]? = some b) (hn : a.node = some n) (hm : b.node = some m)
    (hok : (e.addEdge r s d extra).2 = true) :
    (∀ k, k ≠ "edge_attr_dict" → (e.addEdge r s d extra).1.attr n m k = e.attr n m k) ∧
    (e.addEdge r s d extra).1.attr n m "edge_attr_dict" = some (.dict d) := by
  obtain ⟨_, h2, h3, h4⟩ := e.addEdge_spec r s d extra a b n m ha hb hn hm hok
  have hkey : (e.net.addEdge r s).1.edgeKey n m = e.net.edgeKey n m := by
    rcases addEdge_net ha hb hn hm h2 with ⟨h, _⟩ | ⟨h, hadj⟩
    · rw [h]
    · rw [h]
      unfold NWorld.edgeKey
      cases hd : e.net.directed with
      | true => simp
      | false =>
        have h5 : (m, n) ∉ e.net.edges := by
          intro hc
          simp [NWorld.adjacent, hd, hc] at hadj
        simp only [Bool.not_false, Bool.true_and, List.mem_append, List.mem_singleton, h5, false_or, decide_false,
          Bool.false_eq_true, if_false]
        split
        · next hc =>
          simp only [decide_eq_true_eq, Prod.mk.injEq] at hc
          rw [hc.1]
        · rfl
  unfold EWorld.attr
  rw [h3, h4, hkey]
  simp only [if_true]
  exact ⟨fun k hk => Dict.get?_set_ne _ _ hk.symm, Dict.get?_set_self _ _ _⟩

/-- C193 is violated: with further positional arguments the call always fails. -/
theorem C193_positional_false {V : Type} (e : EWorld V) (r s : Nat) (d : Option (Dict String V)) (x : V) (extra : List V) :
    e.addEdge r s d (x :: extra) = (e, false) := by
  unfold EWorld.addEdge
  rcases e.net.addEdge r s with ⟨w, ok⟩
  cases ok <;> simp

/-- A weighted edge between two agents of the path. -/
example : ((⟨exNetOps, fun _ => []⟩ : EWorld Nat).addEdge 0 2 (some [("weight", 5)]) []).2 = true ∧
    (((⟨exNetOps, fun _ => []⟩ : EWorld Nat).addEdge 0 2 (some [("weight", 5)]) []).1.attr (.int 0) (.int 2) "weight").isNone = true ∧
    (((⟨exNetOps, fun _ => []⟩ : EWorld Nat).addEdge 0 2 (some [("weight", 5)]) []).1.attr (.int 2) (.int 0) "edge_attr_dict").isSome = true := by
  decide +kernel

/-! ### C194 -/

private theorem addAgent_auto (w : NWorld) (c : Bool) (picks : Nat → Nat) :
    ∃ w1 n, w.addAgent c none none picks .ok = (w1, some w.agents.length, true) ∧ w1.agents = w.agents ++ [⟨w.nextId, c, n, true⟩] ∧
      w1.sched = w.sched ++ [w.agents.length] ∧ (c = false → w1.nodes = w.nodes) := by
  simp only [NWorld.addAgent, NWorld.baseAdd, NWorld.takeId, NWorld.construct]
  cases c with
  | false => exact ⟨_, _, rfl, rfl, rfl, fun _ => rfl⟩
  | true =>
    simp only [if_true, NWorld.chooseNode]
    cases firstFree w.nodes (candidates w.nodes picks) with
    | some n => exact ⟨_, _, rfl, rfl, rfl, by simp⟩
    | none =>
      refine ⟨_, some (.int w.nodes.length), rfl, ?_, ?_, by simp⟩
      · simp only [NWorld.addGraphNode]; split <;> rfl
      · simp only [NWorld.addGraphNode]; split <;> rfl

/-- C194, what holds: `add_agents` without `topology` schedules exactly `k` new agents, or one for each node if there is no `k`, after
those already there, each of one of the classes; agents that are not network agents do not touch the nodes.
Missing: `topology`, and that the agents take the nodes of the network, see below. -/
theorem C194_added_partial (w : NWorld) (classes : List Bool) (k : Option Nat) (weights : Option (List Rat)) (draws : Nat → Rat)
    (picks : Nat → Nat → Nat) (inits : Nat → InitRes) (hin : ∀ i, inits i = .ok) (hcl : classes ≠ [])
    (hk : k = none → w.nodes ≠ [])
    (hw : ∀ ws, weights = some ws → ws.length = classes.length ∧ (∀ x ∈ ws, 0 ≤ x) ∧ 0 < ws.sum) (hd : ∀ i, IsDraw (draws i)) :
    ∃ w', w.addAgents false classes k weights draws picks inits = (w', true) ∧
      w'.sched = w.sched ++ (List.range (k.getD w.nodes.length)).map (w.agents.length + ·) ∧
      w'.agents.length = w.agents.length + k.getD w.nodes.length ∧ w'.agents.take w.agents.length = w.agents ∧
      (∀ a ∈ w'.agents.drop w.agents.length, a.net ∈ classes ∧ a.alive = true) ∧
      ((∀ c ∈ classes, c = false) → w'.nodes = w.nodes) := by
  have hgood : (weights.getD (List.replicate classes.length 1)).length = classes.length ∧
      (∀ x ∈ weights.getD (List.replicate classes.length 1), 0 ≤ x) ∧ 0 < (weights.getD (List.replicate classes.length 1)).sum := by
    cases weights with
    | some ws => exact hw ws rfl
    | none =>
      have hpos : 0 < classes.length := List.length_pos_iff.2 hcl
      refine ⟨by simp, ?_, ?_⟩
      · intro x hx
        rw [Option.getD_none, List.mem_replicate] at hx
        rw [hx.2]; decide
      · simp only [Option.getD_none, List.sum_replicate, nsmul_eq_mul, mul_one]
        exact_mod_cast hpos
  obtain ⟨hlen, hw0, hwpos⟩ := hgood
  have hd' : ∀ r ∈ (List.range (k.getD w.nodes.length)).map draws, IsDraw r := by
    intro r hr
    simp only [List.mem_map] at hr
    obtain ⟨i, _, rfl⟩ := hr
    exact hd i
  obtain ⟨cs, hcs⟩ := Option.isSome_iff_exists.1 (choices_isSome classes _ _ hlen hw0 hwpos hd')
  have hcslen : cs.length = k.getD w.nodes.length := by
    have := hcs
    unfold choices at this
    split at this
    · cases this
    · have h := mapM_length' this
      simpa using h.symm
  have hcsmem : ∀ c ∈ cs, c ∈ classes := by
    unfold choices at hcs
    split at hcs
    · cases hcs
    · intro c hc
      obtain ⟨x, _, hx⟩ := mapM_mem' hcs c hc
      exact List.mem_of_getElem? hx
  have hcond : (k.isNone && w.nodes.isEmpty) = false := by
    cases k with
    | some _ => rfl
    | none =>
      have := hk rfl
      cases hn : w.nodes with
      | nil => exact absurd hn this
      | cons => rfl
  unfold NWorld.addAgents
  simp only [hcond, Bool.false_eq_true, if_false, hcs]
  rw [← hcslen]
  clear hcslen hcs hd' hcond hk hd
  induction cs generalizing w picks inits with
  | nil => exact ⟨w, rfl, by simp, by simp, by simp, by simp, fun _ => rfl⟩
  | cons c cs ih =>
    obtain ⟨w1, n, h1, h2, h3, h4⟩ := addAgent_auto w c (picks 0)
    obtain ⟨w', g1, g2, g3, g4, g5, g6⟩ := ih w1 (fun i => picks (i + 1)) (fun i => inits (i + 1)) (fun i => hin (i + 1))
      (fun c hc => hcsmem c (by simp [hc]))
    refine ⟨w', ?_, ?_, ?_, ?_, ?_, ?_⟩
    · rw [NWorld.addEach, hin 0, h1]
      simpa using g1
    · rw [g2, h3, h2]
      simp only [List.length_append, List.length_cons, List.length_nil, List.append_assoc, List.range_succ_eq_map, List.map_cons, List.map_map,
        Nat.add_zero, List.cons_append, List.nil_append, List.append_cancel_left_eq, List.cons.injEq, true_and]
      apply List.map_congr_left
      intro i _
      simp only [Function.comp]
      omega
    · rw [g3, h2]; simp; omega
    · have := congrArg (List.take w.agents.length) g4
      rw [h2] at this
      simpa [List.take_take] using this
    · intro a ha
      by_cases hx : a ∈ w'.agents.drop w1.agents.length
      · exact g5 a hx
      · have hsplit : w'.agents = w1.agents ++ w'.agents.drop w1.agents.length := by
          conv_lhs => rw [← List.take_append_drop w1.agents.length w'.agents, g4]
        rw [hsplit, h2, List.append_assoc, List.drop_left] at ha
        rcases List.mem_append.1 ha with ha | ha
        · simp only [List.mem_singleton] at ha
          subst ha
          exact ⟨hcsmem c (by simp), rfl⟩
        · rw [← h2] at ha
          exact absurd ha hx
    · intro hc
      rw [g6 hc, h4 (hc c (hcsmem c (by simp)))]

/-- `add_agents` on an empty network without `k` changes nothing and raises. -/
theorem C194_empty (w : NWorld) (topology : Bool) (classes : List Bool) (weights : Option (List Rat)) (draws : Nat → Rat)
    (picks : Nat → Nat → Nat) (inits : Nat → InitRes) (h : w.nodes = []) :
    w.addAgents topology classes none weights draws picks inits = (w, false) := by
  simp [NWorld.addAgents, h]

private theorem addAgent_raises (w : NWorld) (picks : Nat → Nat) :
    ∃ w1 n, w.addAgent true none none picks .raises = (w1, some w.agents.length, false) ∧ w1.agents = w.agents ++ [⟨w.nextId, true, some n, true⟩] ∧
      w1.sched = w.sched ∧ Dict.get? w1.nodes n = some (some (some w.agents.length)) := by
  simp only [NWorld.addAgent, NWorld.baseAdd, NWorld.takeId, NWorld.construct, if_true, NWorld.chooseNode]
  cases firstFree w.nodes (candidates w.nodes picks) with
  | some n => exact ⟨_, n, rfl, rfl, rfl, by simp⟩
  | none =>
    refine ⟨_, .int w.nodes.length, rfl, ?_, ?_, by simp⟩
    · simp only [NWorld.addGraphNode]; split <;> rfl
    · simp only [NWorld.addGraphNode]; split <;> rfl

/-- C194 is violated if the `init` of an agent raises: `add_agents` raises, the agents before it stay in the schedule, and the failed one, which is not
scheduled, stays on a node of the network. -/
theorem C194_raised_false (w : NWorld) (classes : List Bool) (hcl : ∀ c ∈ classes, c = true) (k : Nat) (weights : Option (List Rat)) (draws : Nat → Rat)
    (picks : Nat → Nat → Nat) (inits : Nat → InitRes) (j : Nat) (hj : j < k) (hin : ∀ i < j, inits i = .ok) (hr : inits j = .raises)
    (cs : List Bool) (hcs : choices classes (weights.getD (List.replicate classes.length 1)) ((List.range k).map draws) = some cs) :
    ∃ w' n, w.addAgents false classes (some k) weights draws picks inits = (w', false) ∧
      w'.sched = w.sched ++ (List.range j).map (w.agents.length + ·) ∧ w'.agents.length = w.agents.length + j + 1 ∧
      Dict.get? w'.nodes n = some (some (some (w.agents.length + j))) := by
  unfold NWorld.addAgents
  simp only [Option.isNone_some, Bool.false_and, Bool.false_eq_true, if_false, Option.getD_some, hcs]
  have hcslen : j < cs.length := by
    have := hcs
    unfold choices at this
    split at this
    · cases this
    · have h := mapM_length' this
      simp only [List.length_map, List.length_range] at h
      omega
  have hcsmem : ∀ c ∈ cs, c = true := by
    unfold choices at hcs
    split at hcs
    · cases hcs
    · intro c hc
      obtain ⟨x, _, hx⟩ := mapM_mem' hcs c hc
      exact hcl c (List.mem_of_getElem? hx)
  clear hcs hj
  induction cs generalizing w picks inits j with
  | nil => simp at hcslen
  | cons c cs ih =>
    obtain rfl := hcsmem c (by simp)
    cases j with
    | zero =>
      obtain ⟨w1, n, h1, h2, h3, h4⟩ := addAgent_raises w (picks 0)
      refine ⟨w1, n, ?_, by simpa using h3, by rw [h2]; simp, by simpa using h4⟩
      rw [NWorld.addEach, hr, h1]
    | succ j =>
      obtain ⟨w1, n, h1, h2, h3, h4⟩ := addAgent_auto w true (picks 0)
      obtain ⟨w', n', g1, g2, g3, g4⟩ := ih w1 (fun i => picks (i + 1)) (fun i => inits (i + 1)) j (fun i hi => hin (i + 1) (by omega)) hr
        (by simpa using hcslen) (fun c hc => hcsmem c (by simp [hc]))
      refine ⟨w', n', ?_, ?_, ?_, ?_⟩
      · rw [NWorld.addEach, hin 0 (by omega), h1]
        simpa using g1
      · rw [g2, h3, h2]
        simp only [List.length_append, List.length_cons, List.length_nil, List.append_assoc, List.range_succ_eq_map, List.map_cons, List.map_map,
          Nat.add_zero, List.cons_append, List.nil_append, List.append_cancel_left_eq, List.cons.injEq, true_and]
        apply List.map_congr_left
        intro i _
        simp only [Function.comp]
        omega
      · rw [g3, h2]; simp; omega
      · rw [g4, h2]
        simp only [List.length_append, List.length_cons, List.length_nil, Option.some.injEq]
        omega

/-- The second of three agents fails. -/
example : (exGraph.addAgents false [true] none none (fun _ => 0) (fun i _ => i) (fun i => if i = 1 then .raises else .ok)).2 = false ∧
    (exGraph.addAgents false [true] none none (fun _ => 0) (fun i _ => i) (fun i => if i = 1 then .raises else .ok)).1.sched = [0] ∧
    (exGraph.addAgents false [true] none none (fun _ => 0) (fun i _ => i) (fun i => if i = 1 then .raises else .ok)).1.nodes =
      [(.int 0, some (some 0)), (.int 1, some (some 1)), (.int 2, none)] := by
  decide +kernel

/-- C194 is violated: with a `topology`, `add_agents` raises (`KeyError: None`) after having added one agent. -/
theorem C194_topology_false (w : NWorld) (classes : List Bool) (k : Nat) (weights : Option (List Rat)) (draws : Nat → Rat)
    (picks : Nat → Nat → Nat) (inits : Nat → InitRes) (hin : inits 0 = .ok) (cs : List Bool)
    (hcs : choices classes (weights.getD (List.replicate classes.length 1)) ((List.range (k + 1)).map draws) = some cs) :
    (w.addAgents true classes (some (k + 1)) weights draws picks inits).2 = false ∧
    (w.addAgents true classes (some (k + 1)) weights draws picks inits).1.sched = w.sched ++ [w.agents.length] := by
  unfold NWorld.addAgents
  simp only [Option.isNone_some, Bool.false_and, Bool.false_eq_true, if_false, Option.getD_some, hcs]
  cases cs with
  | nil =>
    unfold choices at hcs
    split at hcs
    · cases hcs
    · have := mapM_length' hcs
      simp at this
  | cons c cs =>
    obtain ⟨w1, n, h1, h2, h3, _⟩ := addAgent_auto w c (picks 0)
    rw [NWorld.addEach, hin, h1]
    exact ⟨rfl, h3⟩

/-- C194 is violated: on a free network of three nodes `add_agents` with a network class may leave two nodes free and create two
others instead. -/
theorem C194_nodes_false :
    (exGraph.addAgents false [true] none none (fun _ => 0) (fun _ _ => 0) (fun _ => .ok)).2 = true ∧
    (exGraph.addAgents false [true] none none (fun _ => 0) (fun _ _ => 0) (fun _ => .ok)).1.nodes =
      [(.int 0, some (some 0)), (.int 1, none), (.int 2, none), (.int 3, some (some 1)), (.int 4, some (some 2))] := by
  decide +kernel

example : (exGraph.addAgents false [true, false] (some 4) (some [1, 3]) (fun i => if i = 1 then 0 else 1/2) (fun i _ => i) (fun _ => .ok)).1.sched =
    [0, 1, 2, 3] ∧
    (exGraph.addAgents false [true, false] (some 4) (some [1, 3]) (fun i => if i = 1 then 0 else 1/2) (fun i _ => i) (fun _ => .ok)).1.nodes =
      [(.int 0, none), (.int 1, some (some 1)), (.int 2, none)] := by
  decide +kernel

/-! ### C195 -/

private theorem firstFree_some {nodes : Dict NId (Option (Option Nat))} {l : List NId} {n : NId} (h : firstFree nodes l = some n) :
    ∃ x, Dict.get? nodes n = some x ∧ nodeFree x = true := by
  induction l with
  | nil => cases h
  | cons m l ih =>
    simp only [firstFree] at h
    cases hg : Dict.get? nodes m with
    | none => rw [hg] at h; exact ih h
    | some x =>
      rw [hg] at h
      simp only at h
      split at h
      · next hf => cases h; exact ⟨x, hg, hf⟩
      · exact ih h

/-- The constructor that chooses for itself: the node is a free one or a new one. -/
private theorem addIgnoring_spec (w : NWorld) (n : NId) (picks : Nat → Nat) (hB : w.IntBound) (hn : Dict.has w.nodes n = true) :
    ∃ w1 x, w.addIgnoring n picks = (w1, true) ∧ w1.agents = w.agents ++ [⟨w.nextId, true, some x, true⟩] ∧
      w1.sched = w.sched ++ [w.agents.length] ∧ w1.IntBound ∧ Dict.get? w1.nodes n = some (some (some w.agents.length)) ∧
      (∀ m, Dict.has w.nodes m = true → Dict.has w1.nodes m = true) ∧
      ∀ m (s : Nat), m ≠ n → Dict.get? w.nodes m = some (some (some s)) → Dict.get? w1.nodes m = some (some (some s)) := by
  have hset : ∀ (d : Dict NId (Option (Option Nat))) x v, Dict.has d x = true →
      (∀ k, Dict.has d (.int k) = true → k < d.length) → ∀ k, Dict.has (Dict.set d x v) (.int k) = true → k < (Dict.set d x v).length := by
    intro d x v hx hb k hk
    rw [Dict.length_set, if_pos hx]
    apply hb k
    rw [Dict.has_set] at hk
    rcases Bool.or_eq_true _ _ ▸ hk with hk | hk
    · have : x = .int k := by simpa using hk
      rw [← this]; exact hx
    · exact hk
  simp only [NWorld.addIgnoring, NWorld.baseAdd, NWorld.takeId, NWorld.construct, if_true, NWorld.chooseNode]
  cases hf : firstFree w.nodes (candidates w.nodes picks) with
  | some x =>
    obtain ⟨v, hv, hfree⟩ := firstFree_some hf
    have hhx : Dict.has w.nodes x = true := by simp [Dict.has, hv]
    have hhn : Dict.has (Dict.set w.nodes x (some (some w.agents.length))) n = true := by simp [Dict.has_set, hn]
    simp only [hhn, if_true]
    refine ⟨_, x, rfl, rfl, rfl, ?_, Dict.get?_set_self _ _ _, ?_, ?_⟩
    · exact hset _ n _ hhn (hset _ x _ hhx hB)
    · intro m hm
      simp [Dict.has_set, hm]
    · intro m s hmn hms
      have hmx : m ≠ x := by
        intro he
        rw [he, hv] at hms
        cases hms
        simp [nodeFree] at hfree
      rw [Dict.get?_set_ne _ _ (Ne.symm hmn), Dict.get?_set_ne _ _ (Ne.symm hmx), hms]
  | none =>
    have hnew : Dict.has w.nodes (.int w.nodes.length) = false := by
      cases h : Dict.has w.nodes (.int w.nodes.length) with
      | false => rfl
      | true => exact absurd (hB _ h) (lt_irrefl _)
    simp only [NWorld.addGraphNode, hnew, Bool.false_eq_true, if_false]
    have hh0 : Dict.has (Dict.set w.nodes (.int w.nodes.length) none) (.int w.nodes.length) = true := by simp [Dict.has_set]
    have hhn : Dict.has (Dict.set (Dict.set w.nodes (.int w.nodes.length) none) (.int w.nodes.length) (some (some w.agents.length))) n = true := by
      simp [Dict.has_set, hn]
    simp only [hhn, if_true]
    refine ⟨_, .int w.nodes.length, rfl, rfl, rfl, ?_, Dict.get?_set_self _ _ _, ?_, ?_⟩
    · refine hset _ n _ hhn (hset _ _ _ hh0 ?_)
      intro k hk
      rw [Dict.length_set, hnew]
      rw [Dict.has_set] at hk
      rcases Bool.or_eq_true _ _ ▸ hk with hk | hk
      · have : w.nodes.length = k := by simpa using hk
        simp [this]
      · have := hB k hk
        simp; omega
    · intro m hm
      simp [Dict.has_set, hm]
    · intro m s hmn hms
      have hmx : m ≠ .int w.nodes.length := by
        intro he
        rw [he] at hms
        simp [Dict.has, hms] at hnew
      rw [Dict.get?_set_ne _ _ (Ne.symm hmn), Dict.get?_set_ne _ _ (Ne.symm hmx), Dict.get?_set_ne _ _ (Ne.symm hmx), hms]

private theorem reserve_free (nodes : Dict NId (Option (Option Nat))) (h : ∀ x ∈ nodes, x.2 = none) :
    reserve (List.replicate nodes.length true) nodes = (nodes.map (fun x => (x.1, some none)), nodes.map (fun x => (x.1, true))) := by
  induction nodes with
  | nil => rfl
  | cons x nodes ih =>
    obtain ⟨n, a⟩ := x
    have ha : a = none := h (n, a) (by simp)
    subst ha
    rw [List.length_cons, List.replicate_succ, reserve, ih (fun y hy => h y (by simp [hy]))]
    rfl

/-- C195, what holds for classes that do not pass on their node, on a free network whose integer nodes are smaller than its size:
`populate_network` returns, there is one agent for each node, in order, and the attribute of the `i`-th node is the `i`-th agent. Missing:
the agent's idea of where it is, see below. -/
theorem C195_nodes_partial (w : NWorld) (picks : Nat → Nat → Nat) (hne : w.nodes ≠ []) (hwf : Dict.WF w.nodes) (hB : w.IntBound)
    (hfree : ∀ x ∈ w.nodes, x.2 = none) :
    ∃ w', w.populateIgnoring picks = (w', true) ∧
      w'.sched = w.sched ++ (List.range w.nodes.length).map (w.agents.length + ·) ∧
      ∀ (i : Nat) n, (Dict.keys w.nodes)[i]? = some n → Dict.get? w'.nodes n = some (some (some (w.agents.length + i))) := by
  have key : ∀ (ns : List NId) (w : NWorld) (picks : Nat → Nat → Nat), ns.Nodup → w.IntBound → (∀ n ∈ ns, Dict.has w.nodes n = true) →
      ∃ w', w.addAllIgnoring ns picks = (w', true) ∧
        w'.sched = w.sched ++ (List.range ns.length).map (w.agents.length + ·) ∧
        (∀ (i : Nat) n, ns[i]? = some n → Dict.get? w'.nodes n = some (some (some (w.agents.length + i)))) ∧
        ∀ m (s : Nat), m ∉ ns → Dict.get? w.nodes m = some (some (some s)) → Dict.get? w'.nodes m = some (some (some s)) := by
    intro ns
    induction ns with
    | nil => intro w picks _ _ _; exact ⟨w, rfl, by simp, by simp, fun _ _ _ h => h⟩
    | cons n ns ih =>
      intro w picks hnd hB hhas
      obtain ⟨w1, x, h1, h2, h3, h4, h5, h6, h7⟩ := addIgnoring_spec w n (picks 0) hB (hhas n (by simp))
      obtain ⟨w', g1, g2, g3, g4⟩ := ih w1 (fun i => picks (i + 1)) (List.nodup_cons.1 hnd).2 h4 (fun m hm => h6 m (hhas m (by simp [hm])))
      refine ⟨w', ?_, ?_, ?_, ?_⟩
      · rw [NWorld.addAllIgnoring, h1]; exact g1
      · rw [g2, h3, h2]
        simp only [List.length_append, List.length_cons, List.length_nil, List.append_assoc, List.range_succ_eq_map, List.map_cons, List.map_map,
          Nat.add_zero, List.cons_append, List.nil_append, List.append_cancel_left_eq, List.cons.injEq, true_and]
        apply List.map_congr_left
        intro i _
        simp only [Function.comp]
        omega
      · intro i m hm
        cases i with
        | zero =>
          simp only [List.getElem?_cons_zero, Option.some.injEq] at hm
          subst hm
          exact g4 _ _ (List.nodup_cons.1 hnd).1 h5
        | succ i =>
          rw [List.getElem?_cons_succ] at hm
          rw [g3 i m hm, h2]
          simp only [List.length_append, List.length_cons, List.length_nil]
          congr 3; omega
      · intro m s hm hs
        simp only [List.mem_cons, not_or] at hm
        exact g4 m s hm.2 (h7 m s hm.1 hs)
  unfold NWorld.populateIgnoring
  rw [if_neg hne, reserve_free _ hfree]
  have hkeys : Dict.keys (w.nodes.map (fun x => (x.1, (some none : Option (Option Nat))))) = Dict.keys w.nodes := by
    simp [Dict.keys]
  have hk2 : (w.nodes.map (fun x => (x.1, true))).map Prod.fst = Dict.keys w.nodes := by
    simp [Dict.keys]
  have hhas : ∀ n, Dict.has (w.nodes.map (fun x => (x.1, (some none : Option (Option Nat))))) n = Dict.has w.nodes n := by
    intro n
    have h1 := Dict.mem_keys (w.nodes.map (fun x => (x.1, (some none : Option (Option Nat))))) n
    have h2 := Dict.mem_keys w.nodes n
    rw [hkeys] at h1
    have := h1.symm.trans h2
    simp only [Dict.has]
    exact Bool.eq_iff_iff.2 this
  simp only [hk2]
  obtain ⟨w', g1, g2, g3, _⟩ := key (Dict.keys w.nodes) { w with nodes := w.nodes.map (fun x => (x.1, some none)) } picks hwf
    (by intro k hk; rw [hhas] at hk; simpa using hB k hk)
    (by intro n hn; rw [hhas]; exact (Dict.mem_keys _ _).1 hn)
  refine ⟨w', g1, ?_, g3⟩
  rw [g2]
  simp [Dict.keys]

/-- C195: on an empty network, `populate_network` raises and changes nothing. -/
theorem C195_empty (w : NWorld) (picks : Nat → Nat → Nat) (h : w.nodes = []) : w.populateIgnoring picks = (w, false) := by
  simp [NWorld.populateIgnoring, h]

/-- C195 is violated (the agents of the social wealth example): the agents are put on the nodes 0, 1 and 2, but take themselves
to be on 1, 2 and a node 3 that did not exist; so the neighbours of the first one are itself and the third one. -/
theorem C195_elsewhere_false :
    (exGraph.populateIgnoring (fun i j => if i = 2 then 0 else 1 + j)).2 = true ∧
    (exGraph.populateIgnoring (fun i j => if i = 2 then 0 else 1 + j)).1.nodes.take 3 =
      [(.int 0, some (some 0)), (.int 1, some (some 1)), (.int 2, some (some 2))] ∧
    (exGraph.populateIgnoring (fun i j => if i = 2 then 0 else 1 + j)).1.agents.map NAgent.node = [some (.int 1), some (.int 2), some (.int 3)] ∧
    (exGraph.populateIgnoring (fun i j => if i = 2 then 0 else 1 + j)).1.getNeighbors 0 = some [0, 2] := by
  decide +kernel

end Verif
