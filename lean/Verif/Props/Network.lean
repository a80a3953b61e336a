import Verif.Proofs.Network
import Mathlib.Data.List.Perm.Basic

/-!
# Properties C39–C45: agents and networks
-/

namespace Verif

/-- Graphs as networkx makes them: distinct nodes, edges between nodes, no agents yet. -/
structure FreshGraph (nodes : Dict NId (Option (Option Nat))) (edges : List (NId × NId)) : Prop where
  distinct : (nodes.map Prod.fst).Nodup
  edges : ∀ e ∈ edges, e.1 ∈ nodes.map Prod.fst ∧ e.2 ∈ nodes.map Prod.fst
  empty : ∀ x ∈ nodes, ∀ r : Nat, x.2 ≠ some (some r)

theorem FreshGraph.inv {nodes : Dict NId (Option (Option Nat))} {edges : List (NId × NId)} (h : FreshGraph nodes edges)
    (directed : Bool) : NInv (NWorld.start nodes edges directed) := by
  refine NInv.start nodes edges directed h.distinct ?_ ?_
  · intro e he
    have := h.edges e he
    exact ⟨(Dict.mem_keys nodes e.1).1 this.1, (Dict.mem_keys nodes e.2).1 this.2⟩
  · intro n r hn
    exact h.empty _ (Dict.get?_mem hn) r rfl

/-- A concrete fresh graph: a path of three nodes. -/
def exGraph : NWorld := NWorld.start [(.int 0, none), (.int 1, none), (.int 2, none)] [(.int 0, .int 1), (.int 1, .int 2)] false

/-! ### C39 -/

theorem linked_start (nodes : Dict NId (Option (Option Nat))) (edges : List (NId × NId)) (directed : Bool) :
    (NWorld.start nodes edges directed).Linked := by
  intro r a h; simp [NWorld.start] at h

/-- C39, for histories in which nobody is displaced: an agent is put explicitly only on nodes without a living network
agent, and where `len(G)` is used as a new node there is no such node with a living agent. Everything else is arbitrary:
graph, deaths, failing constructors, random choices. Missing: see `C39_displaced_false`. -/
theorem C39_linked_partial (nodes : Dict NId (Option (Option Nat))) (edges : List (NId × NId)) (directed : Bool)
    (h : FreshGraph nodes edges) (ops : List NOp) (hs : (NWorld.start nodes edges directed).All (fun w op => op.Safe w) ops)
    (r : Nat) (a : NAgent) (hr : ((NWorld.start nodes edges directed).run ops).agents[r]? = some a)
    (hnet : a.net = true) (hal : a.alive = true) :
    ∃ n, a.node = some n ∧ Dict.get? ((NWorld.start nodes edges directed).run ops).nodes n = some (some (some r)) := by
  have hI := h.inv directed
  have hst := NWorld.run_steps ⟨true, false, 0⟩ _ ops hI (Nat.zero_le _)
    (NWorld.All.imp (fun w op hop => ⟨fun _ => hop, by simp⟩) hs)
  exact NSteps.linked rfl hst hI (linked_start nodes edges directed) r a hr hnet hal

/-- The part of C39 that depends on the caller: explicit nodes are free of living network agents. -/
def NOp.ExplicitVacant (w : NWorld) : NOp → Prop
  | .add _ _ (some n) _ _ => w.Vacant n
  | _ => True

/-- C39, without conditions on random choices: as long as no node is ever removed (agents die with `remove=False`) and the
integer nodes are below the size of the graph (as networkx generators make them, and `add_node` is not used to
add others), the links hold whatever the additions, deaths and random choices. -/
theorem C39_growing_partial (nodes : Dict NId (Option (Option Nat))) (edges : List (NId × NId)) (directed : Bool)
    (h : FreshGraph nodes edges) (hint : ∀ k v, (NId.int k, v) ∈ nodes → k < nodes.length) (ops : List NOp)
    (hs : (NWorld.start nodes edges directed).All (fun w op => op.Grow w ∧ op.ExplicitVacant w) ops)
    (r : Nat) (a : NAgent) (hr : ((NWorld.start nodes edges directed).run ops).agents[r]? = some a)
    (hnet : a.net = true) (hal : a.alive = true) :
    ∃ n, a.node = some n ∧ Dict.get? ((NWorld.start nodes edges directed).run ops).nodes n = some (some (some r)) := by
  refine C39_linked_partial nodes edges directed h ops ?_ r a hr hnet hal
  have hI := h.inv directed
  have hB : (NWorld.start nodes edges directed).IntBound := by
    intro k hk
    obtain ⟨v, hv⟩ := (Dict.has_iff _ _).1 hk
    exact hint k v (Dict.get?_mem hv)
  clear hr
  revert hI hB hs
  generalize NWorld.start nodes edges directed = w
  intro hs hI hB
  induction ops generalizing w with
  | nil => trivial
  | cons op ops ih =>
    obtain ⟨⟨hg, hv⟩, hrest⟩ := hs
    have hsafe : op.Safe w := by
      cases op with
      | add net uid node picks init =>
        cases node with
        | some n => exact hv
        | none =>
          intro _ _
          refine vacant_of_absent ?_
          cases hh : Dict.has w.nodes (.int w.nodes.length) with
          | false => rfl
          | true => exact absurd (hB _ hh) (by omega)
      | addNode | populate | die | addEdge => trivial
    have hst := op.steps ⟨true, true, 0⟩ w hI (Nat.zero_le _) (fun _ => hsafe) (fun _ => hg)
    exact ⟨hsafe, ih _ hrest (NSteps.inv hst hI) (NSteps.intBound rfl hst hB)⟩

/-- Consequence of the links: two living network agents are never on the same node. -/
theorem C39_no_sharing (w : NWorld) (h : w.Linked) (r s : Nat) (a b : NAgent) (hr : w.agents[r]? = some a)
    (hs : w.agents[s]? = some b) (ha : a.net = true ∧ a.alive = true) (hb : b.net = true ∧ b.alive = true)
    (hsame : a.node = b.node) : r = s := by
  obtain ⟨n, h1, h2⟩ := h r a hr ha.1 ha.2
  obtain ⟨m, h3, h4⟩ := h s b hs hb.1 hb.2
  rw [hsame, h3] at h1
  cases h1
  rw [h2] at h4
  simpa using h4

theorem firstFree_none {nodes : Dict NId (Option (Option Nat))} {l : List NId}
    (h : ∀ n ∈ l, ∀ x, Dict.get? nodes n = some x → nodeFree x = false) : firstFree nodes l = none := by
  induction l with
  | nil => rfl
  | cons m l ih =>
    have ih' := ih (fun n hn => h n (by simp [hn]))
    simp only [firstFree]
    cases hg : Dict.get? nodes m with
    | none => exact ih'
    | some x => simp only [h m (by simp) x hg, Bool.false_eq_true, if_false]; exact ih'

private theorem mem_candidates {nodes : Dict NId (Option (Option Nat))} {picks : Nat → Nat} {Q : NId → Prop} :
    (∀ n ∈ candidates nodes picks, Q n) ↔ ∀ i < nodes.length, ∀ n, (Dict.keys nodes)[picks i % nodes.length]? = some n → Q n := by
  constructor
  · intro h i hi n hn
    exact h n (List.mem_filterMap.2 ⟨i, List.mem_range.2 hi, hn⟩)
  · intro h n hn
    obtain ⟨i, hi, e⟩ := List.mem_filterMap.1 hn
    exact h i (List.mem_range.1 hi) n e

/-- C39 is violated: if there is a living agent on node `len(G)` (after deaths, or with such node names from the start)
and the random candidates are all taken, the new agent takes the node from it: two living agents share a node. -/
theorem C39_displaced_false (w : NWorld) (picks : Nat → Nat) (uid : Nat) (r : Nat) (a : NAgent)
    (ha : w.agents[r]? = some a) (hnode : a.node = some (.int w.nodes.length))
    (hon : Dict.get? w.nodes (.int w.nodes.length) = some (some (some r)))
    (hfull : ∀ i < w.nodes.length, ∀ n, (Dict.keys w.nodes)[picks i % w.nodes.length]? = some n →
      ∀ x, Dict.get? w.nodes n = some x → nodeFree x = false) :
    let w' := (w.addAgent true (some uid) none picks .ok).1
    w'.agents[r]? = some a ∧
    w'.agents[w.agents.length]? = some ⟨uid, true, some (.int w.nodes.length), true⟩ ∧
    Dict.get? w'.nodes (.int w.nodes.length) = some (some (some w.agents.length)) := by
  have hff := firstFree_none (mem_candidates.2 hfull)
  have hh : Dict.has w.nodes (.int w.nodes.length) = true := by simp [Dict.has, hon]
  simp only [NWorld.addAgent, NWorld.baseAdd, NWorld.takeId, NWorld.construct, if_true, NWorld.chooseNode, hff,
    NWorld.addGraphNode, hh]
  refine ⟨get?_append_lt ha, by simp, by simp⟩

/-- The steps: three agents on a path of three nodes, the first dies, another agent is added. -/
def exCollision : List NOp :=
  [.populate [true] none (fun _ => 0) (fun _ => .ok), .die 0 true, .add true none none (fun _ => 0) .ok]

example : (exGraph.run exCollision).agents =
      [⟨0, true, none, false⟩, ⟨1, true, some (.int 1), true⟩, ⟨2, true, some (.int 2), true⟩,
       ⟨3, true, some (.int 2), true⟩] ∧
    (exGraph.run exCollision).nodes = [(.int 1, some (some 1)), (.int 2, some (some 3))] := by
  decide +kernel

/-- When the displaced agent dies, the node of the other one disappears. -/
example : (exGraph.run (exCollision ++ [.die 2 true])).nodes = [(.int 1, some (some 1))] := by
  decide +kernel

/-- Histories as in `C39_growing_partial` with additions beyond the graph and deaths. -/
example : (exGraph.run [.populate [true] none (fun _ => 0) (fun _ => .ok), .die 0 false,
      .add true none none (fun _ => 0) .ok, .add true none none (fun _ => 1) .ok]).nodes =
    [(.int 0, some (some 0)), (.int 1, some (some 1)), (.int 2, some (some 2)), (.int 3, some (some 3)),
     (.int 4, some (some 4))] := by
  decide +kernel

/-! ### C40 -/

/-- C40, what holds: the node of an agent without `node_id` is a free node, or it is named `len(G)`; it is a free one
if one of the random candidates is free. -/
theorem C40_choice_partial (w : NWorld) (picks : Nat → Nat) (uid : Nat) :
    (∃ n x, Dict.get? w.nodes n = some x ∧ nodeFree x = true ∧
      (w.addAgent true (some uid) none picks .ok).1.agents = w.agents ++ [⟨uid, true, some n, true⟩] ∧
      Dict.keys (w.addAgent true (some uid) none picks .ok).1.nodes = Dict.keys w.nodes) ∨
    ((∀ i < w.nodes.length, ∀ n, (Dict.keys w.nodes)[picks i % w.nodes.length]? = some n →
        ∀ x, Dict.get? w.nodes n = some x → nodeFree x = false) ∧
      (w.addAgent true (some uid) none picks .ok).1.agents =
        w.agents ++ [⟨uid, true, some (.int w.nodes.length), true⟩]) := by
  cases hf : firstFree w.nodes (candidates w.nodes picks) with
  | some n =>
    left
    obtain ⟨_, x, hx, hx2⟩ := firstFree_spec w _ _ hf
    refine ⟨n, x, hx, hx2, ?_, ?_⟩
    · simp [NWorld.addAgent, NWorld.baseAdd, NWorld.takeId, NWorld.construct, NWorld.chooseNode, hf]
    · simp only [NWorld.addAgent, NWorld.baseAdd, NWorld.takeId, NWorld.construct, NWorld.chooseNode, hf, if_true]
      rw [Dict.keys_set, if_pos ((Dict.mem_keys _ _).2 (by rw [hx]; rfl))]
  | none =>
    right
    refine ⟨mem_candidates.1 ?_, ?_⟩
    · generalize candidates w.nodes picks = l at hf
      induction l with
      | nil => simp
      | cons m l ih =>
        simp only [firstFree] at hf
        intro n hn x hx
        cases hg : Dict.get? w.nodes m with
        | none =>
          rw [hg] at hf
          rcases List.mem_cons.1 hn with rfl | hn
          · rw [hg] at hx; cases hx
          · exact ih hf n hn x hx
        | some y =>
          rw [hg] at hf
          simp only at hf
          split at hf
          · cases hf
          · rename_i hny
            rcases List.mem_cons.1 hn with rfl | hn
            · rw [hg] at hx; cases hx; simpa using hny
            · exact ih hf n hn x hx
    · have : (w.addGraphNode (.int w.nodes.length)).agents = w.agents := by
        unfold NWorld.addGraphNode; split <;> rfl
      simp [NWorld.addAgent, NWorld.baseAdd, NWorld.takeId, NWorld.construct, NWorld.chooseNode, hf, this]

/-- C40, what holds: if there is no free node and `len(G)` is not a node yet, a fresh node is made and nothing is displaced. -/
theorem C40_full_partial (w : NWorld) (picks : Nat → Nat) (uid : Nat)
    (hfull : ∀ n x, Dict.get? w.nodes n = some x → nodeFree x = false)
    (hfresh : Dict.get? w.nodes (.int w.nodes.length) = none) :
    (w.addAgent true (some uid) none picks .ok).1.nodes =
      w.nodes ++ [(.int w.nodes.length, some (some w.agents.length))] := by
  have hff : firstFree w.nodes (candidates w.nodes picks) = none := firstFree_none (fun n _ => hfull n)
  have hh : Dict.has w.nodes (.int w.nodes.length) = false := by simp [Dict.has, hfresh]
  simp only [NWorld.addAgent, NWorld.baseAdd, NWorld.takeId, NWorld.construct, NWorld.chooseNode, hff, if_true,
    NWorld.addGraphNode, hh, Bool.false_eq_true, if_false]
  have hk := (Dict.get?_none_iff _ _).1 hfresh
  rw [Dict.set_of_absent hk none]
  have : ∀ (d : Dict NId (Option (Option Nat))) k v v', k ∉ Dict.keys d → Dict.set (d ++ [(k, v)]) k v' = d ++ [(k, v')] := by
    intro d k v v' hk
    induction d with
    | nil => simp [Dict.set]
    | cons x d ih =>
      obtain ⟨a, b⟩ := x
      have h' : ¬ k = a ∧ k ∉ Dict.keys d := by simpa [Dict.keys] using hk
      rw [List.cons_append, Dict.set, if_neg (fun e => h'.1 e.symm), ih h'.2, List.cons_append]
  rw [this _ _ _ _ hk]

/-- C40 is violated: however many nodes are free, if one is taken then some random choices never look at a free one, and
a node is added (or, worse, `len(G)` is used, see `C39_displaced_false`). -/
theorem C40_missed_false (w : NWorld) (uid i : Nat) (n : NId) (r : Nat) (hi : (Dict.keys w.nodes)[i]? = some n)
    (hocc : Dict.get? w.nodes n = some (some (some r))) :
    (w.addAgent true (some uid) none (fun _ => i) .ok).1.agents =
      w.agents ++ [⟨uid, true, some (.int w.nodes.length), true⟩] := by
  have hlt : i < w.nodes.length := by
    have := (List.getElem?_eq_some_iff.1 hi).1
    simpa [Dict.keys] using this
  have hff : firstFree w.nodes (candidates w.nodes (fun _ => i)) = none := by
    apply firstFree_none
    intro k hk y hy
    unfold candidates at hk
    rw [List.mem_filterMap] at hk
    obtain ⟨j, _, hj⟩ := hk
    rw [Nat.mod_eq_of_lt hlt, hi] at hj
    cases hj
    rw [hocc] at hy
    cases hy
    rfl
  have : (w.addGraphNode (.int w.nodes.length)).agents = w.agents := by
    unfold NWorld.addGraphNode; split <;> rfl
  simp [NWorld.addAgent, NWorld.baseAdd, NWorld.takeId, NWorld.construct, NWorld.chooseNode, hff, this]

/-- Two free nodes, one taken: a fourth node is made. -/
example : (exGraph.run [.add true none (some (.int 1)) (fun _ => 0) .ok, .add true none none (fun _ => 1) .ok]).nodes =
    [(.int 0, none), (.int 1, some (some 0)), (.int 2, none), (.int 3, some (some 1))] := by
  decide +kernel

/-! ### C41 -/

theorem addAgent_ok (w : NWorld) (net : Bool) (n : NId) (picks : Nat → Nat) (hh : Dict.has w.nodes n = true) :
    w.addAgent net none (some n) picks .ok =
      ({ w with
          nodes := Dict.set w.nodes n (some (some w.agents.length)),
          agents := w.agents ++ [⟨w.nextId, net, some n, true⟩],
          sched := w.sched ++ [w.agents.length],
          nextId := w.nextId + 1 }, some w.agents.length, true) := by
  cases net with
  | false => simp [NWorld.addAgent, NWorld.baseAdd, NWorld.takeId, NWorld.construct, hh]
  | true =>
    have h2 : Dict.has (Dict.set w.nodes n (some (some w.agents.length))) n = true := by simp [Dict.has_set]
    simp only [NWorld.addAgent, NWorld.baseAdd, NWorld.takeId, NWorld.construct, NWorld.chooseNode, hh, if_true, h2]
    rw [Dict.set_same (by simp)]

theorem addAll_ok (toadd : List (NId × Bool)) (w : NWorld) (inits : Nat → InitRes)
    (hh : ∀ n ∈ toadd.map Prod.fst, Dict.has w.nodes n = true) (hnd : (toadd.map Prod.fst).Nodup)
    (hin : ∀ i, inits i = .ok) :
    (w.addAll toadd inits).2 = true ∧
    (w.addAll toadd inits).1.sched = w.sched ++ (List.range toadd.length).map (w.agents.length + ·) ∧
    (w.addAll toadd inits).1.edges = w.edges ∧
    Dict.keys (w.addAll toadd inits).1.nodes = Dict.keys w.nodes ∧
    (∀ m, m ∉ toadd.map Prod.fst → Dict.get? (w.addAll toadd inits).1.nodes m = Dict.get? w.nodes m) ∧
    (∀ (i : Nat) x, toadd[i]? = some x →
      Dict.get? (w.addAll toadd inits).1.nodes x.1 = some (some (some (w.agents.length + i)))) ∧
    (w.addAll toadd inits).1.agents =
      w.agents ++ toadd.mapIdx (fun i x => ⟨w.nextId + i, x.2, some x.1, true⟩) := by
  induction toadd generalizing w inits with
  | nil => simp [NWorld.addAll]
  | cons x rest ih =>
    obtain ⟨n, c⟩ := x
    have hhn := hh n (by simp)
    rw [List.map_cons, List.nodup_cons] at hnd
    have h2 : Dict.has (Dict.set w.nodes n (some (some w.agents.length))) n = true := by simp [Dict.has_set]
    simp only [NWorld.addAll, hin 0, addAgent_ok w c n _ hhn, h2, if_true]
    rw [Dict.set_same (d := Dict.set w.nodes n (some (some w.agents.length))) (by simp)]
    obtain ⟨i1, i2, i3, i4, i5, i6, i7⟩ := ih { w with
          nodes := Dict.set w.nodes n (some (some w.agents.length)),
          agents := w.agents ++ [⟨w.nextId, c, some n, true⟩],
          sched := w.sched ++ [w.agents.length],
          nextId := w.nextId + 1 } (fun i => inits (i + 1))
      (by intro m hm; rw [Dict.has_set]; simp [hh m (by simp [hm])]) hnd.2 (fun i => hin _)
    simp only at i1 i2 i3 i4 i5 i6 i7
    refine ⟨i1, ?_, i3, ?_, ?_, ?_, ?_⟩
    · rw [i2, List.length_cons, List.range_succ_eq_map, List.map_cons, List.map_map, List.append_assoc]
      congr 1
      simp only [List.length_append, List.length_singleton, Nat.add_zero, List.singleton_append, List.cons.injEq, true_and]
      apply List.map_congr_left
      intro i _
      simp; omega
    · rw [i4, Dict.keys_set, if_pos ((Dict.mem_keys _ _).2 hhn)]
    · intro m hm
      have hm' : ¬ m = n ∧ m ∉ rest.map Prod.fst := by simpa using hm
      rw [i5 m hm'.2, Dict.get?_set_ne _ _ (fun e => hm'.1 e.symm)]
    · intro i x hx
      cases i with
      | zero =>
        simp only [List.getElem?_cons_zero, Option.some.injEq] at hx
        subst hx
        rw [i5 n hnd.1]; simp
      | succ i =>
        rw [List.getElem?_cons_succ] at hx
        rw [i6 i x hx]
        simp; omega
    · rw [i7, List.mapIdx_cons, List.append_assoc]
      congr 1
      simp only [Nat.add_zero, List.singleton_append, List.cons.injEq, true_and]
      congr 1
      funext i x
      have : w.nextId + 1 + i = w.nextId + (i + 1) := by omega
      rw [this]

/-- The nodes that do not even have the attribute "agent". -/
def bareNodes (nodes : Dict NId (Option (Option Nat))) : List NId := (nodes.filter (fun x => x.2.isNone)).map Prod.fst

theorem reserve_toadd (cs : List Bool) (nodes : Dict NId (Option (Option Nat))) (h : nodes.length ≤ cs.length) :
    (reserve cs nodes).2.map Prod.fst = bareNodes nodes := by
  induction nodes generalizing cs with
  | nil => cases cs <;> simp [reserve, bareNodes]
  | cons x nodes ih =>
    obtain ⟨n, a⟩ := x
    cases cs with
    | nil => simp at h
    | cons c cs =>
      have := ih cs (by simpa using h)
      cases a with
      | none => simpa [reserve, bareNodes] using this
      | some a => simpa [reserve, bareNodes] using this

theorem mem_bareNodes (nodes : Dict NId (Option (Option Nat))) (hwf : Dict.WF nodes) (n : NId) :
    n ∈ bareNodes nodes ↔ Dict.get? nodes n = some none := by
  unfold bareNodes
  simp only [List.mem_map, List.mem_filter]
  constructor
  · rintro ⟨⟨m, v⟩, ⟨h1, h2⟩, rfl⟩
    cases v with
    | none => exact Dict.get?_of_mem hwf h1
    | some v => simp at h2
  · intro h
    exact ⟨(n, none), ⟨Dict.get?_mem h, rfl⟩, rfl⟩

/-- What a list of weights must be like: as many as classes, none negative, not all zero; or absent or empty, which
means equal weights. -/
def GoodWeights (classes : List Bool) (weights : Option (List Rat)) : Prop :=
  ∀ ws, weights = some ws → ws = [] ∨ (ws.length = classes.length ∧ (∀ x ∈ ws, 0 ≤ x) ∧ 0 < ws.sum)

theorem GoodWeights.effective {classes : List Bool} {weights : Option (List Rat)} (h : GoodWeights classes weights)
    (hcl : classes ≠ []) (ws : List Rat) (hws : effectiveWeights classes weights = ws) : ws.length = classes.length ∧ (∀ x ∈ ws, 0 ≤ x) ∧ 0 < ws.sum := by
  have hone : (List.replicate classes.length (1 : Rat)).length = classes.length ∧
      (∀ x ∈ List.replicate classes.length (1 : Rat), 0 ≤ x) ∧ 0 < (List.replicate classes.length (1 : Rat)).sum := by
    refine ⟨by simp, ?_, ?_⟩
    · intro x hx
      rw [List.mem_replicate] at hx
      rw [hx.2]; decide
    · have : 0 < classes.length := List.length_pos_iff.2 hcl
      simp only [List.sum_replicate, nsmul_eq_mul, mul_one]
      exact_mod_cast this
  match weights, h with
  | none, _ => rw [← hws]; exact hone
  | some [], _ => rw [← hws]; exact hone
  | some (x :: l), h =>
    rw [← hws]
    rcases h _ rfl with h | h
    · cases h
    · exact h

/-- C41: on a graph whose nodes all have an agent or no attribute "agent", with agents whose constructors succeed,
`populate_network` leaves every node with an agent, displaces nobody, adds exactly one agent for each node that had none,
schedules them, and does not change the graph. It returns if there was at least one such node. Missing: nodes whose
attribute "agent" is `None`, see `C41_reserved_false`, and constructors that raise. -/
theorem C41_populate_partial (w : NWorld) (classes : List Bool) (weights : Option (List Rat)) (draws : Nat → Rat)
    (inits : Nat → InitRes) (hI : NInv w) (hne : w.nodes ≠ []) (hcl : classes ≠ []) (hws : GoodWeights classes weights)
    (hdr : ∀ i, IsDraw (draws i)) (hin : ∀ i, inits i = .ok) (hres : ∀ n, Dict.get? w.nodes n ≠ some (some none)) :
    let w' := (w.populate classes weights draws inits).1
    Dict.keys w'.nodes = Dict.keys w.nodes ∧ w'.edges = w.edges ∧
    (∀ n (r : Nat), Dict.get? w.nodes n = some (some (some r)) → Dict.get? w'.nodes n = some (some (some r))) ∧
    (∀ n, n ∈ Dict.keys w'.nodes → ∃ r : Nat, Dict.get? w'.nodes n = some (some (some r))) ∧
    w'.agents.length = w.agents.length + (bareNodes w.nodes).length ∧
    w'.sched = w.sched ++ (List.range (bareNodes w.nodes).length).map (w.agents.length + ·) ∧
    (bareNodes w.nodes ≠ [] → (w.populate classes weights draws inits).2 = true) := by
  unfold NWorld.populate
  generalize hwse : effectiveWeights classes weights = ws
  obtain ⟨hlen, hw0, hwpos⟩ := hws.effective hcl ws hwse
  simp only [if_neg hne]
  have hd : ∀ r ∈ (List.range w.nodes.length).map draws, IsDraw r := by
    intro r hr; simp only [List.mem_map] at hr; obtain ⟨i, _, rfl⟩ := hr; exact hdr i
  obtain ⟨cs, hcs⟩ := Option.isSome_iff_exists.1 (choices_isSome classes ws ((List.range w.nodes.length).map draws) hlen hw0 hwpos hd)
  have hcsl : cs.length = w.nodes.length := by
    have := (choices_spec _ _ _ _ hw0 hd hcs).1
    simpa using this
  simp only [hcs]
  obtain ⟨r1, r2, r3, r4, r5⟩ := reserve_spec cs w.nodes
  have hto := reserve_toadd cs w.nodes (by rw [hcsl])
  have hnd : ((reserve cs w.nodes).2.map Prod.fst).Nodup := List.Nodup.sublist r2 hI.wf
  have hwf1 : Dict.WF (reserve cs w.nodes).1 := by unfold Dict.WF; rw [r1]; exact hI.wf
  obtain ⟨a1, a2, a3, a4, a5, a6, a7⟩ := addAll_ok (reserve cs w.nodes).2 { w with nodes := (reserve cs w.nodes).1 } inits
    (fun n hn => by
      have := Dict.get?_of_mem hwf1 (r4 n hn).2
      simp [Dict.has, this]) hnd hin
  simp only at a1 a2 a3 a4 a5 a6 a7
  rw [if_pos a1]
  have hlen2 : (reserve cs w.nodes).2.length = (bareNodes w.nodes).length := by rw [← hto]; simp
  have hold : ∀ n (r : Nat), Dict.get? w.nodes n = some (some (some r)) → Dict.get?
      (NWorld.addAll { w with nodes := (reserve cs w.nodes).1 } (reserve cs w.nodes).2 inits).1.nodes n =
        some (some (some r)) := by
    intro n r hn
    have hnot : n ∉ (reserve cs w.nodes).2.map Prod.fst := by
      intro hm
      have := Dict.get?_of_mem hI.wf (r4 n hm).1
      rw [hn] at this; cases this
    rw [a5 n hnot]
    have hk : n ∈ Dict.keys (reserve cs w.nodes).1 := by
      rw [r1]; exact (Dict.mem_keys _ _).2 (by rw [hn]; rfl)
    obtain ⟨v, hv⟩ := Option.isSome_iff_exists.1 ((Dict.mem_keys _ _).1 hk)
    rw [hv]
    rcases r3 n v (Dict.get?_mem hv) with h | ⟨_, h2, _⟩
    · have := Dict.get?_of_mem hI.wf h
      rw [hn] at this; rw [this]
    · have := Dict.get?_of_mem hI.wf h2
      rw [hn] at this; cases this
  have hall : ∀ n, n ∈ Dict.keys (NWorld.addAll { w with nodes := (reserve cs w.nodes).1 } (reserve cs w.nodes).2 inits).1.nodes →
      ∃ r : Nat, Dict.get? (NWorld.addAll { w with nodes := (reserve cs w.nodes).1 } (reserve cs w.nodes).2 inits).1.nodes n =
        some (some (some r)) := by
    intro n hn
    rw [a4, r1] at hn
    obtain ⟨v, hv⟩ := Option.isSome_iff_exists.1 ((Dict.mem_keys _ _).1 hn)
    match v, hv with
    | some (some r), hv => exact ⟨r, hold n r hv⟩
    | some none, hv => exact absurd hv (hres n)
    | none, hv =>
      have hm := r5 (by rw [hcsl]) n (Dict.get?_mem hv)
      obtain ⟨i, hi⟩ := List.mem_iff_getElem?.1 hm
      rw [List.getElem?_map] at hi
      cases hx : (reserve cs w.nodes).2[i]? with
      | none => rw [hx] at hi; cases hi
      | some x =>
        rw [hx] at hi
        simp only [Option.map_some, Option.some.injEq] at hi
        subst hi
        exact ⟨_, a6 i x hx⟩
  refine ⟨by rw [a4, r1], a3, hold, hall, ?_, ?_, ?_⟩
  · rw [a7]; simp [hlen2]
  · rw [a2, hlen2]
  · intro hb
    simp only [Bool.and_eq_true]
    constructor
    · rw [List.all_eq_true]
      intro x hx
      have hwf2 : Dict.WF (NWorld.addAll { w with nodes := (reserve cs w.nodes).1 } (reserve cs w.nodes).2 inits).1.nodes := by
        unfold Dict.WF; rw [a4]; exact hwf1
      have hg := Dict.get?_of_mem (k := x.1) (v := x.2) hwf2 hx
      obtain ⟨r, hr⟩ := hall x.1 ((Dict.mem_keys _ _).2 (by rw [hg]; rfl))
      rw [hg] at hr
      cases hr' : x.2 with
      | none => rw [hr'] at hr; cases hr
      | some v => rfl
    · obtain ⟨x, hx⟩ : ∃ x, (reserve cs w.nodes).2[0]? = some x := by
        cases hl : (reserve cs w.nodes).2 with
        | nil => rw [hl] at hlen2; exact absurd (List.length_eq_zero_iff.1 hlen2.symm) hb
        | cons x l => exact ⟨x, rfl⟩
      have hg := Dict.get?_mem (a6 0 x hx)
      have hag : (NWorld.addAll { w with nodes := (reserve cs w.nodes).1 } (reserve cs w.nodes).2 inits).1.agents[w.agents.length + 0]? =
          some ⟨w.nextId + 0, x.2, some x.1, true⟩ := by
        rw [a7, List.getElem?_append_right (by omega)]
        simp [hx]
      have : some (w.agents.length + 0) ∈
          (NWorld.addAll { w with nodes := (reserve cs w.nodes).1 } (reserve cs w.nodes).2 inits).1.networkAgents := by
        unfold NWorld.networkAgents
        rw [List.mem_filterMap]
        exact ⟨_, hg, by simp only [hag, if_true]⟩
      cases hna : (NWorld.addAll { w with nodes := (reserve cs w.nodes).1 } (reserve cs w.nodes).2 inits).1.networkAgents with
      | nil => rw [hna] at this; cases this
      | cons y l => rfl

/-- C41 is violated: a node whose attribute "agent" is `None` is skipped and stays without agent. -/
theorem C41_reserved_false (w : NWorld) (classes : List Bool) (weights : Option (List Rat)) (draws : Nat → Rat)
    (inits : Nat → InitRes) (hI : NInv w) (n : NId) (hn : Dict.get? w.nodes n = some (some none)) :
    Dict.get? (w.populate classes weights draws inits).1.nodes n = some (some none) := by
  unfold NWorld.populate
  simp only
  split
  · exact hn
  · split
    · exact hn
    · rename_i cs _
      obtain ⟨r1, r2, r3, r4, r5⟩ := reserve_spec cs w.nodes
      have hnot : n ∉ (reserve cs w.nodes).2.map Prod.fst := by
        intro hm
        have := Dict.get?_of_mem hI.wf (r4 n hm).1
        rw [hn] at this; cases this
      have h0 : Dict.get? (reserve cs w.nodes).1 n = some (some none) := by
        have hk : n ∈ Dict.keys (reserve cs w.nodes).1 := by
          rw [r1]; exact (Dict.mem_keys _ _).2 (by rw [hn]; rfl)
        obtain ⟨v, hv⟩ := Option.isSome_iff_exists.1 ((Dict.mem_keys _ _).1 hk)
        rw [hv]
        rcases r3 n v (Dict.get?_mem hv) with h | ⟨_, h2, _⟩
        · have := Dict.get?_of_mem hI.wf h
          rw [hn] at this; rw [this]
        · have := Dict.get?_of_mem hI.wf h2
          rw [hn] at this; cases this
      have hI1 := NSteps.inv (reserve_steps ⟨false, false, 0⟩ cs w hI) hI
      have key : ∀ (toadd : List (NId × Bool)) (w : NWorld) (inits : Nat → InitRes), NInv w → n ∉ toadd.map Prod.fst →
          Dict.get? w.nodes n = some (some none) → Dict.get? (w.addAll toadd inits).1.nodes n = some (some none) := by
        intro toadd
        induction toadd with
        | nil => intro w inits _ _ h; exact h
        | cons x rest ih =>
          obtain ⟨m, c⟩ := x
          intro w inits hI hnot h
          have hnot' : ¬ n = m ∧ n ∉ rest.map Prod.fst := by simpa using hnot
          simp only [NWorld.addAll]
          have h1 := addAgent_other w c none m (fun _ => 0) (inits 0) hI n hnot'.1
          have h2 := NSteps.inv (addAgent_steps ⟨false, false, 0⟩ w c none (some m) (fun _ => 0) (inits 0) hI
            (Nat.zero_le _) (by simp) (by simp)) hI
          have h3 : ∀ w1 r, w.addAgent c none (some m) (fun _ => 0) (inits 0) = (w1, some r, true) →
              Dict.get? w1.nodes m = some (some (some r)) := by
            intro w1 r h
            unfold NWorld.addAgent at h
            simp only at h
            split at h
            · split at h
              · simp only [Prod.mk.injEq, Option.some.injEq] at h
                obtain ⟨rfl, rfl, _⟩ := h
                simp
              · simp at h
            · rename_i hne
              exact absurd h (by intro h; exact hne w1 r h)
          generalize hres : w.addAgent c none (some m) (fun _ => 0) (inits 0) = res at h1 h2 h3
          obtain ⟨w1, ro, b⟩ := res
          simp only at h1 h2
          match ro, b with
          | some r, true =>
            simp only
            split
            · rw [Dict.set_same (h3 w1 r rfl)]
              exact ih w1 _ h2 hnot'.2 (by rw [h1]; exact h)
            · simp only; rw [h1]; exact h
          | some r, false => simp only; rw [h1]; exact h
          | none, true => simp only; rw [h1]; exact h
          | none, false => simp only; rw [h1]; exact h
      have := key (reserve cs w.nodes).2 { w with nodes := (reserve cs w.nodes).1 } inits hI1 hnot h0
      split <;> exact this

/-- How such nodes come about: the second constructor of `populate_network` raises; populating again succeeds but leaves
the third node without agent. -/
example : let w := (exGraph.populate [true] none (fun _ => 0) (fun i => if i = 1 then .raises else .ok)).1
    (w.populate [true] none (fun _ => 0) (fun _ => .ok)).2 = true ∧
    (w.populate [true] none (fun _ => 0) (fun _ => .ok)).1.nodes =
      [(.int 0, some (some 0)), (.int 1, some (some 1)), (.int 2, some none)] := by
  decide +kernel

def exPopulated : NWorld × Bool :=
  (exGraph.run [.add true none (some (.int 1)) (fun _ => 0) .ok]).populate [true, false] (some [1, 1])
    (fun i => if i = 0 then 0 else 3/4) (fun _ => .ok)

example : exPopulated.2 = true ∧
    exPopulated.1.nodes = [(.int 0, some (some 1)), (.int 1, some (some 0)), (.int 2, some (some 2))] ∧
    exPopulated.1.agents.map (·.net) = [true, true, false] := by
  decide +kernel

/-! ### C42 -/

/-- C42: `find_unassigned` returns a node without agent iff there is one, for every shuffle. -/
theorem C42_find_unassigned (w : NWorld) (hwf : Dict.WF w.nodes) (sh : Shuffle) :
    (∀ n, findUnassigned (sh.run w.nodes) = some n → Dict.get? w.nodes n = some none) ∧
    ((∃ n, Dict.get? w.nodes n = some none) → (findUnassigned (sh.run w.nodes)).isSome = true) := by
  obtain ⟨h1, h2⟩ := findUnassigned_spec (sh.run w.nodes)
  constructor
  · intro n hn
    exact Dict.get?_of_mem hwf ((sh.perm _).mem_iff.1 (h1 n hn))
  · rintro ⟨n, hn⟩
    cases hf : findUnassigned (sh.run w.nodes) with
    | some m => rfl
    | none => exact absurd ((sh.perm _).mem_iff.2 (Dict.get?_mem hn)) (h2.1 hf n)

/-- C40 for `add_node` without `node_id`: if there is a node without agent, such a node is used and none is created. -/
theorem C40_add_node (w : NWorld) (hwf : Dict.WF w.nodes) (net : Bool) (uid : Option Nat) (sh : Shuffle) (picks : Nat → Nat)
    (h : ∃ n, Dict.get? w.nodes n = some none) :
    ∃ n u, Dict.get? w.nodes n = some none ∧ (∀ v, uid = some v → u = v) ∧
      (w.addNode net uid none sh picks .ok).2 = (some w.agents.length, true) ∧
      (w.addNode net uid none sh picks .ok).1.agents = w.agents ++ [⟨u, net, some n, true⟩] ∧
      Dict.keys (w.addNode net uid none sh picks .ok).1.nodes = Dict.keys w.nodes ∧
      Dict.get? (w.addNode net uid none sh picks .ok).1.nodes n = some (some (some w.agents.length)) := by
  obtain ⟨h1, h2⟩ := C42_find_unassigned w hwf sh
  obtain ⟨n, hn⟩ := Option.isSome_iff_exists.1 (h2 h)
  have hfree := h1 n hn
  have hx : ∃ (w0 : NWorld) (u : Nat), w.takeId uid = (w0, u) ∧ w0.nodes = w.nodes ∧ w0.agents = w.agents ∧
      (∀ v, uid = some v → u = v) := by
    cases uid with
    | some u => exact ⟨w, u, rfl, rfl, rfl, by simp⟩
    | none => exact ⟨_, _, rfl, rfl, rfl, by simp⟩
  obtain ⟨w0, u, hxe, hno, hag, hu⟩ := hx
  have hhas : Dict.has w0.nodes n = true := by rw [hno]; simp [Dict.has, hfree]
  have hnode : w0.nodeFor u none sh = n := by
    unfold NWorld.nodeFor
    simp only [hno, hn]
  have hkeys : ∀ v, Dict.keys (Dict.set w.nodes n v) = Dict.keys w.nodes := by
    intro v
    rw [Dict.keys_set, if_pos]
    rw [Dict.mem_keys, hfree]; rfl
  have hkeys2 : ∀ v v', Dict.keys (Dict.set (Dict.set w.nodes n v) n v') = Dict.keys w.nodes := by
    intro v v'
    rw [Dict.keys_set, if_pos, hkeys]
    rw [Dict.mem_keys, Dict.get?_set_self]; rfl
  have hhas' : Dict.has w.nodes n = true := by simp [Dict.has, hfree]
  have hset : ∀ v, Dict.has (Dict.set w.nodes n v) n = true := by simp [Dict.has]
  refine ⟨n, u, hfree, hu, ?_⟩
  unfold NWorld.addNode
  rw [hxe]
  simp only [hnode, NWorld.addGraphNode, hhas, if_true]
  rw [hno, hfree]
  cases net
  · simp [NWorld.addAgent, NWorld.baseAdd, NWorld.takeId, NWorld.construct, hhas', hno, hag, hkeys]
  · simp [NWorld.addAgent, NWorld.baseAdd, NWorld.takeId, NWorld.construct, NWorld.chooseNode, hhas', hset, hno, hag, hkeys2]

/-- C42: `add_node` never displaces an agent, whatever the arguments, the shuffle and the outcome of the constructor. -/
theorem C42_add_node (w : NWorld) (hI : NInv w) (net : Bool) (uid : Option Nat) (node : Option NId) (sh : Shuffle)
    (picks : Nat → Nat) (init : InitRes) (m : NId) (r : Nat) (hm : Dict.get? w.nodes m = some (some (some r))) :
    Dict.get? (w.addNode net uid node sh picks init).1.nodes m = some (some (some r)) := by
  unfold NWorld.addNode
  have hx : ∃ (w0 : NWorld) (u : Nat), w.takeId uid = (w0, u) ∧ NInv w0 ∧ w0.nodes = w.nodes := by
    cases uid with
    | some u => exact ⟨w, u, rfl, hI, rfl⟩
    | none => exact ⟨_, _, rfl, (NStep.nextId (fl := ⟨false, false, 0⟩) w).inv hI, rfl⟩
  obtain ⟨w0, u, hxe, hI0, hno⟩ := hx
  rw [hxe]
  simp only
  generalize w0.nodeFor u node sh = n
  have h1 : Dict.get? (w0.addGraphNode n).nodes m = some (some (some r)) ∧ NInv (w0.addGraphNode n) := by
    unfold NWorld.addGraphNode
    cases hh : Dict.has w0.nodes n with
    | true => simp only [if_true]; rw [hno]; exact ⟨hm, hI0⟩
    | false =>
      simp only [Bool.false_eq_true, if_false]
      refine ⟨?_, (NStep.graphNode (fl := ⟨false, false, 0⟩) w0 n hh (by simp)).inv hI0⟩
      rw [hno] at hh ⊢
      rw [Dict.get?_set_ne]
      · exact hm
      · rintro rfl; simp [Dict.has, hm] at hh
  split
  · rename_i hget
    rw [addAgent_other _ _ _ _ _ _ h1.2]
    · exact h1.1
    · rintro rfl
      rw [h1.1] at hget; cases hget
  · exact h1.1

example : (exGraph.run [.add true none (some (.int 1)) (fun _ => 0) .ok,
      .addNode true none none ⟨List.reverse, List.reverse_perm⟩ (fun _ => 0) .ok,
      .addNode true none none ⟨id, fun _ => .refl _⟩ (fun _ => 0) .ok,
      .addNode true none none ⟨id, fun _ => .refl _⟩ (fun _ => 0) .ok]).nodes =
    [(.int 0, some (some 2)), (.int 1, some (some 0)), (.int 2, some (some 1)), (.str "node_for_3", some (some 3))] := by
  decide +kernel

end Verif
