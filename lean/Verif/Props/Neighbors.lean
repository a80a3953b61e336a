import Verif.Props.Network
import Mathlib.Data.List.Perm.Basic

/-!
# Properties C43–C45: neighbours, death, edges
-/

namespace Verif

/-! ### C43 -/

/-- Ids are unique. -/
def NWorld.UniqueIds (w : NWorld) : Prop :=
  ∀ (r s : Nat) (a b : NAgent), w.agents[r]? = some a → w.agents[s]? = some b → a.uid = b.uid → r = s

/-- No explicit id is given. -/
def NOp.AutoId : NOp → Prop
  | .add _ uid _ _ _ => uid = none
  | .addNode _ uid _ _ _ _ => uid = none
  | _ => True

/-- Ids handed out so far are distinct and below the counter. -/
structure UidInv (w : NWorld) : Prop where
  nodup : (w.agents.map (·.uid)).Nodup
  lt : ∀ u ∈ w.agents.map (·.uid), u < w.nextId

theorem UidInv.unique {w : NWorld} (h : UidInv w) : w.UniqueIds := by
  intro r s a b ha hb hu
  have h1 : (w.agents.map (·.uid))[r]? = some a.uid := by simp [ha]
  have h2 : (w.agents.map (·.uid))[s]? = some a.uid := by simp [hb, hu]
  obtain ⟨hr, e1⟩ := List.getElem?_eq_some_iff.1 h1
  obtain ⟨hs, e2⟩ := List.getElem?_eq_some_iff.1 h2
  exact (h.nodup.getElem_inj_iff).1 (e1.trans e2.symm)

theorem die_uids (w : NWorld) (r : Nat) (remove : Bool) :
    (w.die r remove).1.agents.map (·.uid) = w.agents.map (·.uid) ∧ (w.die r remove).1.nextId = w.nextId := by
  have hset : ∀ (a : NAgent) (b : NAgent), w.agents[r]? = some a → b.uid = a.uid →
      (w.agents.set r b).map (·.uid) = w.agents.map (·.uid) := by
    intro a b ha hb
    apply List.ext_getElem?
    intro i
    rw [List.getElem?_map, List.getElem?_map]
    by_cases hi : r = i
    · subst hi
      rw [List.getElem?_set_self (List.getElem?_eq_some_iff.1 ha).1, ha]
      simp [hb]
    · rw [List.getElem?_set_ne hi]
  unfold NWorld.die
  cases ha : w.agents[r]? with
  | none => exact ⟨rfl, rfl⟩
  | some a =>
    simp only
    split
    · split
      · exact ⟨rfl, rfl⟩
      · split
        · split
          · exact ⟨rfl, rfl⟩
          · split
            · exact ⟨hset a _ ha rfl, rfl⟩
            · exact ⟨rfl, rfl⟩
        · exact ⟨hset a _ ha rfl, rfl⟩
    · exact ⟨hset a _ ha rfl, rfl⟩

/-- `w'` has at most one more agent than `w`, with id `u`. -/
def OneMore (w w' : NWorld) (u : Nat) : Prop :=
  (w'.agents.map (·.uid) = w.agents.map (·.uid) ∨ w'.agents.map (·.uid) = w.agents.map (·.uid) ++ [u]) ∧
  w'.nextId = w.nextId

theorem construct_uids (w : NWorld) (net : Bool) (u : Nat) (node : Option NId) (picks : Nat → Nat) (init : InitRes) :
    OneMore w (w.construct net u node picks init).1 u := by
  have key : ∀ (w1 : NWorld), OneMore w w1 u → OneMore w (match init with
      | .ok => (w1, some w.agents.length, true)
      | .raises => (w1, some w.agents.length, false)
      | .dies => ((w1.die w.agents.length true).1, some w.agents.length, true) : NWorld × Option Nat × Bool).1 u := by
    intro w1 h
    cases init with
    | ok => exact h
    | raises => exact h
    | dies =>
      obtain ⟨h1, h2⟩ := die_uids w1 w.agents.length true
      exact ⟨by rw [h1]; exact h.1, by rw [h2]; exact h.2⟩
  unfold NWorld.construct
  cases net with
  | false =>
    simp only [Bool.false_eq_true, if_false]
    exact key _ ⟨Or.inr (by simp), rfl⟩
  | true =>
    simp only [if_true]
    cases hc : w.chooseNode node picks with
    | none => exact ⟨Or.inl rfl, rfl⟩
    | some wn =>
      obtain ⟨w1, n⟩ := wn
      have hw1 : w1.agents = w.agents ∧ w1.nextId = w.nextId := by
        unfold NWorld.chooseNode at hc
        cases node with
        | some m =>
          simp only at hc
          split at hc <;> cases hc
          exact ⟨rfl, rfl⟩
        | none =>
          simp only at hc
          split at hc <;> cases hc
          · exact ⟨rfl, rfl⟩
          · unfold NWorld.addGraphNode; split <;> exact ⟨rfl, rfl⟩
      simp only
      exact key _ ⟨Or.inr (by simp [hw1.1]), hw1.2⟩

theorem baseAdd_uids (w : NWorld) (net : Bool) (uid : Option Nat) (node : Option NId) (picks : Nat → Nat) (init : InitRes) :
    OneMore (w.takeId uid).1 (w.baseAdd net uid node picks init).1 (w.takeId uid).2 := by
  unfold NWorld.baseAdd
  simp only
  have := construct_uids (w.takeId uid).1 net (w.takeId uid).2 node picks init
  split
  · rename_i h
    rw [h] at this
    exact this
  · exact this

theorem addAgent_uids (w : NWorld) (net : Bool) (uid : Option Nat) (node : Option NId) (picks : Nat → Nat) (init : InitRes) :
    OneMore (w.takeId uid).1 (w.addAgent net uid node picks init).1 (w.takeId uid).2 := by
  unfold NWorld.addAgent
  cases node with
  | none => exact baseAdd_uids w net uid none picks init
  | some n =>
    simp only
    have := baseAdd_uids w net uid (some n) picks init
    split
    · rename_i h
      rw [h] at this
      split <;> exact this
    · exact this

theorem UidInv.oneMore {w w' : NWorld} (h : UidInv w) (h1 : OneMore { w with nextId := w.nextId + 1 } w' w.nextId) :
    UidInv w' := by
  obtain ⟨ha, hn⟩ := h1
  simp only at ha hn
  rcases ha with ha | ha
  · exact ⟨by rw [ha]; exact h.nodup, fun u hu => by rw [ha] at hu; have := h.lt u hu; omega⟩
  · constructor
    · rw [ha, List.nodup_append]
      refine ⟨h.nodup, by simp, ?_⟩
      intro x hx y hy
      simp at hy; subst hy
      intro hxy
      have := h.lt x hx
      omega
    · intro u hu
      rw [ha, List.mem_append] at hu
      rcases hu with hu | hu
      · have := h.lt u hu; omega
      · simp at hu; omega

theorem UidInv.congr {w w' : NWorld} (h : UidInv w) (ha : w'.agents = w.agents) (hn : w'.nextId = w.nextId) : UidInv w' :=
  ⟨by rw [ha]; exact h.nodup, by rw [ha, hn]; exact h.lt⟩

theorem UidInv.exec {w : NWorld} (h : UidInv w) (op : NOp) (hop : op.AutoId) : UidInv (op.exec w) := by
  cases op with
  | add net uid node picks init =>
    have : uid = none := hop
    subst this
    exact h.oneMore (addAgent_uids w net none node picks init)
  | addNode net uid node sh picks init =>
    have : uid = none := hop
    subst this
    simp only [NOp.exec, NWorld.addNode, NWorld.takeId]
    generalize NWorld.nodeFor _ w.nextId node sh = n
    have hg : ∀ w0 : NWorld, (w0.addGraphNode n).agents = w0.agents ∧ (w0.addGraphNode n).nextId = w0.nextId := by
      intro w0; unfold NWorld.addGraphNode; split <;> exact ⟨rfl, rfl⟩
    obtain ⟨g1, g2⟩ := hg { w with nextId := w.nextId + 1 }
    generalize NWorld.addGraphNode { w with nextId := w.nextId + 1 } n = w1 at g1 g2
    simp only at g1 g2
    split
    · refine h.oneMore ?_
      have := addAgent_uids w1 net (some w.nextId) (some n) picks init
      simp only [NWorld.takeId] at this
      exact ⟨by rw [← g1]; exact this.1, by rw [this.2, g2]⟩
    · exact ⟨by rw [g1]; exact h.nodup, fun u hu => by rw [g1] at hu; rw [g2]; have := h.lt u hu; omega⟩
  | populate cs ws ds is =>
    have key : ∀ (toadd : List (NId × Bool)) (w : NWorld) (inits : Nat → InitRes), UidInv w →
        UidInv (w.addAll toadd inits).1 := by
      intro toadd
      induction toadd with
      | nil => intro w inits h; exact h
      | cons x rest ih =>
        obtain ⟨n, c⟩ := x
        intro w inits h
        simp only [NWorld.addAll]
        have h1 := h.oneMore (addAgent_uids w c none (some n) (fun _ => 0) (inits 0))
        generalize w.addAgent c none (some n) (fun _ => 0) (inits 0) = res at h1
        obtain ⟨w1, ro, b⟩ := res
        match ro, b with
        | some r, true =>
          simp only
          split
          · exact ih _ _ (h1.congr rfl rfl)
          · exact h1
        | some r, false => exact h1
        | none, true => exact h1
        | none, false => exact h1
    simp only [NOp.exec, NWorld.populate]
    split
    · exact h
    · split
      · exact h
      · rename_i cs' _
        have h2 := key (reserve cs' w.nodes).2 { w with nodes := (reserve cs' w.nodes).1 } is (h.congr rfl rfl)
        split <;> exact h2
  | die r remove =>
    obtain ⟨h1, h2⟩ := die_uids w r remove
    exact ⟨by rw [NOp.exec, h1]; exact h.nodup, by rw [NOp.exec, h1, h2]; exact h.lt⟩
  | addEdge r s =>
    have : (w.addEdge r s).1.agents = w.agents ∧ (w.addEdge r s).1.nextId = w.nextId := by
      unfold NWorld.addEdge
      split
      · split
        · split
          · split
            · split <;> exact ⟨rfl, rfl⟩
            · exact ⟨rfl, rfl⟩
          · exact ⟨rfl, rfl⟩
        · exact ⟨rfl, rfl⟩
      · exact ⟨rfl, rfl⟩
    exact h.congr this.1 this.2

/-- Without explicit ids, ids are unique after every history. (Used with the theorems below.) -/
theorem C43_ids_unique (nodes : Dict NId (Option (Option Nat))) (edges : List (NId × NId)) (directed : Bool)
    (ops : List NOp) (hops : ∀ op ∈ ops, op.AutoId) : ((NWorld.start nodes edges directed).run ops).UniqueIds := by
  apply UidInv.unique
  have h0 : UidInv (NWorld.start nodes edges directed) := ⟨by simp [NWorld.start], by simp [NWorld.start]⟩
  revert h0
  generalize NWorld.start nodes edges directed = w
  intro h0
  induction ops generalizing w with
  | nil => exact h0
  | cons op ops ih => exact ih (fun o ho => hops o (by simp [ho])) _ (h0.exec op (hops op (by simp)))

theorem mem_neighbors (w : NWorld) (n m : NId) (hI : NInv w) (h : w.adjacent n m = true) : m ∈ w.neighbors n := by
  unfold NWorld.neighbors
  rw [List.mem_filter]
  refine ⟨?_, h⟩
  rw [Dict.mem_keys]
  unfold NWorld.adjacent at h
  simp only [Bool.or_eq_true, decide_eq_true_eq, Bool.and_eq_true] at h
  rcases h with h | ⟨_, h⟩
  · exact (hI.edges _ h).2
  · exact (hI.edges _ h).1

theorem mem_neighborIds (w : NWorld) (hI : NInv w) (r : Nat) (a : NAgent) (n : NId) (ha : w.agents[r]? = some a)
    (hn : a.node = some n) (hh : Dict.has w.nodes n = true) :
    ∃ ids, w.neighborIds r = some ids ∧ ∀ u, u ∈ ids ↔ ∃ (m : NId) (s : Nat) (b : NAgent), w.adjacent n m = true ∧
      Dict.get? w.nodes m = some (some (some s)) ∧ w.agents[s]? = some b ∧ b.uid = u := by
  unfold NWorld.neighborIds
  simp only [ha, hn, hh, if_true]
  refine ⟨_, rfl, ?_⟩
  intro u
  rw [List.mem_filterMap]
  constructor
  · rintro ⟨m, hm, h⟩
    have hadj : w.adjacent n m = true := by
      unfold NWorld.neighbors at hm
      rw [List.mem_filter] at hm; exact hm.2
    split at h
    · rename_i s hs
      cases hb : w.agents[s]? with
      | none => rw [hb] at h; cases h
      | some b =>
        rw [hb] at h
        exact ⟨m, s, b, hadj, hs, hb, by simpa using h⟩
    · cases h
  · rintro ⟨m, s, b, hadj, hs, hb, hu⟩
    refine ⟨m, mem_neighbors w n m hI hadj, ?_⟩
    simp [hs, hb, hu]

/-- C43: `get_neighbors` of an agent on a node of the graph returns exactly the scheduled agents on adjacent nodes, each
once, in scheduling order. -/
theorem C43_neighbors (w : NWorld) (hI : NInv w) (hu : w.UniqueIds) (r : Nat) (a : NAgent) (n : NId)
    (ha : w.agents[r]? = some a) (hn : a.node = some n) (hh : Dict.has w.nodes n = true) :
    ∃ l, w.getNeighbors r = some l ∧ l.Nodup ∧ l.Sublist w.sched ∧
      ∀ s : Nat, s ∈ l ↔ s ∈ w.sched ∧ ∃ m, w.adjacent n m = true ∧ Dict.get? w.nodes m = some (some (some s)) := by
  obtain ⟨ids, hids, hmem⟩ := mem_neighborIds w hI r a n ha hn hh
  unfold NWorld.getNeighbors
  rw [hids]
  simp only
  by_cases he : ids = []
  · refine ⟨[], by rw [if_pos he], by simp, by simp, ?_⟩
    intro s
    simp only [List.not_mem_nil, false_iff, not_and, not_exists]
    intro _ m hadj hs
    obtain ⟨b, hb, _⟩ := hI.onNode m s hs
    have := (hmem b.uid).2 ⟨m, s, b, hadj, hs, hb, rfl⟩
    rw [he] at this; cases this
  · refine ⟨_, by rw [if_neg he], hI.nodup.filter _, List.filter_sublist, ?_⟩
    intro s
    rw [List.mem_filter]
    refine and_congr_right ?_
    intro hs
    unfold NWorld.uid
    have hlt := hI.range s hs
    obtain ⟨b, hb⟩ : ∃ b, w.agents[s]? = some b := ⟨_, List.getElem?_eq_getElem hlt⟩
    simp only [hb, Option.map_some, decide_eq_true_eq]
    rw [hmem]
    constructor
    · rintro ⟨m, s', b', hadj, hs', hb', hu'⟩
      have := hu s' s b' b hb' hb hu'
      subst this
      exact ⟨m, hadj, hs'⟩
    · rintro ⟨m, hadj, hs'⟩
      exact ⟨m, s, b, hadj, hs', hb, rfl⟩

/-- C43: being a neighbour is symmetric on undirected graphs. -/
theorem C43_symmetric (w : NWorld) (hI : NInv w) (hu : w.UniqueIds) (hd : w.directed = false) (r s : Nat) (a b : NAgent)
    (n m : NId) (ha : w.agents[r]? = some a) (hb : w.agents[s]? = some b) (hn : a.node = some n) (hm : b.node = some m)
    (hrn : Dict.get? w.nodes n = some (some (some r))) (hsm : Dict.get? w.nodes m = some (some (some s)))
    (hr : r ∈ w.sched) (hs : s ∈ w.sched) :
    ∃ l k, w.getNeighbors r = some l ∧ w.getNeighbors s = some k ∧ (s ∈ l ↔ r ∈ k) := by
  obtain ⟨l, hl, _, _, hlm⟩ := C43_neighbors w hI hu r a n ha hn (by simp [Dict.has, hrn])
  obtain ⟨k, hk, _, _, hkm⟩ := C43_neighbors w hI hu s b m hb hm (by simp [Dict.has, hsm])
  refine ⟨l, k, hl, hk, ?_⟩
  have hsym : ∀ x y, w.adjacent x y = w.adjacent y x := by
    intro x y; unfold NWorld.adjacent; rw [hd]; simp [Bool.or_comm]
  have honly : ∀ (t : Nat) (c : NAgent) (x y : NId), w.agents[t]? = some c → c.node = some x →
      Dict.get? w.nodes y = some (some (some t)) → y = x := by
    intro t c x y hc hx hy
    obtain ⟨c', hc', hcy⟩ := hI.onNode y t hy
    rw [hc] at hc'; cases hc'
    rw [hx] at hcy; exact (Option.some.inj hcy).symm
  rw [hlm, hkm]
  constructor
  · rintro ⟨_, m', hadj, hm'⟩
    have := honly s b m m' hb hm hm'
    subst this
    exact ⟨hr, n, by rw [hsym]; exact hadj, hrn⟩
  · rintro ⟨_, n', hadj, hn'⟩
    have := honly r a n n' ha hn hn'
    subst this
    exact ⟨hs, m, by rw [hsym]; exact hadj, hsm⟩

/-- C43: `count_neighbors()` is the number of adjacent nodes with a scheduled agent. -/
theorem C43_count (w : NWorld) (hI : NInv w) (hu : w.UniqueIds) (r : Nat) (a : NAgent) (n : NId)
    (ha : w.agents[r]? = some a) (hn : a.node = some n) (hh : Dict.has w.nodes n = true) :
    w.countNeighbors r = some ((w.nodes.filter (fun x => w.adjacent n x.1 && (match x.2 with
      | some (some s) => decide (s ∈ w.sched)
      | _ => false))).length) := by
  obtain ⟨l, hl, hnd, _, hmem⟩ := C43_neighbors w hI hu r a n ha hn hh
  unfold NWorld.countNeighbors
  rw [hl, Option.map_some]
  congr 1
  -- the agents on those nodes
  let f : NId × Option (Option Nat) → Nat := fun x => (x.2.bind id).getD 0
  have hnodup : (w.nodes.filter (fun x => w.adjacent n x.1 && (match x.2 with
      | some (some s) => decide (s ∈ w.sched)
      | _ => false))).Nodup := (List.Nodup.of_map Prod.fst hI.wf).filter _
  have hperm : l.Perm ((w.nodes.filter (fun x => w.adjacent n x.1 && (match x.2 with
      | some (some s) => decide (s ∈ w.sched)
      | _ => false))).map f) := by
    rw [List.perm_ext_iff_of_nodup hnd]
    · intro s
      rw [hmem, List.mem_map]
      constructor
      · rintro ⟨hs, m, hadj, hm⟩
        exact ⟨(m, some (some s)), by rw [List.mem_filter]; exact ⟨Dict.get?_mem hm, by simp [hadj, hs]⟩, rfl⟩
      · rintro ⟨⟨m, v⟩, hx, hf⟩
        rw [List.mem_filter] at hx
        obtain ⟨hx1, hx2⟩ := hx
        match v, hx1, hx2, hf with
        | some (some t), hx1, hx2, hf =>
          simp only [Bool.and_eq_true, decide_eq_true_eq] at hx2
          have : t = s := hf
          subst this
          exact ⟨hx2.2, m, hx2.1, Dict.get?_of_mem hI.wf hx1⟩
        | some none, _, hx2, _ => simp at hx2
        | none, _, hx2, _ => simp at hx2
    · apply List.Nodup.map_on _ hnodup
      rintro ⟨m, v⟩ hx ⟨m', v'⟩ hx' hf
      rw [List.mem_filter] at hx hx'
      obtain ⟨hx1, hx2⟩ := hx
      obtain ⟨hx1', hx2'⟩ := hx'
      match v, v', hx1, hx2, hx1', hx2', hf with
      | some (some t), some (some t'), hx1, _, hx1', _, hf =>
        have : t = t' := hf
        subst this
        obtain ⟨b, hb, hbm⟩ := hI.onNode m t (Dict.get?_of_mem hI.wf hx1)
        obtain ⟨b', hb', hbm'⟩ := hI.onNode m' t (Dict.get?_of_mem hI.wf hx1')
        rw [hb] at hb'; cases hb'
        rw [hbm] at hbm'
        cases hbm'
        rfl
      | some none, _, _, hx2, _, _, _ => simp at hx2
      | none, _, _, hx2, _, _, _ => simp at hx2
      | some (some t), some none, _, _, _, hx2', _ => simp at hx2'
      | some (some t), none, _, _, _, hx2', _ => simp at hx2'
  have := hperm.length_eq
  simpa using this

/-- A path 0-1-2 with agents on all nodes. -/
def exPath : NWorld := exGraph.run [.populate [true] none (fun _ => 0) (fun _ => .ok)]

example : exPath.getNeighbors 1 = some [0, 2] ∧ exPath.getNeighbors 0 = some [1] ∧ exPath.countNeighbors 1 = some 2 ∧
    ((exPath.die 0 true).1.getNeighbors 1) = some [2] ∧ ((exPath.die 0 false).1.getNeighbors 1) = some [2] := by
  decide +kernel

/-! ### C44 -/

/-- C44: a network agent that dies (default arguments) is in no node, not scheduled, nobody's neighbour and not in
`network_agents`, immediately and after any further history. `get_agents` and `broadcast` only see scheduled agents. -/
theorem C44_gone (w : NWorld) (hI : NInv w) (r : Nat) (a : NAgent) (ha : w.agents[r]? = some a) (hnet : a.net = true)
    (hal : a.alive = true) (hret : (w.die r true).2 = true) (ops : List NOp) :
    let w' := (w.die r true).1.run ops
    (∀ n, Dict.get? w'.nodes n ≠ some (some (some r))) ∧ r ∉ w'.sched ∧ some r ∉ w'.networkAgents ∧
    (∀ s l, w'.getNeighbors s = some l → r ∉ l) ∧ ∃ a', w'.agents[r]? = some a' ∧ a'.alive = false := by
  have hr : r < w.agents.length := (List.getElem?_eq_some_iff.1 ha).1
  -- right after the death
  have hG : (w.die r true).1.Gone r ∧ (w.die r true).1.agents.length = w.agents.length := by
    unfold NWorld.die at hret ⊢
    simp only [ha, hnet, hal, if_true, Bool.not_true, Bool.false_eq_true, if_false] at hret ⊢
    cases hn : a.node with
    | none => rw [hn] at hret; simp at hret
    | some n =>
      rw [hn] at hret
      simp only at hret ⊢
      split
      · refine ⟨⟨⟨_, List.getElem?_set_self hr, rfl⟩, ?_, ?_⟩, by simp [NWorld.removeGraphNode]⟩
        · exact fun h => (hI.nodup.not_mem_erase) h
        · intro m hm
          simp only [NWorld.removeGraphNode] at hm
          rw [Dict.get?_del _ hI.wf] at hm
          split at hm
          · cases hm
          · rename_i hne
            obtain ⟨b, hb, hbm⟩ := hI.onNode m r hm
            rw [ha] at hb; cases hb
            rw [hn] at hbm; cases hbm
            exact hne rfl
      · rename_i hh; rw [if_neg hh] at hret; cases hret
  have hI1 : NInv (w.die r true).1 := NSteps.inv (die_steps ⟨false, false, 0⟩ w r true (by simp)) hI
  intro w'
  have hst : NSteps ⟨false, false, w.agents.length⟩ (w.die r true).1 w' := by
    refine NWorld.run_steps _ _ ops hI1 (by simp [hG.2]) ?_
    generalize (w.die r true).1 = w0
    clear hI1 hG w' hret
    induction ops generalizing w0 with
    | nil => trivial
    | cons op ops ih => exact ⟨⟨by simp, by simp⟩, ih _⟩
  have hG' := NSteps.gone hst hI1 r hr hG.1
  refine ⟨hG'.offGraph, hG'.unscheduled, ?_, ?_, hG'.dead⟩
  · intro hm
    unfold NWorld.networkAgents at hm
    rw [List.mem_filterMap] at hm
    obtain ⟨⟨n, v⟩, hx, hx2⟩ := hm
    have hwf := (NSteps.inv hst hI1).wf
    match v, hx, hx2 with
    | some (some t), hx, hx2 =>
      simp only at hx2
      split at hx2
      · split at hx2
        · have : t = r := by simpa using hx2
          subst this
          exact hG'.offGraph n (Dict.get?_of_mem hwf hx)
        · cases hx2
      · cases hx2
    | some none, _, hx2 => simp at hx2
    | none, _, hx2 => simp at hx2
  · intro s l hl
    unfold NWorld.getNeighbors at hl
    split at hl
    · cases hl
    · split at hl
      · cases hl; simp
      · cases hl
        exact fun h => hG'.unscheduled (List.mem_filter.1 h).1

/-- C44: `die` returns (and so C44 applies) whenever the links of C39 hold. -/
theorem C44_returns (w : NWorld) (hL : w.Linked) (r : Nat) (a : NAgent) (ha : w.agents[r]? = some a) (hnet : a.net = true)
    (hal : a.alive = true) : (w.die r true).2 = true := by
  obtain ⟨n, hn, hg⟩ := hL r a ha hnet hal
  simp [NWorld.die, ha, hnet, hal, hn, Dict.has, hg]

/-- C44 is violated when an agent dies while it is being created (`self.die()` in `init`): it is scheduled afterwards. -/
theorem C44_die_in_init_false (w : NWorld) (uid : Nat) (picks : Nat → Nat) :
    let w' := (w.addAgent true (some uid) none picks .dies).1
    w.agents.length ∈ w'.sched ∧ ∃ a, w'.agents[w.agents.length]? = some a ∧ a.alive = false := by
  have hc : ∃ w1 n, w.chooseNode none picks = some (w1, n) ∧ w1.agents = w.agents ∧ Dict.has w1.nodes n = true := by
    unfold NWorld.chooseNode
    simp only
    cases hf : firstFree w.nodes (candidates w.nodes picks) with
    | some n =>
      obtain ⟨_, x, hx, _⟩ := firstFree_spec w _ _ hf
      exact ⟨w, n, rfl, rfl, by simp [Dict.has, hx]⟩
    | none =>
      refine ⟨_, _, rfl, ?_, ?_⟩
      · unfold NWorld.addGraphNode; split <;> rfl
      · unfold NWorld.addGraphNode
        split
        · rename_i h; exact h
        · simp [Dict.has]
  obtain ⟨w1, n, hc, hag, hh⟩ := hc
  have h2 : Dict.has (Dict.set w1.nodes n (some (some w.agents.length))) n = true := by simp [Dict.has_set]
  simp only [NWorld.addAgent, NWorld.baseAdd, NWorld.takeId, NWorld.construct, if_true, hc]
  simp [NWorld.die, NWorld.removeGraphNode, hag, h2]

example : (exGraph.run [.add true none none (fun _ => 0) .dies]).sched = [0] ∧
    (exGraph.run [.add true none none (fun _ => 0) .dies]).nodes = [(.int 1, none), (.int 2, none)] := by
  decide +kernel

example : ((exPath.die 1 true).1.getNeighbors 0) = some [] ∧ (exPath.die 1 true).1.sched = [0, 2] ∧
    (exPath.die 1 true).1.edges = [] := by
  decide +kernel

/-! ### C45 -/

/-- C45: on an undirected graph, `add_edge` makes the two nodes adjacent, changes no other adjacency, no node and no agent. -/
theorem C45_add_edge (w : NWorld) (hd : w.directed = false) (r s : Nat) (a b : NAgent) (n m : NId)
    (ha : w.agents[r]? = some a) (hb : w.agents[s]? = some b) (hn : a.node = some n) (hm : b.node = some m)
    (hhn : Dict.has w.nodes n = true) (hhm : Dict.has w.nodes m = true) :
    (w.addEdge r s).2 = true ∧ (w.addEdge r s).1.nodes = w.nodes ∧ (w.addEdge r s).1.agents = w.agents ∧
    (w.addEdge r s).1.sched = w.sched ∧
    ∀ x y, (w.addEdge r s).1.adjacent x y = true ↔
      (w.adjacent x y = true ∨ (x = n ∧ y = m) ∨ (x = m ∧ y = n)) := by
  unfold NWorld.addEdge
  simp only [ha, hb, hn, hm, hhn, hhm, if_true]
  by_cases hadj : w.adjacent n m = true
  · rw [if_pos hadj]
    refine ⟨rfl, rfl, rfl, rfl, ?_⟩
    intro x y
    have hsym : w.adjacent m n = true := by
      unfold NWorld.adjacent at hadj ⊢
      rw [hd] at hadj ⊢
      simpa [or_comm] using hadj
    constructor
    · exact Or.inl
    · rintro (h | ⟨rfl, rfl⟩ | ⟨rfl, rfl⟩)
      · exact h
      · exact hadj
      · exact hsym
  · rw [if_neg hadj]
    refine ⟨rfl, rfl, rfl, rfl, ?_⟩
    intro x y
    unfold NWorld.adjacent
    simp only [hd, List.mem_append, List.mem_singleton, Prod.mk.injEq, Bool.not_false, Bool.true_and, Bool.or_eq_true,
      decide_eq_true_eq]
    tauto

/-- C45: if one of the agents is no longer on a node of the graph, `add_edge` raises and nothing changes. -/
theorem C45_raises (w : NWorld) (r s : Nat) (a b : NAgent) (ha : w.agents[r]? = some a) (hb : w.agents[s]? = some b)
    (h : (∀ n, a.node = some n → Dict.has w.nodes n = false) ∨ (∀ m, b.node = some m → Dict.has w.nodes m = false)) :
    (w.addEdge r s).2 = false ∧ (w.addEdge r s).1 = w := by
  unfold NWorld.addEdge
  simp only [ha, hb]
  cases hn : a.node with
  | none => exact ⟨rfl, rfl⟩
  | some n =>
    cases hm : b.node with
    | none => exact ⟨rfl, rfl⟩
    | some m =>
      simp only
      rcases h with h | h
      · rw [h n hn]; exact ⟨rfl, rfl⟩
      · rw [h m hm]; split <;> exact ⟨rfl, rfl⟩

/-- C45, at the level of agents: two scheduled agents on the graph are neighbours of each other afterwards. -/
theorem C45_neighbors (w : NWorld) (hI : NInv w) (hu : w.UniqueIds) (hd : w.directed = false) (r s : Nat) (a b : NAgent)
    (n m : NId) (ha : w.agents[r]? = some a) (hb : w.agents[s]? = some b) (hn : a.node = some n) (hm : b.node = some m)
    (hrn : Dict.get? w.nodes n = some (some (some r))) (hsm : Dict.get? w.nodes m = some (some (some s)))
    (hr : r ∈ w.sched) (hs : s ∈ w.sched) :
    ∃ l k, (w.addEdge r s).1.getNeighbors r = some l ∧ (w.addEdge r s).1.getNeighbors s = some k ∧ s ∈ l ∧ r ∈ k := by
  have hhn : Dict.has w.nodes n = true := by simp [Dict.has, hrn]
  have hhm : Dict.has w.nodes m = true := by simp [Dict.has, hsm]
  obtain ⟨_, e2, e3, e4, e5⟩ := C45_add_edge w hd r s a b n m ha hb hn hm hhn hhm
  have hI' : NInv (w.addEdge r s).1 := NSteps.inv (addEdge_steps ⟨false, false, 0⟩ w r s) hI
  have hu' : (w.addEdge r s).1.UniqueIds := by
    unfold NWorld.UniqueIds
    rw [e3]; exact hu
  obtain ⟨l, hl, _, _, hlm⟩ := C43_neighbors _ hI' hu' r a n (by rw [e3]; exact ha) hn (by rw [e2]; exact hhn)
  obtain ⟨k, hk, _, _, hkm⟩ := C43_neighbors _ hI' hu' s b m (by rw [e3]; exact hb) hm (by rw [e2]; exact hhm)
  refine ⟨l, k, hl, hk, ?_, ?_⟩
  · rw [hlm, e4, e2]
    exact ⟨hs, m, (e5 n m).2 (Or.inr (Or.inl ⟨rfl, rfl⟩)), hsm⟩
  · rw [hkm, e4, e2]
    exact ⟨hr, n, (e5 m n).2 (Or.inr (Or.inr ⟨rfl, rfl⟩)), hrn⟩

/-- C45 is violated on directed graphs: the other agent does not get a neighbour. -/
theorem C45_directed_false (w : NWorld) (hd : w.directed = true) (r s : Nat) (a b : NAgent) (n m : NId)
    (ha : w.agents[r]? = some a) (hb : w.agents[s]? = some b) (hn : a.node = some n) (hm : b.node = some m)
    (hhn : Dict.has w.nodes n = true) (hhm : Dict.has w.nodes m = true) (hne : n ≠ m)
    (hno : w.adjacent m n = false) :
    (w.addEdge r s).2 = true ∧ (w.addEdge r s).1.adjacent n m = true ∧ (w.addEdge r s).1.adjacent m n = false := by
  unfold NWorld.addEdge
  simp only [ha, hb, hn, hm, hhn, hhm, if_true]
  by_cases hadj : w.adjacent n m = true
  · rw [if_pos hadj]
    exact ⟨rfl, hadj, hno⟩
  · rw [if_neg hadj]
    unfold NWorld.adjacent at hno ⊢
    simp only [hd, Bool.not_true, Bool.false_and, Bool.or_false, decide_eq_false_iff_not] at hno ⊢
    simp [hno, Ne.symm hne]

example : ((exPath.addEdge 0 2).1.getNeighbors 0) = some [1, 2] ∧ ((exPath.addEdge 0 2).1.getNeighbors 2) = some [0, 1] ∧
    ((exPath.die 0 true).1.addEdge 1 0).2 = false := by
  decide +kernel

end Verif
