import Verif.Model.Geo
import Mathlib.Tactic.Linarith
import Mathlib.Tactic.Ring

/-!
# C139: geo_search
-/

namespace Verif

/-- The agent or an agent that matches sits on the node. -/
def OnNode (sched : List GeoAgent) (n : Nat) : Prop := ∃ a ∈ sched, a.sat = true ∧ a.attr = some n

theorem mapM_attr (l : List GeoAgent) (h : ∀ a ∈ l, a.attr ≠ none) : ∃ ids, l.mapM GeoAgent.attr = some ids ∧
    ∀ n, n ∈ ids ↔ ∃ a ∈ l, a.attr = some n := by
  induction l with
  | nil => exact ⟨[], rfl, by simp⟩
  | cons a l ih =>
    obtain ⟨ids, h1, h2⟩ := ih (fun x hx => h x (by simp [hx]))
    obtain ⟨k, hk⟩ := Option.ne_none_iff_exists'.1 (h a (by simp))
    refine ⟨k :: ids, by simp [List.mapM_cons, h1, hk], ?_⟩
    intro n
    simp only [List.mem_cons, h2]
    constructor
    · rintro (rfl | ⟨b, hb, e⟩)
      · exact ⟨a, Or.inl rfl, hk⟩
      · exact ⟨b, Or.inr hb, e⟩
    · rintro ⟨b, rfl | hb, e⟩
      · rw [hk] at e; cases e; exact Or.inl rfl
      · exact Or.inr ⟨b, hb, e⟩

theorem mapM_attr_none (l : List GeoAgent) (a : GeoAgent) (ha : a ∈ l) (h : a.attr = none) : l.mapM GeoAgent.attr = none := by
  induction l with
  | nil => cases ha
  | cons b l ih =>
    rcases List.mem_cons.1 ha with rfl | ha
    · simp [List.mapM_cons, h]
    · rw [List.mapM_cons, ih ha]
      cases b.attr <;> rfl

/-- C139 (subgraph): if all scheduled agents that satisfy the criteria are network agents, the nodes of `subgraph` are exactly the nodes
of the network on which one of them sits, and its own with `center`. -/
theorem C139_subgraph_partial (net : GeoNet) (sched : List GeoAgent) (own : Nat) (center : Bool)
    (hnet : ∀ a ∈ sched, a.sat = true → a.attr ≠ none) :
    ∃ ns, subgraphNodes net sched own center = some ns ∧
      ∀ n, n ∈ ns ↔ n ∈ net.nodes ∧ (OnNode sched n ∨ (center = true ∧ n = own)) := by
  obtain ⟨ids, h1, h2⟩ := mapM_attr (sched.filter GeoAgent.sat) (fun a ha => by
    obtain ⟨h, hm⟩ := List.mem_filter.1 ha
    exact hnet a h hm)
  refine ⟨net.nodes.filter (fun n => decide (n ∈ ids ++ if center = true then [own] else [])),
    by simp only [subgraphNodes, subgraphIds, h1, Option.map_some], ?_⟩
  intro n
  rw [List.mem_filter, decide_eq_true_eq, List.mem_append, h2]
  have : (∃ a ∈ sched.filter GeoAgent.sat, a.attr = some n) ↔ OnNode sched n := by
    constructor
    · rintro ⟨a, ha, e⟩
      obtain ⟨h, hm⟩ := List.mem_filter.1 ha
      exact ⟨a, h, hm, e⟩
    · rintro ⟨a, h, hm, e⟩
      exact ⟨a, List.mem_filter.2 ⟨h, hm⟩, e⟩
  rw [this]
  cases center <;> simp

/-- C139 is false in environments with other agents: as soon as a scheduled agent without a node satisfies the criteria, the search
raises, wherever the agents are. -/
theorem C139_other_agents_false (net : GeoNet) (sched : List GeoAgent) (own : Nat) (radius : Rat) (center : Bool) (a : GeoAgent)
    (ha : a ∈ sched) (hm : a.sat = true) (hn : a.attr = none) : geoSearch net sched own radius center = none := by
  unfold geoSearch subgraphNodes subgraphIds
  rw [mapM_attr_none (sched.filter GeoAgent.sat) a (List.mem_filter.2 ⟨ha, hm⟩) hn]
  rfl

/-- C139 (partial: network agents only, the own node in the network and with a position): the search returns exactly the nodes with a
position at most `radius` away on which an agent that satisfies the criteria sits, without the own one unless `center` (then the own one
whether or not it satisfies the criteria); none twice. -/
theorem C139_exact_partial (net : GeoNet) (sched : List GeoAgent) (own : Nat) (radius : Rat) (center : Bool) (p : Rat × Rat)
    (hnet : ∀ a ∈ sched, a.sat = true → a.attr ≠ none) (hnd : net.nodes.Nodup) (hown : own ∈ net.nodes) (hp : net.pos own = some p) :
    ∃ l, geoSearch net sched own radius center = some l ∧ l.Nodup ∧
      ∀ n, n ∈ l ↔ n ∈ net.nodes ∧ (OnNode sched n ∨ n = own) ∧ (center = true ∨ n ≠ own) ∧
        ∃ q, net.pos n = some q ∧ 0 ≤ radius ∧
          (p.1 - q.1) * (p.1 - q.1) + (p.2 - q.2) * (p.2 - q.2) ≤ radius * radius := by
  obtain ⟨ns, h1, h2⟩ := C139_subgraph_partial net sched own true hnet
  have hns : ns.Nodup := by
    unfold subgraphNodes at h1
    obtain ⟨ids, _, rfl⟩ := Option.map_eq_some_iff.1 h1
    exact hnd.filter _
  have hmem : own ∈ ns.filter (fun n => (net.pos n).isSome) := by
    rw [List.mem_filter, h2]
    exact ⟨⟨hown, Or.inr ⟨rfl, rfl⟩⟩, by simp [hp]⟩
  have hne : (ns.filter (fun n => (net.pos n).isSome)).isEmpty = false := by
    rw [List.isEmpty_eq_false_iff_exists_mem]
    exact ⟨own, hmem⟩
  unfold geoSearch
  rw [h1]
  simp only [hne, Bool.false_eq_true, if_false, hmem, not_true_eq_false, hp]
  refine ⟨_, rfl, ((hns.filter _).filter _).filter _, ?_⟩
  intro n
  simp only [List.mem_filter, h2, Bool.or_eq_true, decide_eq_true_eq, true_and]
  constructor
  · rintro ⟨⟨⟨⟨ha, hb⟩, hc⟩, hd⟩, he⟩
    refine ⟨ha, hb, he, ?_⟩
    cases hq : net.pos n with
    | none => rw [hq] at hc; cases hc
    | some q =>
      rw [hq] at hd
      simp only [inBall, Bool.and_eq_true, decide_eq_true_eq] at hd
      exact ⟨q, rfl, hd.1, hd.2⟩
  · rintro ⟨ha, hb, hc, q, hq, hd, he⟩
    refine ⟨⟨⟨⟨ha, hb⟩, by simp [hq]⟩, ?_⟩, hc⟩
    rw [hq]
    simp [inBall, hd, he]

/-- C139 is false if the own node has no position but the node of another agent found has one: `KeyError`. -/
theorem C139_no_position_false (net : GeoNet) (sched : List GeoAgent) (own n : Nat) (radius : Rat) (center : Bool)
    (hnet : ∀ a ∈ sched, a.sat = true → a.attr ≠ none) (hp : net.pos own = none) (hn : n ∈ net.nodes) (hon : OnNode sched n)
    (hpos : (net.pos n).isSome) : geoSearch net sched own radius center = none := by
  obtain ⟨ns, h1, h2⟩ := C139_subgraph_partial net sched own true hnet
  unfold geoSearch
  rw [h1]
  have hmem : n ∈ ns.filter (fun n => (net.pos n).isSome) := List.mem_filter.2 ⟨(h2 n).2 ⟨hn, Or.inl hon⟩, hpos⟩
  have hne : (ns.filter (fun n => (net.pos n).isSome)).isEmpty = false := by
    rw [List.isEmpty_eq_false_iff_exists_mem]
    exact ⟨n, hmem⟩
  have hno : own ∉ ns.filter (fun n => (net.pos n).isSome) := by
    intro h
    have := (List.mem_filter.1 h).2
    rw [hp] at this
    cases this
  simp only [hne, Bool.false_eq_true, if_false, hno, not_false_eq_true, if_true]

/-- C139: the search is symmetric: if one agent's search (over all agents) finds the node of another one, the other's search with the
same radius finds the node of the first. -/
theorem C139_symmetric (net : GeoNet) (sched : List GeoAgent) (a b : Nat) (radius : Rat) (la lb : List Nat)
    (hnet : ∀ x ∈ sched, x.sat = true → x.attr ≠ none) (hnd : net.nodes.Nodup)
    (ha : a ∈ net.nodes) (hb : b ∈ net.nodes) (hoa : OnNode sched a) (hpa : (net.pos a).isSome) (hpb : (net.pos b).isSome)
    (hla : geoSearch net sched a radius false = some la) (hlb : geoSearch net sched b radius false = some lb)
    (h : b ∈ la) : a ∈ lb := by
  obtain ⟨p, hp⟩ := Option.isSome_iff_exists.1 hpa
  obtain ⟨q, hq⟩ := Option.isSome_iff_exists.1 hpb
  obtain ⟨l1, e1, _, h1⟩ := C139_exact_partial net sched a radius false p hnet hnd ha hp
  obtain ⟨l2, e2, _, h2⟩ := C139_exact_partial net sched b radius false q hnet hnd hb hq
  rw [hla] at e1
  rw [hlb] at e2
  cases e1
  cases e2
  obtain ⟨_, _, hne, q', hq', hr, hd⟩ := (h1 b).1 h
  rw [hq] at hq'
  cases hq'
  refine (h2 a).2 ⟨ha, Or.inl hoa, Or.inr ?_, p, hp, hr, ?_⟩
  · rintro rfl
    rcases hne with hne | hne
    · cases hne
    · exact hne rfl
  · have e : (q.1 - p.1) * (q.1 - p.1) + (q.2 - p.2) * (q.2 - p.2) = (p.1 - q.1) * (p.1 - q.1) + (p.2 - q.2) * (p.2 - q.2) := by ring
    rw [e]
    exact hd

/-- C139: a larger radius finds at least as much. -/
theorem C139_monotone (net : GeoNet) (sched : List GeoAgent) (own : Nat) (r s : Rat) (center : Bool) (l l' : List Nat)
    (hnet : ∀ x ∈ sched, x.sat = true → x.attr ≠ none) (hnd : net.nodes.Nodup) (hown : own ∈ net.nodes)
    (hp : (net.pos own).isSome) (hrs : r ≤ s)
    (hl : geoSearch net sched own r center = some l) (hl' : geoSearch net sched own s center = some l') : ∀ n ∈ l, n ∈ l' := by
  obtain ⟨p, hp⟩ := Option.isSome_iff_exists.1 hp
  obtain ⟨l1, e1, _, h1⟩ := C139_exact_partial net sched own r center p hnet hnd hown hp
  obtain ⟨l2, e2, _, h2⟩ := C139_exact_partial net sched own s center p hnet hnd hown hp
  rw [hl] at e1
  rw [hl'] at e2
  cases e1
  cases e2
  intro n hn
  obtain ⟨a, b, c, q, d, e, f⟩ := (h1 n).1 hn
  exact (h2 n).2 ⟨a, b, c, q, d, le_trans e hrs, le_trans f (mul_le_mul hrs hrs e (le_trans e hrs))⟩

/-- Three agents in a row and a free node. -/
def geoRow : GeoNet := ⟨[0, 1, 2, 3], fun n => some ((n : Rat), 0)⟩

example : geoSearch geoRow [⟨some 0, true⟩, ⟨some 1, true⟩, ⟨some 2, true⟩] 0 1 false = some [1] ∧
    geoSearch geoRow [⟨some 0, true⟩, ⟨some 1, true⟩, ⟨some 2, true⟩] 0 2 true = some [0, 1, 2] ∧
    geoSearch geoRow [⟨some 0, true⟩, ⟨some 1, false⟩, ⟨some 2, true⟩] 0 5 false = some [2] ∧
    geoSearch geoRow [⟨some 0, true⟩, ⟨some 1, true⟩, ⟨none, true⟩] 0 1 false = none := by decide +kernel

end Verif
