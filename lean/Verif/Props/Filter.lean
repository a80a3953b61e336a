import Verif.Model.Filter
import Mathlib.Data.List.Basic

/-!
# Properties C46–C48: queries
-/

namespace Verif

/-- What one criterion on an attribute means. -/
def CritVal.holds (a : FAgent) (k : String) : CritVal → Prop
  | .one v => a.attr k = v
  | .many vs => a.attr k ∈ vs

/-- What the caller asks for: ids (if any are given), class, state id, and all criteria on attributes. -/
structure Query.Matches (sub : Nat → Nat → Bool) (q : Query) (a : FAgent) : Prop where
  ids : (q.uniqueId ≠ .absent ∨ q.idArgs ≠ []) → a.uid ∈ q.idArgs ∨ q.uniqueId = .one a.uid ∨ ∃ is, q.uniqueId = .many is ∧ a.uid ∈ is
  stateId : ∀ l, q.stateId = some l → a.attr "state_id" ∈ l
  cls : ∀ l, q.cls = some l → ∃ c ∈ l, sub a.cls c = true
  state : ∀ d k v, q.state = some d → (k, v) ∈ d → k ∉ Dict.keys q.kwargs → v.holds a k
  kwargs : ∀ k v, (k, v) ∈ q.kwargs → v.holds a k

theorem CritVal.holds_iff (a : FAgent) (k : String) (v : CritVal) :
    v.holds a k ↔ v.wrap.any (fun x => decide (a.attr k = x)) = true := by
  cases v <;> simp [CritVal.holds, CritVal.wrap]

theorem critLoop_spec (d : Dict String CritVal) (cell : Cell) (fs : List (Cell → FAgent → Bool)) :
    (critLoop d cell fs).1 = (match d.getLast? with
      | none => cell
      | some kv => (kv.1, kv.2.wrap)) ∧
    (critLoop d cell fs).2 = fs ++ List.replicate d.length (fun c a => c.2.any (fun v => decide (a.attr c.1 = v))) := by
  induction d generalizing cell fs with
  | nil => simp [critLoop]
  | cons kv d ih =>
    obtain ⟨k, v⟩ := kv
    simp only [critLoop]
    obtain ⟨h1, h2⟩ := ih (k, v.wrap) (fs ++ [fun c a => c.2.any (fun v => decide (a.attr c.1 = v))])
    refine ⟨?_, ?_⟩
    · rw [h1]
      cases d with
      | nil => simp
      | cons x d =>
        rw [List.getLast?_cons_cons]
        cases hx : (x :: d).getLast? with
        | none => simp at hx
        | some y => rfl
    · rw [h2]
      simp [List.replicate_succ]

theorem foldl_filter_replicate {α : Type} (n : Nat) (p : α → Bool) (f : List α) :
    (List.replicate n p).foldl (fun f p => f.filter p) f = if n = 0 then f else f.filter p := by
  induction n generalizing f with
  | zero => simp
  | succ n ih =>
    rw [List.replicate_succ, List.foldl_cons, ih]
    by_cases hn : n = 0 <;> simp [hn]

/-- The exact meaning of the criteria on attributes: only the last one counts. -/
def critsMeaning (q : Query) (a : FAgent) : Bool :=
  match q.crits.getLast? with
  | none => true
  | some kv => kv.2.wrap.any (fun v => decide (a.attr kv.1 = v))

theorem filterAgents_eq (sub : Nat → Nat → Bool) (agents : List FAgent) (q : Query) (hl : q.limit = none) :
    filterAgents sub agents q = agents.filter (fun a =>
      (decide (q.ids = []) || decide (a.uid ∈ q.ids)) &&
      (match q.stateId with
        | none => true
        | some l => decide (a.get "state_id" ∈ l)) &&
      (match q.cls with
        | none => true
        | some l => l.any (fun c => sub a.cls c)) && critsMeaning q a) := by
  unfold filterAgents
  obtain ⟨h1, h2⟩ := critLoop_spec q.crits ("", []) []
  simp only [hl, h2, List.nil_append]
  have key : ∀ (f : List FAgent),
      (List.replicate q.crits.length (fun (c : Cell) (a : FAgent) => c.2.any (fun v => decide (a.attr c.1 = v)))).foldl
        (fun f p => f.filter (p (critLoop q.crits ("", []) []).1)) f = f.filter (critsMeaning q) := by
    intro f
    have := foldl_filter_replicate q.crits.length
      (fun a : FAgent => (critLoop q.crits ("", []) []).1.2.any (fun v => decide (a.attr (critLoop q.crits ("", []) []).1.1 = v))) f
    rw [← List.map_replicate (f := fun (p : Cell → FAgent → Bool) => p (critLoop q.crits ("", []) []).1) (a := fun (c : Cell) (a : FAgent) => c.2.any (fun v => decide (a.attr c.1 = v))), List.foldl_map] at this
    rw [this, h1]
    unfold critsMeaning
    cases hc : q.crits.getLast? with
    | none =>
      rw [List.getLast?_eq_none_iff] at hc
      simp [hc]
    | some kv =>
      have : q.crits.length ≠ 0 := by
        intro h
        rw [List.length_eq_zero_iff] at h
        rw [h] at hc; cases hc
      simp [this]
  rw [key]
  have e1 : (if q.ids = [] then agents else agents.filter (fun a => decide (a.uid ∈ q.ids))) =
      agents.filter (fun a => decide (q.ids = []) || decide (a.uid ∈ q.ids)) := by
    by_cases h : q.ids = [] <;> simp [h]
  rw [e1]
  cases q.stateId <;> cases q.cls <;> simp [List.filter_filter, Bool.and_comm, Bool.and_left_comm]

theorem Query.ids_spec (q : Query) (i : Nat) :
    i ∈ q.ids ↔ i ∈ q.idArgs ∨ q.uniqueId = .one i ∨ ∃ is, q.uniqueId = .many is ∧ i ∈ is := by
  unfold Query.ids
  cases q.uniqueId with
  | absent => simp
  | one j => simp [eq_comm, or_comm]
  | many js => simp [or_comm]

theorem Query.crits_wf (q : Query) (hd : ∀ d, q.state = some d → Dict.WF d) : Dict.WF q.crits := by
  unfold Query.crits
  apply Dict.WF.update
  cases h : q.state with
  | none => simp [Dict.WF, Dict.keys]
  | some d => exact hd d h

/-- The criteria on attributes that count, according to the caller. -/
theorem Query.mem_crits (q : Query) (hd : ∀ d, q.state = some d → Dict.WF d) (hk : Dict.WF q.kwargs) (k : String)
    (v : CritVal) :
    (k, v) ∈ q.crits ↔ (k, v) ∈ q.kwargs ∨ (∃ d, q.state = some d ∧ (k, v) ∈ d ∧ k ∉ Dict.keys q.kwargs) := by
  have hwf := q.crits_wf hd
  have hiff : ∀ (d : Dict String CritVal), Dict.WF d → ∀ k v, (k, v) ∈ d ↔ Dict.get? d k = some v := by
    intro d hd k v
    exact ⟨fun h => Dict.get?_of_mem hd h, fun h => Dict.get?_mem h⟩
  rw [hiff _ hwf]
  unfold Query.crits
  rw [Dict.get?_update _ _ hk]
  have hmem : k ∉ Dict.keys q.kwargs ↔ Dict.get? q.kwargs k = none := by
    rw [Dict.mem_keys]; simp
  rw [hiff _ hk, hmem]
  cases hg : Dict.get? q.kwargs k with
  | some v' => simp
  | none =>
    cases hs : q.state with
    | none => simp
    | some d =>
      simp only [Option.or, Option.some.injEq, reduceCtorEq, false_or]
      rw [← hiff d (hd d hs)]
      simp

theorem Query.attrs_iff (q : Query) (hd : ∀ d, q.state = some d → Dict.WF d) (hk : Dict.WF q.kwargs) (a : FAgent) :
    ((∀ d k v, q.state = some d → (k, v) ∈ d → k ∉ Dict.keys q.kwargs → v.holds a k) ∧
      (∀ k v, (k, v) ∈ q.kwargs → v.holds a k)) ↔ ∀ k v, (k, v) ∈ q.crits → v.holds a k := by
  constructor
  · rintro ⟨h1, h2⟩ k v h
    rcases (q.mem_crits hd hk k v).1 h with h | ⟨d, hs, hm, hn⟩
    · exact h2 k v h
    · exact h1 d k v hs hm hn
  · intro h
    exact ⟨fun d k v hs hm hn => h k v ((q.mem_crits hd hk k v).2 (Or.inr ⟨d, hs, hm, hn⟩)),
      fun k v hm => h k v ((q.mem_crits hd hk k v).2 (Or.inl hm))⟩

theorem Query.ids_nil (q : Query) (hids : q.uniqueId ≠ .many [] ∨ q.idArgs ≠ []) :
    q.ids = [] ↔ ¬ (q.uniqueId ≠ .absent ∨ q.idArgs ≠ []) := by
  unfold Query.ids
  cases hu : q.uniqueId with
  | absent => simp
  | one i => simp
  | many is =>
    cases is with
    | nil => rw [hu] at hids; simp at hids; simp [hids]
    | cons i is => simp

theorem simpleMatches_iff (sub : Nat → Nat → Bool) (q : Query) (hd : ∀ d, q.state = some d → Dict.WF d)
    (hk : Dict.WF q.kwargs) (hids : q.uniqueId ≠ .many [] ∨ q.idArgs ≠ []) (a : FAgent)
    (he : Dict.get? a.attrs "state_id" = none → Dict.get? a.env "state_id" = none) :
    q.Matches sub a ↔
      (((decide (q.ids = []) || decide (a.uid ∈ q.ids)) &&
      (match q.stateId with
        | none => true
        | some l => decide (a.get "state_id" ∈ l)) &&
      (match q.cls with
        | none => true
        | some l => l.any (fun c => sub a.cls c))) = true ∧ ∀ k v, (k, v) ∈ q.crits → v.holds a k) := by
  rw [← q.attrs_iff hd hk a]
  have h1 : (decide (q.ids = []) || decide (a.uid ∈ q.ids)) = true ↔
      ((q.uniqueId ≠ .absent ∨ q.idArgs ≠ []) → a.uid ∈ q.idArgs ∨ q.uniqueId = .one a.uid ∨
        ∃ is, q.uniqueId = .many is ∧ a.uid ∈ is) := by
    rw [Bool.or_eq_true, decide_eq_true_iff, decide_eq_true_iff, q.ids_nil hids, q.ids_spec]
    tauto
  have h2 : (match q.stateId with
      | none => true
      | some l => decide (a.get "state_id" ∈ l)) = true ↔ ∀ l, q.stateId = some l → a.attr "state_id" ∈ l := by
    have : a.get "state_id" = a.attr "state_id" := by
      unfold FAgent.get FAgent.attr
      cases hc : Dict.get? a.attrs "state_id" with
      | none => rw [he hc]; rfl
      | some v => rfl
    rw [this]
    cases q.stateId <;> simp
  have h3 : (match q.cls with
      | none => true
      | some l => l.any (fun c => sub a.cls c)) = true ↔ ∀ l, q.cls = some l → ∃ c ∈ l, sub a.cls c = true := by
    cases q.cls <;> simp
  rw [Bool.and_eq_true, Bool.and_eq_true, h1, h2, h3]
  constructor
  · rintro ⟨a1, a2, a3, a4, a5⟩; exact ⟨⟨⟨a1, a2⟩, a3⟩, a4, a5⟩
  · rintro ⟨⟨⟨a1, a2⟩, a3⟩, a4, a5⟩; exact ⟨a1, a2, a3, a4, a5⟩

/-! ### C47 -/

/-- The model has no attribute `state_id` (environments have none unless a parameter or user code adds it), or all agents
have a state of their own. -/
def NoEnvState (agents : List FAgent) : Prop :=
  ∀ a ∈ agents, Dict.get? a.attrs "state_id" = none → Dict.get? a.env "state_id" = none

/-- C47 for at most one criterion on attributes (and any number of ids, state ids, classes): the result consists of
exactly the agents that satisfy everything, in scheduling order. Missing: several criteria on attributes, see
`C47_only_last_false`, an empty list of ids, see `C47_empty_ids_false`, and models with an attribute `state_id`
together with agents without a state, see `C47_model_state_false`. -/
theorem C47_conjunction_partial (sub : Nat → Nat → Bool) (agents : List FAgent) (q : Query) (henv : NoEnvState agents)
    (hd : ∀ d, q.state = some d → Dict.WF d) (hk : Dict.WF q.kwargs) (hl : q.limit = none)
    (hone : q.crits.length ≤ 1) (hids : q.uniqueId ≠ .many [] ∨ q.idArgs ≠ []) :
    ∃ p : FAgent → Bool, (∀ a ∈ agents, p a = true ↔ q.Matches sub a) ∧ filterAgents sub agents q = agents.filter p := by
  refine ⟨_, ?_, filterAgents_eq sub agents q hl⟩
  intro a ha
  rw [Bool.and_eq_true, simpleMatches_iff sub q hd hk hids a (henv a ha)]
  have : critsMeaning q a = true ↔ ∀ k v, (k, v) ∈ q.crits → v.holds a k := by
    unfold critsMeaning
    match hc : q.crits, hone with
    | [], _ => simp
    | [(k, v)], _ =>
      simp only [List.getLast?_singleton, List.mem_singleton, Prod.mk.injEq]
      rw [← CritVal.holds_iff]
      constructor
      · rintro h k' v' ⟨rfl, rfl⟩; exact h
      · intro h; exact h k v ⟨rfl, rfl⟩
  rw [this]

/-- C47, for any criteria: no agent that satisfies everything is left out. -/
theorem C47_nothing_missing (sub : Nat → Nat → Bool) (agents : List FAgent) (q : Query) (henv : NoEnvState agents)
    (hd : ∀ d, q.state = some d → Dict.WF d) (hk : Dict.WF q.kwargs) (hl : q.limit = none)
    (hids : q.uniqueId ≠ .many [] ∨ q.idArgs ≠ []) (a : FAgent) (ha : a ∈ agents) (hm : q.Matches sub a) :
    a ∈ filterAgents sub agents q ∧ (filterAgents sub agents q).Sublist agents := by
  rw [filterAgents_eq sub agents q hl]
  refine ⟨?_, List.filter_sublist⟩
  rw [List.mem_filter, Bool.and_eq_true]
  obtain ⟨h1, h2⟩ := (simpleMatches_iff sub q hd hk hids a (henv a ha)).1 hm
  refine ⟨ha, h1, ?_⟩
  unfold critsMeaning
  cases hc : q.crits.getLast? with
  | none => rfl
  | some kv =>
    simp only
    rw [← CritVal.holds_iff]
    exact h2 kv.1 kv.2 (List.mem_of_getLast? hc)

/-- C47 is violated: with several criteria on attributes only the last one is applied. Any agent that satisfies the
last criterion is returned, whether or not it satisfies the others. -/
theorem C47_only_last_false (sub : Nat → Nat → Bool) (agents : List FAgent) (k₁ k₂ : String) (v₁ v₂ : CritVal)
    (hne : k₁ ≠ k₂) (a : FAgent) (ha : a ∈ agents) (h₁ : ¬ v₁.holds a k₁) (h₂ : v₂.holds a k₂) :
    let q : Query := { kwargs := [(k₁, v₁), (k₂, v₂)] }
    a ∈ filterAgents sub agents q ∧ ¬ q.Matches sub a := by
  intro q
  constructor
  · rw [filterAgents_eq sub agents q rfl]
    have hc : q.crits = [(k₁, v₁), (k₂, v₂)] := by
      simp [q, Query.crits, Dict.update, Dict.set, hne]
    simp only [List.mem_filter, critsMeaning, hc]
    refine ⟨ha, ?_⟩
    have := (CritVal.holds_iff a k₂ v₂).1 h₂
    simp [q, Query.ids, this]
  · intro h
    exact h₁ (h.kwargs k₁ v₁ (by simp [q]))

/-- C47 is violated: an empty list of ids is treated as no restriction. -/
theorem C47_empty_ids_false (sub : Nat → Nat → Bool) (agents : List FAgent) :
    filterAgents sub agents { uniqueId := .many [] } = agents ∧
    ∀ a, ¬ Query.Matches sub { uniqueId := .many [] } a := by
  constructor
  · rw [filterAgents_eq _ _ _ rfl]
    simp [Query.ids, critsMeaning, Query.crits, Dict.update]
  · intro a h
    have := h.ids (Or.inl (by simp))
    simp at this

/-- C47 is violated when the model has an attribute `state_id`: agents that have no state are taken to be in that one. -/
theorem C47_model_state_false (sub : Nat → Nat → Bool) (agents : List FAgent) (v : Val) (hv : v ≠ .none) (a : FAgent) (ha : a ∈ agents)
    (hno : Dict.get? a.attrs "state_id" = none) (henv : Dict.get? a.env "state_id" = some v) :
    let q : Query := { stateId := some [v] }
    a ∈ filterAgents sub agents q ∧ ¬ q.Matches sub a := by
  intro q
  constructor
  · rw [filterAgents_eq sub agents q rfl]
    simp [ha, q, FAgent.get, hno, henv, Query.ids, critsMeaning, Query.crits, Dict.update]
  · intro h
    have := h.stateId [v] rfl
    simp [FAgent.attr, hno] at this
    exact hv this.symm

def exAgents : List FAgent :=
  [⟨0, 0, 1, [("x", .num 1), ("y", .num 5)], []⟩, ⟨1, 1, 2, [("x", .num 2), ("y", .num 5), ("state_id", .str "s")], []⟩,
   ⟨2, 2, 1, [("x", .num 1), ("y", .num 6)], []⟩, ⟨3, 3, 2, [("x", .num 1), ("y", .num 5), ("state_id", .str "t")], []⟩]

/-- In a model with `state_id = "s"`, the agent without state is found among those in state `s`. -/
example : (filterAgents (fun c d => c == d) [⟨0, 0, 1, [], [("state_id", .str "s")]⟩, ⟨1, 1, 2, [("state_id", .str "t")], [("state_id", .str "s")]⟩]
    { stateId := some [.str "s"] }).map (·.uid) = [0] := by decide +kernel

example : (filterAgents (fun c d => c == d) exAgents { kwargs := [("x", .one (.num 1))], cls := some [1] }).map (·.uid)
    = [0, 2] := by decide +kernel

/-- `get_agents(x=1, y=5)` also returns agent 1, whose `x` is 2. -/
example : (filterAgents (fun c d => c == d) exAgents
    { kwargs := [("x", .one (.num 1)), ("y", .one (.num 5))] }).map (·.uid) = [0, 1, 3] := by decide +kernel

example : (filterAgents (fun c d => c == d) exAgents { stateId := some [.str "s", .str "t"], limit := some 1 }).map (·.uid)
    = [1] := by decide +kernel

/-! ### C48 -/

/-- C48: with `limit=n` the result is the first `n` agents of the unlimited result: a prefix of length `min n` of the
unlimited length. -/
theorem C48_limit (sub : Nat → Nat → Bool) (agents : List FAgent) (q : Query) (n : Nat) :
    filterAgents sub agents { q with limit := some n } <+: filterAgents sub agents { q with limit := none } ∧
    (filterAgents sub agents { q with limit := some n }).length =
      min n (filterAgents sub agents { q with limit := none }).length := by
  have h : filterAgents sub agents { q with limit := some n } =
      (filterAgents sub agents { q with limit := none }).take n := rfl
  rw [h]
  exact ⟨List.take_prefix _ _, by simp⟩

/-! ### C46 -/

/-- C46 for agents that are not network agents (and for `environment.get_agents`): exactly the agents with that id. -/
theorem C46_plain_partial (sub : Nat → Nat → Bool) (agents : List FAgent) (x : Nat) :
    baseGetAgents sub agents { uniqueId := .one x } = agents.filter (fun a => decide (a.uid = x)) ∧
    baseGetAgents sub agents { idArgs := [x] } = agents.filter (fun a => decide (a.uid = x)) := by
  unfold baseGetAgents
  constructor <;>
  · rw [filterAgents_eq _ _ _ rfl]
    simp [Query.ids, critsMeaning, Query.crits, Dict.update]

/-- C46 is violated for network agents: the id is ignored, all agents are returned. -/
theorem C46_network_false (sub : Nat → Nat → Bool) (agents : List FAgent) (x : Nat) :
    netGetAgents sub agents none { uniqueId := .one x } = agents := by
  unfold netGetAgents
  simp only
  rw [filterAgents_eq _ _ _ rfl]
  simp [Query.ids, critsMeaning, Query.crits, Dict.update]

/-- C46 is violated for network agents in every query: ids, by name or by position, make no difference, nor do they among the
neighbours. -/
theorem C46_network_ids_false (sub : Nat → Nat → Bool) (agents : List FAgent) (nb : Option (List Nat)) (q : Query) (u : IdCrit)
    (l : List Nat) : netGetAgents sub agents nb { q with uniqueId := u, idArgs := l } = netGetAgents sub agents nb q := by
  cases nb <;> rfl

/-- Queries among neighbours (`iter_neighbors`, `get_neighbors`, `count_neighbors`), as far as C47 holds: exactly the agents with the
id of a neighbour that satisfy everything else, in scheduling order; none if there are no neighbours. -/
theorem C47_neighbors_partial (sub : Nat → Nat → Bool) (agents : List FAgent) (ids : List Nat) (q : Query)
    (henv : NoEnvState agents)
    (hd : ∀ d, q.state = some d → Dict.WF d) (hk : Dict.WF q.kwargs) (hl : q.limit = none) (hone : q.crits.length ≤ 1)
    (hq : q.uniqueId = .absent ∧ q.idArgs = []) :
    ∃ p : FAgent → Bool, (∀ a ∈ agents, p a = true ↔ a.uid ∈ ids ∧ q.Matches sub a) ∧
      netGetAgents sub agents (some ids) q = agents.filter p := by
  by_cases he : ids = []
  · refine ⟨fun _ => false, by simp [he], ?_⟩
    simp [netGetAgents, he]
  · obtain ⟨p, hp, hf⟩ := C47_conjunction_partial sub agents { q with uniqueId := .many ids, idArgs := [] } henv hd hk hl hone
      (Or.inl (by simpa using he))
    refine ⟨p, ?_, by simpa [netGetAgents, he] using hf⟩
    intro a ha
    rw [hp a ha]
    constructor
    · rintro ⟨h1, h2, h3, h4, h5⟩
      refine ⟨?_, ?_, h2, h3, h4, h5⟩
      · simpa using h1 (Or.inl (by simp))
      · rw [hq.1, hq.2]; simp
    · rintro ⟨hu, _, h2, h3, h4, h5⟩
      exact ⟨fun _ => Or.inr (Or.inr ⟨ids, rfl, hu⟩), h2, h3, h4, h5⟩

example : (baseGetAgents (fun c d => c == d) exAgents { uniqueId := .one 2 }).map (·.uid) = [2] ∧
    (netGetAgents (fun c d => c == d) exAgents none { uniqueId := .one 2 }).map (·.uid) = [0, 1, 2, 3] ∧
    (netGetAgents (fun c d => c == d) exAgents (some [3, 1]) { idArgs := [1] }).map (·.uid) = [1, 3] := by
  decide +kernel

/-! ### C71 -/

/-- C71 is violated: a non-empty `state` dictionary keeps the other criteria of the call; a later query with the same
dictionary applies them too. -/
theorem C71_state_polluted_false (q : Query) (d : Dict String CritVal) (hs : q.state = some d) (hne : d ≠ [])
    (hwf : Dict.WF d) (hk : Dict.WF q.kwargs) (k : String) (v : CritVal) (hkv : (k, v) ∈ q.kwargs) (hnew : k ∉ Dict.keys d) :
    q.stateAfter ≠ q.state ∧ ∃ d', q.stateAfter = some d' ∧ (k, v) ∈ Query.crits { state := some d' } := by
  have hafter : q.stateAfter = some (Dict.update d q.kwargs) := by
    unfold Query.stateAfter
    rw [hs]
    cases d with
    | nil => exact absurd rfl hne
    | cons x d => rfl
  have hget : Dict.get? (Dict.update d q.kwargs) k = some v := by
    rw [Dict.get?_update _ _ hk, Dict.get?_of_mem hk hkv]; rfl
  constructor
  · rw [hafter, hs]
    intro h
    rw [Option.some.injEq] at h
    rw [h] at hget
    exact hnew ((Dict.mem_keys d k).2 (by rw [hget]; rfl))
  · refine ⟨_, hafter, ?_⟩
    simp only [Query.crits, Dict.update, List.foldl_nil]
    exact Dict.get?_mem hget

/-- C71, what holds: without further criteria, or with an empty dictionary, or without one, nothing changes. -/
theorem C71_state_unchanged_partial (q : Query) (h : q.kwargs = [] ∨ q.state = none ∨ q.state = some []) :
    q.stateAfter = q.state := by
  unfold Query.stateAfter
  rcases h with h | h | h
  · rw [h]
    cases hs : q.state with
    | none => rfl
    | some d => cases d <;> rfl
  · rw [h]
  · rw [h]

example : Query.stateAfter { state := some [("x", .one (.num 1))], kwargs := [("y", .one (.num 5))] } =
    some [("x", .one (.num 1)), ("y", .one (.num 5))] := by decide +kernel

end Verif
