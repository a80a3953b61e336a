import Verif.Model.Views
import Verif.Props.Filter

/-!
# Properties C105 and C106: the collection of agents of an environment
-/

namespace Verif

/-! ### C105: `environment.agent(...)` and `count_agents(...)` agree with `get_agents(...)` -/

/-- C105 for queries as in C47 (at most one criterion on attributes): `agent(...)` is the first agent, in scheduling order, that
satisfies everything; if there is none it raises `StopIteration`. -/
theorem C105_first_partial (sub : Nat → Nat → Bool) (agents : List FAgent) (q : Query) (henv : NoEnvState agents)
    (hd : ∀ d, q.state = some d → Dict.WF d) (hk : Dict.WF q.kwargs) (hl : q.limit = none)
    (hone : q.crits.length ≤ 1) (hids : q.uniqueId ≠ .many [] ∨ q.idArgs ≠ []) :
    (∀ a, viewOne sub agents q = some a ↔
      ∃ l₁ l₂, agents = l₁ ++ a :: l₂ ∧ q.Matches sub a ∧ ∀ b ∈ l₁, ¬ q.Matches sub b) ∧
    (viewOne sub agents q = none ↔ ∀ a ∈ agents, ¬ q.Matches sub a) := by
  obtain ⟨p, hp, hf⟩ := C47_conjunction_partial sub agents q henv hd hk hl hone hids
  unfold viewOne
  rw [hf, List.head?_filter]
  constructor
  · intro a
    rw [List.find?_eq_some_iff_append]
    constructor
    · rintro ⟨h1, l₁, l₂, rfl, h2⟩
      refine ⟨l₁, l₂, rfl, (hp a (by simp)).1 h1, ?_⟩
      intro b hb hm
      have := h2 b hb
      rw [(hp b (by simp [hb])).2 hm] at this
      cases this
    · rintro ⟨l₁, l₂, rfl, h1, h2⟩
      refine ⟨(hp a (by simp)).2 h1, l₁, l₂, rfl, ?_⟩
      intro b hb
      have := mt (hp b (by simp [hb])).1 (h2 b hb)
      simpa using this
  · rw [List.find?_eq_none]
    constructor
    · intro h a ha hm
      exact h a ha ((hp a ha).2 hm)
    · intro h a ha hpa
      exact h a ha ((hp a ha).1 hpa)

/-- C105, for every query: `agent(...)` is the first of `get_agents(...)`, and raises iff that is empty; `count_agents(...)` is
its length. -/
theorem C105_consistent (sub : Nat → Nat → Bool) (agents : List FAgent) (q : Query) :
    (∀ a, viewOne sub agents q = some a ↔ ∃ rest, viewCall sub agents q = a :: rest) ∧
    (viewOne sub agents q = none ↔ viewCount sub agents q = 0) ∧
    viewCount sub agents q = (viewCall sub agents q).length := by
  unfold viewOne viewCount viewCall
  refine ⟨?_, ?_, by simp⟩
  · intro a; rw [List.head?_eq_some_iff]
  · cases filterAgents sub agents q <;> simp

/-- C105 is violated with several criteria on attributes: the agent returned need not satisfy them (see
`C47_only_last_false`). -/
theorem C105_wrong_agent_false (sub : Nat → Nat → Bool) (agents : List FAgent) (k₁ k₂ : String) (v₁ v₂ : CritVal)
    (hne : k₁ ≠ k₂) (a : FAgent) (h₁ : ¬ v₁.holds a k₁) (h₂ : v₂.holds a k₂) :
    let q : Query := { kwargs := [(k₁, v₁), (k₂, v₂)] }
    viewOne sub (a :: agents) q = some a ∧ ¬ q.Matches sub a := by
  intro q
  refine ⟨?_, (C47_only_last_false sub (a :: agents) k₁ k₂ v₁ v₂ hne a (by simp) h₁ h₂).2⟩
  have hm := (C47_only_last_false sub [a] k₁ k₂ v₁ v₂ hne a (by simp) h₁ h₂).1
  unfold viewOne
  rw [filterAgents_eq sub _ _ rfl] at hm ⊢
  rw [List.mem_filter] at hm
  rw [List.filter_cons, if_pos hm.2]
  rfl

example : (viewOne (fun c d => c == d) exAgents { kwargs := [("x", .one (.num 2))] }).map (·.uid) = some 1 ∧
    viewOne (fun c d => c == d) exAgents { kwargs := [("x", .one (.num 3))] } = none ∧
    viewCount (fun c d => c == d) exAgents { kwargs := [("x", .one (.num 1))] } = 3 := by decide +kernel

/-- `agent(x=1, y=5)` may be an agent with `x = 2`. -/
example : (viewOne (fun c d => c == d) (exAgents.drop 1) { kwargs := [("x", .one (.num 1)), ("y", .one (.num 5))] }).map (·.uid)
    = some 1 := by decide +kernel

/-! ### C106: `environment.get_agents` is a mapping from ids to agents -/

/-- What C106 asks of a collection of agents: the agents can be looked up by their ids, `in` tells which ids there are, and
iterating gives what is in it, as many as `len`. -/
structure IsAgentMapping (agents : List FAgent) : Prop where
  get : ∀ a ∈ agents, viewGet agents (.id a.uid) = .agent a
  contains : ∀ i, viewContains agents (.id i) = true ↔ ∃ a ∈ agents, a.uid = i
  iter : ∃ l, viewIter agents = some l ∧ l.length = viewLen agents

/-- C106 is violated: no agent can be looked up, whatever the key; no id is in the collection; iterating raises. Looking up an id or a slice raises
`ValueError`; looking up an agent that is in the collection raises `TypeError`, and another one `ValueError`. -/
theorem C106_mapping_false (agents : List FAgent) :
    (∀ k a, viewGet agents k ≠ .agent a) ∧ (∀ i, viewGet agents (.id i) = .valueError) ∧ viewGet agents .slice = .valueError ∧
    (∀ r, viewGet agents (.agent r) = if ∃ a ∈ agents, a.ref = r then .typeError else .valueError) ∧ (∀ i, viewContains agents (.id i) = false) ∧ viewIter agents = none ∧
    ¬ IsAgentMapping agents := by
  refine ⟨?_, ?_, rfl, ?_, fun _ => rfl, rfl, ?_⟩
  rotate_left
  · intro i
    simp [viewGet, viewContains]
  · intro r
    simp only [viewGet, viewContains, List.any_eq_true, decide_eq_true_eq]
    rw [if_neg (by simp)]
  rotate_left
  · intro k a h
    unfold viewGet at h
    split at h
    · cases h
    · split at h <;> cases h
  · intro h
    obtain ⟨l, h1, _⟩ := h.iter
    cases h1

/-- What holds of C106: the number of agents, the agents themselves as the result of a call without criteria (and of iterating over
the environment), and which agents are in it. -/
theorem C106_collection_partial (sub : Nat → Nat → Bool) (agents : List FAgent) :
    viewLen agents = agents.length ∧ viewCall sub agents {} = agents ∧ envIter sub agents = agents ∧
    ∀ r, viewContains agents (.agent r) = true ↔ ∃ a ∈ agents, a.ref = r := by
  have h : viewCall sub agents {} = agents := by
    unfold viewCall
    rw [filterAgents_eq _ _ _ rfl]
    simp [Query.ids, critsMeaning, Query.crits, Dict.update]
  exact ⟨rfl, h, h, fun r => by simp [viewContains]⟩

example : viewGet exAgents (.id 1) = .valueError ∧ viewGet exAgents (.agent 1) = .typeError ∧
    (viewCall (fun _ _ => true) exAgents {}).map (·.uid) = [0, 1, 2, 3] := by decide +kernel

end Verif
