import Verif.Model.Builtin
import Verif.Props.Filter
import Verif.Props.Attrs
import Mathlib.Tactic.Linarith
import Mathlib.Tactic.Ring

/-!
# Properties of the agents that come with soil: C69, C70, C79, C80, C81
-/

namespace Verif

/-- The `state_id` of every agent around is the name of a state or missing, as it is for all FSM agents and all agents without
such an attribute; the model has no attribute of that name. -/
def Surroundings.Named (x : Surroundings) : Prop :=
  ∀ a ∈ x.agents, Dict.get? a.env "state_id" = none ∧ (a.attr "state_id" = .none ∨ ∃ s, a.attr "state_id" = .str s)

theorem Surroundings.Named.get {x : Surroundings} (hx : x.Named) (a : FAgent) (ha : a ∈ x.agents) :
    a.get "state_id" = a.attr "state_id" := by simp [FAgent.get, FAgent.attr, (hx a ha).1]

/-- The number of neighbours in a state. -/
def Surroundings.inState (x : Surroundings) (s : String) : Nat :=
  (x.agents.filter (fun a => decide (a.uid ∈ x.neighborIds ∧ a.attr "state_id" = .str s))).length

theorem neighbors_none (x : Surroundings) (hx : x.Named) (sub : Nat → Nat → Bool) (v : Val) (hv : v ≠ .none)
    (hs : ∀ s, v ≠ .str s) (kw : Dict String CritVal) : x.neighbors sub v kw = [] := by
  unfold Surroundings.neighbors netGetAgents
  simp only
  split
  · rfl
  · rw [filterAgents_eq _ _ _ rfl, List.filter_eq_nil_iff]
    intro a ha h
    simp only [Bool.and_eq_true, decide_eq_true_eq, List.mem_singleton] at h
    rw [hx.get a ha] at h
    rcases (hx a ha).2 with h1 | ⟨s, h1⟩
    · exact hv (h.1.1.2.symm.trans h1)
    · exact hs s (h.1.1.2.symm.trans h1)

theorem neighbors_count (x : Surroundings) (hx : x.Named) (sub : Nat → Nat → Bool) (s : String) :
    (x.neighbors sub (.str s) []).length = x.inState s := by
  unfold Surroundings.neighbors netGetAgents Surroundings.inState
  simp only
  split
  · rename_i h
    simp [h]
  · rename_i h
    rw [filterAgents_eq _ _ _ rfl]
    congr 1
    apply List.filter_congr
    intro a ha
    have hc : ∀ q : Query, q.state = none → q.kwargs = [] → critsMeaning q a = true := by
      intro q h1 h2
      simp [critsMeaning, Query.crits, h1, h2, Dict.update]
    rw [hc _ rfl rfl]
    simp [Query.ids, h, hx.get a ha]

/-! ### C69 -/

theorem sisa_fn_neutral (p : SisaParams) (sub : Nat → Nat → Bool) (x : Surroundings) (ds : List Rat) :
    sisaStep p sub (some sNeutral) x ds = (fsmReturn sisaClass (some sNeutral) (sisaNeutral p sub x ds).1).1 := rfl

theorem sisa_fn_discontent (p : SisaParams) (sub : Nat → Nat → Bool) (x : Surroundings) (ds : List Rat) :
    sisaStep p sub (some sDiscontent) x ds = (fsmReturn sisaClass (some sDiscontent) (sisaDiscontent p sub x ds).1).1 := rfl

theorem sisa_fn_content (p : SisaParams) (sub : Nat → Nat → Bool) (x : Surroundings) (ds : List Rat) :
    sisaStep p sub (some sContent) x ds = (fsmReturn sisaClass (some sContent) (sisaContent p sub x ds).1).1 := rfl

theorem fsmReturn_state (c : FsmClass) (cur : Option StateDef) (d : StateDef) : (fsmReturn c cur (.state d)).1 = some d := rfl

/-- The new state of a neutral agent, given the four draws of a step. -/
theorem sisa_neutral_step (p : SisaParams) (sub : Nat → Nat → Bool) (x : Surroundings) (hx : x.Named) (r1 r2 r3 r4 : Rat)
    (h3 : 0 ≤ r3) (rest : List Rat) :
    sisaStep p sub (some sNeutral) x (r1 :: r2 :: r3 :: r4 :: rest) =
      if r1 < p.neutralDiscontentSpon then some sDiscontent
      else if r2 < p.neutralContentSpon then some sContent
      else if r4 < x.inState "content" * p.neutralContentInf then some sContent
      else some sNeutral := by
  rw [sisa_fn_neutral]
  unfold sisaNeutral
  simp only [prob, neighbors_none x hx sub (.state sDiscontent) (by simp) (by simp), neighbors_count x hx, List.length_nil,
    Nat.cast_zero, zero_mul, not_lt.2 h3, decide_eq_true_eq, decide_false, Bool.false_eq_true, if_false]
  by_cases a1 : r1 < p.neutralDiscontentSpon
  · simp [a1, fsmReturn_state]
  · by_cases a2 : r2 < p.neutralContentSpon
    · simp [a1, a2, fsmReturn_state]
    · by_cases a4 : r4 < (x.inState "content" : Rat) * p.neutralContentInf
      · simp [a1, a2, a4, fsmReturn_state]
      · simp [a1, a2, a4, fsmReturn_state]

/-- C69 is violated: a neutral agent never becomes discontent through its neighbours. Whatever happens in the step, with any
number of discontent neighbours and any infection probability, it becomes discontent only if the draw for the spontaneous change
says so. -/
theorem C69_neutral_false (p : SisaParams) (sub : Nat → Nat → Bool) (x : Surroundings) (hx : x.Named) (ds : List Rat)
    (hds : ∀ r ∈ ds, IsDraw r) (h : sisaStep p sub (some sNeutral) x ds = some sDiscontent) :
    ∃ r rest, ds = r :: rest ∧ r < p.neutralDiscontentSpon := by
  rw [sisa_fn_neutral] at h
  unfold sisaNeutral at h
  simp only [neighbors_none x hx sub (.state sDiscontent) (by simp) (by simp), List.length_nil, Nat.cast_zero, zero_mul] at h
  by_cases a1 : (prob p.neutralDiscontentSpon ds).1 = true
  · cases ds with
    | nil => simp [prob] at a1
    | cons r rest => exact ⟨r, rest, rfl, by simpa [prob] using a1⟩
  · exfalso
    rw [if_neg a1] at h
    have hmem : ∀ q l, (∀ r ∈ l, IsDraw r) → ∀ r ∈ (prob q l).2, IsDraw r := by
      intro q l hl r hr
      cases l with
      | nil => simp [prob] at hr
      | cons a l => exact hl r (List.mem_cons_of_mem _ (by simpa [prob] using hr))
    by_cases a2 : (prob p.neutralContentSpon (prob p.neutralDiscontentSpon ds).2).1 = true
    · rw [if_pos a2, fsmReturn_state] at h
      revert h; decide
    · rw [if_neg a2] at h
      have a3 : ¬ (prob 0 (prob p.neutralContentSpon (prob p.neutralDiscontentSpon ds).2).2).1 = true := by
        have hh := hmem p.neutralContentSpon _ (hmem p.neutralDiscontentSpon ds hds)
        generalize (prob p.neutralContentSpon (prob p.neutralDiscontentSpon ds).2).2 = l at hh
        cases l with
        | nil => simp [prob]
        | cons a l =>
          have := (hh a (by simp)).1
          simp [prob, this]
      rw [if_neg a3] at h
      split at h <;> (rw [fsmReturn_state] at h; revert h; decide)

/-- C69 is violated: a content agent never becomes discontent, for any parameters, neighbours and draws. -/
theorem C69_content_false (p : SisaParams) (sub : Nat → Nat → Bool) (x : Surroundings) (ds : List Rat) :
    sisaStep p sub (some sContent) x ds ≠ some sDiscontent := by
  rw [sisa_fn_content]
  unfold sisaContent
  simp only
  split <;> (rw [fsmReturn_state]; decide)

/-- C69 is violated, in the long run: without spontaneous discontent, an agent that is neutral or content is never discontent,
however many steps it makes and whoever its neighbours are. -/
theorem C69_never_false (p : SisaParams) (hp : p.neutralDiscontentSpon ≤ 0) (sub : Nat → Nat → Bool)
    (steps : List (Surroundings × List Rat)) (hs : ∀ s ∈ steps, s.1.Named ∧ ∀ r ∈ s.2, IsDraw r) (d : StateDef)
    (hd : d = sNeutral ∨ d = sContent) :
    sisaRun p sub (some d) steps = some sNeutral ∨ sisaRun p sub (some d) steps = some sContent := by
  induction steps generalizing d with
  | nil => rcases hd with rfl | rfl <;> simp [sisaRun]
  | cons s steps ih =>
    obtain ⟨x, ds⟩ := s
    obtain ⟨hx, hds⟩ := hs (x, ds) (by simp)
    have hstep : ∃ d', (d' = sNeutral ∨ d' = sContent) ∧ sisaStep p sub (some d) x ds = some d' := by
      rcases hd with rfl | rfl
      · have hne : sisaStep p sub (some sNeutral) x ds ≠ some sDiscontent := by
          intro h
          obtain ⟨r, rest, rfl, hr⟩ := C69_neutral_false p sub x hx ds hds h
          have := (hds r (by simp)).1
          linarith
        rw [sisa_fn_neutral] at hne ⊢
        unfold sisaNeutral at hne ⊢
        simp only at hne ⊢
        split
        · rename_i h; rw [if_pos h, fsmReturn_state] at hne; exact absurd rfl hne
        · rename_i h
          rw [if_neg h] at hne
          split
          · exact ⟨sContent, by simp, rfl⟩
          · rename_i h
            rw [if_neg h] at hne
            split
            · rename_i h; rw [if_pos h, fsmReturn_state] at hne; exact absurd rfl hne
            · split
              · exact ⟨sContent, by simp, rfl⟩
              · exact ⟨sNeutral, by simp, rfl⟩
      · rw [sisa_fn_content]
        unfold sisaContent
        simp only
        split
        · exact ⟨sNeutral, by simp, rfl⟩
        · exact ⟨sContent, by simp, rfl⟩
    obtain ⟨d', h1, h2⟩ := hstep
    rw [sisaRun, h2]
    exact ih (fun s h => hs s (List.mem_cons_of_mem _ h)) d' h1

/-- C69 is violated: agents begin in the state `neutral`, so without spontaneous discontent nobody is ever discontent. -/
theorem C69_begin_false (p : SisaParams) (hp : p.neutralDiscontentSpon ≤ 0) (sub : Nat → Nat → Bool)
    (steps : List (Surroundings × List Rat)) (hs : ∀ s ∈ steps, s.1.Named ∧ ∀ r ∈ s.2, IsDraw r) :
    sisaClass.init.map (·.name) = some "neutral" ∧ sisaRun p sub sisaClass.init steps ≠ some sDiscontent := by
  have e : sisaClass.init = some sNeutral := by decide
  rw [e]
  refine ⟨rfl, ?_⟩
  rcases C69_never_false p hp sub steps hs sNeutral (.inl rfl) with h | h <;> rw [h] <;> decide

/-- C69, C28: the class has the states `neutral`, `discontent` and `content` besides `dead`; whatever happens, an agent that began as the class says is
in one of these three, and this is the state of the class with that name. -/
theorem C69_states (p : SisaParams) (sub : Nat → Nat → Bool) (steps : List (Surroundings × List Rat)) :
    Dict.keys sisaClass.states = ["dead", "neutral", "discontent", "content"] ∧
    ∃ d, sisaRun p sub sisaClass.init steps = some d ∧ d.name ∈ ["neutral", "discontent", "content"] ∧ Dict.get? sisaClass.states d.name = some d := by
  refine ⟨by decide, ?_⟩
  have key : ∀ (steps : List (Surroundings × List Rat)) (d : StateDef), d = sNeutral ∨ d = sDiscontent ∨ d = sContent →
      ∃ d', sisaRun p sub (some d) steps = some d' ∧ (d' = sNeutral ∨ d' = sDiscontent ∨ d' = sContent) := by
    intro steps
    induction steps with
    | nil => exact fun d hd => ⟨d, rfl, hd⟩
    | cons s steps ih =>
      intro d hd
      obtain ⟨x, ds⟩ := s
      have hstep : ∃ d', sisaStep p sub (some d) x ds = some d' ∧ (d' = sNeutral ∨ d' = sDiscontent ∨ d' = sContent) := by
        rcases hd with rfl | rfl | rfl
        · rw [sisa_fn_neutral]
          unfold sisaNeutral
          simp only
          split
          · exact ⟨sDiscontent, rfl, by simp⟩
          · split
            · exact ⟨sContent, rfl, by simp⟩
            · split
              · exact ⟨sDiscontent, rfl, by simp⟩
              · split
                · exact ⟨sContent, rfl, by simp⟩
                · exact ⟨sNeutral, rfl, by simp⟩
        · rw [sisa_fn_discontent]
          unfold sisaDiscontent
          simp only
          split
          · exact ⟨sNeutral, rfl, by simp⟩
          · split
            · exact ⟨sContent, rfl, by simp⟩
            · exact ⟨sDiscontent, rfl, by simp⟩
        · rw [sisa_fn_content]
          unfold sisaContent
          simp only
          split
          · exact ⟨sNeutral, rfl, by simp⟩
          · exact ⟨sContent, rfl, by simp⟩
      obtain ⟨d', h1, h2⟩ := hstep
      rw [sisaRun, h1]
      exact ih d' h2
  have e : sisaClass.init = some sNeutral := by decide
  rw [e]
  obtain ⟨d, h1, h2⟩ := key steps sNeutral (Or.inl rfl)
  refine ⟨d, h1, ?_⟩
  rcases h2 with rfl | rfl | rfl <;> decide

/-- C69, what holds of the spreading of states: neutral and discontent agents become content through their content neighbours
with the probability that is proportional to their number. -/
theorem C69_content_spreads_partial (p : SisaParams) (sub : Nat → Nat → Bool) (x : Surroundings) (hx : x.Named)
    (r1 r2 r3 r4 : Rat) (h3 : 0 ≤ r3) (rest : List Rat) :
    (sisaStep p sub (some sNeutral) x (r1 :: r2 :: r3 :: r4 :: rest) = some sContent ↔
      ¬ r1 < p.neutralDiscontentSpon ∧ (r2 < p.neutralContentSpon ∨ r4 < x.inState "content" * p.neutralContentInf)) ∧
    (sisaStep p sub (some sDiscontent) x (r1 :: r2 :: rest) = some sContent ↔
      ¬ r1 < p.discontentNeutral ∧ r2 < x.inState "content" * p.discontentContent) := by
  constructor
  · rw [sisa_neutral_step p sub x hx r1 r2 r3 r4 h3]
    by_cases a1 : r1 < p.neutralDiscontentSpon
    · simp [a1]; decide
    · by_cases a2 : r2 < p.neutralContentSpon
      · simp [a1, a2]
      · by_cases a4 : r4 < (x.inState "content" : Rat) * p.neutralContentInf
        · simp [a1, a2, a4]
        · simp [a1, a2, a4]; decide
  · rw [sisa_fn_discontent]
    unfold sisaDiscontent
    simp only [prob, neighbors_count x hx, decide_eq_true_eq]
    by_cases a1 : r1 < p.discontentNeutral
    · simp [a1, fsmReturn_state]; decide
    · by_cases a2 : r2 < (x.inState "content" : Rat) * p.discontentContent
      · simp [a1, a2, fsmReturn_state]
      · simp [a1, a2, fsmReturn_state]; decide

/-- An agent with two discontent neighbours and one content neighbour, and with infection probability 1. -/
def exSisa : Surroundings :=
  ⟨[⟨0, 0, 0, [("state_id", .str "neutral")], []⟩, ⟨1, 1, 0, [("state_id", .str "discontent")], []⟩,
    ⟨2, 2, 0, [("state_id", .str "discontent")], []⟩, ⟨3, 3, 0, [("state_id", .str "content")], []⟩], [1, 2, 3], 5⟩

def exSisaParams : SisaParams := ⟨0, 1, 0, 1 / 2, 0, 1 / 2, 1, 0⟩

example : sisaStep exSisaParams (fun _ _ => true) (some sNeutral) exSisa [0, 0, 0, 3 / 4] = some sNeutral ∧
    sisaStep exSisaParams (fun _ _ => true) (some sContent) exSisa [0, 0] = some sContent ∧
    sisaStep exSisaParams (fun _ _ => true) (some sNeutral) exSisa [0, 0, 0, 1 / 4] = some sContent ∧
    sisaStep exSisaParams (fun _ _ => true) (some sDiscontent) exSisa [0, 1 / 4] = some sContent ∧
    exSisa.inState "discontent" = 2 := by decide +kernel

example : exSisa.Named := by
  intro a ha
  simp only [exSisa, List.mem_cons, List.not_mem_nil, or_false] at ha
  rcases ha with rfl | rfl | rfl | rfl <;> exact ⟨rfl, Or.inr ⟨_, rfl⟩⟩

/-! ### C70 -/

/-- C70 is violated: an agent that is in `imitate` stays there for ever, whatever the number of aware neighbours and the
probability of imitation. -/
theorem C70_never_false (innovation imitation : Rat) (sub : Nat → Nat → Bool) (steps : List (Surroundings × List Rat))
    (hs : ∀ s ∈ steps, s.1.Named ∧ ∀ r ∈ s.2, IsDraw r) :
    cascadeRun innovation imitation sub (some sImitate) steps = some sImitate := by
  induction steps with
  | nil => rfl
  | cons s steps ih =>
    obtain ⟨x, ds⟩ := s
    obtain ⟨hx, hds⟩ := hs (x, ds) (by simp)
    rw [cascadeRun]
    have : cascadeStep innovation imitation sub (some sImitate) x ds = some sImitate := by
      have e : cascadeFn innovation imitation sub x sImitate ds = .none := by
        unfold cascadeFn
        rw [if_neg (by decide), if_pos (by decide)]
        simp only [neighbors_none x hx sub (.num 1) (by simp) (by simp), List.length_nil, Nat.cast_zero, mul_zero]
        cases ds with
        | nil => simp [prob]
        | cons r rest =>
          have := (hds r (by simp)).1
          simp [prob, this]
      simp only [cascadeStep, e]
      rfl
    rw [this]
    exact ih (fun s h => hs s (List.mem_cons_of_mem _ h))

/-- C70: agents begin `outside`; whatever happens, they are in one of the two states of the class; and one that is aware never becomes unaware again. -/
theorem C70_begin_false (innovation imitation : Rat) (sub : Nat → Nat → Bool) (steps : List (Surroundings × List Rat))
    (hs : ∀ s ∈ steps, s.1.Named ∧ ∀ r ∈ s.2, IsDraw r) :
    Dict.keys cascadeClass.states = ["dead", "outside", "imitate"] ∧ cascadeClass.init.map (·.name) = some "outside" ∧
    ∃ d, cascadeRun innovation imitation sub cascadeClass.init steps = some d ∧ d.name ∈ ["outside", "imitate"] ∧
      Dict.get? cascadeClass.states d.name = some d ∧
      (d.name = "imitate" → ∀ more, (∀ s ∈ more, s.1.Named ∧ ∀ r ∈ s.2, IsDraw r) → cascadeRun innovation imitation sub (some d) more = some d) := by
  refine ⟨by decide, by decide, ?_⟩
  have key : ∀ (steps : List (Surroundings × List Rat)), (∀ s ∈ steps, s.1.Named ∧ ∀ r ∈ s.2, IsDraw r) →
      ∃ d, cascadeRun innovation imitation sub (some sOutside) steps = some d ∧ (d = sOutside ∨ d = sImitate) := by
    intro steps
    induction steps with
    | nil => exact fun _ => ⟨sOutside, rfl, Or.inl rfl⟩
    | cons s steps ih =>
      intro hs
      obtain ⟨x, ds⟩ := s
      have hstep : cascadeStep innovation imitation sub (some sOutside) x ds = some sImitate ∨
          cascadeStep innovation imitation sub (some sOutside) x ds = some sOutside := by
        have e : cascadeFn innovation imitation sub x sOutside ds = .state sImitate ∨ cascadeFn innovation imitation sub x sOutside ds = .none := by
          unfold cascadeFn
          rw [if_pos (by decide)]
          split <;> simp
        rcases e with e | e <;> simp only [cascadeStep, e]
        · exact Or.inl rfl
        · exact Or.inr rfl
      rcases hstep with h | h
      · rw [cascadeRun, h]
        exact ⟨sImitate, C70_never_false innovation imitation sub steps (fun s h => hs s (List.mem_cons_of_mem _ h)), Or.inr rfl⟩
      · rw [cascadeRun, h]
        exact ih (fun s h => hs s (List.mem_cons_of_mem _ h))
  have e : cascadeClass.init = some sOutside := by decide
  rw [e]
  obtain ⟨d, h1, h2⟩ := key steps hs
  refine ⟨d, h1, ?_⟩
  rcases h2 with rfl | rfl
  · exact ⟨by decide, by decide, fun h => absurd h (by decide)⟩
  · exact ⟨by decide, by decide, fun _ more hm => C70_never_false innovation imitation sub more hm⟩

/-- C70, what holds: an agent outside becomes aware exactly if the draw says so. -/
theorem C70_innovation_partial (innovation imitation : Rat) (sub : Nat → Nat → Bool) (x : Surroundings) (r : Rat)
    (rest : List Rat) :
    cascadeStep innovation imitation sub (some sOutside) x (r :: rest) =
      if r < innovation then some sImitate else some sOutside := by
  have e : cascadeFn innovation imitation sub x sOutside (r :: rest) = if r < innovation then .state sImitate else .none := by
    unfold cascadeFn
    rw [if_pos (by decide)]
    simp [prob]
  simp only [cascadeStep, e]
  by_cases h : r < innovation
  · simp only [h, if_true]; rfl
  · simp only [h, if_false]; rfl

example : cascadeRun (1 / 2) 1 (fun _ _ => true) (some sOutside)
    [(⟨[⟨1, 1, 0, [("state_id", .str "imitate"), ("time_awareness", .num (.fin 2))], []⟩], [1], 3⟩, [1 / 4]),
     (⟨[⟨1, 1, 0, [("state_id", .str "imitate"), ("time_awareness", .num (.fin 3))], []⟩], [1], 4⟩, [0])] = some sImitate := by
  decide +kernel

/-! ### C79 -/

/-- C79 is violated: a step of a Bass agent raises `AttributeError`, however the agent was created (unless a `behaviour` is
passed to it by hand). -/
theorem C79_no_step_false {R : Type} (model : String → Val) (inst0 kwargs inst : Dict String Val) (hkw : Dict.WF kwargs)
    (h0 : ∀ k ∈ Dict.keys inst0, k ∈ builtinNames) (hk : "behaviour" ∉ Dict.keys kwargs)
    (h : bassClass.construct model inst0 kwargs = some inst) (run : Val → R) : bassStep bassClass inst run = none := by
  have h1 : "behaviour" ∉ Dict.keys bassClass.attrs := by decide +kernel
  have := C29_precedence_partial bassClass (by decide +kernel) model inst0 kwargs inst hkw h "behaviour"
    (fun h => absurd (h0 _ h) (by decide +kernel)) h1
  unfold Spec.attribute at this
  rw [(Dict.get?_none_iff _ _).2 hk] at this
  have hd : Dict.get? bassClass.defaults "behaviour" = none := by decide +kernel
  rw [hd] at this
  unfold bassStep AgentCls.getattr
  rw [this, (Dict.get?_none_iff _ _).2 h1]
  rfl

/-- C79, what holds: with a `behaviour` passed by hand, that is what the agent does. -/
theorem C79_supplied_partial {R : Type} (model : String → Val) (inst0 kwargs inst : Dict String Val) (hkw : Dict.WF kwargs)
    (h0 : ∀ k ∈ Dict.keys inst0, k ∈ builtinNames) (v : Val) (hk : Dict.get? kwargs "behaviour" = some v)
    (h : bassClass.construct model inst0 kwargs = some inst) (run : Val → R) : bassStep bassClass inst run = some (run v) := by
  have h1 : "behaviour" ∉ Dict.keys bassClass.attrs := by decide +kernel
  have := C29_precedence_partial bassClass (by decide +kernel) model inst0 kwargs inst hkw h "behaviour"
    (fun h => absurd (h0 _ h) (by decide +kernel)) h1
  unfold Spec.attribute at this
  rw [hk] at this
  unfold bassStep AgentCls.getattr
  rw [this]
  rfl

example : ((bassClass.construct (fun _ => .none) [("unique_id", .num 3)] [("innovation_prob", .num 1)]).map
    (fun inst => bassStep bassClass inst id)) = some none := by decide +kernel

/-! ### C80 -/

theorem numAttr_set (inst : Dict String Val) (k k' : String) (q : Rat) :
    numAttr (Dict.set inst k (.num (.fin q))) k' = if k = k' then some q else numAttr inst k' := by
  unfold numAttr
  rw [Dict.get?_set]
  by_cases h : k = k' <;> simp [h]

/-- C80 for `Ticker`: it counts its steps and changes nothing else. -/
theorem C80_ticker (obs : List (Nat × Nat)) (inst : Dict String Val) (t0 : Rat) (ht : numAttr inst "times" = some t0) :
    ∃ inst', runCounter (fun _ _ => tickerStep) obs inst = some inst' ∧ numAttr inst' "times" = some (t0 + obs.length) ∧
      ∀ k, k ≠ "times" → Dict.get? inst' k = Dict.get? inst k := by
  induction obs generalizing inst t0 with
  | nil => exact ⟨inst, rfl, by simpa using ht, fun _ _ => rfl⟩
  | cons o obs ih =>
    obtain ⟨inst', h1, h2, h3⟩ := ih (Dict.set inst "times" (.num (.fin (t0 + 1)))) (t0 + 1) (by simp [numAttr_set])
    refine ⟨inst', ?_, ?_, ?_⟩
    · simp only [runCounter, tickerStep, ht]
      exact h1
    · rw [h2]; simp only [List.length_cons]; push_cast; congr 1; ring
    · intro k hk
      rw [h3 k hk, Dict.get?_set_ne _ _ (Ne.symm hk)]

/-- C80 for `CounterModel`: it counts its steps, and has the numbers of neighbours and of agents of its last step. -/
theorem C80_counter (obs : List (Nat × Nat)) (inst : Dict String Val) (t0 : Rat) (ht : numAttr inst "times" = some t0) :
    ∃ inst', runCounter counterStep obs inst = some inst' ∧ numAttr inst' "times" = some (t0 + obs.length) ∧
      (∀ o, obs.getLast? = some o → numAttr inst' "neighbors" = some (o.1 : Rat) ∧ numAttr inst' "total" = some (o.2 : Rat)) ∧
      ∀ k, k ≠ "times" → k ≠ "neighbors" → k ≠ "total" → Dict.get? inst' k = Dict.get? inst k := by
  induction obs generalizing inst t0 with
  | nil => exact ⟨inst, rfl, by simpa using ht, by simp, fun _ _ _ _ => rfl⟩
  | cons o obs ih =>
    obtain ⟨n, t⟩ := o
    obtain ⟨inst1, e1⟩ : ∃ i, counterStep n t inst = some i := by simp [counterStep, ht]
    have e1' := e1
    simp only [counterStep, ht, Option.some.injEq] at e1'
    obtain ⟨inst', h1, h2, h3, h4⟩ := ih inst1 (t0 + 1) (by rw [← e1']; simp [numAttr_set])
    refine ⟨inst', ?_, ?_, ?_, ?_⟩
    · simp only [runCounter, e1]
      exact h1
    · rw [h2]; simp only [List.length_cons]; push_cast; congr 1; ring
    · intro o' ho'
      cases obs with
      | nil =>
        simp only [List.getLast?_singleton, Option.some.injEq] at ho'
        subst ho'
        simp only [runCounter, Option.some.injEq] at h1
        rw [← h1, ← e1']
        simp [numAttr_set]
      | cons o2 obs => exact h3 o' (by rwa [List.getLast?_cons_cons] at ho')
    · intro k a b c
      rw [h4 k a b c, ← e1', Dict.get?_set_ne _ _ (Ne.symm c), Dict.get?_set_ne _ _ (Ne.symm b),
        Dict.get?_set_ne _ _ (Ne.symm a)]

/-- C80 for `AggregatedCounter`: it counts its steps, and has the sums of the numbers of neighbours and of agents over all its
steps. -/
theorem C80_aggregated (obs : List (Nat × Nat)) (inst : Dict String Val) (t0 n0 s0 : Rat)
    (ht : numAttr inst "times" = some t0) (hn : numAttr inst "neighbors" = some n0) (hs : numAttr inst "total" = some s0) :
    ∃ inst', runCounter aggregatedStep obs inst = some inst' ∧ numAttr inst' "times" = some (t0 + obs.length) ∧
      numAttr inst' "neighbors" = some (n0 + (obs.map Prod.fst).sum) ∧
      numAttr inst' "total" = some (s0 + (obs.map Prod.snd).sum) ∧
      ∀ k, k ≠ "times" → k ≠ "neighbors" → k ≠ "total" → Dict.get? inst' k = Dict.get? inst k := by
  induction obs generalizing inst t0 n0 s0 with
  | nil => exact ⟨inst, rfl, by simpa using ht, by simpa using hn, by simpa using hs, fun _ _ _ _ => rfl⟩
  | cons o obs ih =>
    obtain ⟨n, t⟩ := o
    obtain ⟨inst1, e1⟩ : ∃ i, aggregatedStep n t inst = some i := by simp [aggregatedStep, ht, numAttr_set, hn, hs]
    have e1' := e1
    simp [aggregatedStep, ht, numAttr_set, hn, hs] at e1'
    obtain ⟨inst', h1, h2, h3, h4, h5⟩ := ih inst1 (t0 + 1) (n0 + n) (s0 + t) (by rw [← e1']; simp [numAttr_set])
      (by rw [← e1']; simp [numAttr_set]) (by rw [← e1']; simp [numAttr_set])
    refine ⟨inst', ?_, ?_, ?_, ?_, ?_⟩
    · simp only [runCounter, e1]
      exact h1
    · rw [h2]; simp only [List.length_cons]; push_cast; congr 1; ring
    · rw [h3]; simp only [List.map_cons, List.sum_cons]; push_cast; congr 1; ring
    · rw [h4]; simp only [List.map_cons, List.sum_cons]; push_cast; congr 1; ring
    · intro k a b c
      rw [h5 k a b c, ← e1', Dict.get?_set_ne _ _ (Ne.symm c), Dict.get?_set_ne _ _ (Ne.symm b),
        Dict.get?_set_ne _ _ (Ne.symm a)]

def exCounter : Dict String Val := [("times", .num 0), ("neighbors", .num 0), ("total", .num 0)]

example : runCounter aggregatedStep [(2, 5), (3, 6)] exCounter = some [("times", .num 2), ("neighbors", .num 5), ("total", .num 11)] ∧
    runCounter counterStep [(2, 5), (3, 6)] exCounter = some [("times", .num 2), ("neighbors", .num 3), ("total", .num 6)] := by
  decide +kernel

/-! ### C81 -/

/-- C81 is violated: in a model with a seed (all those of a simulation) all agents have the same parameters. -/
theorem C81_equal_false (normals : Nat → Nat → Rat) (seed : Nat) (m : SisaSettings) (n : Nat) (entropy : List Nat)
    (a b : SisaParams) (ha : a ∈ sisaAgents normals (some seed) m n entropy)
    (hb : b ∈ sisaAgents normals (some seed) m n entropy) : a = b := by
  have key : ∀ n entropy, ∀ c ∈ sisaAgents normals (some seed) m n entropy, c = (sisaInit normals (some seed) m []).1 := by
    intro n
    induction n with
    | zero => intro e c hc; simp [sisaAgents] at hc
    | succ n ih =>
      intro e c hc
      simp only [sisaAgents, List.mem_cons] at hc
      rcases hc with rfl | hc
      · rfl
      · exact ih _ c hc
  rw [key n entropy a ha, key n entropy b hb]

/-- C81 is violated: the setting `content_neutral` has no effect on any agent. -/
theorem C81_content_neutral_false (normals : Nat → Nat → Rat) (seed : Option Nat) (m : SisaSettings) (v : Rat) (n : Nat)
    (entropy : List Nat) :
    sisaAgents normals seed { m with means := { m.means with contentNeutral := v } } n entropy =
      sisaAgents normals seed m n entropy := by
  induction n generalizing entropy with
  | zero => rfl
  | succ n ih =>
    simp only [sisaAgents, ih]
    rfl

/-- C81, what holds: without a seed, every agent has parameters of its own, made from numbers of its own generator; seven of
them are around the settings documented for them. (`content_neutral` is around `discontent_neutral`.) -/
theorem C81_unseeded_partial (normals : Nat → Nat → Rat) (m : SisaSettings) (n : Nat) (entropy : List Nat)
    (hn : n ≤ entropy.length) (i : Nat) (hi : i < n) :
    (sisaAgents normals none m n entropy)[i]? = some
      { neutralDiscontentSpon := m.means.neutralDiscontentSpon + m.standardVariance * normals (entropy[i]'(by omega)) 0
        neutralDiscontentInf := m.means.neutralDiscontentInf + m.standardVariance * normals (entropy[i]'(by omega)) 1
        neutralContentSpon := m.means.neutralContentSpon + m.standardVariance * normals (entropy[i]'(by omega)) 2
        neutralContentInf := m.means.neutralContentInf + m.standardVariance * normals (entropy[i]'(by omega)) 3
        discontentNeutral := m.means.discontentNeutral + m.standardVariance * normals (entropy[i]'(by omega)) 4
        discontentContent := m.means.discontentContent + m.varianceDC * normals (entropy[i]'(by omega)) 5
        contentDiscontent := m.means.contentDiscontent + m.varianceCD * normals (entropy[i]'(by omega)) 6
        contentNeutral := m.means.discontentNeutral + m.standardVariance * normals (entropy[i]'(by omega)) 7 } := by
  induction n generalizing entropy i with
  | zero => omega
  | succ n ih =>
    cases entropy with
    | nil => simp at hn
    | cons e es =>
      cases i with
      | zero => rfl
      | succ i =>
        simp only [sisaAgents, List.getElem?_cons_succ]
        exact ih es (by simpa using hn) i (by omega)

def exSisaSettings : SisaSettings := ⟨exSisaParams, 1 / 10, 1 / 5, 1 / 4⟩

example : sisaAgents (fun s i => s + i) (some 3) exSisaSettings 2 [5, 6] =
    [⟨3 / 10, 14 / 10, 5 / 10, 11 / 10, 7 / 10, 21 / 10, 13 / 4, 1⟩, ⟨3 / 10, 14 / 10, 5 / 10, 11 / 10, 7 / 10, 21 / 10, 13 / 4, 1⟩] ∧
    (sisaAgents (fun s i => s + i) none exSisaSettings 2 [5, 6]).map SisaParams.discontentNeutral = [9 / 10, 1] := by
  decide +kernel

end Verif
