import Verif.Model.Identity
import Mathlib.Data.List.Perm.Subperm
import Mathlib.Tactic.Tauto

/-!
# Properties C113 – C116: `from_dict`, equality of agents, parameters of environments, log levels of classes
-/

namespace Verif

/-! ### C113 -/

theorem splitAttrs_eq (sig : List String) (d : Dict String Val) :
    splitAttrs sig d = (d.filter (fun kv => decide (kv.1 ∈ sig)), d.filter (fun kv => decide (kv.1 ∉ sig))) := by
  induction d with
  | nil => rfl
  | cons p d ih =>
    obtain ⟨k, v⟩ := p
    simp only [splitAttrs, ih]
    by_cases h : k ∈ sig
    · simp [h]
    · simp [h]

theorem has_filter_sig (d : Dict String Val) (p : String → Bool) (k : String) :
    Dict.has (d.filter (fun kv => p kv.1)) k = (Dict.has d k && p k) := by
  have key : ∀ e : Dict String Val, Dict.has e k = true ↔ k ∈ e.map Prod.fst := by
    intro e
    have := Dict.mem_keys e k
    simpa [Dict.has, Dict.keys] using this.symm
  apply Bool.eq_iff_iff.2
  rw [Bool.and_eq_true, key, key]
  simp only [List.mem_map, List.mem_filter]
  constructor
  · rintro ⟨x, ⟨h1, h2⟩, rfl⟩; exact ⟨⟨x, h1, rfl⟩, h2⟩
  · rintro ⟨⟨x, h1, rfl⟩, h2⟩; exact ⟨x, ⟨h1, h2⟩, rfl⟩

/-- C113 (partial: dictionaries all of whose keys are named parameters, see `C113_ignored_false`): the class is called with
exactly the given arguments, in the same order. -/
theorem C113_accepted_partial (sig : List String) (attrs : Dict String Val) (w : Bool)
    (h : ∀ k ∈ Dict.keys attrs, k ∈ sig ∧ k ≠ "model") : fromDict sig attrs w = .ok attrs := by
  have h1 : attrs.filter (fun kv => decide (kv.1 ∈ sig)) = attrs := by
    rw [List.filter_eq_self]
    intro kv hkv
    simpa using (h kv.1 (List.mem_map.2 ⟨kv, hkv, rfl⟩)).1
  have h2 : attrs.filter (fun kv => decide (kv.1 ∉ sig)) = [] := by
    rw [List.filter_eq_nil_iff]
    intro kv hkv
    simpa using (h kv.1 (List.mem_map.2 ⟨kv, hkv, rfl⟩)).1
  have h3 : Dict.has attrs "model" = false := by
    cases hm : Dict.has attrs "model" with
    | false => rfl
    | true =>
      have : "model" ∈ Dict.keys attrs := (Dict.mem_keys attrs "model").2 (by simpa [Dict.has] using hm)
      exact absurd rfl (h _ this).2
  simp only [fromDict, splitAttrs_eq, h1, h2, h3]
  rfl

/-- C113 (partial: without the message): with `warn_extra=False` the class is called with the arguments that are named
parameters, and the others are left out. -/
theorem C113_quiet_partial (sig : List String) (attrs : Dict String Val) (h : "model" ∉ Dict.keys attrs) :
    ∃ args, fromDict sig attrs false = .ok args ∧ (∀ k v, (k, v) ∈ args ↔ (k, v) ∈ attrs ∧ k ∈ sig) ∧
      args.Sublist attrs := by
  refine ⟨attrs.filter (fun kv => decide (kv.1 ∈ sig)), ?_, ?_, List.filter_sublist⟩
  · have h3 : Dict.has (attrs.filter (fun kv => decide (kv.1 ∈ sig))) "model" = false := by
      rw [has_filter_sig attrs (fun k => decide (k ∈ sig))]
      have : Dict.has attrs "model" = false := by
        cases hm : Dict.has attrs "model" with
        | false => rfl
        | true => exact absurd ((Dict.mem_keys attrs "model").2 (by simpa [Dict.has] using hm)) h
      rw [this]; rfl
    simp [fromDict, splitAttrs_eq, h3]
  · intro k v
    simp [List.mem_filter]

/-- C113 is false: if some key is not a named parameter and the message is not disabled, no agent is made: `NameError`. -/
theorem C113_ignored_false (sig : List String) (attrs : Dict String Val) (k : String) (hk : k ∈ Dict.keys attrs)
    (hs : k ∉ sig) : fromDict sig attrs true = .error .nameError := by
  obtain ⟨kv, h1, h2⟩ := List.mem_map.1 hk
  have : (attrs.filter (fun kv => decide (kv.1 ∉ sig))).isEmpty = false := by
    cases hf : attrs.filter (fun kv => decide (kv.1 ∉ sig)) with
    | nil =>
      rw [List.filter_eq_nil_iff] at hf
      have := hf kv h1
      rw [h2] at this
      simp [hs] at this
    | cons a l => rfl
  simp only [fromDict, splitAttrs_eq, this]
  rfl

/-- C113 is false for attributes that a class takes as `**kwargs`: a state attribute of a `BaseAgent` is either refused with
`NameError` or, without the message, not passed on, although the constructor would accept it. -/
theorem C113_kwargs_false (k : String) (v : Val) (attrs : Dict String Val) (hm : (k, v) ∈ attrs)
    (hk : k ≠ "unique_id" ∧ k ≠ "model" ∧ k ≠ "name" ∧ k ≠ "init" ∧ k ≠ "kwargs") :
    fromDict baseAgentSig attrs true = .error .nameError ∧
    ∀ args, fromDict baseAgentSig attrs false = .ok args → Dict.get? args k = none := by
  have hk : k ∉ baseAgentSig := by simp [baseAgentSig, hk]
  refine ⟨C113_ignored_false _ _ k (List.mem_map.2 ⟨_, hm, rfl⟩) hk, ?_⟩
  intro args h
  have h2 : attrs.filter (fun kv => decide (kv.1 ∈ baseAgentSig)) = args := by
    simp only [fromDict, splitAttrs_eq, Bool.and_false, Bool.false_eq_true, if_false] at h
    split at h
    · cases h
    · exact Except.ok.inj h
  rw [← h2, Dict.get?_none_iff]
  intro hc
  obtain ⟨kv, h3, h4⟩ := List.mem_map.1 hc
  have h5 := (List.mem_filter.1 h3).2
  rw [h4] at h5
  exact hk (by simpa using h5)

/-- C113 for `BaseAgent`: `unique_id`, `name` and `init` are passed on to the constructor, with or without the message. Missing: see above. -/
theorem C113_base_partial (attrs args : Dict String Val) (warn : Bool) (h : fromDict baseAgentSig attrs warn = .ok args) (k : String)
    (hk : k = "unique_id" ∨ k = "name" ∨ k = "init") : Dict.get? args k = Dict.get? attrs k := by
  have h2 : attrs.filter (fun kv => decide (kv.1 ∈ baseAgentSig)) = args := by
    simp only [fromDict, splitAttrs_eq] at h
    split at h
    · cases h
    · split at h
      · cases h
      · exact Except.ok.inj h
  have hs : k ∈ baseAgentSig := by rcases hk with rfl | rfl | rfl <;> decide
  rw [← h2]
  clear h h2
  induction attrs with
  | nil => rfl
  | cons kv attrs ih =>
    by_cases hin : kv.1 ∈ baseAgentSig
    · rw [List.filter_cons_of_pos (by simpa using hin)]
      simp only [Dict.get?, ih]
    · rw [List.filter_cons_of_neg (by simpa using hin), ih]
      have : ¬ kv.1 = k := by intro h0; rw [h0] at hin; exact hin hs
      simp only [Dict.get?, this, if_false]

example : fromDict baseAgentSig [("unique_id", .num (.fin 1)), ("init", .none), ("age", .none)] false =
    .ok [("unique_id", .num (.fin 1)), ("init", .none)] := by decide +kernel

example : fromDict baseAgentSig [("unique_id", .num (.fin 1)), ("name", .str "a")] true
      = .ok [("unique_id", .num (.fin 1)), ("name", .str "a")] ∧
    fromDict baseAgentSig [("unique_id", .num (.fin 1)), ("age", .num (.fin 3))] true = .error .nameError ∧
    fromDict baseAgentSig [("unique_id", .num (.fin 1)), ("age", .num (.fin 3))] false = .ok [("unique_id", .num (.fin 1))] ∧
    fromDict baseAgentSig [("model", .none)] true = .error .typeError := by decide +kernel

/-! ### C114 -/

/-- A name that counts as part of the state of an agent. -/
def IsPublic (k : String) : Prop := k.toList.head? ≠ some '_' ∧ k ≠ "model" ∧ k ≠ "logger"

theorem mem_agentKeys (o : Obj) (k : String) : k ∈ o.agentKeys ↔ (Dict.get? o.inst k).isSome ∧ IsPublic k := by
  unfold Obj.agentKeys IsPublic isPrivate
  rw [List.mem_filter, Dict.mem_keys]
  simp [and_assoc]

theorem get?_map_keys {V : Type} (l : List String) (g : String → V) (k : String) :
    Dict.get? (l.map (fun k => (k, g k))) k = if k ∈ l then some (g k) else none := by
  induction l with
  | nil => simp
  | cons a l ih =>
    simp only [List.map_cons, Dict.get?, ih, List.mem_cons]
    by_cases h : a = k
    · simp [h]
    · have : ¬ k = a := fun e => h e.symm
      simp [h, this]

theorem get?_items (o : Obj) (k : String) :
    Dict.get? o.items k = if k ∈ o.agentKeys then some (Dict.get? o.inst k) else none := by
  unfold Obj.items
  refine (get?_map_keys o.agentKeys _ k).trans ?_
  by_cases h : k ∈ o.agentKeys
  · rw [if_pos h, if_pos h]
    obtain ⟨v, hv⟩ := Option.isSome_iff_exists.1 ((mem_agentKeys o k).1 h).1
    simp [Obj.getitem, hv]
  · rw [if_neg h, if_neg h]

theorem agentKeys_nodup (o : Obj) (h : Dict.WF o.inst) : o.agentKeys.Nodup := List.Nodup.filter _ h

/-- C114: two agents compare equal exactly when they have the same public attributes with the same values. -/
theorem C114_equal_iff (a b : Obj) (ha : Dict.WF a.inst) (hb : Dict.WF b.inst) :
    agentEq a b = true ↔ ∀ k, IsPublic k → Dict.get? a.inst k = Dict.get? b.inst k := by
  have hlen : ∀ o : Obj, o.items.length = o.agentKeys.length := by intro o; simp [Obj.items]
  have hmem : ∀ (o : Obj) kv, kv ∈ o.items ↔ kv.1 ∈ o.agentKeys ∧ kv.2 = Dict.get? o.inst kv.1 := by
    intro o kv
    obtain ⟨k, x⟩ := kv
    simp only [Obj.items, List.mem_map, Prod.mk.injEq]
    constructor
    · rintro ⟨k', h1, rfl, rfl⟩
      refine ⟨h1, ?_⟩
      obtain ⟨v, hv⟩ := Option.isSome_iff_exists.1 ((mem_agentKeys o k').1 h1).1
      simp [Obj.getitem, hv]
    · rintro ⟨h1, h2⟩
      refine ⟨k, h1, rfl, ?_⟩
      obtain ⟨v, hv⟩ := Option.isSome_iff_exists.1 ((mem_agentKeys o k).1 h1).1
      simp [Obj.getitem, hv, h2]
  constructor
  · intro h k hk
    unfold agentEq at h
    rw [Bool.and_eq_true, decide_eq_true_eq, hlen, hlen, List.all_eq_true] at h
    obtain ⟨h1, h2⟩ := h
    have step : ∀ j, j ∈ a.agentKeys → j ∈ b.agentKeys ∧ Dict.get? b.inst j = Dict.get? a.inst j := by
      intro j hj
      have := h2 (j, Dict.get? a.inst j) ((hmem a _).2 ⟨hj, rfl⟩)
      simp only [get?_items] at this
      by_cases hjb : j ∈ b.agentKeys
      · rw [if_pos hjb] at this
        exact ⟨hjb, by simpa using this⟩
      · rw [if_neg hjb] at this; cases this
    have hperm : a.agentKeys.Perm b.agentKeys :=
      ((agentKeys_nodup a ha).subperm (fun j hj => (step j hj).1)).perm_of_length_le (by omega)
    by_cases hka : k ∈ a.agentKeys
    · exact (step k hka).2.symm
    · have hkb : k ∉ b.agentKeys := fun h => hka (hperm.mem_iff.2 h)
      have e1 : Dict.get? a.inst k = none := by
        cases hx : Dict.get? a.inst k with
        | none => rfl
        | some v => exact absurd ((mem_agentKeys a k).2 ⟨by simp [hx], hk⟩) hka
      have e2 : Dict.get? b.inst k = none := by
        cases hx : Dict.get? b.inst k with
        | none => rfl
        | some v => exact absurd ((mem_agentKeys b k).2 ⟨by simp [hx], hk⟩) hkb
      rw [e1, e2]
  · intro h
    have hiff : ∀ j, j ∈ a.agentKeys ↔ j ∈ b.agentKeys := by
      intro j
      rw [mem_agentKeys, mem_agentKeys]
      constructor
      · rintro ⟨h1, h2⟩; rw [h j h2] at h1; exact ⟨h1, h2⟩
      · rintro ⟨h1, h2⟩; rw [← h j h2] at h1; exact ⟨h1, h2⟩
    have hperm : a.agentKeys.Perm b.agentKeys :=
      (List.perm_ext_iff_of_nodup (agentKeys_nodup a ha) (agentKeys_nodup b hb)).2 hiff
    unfold agentEq
    rw [Bool.and_eq_true, decide_eq_true_eq, hlen, hlen, List.all_eq_true]
    refine ⟨hperm.length_eq, ?_⟩
    intro kv hkv
    obtain ⟨h1, h2⟩ := (hmem a kv).1 hkv
    rw [get?_items, if_pos ((hiff _).1 h1), h2]
    simp [h kv.1 ((mem_agentKeys a kv.1).1 h1).2]

/-- C114: equality is an equivalence relation. -/
theorem C114_equivalence (a b c : Obj) (ha : Dict.WF a.inst) (hb : Dict.WF b.inst) (hc : Dict.WF c.inst) :
    agentEq a a = true ∧ (agentEq a b = true → agentEq b a = true) ∧
    (agentEq a b = true → agentEq b c = true → agentEq a c = true) := by
  simp only [C114_equal_iff a a ha ha, C114_equal_iff a b ha hb, C114_equal_iff b a hb ha, C114_equal_iff b c hb hc,
    C114_equal_iff a c ha hc]
  refine ⟨by simp, fun h k hk => (h k hk).symm, fun h1 h2 k hk => (h1 k hk).trans (h2 k hk)⟩

/-- C114: equal agents have equal hashes, as sets and dictionaries need. -/
theorem C114_hash (a b : Obj) (ha : Dict.WF a.inst) (hb : Dict.WF b.inst) (hid : (Dict.get? a.inst "unique_id").isSome)
    (h : agentEq a b = true) : ∃ v, agentHashOf a = some v ∧ agentHashOf b = some v := by
  obtain ⟨v, hv⟩ := Option.isSome_iff_exists.1 hid
  have h2 := (C114_equal_iff a b ha hb).1 h "unique_id" ⟨by decide +kernel, by decide, by decide⟩
  refine ⟨v, by simp [agentHashOf, Obj.getitem, hv], by simp [agentHashOf, Obj.getitem, ← h2, hv]⟩

/-- C114 (partial: agents with different ids; see `C114_twins_false`): agents with different ids are different. -/
theorem C114_ids_partial (a b : Obj) (ha : Dict.WF a.inst) (hb : Dict.WF b.inst)
    (h : Dict.get? a.inst "unique_id" ≠ Dict.get? b.inst "unique_id") : agentEq a b = false := by
  cases he : agentEq a b with
  | false => rfl
  | true => exact absurd ((C114_equal_iff a b ha hb).1 he "unique_id" ⟨by decide +kernel, by decide, by decide⟩) h

/-- C114 is false: agents of different environments are equal if their ids and their other public attributes are, whatever
their models, their loggers, their classes and their private attributes. -/
theorem C114_twins_false (a : Obj) (ha : Dict.WF a.inst) (other : Val) (cls : Dict String Val) :
    agentEq a ⟨Dict.set a.inst "model" other, cls⟩ = true := by
  rw [C114_equal_iff a _ ha (ha.set _ _)]
  intro k hk
  exact (Dict.get?_set_ne a.inst other (Ne.symm hk.2.1)).symm

/-- Agent 3 of one environment and agent 3 of another one; agent 4. -/
def exTwin (model id : Nat) : Obj :=
  ⟨[("unique_id", .num (.fin id)), ("model", .obj model), ("alive", .num (.fin 1)), ("_coroutine", .obj model)], []⟩

example : agentEq (exTwin 100 3) (exTwin 200 3) = true ∧ exTwin 100 3 ≠ exTwin 200 3 ∧
    agentEq (exTwin 100 3) (exTwin 100 4) = false := by decide +kernel

/-! ### C115 -/

theorem setParams_none_iff (ro : List String) (ps inst : Dict String Val) :
    setParams ro ps inst = none ↔ ∃ k ∈ Dict.keys ps, k ∈ ro := by
  induction ps generalizing inst with
  | nil => simp [setParams, Dict.keys]
  | cons p ps ih =>
    obtain ⟨k, v⟩ := p
    simp only [setParams]
    by_cases h : k ∈ ro
    · simp [h, Dict.keys]
    · rw [if_neg h, ih]
      simp only [Dict.keys, List.map_cons, List.mem_cons]
      constructor
      · rintro ⟨j, h1, h2⟩; exact ⟨j, Or.inr h1, h2⟩
      · rintro ⟨j, h1 | h1, h2⟩
        · exact absurd (h1 ▸ h2) h
        · exact ⟨j, h1, h2⟩

theorem setParams_get (ro : List String) (ps inst inst' : Dict String Val) (hps : Dict.WF ps)
    (h : setParams ro ps inst = some inst') (k : String) :
    Dict.get? inst' k = (Dict.get? ps k).or (Dict.get? inst k) := by
  induction ps generalizing inst with
  | nil => simp only [setParams, Option.some.injEq] at h; subst h; simp
  | cons p ps ih =>
    obtain ⟨j, v⟩ := p
    simp only [setParams] at h
    split at h
    · cases h
    · simp only [Dict.WF, Dict.keys, List.map_cons, List.nodup_cons] at hps
      rw [ih _ hps.2 h, Dict.get?_set]
      simp only [Dict.get?]
      by_cases hj : j = k
      · subst hj
        have : Dict.get? ps j = none := (Dict.get?_none_iff _ _).2 hps.1
        simp [this]
      · simp [hj]

theorem keys_filter (d : Dict String Val) (p : String → Bool) :
    Dict.keys (d.filter (fun kv => p kv.1)) = (Dict.keys d).filter p := by
  unfold Dict.keys
  rw [List.filter_map]
  rfl

theorem get?_filter (d : Dict String Val) (p : String → Bool) (k : String) :
    Dict.get? (d.filter (fun kv => p kv.1)) k = if p k then Dict.get? d k else none := by
  induction d with
  | nil => simp
  | cons q d ih =>
    obtain ⟨j, v⟩ := q
    rw [List.filter_cons]
    by_cases hj : j = k
    · subst hj
      by_cases hp : p j = true
      · simp [hp, Dict.get?]
      · simp only [hp, Bool.false_eq_true, if_false]
        rw [ih]; simp [hp]
    · by_cases hp : p j = true
      · simp only [hp, if_true, Dict.get?, hj, if_false, ih]
      · simp only [hp, Bool.false_eq_true, if_false, ih, Dict.get?, hj]

/-- The arguments of an environment that are no attributes of their own (soil/environment.py:67-83). -/
def Spec.envArguments : List String :=
  ["agents", "agent_reporters", "collector_class", "dir_path", "id", "init", "logger", "model_reporters", "schedule", "schedule_class", "seed", "tables"]

/-- The arguments about the network (soil/environment.py:262-269). -/
def Spec.netArguments : List String := ["agent_class", "init", "network_generator", "network_params", "topology"]

private theorem envArguments_iff (k : String) : k ∈ Spec.envArguments ↔ k ∈ baseEnvNamed := by
  simp only [baseEnvNamed, Spec.envArguments, List.mem_cons, List.not_mem_nil, or_false]
  tauto

private theorem netArguments_iff (k : String) : k ∈ Spec.netArguments ↔ k ∈ netEnvNamed := by
  simp only [netEnvNamed, Spec.netArguments, List.mem_cons, List.not_mem_nil, or_false]
  tauto

/-- C115 (partial: parameters whose names are not read-only properties, see `C115_readonly_false`): the constructor of an
environment sets every parameter that is not one of its named arguments as an attribute with the given value, and leaves the
other attributes alone; it fails exactly when a parameter has the name of a property without setter. -/
theorem C115_base_partial (ro : List String) (inst0 kwargs : Dict String Val) (hk : Dict.WF kwargs) :
    (baseEnvConstruct ro inst0 kwargs = none ↔ ∃ k ∈ Dict.keys kwargs, k ∉ Spec.envArguments ∧ k ∈ ro) ∧
    ∀ inst, baseEnvConstruct ro inst0 kwargs = some inst →
      (∀ k v, (k, v) ∈ kwargs → k ∉ Spec.envArguments → Dict.get? inst k = some v) ∧
      (∀ k, k ∉ Dict.keys kwargs ∨ k ∈ Spec.envArguments → Dict.get? inst k = Dict.get? inst0 k) := by
  simp only [envArguments_iff]
  unfold baseEnvConstruct
  refine ⟨?_, ?_⟩
  · rw [setParams_none_iff, keys_filter kwargs (fun k => decide (k ∉ baseEnvNamed))]
    simp only [List.mem_filter, decide_eq_true_eq, and_assoc]
  · intro inst h
    have hwf : Dict.WF (kwargs.filter (fun kv => decide (kv.1 ∉ baseEnvNamed))) := by
      unfold Dict.WF
      rw [keys_filter kwargs (fun k => decide (k ∉ baseEnvNamed))]
      exact List.Nodup.filter _ hk
    have hg := setParams_get ro _ _ _ hwf h
    constructor
    · intro k v hm hn
      rw [hg, get?_filter kwargs (fun k => decide (k ∉ baseEnvNamed)), Dict.get?_of_mem hk hm]
      simp [hn]
    · intro k hn
      rw [hg, get?_filter kwargs (fun k => decide (k ∉ baseEnvNamed))]
      rcases hn with hn | hn
      · rw [(Dict.get?_none_iff _ _).2 hn]; simp
      · simp [hn]

/-- C115 (partial: as above), for network environments: besides, the arguments about the network are recorded, the graph is
`G` unless a parameter of that name replaces it, and the class of the agents is `agent_class`. -/
theorem C115_network_partial (ro : List String) (g : Val) (inst0 kwargs : Dict String Val) (hk : Dict.WF kwargs) :
    (netEnvConstruct ro g inst0 kwargs = none ↔ ∃ k ∈ Dict.keys kwargs, k ∉ Spec.envArguments ∧ k ∉ Spec.netArguments ∧ k ∈ ro) ∧
    ∀ inst, netEnvConstruct ro g inst0 kwargs = some inst →
      (∀ k v, (k, v) ∈ kwargs → k ∉ Spec.envArguments → Dict.get? inst k = some v) ∧
      ("G" ∉ Dict.keys kwargs → Dict.get? inst "G" = some g) ∧
      (∀ k, k ∉ Dict.keys kwargs ∨ k ∈ Spec.envArguments → k ∉ Spec.netArguments ∨ k = "init" → k ≠ "G" →
        Dict.get? inst k = Dict.get? inst0 k) := by
  simp only [envArguments_iff, netArguments_iff]
  have hwf : Dict.WF (kwargs.filter (fun kv => decide (kv.1 ∉ netEnvNamed))) := by
    unfold Dict.WF
    rw [keys_filter kwargs (fun k => decide (k ∉ netEnvNamed))]
    exact List.Nodup.filter _ hk
  unfold netEnvConstruct
  simp only
  generalize hi : Dict.set (Dict.set (Dict.set (Dict.set inst0 "topology" _) "network_generator" _) "network_params" _) "G" g = i4
  obtain ⟨b1, b2⟩ := C115_base_partial ro i4 (kwargs.filter (fun kv => decide (kv.1 ∉ netEnvNamed))) hwf
  simp only [envArguments_iff] at b1 b2
  rw [keys_filter kwargs (fun k => decide (k ∉ netEnvNamed))] at b1 b2
  constructor
  · cases hb : baseEnvConstruct ro i4 (kwargs.filter (fun kv => decide (kv.1 ∉ netEnvNamed))) with
    | none =>
      obtain ⟨k, h1, h2, h3⟩ := b1.1 hb
      rw [List.mem_filter, decide_eq_true_eq] at h1
      simp only [true_iff]
      exact ⟨k, h1.1, h2, h1.2, h3⟩
    | some i5 =>
      simp only [reduceCtorEq, false_iff]
      rintro ⟨k, h1, h2, h3, h4⟩
      have := b1.2 ⟨k, List.mem_filter.2 ⟨h1, by simpa using h3⟩, h2, h4⟩
      rw [hb] at this; cases this
  · intro inst h
    cases hb : baseEnvConstruct ro i4 (kwargs.filter (fun kv => decide (kv.1 ∉ netEnvNamed))) with
    | none => rw [hb] at h; cases h
    | some i5 =>
      rw [hb] at h
      simp only [Option.some.injEq] at h
      subst h
      obtain ⟨c1, c2⟩ := b2 i5 hb
      have unset : ∀ k, k ∈ netEnvNamed → Dict.get? i5 k = Dict.get? i4 k := by
        intro k hkn
        refine c2 k (Or.inl ?_)
        rw [List.mem_filter]
        simp [hkn]
      refine ⟨?_, ?_, ?_⟩
      · intro k v hm hn
        by_cases hac : k = "agent_class"
        · subst hac
          rw [Dict.get?_set_self, Dict.get?_of_mem hk hm]; rfl
        · rw [Dict.get?_set_ne _ _ (Ne.symm hac)]
          by_cases hkn : k ∈ netEnvNamed
          · rw [unset k hkn, ← hi]
            have hcases : k = "topology" ∨ k = "network_generator" ∨ k = "network_params" := by
              simp only [netEnvNamed, List.mem_cons, List.not_mem_nil, or_false] at hkn
              rcases hkn with rfl | rfl | rfl | rfl | rfl
              · exact Or.inl rfl
              · exact absurd rfl hac
              · exact Or.inr (Or.inl rfl)
              · exact Or.inr (Or.inr rfl)
              · exact absurd (by decide) hn
            rcases hcases with rfl | rfl | rfl <;>
              simp [Dict.get?_set, Dict.get?_of_mem hk hm]
          · exact c1 k v (List.mem_filter.2 ⟨hm, by simpa using hkn⟩) hn
      · intro hG
        rw [Dict.get?_set_ne _ _ (by decide), c2 "G" (Or.inl (by rw [List.mem_filter]; simp [hG])), ← hi]
        simp
      · intro k hk1 hk2 hk3
        have hac : k ≠ "agent_class" := by
          rintro rfl
          rcases hk2 with h | h
          · exact h (by decide)
          · exact absurd h (by decide)
        rw [Dict.get?_set_ne _ _ (Ne.symm hac), c2 k (by
          rcases hk1 with h | h
          · exact Or.inl (by rw [List.mem_filter]; simp [h])
          · exact Or.inr h), ← hi]
        have ne : k ≠ "topology" ∧ k ≠ "network_generator" ∧ k ≠ "network_params" := by
          refine ⟨?_, ?_, ?_⟩ <;> rintro rfl <;> rcases hk2 with h | h <;> first | exact h (by decide) | exact absurd h (by decide)
        simp [Dict.get?_set, Ne.symm ne.1, Ne.symm ne.2.1, Ne.symm ne.2.2, Ne.symm hk3]

/-- C115 is false for parameters called like a read-only property, such as `now`: no environment can be made with them. -/
theorem C115_readonly_false (net : Bool) (g : Val) (inst0 kwargs : Dict String Val) (hk : Dict.WF kwargs) (k : String)
    (hro : k = "agent_types" ∨ k = "get_agents" ∨ k = "now" ∨ (net = true ∧ k = "network_agents")) (hmem : k ∈ Dict.keys kwargs) :
    baseEnvConstruct (envReadonly net) inst0 kwargs = none ∧ netEnvConstruct (envReadonly net) g inst0 kwargs = none := by
  have hn : k ∉ Spec.envArguments ∧ k ∉ Spec.netArguments := by
    rcases hro with rfl | rfl | rfl | ⟨_, rfl⟩ <;> exact ⟨by decide, by decide⟩
  have hro' : k ∈ envReadonly net := by
    rcases hro with rfl | rfl | rfl | ⟨rfl, rfl⟩
    · cases net <;> decide
    · cases net <;> decide
    · cases net <;> decide
    · decide
  exact ⟨(C115_base_partial _ inst0 kwargs hk).1.2 ⟨k, hmem, hn.1, hro'⟩,
    (C115_network_partial _ g inst0 kwargs hk).1.2 ⟨k, hmem, hn.1, hn.2, hro'⟩⟩

example : netEnvConstruct (envReadonly true) (.obj 9) [("id", .str "0")]
      [("prob", .num (.fin 2)), ("agent_class", .obj 5), ("seed", .str "s")] =
    some [("id", .str "0"), ("topology", .none), ("network_generator", .none), ("network_params", .none), ("G", .obj 9),
      ("prob", .num (.fin 2)), ("agent_class", .obj 5)] ∧
    netEnvConstruct (envReadonly true) (.obj 9) [] [("now", .num (.fin 2))] = none := by decide +kernel

/-! ### C116 -/

theorem mkAttrs_other (inherited : Dict String Val) (kept : String → Val) (ns : List (String × NsItem)) (k : String)
    (h : (k, NsItem.kept) ∉ ns) : Dict.get? (mkAttrs inherited kept ns) k = Dict.get? inherited k := by
  unfold mkAttrs
  induction ns generalizing inherited with
  | nil => rfl
  | cons p ns ih =>
    obtain ⟨j, it⟩ := p
    simp only [List.mem_cons, not_or] at h
    rw [List.foldl_cons, ih _ h.2]
    cases it with
    | kept =>
      have : j ≠ k := by rintro rfl; exact h.1 rfl
      exact Dict.get?_set_ne _ _ this
    | defaults d => rfl
    | value v => rfl

/-- C116 is false: a `level` in the body of an agent class never reaches the logger of its agents, because it is a default, and
defaults are set after the level is looked up; whatever the body, unless a function or property is called `level`, or the class
inherits the attribute from a class that is not an agent class. -/
theorem C116_body_false (bases : List (Dict String Val)) (inherited : Dict String Val) (kept : String → Val)
    (ns : List (String × NsItem)) (ro : List String) (inst0 : Dict String Val) (lvl : Val)
    (_hbody : ("level", NsItem.value lvl) ∈ ns) (hkept : ("level", NsItem.kept) ∉ ns)
    (hinh : Dict.get? inherited "level" = none) (hinst : ∀ k ∈ Dict.keys inst0, k ∈ builtinNames) :
    levelSet ⟨mkDefaults bases ns, mkAttrs inherited kept ns, ro⟩ inst0 = none := by
  have h1 : Dict.get? inst0 "level" = none := by
    rw [Dict.get?_none_iff]
    intro h
    exact absurd (hinst _ h) (by decide)
  simp only [levelSet, AgentCls.getattr, h1]
  rw [mkAttrs_other _ _ _ _ hkept, hinh]

/-- C116 (partial: a level inherited from a class that is not an agent class): it is the level of the logger. -/
theorem C116_inherited_partial (bases : List (Dict String Val)) (inherited : Dict String Val) (kept : String → Val)
    (ns : List (String × NsItem)) (ro : List String) (inst0 : Dict String Val) (lvl : Val)
    (hkept : ("level", NsItem.kept) ∉ ns) (hinh : Dict.get? inherited "level" = some lvl)
    (hinst : ∀ k ∈ Dict.keys inst0, k ∈ builtinNames) :
    levelSet ⟨mkDefaults bases ns, mkAttrs inherited kept ns, ro⟩ inst0 = some lvl := by
  have h1 : Dict.get? inst0 "level" = none := by
    rw [Dict.get?_none_iff]
    intro h
    exact absurd (hinst _ h) (by decide)
  simp only [levelSet, AgentCls.getattr, h1]
  rw [mkAttrs_other _ _ _ _ hkept, hinh]

/-- A class with `level = 10`: the agent has the attribute in the end, but its logger was not told. -/
example : let c : AgentCls := ⟨mkDefaults [] [("level", .value (.num (.fin 10)))], mkAttrs [] (fun _ => .none)
      [("level", .value (.num (.fin 10)))], []⟩
    levelSet c [("unique_id", .num (.fin 0))] = none ∧
    (c.construct (fun _ => .none) [("unique_id", .num (.fin 0))] []) =
      some [("unique_id", .num (.fin 0)), ("level", .num (.fin 10))] := by decide +kernel

end Verif
