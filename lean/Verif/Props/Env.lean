import Verif.Model.Env
import Verif.Proofs.Random

/-!
# Properties C31 (ids), C32 (dictionaries), C33 (`prob`), C68 (`add_agents`)
-/

namespace Verif

/-! ### C31 -/

/-- The automatic ids so far are increasing, non-negative, and not greater than the counter. -/
def IdsOk (e : IdEnv) : Prop :=
  e.auto.Pairwise (· < ·) ∧ (∀ i ∈ e.auto, 0 ≤ i ∧ i ≤ e.currentId) ∧ -1 ≤ e.currentId

theorem IdsOk.addAuto {e : IdEnv} (h : IdsOk e) (cls : Nat) (ok : Bool) :
    IdsOk (e.addAuto cls ok) ∧ e.currentId ≤ (e.addAuto cls ok).currentId := by
  obtain ⟨h1, h2, h3⟩ := h
  cases ok with
  | false =>
    refine ⟨⟨h1, fun i hi => ?_, ?_⟩, ?_⟩
    · have := h2 i hi
      simp only [IdEnv.addAuto, IdEnv.nextId, IdEnv.addWithId] at *
      simp; omega
    · simp [IdEnv.addAuto, IdEnv.nextId, IdEnv.addWithId]; omega
    · simp [IdEnv.addAuto, IdEnv.nextId, IdEnv.addWithId]
  | true =>
    refine ⟨⟨?_, ?_, ?_⟩, ?_⟩
    · simp only [IdEnv.addAuto, IdEnv.nextId, IdEnv.addWithId, if_true]
      rw [List.pairwise_append]
      refine ⟨h1, by simp, ?_⟩
      intro a ha b hb
      have := h2 a ha
      simp at hb
      omega
    · intro i hi
      simp only [IdEnv.addAuto, IdEnv.nextId, IdEnv.addWithId, if_true] at hi ⊢
      rcases List.mem_append.1 hi with hi | hi
      · have := h2 i hi; omega
      · simp at hi; omega
    · simp [IdEnv.addAuto, IdEnv.nextId, IdEnv.addWithId]; omega
    · simp [IdEnv.addAuto, IdEnv.nextId, IdEnv.addWithId]

theorem addAutos_ok (cs : List Nat) {e : IdEnv} (h : IdsOk e) : IdsOk (cs.foldl (fun e c => e.addAuto c true) e) := by
  induction cs generalizing e with
  | nil => exact h
  | cons c cs ih => exact ih (h.addAuto c true).1

theorem IdsOk.exec {e : IdEnv} (h : IdsOk e) (o : IdOp) : IdsOk (o.exec e) := by
  cases o with
  | addAuto cls ok => exact (h.addAuto cls ok).1
  | addWithId id cls ok => cases ok <;> exact h
  | addOnNode cls accepts ok =>
    cases accepts with
    | true => exact (h.addAuto cls ok).1
    | false => exact ((h.addAuto cls false).1.addAuto cls ok).1
  | addNode cls ok => exact (h.addAuto cls ok).1
  | addAgents classes weights draws =>
    simp only [IdOp.exec, IdEnv.addAgents]
    split
    · exact h
    · exact addAutos_ok _ h
  | die pos => exact h

/-- C31: in every history of additions of every sort (with and without id, failing, on nodes, in bulk) and deaths,
the ids given automatically are pairwise different, and never negative. -/
theorem C31_auto_ids_distinct (h : List IdOp) :
    (h.foldl IdOp.exec .init).auto.Nodup ∧ ∀ i ∈ (h.foldl IdOp.exec .init).auto, 0 ≤ i := by
  have key : ∀ (h : List IdOp) (e : IdEnv), IdsOk e → IdsOk (h.foldl IdOp.exec e) := by
    intro h
    induction h with
    | nil => intro e he; exact he
    | cons o h ih => intro e he; exact ih _ (he.exec o)
  obtain ⟨h1, h2, _⟩ := key h .init ⟨by simp [IdEnv.init], by simp [IdEnv.init], by simp [IdEnv.init]⟩
  refine ⟨h1.imp (fun hab => ne_of_lt hab), fun i hi => (h2 i hi).1⟩

/-- Every agent still scheduled whose id was automatic is the only one with an automatic id equal to it: the
`n`-th automatic id is `n` when no constructor fails. -/
def IdOp.Clean : IdOp → Prop
  | .addAuto _ ok => ok = true
  | .addWithId _ _ _ => True
  | .addOnNode _ accepts ok => accepts = true ∧ ok = true
  | .addNode _ ok => ok = true
  | .addAgents _ _ _ => True
  | .die _ => True

/-- C31: without failing constructors, the automatic ids are 0, 1, 2, … in order of creation. -/
theorem C31_auto_ids_from_zero (h : List IdOp) (hc : ∀ o ∈ h, o.Clean) :
    (h.foldl IdOp.exec .init).auto = (List.range (h.foldl IdOp.exec .init).auto.length).map (fun n : Nat => (n : Int)) := by
  let P : IdEnv → Prop := fun e =>
    e.auto = (List.range e.auto.length).map (fun n : Nat => (n : Int)) ∧ e.currentId + 1 = e.auto.length
  have hadd : ∀ e cls, P e → P (e.addAuto cls true) := by
    intro e cls ⟨h1, h2⟩
    simp only [P, IdEnv.addAuto, IdEnv.nextId, IdEnv.addWithId, if_true]
    refine ⟨?_, by simp [h2]⟩
    rw [List.length_append, List.length_singleton, List.range_succ, List.map_append]
    congr 1
    simp [h2]
  have key : ∀ (h : List IdOp) (e : IdEnv), (∀ o ∈ h, o.Clean) → P e → P (h.foldl IdOp.exec e) := by
    intro h
    induction h with
    | nil => intro e _ he; exact he
    | cons o h ih =>
      intro e hcl he
      refine ih _ (fun o ho => hcl o (by simp [ho])) ?_
      have ho := hcl o (by simp)
      cases o with
      | addAuto cls ok => simp only [IdOp.Clean] at ho; subst ho; exact hadd e cls he
      | addWithId id cls ok => cases ok <;> exact he
      | addOnNode cls accepts ok =>
        obtain ⟨ho1, ho2⟩ := ho
        subst ho1 ho2
        exact hadd e cls he
      | addNode cls ok => simp only [IdOp.Clean] at ho; subst ho; exact hadd e cls he
      | addAgents classes weights draws =>
        simp only [IdOp.exec, IdEnv.addAgents]
        split
        · exact he
        · rename_i cs _
          simp only [Option.getD_some]
          have : ∀ (cs : List Nat) (e : IdEnv), P e → P (cs.foldl (fun e c => e.addAuto c true) e) := by
            intro cs
            induction cs with
            | nil => intro e he; exact he
            | cons c cs ih => intro e he; exact ih _ (hadd e c he)
          exact this cs e he
      | die pos => exact he
  exact (key h .init hc ⟨by simp [IdEnv.init], by simp [IdEnv.init]⟩).1

/-- Explicit ids are not checked: an agent with an explicit id takes an id that is later given automatically, for
every class and id not yet reached by the counter. (Not part of C31, which is about automatic ids.) -/
theorem C31_explicit_id_collides (n c d : Nat) :
    let h := IdOp.addWithId n c true :: List.replicate (n + 1) (IdOp.addAuto d true)
    ⟨n, c⟩ ∈ (h.foldl IdOp.exec .init).agents ∧ ⟨n, d⟩ ∈ ((h.foldl IdOp.exec .init).agents.drop 1) := by
  have key : ∀ (m : Nat) (e : IdEnv), (List.replicate m (IdOp.addAuto d true)).foldl IdOp.exec e =
      ⟨e.currentId + m, e.agents ++ (List.range m).map (fun i : Nat => ⟨e.currentId + 1 + i, d⟩),
       e.auto ++ (List.range m).map (fun i : Nat => e.currentId + 1 + i)⟩ := by
    intro m
    induction m with
    | zero => intro e; simp
    | succ m ih =>
      intro e
      rw [List.replicate_succ', List.foldl_append, ih]
      simp only [List.foldl_cons, List.foldl_nil, IdOp.exec, IdEnv.addAuto, IdEnv.nextId, IdEnv.addWithId, if_true,
        List.range_succ, List.map_append, List.map_cons, List.map_nil, List.append_assoc]
      congr 1
      · push_cast; ring
      · congr 3; simp; ring
      · congr 3; ring
  intro h
  have hh : h.foldl IdOp.exec .init =
      ⟨-1 + (n + 1 : Nat), [⟨n, c⟩] ++ (List.range (n + 1)).map (fun i : Nat => ⟨-1 + 1 + i, d⟩),
        [] ++ (List.range (n + 1)).map (fun i : Nat => -1 + 1 + (i : Int))⟩ := by
    simp only [h, List.foldl_cons]
    rw [key]
    rfl
  rw [hh]
  refine ⟨by simp, ?_⟩
  simp only [List.singleton_append, List.drop_succ_cons, List.drop_zero, List.mem_map, List.mem_range]
  exact ⟨n, by omega, by simp⟩

example : (([.addAuto 0 true, .addAuto 1 false, .addOnNode 0 false true, .die 0, .addWithId 7 0 true, .addNode 2 true] :
    List IdOp).foldl IdOp.exec .init) = ⟨4, [⟨3, 0⟩, ⟨7, 0⟩, ⟨4, 2⟩], [0, 3, 4]⟩ := by
  decide +kernel

/-! ### C68 -/

/-- C68: `add_agents` adds exactly `k` agents after the existing ones, with consecutive new ids, each of one of the
given classes with a positive weight, whatever is drawn. -/
theorem C68_add_agents (e e' : IdEnv) (classes : List Nat) (weights : Option (List Rat)) (draws : List Rat)
    (hw : ∀ ws, weights = some ws → ∀ w ∈ ws, 0 ≤ w) (hd : ∀ r ∈ draws, IsDraw r)
    (h : e.addAgents classes weights draws = some e') :
    ∃ cs : List Nat, cs.length = draws.length ∧
      e'.agents = e.agents ++ cs.mapIdx (fun i c => ⟨e.currentId + 1 + i, c⟩) ∧
      e'.currentId = e.currentId + draws.length ∧
      ∀ c ∈ cs, ∃ i : Nat, classes[i]? = some c ∧ ∀ ws, weights = some ws → ∃ w, ws[i]? = some w ∧ 0 < w := by
  have fold : ∀ (cs : List Nat) (e : IdEnv),
      (cs.foldl (fun e c => e.addAuto c true) e).agents = e.agents ++ cs.mapIdx (fun i c => ⟨e.currentId + 1 + i, c⟩) ∧
      (cs.foldl (fun e c => e.addAuto c true) e).currentId = e.currentId + cs.length := by
    intro cs
    induction cs with
    | nil => intro e; simp
    | cons c cs ih =>
      intro e
      obtain ⟨i1, i2⟩ := ih (e.addAuto c true)
      simp only [List.foldl_cons]
      rw [i1, i2]
      simp only [IdEnv.addAuto, IdEnv.nextId, IdEnv.addWithId, if_true, List.mapIdx_cons, List.append_assoc,
        List.cons_append, List.nil_append]
      constructor
      · congr 2
        · simp
        · congr 1
          funext i c
          simp; ring
      · push_cast [List.length_cons]; ring
  unfold IdEnv.addAgents at h
  simp only at h
  split at h
  · cases h
  · rename_i cs hcs
    simp only [Option.some.injEq] at h
    subst h
    have hw' : ∀ w ∈ (match weights with
      | some ws => ws
      | none => List.replicate classes.length (1 : Rat)), 0 ≤ w := by
      cases weights with
      | none => intro w hw2; rw [(List.mem_replicate.1 hw2).2]; norm_num
      | some ws => exact hw ws rfl
    obtain ⟨c1, c2⟩ := choices_spec classes _ draws cs hw' hd hcs
    obtain ⟨f1, f2⟩ := fold cs e
    refine ⟨cs, c1, f1, by rw [f2, c1], ?_⟩
    intro c hc
    obtain ⟨i, w, g1, g2, g3⟩ := c2 c hc
    refine ⟨i, g1, ?_⟩
    intro ws hws
    subst hws
    exact ⟨w, g2, g3⟩

/-- C68: it succeeds whenever the weights fit and some weight is positive. -/
theorem C68_succeeds (e : IdEnv) (classes : List Nat) (ws draws : List Rat) (hl : ws.length = classes.length)
    (hw : ∀ w ∈ ws, 0 ≤ w) (hs : 0 < ws.sum) (hd : ∀ r ∈ draws, IsDraw r) :
    (e.addAgents classes (some ws) draws).isSome = true := by
  obtain ⟨cs, hcs⟩ := Option.isSome_iff_exists.1 (choices_isSome classes ws draws hl hw hs hd)
  simp [IdEnv.addAgents, hcs]

/-- C68: the class chosen by a draw is decided by the cumulative weights: class `i` for draws in an interval of length
`weight i / total`. -/
theorem C68_choice_interval (ws : List Rat) (hw : ∀ w ∈ ws, 0 ≤ w) (hs : 0 < ws.sum) (r : Rat) (hr : IsDraw r) (i : Nat) :
    pick ws r = i ↔ i < ws.length ∧ (ws.take i).sum / ws.sum ≤ r ∧ r < (ws.take (i + 1)).sum / ws.sum := by
  rw [div_le_iff₀ hs, lt_div_iff₀ hs]
  obtain ⟨p1, p2, p3⟩ := pick_interval ws hw hs r hr
  constructor
  · rintro rfl; exact ⟨p1, p2, p3⟩
  · rintro ⟨_, h2, h3⟩
    rcases Nat.lt_trichotomy (pick ws r) i with h | h | h
    · have := sum_take_mono ws hw (pick ws r + 1) i h
      linarith
    · exact h
    · have := sum_take_mono ws hw (i + 1) (pick ws r) h
      linarith

example : (IdEnv.init.addAgents [10, 11, 12] (some [1, 0, 3]) [0, 1/5, 1/4, 9/10]).map (·.agents) =
    some [⟨0, 10⟩, ⟨1, 10⟩, ⟨2, 12⟩, ⟨3, 12⟩] := by
  decide +kernel

/-! ### C33 -/

/-- C33: `prob(p)` is false for `p ≤ 0`, true for `p ≥ 1`, monotone in `p` for the same state of the generator, and
uses exactly one draw. -/
theorem C33_prob (r : Rat) (rest : List Rat) (hr : IsDraw r) (p q : Rat) :
    (p ≤ 0 → (prob p (r :: rest)).1 = false) ∧ (1 ≤ p → (prob p (r :: rest)).1 = true) ∧
    (p ≤ q → (prob p (r :: rest)).1 = true → (prob q (r :: rest)).1 = true) ∧ (prob p (r :: rest)).2 = rest := by
  unfold IsDraw at hr
  refine ⟨fun h => ?_, fun h => ?_, fun h h' => ?_, rfl⟩
  · simp [prob]; linarith [hr.1]
  · simp [prob]; linarith [hr.2]
  · simp [prob] at h' ⊢; linarith

example : IsDraw (1/3) ∧ (prob (1/2) [1/3, 2]).1 = true ∧ (prob (1/3) [1/3]).1 = false := by
  refine ⟨⟨by norm_num, by norm_num⟩, by decide +kernel, by decide +kernel⟩

/-! ### C32 -/

theorem inst_wf_exec {o : Obj} (h : Dict.WF o.inst) (op : DOp) : Dict.WF (op.exec o).inst ∧ (op.exec o).cls = o.cls := by
  cases op with
  | set k v => exact ⟨h.set k v, rfl⟩
  | del k =>
    simp only [DOp.exec, Obj.delitem]
    cases Dict.get? o.inst k with
    | none => exact ⟨h, rfl⟩
    | some v => exact ⟨h.del k, rfl⟩

/-- What a dictionary holds under `k` after a sequence of operations, given what it held before. -/
def Spec.lookup (k : String) : List DOp → Option Val → Option Val
  | [], v => v
  | .set k' v' :: os, v => Spec.lookup k os (if k' = k then some v' else v)
  | .del k' :: os, v => Spec.lookup k os (if k' = k then none else v)

/-- C32: for every name that is not an attribute of the class, an agent or environment behaves like a dictionary:
after any sequence of assignments and deletions a read returns the last value assigned, or raises `KeyError` if the name
has been deleted since or was never there; `in` agrees. -/
theorem C32_dictionary (o : Obj) (ho : Dict.WF o.inst) (ops : List DOp) (k : String) (hk : Dict.get? o.cls k = none) :
    (ops.foldl DOp.exec o).getitem k =
      (match Spec.lookup k ops (Dict.get? o.inst k) with
        | some v => .ok v
        | none => .error .keyError) ∧
    (ops.foldl DOp.exec o).contains k = (Spec.lookup k ops (Dict.get? o.inst k)).isSome := by
  have key : ∀ (ops : List DOp) (o : Obj), Dict.WF o.inst → Dict.get? o.cls k = none →
      Dict.get? (ops.foldl DOp.exec o).inst k = Spec.lookup k ops (Dict.get? o.inst k) ∧
      Dict.get? (ops.foldl DOp.exec o).cls k = none := by
    intro ops
    induction ops with
    | nil => intro o _ hk; exact ⟨rfl, hk⟩
    | cons op ops ih =>
      intro o ho hk
      obtain ⟨w1, w2⟩ := inst_wf_exec ho op
      obtain ⟨h1, h2⟩ := ih (op.exec o) w1 (by rw [w2]; exact hk)
      refine ⟨?_, h2⟩
      rw [List.foldl_cons, h1]
      cases op with
      | set k' v =>
        simp only [Spec.lookup, DOp.exec, Obj.setitem, Dict.get?_set]
      | del k' =>
        simp only [Spec.lookup, DOp.exec, Obj.delitem]
        cases hg : Dict.get? o.inst k' with
        | none =>
          simp only
          by_cases hkk : k' = k
          · subst hkk; simp [hg]
          · simp [hkk]
        | some v =>
          simp only
          rw [Dict.get?_del _ ho]
  obtain ⟨h1, h2⟩ := key ops o ho hk
  have hg : (ops.foldl DOp.exec o).getitem k = match Spec.lookup k ops (Dict.get? o.inst k) with
        | some v => .ok v
        | none => .error .keyError := by
    unfold Obj.getitem
    rw [h1, h2]
    cases Spec.lookup k ops (Dict.get? o.inst k) <;> rfl
  refine ⟨hg, ?_⟩
  unfold Obj.contains
  rw [hg]
  cases Spec.lookup k ops (Dict.get? o.inst k) <;> rfl

/-- C32: the keys of an agent are exactly the public names it holds, without `model` and `logger`, each once; every
key can be read. -/
theorem C32_agent_keys (o : Obj) (ho : Dict.WF o.inst) :
    o.agentKeys.Nodup ∧
    (∀ k, k ∈ o.agentKeys ↔ (Dict.get? o.inst k).isSome = true ∧ isPrivate k = false ∧ k ≠ "model" ∧ k ≠ "logger") ∧
    ∀ k ∈ o.agentKeys, o.contains k = true := by
  have hmem : ∀ k, k ∈ o.agentKeys ↔ (Dict.get? o.inst k).isSome = true ∧ isPrivate k = false ∧ k ≠ "model" ∧ k ≠ "logger" := by
    intro k
    simp only [Obj.agentKeys, List.mem_filter, Dict.mem_keys, Bool.and_eq_true, decide_eq_true_eq, Bool.not_eq_true']
    tauto
  refine ⟨List.Nodup.filter _ ho, hmem, ?_⟩
  intro k hk
  obtain ⟨v, hv⟩ := Option.isSome_iff_exists.1 ((hmem k).1 hk).1
  simp [Obj.contains, Obj.getitem, hv]

/-- C32 is violated for names that are attributes of the class (e.g. methods, `schedule_class`): deleting a value
assigned before does not make the name absent, the class attribute appears. -/
theorem C32_class_attribute_false (o : Obj) (ho : Dict.WF o.inst) (k : String) (v c : Val)
    (hc : Dict.get? o.cls k = some c) :
    ([DOp.set k v, DOp.del k].foldl DOp.exec o).getitem k = .ok c ∧
    ([DOp.set k v, DOp.del k].foldl DOp.exec o).contains k = true := by
  have h1 : ([DOp.set k v, DOp.del k].foldl DOp.exec o).getitem k = .ok c := by
    simp only [List.foldl_cons, List.foldl_nil, DOp.exec, Obj.setitem, Obj.delitem, Dict.get?_set_self, Obj.getitem]
    rw [Dict.get?_del _ (ho.set k v)]
    simp [hc]
  exact ⟨h1, by rw [Obj.contains, h1]⟩

/-- C32 is violated: deleting an absent name raises `AttributeError`, not `KeyError`. -/
theorem C32_delete_absent_false (o : Obj) (k : String) (hk : Dict.get? o.inst k = none) :
    o.delitem k = .error .attributeError := by
  simp [Obj.delitem, hk]

/-- C32 is violated: `logger` and `model` are listed among the keys of an environment that has them (every
environment has a logger). -/
theorem C32_env_keys_false (o : Obj) (v : Val) (h : Dict.get? o.inst "logger" = some v) : "logger" ∈ o.envKeys := by
  simp only [Obj.envKeys, List.mem_filter, Dict.mem_keys, h]
  exact ⟨rfl, by decide +kernel⟩

/-- C32 is violated: iterating over an agent gives pairs, not keys, so that for instance `popitem` and `clear`
(inherited from `MutableMapping`, which look up what iteration yields) fail for every agent with a key. -/
theorem C32_iteration_false (o : Obj) (ho : Dict.WF o.inst) : o.items.map (fun p => p.1) = o.agentKeys ∧
    o.items = o.agentKeys.map (fun k => (k, Dict.get? o.inst k)) := by
  refine ⟨by simp [Obj.items, Function.comp_def], ?_⟩
  unfold Obj.items
  refine List.map_congr_left (fun k hk => ?_)
  obtain ⟨v, hv⟩ := Option.isSome_iff_exists.1 (((C32_agent_keys o ho).2.1 k).1 hk).1
  simp [Obj.getitem, hv]

/-- C32: `get` of an agent returns the last value assigned to the name on the agent, if it has not been deleted since; otherwise
that of the model; otherwise the default. (So it does not agree with `in`, as documented.) -/
theorem C32_agent_get (o model : Obj) (ho : Dict.WF o.inst) (hm : Dict.WF model.inst) (ops mops : List DOp) (k : String) (d : Val)
    (hk : Dict.get? o.cls k = none) (hkm : Dict.get? model.cls k = none) :
    (ops.foldl DOp.exec o).agentGet (mops.foldl DOp.exec model) k d =
      ((Spec.lookup k ops (Dict.get? o.inst k)).or (Spec.lookup k mops (Dict.get? model.inst k))).getD d := by
  unfold Obj.agentGet
  rw [(C32_dictionary o ho ops k hk).1, (C32_dictionary model hm mops k hkm).1]
  cases Spec.lookup k ops (Dict.get? o.inst k) <;> cases Spec.lookup k mops (Dict.get? model.inst k) <;> rfl

/-- C32: `get` of an environment returns the last value assigned to the name, if it has not been deleted since, and otherwise the
default. -/
theorem C32_env_get (o : Obj) (ho : Dict.WF o.inst) (ops : List DOp) (k : String) (d : Val) (hk : Dict.get? o.cls k = none) :
    (ops.foldl DOp.exec o).envGet k d = (Spec.lookup k ops (Dict.get? o.inst k)).getD d := by
  unfold Obj.envGet
  rw [(C32_dictionary o ho ops k hk).1, (C32_dictionary o ho ops k hk).2]
  cases Spec.lookup k ops (Dict.get? o.inst k) <;> rfl

def exObj : Obj := ⟨[("unique_id", .num 0), ("logger", .obj 1), ("_x", .num 2), ("age", .num 3)], [("step", .obj 9)]⟩

example : (([.set "age" (.num 4), .set "b" .none, .del "age", .del "zz", .set "age" (.num 5)] : List DOp).foldl DOp.exec exObj).agentKeys =
    ["unique_id", "b", "age"] := by
  decide +kernel

end Verif
