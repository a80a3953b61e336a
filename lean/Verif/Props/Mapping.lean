import Verif.Model.Mapping
import Verif.Proofs.FSM

/-!
# Agents and the methods of `MutableMapping` (C214)
-/

namespace Verif

namespace Spec

/-- The operations on a Python `dict`. -/
def dictOp (d : Dict String Val) : MapOp → Dict String Val × MapRes
  | .get k => (d, match Dict.get? d k with
    | some v => .val v
    | none => .raised .keyError)
  | .set k v => (Dict.set d k v, .none)
  | .del k => if Dict.has d k then (Dict.del d k, .none) else (d, .raised .keyError)
  | .has k => (d, .bool (Dict.has d k))
  | .len => (d, .nat (List.length d))
  | .pop k dflt => match Dict.get? d k, dflt with
    | some v, _ => (Dict.del d k, .val v)
    | none, some v => (d, .val v)
    | none, none => (d, .raised .keyError)
  | .setdefault k v => match Dict.get? d k with
    | some v' => (d, .val v')
    | none => (Dict.set d k v, .val v)
  | .update kvs => (Dict.update d kvs, .none)

/-- A sequence of operations on a Python `dict`, with what each of them returned. -/
def dictOps : Dict String Val → List MapOp → Dict String Val × List MapRes
  | d, [] => (d, [])
  | d, op :: ops => ((dictOps (dictOp d op).1 ops).1, (dictOp d op).2 :: (dictOps (dictOp d op).1 ops).2)

/-- The names an operation is about. -/
def opNames : MapOp → List String
  | .get k => [k]
  | .set k _ => [k]
  | .del k => [k]
  | .has k => [k]
  | .len => []
  | .pop k _ => [k]
  | .setdefault k _ => [k]
  | .update kvs => kvs.map (·.1)

end Spec

/-- A name that is public, neither `model` nor `logger`, and not found on the class of the agent. -/
def MObj.Ordinary (o : MObj) (k : String) : Prop :=
  k.toList.head? ≠ some '_' ∧ k ≠ "model" ∧ k ≠ "logger" ∧ Dict.get? o.obj.cls k = none ∧ k ∉ o.readonly

/-- The part of `__dict__` that `keys` shows. -/
private def vis (kv : String × Val) : Bool := !isPrivate kv.1 && kv.1 ≠ "model" && kv.1 ≠ "logger"

private def shown (o : MObj) : Dict String Val := o.obj.inst.filter vis

private theorem get_filter (d : Dict String Val) (k : String) (hk : ∀ v, vis (k, v) = true) :
    Dict.get? (List.filter vis d) k = Dict.get? d k := by
  induction d with
  | nil => rfl
  | cons p d ih =>
    obtain ⟨a, b⟩ := p
    by_cases h : a = k
    · subst h
      rw [List.filter_cons_of_pos (hk b)]
      simp [Dict.get?]
    · by_cases hp : vis (a, b) = true
      · rw [List.filter_cons_of_pos hp]
        simp only [Dict.get?, if_neg h]
        exact ih
      · rw [List.filter_cons_of_neg hp]
        simp only [Dict.get?, if_neg h]
        exact ih

private theorem set_filter (d : Dict String Val) (k : String) (v : Val) (hk : ∀ v, vis (k, v) = true) :
    List.filter vis (Dict.set d k v) = Dict.set (List.filter vis d) k v := by
  induction d with
  | nil => simp [Dict.set, hk v]
  | cons p d ih =>
    obtain ⟨a, b⟩ := p
    by_cases h : a = k
    · subst h
      simp only [Dict.set, if_true]
      rw [List.filter_cons_of_pos (hk v), List.filter_cons_of_pos (hk b)]
      simp [Dict.set]
    · simp only [Dict.set, if_neg h]
      by_cases hp : vis (a, b) = true
      · rw [List.filter_cons_of_pos hp, List.filter_cons_of_pos hp]
        simp only [Dict.set, if_neg h]
        rw [ih]
      · rw [List.filter_cons_of_neg hp, List.filter_cons_of_neg hp, ih]

private theorem del_filter (d : Dict String Val) (k : String) (hk : ∀ v, vis (k, v) = true) :
    List.filter vis (Dict.del d k) = Dict.del (List.filter vis d) k := by
  induction d with
  | nil => rfl
  | cons p d ih =>
    obtain ⟨a, b⟩ := p
    by_cases h : a = k
    · subst h
      simp only [Dict.del, if_true]
      rw [List.filter_cons_of_pos (hk b)]
      simp [Dict.del]
    · simp only [Dict.del, if_neg h]
      by_cases hp : vis (a, b) = true
      · rw [List.filter_cons_of_pos hp, List.filter_cons_of_pos hp]
        simp only [Dict.del, if_neg h]
        rw [ih]
      · rw [List.filter_cons_of_neg hp, List.filter_cons_of_neg hp, ih]

private theorem ordinary_vis {o : MObj} {k : String} (h : o.Ordinary k) (v : Val) : vis (k, v) = true := by
  obtain ⟨h1, h2, h3, _⟩ := h
  simp [vis, isPrivate, h1, h2, h3]

private theorem shown_keys (o : MObj) : Dict.keys (shown o) = o.obj.agentKeys := by
  unfold shown Dict.keys Obj.agentKeys Dict.keys
  rw [List.filter_map]
  congr 1

private theorem getitem_ordinary {o : MObj} {k : String} (h : o.Ordinary k) :
    o.getitem (.name k) = match Dict.get? (shown o) k with
      | some v => .ok v
      | none => .error .keyError := by
  unfold MObj.getitem Obj.getitem shown
  rw [get_filter _ _ (ordinary_vis h)]
  simp only [h.2.2.2.1]
  cases Dict.get? o.obj.inst k <;> rfl

private theorem setitem_ordinary {o : MObj} {k : String} (h : o.Ordinary k) (v : Val) :
    ∃ o', o.setitem (.name k) v = .ok o' ∧ shown o' = Dict.set (shown o) k v ∧ o'.obj.cls = o.obj.cls ∧
      o'.readonly = o.readonly := by
  unfold MObj.setitem
  simp only [if_neg h.2.2.2.2]
  exact ⟨_, rfl, set_filter _ _ _ (ordinary_vis h), rfl, rfl⟩

private theorem delitem_ordinary {o : MObj} {k : String} (h : o.Ordinary k) :
    (Dict.get? (shown o) k = none → o.delitem (.name k) = .error .attributeError) ∧
    (∀ v, Dict.get? (shown o) k = some v → ∃ o', o.delitem (.name k) = .ok o' ∧ shown o' = Dict.del (shown o) k ∧
      o'.obj.cls = o.obj.cls ∧ o'.readonly = o.readonly) := by
  unfold MObj.delitem Obj.delitem
  simp only [if_neg h.2.2.2.2]
  have e : Dict.get? (shown o) k = Dict.get? o.obj.inst k := get_filter _ _ (ordinary_vis h)
  rw [e]
  constructor
  · intro hn
    simp only [hn]
  · intro v hv
    simp only [hv]
    exact ⟨_, rfl, del_filter _ _ (ordinary_vis h), rfl, rfl⟩

private theorem Ordinary.mono {o o' : MObj} {k : String} (h : o.Ordinary k) (hc : o'.obj.cls = o.obj.cls)
    (hr : o'.readonly = o.readonly) : o'.Ordinary k := by
  unfold MObj.Ordinary at h ⊢
  rw [hc, hr]
  exact h

private theorem update_ordinary (kvs : List (String × Val)) : ∀ {o : MObj}, (∀ kv ∈ kvs, o.Ordinary kv.1) →
    ∃ o', o.update kvs = (o', .ok ()) ∧ shown o' = Dict.update (shown o) kvs ∧ o'.obj.cls = o.obj.cls ∧
      o'.readonly = o.readonly := by
  induction kvs with
  | nil => intro o _; exact ⟨o, rfl, rfl, rfl, rfl⟩
  | cons kv kvs ih =>
    intro o h
    obtain ⟨k, v⟩ := kv
    obtain ⟨o1, e1, s1, c1, r1⟩ := setitem_ordinary (h (k, v) List.mem_cons_self) v
    obtain ⟨o2, e2, s2, c2, r2⟩ := @ih o1 (fun kv hkv => Ordinary.mono (h kv (List.mem_cons_of_mem _ hkv)) c1 r1)
    refine ⟨o2, ?_, ?_, c2.trans c1, r2.trans r1⟩
    · unfold MObj.update
      rw [e1]
      exact e2
    · rw [s2, s1]
      rfl

/-- Two results are the same, except that deleting a name that is not there raises `AttributeError` instead of `KeyError`. -/
def MapRes.Same (op : MapOp) (a d : MapRes) : Prop :=
  a = d ∨ (∃ k, op = .del k) ∧ a = .raised .attributeError ∧ d = .raised .keyError

private theorem exec_ordinary (o : MObj) (op : MapOp) (h : ∀ k ∈ Spec.opNames op, o.Ordinary k) :
    shown (op.exec o).1 = (Spec.dictOp (shown o) op).1 ∧ (op.exec o).1.obj.cls = o.obj.cls ∧
    (op.exec o).1.readonly = o.readonly ∧ MapRes.Same op (op.exec o).2 (Spec.dictOp (shown o) op).2 := by
  cases op with
  | get k =>
    refine ⟨rfl, rfl, rfl, .inl ?_⟩
    simp only [MapOp.exec, Spec.dictOp, getitem_ordinary (h k (List.mem_singleton.2 rfl))]
    cases Dict.get? (shown o) k <;> rfl
  | set k v =>
    obtain ⟨o', e, s, c, r⟩ := setitem_ordinary (h k (List.mem_singleton.2 rfl)) v
    simp only [MapOp.exec, e]
    exact ⟨s, c, r, .inl rfl⟩
  | del k =>
    obtain ⟨h1, h2⟩ := delitem_ordinary (h k (List.mem_singleton.2 rfl))
    cases hg : Dict.get? (shown o) k with
    | none =>
      have hh : Dict.has (shown o) k = false := by unfold Dict.has; rw [hg]; rfl
      simp only [MapOp.exec, h1 hg, Spec.dictOp, hh]
      exact ⟨rfl, trivial, trivial, .inr ⟨⟨k, rfl⟩, rfl, rfl⟩⟩
    | some v =>
      have hh : Dict.has (shown o) k = true := by unfold Dict.has; rw [hg]; rfl
      obtain ⟨o', e, s, c, r⟩ := h2 v hg
      simp only [MapOp.exec, e, Spec.dictOp, hh]
      exact ⟨s, c, r, .inl rfl⟩
  | has k =>
    refine ⟨rfl, rfl, rfl, .inl ?_⟩
    have ho := h k (List.mem_singleton.2 rfl)
    have e : Dict.get? (shown o) k = Dict.get? o.obj.inst k := get_filter _ _ (ordinary_vis ho)
    simp only [MapOp.exec, Spec.dictOp, MObj.contains, Obj.contains, Obj.getitem, Dict.has, e, ho.2.2.2.1]
    cases Dict.get? o.obj.inst k <;> rfl
  | len =>
    refine ⟨rfl, rfl, rfl, .inl ?_⟩
    simp only [MapOp.exec, Spec.dictOp, MObj.len, ← shown_keys, Dict.keys, List.length_map]
  | pop k d =>
    have ho := h k (List.mem_singleton.2 rfl)
    obtain ⟨h1, h2⟩ := delitem_ordinary ho
    cases hg : Dict.get? (shown o) k with
    | none =>
      simp only [MapOp.exec, MObj.pop, getitem_ordinary ho, hg, Spec.dictOp]
      cases d <;> exact ⟨rfl, trivial, trivial, .inl rfl⟩
    | some v =>
      obtain ⟨o', e, s, c, r⟩ := h2 v hg
      simp only [MapOp.exec, MObj.pop, getitem_ordinary ho, hg, Spec.dictOp, e]
      exact ⟨s, c, r, .inl rfl⟩
  | setdefault k v =>
    have ho := h k (List.mem_singleton.2 rfl)
    cases hg : Dict.get? (shown o) k with
    | none =>
      obtain ⟨o', e, s, c, r⟩ := setitem_ordinary ho v
      simp only [MapOp.exec, MObj.setdefault, getitem_ordinary ho, hg, Spec.dictOp, e]
      exact ⟨s, c, r, .inl rfl⟩
    | some v =>
      simp only [MapOp.exec, MObj.setdefault, getitem_ordinary ho, hg, Spec.dictOp]
      exact ⟨trivial, trivial, trivial, .inl rfl⟩
  | update kvs =>
    obtain ⟨o', e, s, c, r⟩ := @update_ordinary kvs o (fun kv hkv => h kv.1 (List.mem_map.2 ⟨kv, hkv, rfl⟩))
    simp only [MapOp.exec, e]
    exact ⟨s, c, r, .inl rfl⟩

private theorem toDict_shown (o : MObj) (hwf : Dict.WF o.obj.inst) : o.toDict = .ok (shown o) := by
  unfold MObj.toDict
  rw [← shown_keys]
  have key : ∀ l : Dict String Val, (∀ kv ∈ l, kv ∈ shown o) →
      (Dict.keys l).mapM (fun k => match o.getitem (.name k) with
        | .ok v => (Except.ok (k, v) : Except MErr (String × Val))
        | .error e => .error e) = .ok l := by
    intro l
    induction l with
    | nil => intro _; rfl
    | cons kv l ih =>
      intro hl
      obtain ⟨k, v⟩ := kv
      have hm : (k, v) ∈ o.obj.inst := (List.mem_filter.1 (hl _ List.mem_cons_self)).1
      have hg : o.getitem (.name k) = .ok v := by
        simp [MObj.getitem, Obj.getitem, Dict.get?_of_mem hwf hm]
      have hk : Dict.keys ((k, v) :: l) = k :: Dict.keys l := rfl
      rw [hk, List.mapM_cons, hg, ih (fun kv hkv => hl kv (List.mem_cons_of_mem _ hkv))]
      rfl
  exact key _ (fun _ h => h)

private theorem wf_exec (o : MObj) (hwf : Dict.WF o.obj.inst) (op : MapOp) : Dict.WF (op.exec o).1.obj.inst := by
  have hset : ∀ (o o' : MObj) k v, Dict.WF o.obj.inst → o.setitem k v = .ok o' → Dict.WF o'.obj.inst := by
    intro o o' k v hw h
    unfold MObj.setitem at h
    split at h
    · split at h
      · cases h
      · cases h
        exact Dict.WF.set hw _ _
    all_goals cases h
  have hdel : ∀ (o o' : MObj) k, Dict.WF o.obj.inst → o.delitem k = .ok o' → Dict.WF o'.obj.inst := by
    intro o o' k hw h
    unfold MObj.delitem Obj.delitem at h
    split at h
    · split at h
      · cases h
      · split at h
        · rename_i h2
          split at h2
          · cases h2
            cases h
            exact Dict.WF.del hw _
          · cases h2
        · cases h
    all_goals cases h
  have hupd : ∀ kvs (o : MObj), Dict.WF o.obj.inst → Dict.WF (o.update kvs).1.obj.inst := by
    intro kvs
    induction kvs with
    | nil => intro o h; exact h
    | cons kv kvs ih =>
      intro o h
      obtain ⟨k, v⟩ := kv
      unfold MObj.update
      split
      · exact ih _ (hset _ _ _ _ h (by assumption))
      · exact h
  cases op with
  | get k => exact hwf
  | set k v =>
    simp only [MapOp.exec]
    split
    · exact hset _ _ _ _ hwf (by assumption)
    · exact hwf
  | del k =>
    simp only [MapOp.exec]
    split
    · exact hdel _ _ _ hwf (by assumption)
    · exact hwf
  | has k => exact hwf
  | len => exact hwf
  | pop k d =>
    simp only [MapOp.exec, MObj.pop]
    split
    · exact hwf
    · exact hwf
    · split
      · exact hdel _ _ _ hwf (by assumption)
      · exact hwf
  | setdefault k v =>
    simp only [MapOp.exec, MObj.setdefault]
    split
    · exact hwf
    · split
      · exact hset _ _ _ _ hwf (by assumption)
      · exact hwf
    · exact hwf
  | update kvs => exact hupd kvs o hwf

/-- C214, what holds: with names that are public and not found on the class, every sequence of reads, assignments, deletions, tests,
`len`, `pop`, `setdefault` and `update` (with a dictionary, with pairs or with keyword arguments) does to an agent what it does to
the dictionary `dict(agent)`, order included, and returns the same, except that deleting an absent name raises another
exception. Missing: names of the class, `popitem`, `clear`, `values`, `update` with an agent. -/
theorem C214_dictionary_partial (o : MObj) (hwf : Dict.WF o.obj.inst) (ops : List MapOp)
    (h : ∀ op ∈ ops, ∀ k ∈ Spec.opNames op, o.Ordinary k) :
    ∃ d, o.toDict = .ok d ∧ (mapExec o ops).1.toDict = .ok (Spec.dictOps d ops).1 ∧
      (mapExec o ops).2.length = ops.length ∧ (Spec.dictOps d ops).2.length = ops.length ∧
      ∀ (i : Nat) op a e, ops[i]? = some op → (mapExec o ops).2[i]? = some a → (Spec.dictOps d ops).2[i]? = some e →
        MapRes.Same op a e := by
  refine ⟨shown o, toDict_shown o hwf, ?_⟩
  induction ops generalizing o with
  | nil => exact ⟨toDict_shown o hwf, rfl, rfl, fun i op a e h1 => by simp at h1⟩
  | cons op ops ih =>
    obtain ⟨hs, hc, hr, hsame⟩ := exec_ordinary o op (h op List.mem_cons_self)
    obtain ⟨h1, h2, h3, h4⟩ := ih (op.exec o).1 (wf_exec o hwf op)
      (fun op' hop' k hk => Ordinary.mono (h op' (List.mem_cons_of_mem _ hop') k hk) hc hr)
    rw [hs] at h1 h3 h4
    refine ⟨h1, by simp only [mapExec, List.length_cons, h2], by simp only [Spec.dictOps, List.length_cons, h3], ?_⟩
    intro i op' a e e1 e2 e3
    cases i with
    | zero =>
      simp only [mapExec, Spec.dictOps, List.getElem?_cons_zero, Option.some.injEq] at e1 e2 e3
      subst e1 e2 e3
      exact hsame
    | succ i =>
      simp only [mapExec, Spec.dictOps, List.getElem?_cons_succ] at e1 e2 e3
      exact h4 i op' a e e1 e2 e3

/-- C214 is false: `popitem`, `clear` and `values` of an agent with at least one key (every agent has `unique_id`) raise `TypeError`,
and nothing is removed. -/
theorem C214_popitem_false (o : MObj) (v : Val) (h : Dict.get? o.obj.inst "unique_id" = some v) (fuel : Nat) :
    o.popitem = (o, .error .typeError) ∧ o.clear (fuel + 1) = some (o, .error .typeError) ∧ o.values = .error .typeError := by
  have hk : "unique_id" ∈ o.obj.agentKeys := by
    unfold Obj.agentKeys
    refine List.mem_filter.2 ⟨(Dict.mem_keys _ _).2 (by rw [h]; rfl), by decide +kernel⟩
  have hi : ∃ k v' rest, o.iter = .item k v' :: rest := by
    unfold MObj.iter Obj.items
    cases hks : o.obj.agentKeys with
    | nil => rw [hks] at hk; cases hk
    | cons k ks => exact ⟨k, _, _, rfl⟩
  obtain ⟨k, v', rest, hi⟩ := hi
  have hp : o.popitem = (o, .error .typeError) := by
    unfold MObj.popitem
    rw [hi]
    rfl
  refine ⟨hp, ?_, ?_⟩
  · unfold MObj.clear
    rw [hp]
  · unfold MObj.values
    rw [hi, List.mapM_cons]
    rfl

/-- C214 is false: `update` with another agent raises `TypeError` and changes nothing. -/
theorem C214_update_false (o other : MObj) (v : Val) (h : Dict.get? other.obj.inst "unique_id" = some v) :
    o.updateFrom other = (o, .error .typeError) := by
  have hk : "unique_id" ∈ other.obj.agentKeys := by
    unfold Obj.agentKeys
    refine List.mem_filter.2 ⟨(Dict.mem_keys _ _).2 (by rw [h]; rfl), by decide +kernel⟩
  unfold MObj.updateFrom MObj.iter Obj.items
  cases hks : other.obj.agentKeys with
  | nil => rw [hks] at hk; cases hk
  | cons k ks => rfl

/-- C214 is false: with a name found on the class, `pop` raises `AttributeError` even if it is given a default, and `setdefault`
sets nothing. -/
theorem C214_class_false (o : MObj) (k : String) (c : Val) (dflt : Option Val) (v : Val) (hi : Dict.get? o.obj.inst k = none)
    (hc : Dict.get? o.obj.cls k = some c) :
    o.pop (.name k) dflt = (o, .error .attributeError) ∧ o.setdefault (.name k) v = (o, .ok c) := by
  have hg : o.getitem (.name k) = .ok c := by simp [MObj.getitem, Obj.getitem, hi, hc]
  have hd : o.delitem (.name k) = .error .attributeError := by
    unfold MObj.delitem
    simp only
    split
    · rfl
    · simp [Obj.delitem, hi]
  constructor
  · unfold MObj.pop
    rw [hg]
    simp only [hd]
  · unfold MObj.setdefault
    rw [hg]

def exMapAgent : MObj := ⟨⟨[("unique_id", .num 0), ("_secret", .num 7), ("wealth", .num 3), ("model", .obj 1)],
  [("step", .obj 2), ("now", .num 5)]⟩, ["now"]⟩

/-- Some operations, hidden names in between. -/
example : let r := mapExec exMapAgent [.pop "wealth" none, .setdefault "age" (.num 1), .del "wealth", .update [("a", .none), ("age", .num 2)],
      .len, .pop "b" (some (.num 9))]
    r.2 = [.val (.num 3), .val (.num 1), .raised .attributeError, .none, .nat 3, .val (.num 9)] ∧
    r.1.toDict = .ok [("unique_id", .num 0), ("age", .num 2), ("a", .none)] := by decide +kernel

example : ∀ k ∈ ["wealth", "age", "a", "b"], exMapAgent.Ordinary k := by
  unfold MObj.Ordinary
  decide +kernel

example : exMapAgent.popitem.2 = .error .typeError ∧ exMapAgent.pop (.name "step") (some .none) = (exMapAgent, .error .attributeError) := by
  decide +kernel

end Verif
