import Verif.Model.Attrs

/-!
# Property C29: where the attributes of an agent come from
-/

namespace Verif

/-! ### The three loops -/

theorem fromModel_get? (c : AgentCls) (model : String → Val) (ks : List String) (inst inst' : Dict String Val)
    (h : c.fromModel model ks inst = some inst') (k : String) :
    Dict.get? inst' k = if k ∈ ks ∧ model k ≠ .none then some (model k) else Dict.get? inst k := by
  induction ks generalizing inst with
  | nil => simp only [AgentCls.fromModel, Option.some.injEq] at h; subst h; simp
  | cons a ks ih =>
    simp only [AgentCls.fromModel] at h
    split at h
    · rename_i hn
      rw [ih _ h]
      by_cases hk : k = a
      · subst hk; simp [hn]
      · simp [hk]
    · rename_i hn
      unfold AgentCls.setattr at h
      split at h
      · cases h
      · rename_i _ inst1 hi
        split at hi
        · cases hi
        · cases hi
          rw [ih _ h, Dict.get?_set]
          by_cases hk : k = a
          · subst hk; simp [hn]
          · simp [hk, Ne.symm hk]

theorem fromKwargs_get? (c : AgentCls) (d : Dict String Val) (hd : Dict.WF d) (inst inst' : Dict String Val)
    (h : c.fromKwargs d inst = some inst') (k : String) :
    Dict.get? inst' k = match Dict.get? d k with
      | some v => some v
      | none => Dict.get? inst k := by
  induction d generalizing inst with
  | nil => simp only [AgentCls.fromKwargs, Option.some.injEq] at h; subst h; rfl
  | cons p d ih =>
    obtain ⟨a, v⟩ := p
    have hd' : Dict.WF d := by
      unfold Dict.WF Dict.keys at hd ⊢
      exact (List.nodup_cons.1 hd).2
    have hna : Dict.get? d a = none := by
      rw [Dict.get?_none_iff]
      unfold Dict.WF Dict.keys at hd
      exact (List.nodup_cons.1 hd).1
    simp only [AgentCls.fromKwargs, AgentCls.setattr] at h
    split at h
    · cases h
    · rename_i _ inst1 hi
      split at hi
      · cases hi
      · cases hi
        rw [ih hd' _ h, Dict.get?_set, Dict.get?]
        by_cases hk : a = k
        · subst hk; simp [hna]
        · simp [hk]

theorem fromDefaults_get? (c : AgentCls) (d : Dict String Val) (hd : Dict.WF d) (inst inst' : Dict String Val)
    (h : c.fromDefaults d inst = some inst') (k : String) :
    Dict.get? inst' k = match Dict.get? d k with
      | none => Dict.get? inst k
      | some v => match c.getattr inst k with
        | none => some v
        | some .none => some v
        | some _ => Dict.get? inst k := by
  induction d generalizing inst with
  | nil => simp only [AgentCls.fromDefaults, Option.some.injEq] at h; subst h; rfl
  | cons p d ih =>
    obtain ⟨a, v⟩ := p
    have hd' : Dict.WF d := by
      unfold Dict.WF Dict.keys at hd ⊢
      exact (List.nodup_cons.1 hd).2
    have hna : Dict.get? d a = none := by
      rw [Dict.get?_none_iff]
      unfold Dict.WF Dict.keys at hd
      exact (List.nodup_cons.1 hd).1
    have hset : ∀ inst1, c.setattr inst a v = some inst1 → c.fromDefaults d inst1 = some inst' →
        Dict.get? inst' k = if a = k then some v else match Dict.get? d k with
          | none => Dict.get? inst k
          | some v => match c.getattr inst k with
            | none => some v
            | some .none => some v
            | some _ => Dict.get? inst k := by
      intro inst1 hi h1
      unfold AgentCls.setattr at hi
      split at hi
      · cases hi
      · cases hi
        rw [ih hd' _ h1]
        by_cases hk : a = k
        · subst hk; simp [hna]
        · simp only [hk, if_false, AgentCls.getattr, Dict.get?_set_ne _ _ hk]
    simp only [AgentCls.fromDefaults] at h
    rw [Dict.get?]
    cases hg : c.getattr inst a with
    | none =>
      rw [hg] at h
      simp only at h
      cases hs : c.setattr inst a v with
      | none => rw [hs] at h; cases h
      | some inst1 =>
        rw [hs] at h
        rw [hset inst1 hs h]
        by_cases hk : a = k
        · subst hk; simp [hg]
        · simp [hk]
    | some x =>
      rw [hg] at h
      by_cases hx : x = .none
      · subst hx
        simp only at h
        cases hs : c.setattr inst a v with
        | none => rw [hs] at h; cases h
        | some inst1 =>
          rw [hs] at h
          rw [hset inst1 hs h]
          by_cases hk : a = k
          · subst hk; simp [hg]
          · simp [hk]
      · have h' : c.fromDefaults d inst = some inst' := by
          cases x <;> first | exact absurd rfl hx | exact h
        rw [ih hd' _ h']
        by_cases hk : a = k
        · subst hk
          simp only [hna, if_true, hg]
        · simp [hk]

/-! ### C29 -/

/-- The documented value of attribute `k`: the constructor argument, else (if the class has a default for it) the
model's value if that is not `None`, else the default. -/
def Spec.attribute (defaults kwargs : Dict String Val) (model : String → Val) (k : String) : Option Val :=
  match Dict.get? kwargs k with
  | some v => some v
  | none => match Dict.get? defaults k with
    | none => none
    | some d => if model k = .none then some d else some (model k)

/-- C29, the values, for every attribute that is neither one of the attributes every agent has nor the name of a
method or property. -/
theorem C29_precedence_partial (c : AgentCls) (hc : Dict.WF c.defaults) (model : String → Val)
    (inst0 kwargs inst : Dict String Val) (hkw : Dict.WF kwargs) (h : c.construct model inst0 kwargs = some inst)
    (k : String) (hb : k ∉ Dict.keys inst0) (ha : k ∉ Dict.keys c.attrs) :
    Dict.get? inst k = Spec.attribute c.defaults kwargs model k := by
  unfold AgentCls.construct at h
  split at h
  · cases h
  · rename_i i1 h1
    split at h
    · cases h
    · rename_i i2 h2
      have hb' : Dict.get? inst0 k = none := (Dict.get?_none_iff _ _).2 hb
      have ha' : Dict.get? c.attrs k = none := (Dict.get?_none_iff _ _).2 ha
      have g1 := fromModel_get? c model _ _ _ h1 k
      have hm : k ∈ Dict.keys c.defaults ↔ (Dict.get? c.defaults k).isSome = true := Dict.mem_keys _ _
      rw [fromKwargs_get? c kwargs hkw _ _ h, fromDefaults_get? c c.defaults hc _ _ h2, Spec.attribute]
      cases Dict.get? kwargs k with
      | some v => rfl
      | none =>
        simp only
        cases hd : Dict.get? c.defaults k with
        | none => simp only [hd] at hm ⊢; rw [g1, hb']; simp [hm]
        | some d =>
          simp only [hd] at hm ⊢
          simp only [Option.isSome_some, iff_true] at hm
          rw [AgentCls.getattr, g1, hb', ha']
          by_cases hn : model k = .none
          · simp [hn]
          · rw [if_pos ⟨hm, hn⟩, if_neg hn]
            simp only

/-- Construction succeeds unless some attribute to be set is a property without setter. -/
theorem C29_constructs (c : AgentCls) (model : String → Val) (inst0 kwargs : Dict String Val)
    (h1 : ∀ k ∈ Dict.keys c.defaults, k ∉ c.readonly) (h2 : ∀ k ∈ Dict.keys kwargs, k ∉ c.readonly) :
    (c.construct model inst0 kwargs).isSome = true := by
  have e1 : ∀ (ks : List String) inst, (∀ k ∈ ks, k ∉ c.readonly) → (c.fromModel model ks inst).isSome = true := by
    intro ks
    induction ks with
    | nil => intro _ _; rfl
    | cons k ks ih =>
      intro inst hk
      simp only [AgentCls.fromModel, AgentCls.setattr, if_neg (hk k (by simp))]
      split
      · exact ih _ (fun k' hk' => hk k' (by simp [hk']))
      · exact ih _ (fun k' hk' => hk k' (by simp [hk']))
  have e2 : ∀ (d : Dict String Val) inst, (∀ k ∈ Dict.keys d, k ∉ c.readonly) →
      (c.fromDefaults d inst).isSome = true := by
    intro d
    induction d with
    | nil => intro _ _; rfl
    | cons p d ih =>
      intro inst hk
      obtain ⟨k, v⟩ := p
      have hd : ∀ k' ∈ Dict.keys d, k' ∉ c.readonly := fun k' hk' => hk k' (by
        unfold Dict.keys at hk' ⊢; exact List.mem_cons_of_mem _ hk')
      have hkk : k ∉ c.readonly := hk k (by simp [Dict.keys])
      simp only [AgentCls.fromDefaults, AgentCls.setattr, if_neg hkk]
      split <;> exact ih _ hd
  have e3 : ∀ (d : Dict String Val) inst, (∀ k ∈ Dict.keys d, k ∉ c.readonly) →
      (c.fromKwargs d inst).isSome = true := by
    intro d
    induction d with
    | nil => intro _ _; rfl
    | cons p d ih =>
      intro inst hk
      obtain ⟨k, v⟩ := p
      have hd : ∀ k' ∈ Dict.keys d, k' ∉ c.readonly := fun k' hk' => hk k' (by
        unfold Dict.keys at hk' ⊢; exact List.mem_cons_of_mem _ hk')
      have hkk : k ∉ c.readonly := hk k (by simp [Dict.keys])
      simp only [AgentCls.fromKwargs, AgentCls.setattr, if_neg hkk]
      exact ih _ hd
  unfold AgentCls.construct
  obtain ⟨i1, g1⟩ := Option.isSome_iff_exists.1 (e1 _ inst0 h1)
  rw [g1]
  obtain ⟨i2, g2⟩ := Option.isSome_iff_exists.1 (e2 _ i1 h1)
  simp only [g2]
  exact e3 _ i2 h2

/-- C29 is violated for attributes whose name is that of a method or property of the class: the class default is
ignored (reading the attribute gives the method). -/
theorem C29_method_name_false (c : AgentCls) (hc : Dict.WF c.defaults) (model : String → Val)
    (inst0 kwargs inst : Dict String Val) (hkw : Dict.WF kwargs) (h : c.construct model inst0 kwargs = some inst)
    (k : String) (v m : Val) (hd : Dict.get? c.defaults k = some v) (hk : Dict.get? kwargs k = none)
    (hb : Dict.get? inst0 k = none) (ha : Dict.get? c.attrs k = some m) (hm : m ≠ .none) (hmod : model k = .none) :
    c.getattr inst k = some m := by
  unfold AgentCls.construct at h
  split at h
  · cases h
  · rename_i i1 h1
    split at h
    · cases h
    · rename_i i2 h2
      have g1 : Dict.get? i1 k = none := by
        rw [fromModel_get? c model _ _ _ h1 k, if_neg (by simp [hmod]), hb]
      have g2 : Dict.get? i2 k = none := by
        rw [fromDefaults_get? c c.defaults hc _ _ h2, hd]
        simp only [AgentCls.getattr, g1, ha]
      have g3 : Dict.get? inst k = none := by
        rw [fromKwargs_get? c kwargs hkw _ _ h, hk]; exact g2
      rw [AgentCls.getattr, g3]; exact ha

/-- The same for the attributes every agent has: the class default is ignored. -/
theorem C29_builtin_name_false (c : AgentCls) (hc : Dict.WF c.defaults) (model : String → Val)
    (inst0 kwargs inst : Dict String Val) (hkw : Dict.WF kwargs) (h : c.construct model inst0 kwargs = some inst)
    (k : String) (v m : Val) (hd : Dict.get? c.defaults k = some v) (hk : Dict.get? kwargs k = none)
    (hb : Dict.get? inst0 k = some m) (hm : m ≠ .none) (hmod : model k = .none) :
    Dict.get? inst k = some m := by
  unfold AgentCls.construct at h
  split at h
  · cases h
  · rename_i i1 h1
    split at h
    · cases h
    · rename_i i2 h2
      have g1 : Dict.get? i1 k = some m := by
        rw [fromModel_get? c model _ _ _ h1 k, if_neg (by simp [hmod]), hb]
      have g2 : Dict.get? i2 k = some m := by
        rw [fromDefaults_get? c c.defaults hc _ _ h2, hd]
        simp only [AgentCls.getattr, g1]
      rw [fromKwargs_get? c kwargs hkw _ _ h, hk]; exact g2

/-- A class with defaults `age`, `friends`, `name`, a method `info` that a default tries to replace. -/
def exCls29 : AgentCls :=
  ⟨mkDefaults [[("age", .num 1), ("friends", .obj 7)]] [("step", .kept), ("age", .value (.num 30)), ("name", .value (.str "bob")),
      ("info", .value (.num 5))],
   [("info", .obj 100), ("now", .num 0)], ["now"]⟩

def exInst0 : Dict String Val := [("unique_id", .num 0), ("name", .str "Person[0]"), ("alive", .obj 1)]

example : exCls29.construct (fun k => if k = "age" then .num 50 else .none) exInst0 [("friends", .none)] =
    some [("unique_id", .num 0), ("name", .str "Person[0]"), ("alive", .obj 1), ("age", .num 50), ("friends", .none)] := by
  decide +kernel

example : exCls29.construct (fun _ => .none) exInst0 [] =
    some [("unique_id", .num 0), ("name", .str "Person[0]"), ("alive", .obj 1), ("age", .num 30), ("friends", .obj 7)] := by
  decide +kernel

/-! ### Hierarchies -/

/-- What a class body says about the default of `k`: the last statement that defines it. -/
def Spec.bodyDefault (ns : List (String × NsItem)) (k : String) : Option Val :=
  ns.reverse.findSome? (fun it => match it.2 with
    | .kept => none
    | .defaults e => Dict.get? e k
    | .value v => if it.1 = k then some v else none)

/-- All dictionaries called `defaults` in a class body are dictionaries. -/
def NsWF (ns : List (String × NsItem)) : Prop := ∀ k e, (k, NsItem.defaults e) ∈ ns → Dict.WF e

theorem body_get? (ns : List (String × NsItem)) (hns : NsWF ns) (d : Dict String Val) (k : String) :
    Dict.get? (ns.foldl (fun d it => it.2.add d it.1) d) k = match Spec.bodyDefault ns k with
      | some v => some v
      | none => Dict.get? d k := by
  induction ns generalizing d with
  | nil => rfl
  | cons it ns ih =>
    obtain ⟨a, i⟩ := it
    have hns' : NsWF ns := fun k e h => hns k e (List.mem_cons_of_mem _ h)
    rw [List.foldl_cons, ih hns']
    unfold Spec.bodyDefault
    rw [List.reverse_cons, List.findSome?_append]
    cases hf : ns.reverse.findSome? (fun it => match it.2 with
      | .kept => none
      | .defaults e => Dict.get? e k
      | .value v => if it.1 = k then some v else none) with
    | some v => rfl
    | none =>
      simp only [Option.none_or, List.findSome?_cons, List.findSome?_nil]
      cases i with
      | kept => rfl
      | defaults e =>
        simp only [NsItem.add]
        rw [Dict.get?_update _ _ (hns a e (by simp))]
        cases Dict.get? e k <;> rfl
      | value v =>
        simp only [NsItem.add, Dict.get?_set]
        by_cases h : a = k <;> simp [h]

theorem mkDefaults_wf (bases : List (Dict String Val)) (ns : List (String × NsItem)) :
    Dict.WF (mkDefaults bases ns) := by
  have h1 : ∀ (l : List (Dict String Val)) (d : Dict String Val), Dict.WF d → Dict.WF (l.foldl Dict.update d) := by
    intro l
    induction l with
    | nil => intro d hd; exact hd
    | cons e l ih => intro d hd; exact ih _ (hd.update e)
  have h2 : ∀ (l : List (String × NsItem)) (d : Dict String Val), Dict.WF d →
      Dict.WF (l.foldl (fun d it => it.2.add d it.1) d) := by
    intro l
    induction l with
    | nil => intro d hd; exact hd
    | cons it l ih =>
      intro d hd
      refine ih _ ?_
      obtain ⟨a, i⟩ := it
      cases i with
      | kept => exact hd
      | defaults e => exact hd.update e
      | value v => exact hd.set _ _
  exact h2 ns _ (h1 bases [] (by simp [Dict.WF, Dict.keys]))

/-- The defaults of the last class of a chain of single inheritance, first the root. -/
def chainDefaults (nss : List (List (String × NsItem))) : Dict String Val :=
  nss.foldl (fun d ns => mkDefaults [d] ns) []

/-- C29, hierarchies: with single inheritance the default of an attribute is the one of the closest class that
defines it. -/
theorem C29_single_inheritance_partial (nss : List (List (String × NsItem))) (hns : ∀ ns ∈ nss, NsWF ns) (k : String) :
    Dict.get? (chainDefaults nss) k = nss.reverse.findSome? (fun ns => Spec.bodyDefault ns k) := by
  have key : ∀ (l : List (List (String × NsItem))), (∀ ns ∈ l, NsWF ns) → ∀ d : Dict String Val, Dict.WF d →
      Dict.get? (l.foldl (fun d ns => mkDefaults [d] ns) d) k =
        match l.reverse.findSome? (fun ns => Spec.bodyDefault ns k) with
        | some v => some v
        | none => Dict.get? d k := by
    intro l
    induction l with
    | nil => intro _ d _; rfl
    | cons ns l ih =>
      intro hl d hd
      rw [List.foldl_cons, ih (fun n hn => hl n (by simp [hn])) _ (mkDefaults_wf _ _)]
      rw [List.reverse_cons, List.findSome?_append]
      cases hf : l.reverse.findSome? (fun ns => Spec.bodyDefault ns k) with
      | some v => rfl
      | none =>
        simp only [Option.none_or, List.findSome?_cons, List.findSome?_nil]
        rw [mkDefaults, body_get? ns (hl ns (by simp))]
        have : Dict.get? (List.foldl Dict.update [] [d]) k = Dict.get? d k := by
          simp only [List.foldl_cons, List.foldl_nil]
          rw [Dict.get?_update _ _ hd]
          cases Dict.get? d k <;> rfl
        rw [this]
        cases Spec.bodyDefault ns k <;> rfl
  have := key nss hns [] (by simp [Dict.WF, Dict.keys])
  rw [chainDefaults, this]
  cases nss.reverse.findSome? (fun ns => Spec.bodyDefault ns k) <;> rfl

example : Dict.get? (chainDefaults [[("x", .value (.num 1)), ("y", .value (.num 2))], [("x", .value (.num 3)), ("step", .kept)],
    [("defaults", .defaults [("z", .num 4)]), ("y", .value .none)]]) "x" = some (.num 3) := by
  decide +kernel

/-- C29 is violated with multiple inheritance: in `class M(B, A)` where `B` is a subclass of `A`, a default of `A`
overrides the one with which `B` redefined it (Python's attribute lookup would find `B`'s). -/
theorem C29_diamond_false (a : Dict String Val) (ha : Dict.WF a) (nsB : List (String × NsItem)) (k : String) (v : Val)
    (hv : Dict.get? a k = some v) :
    Dict.get? (mkDefaults [mkDefaults [a] nsB, a] []) k = some v := by
  simp only [mkDefaults, List.foldl_cons, List.foldl_nil]
  rw [Dict.get?_update _ _ ha, hv]
  rfl

example : Dict.get? (mkDefaults [mkDefaults [[("x", .num 1)]] [("x", .value (.num 2))], [("x", .num 1)]] []) "x" = some (.num 1) ∧
    Spec.bodyDefault [("x", .value (.num 2))] "x" = some (.num 2) := by
  decide +kernel

end Verif
