import Verif.Model.Declare
import Verif.Props.FSM
import Verif.Props.Attrs
import Verif.Props.Serialization

/-!
# Properties of declaring agent classes (C186–C190)
-/

namespace Verif

/-! ## What a class body says -/

/-- The decorators of a function contain `state` at most once. -/
def SingleState : List Deco → Prop
  | [] => True
  | .dfltState :: ds => SingleState ds
  | .state _ _ :: ds => ∀ d ∈ ds, d = .dfltState

/-- What a decorated function means: nothing (a method) without `state`; otherwise a state with the name given, or that of the function, that is
marked default if `state` says so or there is a `default_state` above it. -/
def Spec.decorated (own : String) (fn : Nat) : List Deco → Option StateDef
  | [] => none
  | .dfltState :: ds => Spec.decorated own fn ds
  | .state n d :: ds => some ⟨nameOr n own, d || decide (Deco.dfltState ∈ ds), fn⟩

/-- An item that defines a function, with at most one `state`. -/
def OwnItem (it : DItem) : Prop := (∃ own fn, it.src = .func own fn) ∧ SingleState it.decos

/-- What an item means. -/
def Spec.itemState (it : DItem) : Option StateDef :=
  match it.src with
  | .func own fn => Spec.decorated own fn it.decos
  | .ref _ => none

/-- The states that a class body declares, in order; if a name is used twice, the second definition takes the place of the first. -/
def Spec.bodyStates (body : List DItem) : List StateDef :=
  (body.foldl (fun (d : Dict String (Option StateDef)) it => Dict.set d it.attr (Spec.itemState it)) []).filterMap Prod.snd

/-- References are to existing objects. -/
structure FsmWorld.Valid (w : FsmWorld) : Prop where
  states : ∀ c ∈ w.classes, ∀ kr ∈ c.states, kr.2 < w.heap.length
  init : ∀ c ∈ w.classes, ∀ r, c.init = some r → r < w.heap.length

/-! ## Lemmas about the heap -/

private theorem applyDecos_dflt (heap : List StateDef) (s : StateDef) (ds : List Deco) (h : ∀ d ∈ ds, d = .dfltState) :
    applyDecos (heap ++ [s]) (.ref heap.length) ds =
      some (heap ++ [{ s with dflt := s.dflt || decide (Deco.dfltState ∈ ds) }], .ref heap.length) := by
  induction ds generalizing s with
  | nil => simp [applyDecos]
  | cons d ds ih =>
    obtain rfl := h d (by simp)
    have hm : (heap ++ [s]).modify heap.length (fun s => { s with dflt := true }) = heap ++ [{ s with dflt := true }] := by
      rw [List.modify_eq_set_getElem?]
      simp
    simp only [applyDecos, applyDeco, hm]
    rw [ih _ (fun e he => h e (by simp [he]))]
    simp

private theorem applyDecos_own (heap : List StateDef) (own : String) (fn : Nat) (ds : List Deco) (h : SingleState ds) :
    applyDecos heap (.func own fn) ds = some (match Spec.decorated own fn ds with
      | none => (heap, .func own fn)
      | some s => (heap ++ [s], .ref heap.length)) := by
  induction ds with
  | nil => rfl
  | cons d ds ih =>
    cases d with
    | dfltState =>
      simp only [applyDecos, applyDeco, Spec.decorated]
      exact ih h
    | state n d =>
      simp only [applyDecos, applyDeco, Spec.decorated]
      rw [applyDecos_dflt heap _ ds h]

/-- The meaning of a value in a namespace. -/
private def deref (heap : List StateDef) : DecoVal → Option StateDef
  | .ref r => heap[r]?
  | .func _ _ => none

private theorem set_map {A B : Type} (g : A → B) (d : Dict String A) (k : String) (v : A) :
    (Dict.set d k v).map (fun kv => (kv.1, g kv.2)) = Dict.set (d.map (fun kv => (kv.1, g kv.2))) k (g v) := by
  induction d with
  | nil => rfl
  | cons p d ih =>
    obtain ⟨k', v'⟩ := p
    simp only [Dict.set, List.map_cons]
    by_cases h : k' = k
    · simp [h]
    · simp [h, ih]

private theorem runBody_own (body : List DItem) (hb : ∀ it ∈ body, OwnItem it) (heap : List StateDef) (ns : Dict String DecoVal)
    (sp : Dict String (Option StateDef)) (hv : ∀ kv ∈ ns, ∀ r, kv.2 = .ref r → r < heap.length)
    (hs : ns.map (fun kv => (kv.1, deref heap kv.2)) = sp) :
    ∃ l ns', runBody heap ns body = some (heap ++ l, ns') ∧ (∀ kv ∈ ns', ∀ r, kv.2 = .ref r → r < (heap ++ l).length) ∧
      ns'.map (fun kv => (kv.1, deref (heap ++ l) kv.2)) =
        body.foldl (fun (d : Dict String (Option StateDef)) it => Dict.set d it.attr (Spec.itemState it)) sp := by
  induction body generalizing heap ns sp with
  | nil => exact ⟨[], ns, by simp [runBody], by simpa using hv, by simpa using hs⟩
  | cons it body ih =>
    obtain ⟨⟨own, fn, hsrc⟩, hsingle⟩ := hb it (by simp)
    have hap := applyDecos_own heap own fn it.decos hsingle
    have hsp : Spec.itemState it = Spec.decorated own fn it.decos := by simp [Spec.itemState, hsrc]
    simp only [runBody, hsrc, hap, List.foldl_cons, hsp]
    have hgrow : ∀ (l : List StateDef), ns.map (fun kv => (kv.1, deref (heap ++ l) kv.2)) = sp := by
      intro l
      rw [← hs]
      apply List.map_congr_left
      intro kv hkv
      cases hkv2 : kv.2 with
      | func _ _ => rfl
      | ref r => simp only [deref]; rw [List.getElem?_append_left (hv kv hkv r hkv2)]
    have hset : ∀ (n : Nat) (v : DecoVal), (∀ r, v = .ref r → r < n) → (∀ kv ∈ ns, ∀ r, kv.2 = .ref r → r < n) →
        ∀ kv ∈ Dict.set ns it.attr v, ∀ r, kv.2 = .ref r → r < n := by
      intro n v h1 h2
      have : ∀ ns : Dict String DecoVal, (∀ kv ∈ ns, ∀ r, kv.2 = .ref r → r < n) →
          ∀ kv ∈ Dict.set ns it.attr v, ∀ r, kv.2 = .ref r → r < n := by
        intro ns
        induction ns with
        | nil => intro _ kv hkv r hr; simp only [Dict.set, List.mem_singleton] at hkv; subst hkv; exact h1 r hr
        | cons p d ih =>
          intro h kv hkv r hr
          simp only [Dict.set] at hkv
          split at hkv
          · rcases List.mem_cons.1 hkv with rfl | hkv
            · exact h1 r hr
            · exact h kv (by simp [hkv]) r hr
          · rcases List.mem_cons.1 hkv with rfl | hkv
            · exact h _ (by simp) r hr
            · exact ih (fun kv hkv => h kv (by simp [hkv])) kv hkv r hr
      exact this ns h2
    cases hd : Spec.decorated own fn it.decos with
    | none =>
      simp only
      refine ih (fun it hit => hb it (by simp [hit])) heap _ _ (hset _ _ (by simp) hv) ?_
      rw [set_map, hs]
      rfl
    | some s =>
      simp only
      obtain ⟨l, ns', h1, h2, h3⟩ := ih (fun it hit => hb it (by simp [hit])) (heap ++ [s]) (Dict.set ns it.attr (.ref heap.length))
        (Dict.set sp it.attr (some s))
        (hset _ _ (by intro r hr; cases hr; simp) (fun kv hkv r hr => by have := hv kv hkv r hr; simp; omega)) (by
          rw [set_map, hgrow [s]]
          simp [deref])
      exact ⟨s :: l, ns', by simpa using h1, by simpa using h2, by simpa using h3⟩

private theorem getD_state (heap : List StateDef) (r : Nat) (hr : r < heap.length) :
    heap[r]? = some (heap[r]?.getD default) := by
  simp [List.getElem?_eq_getElem hr]

private theorem view_addState (w : FsmWorld) (c : HClass) (id : String) (r : Nat) (hr : r < w.heap.length) :
    w.view (c.addState w.heap id r) = (w.view c).addState id (w.heap[r]?.getD default) := by
  simp only [FsmWorld.view, HClass.addState, FsmClass.addState, set_map (fun r => w.heap[r]?.getD default)]
  rw [List.getElem?_eq_getElem hr]
  simp only [Option.map_some, Option.getD_some]
  split <;> simp [List.getElem?_eq_getElem hr]

private theorem view_addStates (w : FsmWorld) (l : Dict String Nat) (hl : ∀ kr ∈ l, kr.2 < w.heap.length) (c : HClass) :
    w.view (l.foldl (fun c kr => c.addState w.heap kr.1 kr.2) c) =
      (l.map (fun kr => (kr.1, w.heap[kr.2]?.getD default))).foldl (fun c kd => c.addState kd.1 kd.2) (w.view c) := by
  induction l generalizing c with
  | nil => rfl
  | cons kr l ih =>
    simp only [List.foldl_cons, List.map_cons]
    rw [ih (fun kr h => hl kr (by simp [h])), view_addState w c kr.1 kr.2 (hl kr (by simp))]

private theorem view_mkHClass (w : FsmWorld) (bases : List HClass) (hb : ∀ b ∈ bases, ∀ kr ∈ b.states, kr.2 < w.heap.length)
    (refs : List Nat) (hr : ∀ r ∈ refs, r < w.heap.length) :
    w.view (mkHClass w.heap bases refs) = mkFsm (bases.map w.view) (refs.map (fun r => w.heap[r]?.getD default)) := by
  have hbases : ∀ c : HClass, w.view (bases.foldl (fun c b => b.states.foldl (fun c kr => c.addState w.heap kr.1 kr.2) c) c) =
      (bases.map w.view).foldl FsmClass.addBase (w.view c) := by
    induction bases with
    | nil => intro c; rfl
    | cons b bases ih =>
      intro c
      simp only [List.foldl_cons, List.map_cons]
      rw [ih (fun b h => hb b (by simp [h])), view_addStates w b.states (hb b (by simp))]
      rfl
  unfold mkHClass mkFsm
  have hroot : w.view ⟨[], none⟩ = ⟨[], none⟩ := rfl
  rw [← hroot, ← hbases]
  generalize List.foldl (fun (c : HClass) (b : HClass) => b.states.foldl (fun c kr => c.addState w.heap kr.1 kr.2) c) ⟨[], none⟩ bases = c
  induction refs generalizing c with
  | nil => rfl
  | cons r refs ih =>
    simp only [List.foldl_cons, List.map_cons]
    rw [ih (fun r h => hr r (by simp [h])), view_addState w c _ r (hr r (by simp))]
    rw [List.getElem?_eq_getElem (hr r (by simp))]
    rfl

private theorem view_grow (w w' : FsmWorld) (l : List StateDef) (hw : w'.heap = w.heap ++ l) (c : HClass)
    (h1 : ∀ kr ∈ c.states, kr.2 < w.heap.length) (h2 : ∀ r, c.init = some r → r < w.heap.length) : w'.view c = w.view c := by
  simp only [FsmWorld.view, hw, FsmClass.mk.injEq]
  constructor
  · apply List.map_congr_left
    intro kr hkr
    rw [List.getElem?_append_left (h1 kr hkr)]
  · cases hc : c.init with
    | none => rfl
    | some r => simp only [Option.map_some]; rw [List.getElem?_append_left (h2 r hc)]

/-! ## C187: classes are independent -/

/-- C187, what holds: if all states of a class body are made of functions, with at most one `state` each, then the new class has the states and the
initial state that follow from its bases and its body, and all other classes stay as they are. Missing: other class bodies, see below. -/
theorem C187_declare_partial (w : FsmWorld) (hw : w.Valid) (bases : List Nat) (body : List DItem) (hb : ∀ it ∈ body, OwnItem it) :
    ∃ w', w.declare bases body = some w' ∧ w'.Valid ∧ w'.classes.length = w.classes.length + 1 ∧
      w'.cls w.classes.length = some (mkFsm (bases.filterMap w.cls) (Spec.bodyStates body)) ∧
      ∀ n, n < w.classes.length → w'.cls n = w.cls n := by
  obtain ⟨l, ns, h1, h2, h3⟩ := runBody_own body hb w.heap [] [] (by simp) (by simp)
  have hbcls : ∀ b ∈ bases.filterMap (fun b => w.classes[b]?), b ∈ w.classes := by
    intro b hb
    obtain ⟨n, _, hn⟩ := List.mem_filterMap.1 hb
    exact List.mem_of_getElem? hn
  have hrefs : ∀ r ∈ nsRefs ns, r < (w.heap ++ l).length := by
    intro r hr
    obtain ⟨kv, hkv, hkr⟩ := List.mem_filterMap.1 hr
    refine h2 kv hkv r ?_
    cases hkv2 : kv.2 with
    | func _ _ => simp [hkv2] at hkr
    | ref r' => simp only [hkv2, Option.some.injEq] at hkr; rw [hkr]
  have hst : (nsRefs ns).map (fun r => (w.heap ++ l)[r]?.getD default) = Spec.bodyStates body := by
    rw [Spec.bodyStates, ← h3, nsRefs]
    have : ∀ ns : Dict String DecoVal, (∀ kv ∈ ns, ∀ r, kv.2 = .ref r → r < (w.heap ++ l).length) →
        (ns.filterMap (fun kv => match kv.2 with | .ref r => some r | .func _ _ => none)).map (fun r => (w.heap ++ l)[r]?.getD default) =
          (ns.map (fun kv => (kv.1, deref (w.heap ++ l) kv.2))).filterMap Prod.snd := by
      intro ns
      induction ns with
      | nil => intro _; rfl
      | cons kv ns ih =>
        intro h
        have ih := ih (fun kv hkv => h kv (by simp [hkv]))
        cases hkv : kv.2 with
        | func _ _ => simpa [List.filterMap_cons, hkv, deref] using ih
        | ref r =>
          have hr := h kv (by simp) r hkv
          have hg : (w.heap ++ l)[r]? = some (w.heap ++ l)[r] := List.getElem?_eq_getElem hr
          simp only [List.filterMap_cons, hkv, deref, List.map_cons, hg, Option.getD_some, List.cons.injEq, true_and]
          exact ih
    exact this ns h2
  have hgrow : ∀ c ∈ w.classes, ∀ kr ∈ c.states, kr.2 < (w.heap ++ l).length := by
    intro c hc kr hkr
    have := hw.states c hc kr hkr
    simp only [List.length_append]; omega
  have hset : ∀ (N : Nat) (d : Dict String Nat) (k : String) (r : Nat), (∀ kr ∈ d, kr.2 < N) → r < N → ∀ kr ∈ Dict.set d k r, kr.2 < N := by
    intro N d k r
    induction d with
    | nil => intro _ hr kr hkr; simp only [Dict.set, List.mem_singleton] at hkr; subst hkr; exact hr
    | cons p d ih =>
      intro h hr kr hkr
      simp only [Dict.set] at hkr
      split at hkr
      · rcases List.mem_cons.1 hkr with rfl | hkr
        · exact hr
        · exact h kr (by simp [hkr])
      · rcases List.mem_cons.1 hkr with rfl | hkr
        · exact h _ (by simp)
        · exact ih (fun kr hkr => h kr (by simp [hkr])) hr kr hkr
  have hadd : ∀ (c : HClass) (k : String) (r : Nat), ((∀ kr ∈ c.states, kr.2 < (w.heap ++ l).length) ∧ ∀ r, c.init = some r → r < (w.heap ++ l).length) →
      r < (w.heap ++ l).length → ((∀ kr ∈ (c.addState (w.heap ++ l) k r).states, kr.2 < (w.heap ++ l).length) ∧
        ∀ r', (c.addState (w.heap ++ l) k r).init = some r' → r' < (w.heap ++ l).length) := by
    intro c k r hc hr
    refine ⟨hset _ _ _ _ hc.1 hr, ?_⟩
    intro r' hr'
    simp only [HClass.addState] at hr'
    split at hr'
    · cases hr'; exact hr
    · exact hc.2 r' hr'
  have hnew : (∀ kr ∈ (mkHClass (w.heap ++ l) (bases.filterMap (fun b => w.classes[b]?)) (nsRefs ns)).states, kr.2 < (w.heap ++ l).length) ∧
      ∀ r, (mkHClass (w.heap ++ l) (bases.filterMap (fun b => w.classes[b]?)) (nsRefs ns)).init = some r → r < (w.heap ++ l).length := by
    unfold mkHClass
    have hfold : ∀ (d : Dict String Nat), (∀ kr ∈ d, kr.2 < (w.heap ++ l).length) → ∀ c : HClass,
        ((∀ kr ∈ c.states, kr.2 < (w.heap ++ l).length) ∧ ∀ r, c.init = some r → r < (w.heap ++ l).length) →
        ((∀ kr ∈ (d.foldl (fun c kr => c.addState (w.heap ++ l) kr.1 kr.2) c).states, kr.2 < (w.heap ++ l).length) ∧
          ∀ r, (d.foldl (fun c kr => c.addState (w.heap ++ l) kr.1 kr.2) c).init = some r → r < (w.heap ++ l).length) := by
      intro d
      induction d with
      | nil => intro _ c hc; exact hc
      | cons kr d ih => intro hd c hc; exact ih (fun kr h => hd kr (by simp [h])) _ (hadd _ _ _ hc (hd kr (by simp)))
    have hfold2 : ∀ (bs : List HClass), (∀ b ∈ bs, b ∈ w.classes) → ∀ c : HClass,
        ((∀ kr ∈ c.states, kr.2 < (w.heap ++ l).length) ∧ ∀ r, c.init = some r → r < (w.heap ++ l).length) →
        ((∀ kr ∈ (bs.foldl (fun c b => b.states.foldl (fun c kr => c.addState (w.heap ++ l) kr.1 kr.2) c) c).states, kr.2 < (w.heap ++ l).length) ∧
          ∀ r, (bs.foldl (fun c b => b.states.foldl (fun c kr => c.addState (w.heap ++ l) kr.1 kr.2) c) c).init = some r → r < (w.heap ++ l).length) := by
      intro bs
      induction bs with
      | nil => intro _ c hc; exact hc
      | cons b bs ih =>
        intro h c hc
        exact ih (fun b hb => h b (by simp [hb])) _ (hfold b.states (hgrow b (h b (by simp))) c hc)
    have hfold3 : ∀ (rs : List Nat), (∀ r ∈ rs, r < (w.heap ++ l).length) → ∀ c : HClass,
        ((∀ kr ∈ c.states, kr.2 < (w.heap ++ l).length) ∧ ∀ r, c.init = some r → r < (w.heap ++ l).length) →
        ((∀ kr ∈ (rs.foldl (fun c r => c.addState (w.heap ++ l) (((w.heap ++ l)[r]?.map StateDef.name).getD "") r) c).states,
            kr.2 < (w.heap ++ l).length) ∧
          ∀ r, (rs.foldl (fun c r => c.addState (w.heap ++ l) (((w.heap ++ l)[r]?.map StateDef.name).getD "") r) c).init = some r →
            r < (w.heap ++ l).length) := by
      intro rs
      induction rs with
      | nil => intro _ c hc; exact hc
      | cons r rs ih => intro h c hc; exact ih (fun r hr => h r (by simp [hr])) _ (hadd _ _ _ hc (h r (by simp)))
    exact hfold3 _ hrefs _ (hfold2 _ hbcls _ (by simp))
  refine ⟨_, by unfold FsmWorld.declare; rw [h1], ⟨?_, ?_⟩, by simp, ?_, ?_⟩
  · intro c hc
    rcases List.mem_append.1 hc with hc | hc
    · exact hgrow c hc
    · rw [List.mem_singleton] at hc; subst hc; exact hnew.1
  · intro c hc r hr
    rcases List.mem_append.1 hc with hc | hc
    · have := hw.init c hc r hr
      simp only [List.length_append]; omega
    · rw [List.mem_singleton] at hc; subst hc; exact hnew.2 r hr
  · simp only [FsmWorld.cls, List.getElem?_concat_length, Option.map_some, Option.some.injEq]
    rw [view_mkHClass ⟨w.heap ++ l, w.classes ++ [mkHClass (w.heap ++ l) (bases.filterMap (fun b => w.classes[b]?)) (nsRefs ns)]⟩ _
      (fun b hb => hgrow b (hbcls b hb)) _ hrefs, hst]
    congr 1
    rw [List.map_filterMap]
    apply List.filterMap_congr
    intro b _
    cases hbc : w.classes[b]? with
    | none => simp [FsmWorld.cls, hbc]
    | some c =>
      have hm := List.mem_of_getElem? hbc
      simp only [FsmWorld.cls, hbc, Option.map_some, Option.some.injEq]
      exact view_grow w _ l rfl c (hw.states c hm) (hw.init c hm)
  · intro n hn
    simp only [FsmWorld.cls]
    rw [List.getElem?_append_left hn, List.getElem?_eq_getElem hn]
    simp only [Option.map_some, Option.some.injEq]
    exact view_grow w _ l rfl _ (hw.states _ (List.getElem_mem hn)) (hw.init _ (List.getElem_mem hn))

/-- C187 is violated by `default_state(Base.x)` in the body of a class: it marks the state of the base. So every class that has this state is
changed, even though nothing in its own declaration is. -/
theorem C187_default_state_false (w : FsmWorld) (bases : List Nat) (a : String) (n : Nat) (c : HClass) (hc : w.classes[n]? = some c)
    (k : String) (r : Nat) (s : StateDef) (hk : (k, r) ∈ c.states) (hs : w.heap[r]? = some s) (hd : s.dflt = false) :
    ∃ w', w.declare bases [⟨a, .ref r, [.dfltState]⟩] = some w' ∧ w'.cls n ≠ w.cls n := by
  refine ⟨_, rfl, ?_⟩
  have hn : n < w.classes.length := (List.getElem?_eq_some_iff.1 hc).1
  simp only [FsmWorld.cls]
  rw [List.getElem?_append_left hn, hc]
  simp only [Option.map_some, ne_eq, Option.some.injEq]
  intro h
  have h1 := congrArg FsmClass.states h
  simp only [FsmWorld.view] at h1
  have h2 := List.map_inj_left.1 h1 _ hk
  simp only [Prod.mk.injEq, true_and, hs, Option.getD_some] at h2
  rw [List.getElem?_modify, hs] at h2
  simp only [if_true, Option.map_eq_map, Option.map_some, Option.getD_some] at h2
  rw [← h2] at hd
  exact absurd hd (by simp)

/-! ## C186: decorators -/

private theorem bodyStates_nodup (body : List DItem) (hn : (body.map DItem.attr).Nodup) :
    Spec.bodyStates body = body.filterMap Spec.itemState := by
  have : ∀ (body : List DItem) (d : Dict String (Option StateDef)), (Dict.keys d ++ body.map DItem.attr).Nodup →
      body.foldl (fun (d : Dict String (Option StateDef)) it => Dict.set d it.attr (Spec.itemState it)) d =
        d ++ body.map (fun it => (it.attr, Spec.itemState it)) := by
    intro body
    induction body with
    | nil => intro d _; simp
    | cons it body ih =>
      intro d hd
      have hnot : it.attr ∉ Dict.keys d := by
        intro h
        have := (List.nodup_append.1 hd).2.2 _ h it.attr (by simp)
        exact this rfl
      rw [List.foldl_cons, Dict.set_of_absent hnot, ih]
      · simp
      · simpa [Dict.keys] using hd
  rw [Spec.bodyStates, this body [] (by simpa [Dict.keys] using hn)]
  simp only [List.nil_append, List.filterMap_map]
  rfl

/-- C186, what holds: a function with `state` as the innermost decorator, below any number of `default_state`, is a state of its class under the
name that was given, or its own, with the function that was decorated; and if `state` or `default_state` says that it is the default state, then
agents of the class start in it (the other states of the class body are not default and have other names). Missing: the other order, see below. -/
theorem C186_decorators_partial (w : FsmWorld) (hw : w.Valid) (bases : List Nat) (pre post : List DItem) (a own : String) (fn : Nat)
    (name : Option String) (d : Bool) (q : Nat) (hb : ∀ it ∈ pre ++ post, OwnItem it)
    (hn : ((pre ++ ⟨a, .func own fn, .state name d :: List.replicate q .dfltState⟩ :: post).map DItem.attr).Nodup)
    (ho : ∀ it ∈ post, ∀ s, Spec.itemState it = some s → s.dflt = false ∧ s.name ≠ nameOr name own) :
    ∃ w' c, w.declare bases (pre ++ ⟨a, .func own fn, .state name d :: List.replicate q .dfltState⟩ :: post) = some w' ∧
      w'.cls w.classes.length = some c ∧
      Dict.get? c.states (nameOr name own) = some ⟨nameOr name own, d || decide (0 < q), fn⟩ ∧
      (d = true ∨ 0 < q → c.init = some ⟨nameOr name own, true, fn⟩) := by
  have hown : OwnItem ⟨a, .func own fn, .state name d :: List.replicate q .dfltState⟩ :=
    ⟨⟨own, fn, rfl⟩, fun e he => List.eq_of_mem_replicate he⟩
  obtain ⟨w', h1, _, _, h4, _⟩ := C187_declare_partial w hw bases
    (pre ++ ⟨a, .func own fn, .state name d :: List.replicate q .dfltState⟩ :: post) (by
      intro it hit
      rcases List.mem_append.1 hit with h | h
      · exact hb it (by simp [h])
      · rcases List.mem_cons.1 h with rfl | h
        · exact hown
        · exact hb it (by simp [h]))
  have hdec : decide (Deco.dfltState ∈ List.replicate q Deco.dfltState) = decide (0 < q) := by
    rcases Nat.eq_zero_or_pos q with rfl | h
    · simp
    · rw [decide_eq_true (List.mem_replicate.2 ⟨by omega, rfl⟩), decide_eq_true h]
  have hst : Spec.itemState ⟨a, .func own fn, .state name d :: List.replicate q .dfltState⟩ =
      some ⟨nameOr name own, d || decide (0 < q), fn⟩ := by
    simp only [Spec.itemState, Spec.decorated, hdec]
  rw [bodyStates_nodup _ hn, List.filterMap_append, List.filterMap_cons, hst] at h4
  refine ⟨w', _, h1, h4, ?_, ?_⟩
  · refine C28_redefinition (bases.filterMap w.cls) (pre.filterMap Spec.itemState) (post.filterMap Spec.itemState)
      ⟨nameOr name own, d || decide (0 < q), fn⟩ ?_
    intro e he
    obtain ⟨it, hit, hs⟩ := List.mem_filterMap.1 he
    exact (ho it hit e hs).2
  · intro hdq
    have hd : (d || decide (0 < q)) = true := by
      rcases hdq with h | h <;> simp [h]
    rw [hd]
    refine (C28_own_default (bases.filterMap w.cls) (pre.filterMap Spec.itemState) (post.filterMap Spec.itemState)
      ⟨nameOr name own, true, fn⟩ rfl ?_).1
    intro e he
    obtain ⟨it, hit, hs⟩ := List.mem_filterMap.1 he
    exact ho it hit e hs

/-- C186, the names of states: `@state` takes the name of the function, `@state("")` too, and `@state("other")` the name that is given. -/
theorem C186_names_partial (w : FsmWorld) (hw : w.Valid) (bases : List Nat) (a own n : String) (hn : n ≠ "") (fn : Nat) (d : Bool) :
    (∀ name ∈ [none, some ""], ∃ w' c, w.declare bases [⟨a, .func own fn, [.state name d]⟩] = some w' ∧ w'.cls w.classes.length = some c ∧
      Dict.get? c.states own = some ⟨own, d, fn⟩) ∧
    ∃ w' c, w.declare bases [⟨a, .func own fn, [.state (some n) d]⟩] = some w' ∧ w'.cls w.classes.length = some c ∧
      Dict.get? c.states n = some ⟨n, d, fn⟩ := by
  constructor
  · intro name hname
    obtain ⟨w', c, h1, h2, h3, _⟩ := C186_decorators_partial w hw bases [] [] a own fn name d 0 (by simp) (by simp) (by simp)
    have : nameOr name own = own := by
      simp only [List.mem_cons, List.not_mem_nil, or_false] at hname
      rcases hname with rfl | rfl <;> rfl
    rw [this] at h3
    exact ⟨w', c, h1, h2, by simpa using h3⟩
  · obtain ⟨w', c, h1, h2, h3, _⟩ := C186_decorators_partial w hw bases [] [] a own fn (some n) d 0 (by simp) (by simp) (by simp)
    have : nameOr (some n) own = n := by simp [nameOr, hn]
    rw [this] at h3
    exact ⟨w', c, h1, h2, by simpa using h3⟩

/-- C186 is violated by a second `state`: without a name, the class cannot be declared; with a name, there is a state with that name, but its function is
not the one that was decorated: calling it raises. -/
theorem C186_twice_false (w : FsmWorld) (a own n : String) (hn : n ≠ "") (fn : Nat) (hfn : fn ≠ callError) (name : Option String) (d d' : Bool) :
    (∀ name' ∈ [none, some ""], ∀ bases ds, w.declare bases [⟨a, .func own fn, .state name d :: .state name' d' :: ds⟩] = none) ∧
    ∃ w' c st, w.declare [] [⟨a, .func own fn, [.state name d, .state (some n) d']⟩] = some w' ∧ w'.cls w.classes.length = some c ∧
      c.states = [(n, st)] ∧ st.fn = callError ∧ st.fn ≠ fn := by
  constructor
  · intro name' hname bases ds
    simp only [List.mem_cons, List.not_mem_nil, or_false] at hname
    rcases hname with rfl | rfl <;> simp [FsmWorld.declare, runBody, applyDecos, applyDeco]
  · have h1 : w.declare [] [⟨a, .func own fn, [.state name d, .state (some n) d']⟩] =
        some ⟨w.heap ++ [⟨nameOr name own, d, fn⟩] ++ [⟨n, d', callError⟩],
          w.classes ++ [mkHClass (w.heap ++ [⟨nameOr name own, d, fn⟩] ++ [⟨n, d', callError⟩]) [] [w.heap.length + 1]]⟩ := by
      simp [FsmWorld.declare, runBody, applyDecos, applyDeco, hn, nsRefs, Dict.set]
    have h2 : (w.heap ++ [⟨nameOr name own, d, fn⟩] ++ [⟨n, d', callError⟩])[w.heap.length + 1]? = some ⟨n, d', callError⟩ := by simp
    generalize w.heap ++ [⟨nameOr name own, d, fn⟩] ++ [⟨n, d', callError⟩] = heap at h1 h2
    refine ⟨_, FsmWorld.view ⟨heap, w.classes ++ [mkHClass heap [] [w.heap.length + 1]]⟩ (mkHClass heap [] [w.heap.length + 1]),
      ⟨n, d', callError⟩, h1, ?_, ?_, rfl, fun h => hfn h.symm⟩
    · simp only [FsmWorld.cls, List.getElem?_concat_length, Option.map_some]
    · simp only [FsmWorld.view, mkHClass, List.foldl_cons, List.foldl_nil, HClass.addState, h2, Option.map_some, Option.getD_some, Dict.set, List.map_cons,
        List.map_nil]

/-- C186 is violated if `state` is above `default_state`: then the state is not the default state; a class whose other states are not default either
has no initial state, and making an agent of it fails. -/
theorem C186_order_false (w : FsmWorld) (hw : w.Valid) (a own : String) (fn : Nat) (name : Option String) (q : Nat)
    (bases : List Nat) (hbases : ∀ b ∈ bases.filterMap w.cls, ∀ kd ∈ b.states, kd.2.dflt = false)
    (b : FsmClass) (hbm : b ∈ bases.filterMap w.cls) (hgood : ∀ b ∈ bases.filterMap w.cls, b.Good)
    (k : String) (hk : k ∈ Dict.keys b.states) (hkn : k ≠ nameOr name own) :
    ∃ w' c, w.declare bases [⟨a, .func own fn, List.replicate (q + 1) .dfltState ++ [.state name false]⟩] = some w' ∧
      w'.cls w.classes.length = some c ∧ Dict.get? c.states (nameOr name own) = some ⟨nameOr name own, false, fn⟩ ∧
      c.init = none ∧ fsmInit c .none = none := by
  have hsing : ∀ n, SingleState (List.replicate n .dfltState ++ [.state name false]) := by
    intro n
    induction n with
    | zero => intro d hd; cases hd
    | succ n ih => exact ih
  have hdec : ∀ n, Spec.decorated own fn (List.replicate n .dfltState ++ [.state name false]) = some ⟨nameOr name own, false, fn⟩ := by
    intro n
    induction n with
    | zero => simp [Spec.decorated]
    | succ n ih => exact ih
  obtain ⟨w', h1, _, _, h4, _⟩ := C187_declare_partial w hw bases
    [⟨a, .func own fn, List.replicate (q + 1) .dfltState ++ [.state name false]⟩] (by
      intro it hit
      rw [List.mem_singleton] at hit; subst hit
      exact ⟨⟨own, fn, rfl⟩, hsing _⟩)
  have hst : Spec.bodyStates [⟨a, .func own fn, List.replicate (q + 1) .dfltState ++ [.state name false]⟩] =
      [⟨nameOr name own, false, fn⟩] := by
    rw [bodyStates_nodup _ (by simp)]
    simp only [List.filterMap_cons, Spec.itemState, hdec, List.filterMap_nil]
  rw [hst] at h4
  have hinit : (mkFsm (bases.filterMap w.cls) [⟨nameOr name own, false, fn⟩]).init = none := by
    rw [mkFsm, addNs_init]
    simp only [List.reverse_cons, List.reverse_nil, List.nil_append, List.find?_cons, List.find?_nil]
    have : ∀ (l : List FsmClass), (∀ b ∈ l, ∀ kd ∈ b.states, kd.2.dflt = false) → ∀ c : FsmClass, c.init = none →
        (l.foldl FsmClass.addBase c).init = none := by
      intro l
      induction l with
      | nil => intro _ c hc; exact hc
      | cons b l ih =>
        intro h c hc
        refine ih (fun b hb => h b (by simp [hb])) _ ?_
        rw [addBase_init]
        have : (b.states.map Prod.snd).reverse.find? (fun d => d.dflt) = none := by
          rw [List.find?_eq_none]
          intro d hd
          simp only [List.mem_reverse, List.mem_map] at hd
          obtain ⟨kd, hkd, rfl⟩ := hd
          simpa using h b (by simp) kd hkd
        rw [this]
        exact hc
    exact this _ hbases _ rfl
  refine ⟨w', _, h1, h4, ?_, hinit, ?_⟩
  · have := C28_redefinition (bases.filterMap w.cls) [] [] ⟨nameOr name own, false, fn⟩ (by simp)
    simpa using this
  · have h1 : k ∈ Dict.keys (mkFsm (bases.filterMap w.cls) [⟨nameOr name own, false, fn⟩]).states :=
      (C28_states_inherited _ hgood _ _).2 (Or.inl ⟨b, hbm, hk⟩)
    have h2 : nameOr name own ∈ Dict.keys (mkFsm (bases.filterMap w.cls) [⟨nameOr name own, false, fn⟩]).states :=
      (C28_states_inherited _ hgood _ _).2 (Or.inr ⟨⟨nameOr name own, false, fn⟩, by simp, rfl⟩)
    have hlen : (mkFsm (bases.filterMap w.cls) [⟨nameOr name own, false, fn⟩]).states.length > 1 := by
      revert h1 h2
      generalize (mkFsm (bases.filterMap w.cls) [⟨nameOr name own, false, fn⟩]).states = st
      intro h1 h2
      match st, h1, h2 with
      | [], h1, _ => simp [Dict.keys] at h1
      | [x], h1, h2 =>
        simp only [Dict.keys, List.map_cons, List.map_nil, List.mem_singleton] at h1 h2
        exact absurd (h1.trans h2.symm) hkn
      | x :: y :: l, _, _ => simp only [List.length_cons]; omega
    simp only [fsmInit, setState, hinit]
    rw [if_pos (by simpa using hlen)]

/-! ## C188: attributes of customised classes -/

private theorem construct_get? (c : AgentCls) (hc : Dict.WF c.defaults) (model : String → Val)
    (inst0 kwargs inst : Dict String Val) (hkw : Dict.WF kwargs) (h : c.construct model inst0 kwargs = some inst) (k : String) :
    Dict.get? inst k = match Dict.get? kwargs k with
      | some v => some v
      | none => match Dict.get? c.defaults k with
        | none => Dict.get? inst0 k
        | some v => if model k ≠ .none then some (model k) else match Dict.get? inst0 k with
          | some (.none) => some v
          | some x => some x
          | none => match Dict.get? c.attrs k with
            | none | some .none => some v
            | some _ => none := by
  unfold AgentCls.construct at h
  split at h
  · cases h
  · rename_i i1 h1
    split at h
    · cases h
    · rename_i i2 h2
      have g1 := fromModel_get? c model _ _ _ h1 k
      have hm : k ∈ Dict.keys c.defaults ↔ (Dict.get? c.defaults k).isSome = true := Dict.mem_keys _ _
      rw [fromKwargs_get? c kwargs hkw _ _ h, fromDefaults_get? c c.defaults hc _ _ h2]
      cases Dict.get? kwargs k with
      | some v => rfl
      | none =>
        simp only
        cases hd : Dict.get? c.defaults k with
        | none =>
          simp only [hd] at hm ⊢
          rw [g1, if_neg (by simp [hm])]
        | some d =>
          simp only [hd, Option.isSome_some, iff_true] at hm ⊢
          by_cases hn : model k = .none
          · rw [AgentCls.getattr, g1, if_neg (by simp [hn])]
            simp only [hn, ne_eq, not_true, if_false]
            cases hi : Dict.get? inst0 k with
            | none =>
              simp only
              cases ha : Dict.get? c.attrs k with
              | none => rfl
              | some x => cases x <;> rfl
            | some x => cases x <;> rfl
          · rw [AgentCls.getattr, g1, if_pos ⟨hm, hn⟩]
            simp only [ne_eq, hn, not_false_eq_true, if_true]

private theorem custom_ns (kwargs : Dict String Kw) (ns : List (String × NsItem))
    (h : kwargs.mapM (fun kx => (kx.2.item kx.1).map (fun i => (kx.1, i))) = some ns) :
    (∀ k i, (k, i) ∈ ns → ∃ x, (k, x) ∈ kwargs ∧ x.item k = some i) ∧ (∀ k x, (k, x) ∈ kwargs → ∃ i, x.item k = some i ∧ (k, i) ∈ ns) ∧
      Dict.keys ns = Dict.keys kwargs := by
  induction kwargs generalizing ns with
  | nil => simp only [List.mapM_nil, Option.pure_def, Option.some.injEq] at h; subst h; simp [Dict.keys]
  | cons kx kwargs ih =>
    obtain ⟨k, x⟩ := kx
    simp only [List.mapM_cons, Option.pure_def, Option.bind_eq_bind] at h
    cases hx : x.item k with
    | none => simp [hx] at h
    | some i =>
      simp only [hx, Option.map_some, Option.bind_some] at h
      cases hr : kwargs.mapM (fun kx => (kx.2.item kx.1).map (fun i => (kx.1, i))) with
      | none => simp [hr] at h
      | some r =>
        simp only [hr, Option.bind_some, Option.some.injEq] at h
        subst h
        obtain ⟨a1, a2, a3⟩ := ih r hr
        refine ⟨?_, ?_, ?_⟩
        · intro k' i' hm
          rcases List.mem_cons.1 hm with he | hm
          · cases he; exact ⟨x, by simp, hx⟩
          · obtain ⟨x', h1, h2⟩ := a1 k' i' hm
            exact ⟨x', by simp [h1], h2⟩
        · intro k' x' hm
          rcases List.mem_cons.1 hm with he | hm
          · cases he; exact ⟨i, hx, by simp⟩
          · obtain ⟨i', h1, h2⟩ := a2 k' x' hm
            exact ⟨i', h1, by simp [h2]⟩
        · simp only [Dict.keys, List.map_cons] at a3 ⊢
          rw [a3]

private theorem item_defaults (k : String) (x : Kw) (e : Dict String Val) (h : x.item k = some (.defaults e)) :
    k = "defaults" ∧ ∃ v, x = .dict e v := by
  cases x with
  | func _ => simp [Kw.item] at h
  | value v =>
    simp only [Kw.item] at h
    split at h
    · cases h
    · split at h
      · cases h
      · split at h
        · cases h
        · split at h <;> cases h
  | dict d v =>
    simp only [Kw.item] at h
    split at h
    · cases h
    · split at h
      · cases h
      · split at h
        · cases h
        · split at h
          · rename_i hk
            cases h
            exact ⟨hk, v, rfl⟩
          · cases h

/-- The dictionaries in a call of `w`. -/
def KwWF (kwargs : Dict String Kw) : Prop := Dict.WF kwargs ∧ ∀ d v, ("defaults", Kw.dict d v) ∈ kwargs → Dict.WF d

private theorem custom_defaults (c c' : AgentCls) (hc : Dict.WF c.defaults) (kwargs : Dict String Kw) (hk : KwWF kwargs) (h : custom c kwargs = some c') (k : String) :
    ∃ ns, kwargs.mapM (fun kx => (kx.2.item kx.1).map (fun i => (kx.1, i))) = some ns ∧ Dict.WF c'.defaults ∧
      Dict.get? c'.defaults k = match Spec.bodyDefault ns k with
        | some v => some v
        | none => Dict.get? c.defaults k := by
  unfold custom at h
  cases hns : kwargs.mapM (fun kx => (kx.2.item kx.1).map (fun i => (kx.1, i))) with
  | none => simp [hns] at h
  | some ns =>
    simp only [hns, Option.some.injEq] at h
    subst h
    refine ⟨ns, rfl, mkDefaults_wf _ _, ?_⟩
    have hwf : NsWF ns := by
      intro k' e hm
      obtain ⟨x, hx, hi⟩ := (custom_ns kwargs ns hns).1 k' _ hm
      obtain ⟨rfl, v, rfl⟩ := item_defaults k' x e hi
      exact hk.2 e v hx
    simp only [mkDefaults, List.foldl_cons, List.foldl_nil]
    rw [body_get? ns hwf, Dict.get?_update _ _ hc]
    cases Dict.get? c.defaults k <;> rfl

private theorem custom_attrs (c c' : AgentCls) (kwargs : Dict String Kw) (hk : Dict.WF kwargs) (h : custom c kwargs = some c') (k : String)
    (hkept : ∀ x, (k, x) ∈ kwargs → x.item k ≠ some .kept) : Dict.get? c'.attrs k = Dict.get? c.attrs k := by
  unfold custom at h
  split at h
  · cases h
  · simp only [Option.some.injEq] at h
    subst h
    simp only
    have hnot : k ∉ Dict.keys ((kwargs.filter (fun kx => kx.2.item kx.1 = some .kept)).map (fun kx => (kx.1, kx.2.val))) := by
      intro hm
      simp only [Dict.keys, List.map_map, List.mem_map, List.mem_filter, Function.comp] at hm
      obtain ⟨⟨k', x⟩, ⟨hkx, hkx'⟩, rfl⟩ := hm
      exact hkept x hkx (by simpa using hkx')
    rw [Dict.get?_update]
    · rw [(Dict.get?_none_iff _ _).2 hnot, Option.none_or]
    · have hs : (Dict.keys ((kwargs.filter (fun kx => kx.2.item kx.1 = some .kept)).map (fun kx => (kx.1, kx.2.val)))).Sublist (Dict.keys kwargs) := by
        simp only [Dict.keys, List.map_map]
        exact List.Sublist.map _ List.filter_sublist
      exact List.Nodup.sublist hs hk

private theorem item_value (k : String) (a : Char) (l : List Char) (hpub : k.toList = a :: l) (hpub' : a ≠ '_') (v : Val) (it : NsItem)
    (h : (Kw.value v).item k = some it) : it = .value v := by
  simp only [Kw.item, hpub] at h
  split at h
  · cases h
  · split at h
    · cases h
    · exact (Option.some.inj h).symm

private theorem body_value (kwargs : Dict String Kw) (ns : List (String × NsItem))
    (hns : kwargs.mapM (fun kx => (kx.2.item kx.1).map (fun i => (kx.1, i))) = some ns) (k : String) (a : Char) (l : List Char)
    (hpub : k.toList = a :: l) (hpub' : a ≠ '_') (v : Val) (hkk : (k, .value v) ∈ kwargs) :
    (k, NsItem.value v) ∈ ns ∧ ∃ y, Spec.bodyDefault ns k = some y := by
  obtain ⟨n1, n2, n3⟩ := custom_ns kwargs ns hns
  have hmem : (k, NsItem.value v) ∈ ns := by
    obtain ⟨it, h1, h2⟩ := n2 k _ hkk
    rw [item_value k a l hpub hpub' v it h1] at h2
    exact h2
  refine ⟨hmem, ?_⟩
  cases hf : Spec.bodyDefault ns k with
  | some y => exact ⟨y, rfl⟩
  | none =>
    rw [Spec.bodyDefault] at hf
    have := List.findSome?_eq_none_iff.1 hf (k, .value v) (List.mem_reverse.2 hmem)
    simp at this

/-- C188: an agent of a customised class and one of its template, made with the same arguments in the same model, have the same attributes, except
for those that are given to `w` (or are in a dictionary `defaults` given to it). -/
theorem C188_others (c c' : AgentCls) (hc : Dict.WF c.defaults) (kwargs : Dict String Kw) (hk : KwWF kwargs)
    (h : custom c kwargs = some c') (model : String → Val) (inst0 args i i' : Dict String Val) (ha : Dict.WF args)
    (hi : c.construct model inst0 args = some i) (hi' : c'.construct model inst0 args = some i') (k : String) (hkk : k ∉ Dict.keys kwargs)
    (hkd : ∀ d v, ("defaults", Kw.dict d v) ∈ kwargs → k ∉ Dict.keys d) :
    Dict.get? i' k = Dict.get? i k ∧ c'.getattr i' k = c.getattr i k := by
  obtain ⟨ns, hns, hwf', hd⟩ := custom_defaults c c' hc kwargs hk h k
  obtain ⟨n1, n2, n3⟩ := custom_ns kwargs ns hns
  have hbody : Spec.bodyDefault ns k = none := by
    rw [Spec.bodyDefault, List.findSome?_eq_none_iff]
    intro it hit
    obtain ⟨k', item⟩ := it
    have hit := List.mem_reverse.1 hit
    cases item with
    | kept => rfl
    | defaults e =>
      obtain ⟨x, hx, hxi⟩ := n1 k' _ hit
      obtain ⟨rfl, v, rfl⟩ := item_defaults k' x e hxi
      exact (Dict.get?_none_iff _ _).2 (hkd e v hx)
    | value v =>
      have : k' ≠ k := by
        rintro rfl
        refine hkk ?_
        rw [← n3]
        exact List.mem_map.2 ⟨_, hit, rfl⟩
      simp [this]
  rw [hbody] at hd
  have hattr : Dict.get? c'.attrs k = Dict.get? c.attrs k :=
    custom_attrs c c' kwargs hk.1 h k (fun x hx => absurd (List.mem_map.2 ⟨_, hx, rfl⟩) hkk)
  have hget : Dict.get? i' k = Dict.get? i k := by
    rw [construct_get? c' hwf' model inst0 args i' ha hi', construct_get? c hc model inst0 args i ha hi, hd, hattr]
  exact ⟨hget, by rw [AgentCls.getattr, AgentCls.getattr, hget, hattr]⟩

/-- C188, what holds for the attributes that are given: a public name that is neither one of the attributes that every agent has nor the name of a
method or property of the template has the value that is given, unless the agent is made with another one or the model has a value for it
(`defaults` is not given). Missing: the other names, see below. -/
theorem C188_given_partial (c c' : AgentCls) (hc : Dict.WF c.defaults) (kwargs : Dict String Kw) (hk : KwWF kwargs)
    (h : custom c kwargs = some c') (model : String → Val) (inst0 args i' : Dict String Val) (ha : Dict.WF args)
    (hi' : c'.construct model inst0 args = some i') (k : String) (a : Char) (l : List Char) (v : Val) (hkk : (k, .value v) ∈ kwargs)
    (hpub : k.toList = a :: l) (hpub' : a ≠ '_') (hdef : "defaults" ∉ Dict.keys kwargs)
    (h0 : k ∉ Dict.keys inst0) (hattr : k ∉ Dict.keys c.attrs) :
    Dict.get? i' k = match Dict.get? args k with
      | some x => some x
      | none => if model k = .none then some v else some (model k) := by
  obtain ⟨ns, hns, hwf', hd⟩ := custom_defaults c c' hc kwargs hk h k
  obtain ⟨n1, n2, n3⟩ := custom_ns kwargs ns hns
  have hnsw : Dict.WF ns := by rw [Dict.WF, n3]; exact hk.1
  obtain ⟨hmem, y, hy⟩ := body_value kwargs ns hns k a l hpub hpub' v hkk
  have hbody : Spec.bodyDefault ns k = some v := by
    rw [hy]
    rw [Spec.bodyDefault] at hy
    obtain ⟨it, hit, hity⟩ := List.exists_of_findSome?_eq_some hy
    obtain ⟨k', item⟩ := it
    have hit := List.mem_reverse.1 hit
    cases item with
    | kept => cases hity
    | defaults e =>
      obtain ⟨x, hx, hxi⟩ := n1 k' _ hit
      obtain ⟨rfl, _⟩ := item_defaults k' x e hxi
      exact absurd (List.mem_map.2 ⟨_, hx, rfl⟩) hdef
    | value v' =>
      simp only at hity
      split at hity
      · rename_i hkk'
        subst hkk'
        cases hity
        have e1 := Dict.get?_of_mem hnsw hmem
        have e2 := Dict.get?_of_mem hnsw hit
        rw [e1] at e2
        cases e2
        rfl
      · cases hity
  rw [hbody] at hd
  have hattr' : Dict.get? c'.attrs k = none := by
    rw [custom_attrs c c' kwargs hk.1 h k (by
      intro x hx he
      have e1 := Dict.get?_of_mem hk.1 hkk
      have e2 := Dict.get?_of_mem hk.1 hx
      rw [e1] at e2
      cases e2
      cases item_value k a l hpub hpub' v _ he), (Dict.get?_none_iff _ _).2 hattr]
  rw [construct_get? c' hwf' model inst0 args i' ha hi', hd, hattr', (Dict.get?_none_iff _ _).2 h0]
  cases Dict.get? args k with
  | some x => rfl
  | none =>
    simp only
    by_cases hm : model k = .none
    · simp [hm]
    · simp [hm]

/-- C188 is violated for the attributes that every agent has, such as `name`, and the names of methods and properties, such as `prob`: what is given to
`w` is ignored. -/
theorem C188_ignored_false (c c' : AgentCls) (hc : Dict.WF c.defaults) (kwargs : Dict String Kw) (hk : KwWF kwargs)
    (h : custom c kwargs = some c') (model : String → Val) (inst0 args i' : Dict String Val) (ha : Dict.WF args)
    (hi' : c'.construct model inst0 args = some i') (k : String) (m : Val) (hm : m ≠ .none) (hmod : model k = .none)
    (hargs : k ∉ Dict.keys args) (v : Val) (hkk : (k, .value v) ∈ kwargs) (a : Char) (l : List Char) (hpub : k.toList = a :: l) (hpub' : a ≠ '_')
    (hex : Dict.get? inst0 k = some m ∨ (Dict.get? inst0 k = none ∧ Dict.get? c.attrs k = some m)) :
    c'.getattr i' k = some m := by
  obtain ⟨ns, hns, hwf', hd⟩ := custom_defaults c c' hc kwargs hk h k
  obtain ⟨_, d, hy⟩ := body_value kwargs ns hns k a l hpub hpub' v hkk
  rw [hy] at hd
  have hg := construct_get? c' hwf' model inst0 args i' ha hi' k
  rw [(Dict.get?_none_iff _ _).2 hargs] at hg
  rw [hd] at hg
  simp only [hmod, ne_eq, not_true, if_false] at hg
  rcases hex with h0 | ⟨h0, hat⟩
  · rw [h0] at hg
    have : Dict.get? i' k = some m := by
      rw [hg]
      cases m <;> first | rfl | exact absurd rfl hm
    rw [AgentCls.getattr, this]
  · have hattr' : Dict.get? c'.attrs k = some m := by
      rw [custom_attrs c c' kwargs hk.1 h k (by
      intro x hx he
      have e1 := Dict.get?_of_mem hk.1 hkk
      have e2 := Dict.get?_of_mem hk.1 hx
      rw [e1] at e2
      cases e2
      cases item_value k a l hpub hpub' v _ he), hat]
    rw [h0, hattr'] at hg
    have : Dict.get? i' k = none := by
      rw [hg]
      cases m <;> first | rfl | exact absurd rfl hm
    rw [AgentCls.getattr, this]
    exact hattr'

/-- C188, functions: a method, property or class method given to `w` is what agents of the customised class have under that name (unless they are made
with another value, or the model has one). -/
theorem C188_methods (c c' : AgentCls) (hc : Dict.WF c.defaults) (kwargs : Dict String Kw) (hk : KwWF kwargs)
    (h : custom c kwargs = some c') (model : String → Val) (inst0 args i' : Dict String Val) (ha : Dict.WF args)
    (hi' : c'.construct model inst0 args = some i') (k : String) (v : Val) (hv : v ≠ .none) (hkk : (k, .func v) ∈ kwargs)
    (h0 : k ∉ Dict.keys inst0) (hargs : k ∉ Dict.keys args) (hmod : model k = .none) : c'.getattr i' k = some v := by
  obtain ⟨ns, hns, hwf', hd⟩ := custom_defaults c c' hc kwargs hk h k
  have hattr : Dict.get? c'.attrs k = some v := by
    unfold custom at h
    rw [hns] at h
    simp only [Option.some.injEq] at h
    subst h
    simp only
    have hwf : Dict.WF ((kwargs.filter (fun kx => kx.2.item kx.1 = some .kept)).map (fun kx => (kx.1, kx.2.val))) := by
      have hs : (Dict.keys ((kwargs.filter (fun kx => kx.2.item kx.1 = some .kept)).map (fun kx => (kx.1, kx.2.val)))).Sublist (Dict.keys kwargs) := by
        simp only [Dict.keys, List.map_map]
        exact List.Sublist.map _ List.filter_sublist
      exact List.Nodup.sublist hs hk.1
    rw [Dict.get?_update _ _ hwf, Dict.get?_of_mem hwf (v := v), Option.some_or]
    exact List.mem_map.2 ⟨(k, .func v), List.mem_filter.2 ⟨hkk, by simp [Kw.item]⟩, rfl⟩
  have hg := construct_get? c' hwf' model inst0 args i' ha hi' k
  rw [(Dict.get?_none_iff _ _).2 hargs, hattr, (Dict.get?_none_iff _ _).2 h0] at hg
  have hg' : Dict.get? i' k = none := by
    rw [hg]
    simp only [hmod]
    cases Dict.get? c'.defaults k <;> cases v <;> first | rfl | exact absurd rfl hv | simp
  rw [AgentCls.getattr, hg']
  exact hattr

/-- C188: what cannot be set on agents of the template, cannot be set on those of a customised class: neither later, nor when they are made. -/
theorem C188_readonly (c c' : AgentCls) (kwargs : Dict String Kw) (h : custom c kwargs = some c') (k : String) (hk : k ∈ c.readonly)
    (_hkk : k ∉ Dict.keys kwargs) :
    (∀ i v, c'.setattr i k v = none) ∧ ∀ model inst0 args, k ∈ Dict.keys args → c'.construct model inst0 args = none := by
  have hr : k ∈ c'.readonly := by
    unfold custom at h
    split at h
    · cases h
    · cases h
      exact hk
  have hs : ∀ i v, c'.setattr i k v = none := fun i v => by simp [AgentCls.setattr, hr]
  refine ⟨hs, fun model inst0 args hka => ?_⟩
  have hkw : ∀ (args i : Dict String Val), k ∈ Dict.keys args → c'.fromKwargs args i = none := by
    intro args
    induction args with
    | nil => intro i hk; cases hk
    | cons kv args ih =>
      obtain ⟨k', v⟩ := kv
      intro i hk
      simp only [AgentCls.fromKwargs]
      rcases List.mem_cons.1 hk with rfl | hk
      · rw [show k = (k, v).1 from rfl] at *
        simp [hs]
      · split
        · rfl
        · exact ih _ hk
  unfold AgentCls.construct
  split
  · rfl
  · split
    · rfl
    · exact hkw _ _ hka

/-! ## C189: states of customised classes -/

private theorem set_new {A : Type} (l : List (String × A)) (d : Dict String A) (h : (Dict.keys d ++ Dict.keys l).Nodup) :
    l.foldl (fun d kv => Dict.set d kv.1 kv.2) d = d ++ l := by
  induction l generalizing d with
  | nil => simp
  | cons kv l ih =>
    have hnot : kv.1 ∉ Dict.keys d := fun hm => (List.nodup_append.1 h).2.2 _ hm kv.1 (by simp [Dict.keys]) rfl
    rw [List.foldl_cons, Dict.set_of_absent hnot, ih]
    · simp
    · simpa [Dict.keys] using h

/-- C189: a customised class has the states of its template, in the same order, with the same functions. -/
theorem C189_states (c : FsmClass) (hc : c.Good) : (customFsm c).states = c.states := by
  unfold customFsm mkFsm
  simp only [List.foldl_cons, List.foldl_nil, FsmClass.addBase]
  have : ∀ (l : Dict String StateDef) (x : FsmClass), (l.foldl (fun c kd => c.addState kd.1 kd.2) x).states =
      l.foldl (fun d kv => Dict.set d kv.1 kv.2) x.states := by
    intro l
    induction l with
    | nil => intro x; rfl
    | cons kd l ih => intro x; simp only [List.foldl_cons]; rw [ih]; rfl
  rw [this, set_new _ _ (by simpa [Dict.keys, Dict.WF] using hc.wf)]
  simp

/-- C189, what holds for the initial state: if the template has exactly one default state, and starts in it, then so does the customised class; if it
has none, both have none. Missing: templates with several default states in their hierarchy, see below. -/
theorem C189_initial_partial (c : FsmClass)
    (h : (∃ d, c.init = some d ∧ d.dflt = true ∧ d ∈ c.states.map Prod.snd ∧ ∀ kd ∈ c.states, kd.2.dflt = true → kd.2 = d) ∨
      (c.init = none ∧ ∀ kd ∈ c.states, kd.2.dflt = false)) : (customFsm c).init = c.init := by
  unfold customFsm mkFsm
  simp only [List.foldl_cons, List.foldl_nil, addBase_init]
  rcases h with ⟨d, h1, h2, h3, h4⟩ | ⟨h1, h2⟩
  · rw [h1]
    cases hf : (c.states.map Prod.snd).reverse.find? (fun d => d.dflt) with
    | none => exact absurd h2 (by simpa using List.find?_eq_none.1 hf d (List.mem_reverse.2 h3))
    | some e =>
      have hm := List.mem_of_find?_eq_some hf
      simp only [List.mem_reverse, List.mem_map] at hm
      obtain ⟨kd, hkd, rfl⟩ := hm
      rw [h4 kd hkd (by simpa using List.find?_some hf)]
  · rw [h1]
    have : (c.states.map Prod.snd).reverse.find? (fun d => d.dflt) = none := by
      rw [List.find?_eq_none]
      intro d hd
      simp only [List.mem_reverse, List.mem_map] at hd
      obtain ⟨kd, hkd, rfl⟩ := hd
      simpa using h2 kd hkd
    rw [this]

/-- C189 is violated: a class whose default state `s` replaces the one of its base, but stands before it in the order of states, starts in `s`; its
customised versions start in the default state `t` of the base. -/
theorem C189_several_false (root : FsmClass) (s s' t : StateDef) (hr : root = fsmRoot 0) (h1 : s.name = s'.name) (h2 : s.name ≠ t.name)
    (h3 : s.name ≠ "dead") (h4 : t.name ≠ "dead") (hs : s.dflt = true) (hs' : s'.dflt = false) (ht : t.dflt = true) :
    (mkFsm [mkFsm [root] [s', t]] [s]).init = some s ∧ (customFsm (mkFsm [mkFsm [root] [s', t]] [s])).init = some t ∧ s ≠ t := by
  subst hr
  refine ⟨?_, ?_, fun h => h2 (by rw [h])⟩
  · simp [mkFsm, FsmClass.addBase, FsmClass.addState, hs]
  · have e1 : ("dead" = s'.name) = False := by rw [← h1]; exact eq_false (fun h => h3 h.symm)
    have e2 : ("dead" = t.name) = False := eq_false (fun h => h4 h.symm)
    have e3 : (s'.name = t.name) = False := by rw [← h1]; exact eq_false h2
    have e5 : ("dead" = s.name) = False := eq_false (fun h => h3 h.symm)
    have e6 : (s'.name = s.name) = True := eq_true h1.symm
    simp [customFsm, mkFsm, FsmClass.addBase, FsmClass.addState, fsmRoot, hs, hs', ht, Dict.set, e1, e2, e3, e5, e6]

/-- C189 is violated: if a class replaces the default state of its base by a state that is not default, then its agents can be made (they start in the
replaced state), but agents of its customised versions cannot. -/
theorem C189_lost_false (s s' : StateDef) (h1 : s.name = s'.name) (h3 : s.name ≠ "dead") (hs : s.dflt = true) (hs' : s'.dflt = false) :
    fsmInit (mkFsm [mkFsm [fsmRoot 0] [s]] [s']) .none = some (some s) ∧
      fsmInit (customFsm (mkFsm [mkFsm [fsmRoot 0] [s]] [s'])) .none = none := by
  have e1 : ("dead" = s.name) = False := eq_false (fun h => h3 h.symm)
  have e5 : ("dead" = s'.name) = False := by rw [← h1]; exact e1
  have e6 : (s.name = s'.name) = True := eq_true h1
  constructor <;>
  simp [fsmInit, setState, customFsm, mkFsm, FsmClass.addBase, FsmClass.addState, fsmRoot, hs, hs', Dict.set, e1, e5, e6]

/-! ## C190: names of customised classes -/

/-- C190 is violated by every customised class: as no module has the new class as an attribute, reading its name again does not give that class, whatever
the modules are. -/
theorem C190_never_false (w : PyWorld) (known : List Str) (c : PyClass) (obj : Nat)
    (hnew : ∀ m t x, w.attr m t = some x → x ≠ obj ∧ w.finish x ≠ obj) (hev : ∀ t x, w.evalName t = some x → x ≠ obj)
    (t : Str) (_ht : className w known (customName c obj) = some t) : deserializeName w known t ≠ some (.obj obj) := by
  have hf : ∀ l : List (Str × Str), firstOption w l ≠ some obj := by
    intro l
    induction l with
    | nil => simp [firstOption]
    | cons p l ih =>
      obtain ⟨m, u⟩ := p
      simp only [firstOption]
      cases ha : w.attr m u with
      | none => exact ih
      | some x =>
        simp only [ne_eq, Option.some.injEq]
        exact (hnew m u x ha).2
  unfold deserializeName
  split
  · simp
  · simp only
    generalize ((known.filter (fun m => !m.isEmpty)).map (fun m => (m, t))) ++
      (match pyRsplit1 '.' t with
        | (some m, tl) => [(m, tl)]
        | (none, _) => []) = l
    cases ho : firstOption w l with
    | some x =>
      simp only [ne_eq, Option.some.injEq, Des.obj.injEq]
      rintro rfl
      exact hf l ho
    | none =>
      simp only
      cases he : w.evalName t with
      | none => simp
      | some x => simpa using hev t x he

/-- C190, what holds: if the customised class is assigned to a variable with the name of the template, in the first known module that has this name, then
it is found again. Missing: all other cases, see below. -/
theorem C190_assigned_partial (w : PyWorld) (k : Str) (known : List Str) (c : PyClass) (obj : Nat)
    (hb : w.isBuiltin c.name = false) (hk : k ≠ []) (hx : w.attr k c.name = some obj) (hdes : w.deserializeAttr obj = none) :
    ∃ t, className w (k :: known) (customName c obj) = some t ∧ deserializeName w (k :: known) t = some (.obj obj) := by
  obtain ⟨t, h1, h2⟩ := C61_shadowed_false w k known (customName c obj) obj hb hk hx
  exact ⟨t, h1, by rw [h2]; simp [PyWorld.finish, hdes]⟩

/-- C190, what the name of a customised class stands for, if the first known module that has the name of the template is the one with the template: the
template, without what was given to `w`. -/
theorem C190_template_false (w : PyWorld) (k : Str) (known : List Str) (c : PyClass) (obj : Nat) (hobj : obj ≠ c.obj)
    (hb : w.isBuiltin c.name = false) (hk : k ≠ []) (hx : w.attr k c.name = some c.obj) (hdes : w.deserializeAttr c.obj = none) :
    ∃ t, className w (k :: known) (customName c obj) = some t ∧ deserializeName w (k :: known) t = some (.obj c.obj) ∧
      deserializeName w (k :: known) t ≠ some (.obj obj) := by
  obtain ⟨t, h1, h2⟩ := C61_shadowed_false w k known (customName c obj) c.obj hb hk hx
  have hfin : w.finish c.obj = c.obj := by simp [PyWorld.finish, hdes]
  rw [hfin] at h2
  refine ⟨t, h1, h2, ?_⟩
  rw [h2]
  simp only [ne_eq, Option.some.injEq, Des.obj.injEq]
  exact fun h => hobj h.symm

private theorem custom_unknown (w : PyWorld) (hnd : w.NoDots) (known : List Str) (hk : ∀ m ∈ known, m ≠ [] ∧ (w.modules m).isSome) (c : PyClass) (obj : Nat)
    (hb : w.isBuiltin c.name = false) (hb2 : w.isBuiltin (customModule ++ '.' :: c.name) = false) (hdot : '.' ∉ c.name)
    (hno : ∀ m ∈ known, w.attr m c.name = none) (habc : w.attr customModule c.name = none) (hkn : customModule ∉ known)
    (he : w.evalName (customModule ++ '.' :: c.name) = none) :
    className w known (customName c obj) = some (customModule ++ '.' :: c.name) ∧
      deserializeName w known (customModule ++ '.' :: c.name) = none := by
  constructor
  · have hin : ∀ l : List Str, (∀ m ∈ l, m ∈ known) → nameIn w (customName c obj) l = some (customModule ++ '.' :: c.name) := by
      intro l
      induction l with
      | nil => intro _; rfl
      | cons m l ih =>
        intro h
        obtain ⟨d, hd⟩ := Option.isSome_iff_exists.1 (hk m (h m (by simp))).2
        have := hno m (h m (by simp))
        simp only [PyWorld.attr, hd] at this
        simp only [nameIn, hd, customName, Dict.has, this, Option.isSome_none, Bool.false_eq_true, if_false]
        exact ih (fun m hm => h m (by simp [hm]))
    unfold className
    rw [show (customName c obj).name = c.name from rfl, hb, show (customName c obj).module = customModule from rfl]
    simp only [Bool.false_eq_true, if_false]
    rw [if_neg (by decide +kernel), if_neg hkn]
    exact hin known (fun _ h => h)
  · unfold deserializeName
    rw [hb2]
    simp only [Bool.false_eq_true, if_false, rsplit_some _ _ hdot]
    have hlong : ∀ m, w.attr m (customModule ++ '.' :: c.name) = none := by
      intro m
      unfold PyWorld.attr
      cases hm : w.modules m with
      | none => rfl
      | some d =>
        simp only
        rw [Dict.get?_none_iff]
        intro hmem
        exact absurd (List.mem_append.2 (Or.inr (List.mem_cons_self ..))) (hnd m d _ hm hmem)
    have hfo : ∀ l : List Str, ∀ r, firstOption w (l.map (fun m => (m, customModule ++ '.' :: c.name)) ++ r) = firstOption w r := by
      intro l r
      induction l with
      | nil => rfl
      | cons m l ih => simp only [List.map_cons, List.cons_append, firstOption, hlong m]; exact ih
    rw [hfo]
    simp only [firstOption, habc, he, Option.map_none]

/-- C190, for templates that no known module has, such as those of the script: the name of the customised class cannot be read at all, because it says
that the class is in the module `abc`, which does not have it. -/
theorem C190_unknown_false (w : PyWorld) (hnd : w.NoDots) (known : List Str) (hk : ∀ m ∈ known, m ≠ [] ∧ (w.modules m).isSome) (c : PyClass) (obj : Nat)
    (hb : w.isBuiltin c.name = false) (hb2 : w.isBuiltin ("abc".toList ++ '.' :: c.name) = false) (hdot : '.' ∉ c.name)
    (hno : ∀ m ∈ known, w.attr m c.name = none) (habc : w.attr "abc".toList c.name = none) (hkn : "abc".toList ∉ known)
    (he : w.evalName ("abc".toList ++ '.' :: c.name) = none) :
    className w known (customName c obj) = some ("abc".toList ++ '.' :: c.name) ∧
      deserializeName w known ("abc".toList ++ '.' :: c.name) = none :=
  custom_unknown w hnd known hk c obj hb hb2 hdot hno habc hkn he

/-! ## Examples -/

/-- The class `FSM`, a class `Person` with the states `rest` (default) and `work`, declared as
`@default_state @state def rest`, `@state("work") def go`, and a method. -/
private def exFsmWorld : Option FsmWorld :=
  match (FsmWorld.mk [] []).declare [] [⟨"dead", .func "dead" 1, [.state none false]⟩] with
  | none => none
  | some w => w.declare [0] [⟨"rest", .func "rest" 2, [.state none false, .dfltState]⟩, ⟨"go", .func "go" 3, [.state (some "work") false]⟩,
      ⟨"helper", .func "helper" 4, []⟩]

example : exFsmWorld = some ⟨[⟨"dead", false, 1⟩, ⟨"rest", true, 2⟩, ⟨"work", false, 3⟩],
    [⟨[("dead", 0)], none⟩, ⟨[("dead", 0), ("rest", 1), ("work", 2)], some 1⟩]⟩ := by decide +kernel

/-- The hypotheses of C186 and C187 hold there, and a class with the other order of decorators has no initial state. -/
example : ∃ w, exFsmWorld = some w ∧ w.Valid ∧ w.cls 1 = some (mkFsm [fsmRoot 1] [⟨"rest", true, 2⟩, ⟨"work", false, 3⟩]) ∧
    (w.declare [0] [⟨"rest", .func "rest" 5, [.dfltState, .state none false]⟩]).map (fun w' => (w'.cls 2).map FsmClass.init) = some (some none) :=
  ⟨⟨[⟨"dead", false, 1⟩, ⟨"rest", true, 2⟩, ⟨"work", false, 3⟩],
    [⟨[("dead", 0)], none⟩, ⟨[("dead", 0), ("rest", 1), ("work", 2)], some 1⟩]⟩, by decide +kernel,
    ⟨by decide +kernel, by simp⟩, by decide +kernel, by decide +kernel⟩

/-- With a class `Worker(Person)` that says `first = default_state(Person.work)`, a class `Child(Person)` declared afterwards starts in `work`;
without it, in `rest`. -/
example : ∃ w w1 w2 w3, exFsmWorld = some w ∧ w.declare [1] [⟨"first", .ref 2, [.dfltState]⟩] = some w1 ∧ w1.declare [1] [] = some w2 ∧
    w.declare [1] [] = some w3 ∧ (w2.cls 3).map FsmClass.init = some (some ⟨"work", true, 3⟩) ∧
    (w3.cls 2).map FsmClass.init = some (some ⟨"rest", true, 2⟩) :=
  ⟨_, _, _, _, rfl, rfl, rfl, rfl, by decide +kernel, by decide +kernel⟩

/-- A template with a default, a method `prob` and a property `id`. -/
private def exTemplate : AgentCls := ⟨[("age", .num 1), ("wealth", .num 2)], [("prob", .obj 1), ("id", .obj 2), ("step", .obj 3)], ["id"]⟩

/-- `Template.w(age=7, prob=0.5, _hidden=3, defaults={"mood": 1})`. -/
example : ∃ c', custom exTemplate [("age", .value (.num 7)), ("prob", .value (.num 5)), ("_hidden", .value (.num 3)),
      ("defaults", .dict [("mood", .num 1)] (.obj 9))] = some c' ∧
    (c'.construct (fun _ => .none) [("name", .str "a")] []).map (fun i => (c'.getattr i "age", c'.getattr i "wealth", c'.getattr i "prob",
      c'.getattr i "_hidden", c'.getattr i "mood")) = some (some (.num 7), some (.num 2), some (.obj 1), some (.num 3), some (.num 1)) :=
  ⟨_, rfl, by decide +kernel⟩

example : custom exTemplate [("step", .value (.num 1))] = none ∧ custom exTemplate [("defaults", .value (.num 1))] = none := by decide +kernel

/-- A class found again, and its customised version, which is not. -/
private def exMods : PyWorld := ⟨fun _ => false, fun m => if m = "mymodels".toList then some [("Person".toList, 5)] else none, fun _ => none, fun _ => none⟩

example : className exMods ["mymodels".toList] (customName ⟨"Person".toList, "mymodels".toList, 5⟩ 6) = some "Person".toList ∧
    deserializeName exMods ["mymodels".toList] "Person".toList = some (.obj 5) ∧
    className exMods [] (customName ⟨"Person".toList, "mymodels".toList, 5⟩ 6) = some "abc.Person".toList ∧
    deserializeName exMods [] "abc.Person".toList = none := by decide +kernel

end Verif
