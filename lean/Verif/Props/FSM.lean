import Verif.Proofs.FSM

/-!
# States and state changes (C23, C25, C28)
-/

namespace Verif

/-! ### C23: what a state function may return -/

/-- The documented meaning of a return value: the new state and the reply. `none` if the value is not one of
the documented forms. `pf` is not used: strings are state ids, never delays. -/
def Spec.fsmMeaning (cls : FsmClass) (cur : Option StateDef) (v : Val) : Option (Option StateDef × Reply) :=
  let target (v : Val) : Option (Option StateDef) := match v with
    | .none => some cur
    | .str s => (Dict.get? cls.states s).map some
    | .state d => some (some d)
    | _ => none
  let wait (v : Val) : Option (Option Time) := match v with
    | .none => some none
    | .num t => some (some t)
    | .delay t => some (some t)
    | _ => none
  match v with
  | .num t => some (cur, .ret (some t))
  | .delay t => some (cur, .ret (some t))
  | .pair a b => match target a, wait b with
    | some st, some d => some (st, .ret d)
    | _, _ => none
  | v => (target v).map fun st => (st, .ret none)

/-- Strings of length two, the values that the code takes for pairs. -/
def Val.twoChars : Val → Bool
  | .str s => s.toList.length == 2
  | _ => false

/-- C23, what holds: every documented return value that is not a two-character string has its documented
effect. Missing: state ids of two characters (see below). -/
theorem C23_documented_partial (pf : String → Option Time) (cls : FsmClass) (cur : Option StateDef) (v : Val)
    (st : Option StateDef) (rep : Reply) (h : Spec.fsmMeaning cls cur v = some (st, rep))
    (h2 : v.twoChars = false) : fsmOutcome pf cls cur v = (st, rep) := by
  cases v with
  | none => simp [Spec.fsmMeaning] at h; simp [fsmOutcome, fsmReturn, unpack2, setState, finishVal, h]
  | num t => simp [Spec.fsmMeaning] at h; simp [fsmOutcome, fsmReturn, unpack2, setState, finishVal, Val.toFloat, h]
  | delay t => simp [Spec.fsmMeaning] at h; simp [fsmOutcome, fsmReturn, unpack2, setState, finishVal, Val.toFloat, h]
  | state d => simp [Spec.fsmMeaning] at h; simp [fsmOutcome, fsmReturn, unpack2, setState, finishVal, h]
  | tuple n => simp [Spec.fsmMeaning] at h
  | obj n => simp [Spec.fsmMeaning] at h
  | str s =>
    have hu : unpack2 (.str s) = none := by
      simp only [Val.twoChars, beq_eq_false_iff_ne] at h2
      simp only [unpack2]
      split
      · rename_i he; simp [he] at h2
      · rfl
    simp only [Spec.fsmMeaning] at h
    cases hg : Dict.get? cls.states s with
    | none => simp [hg] at h
    | some d =>
      simp [hg] at h
      obtain ⟨rfl, rfl⟩ := h
      simp [fsmOutcome, fsmReturn, hu, setState, hg, finishVal]
  | pair a b =>
    simp only [Spec.fsmMeaning] at h
    cases a with
    | none =>
      cases b <;> simp at h <;>
        simp [fsmOutcome, fsmReturn, unpack2, setState, finishVal, Val.toFloat, h]
    | state d =>
      cases b <;> simp at h <;>
        simp [fsmOutcome, fsmReturn, unpack2, setState, finishVal, Val.toFloat, h]
    | str s =>
      cases hg : Dict.get? cls.states s with
      | none => simp [hg] at h
      | some d =>
        cases b <;> simp [hg] at h <;> obtain ⟨rfl, rfl⟩ := h <;>
          simp [fsmOutcome, fsmReturn, unpack2, setState, finishVal, Val.toFloat, hg]
    | num _ => simp at h
    | delay _ => simp at h
    | pair _ _ => simp at h
    | tuple _ => simp at h
    | obj _ => simp at h

/-- A class with the states `dead`, `idle` and `s1`. -/
def exFsm : FsmClass := mkFsm [fsmRoot 0] [⟨"idle", true, 1⟩, ⟨"s1", false, 2⟩]

example : Spec.fsmMeaning exFsm exFsm.init (.pair (.str "dead") (.delay 3)) = some (some ⟨"dead", false, 0⟩, .ret (some 3)) ∧
    (Val.pair (.str "dead") (.delay 3)).twoChars = false := by decide +kernel

/-- C23 is violated for state ids of two characters: returning such a declared id raises (and the state does
not change), unless its first character is itself a state id. -/
theorem C23_two_char_id_false (pf : String → Option Time) (cls : FsmClass) (cur : Option StateDef) (s : String)
    (a b : Char) (hs : s.toList = [a, b]) (hd : Dict.get? cls.states (String.ofList [a]) = none) :
    fsmOutcome pf cls cur (.str s) = (cur, .error) := by
  simp only [fsmOutcome, fsmReturn, unpack2, hs, setState, hd]

theorem C23_witness_false : ∃ (cls : FsmClass) (s : String), Dict.has cls.states s = true ∧
    ∀ pf, (fsmOutcome pf cls cls.init (.str s)).2 = .error ∧
      Spec.fsmMeaning cls cls.init (.str s) = some (Dict.get? cls.states s, .ret none) := by
  refine ⟨exFsm, "s1", by decide +kernel, fun pf => ⟨?_, by decide +kernel⟩⟩
  rw [C23_two_char_id_false pf exFsm _ "s1" 's' '1' (by decide +kernel) (by decide +kernel)]

/-- ... and if its first character is a state id, the agent moves to *that* state and the second character
becomes the delay. -/
theorem C23_two_char_id_moves_false : ∃ (cls : FsmClass) (pf : String → Option Time),
    Dict.has cls.states "a2" = true ∧
    fsmOutcome pf cls cls.init (.str "a2") = (some ⟨"a", false, 7⟩, .ret (some 2)) := by
  refine ⟨mkFsm [fsmRoot 0] [⟨"idle", true, 1⟩, ⟨"a2", false, 2⟩, ⟨"a", false, 7⟩],
    fun s => if s = "2" then some 2 else none, by decide +kernel, by decide +kernel⟩

/-- C23, errors: a value without documented meaning is an error and leaves the state unchanged, provided it
is neither a string (which is tried as a number) nor a pair with a valid state. -/
theorem C23_errors_partial (pf : String → Option Time) (cls : FsmClass) (cur : Option StateDef) (v : Val)
    (h : Spec.fsmMeaning cls cur v = none) (hstr : ∀ s, v ≠ .str s)
    (hpair : ∀ a b, v = .pair a b → setState cls cur a = none) :
    fsmOutcome pf cls cur v = (cur, .error) := by
  cases v with
  | none => simp [Spec.fsmMeaning] at h
  | num t => simp [Spec.fsmMeaning] at h
  | delay t => simp [Spec.fsmMeaning] at h
  | state d => simp [Spec.fsmMeaning] at h
  | tuple n => simp [fsmOutcome, fsmReturn, unpack2, setState, finishVal, Val.toFloat]
  | obj n => simp [fsmOutcome, fsmReturn, unpack2, setState, finishVal, Val.toFloat]
  | str s => exact absurd rfl (hstr s)
  | pair a b => simp [fsmOutcome, fsmReturn, unpack2, hpair a b rfl]

example : Spec.fsmMeaning exFsm exFsm.init (.pair (.str "nowhere") (.num 1)) = none ∧
    setState exFsm exFsm.init (.str "nowhere") = none := by decide +kernel

/-- C23 is violated for a pair of a valid state and a bad delay: it raises, but the state has already
changed. -/
theorem C23_bad_delay_false : ∃ (cls : FsmClass) (cur : Option StateDef) (v : Val), Spec.fsmMeaning cls cur v = none ∧
    ∀ pf, (fsmOutcome pf cls cur v).2 = .error ∧ (fsmOutcome pf cls cur v).1 ≠ cur := by
  refine ⟨exFsm, exFsm.init, .pair (.str "dead") (.obj 0), by decide +kernel, fun pf => ?_⟩
  have : fsmOutcome pf exFsm exFsm.init (.pair (.str "dead") (.obj 0)) = (some ⟨"dead", false, 0⟩, .error) := rfl
  rw [this]
  exact ⟨rfl, by decide +kernel⟩

/-! ### C25: `set_state` -/

/-- C25: once time is positive `set_state` always raises (so the state does not change). -/
theorem C25_set_state_late (cls : FsmClass) (now : Time) (cur : Option StateDef) (v : Val) (h : (0 : Time) < now) :
    setStateApi cls now cur v = none := by
  rw [setStateApi, if_pos h]

example : (0 : Time) < Time.fin (1 / 2) := by decide +kernel

/-- C25: at time zero it accepts exactly the declared ids among strings (moving to that state), and `None`
(no change). Missing: it also accepts any `State` object. -/
theorem C25_set_state_zero_partial (cls : FsmClass) (hg : cls.Good) (cur : Option StateDef) (s : String) :
    (s ∈ Dict.keys cls.states → ∃ d, setStateApi cls 0 cur (.str s) = some (some d) ∧ d.name = s ∧
      Dict.get? cls.states s = some d) ∧
    (s ∉ Dict.keys cls.states → setStateApi cls 0 cur (.str s) = none) ∧
    setStateApi cls 0 cur .none = some cur ∧
    (∀ t, setStateApi cls 0 cur (.num t) = none) ∧ (∀ t, setStateApi cls 0 cur (.delay t) = none) ∧
    (∀ a b, setStateApi cls 0 cur (.pair a b) = none) ∧ (∀ n, setStateApi cls 0 cur (.tuple n) = none) ∧
    (∀ n, setStateApi cls 0 cur (.obj n) = none) := by
  have h0 : ¬ (0 : Time) < 0 := by decide +kernel
  refine ⟨?_, ?_, ?_, ?_, ?_, ?_, ?_, ?_⟩
  · intro hs
    obtain ⟨d, hd⟩ := Option.isSome_iff_exists.1 ((Dict.mem_keys _ _).1 hs)
    refine ⟨d, ?_, ?_, hd⟩
    · simp only [setStateApi, if_neg h0, setState, hd]
    · exact hg.names _ (Dict.get?_mem hd)
  · intro hs
    simp only [setStateApi, if_neg h0, setState, (Dict.get?_none_iff _ _).2 hs]
  all_goals intros; simp only [setStateApi, if_neg h0, setState]

example : exFsm.Good := mkFsm_good (by simp [fsmRoot, mkFsm_good]) _

/-- C25 is violated for `State` objects: the state of another class is accepted. -/
theorem C25_foreign_state_false (cls : FsmClass) (cur : Option StateDef) (d : StateDef) :
    setStateApi cls 0 cur (.state d) = some (some d) := by
  have h0 : ¬ (0 : Time) < 0 := by decide +kernel
  simp only [setStateApi, if_neg h0, setState]

/-! ### C28: inheritance of states -/

/-- C28: a class has every state of every base, every state of its body, and no others. -/
theorem C28_states_inherited (bases : List FsmClass) (hb : ∀ b ∈ bases, b.Good) (ns : List StateDef) (k : String) :
    k ∈ Dict.keys (mkFsm bases ns).states ↔
      (∃ b ∈ bases, k ∈ Dict.keys b.states) ∨ ∃ d ∈ ns, d.name = k := by
  rw [Dict.mem_keys, mkFsm, addNs_get?, addBases_get? bases (fun b hm => (hb b hm).wf)]
  cases h1 : ns.reverse.find? (fun d => d.name = k) with
  | some d =>
    have hm := List.mem_of_find?_eq_some h1
    have hn := List.find?_some h1
    simp only [Option.isSome_some, true_iff]
    exact Or.inr ⟨d, by simpa using hm, by simpa using hn⟩
  | none =>
    have hno : ¬ ∃ d ∈ ns, d.name = k := by
      rintro ⟨d, hd, hk⟩
      exact absurd (List.find?_eq_none.1 h1 d (by simpa using hd)) (by simpa using hk)
    simp only [hno, or_false]
    cases h2 : bases.reverse.findSome? (fun b => Dict.get? b.states k) with
    | some d =>
      simp only [Option.isSome_some, true_iff]
      obtain ⟨b, hb', hd⟩ := List.exists_of_findSome?_eq_some h2
      exact ⟨b, by simpa using hb', (Dict.mem_keys _ _).2 (by rw [hd]; rfl)⟩
    | none =>
      simp only [Dict.get?_nil, Option.isSome_none, Bool.false_eq_true, false_iff]
      rintro ⟨b, hb', hk⟩
      have := List.findSome?_eq_none_iff.1 h2 b (by simpa using hb')
      exact ((Dict.get?_none_iff _ _).1 this) hk

/-- C28: a state defined in the class body replaces the inherited one of that name (when the body defines a
name twice, the last definition counts). -/
theorem C28_redefinition (bases : List FsmClass) (pre post : List StateDef) (d : StateDef)
    (h : ∀ e ∈ post, e.name ≠ d.name) :
    Dict.get? (mkFsm bases (pre ++ d :: post)).states d.name = some d := by
  rw [mkFsm, addNs_get?]
  have : (pre ++ d :: post).reverse.find? (fun e => e.name = d.name) = some d := by
    rw [List.reverse_append, List.reverse_cons, List.find?_append, List.find?_append]
    have h1 : post.reverse.find? (fun e => e.name = d.name) = none := by
      rw [List.find?_eq_none]
      intro e he
      simpa using h e (by simpa using he)
    rw [h1]
    simp
  rw [this]

/-- C28: a state that is not redefined is the one of the last base that has it. -/
theorem C28_last_base (bases : List FsmClass) (hb : ∀ b ∈ bases, b.Good) (ns : List StateDef) (k : String)
    (hns : ∀ d ∈ ns, d.name ≠ k) :
    Dict.get? (mkFsm bases ns).states k = bases.reverse.findSome? (fun b => Dict.get? b.states k) := by
  rw [mkFsm, addNs_get?, addBases_get? bases (fun b hm => (hb b hm).wf)]
  have : ns.reverse.find? (fun d => d.name = k) = none := by
    rw [List.find?_eq_none]
    intro e he
    simpa using hns e (by simpa using he)
  rw [this]
  cases bases.reverse.findSome? (fun b => Dict.get? b.states k) <;> rfl

example : Dict.get? (mkFsm [exFsm] [⟨"extra", false, 9⟩, ⟨"idle", true, 8⟩]).states "idle" = some ⟨"idle", true, 8⟩ ∧
    Dict.get? (mkFsm [exFsm] [⟨"extra", false, 9⟩, ⟨"idle", true, 8⟩]).states "s1" = some ⟨"s1", false, 2⟩ ∧
    (mkFsm [exFsm] [⟨"extra", false, 9⟩, ⟨"idle", true, 8⟩]).init = some ⟨"idle", true, 8⟩ := by decide +kernel

/-- C28, initial state, what holds: a default in the class body is the initial state (the last one, if there
are several), and it is the declared state of that name. -/
theorem C28_own_default (bases : List FsmClass) (pre post : List StateDef) (d : StateDef) (hd : d.dflt = true)
    (hlast : ∀ e ∈ post, e.dflt = false ∧ e.name ≠ d.name) :
    (mkFsm bases (pre ++ d :: post)).init = some d ∧
    Dict.get? (mkFsm bases (pre ++ d :: post)).states d.name = some d := by
  refine ⟨?_, C28_redefinition bases pre post d (fun e he => (hlast e he).2)⟩
  rw [mkFsm, addNs_init]
  have : (pre ++ d :: post).reverse.find? (fun e => e.dflt) = some d := by
    rw [List.reverse_append, List.reverse_cons, List.find?_append, List.find?_append]
    have h1 : post.reverse.find? (fun e => e.dflt) = none := by
      rw [List.find?_eq_none]
      intro e he
      simpa using (hlast e (by simpa using he)).1
    rw [h1]
    simp [hd]
  rw [this]

/-- C28, initial state, what holds: with one base in which exactly one state is marked default, and that is
not redefined, the initial state is inherited. Missing: redefined defaults, several defaults in the
hierarchy (both violated, see below). -/
theorem C28_inherited_default_partial (b : FsmClass) (hb : b.Good) (ns : List StateDef) (d : StateDef)
    (hd : (d.name, d) ∈ b.states) (hdd : d.dflt = true)
    (huniq : ∀ kd ∈ b.states, kd.2.dflt = true → kd.2 = d)
    (hns : ∀ e ∈ ns, e.dflt = false ∧ e.name ≠ d.name) :
    (mkFsm [b] ns).init = some d ∧ Dict.get? (mkFsm [b] ns).states d.name = some d := by
  constructor
  · rw [mkFsm, addNs_init]
    have h1 : ns.reverse.find? (fun d => d.dflt) = none := by
      rw [List.find?_eq_none]
      intro e he
      simpa using (hns e (by simpa using he)).1
    rw [h1]
    simp only [List.foldl_cons, List.foldl_nil, addBase_init]
    cases h2 : (b.states.map Prod.snd).reverse.find? (fun d => d.dflt) with
    | none =>
      have := List.find?_eq_none.1 h2 d (by simpa using ⟨_, hd⟩)
      exact absurd hdd this
    | some e =>
      have hm := List.mem_of_find?_eq_some h2
      have hn := List.find?_some h2
      rw [List.mem_reverse, List.mem_map] at hm
      obtain ⟨kd, hk, rfl⟩ := hm
      simp [huniq kd hk hn]
  · rw [C28_last_base [b] (by simpa using hb) ns _ (fun e he => (hns e he).2)]
    simp [Dict.get?_of_mem hb.wf hd]

example : ("idle", (⟨"idle", true, 1⟩ : StateDef)) ∈ exFsm.states ∧
    (∀ kd ∈ exFsm.states, kd.2.dflt = true → kd.2 = ⟨"idle", true, 1⟩) := by decide +kernel

/-- C28 is violated: a subclass that redefines the default state without marking it again starts in the *old*
state object (with the old function), though the state of that name is the new one. -/
theorem C28_redefined_default_false (b : FsmClass) (d d' : StateDef)
    (hd : (d.name, d) ∈ b.states) (hdd : d.dflt = true)
    (huniq : ∀ kd ∈ b.states, kd.2.dflt = true → kd.2 = d)
    (hn : d'.name = d.name) (hnd : d'.dflt = false) :
    (mkFsm [b] [d']).init = some d ∧ Dict.get? (mkFsm [b] [d']).states d.name = some d' := by
  constructor
  · rw [mkFsm, addNs_init]
    have h1 : [d'].reverse.find? (fun d => d.dflt) = none := by simp [hnd]
    rw [h1]
    simp only [List.foldl_cons, List.foldl_nil, addBase_init]
    cases h2 : (b.states.map Prod.snd).reverse.find? (fun d => d.dflt) with
    | none =>
      have := List.find?_eq_none.1 h2 d (by simpa using ⟨_, hd⟩)
      exact absurd hdd this
    | some e =>
      have hm := List.mem_of_find?_eq_some h2
      have hn := List.find?_some h2
      rw [List.mem_reverse, List.mem_map] at hm
      obtain ⟨kd, hk, rfl⟩ := hm
      simp [huniq kd hk hn]
  · have := C28_redefinition [b] [] [] d' (by simp)
    rw [hn] at this
    exact this

example : (mkFsm [exFsm] [⟨"idle", false, 50⟩]).init = some ⟨"idle", true, 1⟩ := by decide +kernel

/-- C28 is violated: a subclass may change the initial state, but its own subclasses forget that (even with an
empty body): the order of the inherited states decides. -/
theorem C28_grandchild_false : ∃ base sub : FsmClass, base.Good ∧ sub = mkFsm [base] [⟨"a", true, 10⟩] ∧
    sub.init = some ⟨"a", true, 10⟩ ∧ (mkFsm [sub] []).init = some ⟨"b", true, 2⟩ := by
  refine ⟨mkFsm [fsmRoot 0] [⟨"a", false, 1⟩, ⟨"b", true, 2⟩], _, mkFsm_good (by simp [fsmRoot, mkFsm_good]) _, rfl,
    by decide +kernel, by decide +kernel⟩

end Verif
