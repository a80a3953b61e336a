import Verif.Proofs.Literal
import Verif.Props.Serialization

/-!
# Values as texts (C216), classes of agents (C217)
-/

namespace Verif

/-! ### C216 -/

/-- C216 for values without infinities: what `deserialize` makes of the result of `serialize` is the value, of whatever depth, with
whatever texts in it. Missing: infinities, see `C216_inf_false`. -/
theorem C216_round_trip_partial (printable : Char → Bool) (v : PyLit) (hv : Finite v) :
    deserializeLit (serializeLit printable v).2 (serializeLit printable v).1 = some v := by
  have h := literalEval_repr printable v hv
  cases hv with
  | none => rfl
  | str s => rfl
  | bool b => exact h
  | int i => exact h
  | list _ => exact h
  | tuple _ => exact h
  | dict _ _ => exact h

/-- ... so `serialize` never gives the same texts for different values. -/
theorem C216_injective_partial (printable : Char → Bool) (v v' : PyLit) (hv : Finite v) (hv' : Finite v')
    (h : serializeLit printable v = serializeLit printable v') : v = v' := by
  have h1 := C216_round_trip_partial printable v hv
  rw [h, C216_round_trip_partial printable v' hv'] at h1
  exact (Option.some.inj h1).symm

private theorem inf_unread (n : Nat) (r : Str) : readLit n ('i' :: r) = none := by
  cases n with
  | zero => rfl
  | succ n => rfl

/-- C216 is violated by infinity, the time of agents that wait for ever: what is written cannot be read, also inside of lists. -/
theorem C216_inf_false (printable : Char → Bool) (l : List PyLit) :
    deserializeLit (serializeLit printable .inf).2 (serializeLit printable .inf).1 = none ∧
    deserializeLit (serializeLit printable (.list (.inf :: l))).2 (serializeLit printable (.list (.inf :: l))).1 = none := by
  refine ⟨rfl, ?_⟩
  show literalEval (reprLit printable (.list (.inf :: l))) = none
  rw [reprLit, reprSeq, reprLit]
  simp only [literalEval]
  have : ∀ n t, readLit n ('[' :: 'i' :: t) = none := by
    intro n t
    cases n with
    | zero => rfl
    | succ n =>
      rw [readLit]
      · cases n with
        | zero => rfl
        | succ n =>
          rw [readSeq, inf_unread]
      · intro r h
        simp at h
  have e : ∀ t, '[' :: ("inf".toList ++ t) ++ [']'] = '[' :: 'i' :: 'n' :: 'f' :: (t ++ [']']) := fun t => rfl
  rw [e, this]

/-- C216 is violated in another way: the name of the type is not looked at. Every text that is a literal is read as what it is,
whatever builtin type is asked for, except `str` and `None`. -/
theorem C216_type_false (printable : Char → Bool) (v : PyLit) (hv : Finite v) (type_ : Str) (h1 : type_ ≠ "str".toList)
    (h2 : type_ ≠ "None".toList) : deserializeLit type_ (reprLit printable v) = some v := by
  rw [deserializeLit, if_neg h1, if_neg h2]
  exact literalEval_repr printable v hv

/-- A nested value with awkward texts. -/
def exLit : PyLit :=
  .dict [(.str "it's".toList, .list [.int (-12), .tuple [.int 0], .tuple [], .tuple [.bool true, .none]]),
    (.int 3, .str ['\n', '"', '\'', '\\', Char.ofNat 7, Char.ofNat 0x200b, 'é']), (.tuple [.bool false, .int 10], .dict [])]

set_option maxRecDepth 100000 in
example : (serializeLit (fun c => decide (32 ≤ c.toNat ∧ c.toNat < 127 ∨ c = 'é')) exLit).1 =
    "{\"it's\": [-12, (0,), (), (True, None)], 3: '\\n\"\\'\\\\\\x07\\u200bé', (False, 10): {}}".toList := by decide +kernel

example : Finite exLit := by
  refine .dict ?_ ?_ <;> intro kv h <;> simp only [List.mem_cons, List.not_mem_nil, or_false] at h <;> rcases h with rfl | rfl | rfl
  · exact .str _
  · exact .int _
  · refine .tuple ?_
    intro v hv
    simp only [List.mem_cons, List.not_mem_nil, or_false] at hv
    rcases hv with rfl | rfl
    · exact .bool _
    · exact .int _
  · refine .list ?_
    intro v hv
    simp only [List.mem_cons, List.not_mem_nil, or_false] at hv
    rcases hv with rfl | rfl | rfl | rfl
    · exact .int _
    · refine .tuple ?_
      intro v hv
      simp only [List.mem_cons, List.not_mem_nil, or_false] at hv
      subst hv
      exact .int _
    · exact .tuple (fun v hv => nomatch hv)
    · refine .tuple ?_
      intro v hv
      simp only [List.mem_cons, List.not_mem_nil, or_false] at hv
      rcases hv with rfl | rfl
      · exact .bool _
      · exact .none
  · exact .str _
  · exact .dict (fun v hv => nomatch hv) (fun v hv => nomatch hv)

/-! ### C217 -/

private theorem nameIn_repeat (w : PyWorld) (c : PyClass) (known : List Str) (hk : ∀ m ∈ known, (w.modules m).isSome) (k : Str)
    (hm : k ∈ known) : nameIn w c (known ++ [k]) = nameIn w c known := by
  induction known with
  | nil => cases hm
  | cons m ms ih =>
    obtain ⟨d, hd⟩ := Option.isSome_iff_exists.1 (hk m List.mem_cons_self)
    by_cases hh : Dict.has d c.name = true
    · simp [nameIn, hd, hh]
    · simp only [List.cons_append, nameIn, hd, hh, if_false, Bool.false_eq_true]
      rcases List.mem_cons.1 hm with rfl | hm'
      · have : ∀ ms : List Str, (∀ m ∈ ms, (w.modules m).isSome) → nameIn w c (ms ++ [k]) = nameIn w c ms := by
          intro ms
          induction ms with
          | nil => intro _; simp [nameIn, hd, hh]
          | cons m ms ih =>
            intro hms
            obtain ⟨d', hd'⟩ := Option.isSome_iff_exists.1 (hms m List.mem_cons_self)
            simp only [List.cons_append, nameIn, hd']
            rw [ih (fun x hx => hms x (List.mem_cons_of_mem _ hx))]
        exact this ms (fun x hx => hk x (List.mem_cons_of_mem _ hx))
      · exact ih (fun x hx => hk x (List.mem_cons_of_mem _ hx)) hm'

private theorem className_repeat (w : PyWorld) (c : PyClass) (known : List Str) (hk : ∀ m ∈ known, (w.modules m).isSome) (k : Str)
    (hm : k ∈ known) : className w (known ++ [k]) c = className w known c := by
  have : c.module ∈ known ++ [k] ↔ c.module ∈ known := by
    rw [List.mem_append, List.mem_singleton]
    constructor
    · rintro (h | h)
      · exact h
      · rw [h]; exact hm
    · exact Or.inl
  simp only [className, this, nameIn_repeat w c known hk k hm]

/-- C217: whatever classes `_serialize_type` was called with before, it gives the same name: the one among the names of
`soil.agents`. -/
theorem C217_names (w : PyWorld) (hw : (w.modules "soil.agents".toList).isSome) (cs : List PyClass) :
    (serializeTypes w cs []).1 = cs.map (className w ["soil.agents".toList]) := by
  have key : ∀ (cs : List PyClass) (n : Nat), (serializeTypes w cs (List.replicate n soilAgents)).1 = cs.map (className w [soilAgents]) := by
    intro cs
    induction cs with
    | nil => intro n; rfl
    | cons c cs ih =>
      intro n
      have e : List.replicate n soilAgents ++ [soilAgents] = List.replicate (n + 1) soilAgents := by
        rw [List.replicate_succ']
      have hc : ∀ n : Nat, className w (List.replicate (n + 1) soilAgents) c = className w [soilAgents] c := by
        intro n
        induction n with
        | zero => rfl
        | succ n ihn =>
          rw [List.replicate_succ', className_repeat w c _ ?_ _ ?_, ihn]
          · intro m hm
            rw [List.eq_of_mem_replicate hm]
            exact hw
          · rw [List.replicate_succ]
            exact List.mem_cons_self
      simp only [serializeTypes, serializeType, e, List.map_cons]
      rw [ih (n + 1), hc n]
  exact key cs 0

/-- C217 is violated: every call makes the list longer, be it the one of the caller or the one that the function keeps. -/
theorem C217_grows_false (w : PyWorld) (cs : List PyClass) (known : List Str) (c : PyClass) :
    (serializeTypes w cs []).2 = List.replicate cs.length "soil.agents".toList ∧
    (serializeType w known c).2 ≠ known := by
  refine ⟨?_, ?_⟩
  · have key : ∀ (cs : List PyClass) (n : Nat), (serializeTypes w cs (List.replicate n soilAgents)).2 = List.replicate (n + cs.length) soilAgents := by
      intro cs
      induction cs with
      | nil => intro n; rfl
      | cons c cs ih =>
        intro n
        have e : List.replicate n soilAgents ++ [soilAgents] = List.replicate (n + 1) soilAgents := by
          rw [List.replicate_succ']
        simp only [serializeTypes, serializeType, e]
        rw [ih (n + 1), List.length_cons, Nat.add_right_comm, Nat.add_assoc]
    have := key cs 0
    rw [Nat.zero_add] at this
    exact this
  · intro h
    have := congrArg List.length h
    simp [serializeType] at this

private theorem firstOption_skip (w : PyWorld) (a b : List (Str × Str)) (m t : Str) (h : w.attr m t = none) :
    firstOption w (a ++ (m, t) :: b) = firstOption w (a ++ b) := by
  induction a with
  | nil => simp [firstOption, h]
  | cons x a ih =>
    obtain ⟨x1, x2⟩ := x
    simp only [List.cons_append, firstOption, ih]

/-- C217: what `_deserialize_type` makes of the name is the class, for classes that can be found by their module and name, and whose
name is no builtin's and means nothing else in `soil.agents`. `soil.agents.custom`, where it looks, too, is a function and not a
module. Missing: the same as in C61. -/
theorem C217_round_trip_partial (w : PyWorld) (hnd : w.NoDots) (hw : (w.modules "soil.agents".toList).isSome)
    (hcustom : w.modules "soil.agents.custom".toList = none)
    (c : PyClass) (hb : w.isBuiltin c.name = false) (hb2 : w.isBuiltin (c.module ++ '.' :: c.name) = false)
    (hmain : c.module ≠ "__main__".toList) (hown : w.attr c.module c.name = some c.obj)
    (hother : ∀ x, w.attr "soil.agents".toList c.name = some x → x = c.obj) (hdes : w.deserializeAttr c.obj = none) :
    ∃ t, (serializeType w [] c).1 = some t ∧ deserializeType w [] t = some (.obj c.obj) := by
  have h := C61_round_trip_partial { w with evalName := fun _ => none } hnd [soilAgents]
    (by
      intro m hm
      rw [List.mem_singleton] at hm
      subst hm
      exact ⟨by decide, hw⟩) c hb hb2 hmain hown
    (by
      intro m hm x hx
      rw [List.mem_singleton] at hm
      subst hm
      exact hother x hx) hdes
  obtain ⟨t, h1, h2⟩ := h
  refine ⟨t, ?_, ?_⟩
  · rw [← h1]
    have hn : nameIn w c [soilAgents] = nameIn { w with evalName := fun _ => none } c [soilAgents] := rfl
    simp only [serializeType, List.nil_append, className, hn]
  · have ha : w.attr "soil.agents.custom".toList t = none := by simp only [PyWorld.attr, hcustom]
    rw [← h2]
    simp only [deserializeType, deserializerName, deserializeName, List.nil_append]
    have hf : [soilAgents, "soil.agents.custom".toList].filter (fun m => !m.isEmpty) = [soilAgents, "soil.agents.custom".toList] := by
      decide +kernel
    have hf1 : [soilAgents].filter (fun m => !m.isEmpty) = [soilAgents] := by decide +kernel
    rw [hf, hf1]
    simp only [List.map_cons, List.map_nil, List.cons_append, List.nil_append]
    have hs := fun b => firstOption_skip { w with evalName := fun _ => none } [(soilAgents, t)] b "soil.agents.custom".toList t ha
    simp only [List.cons_append, List.nil_append] at hs
    rw [hs]

/-- `soil.agents` has `FSM`, `mine` has `Car` and another `FSM`. -/
def exAgentWorld : PyWorld where
  isBuiltin := fun s => s == "int".toList
  modules := fun m =>
    if m = "soil.agents".toList then some [("FSM".toList, 1)]
    else if m = "mine".toList then some [("Car".toList, 2), ("FSM".toList, 3)]
    else none
  deserializeAttr := fun _ => none
  evalName := fun _ => none

set_option maxRecDepth 100000 in
example : serializeTypes exAgentWorld [⟨"FSM".toList, "soil.agents".toList, 1⟩, ⟨"Car".toList, "mine".toList, 2⟩, ⟨"FSM".toList, "mine".toList, 3⟩] [] =
      ([some "FSM".toList, some "mine.Car".toList, some "FSM".toList], ["soil.agents".toList, "soil.agents".toList, "soil.agents".toList]) ∧
    deserializeType exAgentWorld [] "FSM".toList = some (.obj 1) ∧ deserializeType exAgentWorld [] "mine.Car".toList = some (.obj 2) ∧
    deserializeType exAgentWorld [] "Car".toList = none ∧ deserializeType exAgentWorld ["mine".toList] "FSM".toList = some (.obj 3) := by
  decide +kernel

end Verif
