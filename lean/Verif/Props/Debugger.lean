import Verif.Model.Debugger

/-!
# Properties C163-C166: the debugger
-/

namespace Verif

/-! ## Words -/

/-- No blank in it, and not empty. -/
def IsWord (w : List Char) : Prop := w ≠ [] ∧ ∀ c ∈ w, c.isWhitespace = false

theorem splitFrom_word (cur w : List Char) (hw : ∀ c ∈ w, c.isWhitespace = false) (rest : List Char) :
    splitFrom cur (w ++ rest) = splitFrom (cur ++ w) rest := by
  induction w generalizing cur with
  | nil => simp
  | cons c w ih =>
    have hc : c.isWhitespace = false := hw c (by simp)
    simp only [List.cons_append, splitFrom, hc, Bool.false_eq_true, if_false]
    rw [ih _ (fun x hx => hw x (by simp [hx]))]
    simp

theorem splitWords_join (w : List Char) (ws : List (List Char)) (hw : IsWord w) (hws : ∀ x ∈ ws, IsWord x) :
    splitWords (w ++ ws.flatMap (fun x => ' ' :: x)) = w :: ws := by
  unfold splitWords
  rw [splitFrom_word [] w hw.2, List.nil_append]
  induction ws generalizing w with
  | nil => simp [splitFrom, hw.1]
  | cons x ws ih =>
    have hb : (' ' : Char).isWhitespace = true := by decide
    rw [List.flatMap_cons, List.cons_append]
    simp only [splitFrom, hb, if_true, hw.1, if_false]
    rw [splitFrom_word [] x (hws x (by simp)).2, List.nil_append, ih x (hws x (by simp)) (fun y hy => hws y (by simp [hy]))]

theorem digit_not_white {c : Char} (h : c.isDigit = true) : c.isWhitespace = false := by
  cases hw : c.isWhitespace with
  | false => rfl
  | true =>
    exfalso
    simp only [Char.isWhitespace, Bool.or_eq_true, decide_eq_true_eq] at hw
    rcases hw with ((rfl | rfl) | rfl) | rfl <;> revert h <;> decide

theorem digits_ok (n : Nat) : Nat.toDigits 10 n ≠ [] ∧ (Nat.toDigits 10 n).all Char.isDigit = true := by
  refine ⟨Nat.toDigits_ne_nil, ?_⟩
  rw [List.all_eq_true]
  intro c hc
  exact Nat.isDigit_of_mem_toDigits (by decide) (by decide) hc

theorem digits_word (n : Nat) : IsWord (Nat.toDigits 10 n) :=
  ⟨(digits_ok n).1, fun c hc => digit_not_white (List.all_eq_true.1 (digits_ok n).2 c hc)⟩

theorem evalToken_digits (n : Nat) : evalToken (Nat.toDigits 10 n) = some n := by
  unfold evalToken
  rw [if_pos (digits_ok n), Nat.ofDigitChars_ten_toDigits]

theorem evalTokens_digits (ids : List Nat) : (ids.map (Nat.toDigits 10)).mapM evalToken = some ids := by
  induction ids with
  | nil => rfl
  | cons n ids ih => simp [List.mapM_cons, evalToken_digits, ih]

/-- The name of a class: a word without colon. -/
def IsName (k : List Char) : Prop := IsWord k ∧ ':' ∉ k

theorem splitColon_name (k s : List Char) (hk : IsName k) : splitColon (k ++ ':' :: s) = (some k, s) := by
  unfold splitColon
  have h1 : (k ++ ':' :: s).contains ':' = true := by simp
  have h2 : (k ++ ':' :: s).head? ≠ some ':' := by
    cases k with
    | nil => exact absurd rfl hk.1.1
    | cons c k =>
      intro h
      simp only [List.cons_append, List.head?_cons, Option.some.injEq] at h
      exact hk.2 (by simp [h])
  rw [if_pos (by rw [h1, Bool.true_and]; exact decide_eq_true h2)]
  have h3 : ∀ x ∈ k, decide (x ≠ ':') = true := by
    intro x hx
    rw [decide_eq_true_eq]
    rintro rfl
    exact hk.2 hx
  rw [List.takeWhile_append_of_pos h3, List.dropWhile_append_of_pos h3]
  simp

theorem splitColon_none (s : List Char) (hs : ':' ∉ s) : splitColon s = (none, s) := by
  unfold splitColon
  rw [if_neg (by simp [hs])]

/-- The argument `K:s i j …`. -/
def stateArg (k s : List Char) (ids : List Nat) : List Char := (k ++ ':' :: s) ++ (ids.map (Nat.toDigits 10)).flatMap (fun x => ' ' :: x)

theorem breakState_arg (W : DWorld) (d : Dbg) (f : DFrame) (k s : List Char) (ids : List Nat) (temp : Bool) (hk : IsName k)
    (hs : ∀ c ∈ s, c.isWhitespace = false) (v : DVal) (hv : f.lookup k = some v) (ht : v.truthy = true) :
    d.breakState W f (stateArg k s ids) temp = Dbg.breakIn W s ids temp [v] d := by
  unfold Dbg.breakState stateArg
  rw [splitWords_join (k ++ ':' :: s) _ ⟨by simp, ?_⟩ ?_]
  · simp only [evalTokens_digits, splitColon_name k s hk]
    rw [hv]
    simp [ht, Dbg.breakState.go]
  · intro c hc
    rcases List.mem_append.1 hc with h | h
    · exact hk.1.2 c h
    · rcases List.mem_cons.1 h with rfl | h
      · decide
      · exact hs c h
  · intro x hx
    obtain ⟨n, _, rfl⟩ := List.mem_map.1 hx
    exact digits_word n

theorem breakState_all (W : DWorld) (d : Dbg) (f : DFrame) (s : List Char) (temp : Bool) (hs : IsName s) :
    d.breakState W f s temp = if f.machines W = [] then ⟨d, [.noClasses], none, false⟩ else Dbg.breakIn W s [] temp (f.machines W) d := by
  unfold Dbg.breakState
  have := splitWords_join s [] hs.1 (by simp)
  rw [List.flatMap_nil, List.append_nil] at this
  rw [this]
  simp only [List.mapM_nil, splitColon_none s hs.2, Dbg.breakState.go, Option.pure_def]
  by_cases h : f.machines W = []
  · rw [if_pos h, if_pos h, h]
    simp [Dbg.breakIn]
  · rw [if_neg h, if_neg h]

theorem lookup_or (f : DFrame) (k : List Char) :
    f.lookup k = (Dict.get? f.locals (String.ofList k)).or (Dict.get? f.globals (String.ofList k)) := by
  unfold DFrame.lookup
  cases Dict.get? f.locals (String.ofList k) <;> rfl

theorem hasBreak_iff (d : Dbg) (c : CodeRef) :
    d.hasBreak c = false ↔ ∀ b ∈ d.bps, ¬ (b.code.file = c.file ∧ b.code.line = c.line) := by
  unfold Dbg.hasBreak
  simp

/-! ## C163 -/

/-- C163 is false: for a state declared with `@state` the command raises `AttributeError` (a state has no `__code__`), whatever breakpoints
there are and whichever agents are given; no breakpoint is set. -/
theorem C163_declared_false (W : DWorld) (d : Dbg) (f : DFrame) (k s : List Char) (ids : List Nat) (temp : Bool) (hk : IsName k)
    (hs : ∀ c ∈ s, c.isWhitespace = false) (v : DVal) (hv : (Dict.get? f.locals (String.ofList k)).or (Dict.get? f.globals (String.ofList k)) = some v) (ht : v.truthy = true) (c : CodeRef)
    (ha : W.attr v s = some (.state c)) :
    (d.breakState W f (stateArg k s ids) temp).err = some .attributeError ∧ (d.breakState W f (stateArg k s ids) temp).dbg = d := by
  rw [← lookup_or] at hv
  rw [breakState_arg W d f k s ids temp hk hs v hv ht]
  simp [Dbg.breakIn, Dbg.breakOne, ha]

theorem breakIn_declared (W : DWorld) (s : List Char) (ids : List Nat) (temp : Bool) (ks : List DVal) (d : Dbg) (v : DVal) (hv : v ∈ ks)
    (c : CodeRef) (ha : W.attr v s = some (.state c)) : (Dbg.breakIn W s ids temp ks d).err ≠ none := by
  induction ks generalizing d with
  | nil => cases hv
  | cons k ks ih =>
    simp only [Dbg.breakIn]
    cases he : (d.breakOne W s ids temp k).err with
    | some e => simp [he]
    | none =>
      rcases List.mem_cons.1 hv with rfl | hv
      · simp [Dbg.breakOne, ha] at he
      · exact ih _ hv

/-- C163 is false also if no class is given, as soon as one of the machines in sight declares the state. -/
theorem C163_any_false (W : DWorld) (d : Dbg) (f : DFrame) (s : List Char) (temp : Bool) (hs : IsName s) (v : DVal)
    (hv : v ∈ f.machines W) (c : CodeRef) (ha : W.attr v s = some (.state c)) : (d.breakState W f s temp).err ≠ none := by
  rw [breakState_all W d f s temp hs]
  rw [if_neg (by intro h; rw [h] at hv; cases hv)]
  exact breakIn_declared W s [] temp _ d v hv c ha

/-- Does the attribute have code? -/
def DAttr.code : DAttr → Option CodeRef
  | .fn c => some c
  | .method c => some c
  | _ => none

theorem breakIn_code (W : DWorld) (s : List Char) (ids : List Nat) (temp : Bool) (v : DVal) (d : Dbg) (x : DAttr) (c : CodeRef)
    (ha : W.attr v s = some x) (hx : x.code = some c) (hl : W.lineOk c = true) :
    Dbg.breakIn W s ids temp [v] d = if d.hasBreak c then ⟨d, [.exists_ c], none, false⟩ else
      ⟨{ d with bps := d.bps ++ [⟨c, if ids = [] then none else some (.ids ids), temp⟩] }, [.set c], none, false⟩ := by
  have : d.breakOne W s ids temp v = Dbg.breakOne.set W ids temp d c := by
    rw [Dbg.breakOne, ha]
    cases x <;> simp_all [DAttr.code]
  simp only [Dbg.breakIn, this]
  unfold Dbg.breakOne.set
  rw [if_neg (by simp [hl])]
  by_cases hb : d.hasBreak c = true
  · rw [if_pos hb]
    simp
  · rw [if_neg hb]
    simp

theorem effective_append (c : CodeRef) (s : DSelf) (l m : List DBreak) :
    effective c s (l ++ m) = match effective c s l with
      | some r => some r
      | none => effective c s m := by
  induction l with
  | nil => rfl
  | cons b l ih =>
    simp only [List.cons_append, effective]
    split
    · split
      · rfl
      · split
        · rfl
        · exact ih
        · rfl
    · exact ih

theorem effective_none (c : CodeRef) (s : DSelf) (l : List DBreak) (h : ∀ b ∈ l, b.code ≠ c) : effective c s l = none := by
  induction l with
  | nil => rfl
  | cons b l ih =>
    simp only [effective]
    rw [if_neg (h b (by simp))]
    exact ih (fun x hx => h x (by simp [hx]))

theorem hasBreak_false {d : Dbg} {c : CodeRef} (h : d.hasBreak c = false) : ∀ b ∈ d.bps, b.code ≠ c := by
  intro b hb hbc
  unfold Dbg.hasBreak at h
  rw [List.any_eq_false] at h
  exact h b hb (by simp [hbc])

theorem enter_one (d : Dbg) (c : CodeRef) (x : Option DCond) (temp : Bool) (h : ∀ b ∈ d.bps, b.code ≠ c) (s : DSelf) :
    ({ d with bps := d.bps ++ [⟨c, x, temp⟩] } : Dbg).enter c s = match x with
      | none => (true, if temp then d else { d with bps := d.bps ++ [⟨c, x, temp⟩] })
      | some y => match y.eval s with
        | some true => (true, if temp then d else { d with bps := d.bps ++ [⟨c, x, temp⟩] })
        | some false => (false, { d with bps := d.bps ++ [⟨c, x, temp⟩] })
        | none => (true, { d with bps := d.bps ++ [⟨c, x, temp⟩] }) := by
  have herase : ∀ x, (d.bps ++ [⟨c, x, temp⟩] : List DBreak).erase ⟨c, x, temp⟩ = d.bps := by
    intro x
    have : (⟨c, x, temp⟩ : DBreak) ∉ d.bps := fun hm => h _ hm rfl
    rw [List.erase_append_right _ this]
    simp
  unfold Dbg.enter
  simp only [effective_append, effective_none c s d.bps h]
  cases x with
  | none =>
    simp only [effective, if_true, Bool.true_and, herase]
    try cases temp <;> rfl
  | some y =>
    simp only [effective, if_true]
    cases hy : y.eval s with
    | none => simp
    | some b => cases b <;> simp [herase]

theorem enter_other (d : Dbg) (c c' : CodeRef) (x : Option DCond) (temp : Bool) (h : c' ≠ c) (s : DSelf) :
    (({ d with bps := d.bps ++ [⟨c, x, temp⟩] } : Dbg).enter c' s).1 = (d.enter c' s).1 := by
  unfold Dbg.enter
  simp only [effective_append]
  cases effective c' s d.bps with
  | some r => rfl
  | none => simp [effective, Ne.symm h]

/-- C163, what is true: for a plain function or method (no state) at whose line there is no breakpoint, the debugger stops afterwards
whenever one of the given agents calls it (any agent if none is given), and nothing else changes. -/
theorem C163_plain_partial (W : DWorld) (d : Dbg) (f : DFrame) (k s : List Char) (ids : List Nat) (hk : IsName k)
    (hs : ∀ c ∈ s, c.isWhitespace = false) (v : DVal) (hv : (Dict.get? f.locals (String.ofList k)).or (Dict.get? f.globals (String.ofList k)) = some v) (ht : v.truthy = true) (x : DAttr) (c : CodeRef)
    (ha : W.attr v s = some x) (hx : x.code = some c) (hl : W.lineOk c = true) (hb : ∀ b ∈ d.bps, ¬ (b.code.file = c.file ∧ b.code.line = c.line)) :
    let r := d.breakState W f (stateArg k s ids) false
    r.err = none ∧ r.msgs = [.set c] ∧ (∀ u, r.dbg.enter c (.agent u) = (decide (ids = [] ∨ u ∈ ids), r.dbg)) ∧
      ∀ c' y, c' ≠ c → (r.dbg.enter c' y).1 = (d.enter c' y).1 := by
  have hb : d.hasBreak c = false := (hasBreak_iff d c).2 hb
  rw [← lookup_or] at hv
  intro r
  have hr : r = ⟨{ d with bps := d.bps ++ [⟨c, if ids = [] then none else some (.ids ids), false⟩] }, [.set c], none, false⟩ := by
    show d.breakState W f (stateArg k s ids) false = _
    rw [breakState_arg W d f k s ids false hk hs v hv ht, breakIn_code W s ids false v d x c ha hx hl]
    simp [hb]
  rw [hr]
  refine ⟨rfl, rfl, fun u => ?_, fun c' y h => enter_other d c c' _ _ h y⟩
  rw [enter_one d c _ _ (hasBreak_false hb)]
  by_cases h : ids = []
  · simp [h]
  · by_cases hu : u ∈ ids <;> simp [h, DCond.eval, hu]

/-- C163 is false: a second command for another agent does nothing, since there is a breakpoint at the line. -/
theorem C163_second_false (W : DWorld) (d : Dbg) (f : DFrame) (k s : List Char) (ids ids' : List Nat) (hk : IsName k)
    (hs : ∀ c ∈ s, c.isWhitespace = false) (v : DVal) (hv : (Dict.get? f.locals (String.ofList k)).or (Dict.get? f.globals (String.ofList k)) = some v) (ht : v.truthy = true) (x : DAttr) (c : CodeRef)
    (ha : W.attr v s = some x) (hx : x.code = some c) (hl : W.lineOk c = true) (hb : ∀ b ∈ d.bps, ¬ (b.code.file = c.file ∧ b.code.line = c.line)) (hne : ids ≠ []) (u : Nat)
    (hu : u ∈ ids') (hu' : u ∉ ids) :
    let r := (d.breakState W f (stateArg k s ids) false).dbg.breakState W f (stateArg k s ids') false
    r.err = none ∧ r.msgs = [.exists_ c] ∧ (r.dbg.enter c (.agent u)).1 = false := by
  have hb : d.hasBreak c = false := (hasBreak_iff d c).2 hb
  rw [← lookup_or] at hv
  intro r
  have h1 : d.breakState W f (stateArg k s ids) false =
      ⟨{ d with bps := d.bps ++ [⟨c, some (.ids ids), false⟩] }, [.set c], none, false⟩ := by
    rw [breakState_arg W d f k s ids false hk hs v hv ht, breakIn_code W s ids false v d x c ha hx hl]
    simp [hb, hne]
  have hr : r = ⟨{ d with bps := d.bps ++ [⟨c, some (.ids ids), false⟩] }, [.exists_ c], none, false⟩ := by
    show (d.breakState W f (stateArg k s ids) false).dbg.breakState W f (stateArg k s ids') false = _
    rw [h1, breakState_arg W _ f k s ids' false hk hs v hv ht, breakIn_code W s ids' false v _ x c ha hx hl]
    rw [if_pos (by simp [Dbg.hasBreak])]
  rw [hr]
  refine ⟨rfl, rfl, ?_⟩
  rw [enter_one d c _ _ (hasBreak_false hb)]
  simp [DCond.eval, hu']

/-- C163, `continue_state`: for a plain function the debugger stops once, and then everything is as before. -/
theorem C163_continue_partial (W : DWorld) (d : Dbg) (f : DFrame) (k s : List Char) (ids : List Nat) (hk : IsName k)
    (hs : ∀ c ∈ s, c.isWhitespace = false) (v : DVal) (hv : (Dict.get? f.locals (String.ofList k)).or (Dict.get? f.globals (String.ofList k)) = some v) (ht : v.truthy = true) (x : DAttr) (c : CodeRef)
    (ha : W.attr v s = some x) (hx : x.code = some c) (hl : W.lineOk c = true) (hb : ∀ b ∈ d.bps, ¬ (b.code.file = c.file ∧ b.code.line = c.line)) :
    let r := d.continueState W f (stateArg k s ids)
    r.err = none ∧ r.cont = true ∧ ∀ u, r.dbg.enter c (.agent u) = if ids = [] ∨ u ∈ ids then (true, d) else (false, r.dbg) := by
  have hb : d.hasBreak c = false := (hasBreak_iff d c).2 hb
  rw [← lookup_or] at hv
  intro r
  have hr : r = ⟨{ d with bps := d.bps ++ [⟨c, if ids = [] then none else some (.ids ids), true⟩] }, [.set c], none, true⟩ := by
    show d.continueState W f (stateArg k s ids) = _
    unfold Dbg.continueState
    rw [breakState_arg W d f k s ids true hk hs v hv ht, breakIn_code W s ids true v d x c ha hx hl]
    simp [hb]
  rw [hr]
  refine ⟨rfl, rfl, fun u => ?_⟩
  rw [enter_one d c _ _ (hasBreak_false hb)]
  by_cases h : ids = []
  · simp [h]
  · by_cases hu : u ∈ ids <;> simp [h, DCond.eval, hu]

/-- C163 is false: if the class has no such state, `continue_state` says so and continues without any breakpoint. -/
theorem C163_missing_false (W : DWorld) (d : Dbg) (f : DFrame) (k s : List Char) (ids : List Nat) (hk : IsName k)
    (hs : ∀ c ∈ s, c.isWhitespace = false) (v : DVal) (hv : (Dict.get? f.locals (String.ofList k)).or (Dict.get? f.globals (String.ofList k)) = some v) (ht : v.truthy = true) (ha : W.attr v s = none) :
    d.continueState W f (stateArg k s ids) = ⟨d, [.notFound], none, true⟩ := by
  rw [← lookup_or] at hv
  unfold Dbg.continueState
  rw [breakState_arg W d f k s ids true hk hs v hv ht]
  simp [Dbg.breakIn, Dbg.breakOne, ha]

theorem breakIn_all (W : DWorld) (s : List Char) (ks : List DVal) : ∀ (d : Dbg),
    (∀ k ∈ ks, ∃ x c, W.attr k s = some x ∧ x.code = some c ∧ W.lineOk c = true) →
    ∃ new, (Dbg.breakIn W s [] false ks d).dbg = { d with bps := d.bps ++ new } ∧ (Dbg.breakIn W s [] false ks d).err = none ∧
      (∀ b ∈ new, b.cond = none ∧ ∃ k ∈ ks, ∃ x, W.attr k s = some x ∧ x.code = some b.code) ∧
      ∀ k ∈ ks, ∀ x c, W.attr k s = some x → x.code = some c → ∃ b ∈ d.bps ++ new, b.code.file = c.file ∧ b.code.line = c.line := by
  induction ks with
  | nil => intro d _; exact ⟨[], by simp [Dbg.breakIn]⟩
  | cons k ks ih =>
    intro d h
    obtain ⟨x, c, h1, h2, h3⟩ := h k List.mem_cons_self
    have hks : ∀ k ∈ ks, ∃ x c, W.attr k s = some x ∧ x.code = some c ∧ W.lineOk c = true := fun k hk => h k (List.mem_cons_of_mem _ hk)
    have hone : d.breakOne W s [] false k = if d.hasBreak c then ⟨d, [.exists_ c], none, false⟩ else
        ⟨{ d with bps := d.bps ++ [⟨c, none, false⟩] }, [.set c], none, false⟩ := by
      unfold Dbg.breakOne
      rw [h1]
      cases x with
      | fn c' => cases h2; simp [Dbg.breakOne.set, h3]
      | method c' => cases h2; simp [Dbg.breakOne.set, h3]
      | state c' => cases h2
      | data => cases h2
    cases hb : d.hasBreak c with
    | true =>
      obtain ⟨new, i1, i2, i3, i4⟩ := ih d hks
      have hr : Dbg.breakIn W s [] false (k :: ks) d =
          { Dbg.breakIn W s [] false ks d with msgs := [.exists_ c] ++ (Dbg.breakIn W s [] false ks d).msgs } := by
        simp only [Dbg.breakIn, hone, hb, if_true]
      rw [hr]
      refine ⟨new, i1, i2, ?_, ?_⟩
      · intro b hb
        obtain ⟨j1, k', hk', j2⟩ := i3 b hb
        exact ⟨j1, k', List.mem_cons_of_mem _ hk', j2⟩
      · intro k' hk' x' c' hx' hc'
        rcases List.mem_cons.1 hk' with rfl | hk'
        · rw [h1] at hx'; cases hx'
          rw [h2] at hc'; cases hc'
          unfold Dbg.hasBreak at hb
          obtain ⟨b, hb1, hb2⟩ := List.any_eq_true.1 hb
          simp only [Bool.and_eq_true, decide_eq_true_eq] at hb2
          exact ⟨b, List.mem_append_left _ hb1, hb2⟩
        · exact i4 k' hk' x' c' hx' hc'
    | false =>
      obtain ⟨new, i1, i2, i3, i4⟩ := ih { d with bps := d.bps ++ [⟨c, none, false⟩] } hks
      have hr : Dbg.breakIn W s [] false (k :: ks) d =
          { Dbg.breakIn W s [] false ks { d with bps := d.bps ++ [⟨c, none, false⟩] } with
            msgs := [.set c] ++ (Dbg.breakIn W s [] false ks { d with bps := d.bps ++ [⟨c, none, false⟩] }).msgs } := by
        simp only [Dbg.breakIn, hone, hb, Bool.false_eq_true, if_false]
      rw [hr]
      refine ⟨⟨c, none, false⟩ :: new, by rw [i1]; simp, i2, ?_, ?_⟩
      · intro b hb
        rcases List.mem_cons.1 hb with rfl | hb
        · exact ⟨rfl, k, List.mem_cons_self, x, h1, h2⟩
        · obtain ⟨j1, k', hk', j2⟩ := i3 b hb
          exact ⟨j1, k', List.mem_cons_of_mem _ hk', j2⟩
      · intro k' hk' x' c' hx' hc'
        rcases List.mem_cons.1 hk' with rfl | hk'
        · rw [h1] at hx'; cases hx'
          rw [h2] at hc'; cases hc'
          exact ⟨⟨c, none, false⟩, by simp, rfl, rfl⟩
        · obtain ⟨b, hb, hbc⟩ := i4 k' hk' x' c' hx' hc'
          exact ⟨b, by simpa using hb, hbc⟩

theorem effective_old {c : CodeRef} {y : DSelf} (l l' : List DBreak) (h : ∀ b ∈ l, b.code ≠ c) : effective c y (l ++ l') = effective c y l' := by
  induction l with
  | nil => rfl
  | cons b l ih =>
    rw [List.cons_append, effective, if_neg (h b List.mem_cons_self), ih (fun b hb => h b (List.mem_cons_of_mem _ hb))]

theorem effective_skip {c : CodeRef} {y : DSelf} (l l' : List DBreak) (h : ∀ b ∈ l', b.code ≠ c) : effective c y (l ++ l') = effective c y l := by
  induction l with
  | nil =>
    rw [List.nil_append]
    induction l' with
    | nil => rfl
    | cons b l' ih =>
      rw [show effective c y (b :: l') = effective c y l' from by rw [effective, if_neg (h b List.mem_cons_self)]]
      exact ih (fun b hb => h b (List.mem_cons_of_mem _ hb))
  | cons b l ih =>
    simp only [List.cons_append, effective, ih]

theorem effective_uncond {c : CodeRef} {y : DSelf} (l : List DBreak) (hc : ∀ b ∈ l, b.cond = none) (h : ∃ b ∈ l, b.code = c) :
    ∃ b, effective c y l = some (b, true) := by
  induction l with
  | nil => obtain ⟨b, hb, _⟩ := h; cases hb
  | cons b l ih =>
    rw [effective]
    by_cases hb : b.code = c
    · rw [if_pos hb, hc b List.mem_cons_self]
      exact ⟨b, rfl⟩
    · rw [if_neg hb]
      obtain ⟨b', hb', hcb⟩ := h
      rcases List.mem_cons.1 hb' with rfl | hb'
      · exact absurd hcb hb
      · exact ih (fun b hb => hc b (List.mem_cons_of_mem _ hb)) ⟨b', hb', hcb⟩

/-- C163, without a class: if the state is a plain function in all machines that are visible in the module of the frame, the debugger stops
in the functions of all these machines, for all agents, and in no other function in which it did not stop before; other classes do not
matter. (At any line begins one function at most; there are no breakpoints at these lines.) -/
theorem C163_machines_partial (W : DWorld) (d : Dbg) (f : DFrame) (s : List Char) (hs : IsName s)
    (M : CodeRef → Prop) (hM : ∀ c, M c ↔ ∃ n k x, (n, DVal.cls k) ∈ f.globals ∧ W.fsm k = true ∧ W.attr (.cls k) s = some x ∧ x.code = some c)
    (hall : ∀ n k, (n, DVal.cls k) ∈ f.globals → W.fsm k = true → ∃ x c, W.attr (.cls k) s = some x ∧ x.code = some c ∧ W.lineOk c = true)
    (hline : ∀ c c', M c → M c' → c.file = c'.file → c.line = c'.line → c = c')
    (hb : ∀ c, M c → ∀ b ∈ d.bps, ¬ (b.code.file = c.file ∧ b.code.line = c.line)) :
    let r := d.breakState W f s false
    r.err = none ∧ (∀ c, M c → ∀ u, (r.dbg.enter c (.agent u)).1 = true) ∧ (∀ c y, ¬ M c → (r.dbg.enter c y).1 = (d.enter c y).1) := by
  intro r
  have hr : r = if f.machines W = [] then ⟨d, [.noClasses], none, false⟩ else Dbg.breakIn W s [] false (f.machines W) d :=
    breakState_all W d f s false hs
  have hmach : ∀ v, v ∈ f.machines W ↔ ∃ n k, v = .cls k ∧ (n, DVal.cls k) ∈ f.globals ∧ W.fsm k = true := by
    intro v
    unfold DFrame.machines
    rw [List.mem_filter, List.mem_map]
    constructor
    · rintro ⟨⟨⟨n, w⟩, hx, rfl⟩, hv⟩
      cases w with
      | cls k => exact ⟨n, k, rfl, hx, hv⟩
      | _ => simp at hv
    · rintro ⟨n, k, rfl, hx, hf⟩
      exact ⟨⟨_, hx, rfl⟩, hf⟩
  by_cases hm : f.machines W = []
  · rw [if_pos hm] at hr
    rw [hr]
    refine ⟨rfl, ?_, fun _ _ _ => rfl⟩
    intro c hc
    obtain ⟨n, k, x, h1, h2, _⟩ := (hM c).1 hc
    have := (hmach (.cls k)).2 ⟨n, k, rfl, h1, h2⟩
    rw [hm] at this; cases this
  · rw [if_neg hm] at hr
    obtain ⟨new, i1, i2, i3, i4⟩ := breakIn_all W s (f.machines W) d (by
      intro v hv
      obtain ⟨n, k, rfl, h1, h2⟩ := (hmach v).1 hv
      exact hall n k h1 h2)
    rw [hr]
    have hnew : ∀ b ∈ new, M b.code := by
      intro b hb
      obtain ⟨_, v, hv, x, hx, hxc⟩ := i3 b hb
      obtain ⟨n, k, rfl, h1, h2⟩ := (hmach v).1 hv
      exact (hM _).2 ⟨n, k, x, h1, h2, hx, hxc⟩
    refine ⟨i2, ?_, ?_⟩
    · intro c hc u
      obtain ⟨n, k, x, h1, h2, h3, h4⟩ := (hM c).1 hc
      obtain ⟨b, hb1, hb2, hb3⟩ := i4 (.cls k) ((hmach _).2 ⟨n, k, rfl, h1, h2⟩) x c h3 h4
      have hbn : b ∈ new := by
        rcases List.mem_append.1 hb1 with h | h
        · exact absurd ⟨hb2, hb3⟩ (hb c hc b h)
        · exact h
      have hbc : b.code = c := hline _ _ (hnew b hbn) hc hb2 hb3
      obtain ⟨b', hb'⟩ := effective_uncond (c := c) (y := .agent u) new (fun b hb => (i3 b hb).1) ⟨b, hbn, hbc⟩
      unfold Dbg.enter
      rw [i1, effective_old _ _ (fun b hbm he => hb c hc b hbm ⟨by rw [he], by rw [he]⟩), hb']
    · intro c y hc
      have heq : effective c y (d.bps ++ new) = effective c y d.bps := effective_skip _ _ (fun b hb he => hc (he ▸ hnew b hb))
      unfold Dbg.enter
      rw [i1]
      simp only [heq]
      cases effective c y d.bps <;> rfl

/-! ## C164 -/

theorem breakStep_set (W : DWorld) (steps : Nat → Nat) (d : Dbg) (f : DFrame) (m : Nat) (x : DAttr) (c : CodeRef)
    (hm : Dict.get? (d.gather f) "model" = some (.model m)) (ha : W.attr (.model m) "step".toList = some x) (hx : x.code = some c)
    (hl : W.lineOk c = true) (hb : d.hasBreak c = false) :
    d.breakStep W steps f = ⟨⟨d.gather f, d.bps ++ [⟨c, some (.stepsAbove (steps m)), true⟩]⟩, [.set c], none, true⟩ := by
  have hb' : ({ d with known := d.gather f } : Dbg).hasBreak c = false := hb
  unfold Dbg.breakStep
  simp only [hm]
  have key : Dbg.breakStep.fin W steps { d with known := d.gather f } (.model m) c =
      ⟨⟨d.gather f, d.bps ++ [⟨c, some (.stepsAbove (steps m)), true⟩]⟩, [.set c], none, true⟩ := by
    unfold Dbg.breakStep.fin
    rw [if_neg (by simp [hl]), hb']
    simp
  rw [ha]
  cases x <;> simp_all [DAttr.code]

/-- C164 is false between two steps, for instance where `--debug` stops before the first one (soil/simulation.py:271-272): the next step
is not a stop, since the number of steps is not yet above; the one after it is. -/
theorem C164_between_false (W : DWorld) (steps : Nat → Nat) (d : Dbg) (f : DFrame) (m : Nat) (x : DAttr) (c : CodeRef)
    (hm : Dict.get? (d.gather f) "model" = some (.model m)) (ha : W.attr (.model m) "step".toList = some x) (hx : x.code = some c)
    (hl : W.lineOk c = true) (hb : ∀ b ∈ d.bps, ¬ (b.code.file = c.file ∧ b.code.line = c.line)) :
    (d.breakStep W steps f).cont = true ∧
    (d.breakStep W steps f).dbg.firstStop [(c, .model (steps m)), (c, .model (steps m + 1))] = some 1 := by
  have hb : d.hasBreak c = false := (hasBreak_iff d c).2 hb
  rw [breakStep_set W steps d f m x c hm ha hx hl hb]
  refine ⟨rfl, ?_⟩
  have h : ∀ s, ((⟨d.gather f, d.bps ++ [⟨c, some (.stepsAbove (steps m)), true⟩]⟩ : Dbg).enter c (.model s)).1 = decide (steps m < s) := by
    intro s
    have := enter_one ⟨d.gather f, d.bps⟩ c (some (.stepsAbove (steps m))) true (hasBreak_false hb) (.model s)
    rw [this]
    by_cases h : steps m < s <;> simp [DCond.eval, h]
  simp [Dbg.firstStop, h]

/-- C164, what is true: if the variable `model` is the model that runs, and it is in the middle of a step, the debugger stops at the next
one (and not again): calls of functions without breakpoints, then `step` with a larger number of steps. -/
theorem C164_within_partial (W : DWorld) (steps : Nat → Nat) (d : Dbg) (f : DFrame) (m : Nat) (x : DAttr) (c : CodeRef)
    (hm : Dict.get? (d.gather f) "model" = some (.model m)) (ha : W.attr (.model m) "step".toList = some x) (hx : x.code = some c)
    (hl : W.lineOk c = true) (hb : ∀ b ∈ d.bps, ¬ (b.code.file = c.file ∧ b.code.line = c.line)) (es : List (CodeRef × DSelf)) (hes : ∀ e ∈ es, e.1 ≠ c ∧ (d.enter e.1 e.2).1 = false)
    (n : Nat) (hn : steps m < n) (rest : List (CodeRef × DSelf)) :
    (d.breakStep W steps f).err = none ∧ (d.breakStep W steps f).cont = true ∧
    (d.breakStep W steps f).dbg.firstStop (es ++ (c, .model n) :: rest) = some es.length ∧
    ((d.breakStep W steps f).dbg.enter c (.model n)).2.bps = d.bps := by
  have hb : d.hasBreak c = false := (hasBreak_iff d c).2 hb
  rw [breakStep_set W steps d f m x c hm ha hx hl hb]
  have henter := enter_one ⟨d.gather f, d.bps⟩ c (some (.stepsAbove (steps m))) true (hasBreak_false hb) (.model n)
  simp only [DCond.eval, hn, decide_true, if_true] at henter
  refine ⟨rfl, rfl, ?_, ?_⟩
  · simp only
    induction es with
    | nil => simp [Dbg.firstStop, henter]
    | cons e es ih =>
      have he := hes e (by simp)
      have := enter_other ⟨d.gather f, d.bps⟩ c e.1 (some (.stepsAbove (steps m))) true he.1 e.2
      simp only [List.cons_append, Dbg.firstStop]
      rw [this]
      have h0 : ((⟨d.gather f, d.bps⟩ : Dbg).enter e.1 e.2).1 = (d.enter e.1 e.2).1 := by
        unfold Dbg.enter
        cases effective e.1 e.2 d.bps <;> rfl
      rw [h0, he.2, ih (fun y hy => hes y (by simp [hy]))]
      simp
  · simp only
    rw [henter]

/-- C164 is false inside an agent: its frame has no variable `model`; unless an earlier command has left one, `KeyError` escapes. -/
theorem C164_agent_false (W : DWorld) (steps : Nat → Nat) (d : Dbg) (f : DFrame) (hg : Dict.WF f.globals) (hl : Dict.WF f.locals)
    (h1 : Dict.get? f.globals "model" = none) (h2 : Dict.get? f.locals "model" = none) (h3 : Dict.get? d.known "model" = none) :
    (d.breakStep W steps f).err = some .keyError ∧ (d.breakStep W steps f).cont = false := by
  have : Dict.get? (d.gather f) "model" = none := by
    unfold Dbg.gather
    rw [Dict.get?_update _ _ hl, h2, Dict.get?_update _ _ hg, h1, h3]
    rfl
  unfold Dbg.breakStep
  simp [this]

/-- C164 is false: the variable that an earlier command has left may be another model, of an earlier iteration; then its number of steps
counts, and no step up to it is a stop. -/
theorem C164_stale_false (W : DWorld) (steps : Nat → Nat) (d : Dbg) (f : DFrame) (hg : Dict.WF f.globals) (hl : Dict.WF f.locals)
    (h1 : Dict.get? f.globals "model" = none) (h2 : Dict.get? f.locals "model" = none) (m : Nat)
    (h3 : Dict.get? d.known "model" = some (.model m)) (x : DAttr) (c : CodeRef) (ha : W.attr (.model m) "step".toList = some x)
    (hx : x.code = some c) (hok : W.lineOk c = true) (hb : ∀ b ∈ d.bps, ¬ (b.code.file = c.file ∧ b.code.line = c.line)) (ns : List Nat) (hns : ∀ n ∈ ns, n ≤ steps m) :
    (d.breakStep W steps f).err = none ∧ (d.breakStep W steps f).dbg.firstStop (ns.map (fun n => (c, .model n))) = none := by
  have hb : d.hasBreak c = false := (hasBreak_iff d c).2 hb
  have hm : Dict.get? (d.gather f) "model" = some (.model m) := by
    unfold Dbg.gather
    rw [Dict.get?_update _ _ hl, h2, Dict.get?_update _ _ hg, h1, h3]
    rfl
  rw [breakStep_set W steps d f m x c hm ha hx hok hb]
  refine ⟨rfl, ?_⟩
  simp only
  induction ns with
  | nil => rfl
  | cons n ns ih =>
    have := enter_one ⟨d.gather f, d.bps⟩ c (some (.stepsAbove (steps m))) true (hasBreak_false hb) (.model n)
    have hn : ¬ steps m < n := Nat.not_lt.2 (hns n (by simp))
    simp only [DCond.eval, hn, decide_false] at this
    simp only [List.map_cons, Dbg.firstStop, this, Bool.false_eq_true, if_false]
    rw [ih (fun y hy => hns y (by simp [hy]))]
    rfl

/-! ## C165 -/

theorem wrap_get (W : DWorld) (d : Dbg) (f : DFrame) (x : String) (hx : x ≠ "self") (hm : x ≠ "model") (ha : x ≠ "agent") :
    Dict.get? (d.wrap W f) x = Dict.get? (d.gather f) x := by
  unfold Dbg.wrap
  simp only
  rw [Dict.get?_set_ne _ _ (Ne.symm hx)]
  split
  · rw [Dict.get?_set_ne _ _ (Ne.symm hm)]
  · rw [Dict.get?_set_ne _ _ (Ne.symm hm), Dict.get?_set_ne _ _ (Ne.symm ha)]
  · rfl

theorem gather_self (d : Dbg) (f : DFrame) (hl : Dict.WF f.locals) (v : DVal) (h : Dict.get? f.locals "self" = some v) :
    Dict.get? (d.gather f) "self" = some v := by
  unfold Dbg.gather
  rw [Dict.get?_update _ _ hl, h]
  rfl

/-- C165: in a method of a model or of an agent the commands are about that model and that agent, whatever was done before. -/
theorem C165_current (W : DWorld) (d : Dbg) (f : DFrame) (hl : Dict.WF f.locals) (attrs : List (List Char)) :
    (∀ m, Dict.get? f.locals "self" = some (.model m) → (d.soilAgents W f).msgs = [.agents m] ∧ (d.soilAgents W f).err = none) ∧
    (∀ a, Dict.get? f.locals "self" = some (.agent a) →
      (d.soilAgents W f).msgs = [.agents (W.modelOf a)] ∧ (d.soilAgents W f).err = none ∧
      (d.soilAgent W f attrs).msgs = [.agent a (shownKeys (W.keys a) attrs)] ∧ (d.soilAgent W f attrs).err = none) := by
  constructor
  · intro m h
    have hw : Dict.get? (d.wrap W f) "model" = some (.model m) := by
      unfold Dbg.wrap
      simp only [gather_self d f hl _ h]
      rw [Dict.get?_set_ne _ _ (by decide), Dict.get?_set_self]
    unfold Dbg.soilAgents
    simp [hw]
  · intro a h
    have hw : Dict.get? (d.wrap W f) "model" = some (.model (W.modelOf a)) := by
      unfold Dbg.wrap
      simp only [gather_self d f hl _ h]
      rw [Dict.get?_set_ne _ _ (by decide), Dict.get?_set_self]
    have hw' : Dict.get? (d.wrap W f) "agent" = some (.agent a) := by
      unfold Dbg.wrap
      simp only [gather_self d f hl _ h]
      rw [Dict.get?_set_ne _ _ (by decide), Dict.get?_set_ne _ _ (by decide), Dict.get?_set_self]
    unfold Dbg.soilAgents Dbg.soilAgent
    simp [hw, hw']

/-- C165: in a function without `self`, the variable `model` counts, if there is one: a model, or an agent, whose model is shown. -/
theorem C165_variable (W : DWorld) (d : Dbg) (f : DFrame) (hl : Dict.WF f.locals) (hg : Dict.WF f.globals)
    (hs : Dict.get? f.locals "self" = none ∧ Dict.get? f.globals "self" = none)
    (hd : Dict.get? d.known "self" = none ∨ Dict.get? d.known "self" = some .debugger) :
    (∀ m, Dict.get? f.locals "model" = some (.model m) → (d.soilAgents W f).msgs = [.agents m] ∧ (d.soilAgents W f).err = none) ∧
    (∀ a, Dict.get? f.locals "model" = some (.agent a) →
      (d.soilAgents W f).msgs = [.agents (W.modelOf a)] ∧ (d.soilAgents W f).err = none) := by
  have hself : Dict.get? (d.gather f) "self" = none ∨ Dict.get? (d.gather f) "self" = some .debugger := by
    unfold Dbg.gather
    rw [Dict.get?_update _ _ hl, hs.1, Dict.get?_update _ _ hg, hs.2]
    exact hd
  have hw : ∀ v, Dict.get? f.locals "model" = some v → Dict.get? (d.wrap W f) "model" = some v := by
    intro v hv
    have h1 : Dict.get? (d.gather f) "model" = some v := by
      unfold Dbg.gather
      rw [Dict.get?_update _ _ hl, hv]
      rfl
    unfold Dbg.wrap
    simp only
    rw [Dict.get?_set_ne _ _ (by decide)]
    rcases hself with h | h <;> rw [h] <;> exact h1
  refine ⟨?_, ?_⟩
  · intro m h
    unfold Dbg.soilAgents
    simp [hw _ h]
  · intro a h
    unfold Dbg.soilAgents
    simp [hw _ h]

/-- A frame that has none of the three variables, such as the main program. -/
structure DFrame.Bare (f : DFrame) : Prop where
  wfg : Dict.WF f.globals
  wfl : Dict.WF f.locals
  none : ∀ x, x = "self" ∨ x = "model" ∨ x = "agent" → Dict.get? f.globals x = none ∧ Dict.get? f.locals x = none

theorem Bare.gather {d : Dbg} {f : DFrame} (h : f.Bare) (x : String) (hx : x = "self" ∨ x = "model" ∨ x = "agent") :
    Dict.get? (d.gather f) x = Dict.get? d.known x := by
  unfold Dbg.gather
  rw [Dict.get?_update _ _ h.wfl, (h.none x hx).2, Dict.get?_update _ _ h.wfg, (h.none x hx).1]
  rfl

/-- C165 is false elsewhere: after a command in a method of an agent, in a frame that has nothing to do with it, that agent and its model
are shown as the current ones. -/
theorem C165_stale_false (W : DWorld) (d : Dbg) (f g : DFrame) (hl : Dict.WF f.locals) (a : Nat)
    (h : Dict.get? f.locals "self" = some (.agent a)) (hg : g.Bare) (attrs attrs' : List (List Char)) :
    ((d.soilAgent W f attrs).dbg.soilAgent W g attrs').msgs = [.agent a (shownKeys (W.keys a) attrs')] ∧
    ((d.soilAgent W f attrs).dbg.soilAgents W g).msgs = [.agents (W.modelOf a)] := by
  have hk : (d.soilAgent W f attrs).dbg.known = d.wrap W f := by
    unfold Dbg.soilAgent
    simp only
    split <;> try rfl
    split <;> rfl
  have hw : Dict.get? (d.wrap W f) "model" = some (.model (W.modelOf a)) := by
    unfold Dbg.wrap
    simp only [gather_self d f hl _ h]
    rw [Dict.get?_set_ne _ _ (by decide), Dict.get?_set_self]
  have hw' : Dict.get? (d.wrap W f) "agent" = some (.agent a) := by
    unfold Dbg.wrap
    simp only [gather_self d f hl _ h]
    rw [Dict.get?_set_ne _ _ (by decide), Dict.get?_set_ne _ _ (by decide), Dict.get?_set_self]
  have hs : Dict.get? (d.wrap W f) "self" = some .debugger := by
    unfold Dbg.wrap
    exact Dict.get?_set_self _ _ _
  generalize (d.soilAgent W f attrs).dbg = e at hk
  have g1 : ∀ x, (x = "self" ∨ x = "model" ∨ x = "agent") → Dict.get? (e.gather g) x = Dict.get? (d.wrap W f) x := by
    intro x hx
    rw [Bare.gather hg x hx, hk]
  have h1 : ∀ x, (x = "model" ∨ x = "agent") → Dict.get? (e.wrap W g) x = Dict.get? (d.wrap W f) x := by
    intro x hx
    have : x ≠ "self" := by rcases hx with rfl | rfl <;> decide
    unfold Dbg.wrap
    simp only [g1 "self" (Or.inl rfl), hs]
    rw [Dict.get?_set_ne _ _ (Ne.symm this), g1 x (Or.inr hx)]
    rfl
  unfold Dbg.soilAgent Dbg.soilAgents
  simp [h1, hw, hw']

/-- C165 is false: without any agent before, `NameError` escapes; "No agent available" is not said. -/
theorem C165_none_false (W : DWorld) (d : Dbg) (g : DFrame) (hg : g.Bare) (h1 : Dict.get? d.known "agent" = none)
    (h2 : Dict.get? d.known "model" = none) (h3 : Dict.get? d.known "self" = none ∨ Dict.get? d.known "self" = some .debugger)
    (attrs : List (List Char)) :
    (d.soilAgent W g attrs).err = some .nameError ∧ (d.soilAgent W g attrs).msgs = [] ∧ (d.soilAgents W g).err = some .nameError := by
  have h4 : ∀ x, (x = "model" ∨ x = "agent") → Dict.get? (d.wrap W g) x = none := by
    intro x hx
    have hne : x ≠ "self" := by rcases hx with rfl | rfl <;> decide
    have hx' : Dict.get? (d.gather g) x = none := by
      rw [Bare.gather hg x (Or.inr hx)]
      rcases hx with rfl | rfl
      · exact h2
      · exact h1
    unfold Dbg.wrap
    simp only [Bare.gather hg "self" (Or.inl rfl)]
    rw [Dict.get?_set_ne _ _ (Ne.symm hne)]
    rcases h3 with h | h <;> rw [h] <;> exact hx'
  unfold Dbg.soilAgent Dbg.soilAgents
  simp [h4]

theorem dedupFold (l acc : List (List Char)) (hacc : acc.Nodup) :
    (l.foldl (fun acc k => if k ∈ acc then acc else acc ++ [k]) acc).Nodup ∧
    ∀ x, x ∈ l.foldl (fun acc k => if k ∈ acc then acc else acc ++ [k]) acc ↔ x ∈ acc ∨ x ∈ l := by
  induction l generalizing acc with
  | nil => simp [hacc]
  | cons k l ih =>
    simp only [List.foldl_cons]
    by_cases h : k ∈ acc
    · rw [if_pos h]
      refine ⟨(ih acc hacc).1, fun x => ?_⟩
      rw [(ih acc hacc).2, List.mem_cons]
      constructor
      · rintro (h1 | h1)
        · exact Or.inl h1
        · exact Or.inr (Or.inr h1)
      · rintro (h1 | rfl | h1)
        · exact Or.inl h1
        · exact Or.inl h
        · exact Or.inr h1
    · rw [if_neg h]
      have hn : (acc ++ [k]).Nodup := by
        rw [List.nodup_append]
        refine ⟨hacc, by simp, ?_⟩
        intro a ha b hb
        rw [List.mem_singleton] at hb
        rintro rfl
        exact h (hb ▸ ha)
      refine ⟨(ih _ hn).1, fun x => ?_⟩
      rw [(ih _ hn).2, List.mem_append, List.mem_singleton, List.mem_cons]
      exact or_assoc

/-- C165: the attributes that are shown are the public ones, or those of them that begin with one of the arguments, each once. -/
theorem C165_keys (keys attrs : List (List Char)) (hk : keys.Nodup) :
    (shownKeys keys attrs).Nodup ∧ ∀ x, x ∈ shownKeys keys attrs ↔ x ∈ keys ∧ (attrs = [] ∨ ∃ k ∈ attrs, k <+: x) := by
  unfold shownKeys
  by_cases h : attrs = []
  · simp [h, hk]
  · rw [if_neg h]
    refine ⟨(dedupFold _ [] List.nodup_nil).1, fun x => ?_⟩
    rw [(dedupFold _ [] List.nodup_nil).2]
    simp only [List.not_mem_nil, false_or, List.mem_flatMap, List.mem_filter, List.isPrefixOf_iff_prefix, h]
    constructor
    · rintro ⟨k, h1, h2, h3⟩
      exact ⟨h2, k, h1, h3⟩
    · rintro ⟨h2, k, h1, h3⟩
      exact ⟨k, h1, h2, h3⟩

/-! ## C166 -/

theorem breakStateSelf_arg (W : DWorld) (d : Dbg) (f : DFrame) (s : List Char) (a : Nat) (ha : Dict.get? f.locals "self" = some (.agent a)) :
    d.breakStateSelf W f s = d.breakState W f (stateArg (W.className a) s [W.uid a]) false := by
  unfold Dbg.breakStateSelf stateArg
  rw [ha]
  simp [Nat.toList_repr]

/-- C166, what is true: in a method of an agent whose class is visible under its name, for a plain function, the debugger stops when this
agent calls it, and when no other agent does. -/
theorem C166_self_partial (W : DWorld) (d : Dbg) (f : DFrame) (s : List Char) (a : Nat) (ha : Dict.get? f.locals "self" = some (.agent a))
    (hk : IsName (W.className a)) (hs : ∀ c ∈ s, c.isWhitespace = false) (v : DVal) (hv : (Dict.get? f.locals (String.ofList (W.className a))).or (Dict.get? f.globals (String.ofList (W.className a))) = some v)
    (ht : v.truthy = true) (x : DAttr) (c : CodeRef) (hat : W.attr v s = some x) (hx : x.code = some c) (hl : W.lineOk c = true)
    (hb : ∀ b ∈ d.bps, ¬ (b.code.file = c.file ∧ b.code.line = c.line)) :
    (d.breakStateSelf W f s).err = none ∧
    ∀ u, ((d.breakStateSelf W f s).dbg.enter c (.agent u)).1 = decide (u = W.uid a) := by
  rw [breakStateSelf_arg W d f s a ha]
  have h := C163_plain_partial W d f (W.className a) s [W.uid a] hk hs v hv ht x c hat hx hl hb
  refine ⟨h.1, fun u => ?_⟩
  rw [h.2.2.1 u]
  simp

/-- C166 is false: a class that the frame does not know by its name (for instance in a method inherited from another module) is a
`NameError`; a declared state is an `AttributeError`. -/
theorem C166_hidden_false (W : DWorld) (d : Dbg) (f : DFrame) (s : List Char) (a : Nat) (ha : Dict.get? f.locals "self" = some (.agent a))
    (hk : IsName (W.className a)) (hs : ∀ c ∈ s, c.isWhitespace = false) :
    (Dict.get? f.locals (String.ofList (W.className a)) = none → Dict.get? f.globals (String.ofList (W.className a)) = none →
      (d.breakStateSelf W f s).err = some .nameError) ∧
    (∀ v c, (Dict.get? f.locals (String.ofList (W.className a))).or (Dict.get? f.globals (String.ofList (W.className a))) = some v → v.truthy = true → W.attr v s = some (.state c) →
      (d.breakStateSelf W f s).err = some .attributeError) := by
  constructor
  · intro hv1 hv2
    have hv : f.lookup (W.className a) = none := by rw [lookup_or, hv1, hv2]; rfl
    rw [breakStateSelf_arg W d f s a ha]
    unfold Dbg.breakState stateArg
    rw [splitWords_join (W.className a ++ ':' :: s) _ ⟨by simp, ?_⟩ ?_]
    · simp only [evalTokens_digits, splitColon_name _ s hk, hv]
    · intro c hc
      rcases List.mem_append.1 hc with h | h
      · exact hk.1.2 c h
      · rcases List.mem_cons.1 h with rfl | h
        · decide
        · exact hs c h
    · intro x hx
      obtain ⟨n, _, rfl⟩ := List.mem_map.1 hx
      exact digits_word n
  · intro v c hv ht hat
    rw [breakStateSelf_arg W d f s a ha]
    exact (C163_declared_false W d f _ s _ false hk hs v hv ht c hat).1

/-! ## Examples -/

/-- Class 0 has the plain function `init` and the state `sick`; the model has `step`. -/
def exDWorld : DWorld where
  attr v s := match v with
    | .cls 0 => if s = "init".toList then some (.fn ⟨1, 10, 0⟩) else if s = "sick".toList then some (.state ⟨1, 20, 1⟩) else none
    | .model _ => if s = "step".toList then some (.method ⟨2, 189, 2⟩) else none
    | _ => none
  fsm k := k = 0
  modelOf _ := 7
  uid a := a
  className _ := "Zombie".toList
  keys _ := ["unique_id".toList, "name".toList, "alive".toList, "age".toList]
  lineOk _ := true

/-- A method of agent 3. -/
def exDFrame : DFrame := ⟨[("Zombie", .cls 0), ("x", .other 5 true)], [("self", .agent 3)]⟩

set_option maxRecDepth 100000 in
example : ((Dbg.mk [] []).breakState exDWorld exDFrame "Zombie:sick 3".toList false).err = some .attributeError := by decide +kernel

set_option maxRecDepth 100000 in
example :
    let d := ((Dbg.mk [] []).breakState exDWorld exDFrame " Zombie:init  3 14".toList false).dbg
    ((d.enter ⟨1, 10, 0⟩ (.agent 14)).1, (d.enter ⟨1, 10, 0⟩ (.agent 4)).1, d.bps) =
      (true, false, [⟨⟨1, 10, 0⟩, some (.ids [3, 14]), false⟩]) := by decide +kernel

set_option maxRecDepth 100000 in
/-- Without a class. -/
example : ((Dbg.mk [] []).breakState exDWorld exDFrame "init".toList false).dbg.bps = [⟨⟨1, 10, 0⟩, none, false⟩] := by decide +kernel

set_option maxRecDepth 100000 in
example : ((Dbg.mk [] []).breakStateSelf exDWorld exDFrame "init".toList).dbg.bps = [⟨⟨1, 10, 0⟩, some (.ids [3]), false⟩] := by
  decide +kernel

/-- Inside agent 3, `break_step` raises; after `soil_agents` it works. -/
example : (((Dbg.mk [] []).breakStep exDWorld (fun _ => 4) exDFrame).err,
    (((Dbg.mk [] []).soilAgents exDWorld exDFrame).dbg.breakStep exDWorld (fun _ => 4) exDFrame).msgs) =
    (some .keyError, [.set ⟨2, 189, 2⟩]) := by decide +kernel

set_option maxRecDepth 100000 in
example : ((Dbg.mk [] []).soilAgent exDWorld exDFrame ["a".toList, "ag".toList, "n".toList]).msgs =
    [.agent 3 ["alive".toList, "age".toList, "name".toList]] := by decide +kernel

end Verif
