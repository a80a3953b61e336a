import Verif.Model.Literal

/-!
# Reading what `repr` has written
-/

namespace Verif

private theorem hexVal_hexChar : ∀ n, n < 16 → hexVal (hexChar n) = some n := by decide +kernel

private theorem hexText_fold (k n : Nat) (h : n < 16 ^ k) :
    ∃ ds, (hexText k n).mapM hexVal = some ds ∧ ds.foldl (fun a d => 16 * a + d) 0 = n := by
  induction k generalizing n with
  | zero => exact ⟨[], rfl, by simp only [Nat.pow_zero] at h; simp only [List.foldl_nil]; omega⟩
  | succ k ih =>
    obtain ⟨ds, h1, h2⟩ := ih (n / 16) (by rw [Nat.pow_succ] at h; omega)
    refine ⟨ds ++ [n % 16], ?_, ?_⟩
    · simp [hexText, List.mapM_append, h1, hexVal_hexChar (n % 16) (Nat.mod_lt _ (by decide))]
    · rw [List.foldl_append, h2]
      simp only [List.foldl_cons, List.foldl_nil]
      omega

private theorem hexRead_hexText (k : Nat) (c : Char) (h : c.toNat < 16 ^ k) : hexRead (hexText k c.toNat) = some c := by
  obtain ⟨ds, h1, h2⟩ := hexText_fold k c.toNat h
  have hv : c.toNat.isValidChar := c.valid
  simp only [hexRead, h1, h2, if_pos hv]
  rw [Char.ofNat_toNat]

private theorem readStr_plain (q c : Char) (r : Str) (hc : c ≠ '\\') (hq : c ≠ q) :
    readStr q (c :: r) = (readStr q r).map (fun x => (c :: x.1, x.2)) := by
  rw [readStr]
  · rw [if_neg hq]
  all_goals
    intros
    simp_all

private theorem readStr_end (q : Char) (r : Str) (hc : q ≠ '\\') : readStr q (q :: r) = some ([], r) := by
  rw [readStr]
  · rw [if_pos rfl]
  all_goals
    intros
    simp_all

private theorem readStr_quoted (q c : Char) (r : Str) (hc : c = '\\' ∨ c = '\'' ∨ c = '"') :
    readStr q ('\\' :: c :: r) = (readStr q r).map (fun x => (c :: x.1, x.2)) := by
  rw [readStr]
  · rw [if_pos hc]
  all_goals
    intros
    rcases hc with rfl | rfl | rfl <;> simp_all

/-- One character. -/
private theorem readStr_esc (p : Char → Bool) (q c : Char) (hq : q = '\'' ∨ q = '"') (r s t : Str) (h : readStr q r = some (s, t)) :
    readStr q (escChar p q c ++ r) = some (c :: s, t) := by
  unfold escChar
  split
  · rename_i hc
    have : c = '\\' ∨ c = '\'' ∨ c = '"' := by
      rcases hc with rfl | rfl
      · exact Or.inr hq
      · exact Or.inl rfl
    show readStr q ('\\' :: c :: r) = _
    rw [readStr_quoted q c r this, h]
    rfl
  · rename_i hc
    split
    · rename_i h1
      subst h1
      show readStr q ('\\' :: 't' :: r) = _
      rw [readStr, h]; rfl
    · split
      · rename_i h1
        subst h1
        show readStr q ('\\' :: 'n' :: r) = _
        rw [readStr, h]; rfl
      · split
        · rename_i h1
          subst h1
          show readStr q ('\\' :: 'r' :: r) = _
          rw [readStr, h]; rfl
        · split
          · show readStr q (c :: r) = _
            rw [readStr_plain q c r (fun e => hc (Or.inr e)) (fun e => hc (Or.inl e)), h]
            rfl
          · split
            · rename_i h2
              have := hexRead_hexText 2 c h2
              simp only [hexText, List.nil_append, List.cons_append] at this ⊢
              rw [readStr, this, h]
            · split
              · rename_i h2
                have := hexRead_hexText 4 c h2
                simp only [hexText, List.nil_append, List.cons_append] at this ⊢
                rw [readStr, this, h]
              · have := hexRead_hexText 8 c (by
                  have hv : c.toNat.isValidChar := c.valid
                  rcases hv with hv | hv <;> omega)
                simp only [hexText, List.nil_append, List.cons_append] at this ⊢
                rw [readStr, this, h]

private theorem readStr_body (p : Char → Bool) (q : Char) (hq : q = '\'' ∨ q = '"') (s r : Str) :
    readStr q (s.flatMap (escChar p q) ++ q :: r) = some (s, r) := by
  induction s with
  | nil =>
    refine readStr_end q r ?_
    rcases hq with rfl | rfl <;> decide
  | cons c s ih =>
    rw [List.flatMap_cons, List.append_assoc]
    exact readStr_esc p q c hq _ s r ih

private theorem quoteFor_cases (s : Str) : quoteFor s = '\'' ∨ quoteFor s = '"' := by
  unfold quoteFor
  split
  · exact Or.inr rfl
  · exact Or.inl rfl

private theorem takeWhile_digits (l r : Str) (hl : ∀ c ∈ l, c.isDigit = true) (hr : ∀ c, r.head? = some c → c.isDigit = false) :
    (l ++ r).takeWhile Char.isDigit = l ∧ (l ++ r).dropWhile Char.isDigit = r := by
  induction l with
  | nil =>
    cases r with
    | nil => exact ⟨rfl, rfl⟩
    | cons c r => simp [List.takeWhile, List.dropWhile, hr c rfl]
  | cons c l ih =>
    obtain ⟨h1, h2⟩ := ih (fun x hx => hl x (List.mem_cons_of_mem _ hx))
    have hc := hl c List.mem_cons_self
    simp [hc, h1, h2]

/-- The text goes on with something that is not a digit. -/
def NoDigit (r : Str) : Prop := ∀ c, r.head? = some c → c.isDigit = false

private theorem readNat_digits (n : Nat) (r : Str) (hr : NoDigit r) : readNat (Nat.toDigits 10 n ++ r) = some (n, r) := by
  obtain ⟨h1, h2⟩ := takeWhile_digits (Nat.toDigits 10 n) r (fun c hc => Nat.isDigit_of_mem_toDigits (by decide) (by decide) hc) hr
  unfold readNat
  rw [h1, h2, if_neg (by simp [Nat.toDigits_ne_nil]), Nat.ofDigitChars_ten_toDigits]

/-- No infinity in a value. -/
inductive Finite : PyLit → Prop where
  | none : Finite .none
  | bool (b) : Finite (.bool b)
  | int (i) : Finite (.int i)
  | str (s) : Finite (.str s)
  | list {l} : (∀ v ∈ l, Finite v) → Finite (.list l)
  | tuple {l} : (∀ v ∈ l, Finite v) → Finite (.tuple l)
  | dict {l} : (∀ kv ∈ l, Finite kv.1) → (∀ kv ∈ l, Finite kv.2) → Finite (.dict l)

mutual
/-- Depth of the recursion that reads a value. -/
def litSize : PyLit → Nat
  | .list l => 1 + seqSize l
  | .tuple l => 1 + seqSize l
  | .dict l => 1 + pairsSize l
  | .none => 1
  | .bool _ => 1
  | .int _ => 1
  | .inf => 1
  | .str _ => 1
def seqSize : List PyLit → Nat
  | [] => 0
  | v :: l => 1 + litSize v + seqSize l
def pairsSize : List (PyLit × PyLit) → Nat
  | [] => 0
  | kv :: l => 1 + pairSize kv + pairsSize l
def pairSize : PyLit × PyLit → Nat
  | (k, v) => litSize k + litSize v
end

/-- The first character is none of the closing brackets. -/
private def Opens (s : Str) : Prop := ∃ c r, s = c :: r ∧ c ≠ ']' ∧ c ≠ ')' ∧ c ≠ '}'

private theorem Opens.append {s : Str} (h : Opens s) (t : Str) : Opens (s ++ t) := by
  obtain ⟨c, r, rfl, hc⟩ := h
  exact ⟨c, r ++ t, rfl, hc⟩

private theorem digits_cons (n : Nat) : ∃ c r, Nat.toDigits 10 n = c :: r ∧ c.isDigit = true := by
  cases h : Nat.toDigits 10 n with
  | nil => exact absurd h Nat.toDigits_ne_nil
  | cons c r => exact ⟨c, r, rfl, Nat.isDigit_of_mem_toDigits (b := 10) (n := n) (by decide) (by decide) (by rw [h]; exact List.mem_cons_self)⟩

private theorem isDigit_ne {c d : Char} (hc : c.isDigit = true) (hd : d.isDigit = false) : c ≠ d := by
  rintro rfl
  rw [hc] at hd
  cases hd

private theorem opens_lit (p : Char → Bool) (v : PyLit) : Opens (reprLit p v) := by
  cases v with
  | none => exact ⟨'N', _, rfl, by decide⟩
  | bool b => cases b <;> exact ⟨_, _, rfl, by decide⟩
  | int i =>
    cases i with
    | ofNat n =>
      obtain ⟨c, r, h, hd⟩ := digits_cons n
      exact ⟨c, r, h, isDigit_ne hd (by decide), isDigit_ne hd (by decide), isDigit_ne hd (by decide)⟩
    | negSucc n => exact ⟨'-', _, rfl, by decide⟩
  | inf => exact ⟨'i', _, rfl, by decide⟩
  | str s =>
    refine ⟨quoteFor s, _, rfl, ?_⟩
    rcases quoteFor_cases s with h | h <;> rw [h] <;> decide
  | list l => exact ⟨'[', _, by rw [reprLit]; rfl, by decide⟩
  | tuple l => exact ⟨'(', _, by rw [reprLit]; rfl, by decide⟩
  | dict l => exact ⟨'{', _, by rw [reprLit]; rfl, by decide⟩

private theorem readLit_digit (n : Nat) (c : Char) (r : Str) (hc : c.isDigit = true) :
    readLit (n + 1) (c :: r) = (readNat (c :: r)).map (fun x => (.int x.1, x.2)) := by
  rw [readLit]
  all_goals
    intros
    simp_all
  all_goals
    simp_all [Char.isDigit]

/-- The text does not go on with another item. -/
private def NoMore (r : Str) : Prop := NoDigit r ∧ ∀ t, r ≠ ',' :: ' ' :: t

private theorem noMore_close (c : Char) (hc : c.isDigit = false) (hn : c ≠ ',') (r : Str) : NoMore (c :: r) := by
  refine ⟨?_, ?_⟩
  · intro d hd
    cases hd
    exact hc
  · intro t h
    cases h
    exact hn rfl

private theorem noDigit_more (p : Char → Bool) (l : List PyLit) (r : Str) (hr : NoMore r) : NoDigit (reprMore p l ++ r) := by
  cases l with
  | nil => exact hr.1
  | cons v l =>
    intro c hc
    cases hc
    decide

private theorem noDigit_morePairs (p : Char → Bool) (l : List (PyLit × PyLit)) (r : Str) (hr : NoMore r) :
    NoDigit (reprMorePairs p l ++ r) := by
  cases l with
  | nil => exact hr.1
  | cons v l =>
    intro c hc
    cases hc
    decide

private theorem readSeq_one (n : Nat) (s : Str) (v : PyLit) (r : Str) (h : readLit n s = some (v, r)) (hr : ∀ t, r ≠ ',' :: ' ' :: t) :
    readSeq (n + 1) s = some ([v], r) := by
  rw [readSeq, h]
  split
  · rename_i heq
    cases heq
    exact absurd rfl (hr _)
  · rename_i heq
    cases heq
    rfl
  · rename_i heq
    cases heq

private theorem readPairs_one (n : Nat) (s t : Str) (k v : PyLit) (r : Str) (h : readLit n s = some (k, ':' :: ' ' :: t))
    (h' : readLit n t = some (v, r)) (hr : ∀ t, r ≠ ',' :: ' ' :: t) : readPairs (n + 1) s = some ([(k, v)], r) := by
  rw [readPairs, h]
  simp only
  rw [h']
  split
  · rename_i heq
    cases heq
    exact absurd rfl (hr _)
  · rename_i heq
    cases heq
    rfl
  · rename_i heq
    cases heq

private theorem readLit_list (n : Nat) (s : Str) (hs : Opens s) (l : List PyLit) (r : Str) (h : readSeq n s = some (l, ']' :: r)) :
    readLit (n + 1) ('[' :: s) = some (.list l, r) := by
  obtain ⟨c, t, rfl, hc, _, _⟩ := hs
  rw [readLit]
  · rw [h]
    rfl
  all_goals
    intros
    simp_all

private theorem readLit_tuple (n : Nat) (s : Str) (hs : Opens s) (l : List PyLit) (r : Str)
    (h : (l.length = 1 ∧ readSeq n s = some (l, ',' :: ')' :: r)) ∨ (l.length ≠ 1 ∧ readSeq n s = some (l, ')' :: r))) :
    readLit (n + 1) ('(' :: s) = some (.tuple l, r) := by
  obtain ⟨c, t, rfl, _, hc, _⟩ := hs
  rw [readLit]
  · rcases h with ⟨_, h⟩ | ⟨hl, h⟩
    · rw [h]
      rfl
    · rw [h]
      split
      · rename_i heq
        cases heq
      · rename_i heq
        cases heq
        exact absurd rfl hl
      · rename_i heq
        cases heq
        rfl
      · rename_i h1
        exact absurd rfl (h1 l r)
  all_goals
    intros
    simp_all

private theorem readLit_dict (n : Nat) (s : Str) (hs : Opens s) (l : List (PyLit × PyLit)) (r : Str)
    (h : readPairs n s = some (l, '}' :: r)) : readLit (n + 1) ('{' :: s) = some (.dict l, r) := by
  obtain ⟨c, t, rfl, _, _, hc⟩ := hs
  rw [readLit]
  · rw [h]
    rfl
  all_goals
    intros
    simp_all

private theorem litSize_pos (v : PyLit) : 1 ≤ litSize v := by
  cases v <;> simp [litSize]

/-- Reading what has been written gives the value. -/
theorem read_repr (p : Char → Bool) (n : Nat) :
    (∀ v, Finite v → litSize v ≤ n → ∀ r, NoDigit r → readLit n (reprLit p v ++ r) = some (v, r)) ∧
    (∀ l, l ≠ [] → (∀ v ∈ l, Finite v) → seqSize l ≤ n → ∀ r, NoMore r → readSeq n (reprSeq p l ++ r) = some (l, r)) ∧
    (∀ l, l ≠ [] → (∀ kv ∈ l, Finite kv.1) → (∀ kv ∈ l, Finite kv.2) → pairsSize l ≤ n → ∀ r, NoMore r →
      readPairs n (reprPairs p l ++ r) = some (l, r)) := by
  induction n with
  | zero =>
    refine ⟨?_, ?_, ?_⟩
    · intro v _ h
      have := litSize_pos v
      omega
    · intro l hl _ h
      cases l with
      | nil => exact absurd rfl hl
      | cons v l => simp only [seqSize] at h; omega
    · intro l hl _ _ h
      cases l with
      | nil => exact absurd rfl hl
      | cons v l => simp only [pairsSize] at h; omega
  | succ n ih =>
    obtain ⟨ih1, ih2, ih3⟩ := ih
    refine ⟨?_, ?_, ?_⟩
    · intro v hv hn r hr
      cases hv with
      | none => rfl
      | bool b => cases b <;> rfl
      | int i =>
        cases i with
        | ofNat k =>
          obtain ⟨c, t, h, hd⟩ := digits_cons k
          have h2 := readNat_digits k r hr
          rw [reprLit, reprInt, h, List.cons_append, readLit_digit n c _ hd, ← List.cons_append, ← h, h2]
          rfl
        | negSucc k =>
          rw [reprLit, reprInt, List.cons_append, readLit, readNat_digits (k + 1) r hr]
          rfl
      | str s =>
        have h := readStr_body p (quoteFor s) (quoteFor_cases s) s r
        rw [reprLit, reprStr]
        rcases quoteFor_cases s with hq | hq
        · rw [hq] at h ⊢
          simp only [List.cons_append, List.append_assoc, List.nil_append]
          rw [readLit, h]; rfl
        · rw [hq] at h ⊢
          simp only [List.cons_append, List.append_assoc, List.nil_append]
          rw [readLit, h]; rfl
      | @list l hl =>
        rw [reprLit]
        cases l with
        | nil => rfl
        | cons v l =>
          simp only [litSize] at hn
          have h := ih2 (v :: l) (by simp) hl (by omega) (']' :: r) (noMore_close _ (by decide) (by decide) r)
          simp only [List.cons_append, List.append_assoc, List.nil_append]
          refine readLit_list n _ ?_ _ _ h
          rw [reprSeq, List.append_assoc]
          exact (opens_lit p v).append _
      | @tuple l hl =>
        rw [reprLit]
        cases l with
        | nil => rfl
        | cons v l =>
          simp only [litSize] at hn
          simp only [List.cons_append, List.append_assoc]
          refine readLit_tuple n _ ?_ _ _ ?_
          · rw [reprSeq, List.append_assoc]
            exact (opens_lit p v).append _
          · by_cases h1 : (v :: l).length = 1
            · refine Or.inl ⟨h1, ?_⟩
              rw [if_pos h1]
              refine ih2 (v :: l) (by simp) hl (by omega) (',' :: ')' :: r) ⟨?_, ?_⟩
              · intro c hc
                cases hc
                decide
              · intro t ht
                simp at ht
            · refine Or.inr ⟨h1, ?_⟩
              rw [if_neg h1]
              exact ih2 (v :: l) (by simp) hl (by omega) (')' :: r) (noMore_close _ (by decide) (by decide) r)
      | @dict l hk hv =>
        rw [reprLit]
        cases l with
        | nil => rfl
        | cons kv l =>
          simp only [litSize] at hn
          have h := ih3 (kv :: l) (by simp) hk hv (by omega) ('}' :: r) (noMore_close _ (by decide) (by decide) r)
          simp only [List.cons_append, List.append_assoc, List.nil_append]
          refine readLit_dict n _ ?_ _ _ h
          obtain ⟨k, v⟩ := kv
          rw [reprPairs, reprPair, List.append_assoc, List.append_assoc]
          exact (opens_lit p k).append _
    · intro l hl hf hn r hr
      cases l with
      | nil => exact absurd rfl hl
      | cons v l =>
        simp only [seqSize] at hn
        have hlit := ih1 v (hf v List.mem_cons_self) (by omega) (reprMore p l ++ r) (noDigit_more p l r hr)
        rw [reprSeq, List.append_assoc]
        cases l with
        | nil => exact readSeq_one n _ v r hlit hr.2
        | cons v' l =>
          have h := ih2 (v' :: l) (by simp) (fun x hx => hf x (List.mem_cons_of_mem _ hx)) (by omega) r hr
          rw [readSeq, hlit]
          simp only [reprMore, List.cons_append]
          rw [reprSeq] at h
          rw [h]
          rfl
    · intro l hl hk hv hn r hr
      cases l with
      | nil => exact absurd rfl hl
      | cons kv l =>
        obtain ⟨k, v⟩ := kv
        simp only [pairsSize, pairSize] at hn
        have h1 := ih1 k (hk (k, v) List.mem_cons_self) (by omega) (':' :: ' ' :: (reprLit p v ++ (reprMorePairs p l ++ r)))
          (by intro c hc; cases hc; decide)
        have h2 := ih1 v (hv (k, v) List.mem_cons_self) (by omega) (reprMorePairs p l ++ r) (noDigit_morePairs p l r hr)
        rw [reprPairs, reprPair]
        simp only [List.append_assoc, List.cons_append]
        cases l with
        | nil => exact readPairs_one n _ _ k v r h1 h2 hr.2
        | cons kv' l =>
          have h := ih3 (kv' :: l) (by simp) (fun x hx => hk x (List.mem_cons_of_mem _ hx)) (fun x hx => hv x (List.mem_cons_of_mem _ hx))
            (by omega) r hr
          rw [readPairs, h1]
          simp only
          rw [h2]
          simp only [reprMorePairs, List.cons_append]
          rw [reprPairs] at h
          rw [h]
          rfl

mutual
theorem litSize_le (p : Char → Bool) : ∀ v, litSize v ≤ (reprLit p v).length
  | .none => by simp [litSize, reprLit]
  | .bool true => by simp [litSize, reprLit]
  | .bool false => by simp [litSize, reprLit]
  | .int i => by
    obtain ⟨c, r, h, _⟩ := opens_lit p (.int i)
    rw [h]; simp [litSize]
  | .inf => by simp [litSize, reprLit]
  | .str s => by
    obtain ⟨c, r, h, _⟩ := opens_lit p (.str s)
    rw [h]; simp [litSize]
  | .list l => by
    have := seqSize_le p l
    simp only [litSize, reprLit, List.length_cons, List.length_append, List.cons_append, List.length_nil]
    omega
  | .tuple l => by
    have := seqSize_le p l
    simp only [litSize, reprLit, List.length_cons, List.length_append, List.cons_append]
    split <;> simp only [List.length_cons, List.length_nil] <;> omega
  | .dict l => by
    have := pairsSize_le p l
    simp only [litSize, reprLit, List.length_cons, List.length_append, List.cons_append, List.length_nil]
    omega
theorem seqSize_le (p : Char → Bool) : ∀ l, seqSize l ≤ (reprSeq p l).length + 1
  | [] => by simp [seqSize]
  | v :: l => by
    have h1 := litSize_le p v
    have h2 := moreSize_le p l
    simp only [seqSize, reprSeq, List.length_append]
    omega
theorem moreSize_le (p : Char → Bool) : ∀ l, seqSize l ≤ (reprMore p l).length
  | [] => by simp [seqSize]
  | v :: l => by
    have h1 := litSize_le p v
    have h2 := moreSize_le p l
    simp only [seqSize, reprMore, List.length_append, List.length_cons]
    omega
theorem pairsSize_le (p : Char → Bool) : ∀ l, pairsSize l ≤ (reprPairs p l).length + 1
  | [] => by simp [pairsSize]
  | kv :: l => by
    have h1 := pairSize_le p kv
    have h2 := morePairsSize_le p l
    simp only [pairsSize, reprPairs, List.length_append]
    omega
theorem morePairsSize_le (p : Char → Bool) : ∀ l, pairsSize l ≤ (reprMorePairs p l).length
  | [] => by simp [pairsSize]
  | kv :: l => by
    have h1 := pairSize_le p kv
    have h2 := morePairsSize_le p l
    simp only [pairsSize, reprMorePairs, List.length_append, List.length_cons]
    omega
theorem pairSize_le (p : Char → Bool) : ∀ kv, pairSize kv ≤ (reprPair p kv).length
  | (k, v) => by
    have h1 := litSize_le p k
    have h2 := litSize_le p v
    simp only [pairSize, reprPair, List.length_append, List.length_cons]
    omega
end

/-- `literal_eval(repr(v))` is `v`. -/
theorem literalEval_repr (p : Char → Bool) (v : PyLit) (hv : Finite v) : literalEval (reprLit p v) = some v := by
  have h := (read_repr p ((reprLit p v).length + 1)).1 v hv (by have := litSize_le p v; omega) [] (by intro c hc; cases hc)
  rw [List.append_nil] at h
  simp only [literalEval, h]

end Verif
