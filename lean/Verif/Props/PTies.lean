import Verif.Model.PTies
import Verif.Proofs.PQueue
import Mathlib.Tactic.NormNum

/-!
# Entries that cannot be compared (C204)
-/

namespace Verif

section Heap
variable {α : Type} {lt : α → α → Bool} {ltE : α → α → Option Bool} {P : α → Prop}

private theorem get_of {heap : List α} (h : ∀ x ∈ heap, P x) {i : Nat} {x : α} (hx : heap[i]? = some x) : P x :=
  h x (List.mem_of_getElem? hx)

private theorem set_of {heap : List α} (h : ∀ x ∈ heap, P x) (i : Nat) {y : α} (hy : P y) : ∀ x ∈ heap.set i y, P x := by
  intro x hx
  rcases List.mem_or_eq_of_mem_set hx with h1 | h1
  · exact h x h1
  · exact h1 ▸ hy

private theorem siftdownE_eq (hlt : ∀ a b, P a → P b → ltE a b = some (lt a b)) (item : α) (hi : P item) (start : Nat) :
    ∀ (pos : Nat) (heap : List α), (∀ x ∈ heap, P x) → siftdownE ltE item heap start pos = (siftdown lt item heap start pos, false) := by
  intro pos
  induction pos using Nat.strongRecOn with
  | ind pos ih =>
    intro heap hh
    rw [siftdownE, siftdown]
    split
    · next hlt' =>
      cases hp : heap[(pos - 1) / 2]? with
      | none => rfl
      | some parent =>
        simp only [hlt item parent hi (get_of hh hp)]
        cases lt item parent with
        | false => rfl
        | true => exact ih _ (by omega) _ (set_of hh _ (get_of hh hp))
    · rfl

private theorem smallerChildE_eq (hlt : ∀ a b, P a → P b → ltE a b = some (lt a b)) (heap : List α) (hh : ∀ x ∈ heap, P x) (c : Nat) :
    smallerChildE ltE heap c = some (smallerChild lt heap c) := by
  unfold smallerChildE smallerChild
  split
  · next l r h1 h2 => rw [hlt l r (get_of hh h1) (get_of hh h2), h1, h2]
  · next hn =>
    split
    · next l r h1 h2 => exact absurd h2 (by intro h; exact hn l r h1 h)
    · rfl

private theorem siftupLoopE_eq (hlt : ∀ a b, P a → P b → ltE a b = some (lt a b)) :
    ∀ (n : Nat) (heap : List α) (pos : Nat), heap.length - pos = n → (∀ x ∈ heap, P x) →
      siftupLoopE ltE heap pos = ((siftupLoop lt heap pos).1, (siftupLoop lt heap pos).2, false) ∧ ∀ x ∈ (siftupLoop lt heap pos).1, P x := by
  intro n
  induction n using Nat.strongRecOn with
  | ind n ih =>
    intro heap pos hn hh
    rw [siftupLoopE, siftupLoop]
    split
    · next hlen =>
      have hsc := smallerChildE_eq hlt heap hh (2 * pos + 1)
      split
      · next h => rw [hsc] at h; cases h
      · next ch h =>
        rw [hsc] at h
        obtain rfl := Option.some.inj h
        cases hc : heap[smallerChild lt heap (2 * pos + 1)]? with
        | none => exact ⟨rfl, hh⟩
        | some c =>
          have hge : 2 * pos + 1 ≤ smallerChild lt heap (2 * pos + 1) := by
            unfold smallerChild
            split
            · split <;> omega
            · omega
          exact ih _ (by rw [List.length_set]; omega) (heap.set pos c) _ rfl (set_of hh _ (get_of hh hc))
    · exact ⟨rfl, hh⟩

private theorem siftupE_eq (hlt : ∀ a b, P a → P b → ltE a b = some (lt a b)) (item : α) (hi : P item) (heap : List α) (hh : ∀ x ∈ heap, P x) :
    siftupE ltE item heap = (siftup lt item heap, false) := by
  obtain ⟨h1, h2⟩ := siftupLoopE_eq hlt _ heap 0 rfl hh
  rw [siftupE, h1, siftup]
  exact siftdownE_eq hlt item hi 0 _ _ h2

private theorem heappushE_eq (hlt : ∀ a b, P a → P b → ltE a b = some (lt a b)) (heap : List α) (item : α) (hi : P item) (hh : ∀ x ∈ heap, P x) :
    heappushE ltE heap item = (heappush lt heap item, false) := by
  refine siftdownE_eq hlt item hi 0 _ _ ?_
  intro x hx
  rcases List.mem_append.1 hx with h | h
  · exact hh x h
  · exact List.mem_singleton.1 h ▸ hi

private theorem heappopE_eq (hlt : ∀ a b, P a → P b → ltE a b = some (lt a b)) (heap : List α) (hh : ∀ x ∈ heap, P x) :
    heappopE ltE heap = (heappop lt heap, false) := by
  unfold heappopE heappop
  cases hl : heap.getLast? with
  | none => rfl
  | some last =>
    have hd : ∀ x ∈ heap.dropLast, P x := fun x hx => hh x (List.dropLast_subset _ hx)
    cases hdl : heap.dropLast with
    | nil => rfl
    | cons a l =>
      simp only
      rw [hdl] at hd
      exact siftupE_eq hlt last (hh last (List.mem_of_getLast? hl)) _ hd

private theorem heapreplaceE_eq (hlt : ∀ a b, P a → P b → ltE a b = some (lt a b)) (heap : List α) (item : α) (hi : P item) (hh : ∀ x ∈ heap, P x) :
    heapreplaceE ltE heap item = match heapreplace lt heap item with
      | none => (heap, true)
      | some q => (q, false) := by
  cases heap with
  | nil => rfl
  | cons a l => exact siftupE_eq hlt item hi _ hh

private theorem siftdownE_perm (item : α) (heap : List α) (start pos : Nat) (hp : pos < heap.length) :
    (siftdownE ltE item heap start pos).1.Perm (heap.set pos item) := by
  induction pos using Nat.strongRecOn generalizing heap with
  | _ pos ih =>
    unfold siftdownE
    by_cases h : start < pos
    · rw [if_pos h]
      have hpp : (pos - 1) / 2 < heap.length := by omega
      rw [List.getElem?_eq_getElem hpp]
      simp only
      split
      · exact List.Perm.refl _
      · refine (ih _ (by omega) _ (by simpa using hpp)).trans ?_
        exact set_swap_perm heap pos ((pos - 1) / 2) item _ (by omega) hp (List.getElem?_eq_getElem hpp)
      · exact List.Perm.refl _
    · rw [if_neg h]

private theorem smallerChildE_cases (heap : List α) (c ch : Nat) (hc : c < heap.length) (h : smallerChildE ltE heap c = some ch) :
    ch < heap.length ∧ (ch = c ∨ ch = c + 1) := by
  unfold smallerChildE at h
  split at h
  · next l r h1 h2 =>
    have := (List.getElem?_eq_some_iff.1 h2).1
    split at h
    · cases h
    · obtain rfl := Option.some.inj h
      split <;> omega
  · obtain rfl := Option.some.inj h
    exact ⟨hc, Or.inl rfl⟩

private theorem siftupLoopE_perm (item : α) (heap : List α) (pos : Nat) (hp : pos < heap.length) :
    (siftupLoopE ltE heap pos).1.length = heap.length ∧ (siftupLoopE ltE heap pos).2.1 < heap.length ∧
    ((siftupLoopE ltE heap pos).1.set (siftupLoopE ltE heap pos).2.1 item).Perm (heap.set pos item) := by
  induction hn : heap.length - pos using Nat.strongRecOn generalizing heap pos with
  | _ n ih =>
    unfold siftupLoopE
    by_cases h : 2 * pos + 1 < heap.length
    · rw [dif_pos h]
      split
      · exact ⟨rfl, hp, List.Perm.refl _⟩
      · next c hc =>
        obtain ⟨h1, h2⟩ := smallerChildE_cases heap (2 * pos + 1) c h hc
        rw [List.getElem?_eq_getElem h1]
        simp only
        have := ih (heap.length - c) (by omega) (heap.set pos heap[c]) c (by simpa using h1) (by simp)
        simp only [List.length_set] at this
        refine ⟨this.1, this.2.1, this.2.2.trans ?_⟩
        exact set_swap_perm heap pos c item _ (by omega) hp (List.getElem?_eq_getElem h1)
    · rw [dif_neg h]
      exact ⟨rfl, hp, List.Perm.refl _⟩

private theorem siftupE_perm (item e : α) (q : List α) : (siftupE ltE item (e :: q)).1.Perm (item :: q) := by
  obtain ⟨h1, h2, h3⟩ := siftupLoopE_perm (ltE := ltE) item (e :: q) 0 (by simp)
  unfold siftupE
  simp only
  split
  · simpa using h3
  · refine (siftdownE_perm item _ 0 _ (by rw [h1]; exact h2)).trans ?_
    simpa using h3

/-- C204: whether or not a comparison raises, no entry is lost and none appears twice: pushing adds the entry, popping removes the first one, replacing puts the
entry in the place of the first one. -/
theorem C204_kept (ltE : α → α → Option Bool) (heap q : List α) (e item : α) :
    (heappushE ltE heap item).1.Perm (item :: heap) ∧ (heappopE ltE (e :: q)).1.Perm q ∧ (heapreplaceE ltE (e :: q) item).1.Perm (item :: q) := by
  refine ⟨?_, ?_, siftupE_perm _ _ _⟩
  · unfold heappushE
    refine (siftdownE_perm item _ 0 _ (by simp)).trans ?_
    rw [List.set_append_right _ _ (Nat.le_refl _)]
    simp [List.perm_append_singleton]
  · unfold heappopE
    cases q with
    | nil => simp
    | cons x q =>
      have h1 : (e :: x :: q).getLast? = some ((x :: q).getLast (by simp)) := by
        rw [List.getLast?_cons_cons, List.getLast?_eq_some_getLast (by simp)]
      have h2 : (e :: x :: q).dropLast = e :: (x :: q).dropLast := rfl
      rw [h1, h2]
      simp only
      refine (siftupE_perm _ _ _).trans ?_
      refine (List.perm_append_singleton _ _).symm.trans ?_
      rw [List.dropLast_append_getLast]

/-- C204: an exception of a comparison is not lost, wherever it happens: taking the first entry, or replacing it, raises if the two entries below it cannot be
compared; adding one raises if it cannot be compared with the entry above its place. -/
theorem C204_raises (ltE : α → α → Option Bool) (e a b item last : α) (l : List α) :
    (ltE a b = none → (heapreplaceE ltE (e :: a :: b :: l) item).2 = true ∧ (heappopE ltE (e :: a :: b :: l ++ [last])).2 = true) ∧
    (∀ (heap : List α) (p : α), heap ≠ [] → heap[(heap.length - 1) / 2]? = some p → ltE item p = none → (heappushE ltE heap item).2 = true) := by
  have hup : ∀ item, ltE a b = none → (siftupE ltE item (e :: a :: b :: l)).2 = true := by
    intro item h
    have hc : smallerChildE ltE (e :: a :: b :: l) 1 = none := by simp [smallerChildE, h]
    have hl : siftupLoopE ltE (e :: a :: b :: l) 0 = (e :: a :: b :: l, 0, true) := by
      rw [siftupLoopE, dif_pos (by simp)]
      split
      · rfl
      · next ch hch => rw [Nat.mul_zero, Nat.zero_add, hc] at hch; cases hch
    simp [siftupE, hl]
  refine ⟨fun h => ⟨hup item h, ?_⟩, ?_⟩
  · have h1 : (e :: a :: b :: l ++ [last]).getLast? = some last := List.getLast?_concat
    have h2 : (e :: a :: b :: l ++ [last]).dropLast = e :: a :: b :: l := List.dropLast_concat
    unfold heappopE
    rw [h1, h2]
    exact hup last h
  · intro heap p hne hp h
    have hpos : 0 < heap.length := List.length_pos_iff.2 hne
    unfold heappushE
    rw [siftdownE, if_pos hpos, List.getElem?_append_left (by omega), hp]
    simp only [h]

-- Here the two entries below the first one are equal.
example : heapreplaceE (fun a b : Nat => if a = b then none else some (decide (a < b))) [2, 3, 3, 7] 9 = ([9, 3, 3, 7], true) := by
  decide +kernel

-- A comparison that raises for equal numbers.
example : heappushE (fun a b : Nat => if a = b then none else some (decide (a < b))) [2, 3, 5, 7] 3 = ([2, 3, 5, 7, 3], true) := by
  decide +kernel

end Heap

variable {W : Type}

/-- An invariant of the entries of the queue under which a key belongs to one agent only. -/
private structure KeyRule (H : PHost W) (I : List PEntry → W → Prop) : Prop where
  own : ∀ q w, I q w → ∃ owner : Rat → Ref, ∀ e ∈ q, owner e.key = e.ref
  push : ∀ q w r t, I q w → I (⟨t, (H.key r w).1, r⟩ :: q) (H.key r w).2
  sub : ∀ q q' w, I q w → (∀ e ∈ q', e ∈ q) → I q' w
  act : ∀ q w r s, I q w → I q (H.step r s w).2.2

private theorem ltE_owned (owner : Rat → Ref) (a b : PEntry) (ha : owner a.key = a.ref) (hb : owner b.key = b.ref) : a.ltE b = some (a.lt b) := by
  unfold PEntry.ltE
  split
  · next h =>
    rw [if_pos (by rw [← ha, ← hb, h.2])]
    have : a.lt b = false := by
      unfold PEntry.lt
      rw [h.1, h.2]
      simp
    rw [this]
  · rfl

section
variable {H : PHost W} {I : List PEntry → W → Prop}

private theorem scheduleE_eq (hI : KeyRule H I) (s : PSched) (w : W) (hs : I s.queue w) (r : Ref) (wh : Option Time) (b : Bool) :
    s.scheduleE H w r wh b = s.schedule H w r wh b ∧ I (s.schedule H w r wh b).1.queue (s.schedule H w r wh b).2.1 := by
  have hp := hI.push _ _ r (wh.getD s.time) hs
  obtain ⟨owner, ho⟩ := hI.own _ _ hp
  have hlt := ltE_owned owner
  have he := ho _ (List.mem_cons_self ..)
  have hq : ∀ e ∈ s.queue, owner e.key = e.ref := fun e h => ho e (List.mem_cons_of_mem _ h)
  cases b with
  | false =>
    refine ⟨?_, ?_⟩
    · simp only [PSched.scheduleE, PSched.schedule, Bool.false_eq_true, if_false]
      rw [heappushE_eq (P := fun e : PEntry => owner e.key = e.ref) (lt := PEntry.lt) hlt _ _ he hq]
    · simp only [PSched.schedule, Bool.false_eq_true, if_false]
      exact hI.sub _ _ _ hp (fun e hm => (heappush_perm _ _).mem_iff.1 hm)
  | true =>
    have hrep := heapreplaceE_eq (P := fun e : PEntry => owner e.key = e.ref) (lt := PEntry.lt) hlt s.queue ⟨wh.getD s.time, (H.key r w).1, r⟩ he hq
    refine ⟨?_, ?_⟩
    · simp only [PSched.scheduleE, PSched.schedule, if_true]
      rw [hrep]
      cases heapreplace PEntry.lt s.queue ⟨wh.getD s.time, (H.key r w).1, r⟩ <;> rfl
    · simp only [PSched.schedule, if_true]
      cases hq' : s.queue with
      | nil =>
        simp only [heapreplace]
        exact hI.sub _ _ _ hp (fun e h => List.mem_cons_of_mem _ h)
      | cons a q =>
        simp only [heapreplace]
        refine hI.sub _ _ _ hp (fun e hm => ?_)
        rcases List.mem_cons.1 ((siftup_perm _ _ _).mem_iff.1 hm) with h | h
        · rw [h]; exact List.mem_cons_self ..
        · exact List.mem_cons_of_mem _ (by rw [hq']; exact List.mem_cons_of_mem _ h)

private theorem applyOpE_eq (hI : KeyRule H I) (s : PSched) (w : W) (hs : I s.queue w) (o : SOp) :
    s.applyOpE H w o = s.applyOp H w o ∧ I (s.applyOp H w o).1.queue (s.applyOp H w o).2.1 := by
  cases o with
  | remove r => exact ⟨rfl, hs⟩
  | stop => exact ⟨rfl, hs⟩
  | add r wh =>
    obtain ⟨h1, h2⟩ := scheduleE_eq hI s w hs r none (wh.getD s.time).truthy
    refine ⟨?_, ?_⟩
    · simp only [PSched.applyOpE, PSched.applyOp, PSched.addAgentE, PSched.addAgent, h1]
    · simp only [PSched.applyOp, PSched.addAgent]
      split
      · exact h2
      · exact h2

private theorem applyOpsE_eq (hI : KeyRule H I) (os : List SOp) : ∀ (s : PSched) (w : W) (_ : I s.queue w),
    s.applyOpsE H w os = s.applyOps H w os ∧ I (s.applyOps H w os).1.queue (s.applyOps H w os).2.1 := by
  induction os with
  | nil => intro s w hs; exact ⟨rfl, hs⟩
  | cons o os ih =>
    intro s w hs
    obtain ⟨h1, h2⟩ := applyOpE_eq hI s w hs o
    simp only [PSched.applyOpsE, PSched.applyOps, h1]
    split
    · exact ⟨rfl, h2⟩
    · exact ih _ _ h2

private theorem pop_rule (hI : KeyRule H I) (s : PSched) (w : W) (hs : I s.queue w) :
    heappopE PEntry.ltE s.queue = (heappop PEntry.lt s.queue, false) ∧ I s.pop.queue w := by
  obtain ⟨owner, ho⟩ := hI.own _ _ hs
  refine ⟨heappopE_eq (P := fun e : PEntry => owner e.key = e.ref) (ltE_owned owner) s.queue ho, hI.sub _ _ _ hs ?_⟩
  show ∀ e ∈ heappop PEntry.lt s.queue, e ∈ s.queue
  cases hq : s.queue with
  | nil => intro e he; simp [heappop] at he
  | cons a q => exact fun e he => List.mem_cons_of_mem _ ((heappop_perm _ _).mem_iff.1 he)

private theorem pLoopE_eq (hI : KeyRule H I) (now : Time) (fuel : Nat) : ∀ (s : PSched) (w : W) (_ : I s.queue w),
    pLoopE H now fuel s w = pLoop H now fuel s w ∧ I (pLoop H now fuel s w).1.queue (pLoop H now fuel s w).2.1 := by
  induction fuel with
  | zero =>
    intro s w hs
    rw [pLoopE, pLoop]
    cases hq : s.queue with
    | nil => exact ⟨rfl, hs⟩
    | cons e q =>
      simp only
      split
      · exact ⟨trivial, hs⟩
      · exact ⟨trivial, hs⟩
  | succ fuel ih =>
    intro s w hs
    rw [pLoopE, pLoop]
    cases hq : s.queue with
    | nil => exact ⟨rfl, hs⟩
    | cons e q =>
      simp only
      split
      · exact ⟨rfl, hs⟩
      · obtain ⟨h1, h2⟩ := applyOpsE_eq hI (H.step e.ref s w).2.1 s (H.step e.ref s w).2.2 (hI.act _ _ _ _ hs)
        rw [h1]
        generalize s.applyOps H (H.step e.ref s w).2.2 (H.step e.ref s w).2.1 = ops at h2 ⊢
        generalize (if ops.2.2 = true then Reply.error else (H.step e.ref s w).1) = rep
        have h3 : I (ops.1.logAct e.ref now rep).queue ops.2.1 := h2
        cases rep with
        | error => exact ⟨rfl, h3⟩
        | dead =>
          obtain ⟨h4, h5⟩ := pop_rule hI _ _ h3
          simp only [h4]
          exact ih _ _ h5
        | ret d =>
          simp only
          split
          · obtain ⟨h4, h5⟩ := pop_rule hI _ _ h3
            simp only [h4]
            exact ih _ _ h5
          · obtain ⟨h4, h5⟩ := scheduleE_eq hI _ ops.2.1 h3 e.ref (some (Time.pyOr d (ops.1.logAct e.ref now (.ret d)).interval + now)) true
            rw [h4]
            split
            · exact ⟨rfl, h5⟩
            · exact ih _ _ h5

private theorem pexecAllE_eq (hI : KeyRule H I) (fuel : Nat) : ∀ (h : List (Cmd W)) (_ : ∀ f, Cmd.world f ∈ h → ∀ q w, I q w → I q (f w)) (sw : PSched × W),
    I sw.1.queue sw.2 → pexecAllE H fuel h sw = pexecAll H fuel h sw := by
  intro h
  induction h with
  | nil => intro _ sw _; rfl
  | cons c h ih =>
    intro hw sw hs
    have hc : c.pexecE H fuel sw = c.pexec H fuel sw ∧ I (c.pexec H fuel sw).1.queue (c.pexec H fuel sw).2 := by
      cases c with
      | op o =>
        obtain ⟨h1, h2⟩ := applyOpE_eq hI sw.1 sw.2 hs o
        exact ⟨by simp only [Cmd.pexecE, Cmd.pexec, h1], h2⟩
      | world f => exact ⟨rfl, hw f (List.mem_cons_self ..) _ _ hs⟩
      | step =>
        obtain ⟨h1, h2⟩ := pLoopE_eq hI sw.1.time fuel sw.1 sw.2 hs
        have hst : sw.1.stepE H fuel sw.2 = sw.1.step H fuel sw.2 := by
          simp only [PSched.stepE, PSched.step, h1]
          split
          · rfl
          · cases (pLoop H sw.1.time fuel sw.1 sw.2).2.2.2 <;> rfl
        refine ⟨by simp only [Cmd.pexecE, Cmd.pexec, hst], ?_⟩
        show I (sw.1.step H fuel sw.2).1.queue (sw.1.step H fuel sw.2).2.1
        unfold PSched.step
        split
        · exact hs
        · simp only
          split
          · exact h2
          · exact h2
    show pexecAllE H fuel h (c.pexecE H fuel sw) = pexecAll H fuel h (c.pexec H fuel sw)
    rw [hc.1]
    exact ih (fun f hf => hw f (List.mem_cons_of_mem _ hf)) _ hc.2

end

/-- C204 (partial): without shuffling, and with agents that all have numbers of their own, no comparison of entries ever raises: in every history the scheduler
does exactly what it does if entries that agree in time and key are in no order. Missing: agents with the same number, see below. -/
theorem C204_numbers_partial (H : PHost W) (num : Ref → Rat) (hinj : ∀ a b, num a = num b → a = b) (hk : ∀ r w, (H.key r w).1 = num r) (iv : Time)
    (w0 : W) (fuel : Nat) (h : List (Cmd W)) : pexecAllE H fuel h (PSched.init iv, w0) = pexecAll H fuel h (PSched.init iv, w0) := by
  refine pexecAllE_eq (I := fun q _ => ∀ e ∈ q, e.key = num e.ref) ⟨?_, ?_, ?_, ?_⟩ fuel h (fun f _ q w hq => hq) _ (fun e he => nomatch he)
  · intro q w hq
    classical
    refine ⟨fun k => if hx : ∃ r, num r = k then hx.choose else 0, fun e he => ?_⟩
    have hx : ∃ r, num r = e.key := ⟨e.ref, (hq e he).symm⟩
    simp only [dif_pos hx]
    exact hinj _ _ (hx.choose_spec.trans (hq e he))
  · intro q w r t hq e he
    rcases List.mem_cons.1 he with h | h
    · rw [h]; exact hk r w
    · exact hq e h
  · exact fun q q' w hq hs e he => hq e (hs e he)
  · exact fun q w r s hq => hq

/-- C204 (partial): with shuffling, the same holds as long as the generator never gives the same number twice: `seen w` are the numbers it has given so far;
agents and callers may draw numbers too, but do not turn the generator back. Missing: a generator that repeats a number, see below. -/
theorem C204_draws_partial (H : PHost W) (seen : W → Rat → Prop) (hk : ∀ r w, ¬ seen w (H.key r w).1 ∧ seen (H.key r w).2 (H.key r w).1)
    (hk' : ∀ r w x, seen w x → seen (H.key r w).2 x) (hs : ∀ r s w x, seen w x → seen (H.step r s w).2.2 x) (iv : Time) (w0 : W) (fuel : Nat)
    (h : List (Cmd W)) (hw : ∀ f, Cmd.world f ∈ h → ∀ w x, seen w x → seen (f w) x) :
    pexecAllE H fuel h (PSched.init iv, w0) = pexecAll H fuel h (PSched.init iv, w0) := by
  refine pexecAllE_eq (I := fun q w => (∀ e ∈ q, seen w e.key) ∧ ∃ owner : Rat → Ref, ∀ e ∈ q, owner e.key = e.ref) ⟨?_, ?_, ?_, ?_⟩ fuel h
    (fun f hf q w hq => ⟨fun e he => hw f hf w _ (hq.1 e he), hq.2⟩) _ ⟨fun e he => (nomatch he), fun _ => 0, fun e he => nomatch he⟩
  · exact fun q w hq => hq.2
  · intro q w r t ⟨h1, owner, h2⟩
    refine ⟨fun e he => ?_, fun k => if k = (H.key r w).1 then r else owner k, fun e he => ?_⟩
    · rcases List.mem_cons.1 he with h | h
      · rw [h]; exact (hk r w).2
      · exact hk' r w _ (h1 e h)
    · rcases List.mem_cons.1 he with h | h
      · rw [h]; exact if_pos rfl
      · show (if e.key = (H.key r w).1 then r else owner e.key) = e.ref
        rw [if_neg (fun hx : e.key = (H.key r w).1 => (hk r w).1 (hx ▸ h1 e h))]
        exact h2 e h
  · exact fun q q' w ⟨h1, owner, h2⟩ hsub => ⟨fun e he => h1 e (hsub e he), owner, fun e he => h2 e (hsub e he)⟩
  · exact fun q w r s ⟨h1, h2⟩ => ⟨fun e he => hs r s w _ (h1 e he), h2⟩

/-- Agents that wait for one unit; the key is their number, or the same for all. -/
private def tieHost (same : Bool) : PHost Unit where
  step _ _ _ := (.ret none, [], ())
  key r _ := (if same then 1 / 2 else (r : Rat), ())

set_option maxRecDepth 100000 in
/-- C204, violation: `random()` may give two agents the same number, and with `shuffle=False` two agents may have the same `unique_id`. If they are due at the
same time, adding the second one raises `TypeError`. It stays in the queue, but is not among the agents. It acts in the next step, which raises as well when it
schedules the agent again: the time stays where it is. -/
theorem C204_tie_false : ∃ H : PHost Unit, (∀ r w, 0 ≤ (H.key r w).1 ∧ (H.key r w).1 < 1) ∧
    (∀ fuel, ((pexecAllE H fuel [.op (.add 0 none)] (PSched.init 1, ())).1.applyOpE H () (.add 1 none)).2.2 = true) ∧
    (pexecAllE H 5 [.op (.add 0 none), .op (.add 1 none)] (PSched.init 1, ())).1.agents = [0] ∧
    ((pexecAllE H 5 [.op (.add 0 none), .op (.add 1 none)] (PSched.init 1, ())).1.stepE H 5 ()).2.2 = .raised ∧
    (pexecAllE H 5 [.op (.add 0 none), .op (.add 1 none), .step] (PSched.init 1, ())).1.log =
      [.added 0 0, .act 0 0 (.ret none), .act 1 0 (.ret none)] ∧
    (pexecAllE H 5 [.op (.add 0 none), .op (.add 1 none), .step] (PSched.init 1, ())).1.time = 0 ∧
    (pexecAll H 5 [.op (.add 0 none), .op (.add 1 none), .step] (PSched.init 1, ())).1.agents = [0, 1] ∧
    (pexecAll H 5 [.op (.add 0 none), .op (.add 1 none), .step] (PSched.init 1, ())).1.time = 1 := by
  refine ⟨tieHost true, fun _ _ => by simp only [tieHost, if_true]; constructor <;> norm_num, fun fuel => ?_, ?_, ?_, ?_, ?_, ?_, ?_⟩
  · show (PSched.applyOpE (tieHost true) (pexecAllE (tieHost true) 0 [.op (.add 0 none)] (PSched.init 1, ())).1 () (.add 1 none)).2.2 = true
    decide +kernel
  all_goals decide +kernel

/-- A generator that counts down from 1. -/
private def drawHost : PHost Nat where
  step _ _ w := (.ret none, [], w + 1)
  key _ w := (1 / ((w : Rat) + 1), w + 1)

set_option maxRecDepth 100000 in
example : (pexecAllE drawHost 9 [.op (.add 2 none), .op (.add 0 none), .op (.add 1 none), .world (· + 3), .step, .step] (PSched.init 1, 0)).1.log =
    [.added 2 0, .added 0 0, .added 1 0, .act 1 0 (.ret none), .act 0 0 (.ret none), .act 2 0 (.ret none),
      .act 2 1 (.ret none), .act 0 1 (.ret none), .act 1 1 (.ret none)] := by
  decide +kernel

-- The hypotheses of `C204_draws_partial` hold for it.
example (fuel : Nat) (h : List (Cmd Nat)) (hw : ∀ f, Cmd.world f ∈ h → ∀ w, w ≤ f w) :
    pexecAllE drawHost fuel h (PSched.init 1, 0) = pexecAll drawHost fuel h (PSched.init 1, 0) := by
  refine C204_draws_partial drawHost (fun w x => ∃ p : Nat, p < w ∧ x = 1 / ((p : Rat) + 1)) ?_ ?_ ?_ 1 0 fuel h ?_
  · refine fun r w => ⟨?_, w, Nat.lt_succ_self w, rfl⟩
    rintro ⟨p, hp, hx⟩
    have h1 : ((w : Rat) + 1)⁻¹ = ((p : Rat) + 1)⁻¹ := by simpa [drawHost] using hx
    have h2 : (w : Rat) = p := by simpa using inv_injective h1
    have h3 : w = p := by exact_mod_cast h2
    omega
  · rintro r w x ⟨p, hp, hx⟩; exact ⟨p, Nat.lt_succ_of_lt hp, hx⟩
  · rintro r s w x ⟨p, hp, hx⟩; exact ⟨p, Nat.lt_succ_of_lt hp, hx⟩
  · rintro f hf w x ⟨p, hp, hx⟩; exact ⟨p, Nat.lt_of_lt_of_le hp (hw f hf w), hx⟩

-- Several agents at the same time, without shuffling, one of them twice.
set_option maxRecDepth 100000 in
example : (pexecAllE (tieHost false) 9 [.op (.add 2 none), .op (.add 0 none), .op (.add 1 none), .op (.add 2 none), .step] (PSched.init 1, ())).1.log =
    [.added 2 0, .added 0 0, .added 1 0, .added 2 0, .act 0 0 (.ret none), .act 1 0 (.ret none), .act 2 0 (.ret none), .act 2 0 (.ret none)] := by
  decide +kernel

end Verif
