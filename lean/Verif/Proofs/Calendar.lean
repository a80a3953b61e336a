import Verif.Spec.Calendar
import Mathlib.Data.List.Basic
import Mathlib.Data.List.Perm.Basic
import Mathlib.Data.List.Induction

/-! Lemmas about the calendar specification. -/

namespace Verif.Spec

variable {iv : Time}

@[simp] theorem cal_nil : cal iv [] = [] := rfl

theorem cal_append_one (l : List Ev) (e : Ev) :
    cal iv (l ++ [e]) = calStep iv (cal iv l) e := by
  simp [cal, List.foldl_append]

@[simp] theorem dueAt_append (c d : Cal) (t : Time) :
    dueAt (c ++ d) t = dueAt c t ++ dueAt d t := by
  simp [dueAt]

@[simp] theorem dueAt_nil (t : Time) : dueAt [] t = [] := rfl

theorem dueAt_cons (p : Ref × Time) (c : Cal) (t : Time) :
    dueAt (p :: c) t = if p.2 = t then p.1 :: dueAt c t else dueAt c t := by
  by_cases h : p.2 = t <;> simp [dueAt, h]

theorem mem_dueAt {c : Cal} {r : Ref} {t : Time} : r ∈ dueAt c t ↔ (r, t) ∈ c := by
  simp [dueAt]

theorem dueAt_erase (c : Cal) (r : Ref) (t u : Time) :
    dueAt (c.erase (r, t)) u = if u = t then (dueAt c u).erase r else dueAt c u := by
  induction c with
  | nil => simp
  | cons p c ih =>
    obtain ⟨a, b⟩ := p
    by_cases hp : (a, b) = (r, t)
    · obtain ⟨rfl, rfl⟩ := Prod.mk.inj hp
      rw [List.erase_cons_head, dueAt_cons]
      by_cases hu : u = b
      · subst hu; simp
      · have : ¬ b = u := fun h => hu h.symm
        simp [hu, this]
    · rw [List.erase_cons_tail (by simpa using hp), dueAt_cons, ih, dueAt_cons]
      by_cases hu : u = t
      · subst hu
        by_cases hb : b = u
        · subst hb
          have : a ≠ r := fun h => hp (by rw [h])
          simp [List.erase_cons_tail, this]
        · simp [hb]
      · simp [hu]

theorem count_dueAt (c : Cal) (r : Ref) (t : Time) :
    (dueAt c t).count r = c.count (r, t) := by
  induction c with
  | nil => simp
  | cons p c ih =>
    obtain ⟨a, b⟩ := p
    rw [dueAt_cons]
    by_cases hb : b = t
    · subst hb
      by_cases ha : a = r
      · subst ha; simp [ih]
      · have h2 : (a, b) ≠ (r, b) := by simp [ha]
        simp [List.count_cons_of_ne, ha, h2, ih]
    · have h2 : (a, b) ≠ (r, t) := by simp [hb]
      simp [hb, List.count_cons_of_ne, h2, ih]

/-- Two calendars with the same agents due at every time are the same up to order. -/
theorem perm_of_dueAt {c d : Cal} (h : ∀ t, (dueAt c t).Perm (dueAt d t)) : c.Perm d := by
  rw [List.perm_iff_count]
  rintro ⟨r, t⟩
  rw [← count_dueAt, ← count_dueAt, (h t).count_eq]

theorem Legal.nil : Legal iv [] := by
  intro pre e post h; simp at h

theorem Legal.snoc {l : List Ev} {e : Ev} (h : Legal iv l) (he : admissible (cal iv l) e) :
    Legal iv (l ++ [e]) := by
  intro pre x post heq
  rcases List.eq_nil_or_concat post with rfl | ⟨post', y, rfl⟩
  · have := List.append_inj' heq rfl
    obtain ⟨rfl, h2⟩ := this
    cases h2; exact he
  · rw [List.concat_eq_append, ← List.cons_append, ← List.append_assoc] at heq
    have := List.append_inj' heq rfl
    exact h pre x post' this.1

theorem Legal.prefix {l m : List Ev} (h : Legal iv (l ++ m)) : Legal iv l := by
  intro pre e post heq
  apply h pre e (post ++ m)
  rw [heq]; simp

theorem Chronological.snoc {l : List Ev} {e : Ev} (h : Chronological l)
    (he : ∀ x ∈ l, x.time ≤ e.time) : Chronological (l ++ [e]) := by
  unfold Chronological
  rw [List.pairwise_append]
  refine ⟨h, by simp, ?_⟩
  simpa using he

theorem GoodLog.prefix {l m : List Ev} (h : GoodLog (l ++ m)) : GoodLog l :=
  fun e hm => h e (List.mem_append_left _ hm)

theorem GoodLog.reply {l : List Ev} (h : GoodLog l) {r : Ref} {t : Time} {rep : Reply}
    (hm : Ev.act r t rep ∈ l) : GoodReply rep := h _ hm

theorem effDelay_pos {d : Option Time} (hiv : 0 < iv) (h : GoodReply (.ret d)) :
    0 < effDelay iv d := by
  cases d with
  | none => exact hiv
  | some x =>
    simp only [effDelay]
    split
    · exact hiv
    · rename_i hx
      exact lt_of_le_of_ne h (Ne.symm hx)

theorem nextWake_gt {t : Time} {rep : Reply} {u : Time} (hiv : 0 < iv) (hg : GoodReply rep)
    (h : nextWake iv t rep = some u) : t < u ∧ u ≠ .inf := by
  cases rep with
  | ret d =>
    simp only [nextWake] at h
    split at h
    · cases h
    · rename_i hn
      cases h
      exact ⟨Time.lt_add_of_pos (effDelay_pos hiv hg) (Time.add_ne_inf hn).1, hn⟩
  | dead => cases h
  | error => cases h

/-! ### Time lines of single agents -/

theorem Timeline.snoc_act {a : Option Time} {l : List Ev} {r : Ref} {t : Time} {rep : Reply}
    (h : Timeline iv a l (some t)) :
    Timeline iv a (l ++ [.act r t rep]) (nextWake iv t rep) := by
  generalize hb : some t = b at h
  induction h with
  | nil due => subst hb; exact .act (.nil _)
  | add _ ih => exact .add (ih hb)
  | act _ ih => exact .act (ih hb)

theorem Timeline.snoc_add {a : Option Time} {l : List Ev} {r : Ref} {t : Time}
    (h : Timeline iv a l none) :
    Timeline iv a (l ++ [.added r t]) (some t) := by
  generalize hb : none = b at h
  induction h with
  | nil due => subst hb; exact .add (.nil _)
  | add _ ih => exact .add (ih hb)
  | act _ ih => exact .act (ih hb)

/-- Pending wake-up times of one agent. -/
def pendingOf (c : Cal) (r : Ref) : List Time := (c.filter (·.1 = r)).map (·.2)

theorem pendingOf_append (c d : Cal) (r : Ref) :
    pendingOf (c ++ d) r = pendingOf c r ++ pendingOf d r := by simp [pendingOf]

theorem pendingOf_cons (p : Ref × Time) (c : Cal) (r : Ref) :
    pendingOf (p :: c) r = if p.1 = r then p.2 :: pendingOf c r else pendingOf c r := by
  by_cases h : p.1 = r <;> simp [pendingOf, h]

theorem mem_pendingOf {c : Cal} {r : Ref} {t : Time} : t ∈ pendingOf c r ↔ (r, t) ∈ c := by
  simp [pendingOf]

theorem pendingOf_erase (c : Cal) (r q : Ref) (t : Time) :
    pendingOf (c.erase (r, t)) q = if q = r then (pendingOf c q).erase t else pendingOf c q := by
  induction c with
  | nil => simp [pendingOf]
  | cons p c ih =>
    obtain ⟨a, b⟩ := p
    by_cases hp : (a, b) = (r, t)
    · obtain ⟨rfl, rfl⟩ := Prod.mk.inj hp
      rw [List.erase_cons_head, pendingOf_cons]
      by_cases hu : q = a
      · subst hu; simp
      · have : ¬ a = q := fun h => hu h.symm
        simp [hu, this]
    · rw [List.erase_cons_tail (by simpa using hp), pendingOf_cons, ih, pendingOf_cons]
      by_cases hu : q = r
      · subst hu
        by_cases hb : a = q
        · subst hb
          have : b ≠ t := fun h => hp (by rw [h])
          simp [List.erase_cons_tail, this]
        · simp [hb]
      · simp [hu]

/-- How often an agent was added according to the log. -/
def addCount (r : Ref) (log : List Ev) : Nat :=
  log.countP (fun e => e.isAdd && e.ref == r)

/-- In a legal log an agent added at most once follows its own time line. -/
theorem Legal.timeline {log : List Ev} (h : Legal iv log) (r : Ref) (h1 : addCount r log ≤ 1) :
    ∃ due, Timeline iv none (log.filter (·.ref = r)) due ∧
      pendingOf (cal iv log) r = due.toList ∧ (addCount r log = 0 → due = none ∧ log.filter (·.ref = r) = []) := by
  induction log using List.reverseRecOn with
  | nil => exact ⟨none, .nil _, rfl, fun _ => ⟨rfl, rfl⟩⟩
  | append_singleton l e ih =>
    have hl : Legal iv l := h.prefix
    have he : admissible (cal iv l) e := h l e [] (by simp)
    have hc : addCount r (l ++ [e]) = addCount r l + (if e.isAdd && e.ref == r then 1 else 0) := by
      simp only [addCount, List.countP_append, List.countP_cons, List.countP_nil]; simp
    obtain ⟨due, htl, hp, hz⟩ := ih hl (by omega)
    rw [cal_append_one]
    cases e with
    | added q t =>
      by_cases hq : q = r
      · subst hq
        simp [Ev.isAdd, Ev.ref] at hc
        have h0 : addCount q l = 0 := by omega
        obtain ⟨rfl, hnil⟩ := hz h0
        refine ⟨some t, ?_, ?_, by omega⟩
        · simp only [List.filter_append]
          have : [Ev.added q t].filter (·.ref = q) = [.added q t] := by simp [Ev.ref]
          rw [this]
          exact htl.snoc_add
        · simp only [calStep, pendingOf_append, hp]
          simp [pendingOf]
      · have hc' : addCount r (l ++ [Ev.added q t]) = addCount r l := by
          simp [Ev.isAdd, Ev.ref, hq] at hc; exact hc
        have hf : (l ++ [Ev.added q t]).filter (·.ref = r) = l.filter (·.ref = r) := by
          simp [Ev.ref, hq]
        refine ⟨due, by rw [hf]; exact htl, ?_, ?_⟩
        · simp only [calStep, pendingOf_append, hp]
          simp [pendingOf, hq]
        · rw [hf, hc']; exact hz
    | act q t rep =>
      have hc' : addCount r (l ++ [Ev.act q t rep]) = addCount r l := by
        simp [Ev.isAdd] at hc; exact hc
      by_cases hq : q = r
      · subst hq
        have hmem : t ∈ pendingOf (cal iv l) q := mem_pendingOf.2 he.1
        rw [hp] at hmem
        cases due with
        | none => simp at hmem
        | some u =>
          simp at hmem; subst hmem
          refine ⟨nextWake iv t rep, ?_, ?_, ?_⟩
          · simp only [List.filter_append]
            have : [Ev.act q t rep].filter (·.ref = q) = [.act q t rep] := by simp [Ev.ref]
            rw [this]
            exact htl.snoc_act
          · simp only [calStep, pendingOf_append, pendingOf_erase, hp, if_true]
            cases nextWake iv t rep <;> simp [pendingOf]
          · rw [hc']; intro h0
            have := (hz h0).1
            cases this
      · have hf : (l ++ [Ev.act q t rep]).filter (·.ref = r) = l.filter (·.ref = r) := by
          simp [Ev.ref, hq]
        refine ⟨due, by rw [hf]; exact htl, ?_, ?_⟩
        · have hqr : ¬ r = q := fun e => hq e.symm
          simp only [calStep, pendingOf_append, pendingOf_erase, hp, hqr, if_false]
          cases nextWake iv t rep <;> simp [pendingOf, hq]
        · rw [hf, hc']; exact hz

/-- All activations in a time line happen at or after the pending wake-up, strictly ordered. -/
theorem Timeline.strict {a b : Option Time} {l : List Ev} (hiv : 0 < iv) (h : Timeline iv a l b)
    (hg : GoodLog l) (hna : ∀ e ∈ l, e.isAct = true) :
    l.Pairwise (fun x y => x.time < y.time) ∧ ∀ t, a = some t → ∀ e ∈ l, t ≤ e.time := by
  induction h with
  | nil => simp
  | @add r t l _ _ _ => exact absurd (hna (.added r t) (by simp)) (by simp [Ev.isAct])
  | @act r t rep l due' _ ih =>
    obtain ⟨h1, h2⟩ := ih (fun e he => hg e (by simp [he])) (fun e he => hna e (by simp [he]))
    have hlt : ∀ e ∈ l, t < e.time := by
      intro e he
      cases hw : nextWake iv t rep with
      | none =>
        rename_i htl
        rw [hw] at htl
        cases htl with
        | nil => cases he
        | @add r' t' _ _ _ => exact absurd (hna (.added r' t') (by simp)) (by simp [Ev.isAct])
      | some u =>
        have := (nextWake_gt hiv (hg (.act r t rep) (by simp)) hw).1
        exact lt_of_lt_of_le this (h2 u hw e he)
    refine ⟨List.pairwise_cons.2 ⟨hlt, h1⟩, ?_⟩
    intro u hu e he
    cases hu
    rcases List.mem_cons.1 he with rfl | he
    · exact le_rfl
    · exact le_of_lt (hlt e he)

end Verif.Spec

namespace Verif.Spec
variable {iv : Time}

theorem addCount_append (r : Ref) (a b : List Ev) :
    addCount r (a ++ b) = addCount r a + addCount r b := by
  simp [addCount]

/-- Bookkeeping of wake-ups for the current instant. -/
theorem count_cal_now {l evs : List Ev} {now : Time} (hiv : 0 < iv) (h : Legal iv (l ++ evs))
    (hg : GoodLog evs) (ht : ∀ e ∈ evs, e.time = now) (r : Ref) :
    (cal iv (l ++ evs)).count (r, now) + (actRefs evs).count r =
      (cal iv l).count (r, now) + addCount r evs := by
  induction evs using List.reverseRecOn with
  | nil => simp [actRefs, addCount]
  | append_singleton m e ih =>
    rw [← List.append_assoc] at h ⊢
    have ih' := ih h.prefix (fun x hx => hg x (by simp [hx])) (fun x hx => ht x (by simp [hx]))
    have hadm := h (l ++ m) e [] (by simp)
    have het : e.time = now := ht e (by simp)
    rw [cal_append_one, addCount_append]
    have hA : actRefs (m ++ [e]) = actRefs m ++ actRefs [e] := by simp [actRefs]
    rw [hA, List.count_append]
    cases e with
    | added q t =>
      simp only [Ev.time] at het
      subst het
      simp only [calStep, List.count_append]
      by_cases hq : q = r
      · subst hq
        simp [actRefs, addCount, Ev.isAdd, Ev.ref] at *
        omega
      · have h2 : (q, t) ≠ (r, t) := by simp [hq]
        simp [actRefs, addCount, Ev.isAdd, Ev.ref, hq] at *
        omega
    | act q t rep =>
      simp only [Ev.time] at het
      subst het
      have hgr : GoodReply rep := hg (.act q t rep) (by simp)
      have hz : (((nextWake iv t rep).map (q, ·)).toList).count (r, t) = 0 := by
        cases hw : nextWake iv t rep with
        | none => simp
        | some u =>
          have := ne_of_gt (nextWake_gt hiv hgr hw).1
          simp [this]
      simp only [calStep, List.count_append, hz]
      have hmem := hadm.1
      by_cases hq : q = r
      · subst hq
        have hpos : 0 < (cal iv (l ++ m)).count (q, t) := List.count_pos_iff.2 hmem
        have e1 : (actRefs [Ev.act q t rep]).count q = 1 := by simp [actRefs]
        have e2 : addCount q [Ev.act q t rep] = 0 := by simp [addCount, Ev.isAdd]
        rw [List.count_erase_self, e1, e2]
        omega
      · have h2 : (r, t) ≠ (q, t) := by simp; exact fun e => hq e.symm
        rw [List.count_erase_of_ne h2]
        simp [actRefs, addCount, Ev.isAdd, hq] at *
        omega

theorem addCount_pos {r : Ref} {t : Time} {l : List Ev} (h : Ev.added r t ∈ l) : 0 < addCount r l := by
  rw [addCount, List.countP_pos_iff]
  exact ⟨_, h, by simp [Ev.isAdd, Ev.ref]⟩

theorem mem_actRefs {r : Ref} {l : List Ev} : r ∈ actRefs l ↔ ∃ t rep, Ev.act r t rep ∈ l := by
  simp only [actRefs, List.mem_filterMap]
  constructor
  · rintro ⟨e, he, h⟩
    cases e with
    | added => simp at h
    | act q t rep => simp at h; subst h; exact ⟨t, rep, he⟩
  · rintro ⟨t, rep, h⟩
    exact ⟨_, h, rfl⟩

theorem Timeline.next {a b : Option Time} {pre post : List Ev} {r r' : Ref} {t u : Time}
    {rep rep' : Reply} (h : Timeline iv a (pre ++ .act r t rep :: .act r' u rep' :: post) b) :
    nextWake iv t rep = some u := by
  generalize hl : pre ++ .act r t rep :: .act r' u rep' :: post = l at h
  induction h generalizing pre with
  | nil => simp at hl
  | add _ ih =>
    cases pre with
    | nil => cases hl
    | cons p pre => simp only [List.cons_append, List.cons.injEq] at hl; exact ih hl.2
  | act htl ih =>
    cases pre with
    | nil =>
      simp only [List.nil_append, List.cons.injEq, Ev.act.injEq] at hl
      obtain ⟨⟨rfl, rfl, rfl⟩, rfl⟩ := hl
      cases htl' : nextWake iv t rep with
      | none => rw [htl'] at htl; cases htl
      | some x => rw [htl'] at htl; cases htl; rfl
    | cons p pre => simp only [List.cons_append, List.cons.injEq] at hl; exact ih hl.2

theorem Timeline.first {a b : Option Time} {pre post : List Ev} {r r' : Ref} {t u : Time}
    {rep' : Reply} (h : Timeline iv a (pre ++ .added r t :: .act r' u rep' :: post) b) : u = t := by
  generalize hl : pre ++ .added r t :: .act r' u rep' :: post = l at h
  induction h generalizing pre with
  | nil => simp at hl
  | add htl ih =>
    cases pre with
    | nil =>
      simp only [List.nil_append, List.cons.injEq, Ev.added.injEq] at hl
      obtain ⟨⟨rfl, rfl⟩, rfl⟩ := hl
      cases htl; rfl
    | cons p pre => simp only [List.cons_append, List.cons.injEq] at hl; exact ih hl.2
  | act htl ih =>
    cases pre with
    | nil => cases hl
    | cons p pre => simp only [List.cons_append, List.cons.injEq] at hl; exact ih hl.2

end Verif.Spec
