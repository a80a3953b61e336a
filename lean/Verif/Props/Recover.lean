import Verif.Props.Scheduler

/-!
# Histories in which agents raise exceptions: C01, C02, C10

The theorems of `Props/Scheduler` are about histories without unexpected exceptions. Here any number of activations may
raise, and the caller goes on with the scheduler.
-/

namespace Verif

open Spec

variable {W : Type}

/-- No reply is a negative delay; exceptions are allowed. -/
def CalmReply : Reply → Prop
  | .ret (some d) => 0 ≤ d
  | _ => True

instance : DecidablePred CalmReply
  | .ret (some d) => inferInstanceAs (Decidable (0 ≤ d))
  | .ret none => isTrue trivial
  | .dead => isTrue trivial
  | .error => isTrue trivial

def CalmEv : Ev → Prop
  | .act _ _ rep => CalmReply rep
  | .added _ _ => True

instance : DecidablePred CalmEv
  | .act _ _ rep => inferInstanceAs (Decidable (CalmReply rep))
  | .added _ _ => isTrue trivial

def CalmLog (log : List Ev) : Prop := ∀ e ∈ log, CalmEv e

instance (log : List Ev) : Decidable (CalmLog log) := inferInstanceAs (Decidable (∀ e ∈ log, CalmEv e))

/-- According to the log, agent `r` has asked to run at `t`: it was added then, or it replied so. -/
def Asked (iv : Time) (log : List Ev) (r : Ref) (t : Time) : Prop :=
  .added r t ∈ log ∨ ∃ t' rep, .act r t' rep ∈ log ∧ nextWake iv t' rep = some t

theorem Asked.mono {iv : Time} {log log' : List Ev} {r : Ref} {t : Time} (h : Asked iv log r t)
    (hs : ∀ e ∈ log, e ∈ log') : Asked iv log' r t := by
  rcases h with h | ⟨t', rep, h, h2⟩
  · exact Or.inl (hs _ h)
  · exact Or.inr ⟨t', rep, hs _ h, h2⟩

/-- The entries of a queue. -/
def entries (q : List (Time × List Ref)) : Cal := q.flatMap (fun b => b.2.map (·, b.1))

theorem mem_entries {q : List (Time × List Ref)} {r : Ref} {t : Time} :
    (r, t) ∈ entries q ↔ ∃ l, (t, l) ∈ q ∧ r ∈ l := by
  unfold entries
  simp only [List.mem_flatMap, List.mem_map, Prod.mk.injEq]
  constructor
  · rintro ⟨b, hb, x, hx, rfl, rfl⟩
    exact ⟨b.2, hb, hx⟩
  · rintro ⟨l, h1, h2⟩
    exact ⟨(t, l), h1, r, h2, rfl, rfl⟩

theorem mem_entries_insert {q : List (Time × List Ref)} {t : Time} {r : Ref} (x : Ref × Time) :
    x ∈ entries (insertBucket t r q) ↔ x = (r, t) ∨ x ∈ entries q := by
  induction q with
  | nil => simp [insertBucket, entries]
  | cons b q ih =>
    obtain ⟨u, l⟩ := b
    simp only [insertBucket]
    have hcons : ∀ (b : Time × List Ref) q, entries (b :: q) = b.2.map (·, b.1) ++ entries q := fun _ _ => rfl
    by_cases h : u = t
    · subst h
      rw [if_pos rfl, hcons, hcons]
      simp only [List.map_append, List.map_cons, List.map_nil, List.mem_append, List.mem_singleton]
      tauto
    · rw [if_neg h]
      by_cases h2 : t < u
      · rw [if_pos h2, hcons]
        simp
      · rw [if_neg h2, hcons, hcons, List.mem_append, List.mem_append, ih]
        tauto

/-- The invariant that survives exceptions. -/
structure WInv (s : Sched) : Prop where
  time_nonneg : 0 ≤ s.time
  iv_pos : 0 < s.interval
  sorted : SortedQ s.queue
  ge : QGe s.time s.queue
  past : ∀ e ∈ s.log, e.time ≤ s.time
  chron : Chronological s.log
  src : ∀ r t, (r, t) ∈ entries s.queue → Asked s.interval s.log r t
  acted : ∀ pre r t rep post, s.log = pre ++ .act r t rep :: post → Asked s.interval pre r t

theorem chron_snoc {log : List Ev} {e : Ev} (h : Chronological log) (he : ∀ x ∈ log, x.time ≤ e.time) :
    Chronological (log ++ [e]) := by
  unfold Chronological at *
  rw [List.pairwise_append]
  refine ⟨h, by simp, ?_⟩
  intro a ha b hb
  simp only [List.mem_singleton] at hb
  subst hb
  exact he a ha

theorem acted_snoc {iv : Time} {log : List Ev} {e : Ev}
    (h : ∀ pre r t rep post, log = pre ++ .act r t rep :: post → Asked iv pre r t)
    (he : ∀ r t rep, e = .act r t rep → Asked iv log r t) :
    ∀ pre r t rep post, log ++ [e] = pre ++ .act r t rep :: post → Asked iv pre r t := by
  intro pre r t rep post hh
  rcases List.eq_nil_or_concat post with rfl | ⟨post', x, rfl⟩
  · have := List.append_inj' hh (by simp)
    rw [← this.1]
    exact he r t rep (by simpa using this.2)
  · rw [List.concat_eq_append] at hh
    have : log ++ [e] = (pre ++ .act r t rep :: post') ++ [x] := by rw [hh]; simp
    exact h pre r t rep post' (List.append_inj' this (by simp)).1

theorem WInv.op {s : Sched} (h : WInv s) (o : SOp) : WInv (s.applyOp o) := by
  cases o with
  | add r w =>
    have hq : (s.applyOp (.add r w)).queue = insertBucket s.time r s.queue := rfl
    have hl : (s.applyOp (.add r w)).log = s.log ++ [.added r s.time] := rfl
    refine ⟨h.time_nonneg, h.iv_pos, ?_, ?_, ?_, ?_, ?_, ?_⟩
    · rw [hq]; exact insertBucket_sorted h.sorted
    · rw [hq]; exact insertBucket_ge h.ge le_rfl
    · rw [hl]
      intro e he
      rcases List.mem_append.1 he with he | he
      · exact h.past e he
      · simp only [List.mem_singleton] at he; subst he; exact le_rfl
    · rw [hl]; exact chron_snoc h.chron h.past
    · rw [hq, hl]
      intro r' t' hm
      rcases (mem_entries_insert _).1 hm with he | he
      · cases he; exact Or.inl (by simp)
      · exact (h.src r' t' he).mono (fun e he => List.mem_append_left _ he)
    · rw [hl]; exact acted_snoc h.acted (by intro _ _ _ hh; cases hh)
  | remove r => exact ⟨h.time_nonneg, h.iv_pos, h.sorted, h.ge, h.past, h.chron, h.src, h.acted⟩
  | stop => exact ⟨h.time_nonneg, h.iv_pos, h.sorted, h.ge, h.past, h.chron, h.src, h.acted⟩

theorem WInv.ops {s : Sched} (h : WInv s) (os : List SOp) : WInv (s.applyOps os) := by
  induction os generalizing s with
  | nil => exact h
  | cons o os ih => exact ih (h.op o)

theorem WInv.act {s : Sched} (h : WInv s) (r : Ref) (rep : Reply) (hc : CalmReply rep)
    (ha : Asked s.interval s.log r s.time) : WInv (afterAct s r s.time rep) := by
  have hlog : (afterAct s r s.time rep).log = s.log ++ [.act r s.time rep] := afterAct_log s r s.time rep
  have hpast : ∀ e ∈ s.log ++ [Ev.act r s.time rep], e.time ≤ s.time := by
    intro e he
    rcases List.mem_append.1 he with he | he
    · exact h.past e he
    · simp only [List.mem_singleton] at he; subst he; exact le_rfl
  have hchron := chron_snoc (e := .act r s.time rep) h.chron h.past
  have hacted : ∀ pre r' t rep' post, s.log ++ [Ev.act r s.time rep] = pre ++ .act r' t rep' :: post →
      Asked s.interval pre r' t := acted_snoc h.acted (by
    intro r' t rep' hh
    cases hh
    exact ha)
  have hsame : (afterAct s r s.time rep).queue = s.queue → WInv (afterAct s r s.time rep) := by
    intro hq
    refine ⟨?_, ?_, ?_, ?_, ?_, ?_, ?_, ?_⟩
    · rw [afterAct_time]; exact h.time_nonneg
    · rw [afterAct_interval]; exact h.iv_pos
    · rw [hq]; exact h.sorted
    · rw [hq, afterAct_time]; exact h.ge
    · rw [hlog, afterAct_time]; exact hpast
    · rw [hlog]; exact hchron
    · rw [hq, hlog, afterAct_interval]
      intro r' t' hm
      exact (h.src r' t' hm).mono (fun e he => List.mem_append_left _ he)
    · rw [hlog, afterAct_interval]; exact hacted
  cases rep with
  | dead => exact hsame rfl
  | error => exact hsame rfl
  | ret d =>
    by_cases hinf : Time.pyOr d s.interval + s.time = .inf
    · apply hsame
      simp [afterAct, hinf, Sched.logAct]
    · have hd : 0 ≤ effDelay s.interval d := by
        unfold effDelay
        cases d with
        | none => exact le_of_lt h.iv_pos
        | some x =>
          simp only
          split
          · exact le_of_lt h.iv_pos
          · exact hc
      have hq : ∃ u, s.time ≤ u ∧ nextWake s.interval s.time (.ret d) = some u ∧
          (afterAct s r s.time (.ret d)).queue = insertBucket u r s.queue := by
        have hge : s.time ≤ Time.pyOr d s.interval + s.time := by
          rw [time_add_comm, pyOr_eq_eff]; exact Time.le_add_of_nonneg hd
        refine ⟨Time.pyOr d s.interval + s.time, hge, ?_, ?_⟩
        · have hinf' := hinf
          rw [time_add_comm, pyOr_eq_eff] at hinf'
          show (if s.time + effDelay s.interval d = Time.inf then Option.none else some (s.time + effDelay s.interval d)) = _
          rw [if_neg hinf', time_add_comm, pyOr_eq_eff, time_add_comm]
        · have hsch : ∀ x : Time, s.time ≤ x → Time.pyOr (some x) s.time = x := by
            intro x hx
            by_cases h0 : x = 0
            · rw [h0] at hx ⊢
              simp [Time.pyOr, le_antisymm hx h.time_nonneg]
            · have h0' : ¬ x = Time.fin 0 := h0
              simp [Time.pyOr, h0']
          have hinf2 : ¬ Time.pyOr d (s.logAct r s.time (.ret d)).interval + s.time = Time.inf := hinf
          simp only [afterAct]
          rw [if_neg hinf2]
          show insertBucket (Time.pyOr (some (Time.pyOr d s.interval + s.time)) s.time) r s.queue = _
          rw [hsch _ hge]
      obtain ⟨u, hu, hn, hq⟩ := hq
      refine ⟨?_, ?_, ?_, ?_, ?_, ?_, ?_, ?_⟩
      · rw [afterAct_time]; exact h.time_nonneg
      · rw [afterAct_interval]; exact h.iv_pos
      · rw [hq]; exact insertBucket_sorted h.sorted
      · rw [hq, afterAct_time]; exact insertBucket_ge h.ge hu
      · rw [hlog, afterAct_time]; exact hpast
      · rw [hlog]; exact hchron
      · rw [hq, hlog, afterAct_interval]
        intro r' t' hm
        rcases (mem_entries_insert _).1 hm with he | he
        · cases he; exact Or.inr ⟨s.time, .ret d, by simp, hn⟩
        · exact (h.src r' t' he).mono (fun e he => List.mem_append_left _ he)
      · rw [hlog, afterAct_interval]; exact hacted

theorem CalmLog.prefix {a b : List Ev} (h : CalmLog (a ++ b)) : CalmLog a := fun e he => h e (List.mem_append_left _ he)

theorem entries_ops (s : Sched) (os : List SOp) (x : Ref × Time) (hx : x ∈ entries s.queue) :
    x ∈ entries (s.applyOps os).queue := by
  induction os generalizing s with
  | nil => exact hx
  | cons o os ih =>
    apply ih
    cases o with
    | add r w => exact (mem_entries_insert x).2 (Or.inr hx)
    | remove r => exact hx
    | stop => exact hx

theorem entries_act (s : Sched) (r : Ref) (now : Time) (rep : Reply) (x : Ref × Time) (hx : x ∈ entries s.queue) :
    x ∈ entries (afterAct s r now rep).queue := by
  cases rep with
  | dead => exact hx
  | error => exact hx
  | ret d =>
    by_cases hinf : Time.pyOr d s.interval + now = .inf
    · simpa [afterAct, hinf, Sched.logAct] using hx
    · have hinf2 : ¬ Time.pyOr d (s.logAct r now (.ret d)).interval + now = Time.inf := hinf
      simp only [afterAct]
      rw [if_neg hinf2]
      exact (mem_entries_insert x).2 (Or.inr hx)

/-- Running a bucket: the invariant stays; what is in the queue stays there; every agent of the bucket runs at that time unless
one before it raises. -/
theorem WInv.runB {H : Host W} {b : List Ref} {s : Sched} {w : W} (h : WInv s)
    (hb : ∀ r ∈ b, Asked s.interval s.log r s.time) (hg : CalmLog (runBucket H s.time b s w).1.log) :
    WInv (runBucket H s.time b s w).1 ∧ (runBucket H s.time b s w).1.time = s.time ∧
    (∀ x ∈ entries s.queue, x ∈ entries (runBucket H s.time b s w).1.queue) ∧
    ∃ evs, (runBucket H s.time b s w).1.log = s.log ++ evs ∧
      ∀ r ∈ b, (∃ rep, .act r s.time rep ∈ evs) ∨ ∃ r', .act r' s.time .error ∈ evs := by
  induction b generalizing s w with
  | nil => exact ⟨h, rfl, fun _ hx => hx, [], by simp [runBucket], by simp⟩
  | cons r rest ih =>
    rw [runBucket_cons] at hg ⊢
    simp only at hg ⊢
    have hops := h.ops (H.step r s w).2.1
    have htime : (s.applyOps (H.step r s w).2.1).time = s.time := applyOps_time _ _
    have hiv : (s.applyOps (H.step r s w).2.1).interval = s.interval := applyOps_interval _ _
    obtain ⟨l1, hl1, _⟩ := applyOps_log s (H.step r s w).2.1
    have hask : Asked (s.applyOps (H.step r s w).2.1).interval (s.applyOps (H.step r s w).2.1).log r
        (s.applyOps (H.step r s w).2.1).time := by
      rw [htime, hiv, hl1]
      exact (hb r (by simp)).mono (fun e he => List.mem_append_left _ he)
    have hlog2 := afterAct_log (s.applyOps (H.step r s w).2.1) r s.time (H.step r s w).1
    have hent : ∀ x ∈ entries s.queue,
        x ∈ entries (afterAct (s.applyOps (H.step r s w).2.1) r s.time (H.step r s w).1).queue :=
      fun x hx => entries_act _ _ _ _ _ (entries_ops _ _ _ hx)
    have hact : CalmReply (H.step r s w).1 →
        WInv (afterAct (s.applyOps (H.step r s w).2.1) r s.time (H.step r s w).1) := by
      intro hc
      have := hops.act r (H.step r s w).1 hc hask
      rwa [htime] at this
    by_cases he : (H.step r s w).1 = .error
    · rw [if_pos he] at hg ⊢
      have hc : CalmReply (H.step r s w).1 := by rw [he]; trivial
      refine ⟨hact hc, by simp only [afterAct_time, htime], hent, l1 ++ [.act r s.time (H.step r s w).1], ?_, ?_⟩
      · simp only [hlog2, hl1, List.append_assoc]
      · intro r' hr'
        exact Or.inr ⟨r, by rw [he]; simp⟩
    · rw [if_neg he] at hg ⊢
      obtain ⟨l2, hl2, _⟩ := runBucket_log H s.time rest
        (afterAct (s.applyOps (H.step r s w).2.1) r s.time (H.step r s w).1) (H.step r s w).2.2
      have hc : CalmReply (H.step r s w).1 := by
        have : Ev.act r s.time (H.step r s w).1 ∈ (runBucket H s.time rest
            (afterAct (s.applyOps (H.step r s w).2.1) r s.time (H.step r s w).1) (H.step r s w).2.2).1.log := by
          rw [hl2, hlog2]; simp
        exact hg _ this
      have htime2 : (afterAct (s.applyOps (H.step r s w).2.1) r s.time (H.step r s w).1).time = s.time := by
        rw [afterAct_time, htime]
      have hiv2 : (afterAct (s.applyOps (H.step r s w).2.1) r s.time (H.step r s w).1).interval = s.interval := by
        rw [afterAct_interval, hiv]
      have key := ih (s := afterAct (s.applyOps (H.step r s w).2.1) r s.time (H.step r s w).1) (w := (H.step r s w).2.2)
        (hact hc)
      rw [htime2, hiv2] at key
      obtain ⟨k1, k2, k3, evs, k4, k5⟩ := key (by
        intro r' hr'
        rw [hlog2, hl1]
        exact (hb r' (List.mem_cons_of_mem _ hr')).mono (fun e he => by simp [he])) hg
      refine ⟨k1, k2, fun x hx => k3 x (hent x hx), l1 ++ [.act r s.time (H.step r s w).1] ++ evs, ?_, ?_⟩
      · rw [k4, hlog2, hl1]; simp
      · intro r' hr'
        rcases List.mem_cons.1 hr' with rfl | hr'
        · exact Or.inl ⟨(H.step r' s w).1, by simp⟩
        · rcases k5 r' hr' with ⟨rep, hh⟩ | ⟨r2, hh⟩
          · exact Or.inl ⟨rep, List.mem_append_right _ hh⟩
          · exact Or.inr ⟨r2, List.mem_append_right _ hh⟩

/-- One step. -/
theorem WInv.step {s : Sched} (h : WInv s) (H : Host W) (w : W) (hg : CalmLog (s.step H w).1.log) :
    WInv (s.step H w).1 ∧ s.time ≤ (s.step H w).1.time ∧
    ∃ evs, (s.step H w).1.log = s.log ++ evs ∧
      ∀ r t, (r, t) ∈ entries s.queue → (r, t) ∈ entries (s.step H w).1.queue ∨ (∃ rep, .act r t rep ∈ evs) ∨
        ∃ r', .act r' t .error ∈ evs := by
  cases hq : s.queue with
  | nil =>
    have : s.step H w = (s, w, false) := by simp [Sched.step, hq]
    rw [this]
    exact ⟨h, le_rfl, [], by simp, by intro r t hm; simp [entries] at hm⟩
  | cons c q =>
    obtain ⟨t, b⟩ := c
    have hs := h.sorted
    rw [hq] at hs
    have hge := h.ge
    rw [hq] at hge
    have hs' : SortedQ q ∧ ∀ c ∈ q, t < c.1 := by
      unfold SortedQ at hs
      rw [List.pairwise_cons] at hs
      exact ⟨hs.2, hs.1⟩
    by_cases ht : s.time < t
    · have e : s.step H w = ({ s with time := t }, w, false) := by simp [Sched.step, hq, ht]
      rw [e]
      refine ⟨⟨le_trans h.time_nonneg (le_of_lt ht), h.iv_pos, h.sorted, ?_, ?_, h.chron, h.src, h.acted⟩, le_of_lt ht, [], by simp, ?_⟩
      · intro c hc
        rw [hq] at hc
        rcases List.mem_cons.1 hc with rfl | hc
        · exact le_rfl
        · exact le_of_lt (hs'.2 c hc)
      · intro e he; exact le_trans (h.past e he) (le_of_lt ht)
      · intro r t' hm; rw [← hq] at hm; exact Or.inl hm
    · have htt : t = s.time := le_antisymm (not_lt.1 ht) (hge (t, b) (by simp))
      have e : s.step H w = finishStep (runBucket H s.time (runOrder H s b w).1 { s with queue := q } (runOrder H s b w).2) := by
        simp [Sched.step, hq, ht]
      rw [e] at hg ⊢
      rw [finishStep_log] at hg ⊢
      have hpop : WInv { s with queue := q } := by
        refine ⟨h.time_nonneg, h.iv_pos, hs'.1, fun c hc => hge c (List.mem_cons_of_mem _ hc), h.past, h.chron, ?_, h.acted⟩
        intro r t' hm
        apply h.src r t'
        rw [hq, mem_entries]
        obtain ⟨l, h1, h2⟩ := mem_entries.1 hm
        exact ⟨l, List.mem_cons_of_mem _ h1, h2⟩
      have hrun := hpop.runB (H := H) (b := (runOrder H s b w).1) (w := (runOrder H s b w).2) (by
        intro r hr
        have hr' : r ∈ b := (runOrder_perm H s b w).mem_iff.1 hr
        apply h.src r s.time
        rw [hq, mem_entries]
        exact ⟨b, by rw [htt]; simp, hr'⟩) hg
      obtain ⟨k1, k2, k3, evs, k4, k5⟩ := hrun
      generalize hres : runBucket H s.time (runOrder H s b w).1 { s with queue := q } (runOrder H s b w).2 = res at *
      have hqq : (finishStep res).1.queue = res.1.queue := by unfold finishStep; split <;> rfl
      have hw : WInv (finishStep res).1 ∧ s.time ≤ (finishStep res).1.time := by
        unfold finishStep
        split
        · exact ⟨k1, le_of_eq k2.symm⟩
        · have hle : s.time ≤ headTime res.1.queue := by
            cases hq2 : res.1.queue with
            | nil => simp [headTime]
            | cons c q2 => have := k1.ge c (by rw [hq2]; simp); rw [k2] at this; exact this
          refine ⟨⟨le_trans h.time_nonneg hle, k1.iv_pos, k1.sorted, ?_, ?_, k1.chron, k1.src, k1.acted⟩, hle⟩
          · show QGe (headTime res.1.queue) res.1.queue
            cases hq2 : res.1.queue with
            | nil => intro c hc; cases hc
            | cons c q2 =>
              have hss := k1.sorted
              rw [hq2] at hss
              unfold SortedQ at hss
              rw [List.pairwise_cons] at hss
              intro c' hc'
              rcases List.mem_cons.1 hc' with rfl | hc'
              · exact le_rfl
              · exact le_of_lt (hss.1 c' hc')
          · intro e he
            show e.time ≤ headTime res.1.queue
            have := k1.past e he
            rw [k2] at this
            exact le_trans this hle
      refine ⟨hw.1, hw.2, evs, k4, ?_⟩
      intro r t' hm
      rw [hqq]
      obtain ⟨l, h1, h2⟩ := mem_entries.1 hm
      rcases List.mem_cons.1 h1 with he | h1
      · cases he
        right
        rw [htt]
        exact k5 r ((runOrder_perm H s b w).mem_iff.2 h2)
      · left
        exact k3 _ (mem_entries.2 ⟨l, h1, h2⟩)

/-- Any history. -/
theorem WInv.execAll {sw : Sched × W} (h : WInv sw.1) (H : Host W) (hist : List (Cmd W))
    (hg : CalmLog (execAll H hist sw).1.log) :
    WInv (Verif.execAll H hist sw).1 ∧ sw.1.time ≤ (Verif.execAll H hist sw).1.time ∧
    ∃ evs, (Verif.execAll H hist sw).1.log = sw.1.log ++ evs ∧
      ∀ r t, (r, t) ∈ entries sw.1.queue → (r, t) ∈ entries (Verif.execAll H hist sw).1.queue ∨ (∃ rep, .act r t rep ∈ evs) ∨
        ∃ r', .act r' t .error ∈ evs := by
  induction hist generalizing sw with
  | nil => exact ⟨h, le_rfl, [], by simp [Verif.execAll], fun r t hm => Or.inl hm⟩
  | cons c hist ih =>
    have e : Verif.execAll H (c :: hist) sw = Verif.execAll H hist (c.exec H sw) := rfl
    rw [e] at hg ⊢
    have hone : CalmLog (c.exec H sw).1.log → WInv (c.exec H sw).1 ∧ sw.1.time ≤ (c.exec H sw).1.time ∧
        ∃ evs, (c.exec H sw).1.log = sw.1.log ++ evs ∧
          ∀ r t, (r, t) ∈ entries sw.1.queue → (r, t) ∈ entries (c.exec H sw).1.queue ∨ (∃ rep, .act r t rep ∈ evs) ∨
            ∃ r', .act r' t .error ∈ evs := by
      obtain ⟨s, w⟩ := sw
      intro hc
      cases c with
      | step => exact h.step H w hc
      | op o =>
        obtain ⟨l, hl, _⟩ := applyOp_log s o
        exact ⟨h.op o, le_of_eq (applyOp_time s o).symm, l, hl, fun r t hm => Or.inl (entries_ops s [o] _ hm)⟩
      | world f => exact ⟨h, le_rfl, [], by simp [Cmd.exec], fun r t hm => Or.inl hm⟩
    obtain ⟨l, hl⟩ := execAll_log H hist (c.exec H sw)
    obtain ⟨h1, h2, evs1, h3, h4⟩ := hone (by rw [hl] at hg; exact hg.prefix)
    obtain ⟨k1, k2, evs2, k3, k4⟩ := ih h1 hg
    refine ⟨k1, le_trans h2 k2, evs1 ++ evs2, by rw [k3, h3, List.append_assoc], ?_⟩
    intro r t hm
    rcases h4 r t hm with hh | ⟨rep, hh⟩ | ⟨r', hh⟩
    · rcases k4 r t hh with hh | ⟨rep, hh⟩ | ⟨r', hh⟩
      · exact Or.inl hh
      · exact Or.inr (Or.inl ⟨rep, List.mem_append_right _ hh⟩)
      · exact Or.inr (Or.inr ⟨r', List.mem_append_right _ hh⟩)
    · exact Or.inr (Or.inl ⟨rep, List.mem_append_left _ hh⟩)
    · exact Or.inr (Or.inr ⟨r', List.mem_append_left _ hh⟩)

theorem WInv.init {iv : Time} (h : 0 < iv) (sh : Bool) : WInv (Sched.init iv sh) where
  time_nonneg := le_rfl
  iv_pos := h
  sorted := List.Pairwise.nil
  ge := by intro b hb; cases hb
  past := by intro e he; cases he
  chron := List.Pairwise.nil
  src := by intro r t hm; cases hm
  acted := by intro pre r t rep post hh; cases pre <;> cases hh

/-- C01 also when agents raise: the clock never goes backwards and the log is in time order. -/
theorem C01_time_monotone_raising (H : Host W) (iv : Time) (hiv : 0 < iv) (sh : Bool) (w0 : W) (h1 h2 : List (Cmd W))
    (hg : CalmLog (reach H iv sh w0 (h1 ++ h2)).1.log) :
    0 ≤ (reach H iv sh w0 h1).1.time ∧ (reach H iv sh w0 h1).1.time ≤ (reach H iv sh w0 (h1 ++ h2)).1.time ∧
    Chronological (reach H iv sh w0 (h1 ++ h2)).1.log := by
  simp only [reach, execAll_append] at hg ⊢
  obtain ⟨l, hl⟩ := execAll_log H h2 (execAll H h1 (Sched.init iv sh, w0))
  have hg1 : CalmLog (execAll H h1 (Sched.init iv sh, w0)).1.log := by rw [hl] at hg; exact hg.prefix
  obtain ⟨i1, _, _⟩ := WInv.execAll (sw := (Sched.init iv sh, w0)) (WInv.init hiv sh) H h1 hg1
  obtain ⟨j1, j2, _⟩ := WInv.execAll i1 H h2 hg
  exact ⟨i1.time_nonneg, j2, j1.chron⟩

/-- C02 also when agents raise: no agent ever acts at a time it has not asked for before. -/
theorem C02_only_when_asked (H : Host W) (iv : Time) (hiv : 0 < iv) (sh : Bool) (w0 : W) (h : List (Cmd W))
    (hg : CalmLog (reach H iv sh w0 h).1.log) (pre post : List Ev) (r : Ref) (t : Time) (rep : Reply)
    (hlog : (reach H iv sh w0 h).1.log = pre ++ .act r t rep :: post) : Asked iv pre r t := by
  obtain ⟨i1, _, _⟩ := WInv.execAll (sw := (Sched.init iv sh, w0)) (WInv.init hiv sh) H h hg
  have := i1.acted pre r t rep post hlog
  rwa [reach_interval] at this

/-- C10, what holds over whole histories with any number of exceptions: an agent that is pending for time `t` stays pending
until it acts at `t`, unless another agent raises at `t`. -/
theorem C10_kept_partial (H : Host W) (iv : Time) (hiv : 0 < iv) (sh : Bool) (w0 : W) (h1 h2 : List (Cmd W))
    (hg : CalmLog (reach H iv sh w0 (h1 ++ h2)).1.log) (r : Ref) (t : Time) (hp : (r, t) ∈ pending (reach H iv sh w0 h1).1) :
    ∃ evs, (reach H iv sh w0 (h1 ++ h2)).1.log = (reach H iv sh w0 h1).1.log ++ evs ∧
      ((r, t) ∈ pending (reach H iv sh w0 (h1 ++ h2)).1 ∨ (∃ rep, .act r t rep ∈ evs) ∨ ∃ r', .act r' t .error ∈ evs) := by
  rw [reach, execAll_append] at hg
  obtain ⟨l, hl⟩ := execAll_log H h2 (execAll H h1 (Sched.init iv sh, w0))
  have hg1 : CalmLog (execAll H h1 (Sched.init iv sh, w0)).1.log := by rw [hl] at hg; exact hg.prefix
  obtain ⟨i1, _, _⟩ := WInv.execAll (sw := (Sched.init iv sh, w0)) (WInv.init hiv sh) H h1 hg1
  obtain ⟨_, _, evs, j3, j4⟩ := WInv.execAll i1 H h2 hg
  refine ⟨evs, ?_, ?_⟩
  · rw [reach, execAll_append]; exact j3
  · have := j4 r t hp
    rw [reach, execAll_append]
    exact this

/-- Agent 0 raises in its first step; agents 1 and 2, added before, go on. -/
def exRaise : List (Cmd Unit) := [.op (.add 1 none), .op (.add 2 none), .step, .op (.add 0 none)]

example : CalmLog (reach raisingHost 3 true () (exRaise ++ [.step, .step, .step])).1.log ∧
    ((reach raisingHost 3 true () exRaise).1.step raisingHost ()).2.2 = true ∧
    (2, 2) ∈ pending (reach raisingHost 3 true () exRaise).1 ∧
    (reach raisingHost 3 true () exRaise).1.time < (reach raisingHost 3 true () (exRaise ++ [.step, .step, .step])).1.time := by
  decide +kernel

example : actRefs (reach raisingHost 3 true () (exRaise ++ [.step, .step, .step])).1.log = [1, 2, 1, 0, 2, 1] := by
  decide +kernel

/-! ### C82: the set of agents of the scheduler -/

theorem agents_op (s : Sched) (o : SOp) (r : Ref) :
    (r ∈ (s.applyOp o).agents → r ∈ s.agents ∨ ∃ t, .added r t ∈ (s.applyOp o).log) ∧
    (r ∈ s.agents → o ≠ .remove r → r ∈ (s.applyOp o).agents) ∧
    (s.agents.Nodup → (s.applyOp o).agents.Nodup) := by
  cases o with
  | stop => exact ⟨fun h => Or.inl h, fun h _ => h, fun h => h⟩
  | remove x =>
    refine ⟨fun h => Or.inl (List.mem_of_mem_erase h), ?_, fun h => h.erase x⟩
    intro h hne
    have : r ≠ x := by rintro rfl; exact hne rfl
    exact (List.mem_erase_of_ne this).2 h
  | add x w =>
    have e : (s.applyOp (.add x w)).agents = if x ∈ s.agents then s.agents else s.agents ++ [x] := rfl
    have el : (s.applyOp (.add x w)).log = s.log ++ [.added x s.time] := rfl
    rw [e, el]
    by_cases hx : x ∈ s.agents
    · rw [if_pos hx]
      exact ⟨fun h => Or.inl h, fun h _ => h, fun h => h⟩
    · rw [if_neg hx]
      refine ⟨?_, fun h _ => List.mem_append_left _ h, ?_⟩
      · intro h
        rcases List.mem_append.1 h with h | h
        · exact Or.inl h
        · simp only [List.mem_singleton] at h
          subst h
          exact Or.inr ⟨s.time, by simp⟩
      · intro h
        rw [List.nodup_append]
        refine ⟨h, by simp, ?_⟩
        intro a ha b hb
        simp only [List.mem_singleton] at hb
        subst hb
        rintro rfl
        exact hx ha

/-- What a piece of a run does to the set of agents: `ok` says that it does not remove `r`. -/
def AgentsStep (s s' : Sched) (r : Ref) (ok : Prop) : Prop :=
  (∃ evs, s'.log = s.log ++ evs ∧ (r ∈ s'.agents → r ∈ s.agents ∨ ∃ t, .added r t ∈ evs)) ∧
  (ok → r ∈ s.agents → r ∈ s'.agents) ∧ (s.agents.Nodup → s'.agents.Nodup)

theorem AgentsStep.refl (s : Sched) (r : Ref) (ok : Prop) : AgentsStep s s r ok :=
  ⟨⟨[], by simp, fun h => Or.inl h⟩, fun _ h => h, fun h => h⟩

theorem AgentsStep.trans {s1 s2 s3 : Sched} {r : Ref} {ok1 ok2 ok : Prop} (h1 : AgentsStep s1 s2 r ok1)
    (h2 : AgentsStep s2 s3 r ok2) (ho1 : ok → ok1) (ho2 : ok → ok2) : AgentsStep s1 s3 r ok := by
  obtain ⟨⟨e1, l1, a1⟩, b1, c1⟩ := h1
  obtain ⟨⟨e2, l2, a2⟩, b2, c2⟩ := h2
  refine ⟨⟨e1 ++ e2, by rw [l2, l1, List.append_assoc], ?_⟩, fun ho h => b2 (ho2 ho) (b1 (ho1 ho) h), fun h => c2 (c1 h)⟩
  intro h
  rcases a2 h with h | ⟨t, h⟩
  · rcases a1 h with h | ⟨t, h⟩
    · exact Or.inl h
    · exact Or.inr ⟨t, List.mem_append_left _ h⟩
  · exact Or.inr ⟨t, List.mem_append_right _ h⟩

theorem AgentsStep.op (s : Sched) (o : SOp) (r : Ref) : AgentsStep s (s.applyOp o) r (o ≠ .remove r) := by
  obtain ⟨_, b, c⟩ := agents_op s o r
  refine ⟨?_, fun ho h => b h ho, c⟩
  cases o with
  | stop => exact ⟨[], by simp [Sched.applyOp], fun h => Or.inl h⟩
  | remove x => exact ⟨[], by simp [Sched.applyOp, Sched.removeAgent], fun h => Or.inl (List.mem_of_mem_erase h)⟩
  | add x w =>
    refine ⟨[.added x s.time], rfl, ?_⟩
    intro h
    have e : (s.applyOp (.add x w)).agents = if x ∈ s.agents then s.agents else s.agents ++ [x] := rfl
    rw [e] at h
    by_cases hx : x ∈ s.agents
    · rw [if_pos hx] at h; exact Or.inl h
    · rw [if_neg hx] at h
      rcases List.mem_append.1 h with h | h
      · exact Or.inl h
      · simp only [List.mem_singleton] at h
        subst h
        exact Or.inr ⟨s.time, by simp⟩

theorem AgentsStep.ops (s : Sched) (os : List SOp) (r : Ref) : AgentsStep s (s.applyOps os) r (.remove r ∉ os) := by
  induction os generalizing s with
  | nil => exact AgentsStep.refl s r _
  | cons o os ih =>
    refine (AgentsStep.op s o r).trans (ih (s.applyOp o)) ?_ ?_
    · rintro h rfl; exact h (by simp)
    · intro h hm; exact h (List.mem_cons_of_mem _ hm)

theorem afterAct_agents (s : Sched) (x : Ref) (now : Time) (rep : Reply) : (afterAct s x now rep).agents = s.agents := by
  cases rep with
  | dead => rfl
  | error => rfl
  | ret d => unfold afterAct; simp only; split <;> rfl

theorem AgentsStep.runB (H : Host W) (now : Time) (b : List Ref) (s : Sched) (w : W) (r : Ref) :
    AgentsStep s (runBucket H now b s w).1 r (∀ x s w, SOp.remove r ∉ (H.step x s w).2.1) := by
  induction b generalizing s w with
  | nil => exact AgentsStep.refl s r _
  | cons x rest ih =>
    rw [runBucket_cons]
    simp only
    have h1 := AgentsStep.ops s (H.step x s w).2.1 r
    have h2 : AgentsStep (s.applyOps (H.step x s w).2.1)
        (afterAct (s.applyOps (H.step x s w).2.1) x now (H.step x s w).1) r True := by
      refine ⟨⟨[.act x now (H.step x s w).1], afterAct_log _ _ _ _, ?_⟩, ?_, ?_⟩ <;> rw [afterAct_agents]
      · exact fun h => Or.inl h
      · exact fun _ h => h
      · exact fun h => h
    have h3 : AgentsStep s (afterAct (s.applyOps (H.step x s w).2.1) x now (H.step x s w).1) r
        (∀ x s w, SOp.remove r ∉ (H.step x s w).2.1) := h1.trans h2 (fun h => h x s w) (fun _ => trivial)
    by_cases he : (H.step x s w).1 = .error
    · rw [if_pos he]; exact h3
    · rw [if_neg he]; exact h3.trans (ih _ _) id id

theorem AgentsStep.step (H : Host W) (s : Sched) (w : W) (r : Ref) :
    AgentsStep s (s.step H w).1 r (∀ x s w, SOp.remove r ∉ (H.step x s w).2.1) := by
  unfold Sched.step
  split
  · exact AgentsStep.refl s r _
  · rename_i t bucket q hq
    split
    · exact ⟨⟨[], by simp, fun h => Or.inl h⟩, fun _ h => h, fun h => h⟩
    · simp only
      have h := AgentsStep.runB H s.time (runOrder H s bucket w).1 { s with queue := q } (runOrder H s bucket w).2 r
      obtain ⟨⟨e, l, a⟩, b, c⟩ := h
      refine ⟨⟨e, ?_, ?_⟩, ?_, ?_⟩ <;> unfold finishStep <;> split
      all_goals first | exact l | exact a | exact b | exact c

theorem AgentsStep.execAll (H : Host W) (h : List (Cmd W)) (sw : Sched × W) (r : Ref) :
    AgentsStep sw.1 (Verif.execAll H h sw).1 r
      ((∀ x s w, SOp.remove r ∉ (H.step x s w).2.1) ∧ Cmd.op (.remove r) ∉ h) := by
  induction h generalizing sw with
  | nil => exact AgentsStep.refl sw.1 r _
  | cons c h ih =>
    have e : Verif.execAll H (c :: h) sw = Verif.execAll H h (c.exec H sw) := rfl
    rw [e]
    obtain ⟨s, w⟩ := sw
    have hrest : ((∀ x s w, SOp.remove r ∉ (H.step x s w).2.1) ∧ Cmd.op (.remove r) ∉ c :: h) →
        ((∀ x s w, SOp.remove r ∉ (H.step x s w).2.1) ∧ Cmd.op (.remove r) ∉ h) :=
      fun hh => ⟨hh.1, fun hm => hh.2 (List.mem_cons_of_mem _ hm)⟩
    cases c with
    | step => exact (AgentsStep.step H s w r).trans (ih _) (fun h => h.1) hrest
    | op o => exact (AgentsStep.op s o r).trans (ih _) (by rintro ⟨_, h2⟩ rfl; exact h2 (by simp)) hrest
    | world f => exact (AgentsStep.refl s r True).trans (ih (s, f w)) (fun _ => trivial) hrest

/-- C82: the agents of the scheduler were all added, and each of them is there once. -/
theorem C82_agents_were_added (H : Host W) (iv : Time) (sh : Bool) (w0 : W) (h : List (Cmd W)) :
    (reach H iv sh w0 h).1.agents.Nodup ∧
    ∀ r ∈ (reach H iv sh w0 h).1.agents, ∃ t, .added r t ∈ (reach H iv sh w0 h).1.log := by
  refine ⟨(AgentsStep.execAll H h (Sched.init iv sh, w0) 0).2.2 List.nodup_nil, ?_⟩
  intro r hr
  obtain ⟨⟨e, l, a⟩, _⟩ := AgentsStep.execAll H h (Sched.init iv sh, w0) r
  rcases a hr with hh | ⟨t, hh⟩
  · cases hh
  · exact ⟨t, by rw [reach, l]; exact List.mem_append_right _ hh⟩

/-- C82: an agent that has been added is one of the agents of the scheduler as long as nobody removes it. -/
theorem C82_added_agents_stay (H : Host W) (iv : Time) (sh : Bool) (w0 : W) (h1 h2 : List (Cmd W)) (r : Ref)
    (when_ : Option Time) (hH : ∀ x s w, SOp.remove r ∉ (H.step x s w).2.1) (h2r : Cmd.op (.remove r) ∉ h2) :
    r ∈ (reach H iv sh w0 (h1 ++ .op (.add r when_) :: h2)).1.agents := by
  simp only [reach, execAll_append]
  have e : ∀ sw, execAll H (Cmd.op (.add r when_) :: h2) sw = execAll H h2 ((Cmd.op (.add r when_)).exec H sw) := fun _ => rfl
  rw [e]
  refine (AgentsStep.execAll H h2 _ r).2.1 ⟨hH, h2r⟩ ?_
  generalize execAll H h1 (Sched.init iv sh, w0) = sw
  show r ∈ (if r ∈ sw.1.agents then sw.1.agents else sw.1.agents ++ [r])
  by_cases h : r ∈ sw.1.agents
  · rw [if_pos h]; exact h
  · rw [if_neg h]; simp

/-- C82: a removed agent is not one of the agents of the scheduler until it is added again. -/
theorem C82_removed_agents_go (H : Host W) (iv : Time) (sh : Bool) (w0 : W) (h1 h2 : List (Cmd W)) (r : Ref) :
    ∃ evs, (reach H iv sh w0 (h1 ++ .op (.remove r) :: h2)).1.log = (reach H iv sh w0 h1).1.log ++ evs ∧
      (r ∈ (reach H iv sh w0 (h1 ++ .op (.remove r) :: h2)).1.agents → ∃ t, .added r t ∈ evs) := by
  simp only [reach, execAll_append]
  have hnd := (AgentsStep.execAll H h1 (Sched.init iv sh, w0) r).2.2 List.nodup_nil
  generalize execAll H h1 (Sched.init iv sh, w0) = sw at *
  have e : execAll H (Cmd.op (.remove r) :: h2) sw = execAll H h2 ((Cmd.op (.remove r)).exec H sw) := rfl
  rw [e]
  obtain ⟨⟨evs, l, a⟩, _⟩ := AgentsStep.execAll H h2 ((Cmd.op (.remove r)).exec H sw) r
  refine ⟨evs, l, ?_⟩
  intro h
  rcases a h with hh | hh
  · exact absurd hh (by
      show r ∉ sw.1.agents.erase r
      exact hnd.not_mem_erase)
  · exact hh

/-- Agents 1 and 2 are added (1 twice), 2 is removed: only agent 1 is left, though both keep being run. -/
example : (reach raisingHost 3 true () [.op (.add 1 none), .op (.add 2 none), .op (.add 1 none), .step, .op (.remove 2),
      .step, .step]).1.agents = [1] ∧
    actRefs (reach raisingHost 3 true () [.op (.add 1 none), .op (.add 2 none), .op (.add 1 none), .step, .op (.remove 2),
      .step, .step]).1.log = [1, 2, 1, 1, 1, 2, 1, 1] := by
  decide +kernel

end Verif
