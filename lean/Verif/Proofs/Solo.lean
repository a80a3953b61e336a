import Verif.Model.Solo
import Verif.Props.Scheduler

/-!
# The activations of an agent that only looks at itself and at the clock
-/

namespace Verif
open Spec

variable {W σ A : Type}

/-- The replies of agent `r` in a log are those of `beh` started with the attributes `a`, and the
attributes are `a'` in the end. -/
def Follows (beh : σ → Time → Reply × σ) (r : Ref) : σ → List Ev → σ → Prop
  | a, [], a' => a = a'
  | a, .added _ _ :: l, a' => Follows beh r a l a'
  | a, .act q t rep :: l, a' =>
    if q = r then rep = (beh a t).1 ∧ Follows beh r (beh a t).2 l a' else Follows beh r a l a'

theorem Follows.append {beh : σ → Time → Reply × σ} {r : Ref} {l1 l2 : List Ev} {a b c : σ}
    (h1 : Follows beh r a l1 b) (h2 : Follows beh r b l2 c) : Follows beh r a (l1 ++ l2) c := by
  induction l1 generalizing a with
  | nil => cases h1; exact h2
  | cons e l ih =>
    cases e with
    | added q t => exact ih h1
    | act q t rep =>
      simp only [Follows, List.cons_append] at h1 ⊢
      split
      · rename_i hq
        rw [if_pos hq] at h1
        exact ⟨h1.1, ih h1.2⟩
      · rename_i hq
        rw [if_neg hq] at h1
        exact ih h1

theorem Follows.of_no_act {beh : σ → Time → Reply × σ} {r : Ref} {l : List Ev} (a : σ)
    (h : actRefs l = []) : Follows beh r a l a := by
  induction l with
  | nil => rfl
  | cons e l ih =>
    cases e with
    | added q t => exact ih h
    | act q t rep => simp [actRefs] at h

theorem runBucket_follows {H : Host W} {r : Ref} {loc : W → σ} {beh : σ → Time → Reply × σ}
    {P : W → Prop} (hI : Isolated H P r loc beh) (now : Time) (b : List Ref) (s : Sched) (w : W)
    (hP : P w) (ht : s.time = now) :
    ∃ l, (runBucket H now b s w).1.log = s.log ++ l ∧
      Follows beh r (loc w) l (loc (runBucket H now b s w).2.1) ∧ P (runBucket H now b s w).2.1 := by
  induction b generalizing s w with
  | nil => exact ⟨[], by simp [runBucket], rfl, hP⟩
  | cons q rest ih =>
    rw [runBucket_cons]
    simp only
    obtain ⟨l1, h1, h1'⟩ := applyOps_log s (H.step q s w).2.1
    have hact : Follows beh r (loc w) (l1 ++ [.act q now (H.step q s w).1]) (loc (H.step q s w).2.2) := by
      refine (Follows.of_no_act _ h1').append ?_
      simp only [Follows]
      split
      · rename_i hq
        subst hq
        exact ⟨by rw [hI.reply _ _ hP, ht], by rw [hI.attrs _ _ hP, ht]⟩
      · rename_i hq
        exact (hI.others q s w hP hq).symm
    split
    · exact ⟨l1 ++ [.act q now (H.step q s w).1], by simp [afterAct_log, h1], hact, hI.keeps q s w hP⟩
    · obtain ⟨l2, h2, h2', h3⟩ := ih (afterAct (s.applyOps (H.step q s w).2.1) q now (H.step q s w).1)
        (H.step q s w).2.2 (hI.keeps q s w hP) (by rw [afterAct_time, applyOps_time, ht])
      exact ⟨l1 ++ [.act q now (H.step q s w).1] ++ l2, by rw [h2, afterAct_log, h1]; simp,
        hact.append h2', h3⟩

theorem exec_follows {H : Host W} {r : Ref} {loc : W → σ} {beh : σ → Time → Reply × σ}
    {P : W → Prop} (hI : Isolated H P r loc beh) (c : Cmd W)
    (hc : ∀ f, c = .world f → ∀ w, P w → P (f w) ∧ loc (f w) = loc w) (sw : Sched × W) (hP : P sw.2) :
    ∃ l, (c.exec H sw).1.log = sw.1.log ++ l ∧ Follows beh r (loc sw.2) l (loc (c.exec H sw).2) ∧
      P (c.exec H sw).2 := by
  obtain ⟨s, w⟩ := sw
  cases c with
  | op o => obtain ⟨l, hl, hl'⟩ := applyOp_log s o; exact ⟨l, hl, .of_no_act _ hl', hP⟩
  | world f => exact ⟨[], by simp [Cmd.exec], (hc f rfl w hP).2.symm, (hc f rfl w hP).1⟩
  | step =>
    simp only [Cmd.exec]
    unfold Sched.step
    split
    · exact ⟨[], by simp, rfl, hP⟩
    · rename_i t b q hq
      split
      · exact ⟨[], by simp, rfl, hP⟩
      · have hw : loc (runOrder H s b w).2 = loc w ∧ P (runOrder H s b w).2 := by
          unfold runOrder
          split
          · exact ⟨hI.shuffle _ _ hP, hI.keepsShuffle _ _ hP⟩
          · exact ⟨rfl, hP⟩
        obtain ⟨l, hl, hf, hP'⟩ := runBucket_follows hI s.time (runOrder H s b w).1 { s with queue := q }
          (runOrder H s b w).2 hw.2 rfl
        refine ⟨l, by rw [finishStep_log, hl], ?_⟩
        rw [hw.1] at hf
        have : (finishStep (runBucket H s.time (runOrder H s b w).1 { s with queue := q }
            (runOrder H s b w).2)).2.1 = (runBucket H s.time (runOrder H s b w).1 { s with queue := q }
            (runOrder H s b w).2).2.1 := by
          unfold finishStep; split <;> rfl
        rw [this]
        exact ⟨hf, hP'⟩

theorem execAll_follows {H : Host W} {r : Ref} {loc : W → σ} {beh : σ → Time → Reply × σ}
    {P : W → Prop} (hI : Isolated H P r loc beh) (h : List (Cmd W)) (hu : Untouched P loc h)
    (sw : Sched × W) (hP : P sw.2) :
    ∃ l, (execAll H h sw).1.log = sw.1.log ++ l ∧ Follows beh r (loc sw.2) l (loc (execAll H h sw).2) := by
  induction h generalizing sw with
  | nil => exact ⟨[], by simp [execAll], rfl⟩
  | cons c h ih =>
    obtain ⟨l1, h1, f1, hP'⟩ := exec_follows hI c (fun f hf => hu f (by simp [hf])) sw hP
    obtain ⟨l2, h2, f2⟩ := ih (fun f hf => hu f (by simp [hf])) (c.exec H sw) hP'
    have e : execAll H (c :: h) sw = execAll H h (c.exec H sw) := rfl
    rw [e]
    exact ⟨l1 ++ l2, by rw [h2, h1, List.append_assoc], f1.append f2⟩

/-- `n` activations of an agent on its own: it is due at `due`, runs `beh`, and is due again when it
asked for. -/
def soloRun (iv : Time) (beh : σ → Time → Reply × σ) : Nat → Option Time → σ → List (Time × Reply)
  | 0, _, _ => []
  | _ + 1, none, _ => []
  | n + 1, some t, a => (t, (beh a t).1) :: soloRun iv beh n (nextWake iv t (beh a t).1) (beh a t).2

/-- When it is due after `n` activations. -/
def soloDue (iv : Time) (beh : σ → Time → Reply × σ) : Nat → Option Time → σ → Option Time
  | 0, due, _ => due
  | _ + 1, none, _ => none
  | n + 1, some t, a => soloDue iv beh n (nextWake iv t (beh a t).1) (beh a t).2

/-- Its attributes after `n` activations. -/
def soloSt (iv : Time) (beh : σ → Time → Reply × σ) : Nat → Option Time → σ → σ
  | 0, _, a => a
  | _ + 1, none, a => a
  | n + 1, some t, a => soloSt iv beh n (nextWake iv t (beh a t).1) (beh a t).2

theorem Follows.filter {beh : σ → Time → Reply × σ} {r : Ref} {l : List Ev} {a a' : σ}
    (h : Follows beh r a l a') : Follows beh r a (l.filter (·.ref = r)) a' := by
  induction l generalizing a with
  | nil => exact h
  | cons e l ih =>
    cases e with
    | added q t =>
      rw [List.filter_cons]
      split
      · exact ih h
      · exact ih h
    | act q t rep =>
      rw [List.filter_cons]
      simp only [Follows] at h
      by_cases hq : q = r
      · rw [if_pos hq] at h
        simp only [Ev.ref, hq, decide_true, if_true, Follows]
        exact ⟨h.1, ih h.2⟩
      · rw [if_neg hq] at h
        simp only [Ev.ref, hq, decide_false]
        exact ih h

theorem actsOf_act (r q : Ref) (t : Time) (rep : Reply) (l : List Ev) :
    actsOf r (.act q t rep :: l) = if q = r then (t, rep) :: actsOf r l else actsOf r l := by
  unfold actsOf
  rw [List.filterMap_cons]
  by_cases hq : q = r <;> simp [hq]

theorem actsOf_added (r q : Ref) (t : Time) (l : List Ev) :
    actsOf r (.added q t :: l) = actsOf r l := by
  unfold actsOf
  rw [List.filterMap_cons]

theorem actsOf_filter (r : Ref) (l : List Ev) : actsOf r (l.filter (·.ref = r)) = actsOf r l := by
  induction l with
  | nil => rfl
  | cons e l ih =>
    rw [List.filter_cons]
    cases e with
    | added q t =>
      rw [actsOf_added]
      split
      · rw [actsOf_added, ih]
      · exact ih
    | act q t rep =>
      rw [actsOf_act]
      by_cases hq : q = r
      · simp only [Ev.ref, hq, decide_true, if_true, actsOf_act]
        exact congrArg _ ih
      · simp only [Ev.ref, hq, decide_false, if_false]
        exact ih

/-- A time line in which the agent is due at `t` and is not added again. -/
theorem Timeline.solo {iv : Time} {beh : σ → Time → Reply × σ} {r : Ref} {l : List Ev}
    {due due' : Option Time} {a a' : σ} (hr : ∀ e ∈ l, e.ref = r) (hn : ∀ e ∈ l, e.isAdd = false)
    (ht : Timeline iv due l due') (hf : Follows beh r a l a') :
    actsOf r l = soloRun iv beh (actsOf r l).length due a ∧
      due' = soloDue iv beh (actsOf r l).length due a ∧
      a' = soloSt iv beh (actsOf r l).length due a := by
  induction l generalizing due a with
  | nil => cases ht; exact ⟨rfl, rfl, hf.symm⟩
  | cons e l ih =>
    cases ht with
    | add h => simp [Ev.isAdd] at hn
    | @act q t rep _ _ h =>
      have hq : q = r := hr (.act q t rep) (by simp)
      subst hq
      simp only [Follows, if_true] at hf
      obtain ⟨h1, h2, h3⟩ := ih (fun e he => hr e (by simp [he])) (fun e he => hn e (by simp [he])) h hf.2
      have he : actsOf q (Ev.act q t rep :: l) = (t, rep) :: actsOf q l := by simp [actsOf]
      rw [he]
      simp only [List.length_cons, soloRun, soloDue, soloSt]
      rw [← hf.1]
      exact ⟨by rw [← h1], h2, h3⟩

/-- The activations of an isolated agent that was added once: it runs its code at the time it was
added, and then whenever it asked to. -/
theorem solo_acts {H : Host W} {iv : Time} (hiv : 0 < iv) {sh : Bool} {w0 : W} {h : List (Cmd W)}
    (hg : GoodLog (reach H iv sh w0 h).1.log) {r : Ref}
    {P : W → Prop} {loc : W → σ} {beh : σ → Time → Reply × σ} (hI : Isolated H P r loc beh)
    (hu : Untouched P loc h) (hP : P w0)
    {t0 : Time} (h1 : (reach H iv sh w0 h).1.log.filter (fun e => e.isAdd && e.ref == r) = [.added r t0]) :
    ∃ n, actsOf r (reach H iv sh w0 h).1.log = soloRun iv beh n (some t0) (loc w0) ∧
      (actsOf r (reach H iv sh w0 h).1.log).length = n ∧
      pendingOf (pending (reach H iv sh w0 h).1) r = (soloDue iv beh n (some t0) (loc w0)).toList ∧
      loc (reach H iv sh w0 h).2 = soloSt iv beh n (some t0) (loc w0) := by
  obtain ⟨l, hl, hf⟩ := execAll_follows hI h hu (Sched.init iv sh, w0) hP
  have hlog : (reach H iv sh w0 h).1.log = l := by
    have : (reach H iv sh w0 h).1.log = (Sched.init iv sh).log ++ l := hl
    rw [this]; rfl
  have hc : addCount r (reach H iv sh w0 h).1.log = 1 := by
    have := congrArg List.length h1
    rw [← List.countP_eq_length_filter] at this
    exact this
  obtain ⟨due, ht, hp⟩ := C02_exact_wakeups H iv hiv sh w0 h hg r hc
  rw [hlog] at ht h1 ⊢
  have hf := hf.filter
  have hfl : (l.filter (·.ref = r)).filter (·.isAdd) = [.added r t0] := by
    rw [List.filter_filter, ← h1]
    congr 1
  rw [← actsOf_filter]
  generalize hm : l.filter (·.ref = r) = m at ht hf hfl ⊢
  have hr : ∀ e ∈ m, e.ref = r := by
    intro e he; rw [← hm] at he; simpa using (List.mem_filter.1 he).2
  cases ht with
  | nil => simp at hfl
  | @add q t l' _ h2 =>
    rw [List.filter_cons] at hfl
    simp only [Ev.isAdd, if_true, List.cons.injEq, Ev.added.injEq] at hfl
    obtain ⟨⟨rfl, rfl⟩, hno⟩ := hfl
    have ha : actsOf q (.added q t :: l') = actsOf q l' := by simp [actsOf]
    obtain ⟨e1, e2, e3⟩ := Timeline.solo (fun e he => hr e (by simp [he]))
      (fun e he => by
        have := List.filter_eq_nil_iff.1 hno e he
        cases e with
        | added => exact absurd rfl this
        | act => rfl) h2 hf
    rw [ha]
    exact ⟨_, e1, rfl, by rw [hp, e2], e3⟩

/-- A run that goes through the given times and attributes. -/
theorem soloRun_seq {iv : Time} {beh : σ → Time → Reply × σ} (t : Nat → Time) (a : Nat → σ)
    (hn : ∀ k, nextWake iv (t k) (beh (a k) (t k)).1 = some (t (k + 1)))
    (ha : ∀ k, (beh (a k) (t k)).2 = a (k + 1)) (n : Nat) :
    soloRun iv beh n (some (t 0)) (a 0) = (List.range n).map (fun k => (t k, (beh (a k) (t k)).1)) ∧
      soloDue iv beh n (some (t 0)) (a 0) = some (t n) ∧ soloSt iv beh n (some (t 0)) (a 0) = a n := by
  induction n generalizing t a with
  | zero => exact ⟨rfl, rfl, rfl⟩
  | succ n ih =>
    obtain ⟨i1, i2, i3⟩ := ih (fun k => t (k + 1)) (fun k => a (k + 1)) (fun k => hn (k + 1))
      (fun k => ha (k + 1))
    simp only [soloRun, soloDue, soloSt, hn, ha]
    refine ⟨?_, i2, i3⟩
    rw [i1, List.range_succ_eq_map, List.map_cons, List.map_map]
    rfl

/-- One more activation at the end. -/
theorem solo_succ {iv : Time} {beh : σ → Time → Reply × σ} (n : Nat) (due : Option Time) (a : σ) :
    (soloDue iv beh (n + 1) due a, soloSt iv beh (n + 1) due a) =
      match soloDue iv beh n due a with
      | none => (none, soloSt iv beh n due a)
      | some t => (nextWake iv t (beh (soloSt iv beh n due a) t).1, (beh (soloSt iv beh n due a) t).2) := by
  induction n generalizing due a with
  | zero => cases due <;> rfl
  | succ n ih =>
    cases due with
    | none => rfl
    | some t => exact ih _ _

/-- As long as it was activated it was due. -/
theorem soloDue_ne_none {iv : Time} {beh : σ → Time → Reply × σ} {n : Nat} {due : Option Time} {a : σ}
    (h : (soloRun iv beh n due a).length = n) {k : Nat} (hk : k < n) : soloDue iv beh k due a ≠ none := by
  induction n generalizing due a k with
  | zero => omega
  | succ n ih =>
    cases due with
    | none => simp [soloRun] at h
    | some t =>
      simp only [soloRun, List.length_cons, Nat.add_right_cancel_iff] at h
      cases k with
      | zero => simp [soloDue]
      | succ k => exact ih h (by omega)

/-- What is pending is never in the past. -/
theorem pending_ge {H : Host W} {iv : Time} (hiv : 0 < iv) {sh : Bool} {w0 : W} {h : List (Cmd W)}
    (hg : GoodLog (reach H iv sh w0 h).1.log) {r : Ref} {t : Time}
    (hp : t ∈ pendingOf (pending (reach H iv sh w0 h).1) r) : (reach H iv sh w0 h).1.time ≤ t := by
  have := (reach_inv hiv hg).ge
  simp only [pendingOf, pending, List.mem_map, List.mem_filter, List.mem_flatMap] at hp
  obtain ⟨p, ⟨⟨b, hb, hp⟩, _⟩, rfl⟩ := hp
  obtain ⟨q, _, rfl⟩ := hp
  exact this b hb

end Verif
