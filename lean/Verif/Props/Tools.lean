import Verif.Model.Tools
import Mathlib.Tactic.Linarith
import Mathlib.Tactic.Ring
import Mathlib.Algebra.BigOperators.Group.Finset.Basic
import Mathlib.Algebra.BigOperators.Ring.Finset

/-!
# Properties of the tools: timers, `easy`, the debugger object, writing graphs, dry runs, numeric seeds (C196-C201)
-/

namespace Verif
open List

/-! ### C196: timed blocks are reported -/

/-- What the log should say about a piece of code: every timed block is reported when it starts and when it ends, with its name and the
time it took, around what its body reports. -/
inductive Reports : TimedCode → List TimerEv → Prop where
  | skip : Reports .skip []
  | emit (m : Str) : Reports (.emit m) [.msg m]
  | seq {a b : TimedCode} {l m : List TimerEv} : Reports a l → Reports b m → Reports (.seq a b) (l ++ m)
  | timed {body : TimedCode} {l : List TimerEv} (name : Str) (obj : Option (Nat × Bool)) (t d : Rat) (hd : 0 ≤ d) :
      Reports body l → Reports (.timed name obj body) (.start name t :: l ++ [.finish name (t + d) d])

/-- The lines about starts. -/
def isStart : TimerEv → Bool
  | .start _ _ => true
  | _ => false

/-- The lines about ends. -/
def isFinish : TimerEv → Bool
  | .finish _ _ _ => true
  | _ => false

theorem timed_reads (clock : Nat → Rat) (c : TimedCode) (w : TimerWorld) : w.reads ≤ (c.run clock w).1.reads := by
  induction c generalizing w with
  | skip => exact Nat.le_refl _
  | emit m => exact Nat.le_refl _
  | raise => exact Nat.le_refl _
  | seq a b iha ihb =>
    simp only [TimedCode.run]
    split
    · exact iha w
    · exact Nat.le_trans (iha w) (ihb _)
  | timed n o b ih =>
    have h := ih { w with reads := w.reads + 1, out := w.out ++ [.start n (clock w.reads)] }
    simp only [TimedCode.run]
    split
    · exact Nat.le_trans (Nat.le_succ _) h
    · simp only at h ⊢
      omega

/-- C196, what holds: with a clock that does not go back, code that raises no exception is reported completely: every timed block when it
starts and when it ends. Missing: code that raises (`C196_exception_false`). -/
theorem C196_reported_partial (clock : Nat → Rat) (hm : ∀ i j, i ≤ j → clock i ≤ clock j) (c : TimedCode) (w : TimerWorld)
    (hr : (c.run clock w).2 = false) :
    ∃ evs, (c.run clock w).1.out = w.out ++ evs ∧ Reports c evs := by
  induction c generalizing w with
  | skip => exact ⟨[], by simp [TimedCode.run], .skip⟩
  | emit m => exact ⟨[.msg m], rfl, .emit m⟩
  | raise => simp [TimedCode.run] at hr
  | seq a b iha ihb =>
    simp only [TimedCode.run] at hr ⊢
    cases ha : (a.run clock w).2 with
    | true => rw [ha] at hr; simp only [if_true] at hr; rw [ha] at hr; cases hr
    | false =>
      simp only [ha, Bool.false_eq_true, if_false] at hr ⊢
      obtain ⟨l, h1, h2⟩ := iha w ha
      obtain ⟨m, h3, h4⟩ := ihb _ hr
      exact ⟨l ++ m, by rw [h3, h1, append_assoc], .seq h2 h4⟩
  | timed n o b ih =>
    have hreads := timed_reads clock b { w with reads := w.reads + 1, out := w.out ++ [.start n (clock w.reads)] }
    simp only [TimedCode.run] at hr ⊢
    cases hb : (b.run clock { w with reads := w.reads + 1, out := w.out ++ [.start n (clock w.reads)] }).2 with
    | true => rw [hb] at hr; simp only [if_true] at hr; rw [hb] at hr; cases hr
    | false =>
      simp only [Bool.false_eq_true, if_false]
      obtain ⟨l, h1, h2⟩ := ih _ hb
      have hd : clock w.reads ≤ clock (b.run clock { w with reads := w.reads + 1, out := w.out ++ [.start n (clock w.reads)] }).1.reads :=
        hm _ _ (by simp only at hreads; omega)
      refine ⟨.start n (clock w.reads) :: l ++ [.finish n (clock w.reads + (clock (b.run clock { w with reads := w.reads + 1, out := w.out ++ [.start n (clock w.reads)] }).1.reads - clock w.reads)) (clock (b.run clock { w with reads := w.reads + 1, out := w.out ++ [.start n (clock w.reads)] }).1.reads - clock w.reads)], ?_, .timed n o _ _ (by linarith) h2⟩
      rw [h1]
      simp

/-- C196: the object given to the timer of a block that ends is told when it started and when it ended (those of the log), and no object
that the code does not mention is changed. Missing: objects that count as false (`C196_object_false`). -/
theorem C196_object_partial (clock : Nat → Rat) (n : Str) (o : Nat) (b : TimedCode) (w : TimerWorld)
    (hr : ((TimedCode.timed n (some (o, true)) b).run clock w).2 = false) :
    ∃ t t' inner, ((TimedCode.timed n (some (o, true)) b).run clock w).1.out
        = w.out ++ .start n t :: inner ++ [.finish n t' (t' - t)] ∧
      Dict.get? ((TimedCode.timed n (some (o, true)) b).run clock w).1.times o = some (t, t') := by
  have hout : ∀ (c : TimedCode) (w : TimerWorld), ∃ l, (c.run clock w).1.out = w.out ++ l := by
    intro c
    induction c with
    | skip => intro w; exact ⟨[], by simp [TimedCode.run]⟩
    | emit m => intro w; exact ⟨[.msg m], rfl⟩
    | raise => intro w; exact ⟨[], by simp [TimedCode.run]⟩
    | seq a b iha ihb =>
      intro w
      obtain ⟨l, hl⟩ := iha w
      simp only [TimedCode.run]
      split
      · exact ⟨l, hl⟩
      · obtain ⟨m, hm⟩ := ihb (a.run clock w).1
        exact ⟨l ++ m, by rw [hm, hl, append_assoc]⟩
    | timed n o b ih =>
      intro w
      obtain ⟨l, hl⟩ := ih { w with reads := w.reads + 1, out := w.out ++ [.start n (clock w.reads)] }
      simp only [TimedCode.run]
      split
      · exact ⟨.start n (clock w.reads) :: l, by rw [hl]; simp⟩
      · exact ⟨.start n (clock w.reads) :: l ++ [.finish n (clock (b.run clock { w with reads := w.reads + 1, out := w.out ++ [.start n (clock w.reads)] }).1.reads) (clock (b.run clock { w with reads := w.reads + 1, out := w.out ++ [.start n (clock w.reads)] }).1.reads - clock w.reads)], by simp only [hl]; simp⟩
  obtain ⟨l, hl⟩ := hout b { w with reads := w.reads + 1, out := w.out ++ [.start n (clock w.reads)] }
  simp only [TimedCode.run] at hr ⊢
  generalize b.run clock { w with reads := w.reads + 1, out := w.out ++ [.start n (clock w.reads)] } = R at hl hr ⊢
  obtain ⟨R, e⟩ := R
  cases e with
  | true => simp at hr
  | false =>
    simp only [Bool.false_eq_true, if_false]
    exact ⟨clock w.reads, clock R.reads, l, by simp only at hl; rw [hl]; simp, by rw [Dict.get?_set_self]⟩

/-- C196: whatever the code does, at most as many ends as starts are reported, and less if an exception leaves a block. -/
theorem C196_counts (clock : Nat → Rat) (c : TimedCode) (w : TimerWorld) :
    ∃ evs, (c.run clock w).1.out = w.out ++ evs ∧ evs.countP isFinish ≤ evs.countP isStart ∧
      ((c.run clock w).2 = false → evs.countP isFinish = evs.countP isStart) := by
  induction c generalizing w with
  | skip => exact ⟨[], by simp [TimedCode.run], by simp, by simp⟩
  | emit m => exact ⟨[.msg m], rfl, by simp [isFinish, isStart], by simp [isFinish, isStart]⟩
  | raise => exact ⟨[], by simp [TimedCode.run], by simp, by simp⟩
  | seq a b iha ihb =>
    obtain ⟨l, h1, h2, h3⟩ := iha w
    simp only [TimedCode.run]
    cases ha : (a.run clock w).2 with
    | true => simp only [if_true]; exact ⟨l, h1, h2, fun h => by rw [ha] at h; cases h⟩
    | false =>
      simp only [Bool.false_eq_true, if_false]
      obtain ⟨m, h4, h5, h6⟩ := ihb (a.run clock w).1
      refine ⟨l ++ m, by rw [h4, h1, append_assoc], by simp only [countP_append]; omega, fun h => ?_⟩
      simp only [countP_append]
      rw [h3 ha, h6 h]
  | timed n o b ih =>
    obtain ⟨l, h1, h2, h3⟩ := ih { w with reads := w.reads + 1, out := w.out ++ [.start n (clock w.reads)] }
    simp only [TimedCode.run]
    cases hb : (b.run clock { w with reads := w.reads + 1, out := w.out ++ [.start n (clock w.reads)] }).2 with
    | true =>
      simp only [if_true]
      refine ⟨.start n (clock w.reads) :: l, by rw [h1]; simp, ?_, fun h => by rw [hb] at h; cases h⟩
      simp only [countP_cons, isStart, isFinish]; simp; omega
    | false =>
      simp only [Bool.false_eq_true, if_false]
      have h3' := h3 hb
      generalize b.run clock { w with reads := w.reads + 1, out := w.out ++ [.start n (clock w.reads)] } = R at h1 ⊢
      refine ⟨.start n (clock w.reads) :: l ++ [.finish n (clock R.1.reads) (clock R.1.reads - clock w.reads)], by rw [h1]; simp, ?_, fun _ => ?_⟩
      · simp only [countP_append, countP_cons, countP_nil, isStart, isFinish]; simp; omega
      · simp only [countP_append, countP_cons, countP_nil, isStart, isFinish]; simp; omega

/-- C196 is violated: when the block raises an exception, it is not reported when it ends, and the object given is not told. -/
theorem C196_exception_false (clock : Nat → Rat) (n : Str) (obj : Option (Nat × Bool)) (b : TimedCode) (w : TimerWorld)
    (hr : (b.run clock { w with reads := w.reads + 1, out := w.out ++ [.start n (clock w.reads)] }).2 = true) :
    ∃ evs, ((TimedCode.timed n obj b).run clock w).1.out = w.out ++ evs ∧ evs.countP isFinish < evs.countP isStart := by
  obtain ⟨l, h1, h2, -⟩ := C196_counts clock b { w with reads := w.reads + 1, out := w.out ++ [.start n (clock w.reads)] }
  refine ⟨.start n (clock w.reads) :: l, ?_, ?_⟩
  · simp only [TimedCode.run, hr, if_true]; rw [h1]; simp
  · simp only [countP_cons, isStart, isFinish]; simp; omega

/-- C196 is violated: an object that counts as false (an empty collection, say) is not told either. -/
theorem C196_object_false (clock : Nat → Rat) (n : Str) (o : Nat) (w : TimerWorld) :
    ((TimedCode.timed n (some (o, false)) .skip).run clock w).2 = false ∧
    ((TimedCode.timed n (some (o, false)) .skip).run clock w).1.times = w.times := ⟨rfl, rfl⟩

/-- A block in a block, and one that raises. -/
example : let c := TimedCode.timed "a".toList (some (1, true)) (.seq (.emit "x".toList) (.timed "b".toList none .skip))
    c.run (fun k => (k : Rat) * 2) ⟨0, [], []⟩ =
      (⟨4, [.start "a".toList 0, .msg "x".toList, .start "b".toList 2, .finish "b".toList 4 2, .finish "a".toList 6 6], [(1, (0, 6))]⟩, false) ∧
    (TimedCode.timed "a".toList (some (1, true)) .raise).run (fun k => (k : Rat)) ⟨0, [], []⟩ = (⟨1, [.start "a".toList 0], []⟩, true) := by
  decide +kernel

/-! ### C197: `easy` -/

/-- C197 is violated: whatever `main` does, the block of `with easy(...)` is not executed, and an exception is raised after the
simulations have been run. -/
theorem C197_with_false {ε α : Type} (main : Except ε (List (List α))) (post : Bool) (w : EasyWorld) :
    (easyWith main post w).1.blocks = w.blocks ∧ (easyWith main post w).1.runs = w.runs + 1 ∧ (easyWith main post w).2 ≠ .ok := by
  unfold easyWith easyCall
  cases main with
  | error e => cases post <;> simp
  | ok l => cases l <;> cases post <;> simp

/-- C197, what holds: a plain call `easy(...)` runs the simulations exactly once and ends normally exactly if `main` does and has a
result; the exception of `main` reaches the caller, and the debugger is opened exactly if there is one and it was asked for. Missing: the
use in a `with` statement. -/
theorem C197_plain_partial {ε α : Type} (main : Except ε (List (List α))) (post : Bool) (w : EasyWorld) :
    (easyPlain main post w).1.runs = w.runs + 1 ∧
    ((easyPlain main post w).2 = .ok ↔ ∃ x l, main = .ok (x :: l)) ∧
    (∀ e, main = .error e → (easyPlain main post w).2 = .mainError e) ∧
    ((easyPlain main post w).1.postmortems = w.postmortems + 1 ↔ post = true ∧ (easyPlain main post w).2 ≠ .ok) := by
  unfold easyPlain easyCall
  cases main with
  | error e => cases post <;> simp
  | ok l => cases l <;> cases post <;> simp

example : easyPlain (.ok [[7, 8], []] : Except Nat (List (List Nat))) true ⟨0, 0, 0⟩ = (⟨1, 0, 0⟩, .ok) ∧
    easyWith (.ok [[7, 8], []] : Except Nat (List (List Nat))) true ⟨0, 0, 0⟩ = (⟨1, 0, 0⟩, .typeError) ∧
    easyPlain (.error 5 : Except Nat (List (List Nat))) true ⟨0, 0, 0⟩ = (⟨1, 1, 0⟩, .mainError 5) := by decide

/-! ### C198: the options of the debugger -/

theorem glob_literal (p s : Str) (h : '*' ∉ p ∧ '?' ∉ p) : globMatch p s = decide (p = s) := by
  induction p generalizing s with
  | nil => cases s <;> simp [globMatch]
  | cons a p ih =>
    have ha : a ≠ '*' := fun e => h.1 (by simp [e])
    have hq : a ≠ '?' := fun e => h.2 (by simp [e])
    have hp := ih (h := ⟨fun m => h.1 (mem_cons_of_mem _ m), fun m => h.2 (mem_cons_of_mem _ m)⟩)
    cases s with
    | nil => simp [globMatch, ha]
    | cons c s =>
      have hq' : (a == '?') = false := by simpa using hq
      rw [globMatch, if_neg ha, hp, hq', Bool.false_or]
      by_cases hac : a = c
      · subst hac; simp
      · simp [hac]

theorem glob_star (s : Str) : globMatch ['*'] s = true := by
  have h : globMatch ['*'] s = s.tails.any (globMatch []) := by cases s <;> rfl
  rw [h, any_eq_true]
  exact ⟨[], by simp, rfl⟩

theorem glob_prefix (p s : Str) (h : '*' ∉ p ∧ '?' ∉ p) : globMatch (p ++ ['*']) s = p.isPrefixOf s := by
  induction p generalizing s with
  | nil => rw [nil_append, glob_star]; simp
  | cons a p ih =>
    have ha : a ≠ '*' := fun e => h.1 (by simp [e])
    have hq : a ≠ '?' := fun e => h.2 (by simp [e])
    have hp := ih (h := ⟨fun m => h.1 (mem_cons_of_mem _ m), fun m => h.2 (mem_cons_of_mem _ m)⟩)
    cases s with
    | nil => simp [globMatch, ha]
    | cons c s =>
      have hq' : (a == '?') = false := by simpa using hq
      simp only [cons_append, globMatch]
      rw [if_neg ha, hp, hq', Bool.false_or]
      rfl

/-- C198, what holds: a debugger made with `skip_soil` (and without `skip`) does not stop in the modules of soil, in `contextlib` and in
the submodules of mesa, and stops in all others, also in code without a module; without `skip_soil` it stops everywhere. Missing: `skip`, and what is asked for later. -/
theorem C198_skipped_partial (name : Str) :
    (∃ l, (debugInit true none).1 = .ok l ∧ (isSkipped l (some name) = true ↔
      name = "soil".toList ∨ name = "contextlib".toList ∨ "soil.".toList <+: name ∨ "mesa.".toList <+: name)) ∧
    (∃ l, (debugInit false none).1 = .ok l ∧ isSkipped l (some name) = false) ∧
    (∀ b l, (debugInit b none).1 = .ok l → isSkipped l none = false) := by
  refine ⟨⟨soilSkips, rfl, ?_⟩, ⟨[], rfl, rfl⟩, fun _ _ _ => rfl⟩
  have h1 := glob_literal "soil".toList name (by decide)
  have h2 := glob_literal "contextlib".toList name (by decide)
  have h3 := glob_prefix "soil.".toList name (by decide)
  have h4 := glob_prefix "mesa.".toList name (by decide)
  have e3 : "soil.".toList ++ ['*'] = "soil.*".toList := by decide
  have e4 : "mesa.".toList ++ ['*'] = "mesa.*".toList := by decide
  rw [e3] at h3
  rw [e4] at h4
  simp only [isSkipped, soilSkips, any_cons, any_nil, Bool.or_false, Bool.or_eq_true, h1, h2, h3, h4, decide_eq_true_eq,
    isPrefixOf_iff_prefix]
  constructor
  · rintro (h | h | h | h)
    · exact .inl h.symm
    · exact .inr (.inl h.symm)
    · exact .inr (.inr (.inl h))
    · exact .inr (.inr (.inr h))
  · rintro (h | h | h | h)
    · exact .inl h.symm
    · exact .inr (.inl h.symm)
    · exact .inr (.inr (.inl h))
    · exact .inr (.inr (.inr h))

/-- C198 is violated: a debugger cannot be made with modules to skip; the list of the caller is changed nevertheless. -/
theorem C198_skip_false (b : Bool) (l : List Str) :
    (debugInit b (some l)).1 = .error () ∧ (b = true → (debugInit b (some l)).2 = some (l ++ soilSkips) ∧ l ++ soilSkips ≠ l) := by
  refine ⟨rfl, fun h => ⟨by rw [h]; rfl, ?_⟩⟩
  intro h
  have := congrArg length h
  simp [soilSkips] at this

/-- C198: the options of the first call are used for ever. -/
theorem C198_first_options (cs : List DebugCall) (w : DebugWorld) (d : List Str) (hd : w.debugger = some d) :
    (debugRun cs w).debugger = some d ∧ ∃ l, (debugRun cs w).shown = w.shown ++ l ∧ ∀ p ∈ l, p.2 = d := by
  induction cs generalizing w with
  | nil => exact ⟨hd, [], by simp [debugRun], by simp⟩
  | cons c cs ih =>
    have hstep : (c.exec w).1.debugger = some d ∧ ∃ l, (c.exec w).1.shown = w.shown ++ l ∧ ∀ p ∈ l, p.2 = d := by
      cases c with
      | trace f k b => exact ⟨by simp [DebugCall.exec, hd], [(f.getD k, d)], by simp [DebugCall.exec, hd], by simp⟩
      | mortem t e b =>
        cases e with
        | none => exact ⟨by simp [DebugCall.exec, hd], [], by simp [DebugCall.exec], by simp⟩
        | some x => exact ⟨by simp [DebugCall.exec, hd], [(x, d)], by simp [DebugCall.exec, hd], by simp⟩
    obtain ⟨h1, l, h2, h3⟩ := hstep
    obtain ⟨g1, m, g2, g3⟩ := ih (c.exec w).1 h1
    refine ⟨g1, l ++ m, ?_, ?_⟩
    · show (debugRun cs (c.exec w).1).shown = _
      rw [g2, h2, append_assoc]
    · intro p hp
      rcases mem_append.1 hp with h | h
      · exact h3 p h
      · exact g3 p h

/-- C198: `set_trace` shows the frame asked for, or that of the caller; `post_mortem` shows the exception that is being handled. -/
theorem C198_shown (w : DebugWorld) (f : Option Nat) (k : Nat) (t : Option Nat) (x : Nat) (b : Bool) :
    (∃ d, ((DebugCall.trace f k b).exec w).1.shown = w.shown ++ [(f.getD k, d)]) ∧
    (∃ d, ((DebugCall.mortem t (some x) b).exec w).1.shown = w.shown ++ [(x, d)]) := by
  cases hd : w.debugger <;> exact ⟨⟨_, rfl⟩, ⟨_, rfl⟩⟩

/-- C198 is violated: the options of later calls have no effect. -/
theorem C198_later_false : ∃ (w : DebugWorld), ∀ b,
    ((DebugCall.trace none 0 b).exec w).1.debugger = some [] ∧ (debugInit true none).1 ≠ .ok [] :=
  ⟨⟨some [], []⟩, fun b => ⟨rfl, by decide⟩⟩

/-- C198 is violated: the traceback given to `post_mortem` is not shown: it raises when no exception is being handled, and shows the one
that is being handled otherwise. -/
theorem C198_traceback_false (w : DebugWorld) (t x : Nat) (hx : x ≠ t) (b : Bool) :
    ((DebugCall.mortem (some t) none b).exec w).2 = true ∧ ((DebugCall.mortem (some t) none b).exec w).1.shown = w.shown ∧
    (∀ d, (t, d) ∈ ((DebugCall.mortem (some t) (some x) b).exec w).1.shown → (t, d) ∈ w.shown) := by
  refine ⟨by cases hd : w.debugger <;> simp [DebugCall.exec], by cases hd : w.debugger <;> simp [DebugCall.exec], ?_⟩
  intro d h
  cases hd : w.debugger <;> simp only [DebugCall.exec, hd, mem_append, mem_singleton, Prod.mk.injEq] at h <;>
    exact h.resolve_right (fun e => hx e.1.symm)

example : debugRun [.trace none 3 false, .mortem (some 8) (some 9) true, .trace (some 4) 3 true] ⟨none, []⟩ = ⟨some [], [(3, []), (9, []), (4, [])]⟩ ∧
    isSkipped soilSkips (some "soil.agents".toList) = true ∧ isSkipped soilSkips (some "soilent".toList) = false := by decide +kernel

/-! ### C199: writing a graph -/

theorem gexfNode_spec {d d' : Dict Str GexfVal} (h : gexfNode d = some d') :
    (Dict.get? d "pos".toList = none ∧ d' = d) ∨
    ∃ x y l, Dict.get? d "pos".toList = some (.pos (x :: y :: l)) ∧ d' = Dict.del (Dict.set d "viz".toList (.viz x y)) "pos".toList := by
  unfold gexfNode at h
  cases hp : Dict.get? d "pos".toList with
  | none => rw [hp] at h; exact .inl ⟨rfl, (Option.some.inj h).symm⟩
  | some p =>
    rw [hp] at h
    match p, h with
    | .pos (x :: y :: l), h => exact .inr ⟨x, y, l, rfl, (Option.some.inj h).symm⟩
    | .pos [], h => exact absurd h (by simp [gexfXY])
    | .pos [_], h => exact absurd h (by simp [gexfXY])
    | .viz _ _, h => exact absurd h (by simp [gexfXY])
    | .other _, h => exact absurd h (by simp [gexfXY])

theorem gexfLoop_forall (g : GexfGraph) (h : (gexfLoop g).2 = false) :
    Forall₂ (fun p q => p.1 = q.1 ∧ gexfNode p.2 = some q.2) g (gexfLoop g).1 := by
  induction g with
  | nil => exact .nil
  | cons p g ih =>
    obtain ⟨n, d⟩ := p
    unfold gexfLoop at h ⊢
    cases hn : gexfNode d with
    | none => rw [hn] at h; cases h
    | some d' =>
      rw [hn] at h
      simp only at h ⊢
      exact .cons ⟨rfl, hn⟩ (ih h)

/-- C199, what holds: what is written has the same nodes in the same order; a node with a position has it as its place in the picture,
and no other attribute of a node is different. Missing: the graph itself (`C199_changed_false`). -/
theorem C199_written_partial (g : GexfGraph) (hwf : ∀ p ∈ g, Dict.WF p.2) (out : GexfGraph) (h : (dumpGexf g).2 = some out) :
    Forall₂ (fun p q => p.1 = q.1 ∧
      (∀ k, k ≠ "pos".toList → k ≠ "viz".toList → Dict.get? q.2 k = Dict.get? p.2 k) ∧
      (∀ v, Dict.get? p.2 "pos".toList = some v →
        ∃ x y l, v = .pos (x :: y :: l) ∧ Dict.get? q.2 "viz".toList = some (.viz x y)) ∧
      (Dict.get? p.2 "pos".toList = none → q.2 = p.2) ∧
      Dict.get? q.2 "pos".toList = none) g out := by
  unfold dumpGexf at h
  cases hb : (gexfLoop g).2 with
  | true => simp only [hb, if_true] at h; cases h
  | false =>
    simp only [hb, Bool.false_eq_true, if_false] at h
    obtain rfl := Option.some.inj h
    have hf := gexfLoop_forall g hb
    generalize (gexfLoop g).1 = o at hf
    clear h hb
    induction hf with
    | nil => exact .nil
    | @cons p q g o hpq _ ih =>
      refine .cons ⟨hpq.1, ?_⟩ (ih (fun p hp => hwf p (mem_cons_of_mem _ hp)))
      rcases gexfNode_spec hpq.2 with ⟨h1, h2⟩ | ⟨x, y, l, h1, h2⟩
      · rw [h2]
        refine ⟨fun _ _ _ => rfl, fun v hv => ?_, fun _ => rfl, h1⟩
        rw [h1] at hv; cases hv
      · have hw : Dict.WF (Dict.set p.2 "viz".toList (.viz x y)) := (hwf p (by simp)).set _ _
        refine ⟨fun k hk hk' => ?_, fun v hv => ⟨x, y, l, ?_, ?_⟩, fun h => ?_, ?_⟩
        · rw [h2, Dict.get?_del _ hw, if_neg (fun e => hk e.symm), Dict.get?_set_ne _ _ (fun e => hk' e.symm)]
        · rw [h1] at hv; exact (Option.some.inj hv).symm
        · rw [h2, Dict.get?_del _ hw, if_neg (by decide), Dict.get?_set_self]
        · rw [h1] at h; cases h
        · rw [h2, Dict.get?_del _ hw, if_pos rfl]

/-- C199: a graph without positions is written as it is and not changed; in particular writing a graph twice writes the same twice. -/
theorem C199_again (g : GexfGraph) (h : ∀ p ∈ g, Dict.get? p.2 "pos".toList = none) : dumpGexf g = (g, some g) := by
  have hl : gexfLoop g = (g, false) := by
    induction g with
    | nil => rfl
    | cons p g ih =>
      obtain ⟨n, d⟩ := p
      have hd : gexfNode d = some d := by
        have := h (n, d) (by simp)
        unfold gexfNode
        simp only at this
        rw [this]
      unfold gexfLoop
      rw [hd, ih (fun p hp => h p (mem_cons_of_mem _ hp))]
  unfold dumpGexf
  rw [hl]
  rfl

/-- C199: writing what has been written gives the same. -/
theorem C199_twice (g : GexfGraph) (hwf : ∀ p ∈ g, Dict.WF p.2) (out : GexfGraph) (h : (dumpGexf g).2 = some out) :
    (dumpGexf g).1 = out ∧ dumpGexf (dumpGexf g).1 = (out, some out) := by
  have hf := C199_written_partial g hwf out h
  have he : (dumpGexf g).1 = out := by
    unfold dumpGexf at h ⊢
    cases hb : (gexfLoop g).2 with
    | true => simp only [hb, if_true] at h; cases h
    | false =>
      simp only [hb, Bool.false_eq_true, if_false] at h ⊢
      exact Option.some.inj h
  refine ⟨he, ?_⟩
  rw [he]
  refine C199_again out ?_
  clear h he
  induction hf with
  | nil => simp
  | @cons p q g o hpq _ ih =>
    intro r hr
    rcases mem_cons.1 hr with rfl | hr
    · exact hpq.2.2.2.2
    · exact ih (fun p hp => hwf p (mem_cons_of_mem _ hp)) r hr

/-- C199 is violated: writing a graph removes the positions of its nodes, if only from the nodes before one that cannot be written; what a
node said about its picture before is lost. -/
theorem C199_changed_false :
    (dumpGexf [(0, [("pos".toList, .pos [1, 2])]), (1, [("pos".toList, .pos [3])]), (2, [("pos".toList, .pos [4, 5])])]).1 =
      [(0, [("viz".toList, .viz 1 2)]), (1, [("pos".toList, .pos [3])]), (2, [("pos".toList, .pos [4, 5])])] ∧
    (dumpGexf [(0, [("pos".toList, .pos [1, 2])]), (1, [("pos".toList, .pos [3])]), (2, [("pos".toList, .pos [4, 5])])]).2 = none ∧
    (dumpGexf [(0, [("viz".toList, .other 5), ("pos".toList, .pos [1, 2])])]).1 = [(0, [("viz".toList, .viz 1 2)])] := by
  decide +kernel

example : (dumpGexf [(0, [("pos".toList, .pos [1, 2]), ("name".toList, .other 4)]), (7, [])]).2 =
    some [(0, [("name".toList, .other 4), ("viz".toList, .viz 1 2)]), (7, [])] := by decide +kernel

/-! ### C200: dry runs -/

/-- C200, what holds: if all that is written suits the mode of the file, a dry run collects exactly what would have been written to the
file. Missing: what does not suit it (`C200_mode_false`). -/
theorem C200_content_partial (rb : List UInt8 → Str) (binary : Bool) (cs : List Chunk) (f : DryFile)
    (h : (realWriteAll binary cs f.buffer).2 = false) :
    (f.writeAll rb cs).buffer = (realWriteAll binary cs f.buffer).1 := by
  induction cs generalizing f with
  | nil => rfl
  | cons c cs ih =>
    have hw : realWrite binary f.buffer c = some (f.write rb c).buffer ∨ realWrite binary f.buffer c = none := by
      cases binary <;> cases c <;> simp [realWrite, DryFile.write]
    rcases hw with hw | hw
    · unfold realWriteAll at h ⊢
      rw [hw] at h ⊢
      exact ih _ h
    · unfold realWriteAll at h
      rw [hw] at h
      cases h

/-- C200: the texts are copied in order, each after the name of the file, if there is something to copy to; nothing else is. -/
theorem C200_copied (rb : List UInt8 → Str) (ts : List Str) (f : DryFile) :
    (f.writeAll rb (ts.map .text)).copied = f.copied.map (· ++ ts.flatMap (fun t => f.fname ++ ":::".toList ++ t)) := by
  induction ts generalizing f with
  | nil => cases hc : f.copied <;> simp [DryFile.writeAll, hc]
  | cons t ts ih =>
    show ((f.write rb (.text t)).writeAll rb (ts.map .text)).copied = _
    rw [ih]
    cases hc : f.copied <;> simp [DryFile.write, hc]

/-- C200 is violated: a dry run accepts what the real run raises `TypeError` for, without having written it. -/
theorem C200_mode_false (rb : List UInt8 → Str) (f : DryFile) (b : List UInt8) (t : Str) :
    realWriteAll false [.bytes b] f.buffer = (f.buffer, true) ∧ (f.writeAll rb [.bytes b]).buffer = f.buffer ++ b ∧
    realWriteAll true [.text t] f.buffer = (f.buffer, true) ∧ (f.writeAll rb [.text t]).buffer = f.buffer ++ utf8Bytes t :=
  ⟨rfl, rfl, rfl, rfl⟩

/-- C200 is violated: what is copied is not what would have been written: a text written in two pieces is copied with the name of the
file in between. -/
theorem C200_copy_false (rb : List UInt8 → Str) :
    let f : DryFile := ⟨"f".toList, [], some []⟩
    (f.writeAll rb [.text "a".toList, .text "b".toList]).buffer = (f.writeAll rb [.text "ab".toList]).buffer ∧
    (f.writeAll rb [.text "a".toList, .text "b".toList]).copied = some "f:::af:::b".toList ∧
    (f.writeAll rb [.text "ab".toList]).copied = some "f:::ab".toList := by
  refine ⟨by simp [DryFile.writeAll, DryFile.write, utf8Bytes], by simp [DryFile.writeAll, DryFile.write], by simp [DryFile.writeAll, DryFile.write]⟩

example : realWriteAll false [.text "ab".toList, .text "é".toList] [] = ([97, 98, 195, 169], false) ∧
    ((⟨"f".toList, [], none⟩ : DryFile).writeAll (fun _ => []) [.text "ab".toList, .text "é".toList]).buffer = [97, 98, 195, 169] := by
  decide +kernel

/-! ### C201: numeric seeds -/

theorem fromBytesLE_inj : ∀ (l m : List UInt8), l.getLast? ≠ some 0 → m.getLast? ≠ some 0 → fromBytesLE l = fromBytesLE m → l = m := by
  have hpos : ∀ (l : List UInt8), l ≠ [] → l.getLast? ≠ some 0 → 0 < fromBytesLE l := by
    intro l
    induction l with
    | nil => intro h; exact absurd rfl h
    | cons b l ih =>
      intro _ h
      cases l with
      | nil =>
        have : b.toNat ≠ 0 := fun e => h (by simp [UInt8.toNat_inj.1 (e.trans (by rfl : (0 : Nat) = (0 : UInt8).toNat))])
        simp only [fromBytesLE]; omega
      | cons c l =>
        have := ih (by simp) (by simpa using h)
        simp only [fromBytesLE] at this ⊢; omega
  intro l
  induction l with
  | nil =>
    intro m _ hm h
    cases m with
    | nil => rfl
    | cons b m =>
      have := hpos (b :: m) (by simp) hm
      rw [← h] at this
      exact absurd this (by simp [fromBytesLE])
  | cons a l ih =>
    intro m hl hm h
    cases m with
    | nil =>
      have := hpos (a :: l) (by simp) hl
      rw [h] at this
      exact absurd this (by simp [fromBytesLE])
    | cons b m =>
      have ha : a.toNat < 256 := a.toNat_lt
      have hb : b.toNat < 256 := b.toNat_lt
      simp only [fromBytesLE] at h
      have h1 : a.toNat = b.toNat := by omega
      have h2 : fromBytesLE l = fromBytesLE m := by omega
      rw [UInt8.toNat_inj.1 h1]
      congr 1
      refine ih m ?_ ?_ h2
      · cases l with
        | nil => simp
        | cons c l => simpa using hl
      · cases m with
        | nil => simp
        | cons c m => simpa using hm

theorem utf8Bytes_inj : ∀ (s t : Str), utf8Bytes s = utf8Bytes t → s = t := by
  intro s
  induction s with
  | nil =>
    intro t h
    cases t with
    | nil => rfl
    | cons c t =>
      have := congrArg length h
      simp only [utf8Bytes, flatMap_nil, flatMap_cons, length_nil, length_append, String.length_utf8EncodeChar] at this
      have := c.utf8Size_pos
      omega
  | cons c s ih =>
    intro t h
    cases t with
    | nil =>
      have := congrArg length h
      simp only [utf8Bytes, flatMap_nil, flatMap_cons, length_nil, length_append, String.length_utf8EncodeChar] at this
      have := c.utf8Size_pos
      omega
    | cons d t =>
      simp only [utf8Bytes, flatMap_cons] at h
      have h1 : ((String.utf8EncodeChar c).toByteArray ++ (utf8Bytes s).toByteArray) = ((String.utf8EncodeChar d).toByteArray ++ (utf8Bytes t).toByteArray) := by
        rw [← List.toByteArray_append, ← List.toByteArray_append]
        exact congrArg List.toByteArray h
      have h2 := congrArg (fun b => b.utf8DecodeChar? 0) h1
      simp only [ByteArray.utf8DecodeChar?_utf8EncodeChar_append] at h2
      obtain rfl := Option.some.inj h2
      rw [ih t (append_cancel_left h)]

theorem utf8_last_zero (c : Char) (h : (String.utf8EncodeChar c).getLast? = some 0) : c = '\x00' := by
  have h4 : c.utf8Size = 1 ∨ c.utf8Size = 2 ∨ c.utf8Size = 3 ∨ c.utf8Size = 4 := by
    have := c.utf8Size_pos
    have := c.utf8Size_le_four
    omega
  rcases h4 with h1 | h1 | h1 | h1
  · rw [String.utf8EncodeChar_eq_singleton h1] at h
    have h2 : c.val.toUInt8 = 0 := by simpa using h
    have h3 := congrArg UInt8.toNat h2
    have h5 := Char.utf8Size_eq_one_iff.1 h1
    rw [UInt32.toNat_toUInt8] at h3
    have h6 : c.val.toNat ≤ 127 := by simpa [UInt32.le_iff_toNat_le] using h5
    have h7 : c.val.toNat = 0 := by
      have : c.val.toNat % 256 = 0 := by simpa using h3
      omega
    exact Char.ext (UInt32.toNat_inj.1 (h7.trans (by rfl)))
  · rw [String.utf8EncodeChar_eq_cons_cons h1] at h
    simp at h
  · rw [String.utf8EncodeChar_eq_cons_cons_cons h1] at h
    simp at h
  · rw [String.utf8EncodeChar_eq_cons_cons_cons_cons h1] at h
    simp at h

theorem utf8Bytes_last (s : Str) (h : s.getLast? ≠ some '\x00') : (utf8Bytes s).getLast? ≠ some 0 := by
  intro e
  rcases eq_nil_or_concat s with rfl | ⟨s', c, rfl⟩
  · simp [utf8Bytes] at e
  · refine h ?_
    rw [utf8Bytes, concat_eq_append, flatMap_append, getLast?_append_of_ne_nil _ (by simp [String.utf8EncodeChar_ne_nil])] at e
    rw [concat_eq_append, getLast?_concat, utf8_last_zero c (by simpa using e)]

/-- C201, what holds: different seeds give different numbers, if they do not end in a NUL character. Missing: those that do
(`C201_nul_false`). -/
theorem C201_distinct_partial (s t : Str) (hs : s.getLast? ≠ some '\x00') (ht : t.getLast? ≠ some '\x00')
    (h : intSeed s = intSeed t) : s = t :=
  utf8Bytes_inj s t (fromBytesLE_inj _ _ (utf8Bytes_last s hs) (utf8Bytes_last t ht) h)

/-- C201: the number is smaller than 256 to the number of bytes, each byte counting 256 times the one before. -/
theorem C201_value (s : Str) :
    intSeed s = ∑ i ∈ Finset.range (utf8Bytes s).length, ((utf8Bytes s)[i]?.getD 0).toNat * 256 ^ i := by
  unfold intSeed
  induction utf8Bytes s with
  | nil => rfl
  | cons b l ih =>
    rw [length_cons, Finset.sum_range_succ', fromBytesLE, ih, Finset.mul_sum]
    simp only [getElem?_cons_succ, getElem?_cons_zero, pow_zero, mul_one, Option.getD_some, pow_succ]
    rw [Nat.add_comm]
    congr 1
    refine Finset.sum_congr rfl (fun i _ => ?_)
    ring

/-- C201 is violated: a seed and the same seed with a NUL character at its end give the same number; so does the empty seed. -/
theorem C201_nul_false (s : Str) : intSeed (s ++ ['\x00']) = intSeed s ∧ s ++ ['\x00'] ≠ s := by
  refine ⟨?_, by simp⟩
  have h : utf8Bytes (s ++ ['\x00']) = utf8Bytes s ++ [0] := by
    rw [utf8Bytes, flatMap_append]; rfl
  unfold intSeed
  rw [h]
  induction utf8Bytes s with
  | nil => rfl
  | cons b l ih => simp only [cons_append, fromBytesLE, ih]

example : intSeed "ab".toList = 97 + 256 * 98 ∧ intSeed "default2".toList = 3635650050595906916 ∧ intSeed "é".toList = 43459 := by decide +kernel

end Verif
