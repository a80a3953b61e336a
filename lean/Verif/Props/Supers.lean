import Verif.Model.Supers

/-!
# C221: the step of a class may call the step of another class
-/

namespace Verif

namespace Spec

/-- What Python programmers expect: the step of every class has a generator of its own, that is resumed where it was suspended. `slots c`
is the generator of class `c`. -/
def ownStep {L X : Type} (pf : String → Option Time) (T : Nat → StepFn L X) : Nat → Nat → (Nat → Coro L) → X →
    (Nat → Coro L) × Reply × X
  | 0, _, slots, x => (slots, .error, x)
  | fuel + 1, c, slots, x =>
    if (T c).kind = .plain then
      let r := runCode (ownStep pf T fuel) ((T c).code none x) slots
      (r.1, funStep pf (r.2.1, r.2.2))
    else
      match (slots c).resume T c x with
      | .inl r => (Function.update slots c r.1, r.2, x)
      | .inr (o, p) =>
        let r := runCode (ownStep pf T fuel) p (Function.update slots c .running)
        (Function.update r.1 c (settleCode pf o r.2.1).1, (settleCode pf o r.2.1).2, r.2.2)

/-- A series of activations with a generator per class. -/
def ownAll {L X : Type} (pf : String → Option Time) (T : Nat → StepFn L X) (fuel c : Nat) : (Nat → Coro L) → List (X → X) → X →
    (Nat → Coro L) × List Reply × X
  | slots, [], x => (slots, [], x)
  | slots, f :: fs, x =>
    let r := ownStep pf T fuel c slots (f x)
    let rest := ownAll pf T fuel c r.1 fs r.2.2
    (rest.1, r.2.1 :: rest.2.1, rest.2.2)

/-- The replies and effects of a generator on its own (`genStep`, see C21), activated repeatedly; before each activation the world is changed by
the given function, and by `before`. -/
def aloneAll {L X : Type} (pf : String → Option Time) (async : Bool) (body : Body L X) (before : X → X) : Co L → List (X → X) → X → List Reply × X
  | _, [], x => ([], x)
  | co, f :: fs, x =>
    let r := genStep pf async body co (before (f x))
    let rest := aloneAll pf async body before r.1 fs r.2.2
    (r.2.1 :: rest.1, rest.2)

/-- A piece of a body as code without calls. -/
def ofSeg {L X : Type} (r : Seg L × X) : StepCode L X :=
  match r.1 with
  | .yld v l => .yld v r.2 l
  | .ret v => .ret v r.2
  | .raise e => .raise e r.2

/-- Handing on what another step gave: its value is returned, its exception escapes. -/
def handOn {L X : Type} (r : Reply) (x : X) : StepCode L X :=
  match r with
  | .ret none => .ret .none x
  | .ret (some t) => .ret (.num t) x
  | .dead => .raise .dead x
  | .error => .raise .other x

end Spec

open Spec

private theorem runCode_sim {L X : Type} {g : Nat} {ci : Nat → Coro L → X → Coro L × Reply × X}
    {cs : Nat → (Nat → Coro L) → X → (Nat → Coro L) × Reply × X}
    (hc : ∀ c slots x, ci c (slots g) x = ((cs c slots x).1 g, (cs c slots x).2)) (p : StepCode L X) :
    ∀ slots, runCode ci p (slots g) = ((runCode cs p slots).1 g, (runCode cs p slots).2) := by
  induction p with
  | ret v x => intro slots; rfl
  | yld v x k => intro slots; rfl
  | raise e x => intro slots; rfl
  | call c x k ih =>
    intro slots
    simp only [runCode, hc c slots x]
    exact ih _ _ _

private theorem wrappedStep_sim {L X : Type} (pf : String → Option Time) (T : Nat → StepFn L X) (g : Nat)
    (hg : ∀ c, (T c).kind ≠ .plain → c = g) : ∀ fuel c slots x,
    wrappedStep pf T fuel c (slots g) x = ((ownStep pf T fuel c slots x).1 g, (ownStep pf T fuel c slots x).2)
  | 0, _, _, _ => rfl
  | fuel + 1, c, slots, x => by
    have ih := runCode_sim (wrappedStep_sim pf T g hg fuel)
    by_cases hk : (T c).kind = .plain
    · simp only [wrappedStep, ownStep, hk, if_true, ih]
    · obtain rfl := hg c hk
      simp only [wrappedStep, ownStep, hk, if_false]
      cases (slots c).resume T c x with
      | inl r => simp
      | inr ap =>
        have h := ih ap.2 (Function.update slots c .running)
        simp only [Function.update_self] at h
        simp only [h, Function.update_self]

/-- C221 (partial: as long as at most one of the classes has a generator or coroutine as its step): every step that is called runs the code
of its own class, resumed where it was suspended, whatever the steps call in which order: a series of activations has the same replies and the
same effects as if each class had a generator of its own. -/
theorem C221_one_partial {L X : Type} (pf : String → Option Time) (T : Nat → StepFn L X) (g : Nat)
    (hg : ∀ c, (T c).kind ≠ .plain → c = g) (fuel c : Nat) (fs : List (X → X)) (x : X) :
    (activateAll pf T fuel c .none fs x).2 = (ownAll pf T fuel c (fun _ => .none) fs x).2 := by
  suffices h : ∀ fs slots x, activateAll pf T fuel c (slots g) fs x =
      ((ownAll pf T fuel c slots fs x).1 g, (ownAll pf T fuel c slots fs x).2) by
    exact congrArg Prod.snd (h fs (fun _ => .none) x)
  intro fs
  induction fs with
  | nil => intro slots x; rfl
  | cons f fs ih =>
    intro slots x
    simp only [activateAll, ownAll, wrappedStep_sim pf T g hg, ih]

/-- How the generator of class `g` shows in the attribute. -/
private def coOf {L : Type} (g : Nat) : Co L → Coro L
  | .none => .none
  | .susp l => .susp g l
  | .ended => .ended g

private theorem wrapped_ofSeg {L X : Type} (pf : String → Option Time) (T : Nat → StepFn L X) (fuel g : Nat) (body : Body L X) (async : Bool)
    (hk : (T g).kind = if async then .async else .gen) (hb : (T g).code = fun l x => ofSeg (body l x)) (co : Co L) (x : X) :
    wrappedStep pf T (fuel + 1) g (coOf g co) x =
      (coOf g (genStep pf async body co x).1, (genStep pf async body co x).2) := by
  have hp : (T g).kind ≠ .plain := by rw [hk]; cases async <;> simp
  have hseg : ∀ r : Seg L × X, runCode (wrappedStep pf T fuel) (ofSeg r) (.running : Coro L) = (.running, r.1, r.2) := by
    rintro ⟨s, y⟩; cases s <;> rfl
  have hset : ∀ r : Seg L × X, ((settleCode pf g r.1).1, (settleCode pf g r.1).2, r.2) =
      (coOf g (settle pf r).1, (settle pf r).2.1, (settle pf r).2.2) := by
    rintro ⟨s, y⟩; cases s <;> rfl
  simp only [wrappedStep, hp, if_false]
  cases co with
  | none => simp only [coOf, Coro.resume, hb, hseg, genStep]; exact hset _
  | susp l => simp only [coOf, Coro.resume, hb, hseg, genStep]; exact hset _
  | ended => cases async <;> simp [coOf, Coro.resume, hk, genStep]

private theorem own_ofSeg {L X : Type} (pf : String → Option Time) (T : Nat → StepFn L X) (fuel g : Nat) (body : Body L X)
    (hk : (T g).kind = .gen) (hb : (T g).code = fun l x => ofSeg (body l x)) (slots : Nat → Coro L) (hs : slots g = .none) (x : X) :
    (ownStep pf T (fuel + 1) g slots x).2 = (genStep pf false body .none x).2 ∧
    ∀ c, c ≠ g → (ownStep pf T (fuel + 1) g slots x).1 c = slots c := by
  have hseg : ∀ (r : Seg L × X) (sl : Nat → Coro L), runCode (ownStep pf T fuel) (ofSeg r) sl = (sl, r.1, r.2) := by
    rintro ⟨s, y⟩ sl; cases s <;> rfl
  simp only [ownStep, hk, reduceCtorEq, if_false, hs, Coro.resume, hb, hseg, genStep]
  refine ⟨?_, fun c hc => by simp [Function.update_of_ne hc]⟩
  rcases body none x with ⟨s, y⟩
  cases s <;> rfl

private theorem handOn_run {L X C : Type} (pf : String → Option Time) (call : Nat → C → X → C × Reply × X) (r : Reply) (x : X) (co : C) :
    (runCode call (handOn r x : StepCode L X) co).1 = co ∧
    funStep pf ((runCode call (handOn r x : StepCode L X) co).2.1, (runCode call (handOn r x : StepCode L X) co).2.2) = (r, x) := by
  cases r with
  | ret d => cases d <;> exact ⟨rfl, rfl⟩
  | dead => exact ⟨rfl, rfl⟩
  | error => exact ⟨rfl, rfl⟩

/-- C221 for subclasses of a class with a generator (or coroutine) as its step, e.g. of `FSM`, that extend it by a plain function (`...; return super().step()`):
whatever the generator does, it is run piece by piece, one piece per activation, after the additional code, and the scheduler gets its delays,
as for the generator on its own. -/
theorem C221_super {L X : Type} (pf : String → Option Time) (T : Nat → StepFn L X) (fuel : Nat) (before : X → X) (async : Bool) (body : Body L X)
    (h0 : T 0 = ⟨.plain, fun _ x => .call 1 (before x) handOn⟩)
    (h1 : T 1 = ⟨if async then .async else .gen, fun l x => ofSeg (body l x)⟩) (fs : List (X → X)) (x : X) :
    (activateAll pf T (fuel + 2) 0 .none fs x).2 = aloneAll pf async body before .none fs x := by
  suffices h : ∀ fs (co : Co L) x, (activateAll pf T (fuel + 2) 0 (coOf 1 co) fs x).2 = aloneAll pf async body before co fs x by
    exact h fs .none x
  intro fs
  induction fs with
  | nil => intro co x; rfl
  | cons f fs ih =>
    intro co x
    have hw : ∀ y, wrappedStep pf T (fuel + 2) 0 (coOf 1 co) y =
        (coOf 1 (genStep pf async body co (before y)).1, (genStep pf async body co (before y)).2) := by
      intro y
      rw [wrappedStep]
      simp only [h0, if_true, runCode, wrapped_ofSeg pf T fuel 1 body async (by rw [h1]) (by rw [h1])]
      exact Prod.ext (handOn_run pf _ _ _ _).1 (handOn_run pf _ _ _ _).2
    simp only [activateAll, hw, aloneAll, ← ih]

/-- C221 is violated by a generator that calls the step of a class with a generator (`super().step()` in the generator of a subclass of `FSM`):
the call always raises, no matter what the class does, and none of its code is run. -/
theorem C221_nested_false {L X : Type} (pf : String → Option Time) (T : Nat → StepFn L X) (fuel c : Nat) (x x1 : X)
    (k : Reply → X → StepCode L X) (h0 : (T 0).kind ≠ .plain) (hc : (T c).kind ≠ .plain) (hcode : (T 0).code none x = .call c x1 k) :
    wrappedStep pf T (fuel + 2) 0 .none x =
      (let r := runCode (wrappedStep pf T (fuel + 1)) (k .error x1) .running;
        ((settleCode pf 0 r.2.1).1, (settleCode pf 0 r.2.1).2, r.2.2)) := by
  have hin : wrappedStep pf T (fuel + 1) c .running x1 = (.running, .error, x1) := by
    simp only [wrappedStep, hc, if_false, Coro.resume]
  rw [wrappedStep]
  simp only [h0, if_false, Coro.resume, hcode, runCode, hin]

/-- C221 is violated by a class that calls the generators of two base classes in turn (`A.step(self); B.step(self)`): when the first one has
yielded, the second call resumes the first generator again instead of running the step of the second class. -/
theorem C221_two_false {L X : Type} (pf : String → Option Time) (T : Nat → StepFn L X) (fuel : Nat) (a b : Body L X) (x x1 : X) (v : Val) (l : L)
    (h0 : T 0 = ⟨.plain, fun _ x => .call 1 x (fun _ x => .call 2 x handOn)⟩)
    (h1 : T 1 = ⟨.gen, fun l x => ofSeg (a l x)⟩) (h2 : T 2 = ⟨.gen, fun l x => ofSeg (b l x)⟩) (ha : a none x = (.yld v l, x1)) :
    (wrappedStep pf T (fuel + 2) 0 .none x).2 = (genStep pf false a (.susp l) x1).2 ∧
    (ownStep pf T (fuel + 2) 0 (fun _ => .none) x).2 = (genStep pf false b .none x1).2 := by
  have hfirst := wrapped_ofSeg pf T fuel 1 a false (by rw [h1]; rfl) (by rw [h1]) .none x
  have hown := own_ofSeg pf T fuel 1 a (by rw [h1]) (by rw [h1]) (fun _ => .none) rfl x
  have hg : genStep pf false a .none x = (.susp l, finishVal pf v, x1) := by simp only [genStep, ha, settle]
  rw [hg] at hfirst hown
  constructor
  · have h3 : wrappedStep pf T (fuel + 1) 2 (.susp 1 l) x1 =
        (coOf 1 (genStep pf false a (.susp l) x1).1, (genStep pf false a (.susp l) x1).2) := by
      rw [← wrapped_ofSeg pf T fuel 1 a false (by rw [h1]; rfl) (by rw [h1]) (.susp l) x1]
      simp [wrappedStep, coOf, Coro.resume, h1, h2]
    rw [wrappedStep]
    have hfirst' : wrappedStep pf T (fuel + 1) 1 .none x = (.susp 1 l, finishVal pf v, x1) := hfirst
    simp only [h0, if_true, runCode, hfirst', h3]
    exact (handOn_run pf _ _ _ _).2
  · have h3 := own_ofSeg pf T fuel 2 b (by rw [h2]) (by rw [h2]) (ownStep pf T (fuel + 1) 1 (fun _ => .none) x).1
      (hown.2 2 (by decide)) x1
    rw [ownStep]
    simp only [h0, if_true, runCode]
    rw [hown.1]
    simp only [h3.1]
    exact (handOn_run pf _ _ _ _).2

/-! Examples: the world is the list of the marks left by the code. -/

/-- A generator that yields 2 and 3 for ever, and leaves the marks 20 and 30. -/
private def exBody : Body Nat (List Nat)
  | none, x => (.yld (.num 2) 1, x ++ [20])
  | some 1, x => (.yld (.num 3) 0, x ++ [30])
  | some _, x => (.yld (.num 2) 1, x ++ [20])

/-- The class itself is a plain function that leaves the mark 1 and calls the generator of its base. -/
private def exPlain : Nat → StepFn Nat (List Nat)
  | 0 => ⟨.plain, fun _ x => .call 1 (x ++ [1]) handOn⟩
  | 1 => ⟨.gen, fun l x => ofSeg (exBody l x)⟩
  | _ => ⟨.plain, fun _ x => .raise .other x⟩

/-- A generator that calls the plain step of its base, and yields 5. -/
private def exGen : Nat → StepFn Nat (List Nat)
  | 0 => ⟨.gen, fun _ x => .call 1 (x ++ [1]) (fun r x => if r = .error then .raise .other x else .yld (.num 5) (x ++ [2]) 0)⟩
  | 1 => ⟨.plain, fun _ x => .ret (.num 9) (x ++ [7])⟩
  | _ => ⟨.plain, fun _ x => .raise .other x⟩

/-- The same, but the step of the base is a generator as well. -/
private def exNested : Nat → StepFn Nat (List Nat)
  | 0 => ⟨.gen, fun _ x => .call 1 (x ++ [1]) (fun r x => if r = .error then .raise .other x else .yld (.num 5) (x ++ [2]) 0)⟩
  | 1 => ⟨.gen, fun _ x => .yld (.num 9) (x ++ [7]) 0⟩
  | _ => ⟨.plain, fun _ x => .raise .other x⟩

/-- A class that calls the generators of two bases. -/
private def exTwo : Nat → StepFn Nat (List Nat)
  | 0 => ⟨.plain, fun _ x => .call 1 x (fun _ x => .call 2 x handOn)⟩
  | 1 => ⟨.gen, fun l x => ofSeg (exBody l x)⟩
  | 2 => ⟨.gen, fun l x => ofSeg (.yld (.num 9) (l.getD 0), x ++ [7])⟩
  | _ => ⟨.plain, fun _ x => .raise .other x⟩

example : (activateAll (fun _ => none) exPlain 5 0 .none [id, id, id] []).2 =
    ([.ret (some 2), .ret (some 3), .ret (some 2)], [1, 20, 1, 30, 1, 20]) := by decide +kernel

example : (activateAll (fun _ => none) exGen 5 0 .none [id, id] []).2 = ([.ret (some 5), .ret (some 5)], [1, 7, 2, 1, 7, 2]) := by
  decide +kernel

example : (activateAll (fun _ => none) exNested 5 0 .none [id, id] []).2 = ([.error, .ret none], [1]) ∧
    (ownAll (fun _ => none) exNested 5 0 (fun _ => .none) [id, id] []).2 = ([.ret (some 5), .ret (some 5)], [1, 7, 2, 1, 7, 2]) := by
  decide +kernel

example : (activateAll (fun _ => none) exTwo 5 0 .none [id, id] []).2 = ([.ret (some 3), .ret (some 3)], [20, 30, 20, 30]) ∧
    (ownAll (fun _ => none) exTwo 5 0 (fun _ => .none) [id, id] []).2 = ([.ret (some 9), .ret (some 9)], [20, 7, 30, 7]) := by
  decide +kernel

end Verif
