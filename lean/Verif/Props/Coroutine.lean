import Verif.Model.Coroutine
import Mathlib.Data.List.Forall2

/-!
# Generator steps (C21, C22)
-/

namespace Verif

variable {L X : Type}

/-! ### Specification -/

/-- `IsRun complete cur segs`: the segments `segs` are consecutive segments of one run of the body, the first
one being resumed at `cur`; each segment is resumed where the one before it was suspended. A complete run
ends with a return; an incomplete one is still suspended (or not started). -/
def IsRun (complete : Bool) : Option L → List (SegRec L) → Prop
  | _, [] => complete = false
  | cur, r :: rest => r.at_ = cur ∧
    match r.seg with
    | .yld _ l => IsRun complete (some l) rest
    | .ret _ => complete = true ∧ rest = []
    | .raise _ => False

/-- The value given to the scheduler by a segment: the yielded or returned value, as a number. -/
def SegRec.value (r : SegRec L) : Option Val :=
  match r.seg with
  | .yld v _ => some v
  | .ret v => some v
  | .raise _ => Option.none

def SegRec.raises (r : SegRec L) : Bool := match r.seg with
  | .raise _ => true
  | _ => false

/-! ### C21 -/

/-- Where a body is resumed when `_coroutine` is `c`. -/
def Co.point : Co L → Option L
  | .susp l => some l
  | _ => Option.none

theorem activations_threaded (pf : String → Option Time) (async : Bool) (body : Body L X) (xs : List X)
    (c : Co L) (hc : c ≠ .ended)
    (hnr : ∀ r ∈ (activations pf async body c xs).2.1, ∀ s, r = some s → s.raises = false) :
    ∃ log : List (SegRec L), (activations pf async body c xs).2.1 = log.map some ∧
      List.Forall₂ (fun r x => r.seg = (body r.at_ x).1) log xs ∧
      List.Forall₂ (fun r rep => ∃ v, r.value = some v ∧ rep = finishVal pf v) log
        (activations pf async body c xs).2.2 ∧
      ∃ (first : List (SegRec L)) (runs : List (List (SegRec L))) (last : List (SegRec L)),
        ((log = first ∧ runs = [] ∧ last = [] ∧ IsRun false c.point first) ∨
         (log = first ++ runs.flatten ++ last ∧ IsRun true c.point first ∧ (∀ r ∈ runs, IsRun true Option.none r) ∧
          IsRun false Option.none last)) := by
  induction xs generalizing c with
  | nil => exact ⟨[], rfl, .nil, .nil, [], [], [], Or.inl ⟨rfl, rfl, rfl, rfl⟩⟩
  | cons x xs ih =>
    have hgen : genStep pf async body c x = settle pf (body c.point x) := by
      cases c with
      | none => rfl
      | susp l => rfl
      | ended => exact absurd rfl hc
    have hrec : (activations pf async body c (x :: xs)).2.1 =
        some ⟨c.point, (body c.point x).1⟩ :: (activations pf async body (settle pf (body c.point x)).1 xs).2.1 := by
      cases c with
      | none => rfl
      | susp l => rfl
      | ended => exact absurd rfl hc
    have hrep : (activations pf async body c (x :: xs)).2.2 = (settle pf (body c.point x)).2.1 ::
        (activations pf async body (settle pf (body c.point x)).1 xs).2.2 := by
      rw [← hgen]; rfl
    rw [hrec, hrep]
    rw [hrec] at hnr
    have h0 := hnr _ List.mem_cons_self _ rfl
    have hnr' : ∀ r ∈ (activations pf async body (settle pf (body c.point x)).1 xs).2.1, ∀ s, r = some s →
        s.raises = false := fun r hr => hnr r (by simp [hr])
    rcases hseg : (body c.point x).1 with ⟨v, l⟩ | v | e
    · have hs : (settle pf (body c.point x)).1 = .susp l ∧ (settle pf (body c.point x)).2.1 = finishVal pf v := by
        simp [settle, hseg]
      rw [hs.1] at hnr' ⊢
      rw [hs.2]
      obtain ⟨log, h1, h2, h3, first, runs, last, h4⟩ := ih (.susp l) (by simp) hnr'
      refine ⟨⟨c.point, .yld v l⟩ :: log, by rw [h1]; rfl, .cons hseg.symm h2, .cons ⟨v, rfl, rfl⟩ h3,
        ⟨c.point, .yld v l⟩ :: first, runs, last, ?_⟩
      rcases h4 with ⟨e1, e2, e3, e4⟩ | ⟨e1, e2, e3, e4⟩
      · exact Or.inl ⟨by rw [e1], e2, e3, rfl, e4⟩
      · exact Or.inr ⟨by rw [e1]; rfl, ⟨rfl, e2⟩, e3, e4⟩
    · have hs : (settle pf (body c.point x)).1 = .none ∧ (settle pf (body c.point x)).2.1 = finishVal pf v := by
        simp [settle, hseg]
      rw [hs.1] at hnr' ⊢
      rw [hs.2]
      obtain ⟨log, h1, h2, h3, first, runs, last, h4⟩ := ih .none (by simp) hnr'
      rcases h4 with ⟨e1, e2, e3, e4⟩ | ⟨e1, e2, e3, e4⟩
      · refine ⟨⟨c.point, .ret v⟩ :: log, by rw [h1]; rfl, .cons hseg.symm h2, .cons ⟨v, rfl, rfl⟩ h3,
          [⟨c.point, .ret v⟩], [], first, Or.inr ⟨by rw [e1]; rfl, ⟨rfl, rfl, rfl⟩, by simp, e4⟩⟩
      · refine ⟨⟨c.point, .ret v⟩ :: log, by rw [h1]; rfl, .cons hseg.symm h2, .cons ⟨v, rfl, rfl⟩ h3,
          [⟨c.point, .ret v⟩], first :: runs, last, Or.inr ⟨by rw [e1]; simp, ⟨rfl, rfl, rfl⟩, ?_, e4⟩⟩
        intro r hr
        rcases List.mem_cons.1 hr with rfl | hr
        · exact e2
        · exact e3 r hr
    · simp [SegRec.raises, hseg] at h0

/-- C21: whatever happens in the world between activations (`xs`), as long as the body raises nothing: every
activation executes exactly one segment; the segments executed are those of complete runs of the body, one
after the other, followed by an incomplete run; and every activation replies with the value yielded or
returned by its segment. -/
theorem C21_generator_resume (pf : String → Option Time) (async : Bool) (body : Body L X) (xs : List X)
    (hnr : ∀ r ∈ (activations pf async body .none xs).2.1, ∀ s, r = some s → s.raises = false) :
    ∃ (log : List (SegRec L)) (runs : List (List (SegRec L))) (last : List (SegRec L)),
      (activations pf async body .none xs).2.1 = log.map some ∧ log.length = xs.length ∧
      log = runs.flatten ++ last ∧ (∀ r ∈ runs, IsRun true Option.none r) ∧ IsRun false Option.none last ∧
      List.Forall₂ (fun r x => r.seg = (body r.at_ x).1) log xs ∧
      List.Forall₂ (fun r rep => ∃ v, r.value = some v ∧ rep = finishVal pf v) log
        (activations pf async body .none xs).2.2 := by
  obtain ⟨log, h1, h2, h3, first, runs, last, h4⟩ := activations_threaded pf async body xs .none (by simp) hnr
  rcases h4 with ⟨e1, _, _, e4⟩ | ⟨e1, e2, e3, e4⟩
  · exact ⟨log, [], first, h1, h2.length_eq, by simp [e1], by simp, e4, h2, h3⟩
  · refine ⟨log, first :: runs, last, h1, h2.length_eq, by simp [e1], ?_, e4, h2, h3⟩
    intro r hr
    rcases List.mem_cons.1 hr with rfl | hr
    · exact e2
    · exact e3 r hr

/-- A body with two suspension points whose continuation depends on the world: it waits 1, waits 2 (or
returns at once if the world is 0), then returns 5. The world counts up. -/
def exBody : Body Nat Nat := fun l x =>
  match l with
  | Option.none => (.yld (.num 1) 0, x + 1)
  | some 0 => (if x = 0 then .ret .none else .yld (.delay 2) 1, x + 1)
  | some _ => (.ret (.num 5), x + 1)

example : (activations (fun _ => Option.none) false exBody .none [7, 7, 7, 7, 0, 3]) =
    (.susp 0, [some ⟨Option.none, .yld (.num 1) 0⟩, some ⟨some 0, .yld (.delay 2) 1⟩, some ⟨some 1, .ret (.num 5)⟩,
      some ⟨Option.none, .yld (.num 1) 0⟩, some ⟨some 0, .ret .none⟩, some ⟨Option.none, .yld (.num 1) 0⟩],
      [.ret (some 1), .ret (some 2), .ret (some 5), .ret (some 1), .ret Option.none, .ret (some 1)]) := by
  decide +kernel

/-! ### C22 -/

/-- C22 is violated (generators): after a run of the body has raised, the next activation runs no user code
and replies `None`; only the one after that starts a new run. -/
theorem C22_swallowed_activation_false (pf : String → Option Time) (body : Body L X) (c : Co L) (hc : c ≠ .ended)
    (x y : X) (xs : List X) (e : PyErr) (he : (body c.point x).1 = .raise e) :
    activations pf false body c (x :: y :: xs) =
      ((activations pf false body .none xs).1,
       some ⟨c.point, .raise e⟩ :: Option.none :: (activations pf false body .none xs).2.1,
       e.reply :: .ret Option.none :: (activations pf false body .none xs).2.2) := by
  cases c with
  | none => simp only [Co.point] at he; simp [activations, genStep, settle, he, Co.point]
  | susp l => simp only [Co.point] at he; simp [activations, genStep, settle, he, Co.point]
  | ended => exact absurd rfl hc

/-- C22 is violated (coroutines): after a run of an `async` body has raised, every later activation raises
and no code of the agent is ever run again. -/
theorem C22_coroutine_stuck_false (pf : String → Option Time) (body : Body L X) (c : Co L) (hc : c ≠ .ended)
    (x : X) (xs : List X) (e : PyErr) (he : (body c.point x).1 = .raise e) :
    activations pf true body c (x :: xs) =
      (.ended, some ⟨c.point, .raise e⟩ :: xs.map (fun _ => Option.none), e.reply :: xs.map (fun _ => .error)) := by
  have key : ∀ xs : List X, activations pf true body .ended xs =
      (.ended, xs.map (fun _ => Option.none), xs.map (fun _ => .error)) := by
    intro xs
    induction xs with
    | nil => rfl
    | cons x xs ih => simp [activations, genStep, ih]
  cases c with
  | none => simp only [Co.point] at he; simp [activations, genStep, settle, he, Co.point, key]
  | susp l => simp only [Co.point] at he; simp [activations, genStep, settle, he, Co.point, key]
  | ended => exact absurd rfl hc

/-- A body that yields once and then fails. -/
def failBody : Body Unit Unit := fun l _ =>
  match l with
  | Option.none => (.yld .none (), ())
  | some _ => (.raise .other, ())

example : (activations (fun _ => Option.none) false failBody .none [(), (), (), ()]).2.1 =
    [some ⟨Option.none, .yld .none ()⟩, some ⟨some (), .raise .other⟩, Option.none, some ⟨Option.none, .yld .none ()⟩] := by
  decide +kernel

example : (activations (fun _ => Option.none) true failBody .none [(), (), (), ()]).2.2 =
    [.ret Option.none, .error, .error, .error] := by
  decide +kernel

/-- C22, what holds: a generator step starts a new run of its body at the second activation after a failure.
Missing: at the first one; coroutines. -/
theorem C22_restart_partial (pf : String → Option Time) (body : Body L X) (c : Co L) (hc : c ≠ .ended) (x y z : X)
    (e : PyErr) (he : (body c.point x).1 = .raise e) :
    ((activations pf false body c [x, y, z]).2.1)[2]? = some (some ⟨Option.none, (body Option.none z).1⟩) := by
  rw [C22_swallowed_activation_false pf body c hc x y [z] e he]
  rfl

example : (failBody (Co.susp ()).point ()).1 = .raise .other := rfl

end Verif
