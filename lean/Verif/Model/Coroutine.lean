import Verif.Basic.Val

/-!
# Model of `decorate_generator_step` / `decorate_normal_func` (soil/agents/__init__.py:28-54)

A generator or coroutine body is given by its segments (the code between two suspension points).
`L` is the type of suspension points (with the local variables), `X` everything else.
-/

namespace Verif

/-- How a segment of a generator body ends: it yields a value and is suspended at `l`, the body returns, or
it raises. -/
inductive Seg (L : Type) where
  | yld (v : Val) (l : L)
  | ret (v : Val)
  | raise (e : PyErr)
deriving DecidableEq, Repr

/-- The attribute `_coroutine` of an agent: `None`, a suspended generator, or a generator that has ended by
an exception (and was left in the attribute). -/
inductive Co (L : Type) where
  | none
  | susp (l : L)
  | ended
deriving DecidableEq, Repr

/-- A body: `run (some l) x` resumes it at `l`, `run none x` starts it. -/
abbrev Body (L X : Type) := Option L → X → Seg L × X

/-- What `send(None)` does with the outcome of a segment (soil/agents/__init__.py:34-45). -/
def settle {L X : Type} (pf : String → Option Time) (res : Seg L × X) : Co L × Reply × X :=
  match res.1 with
  | .yld v l => (.susp l, finishVal pf v, res.2)
  | .ret v => (.none, finishVal pf v, res.2)
  | .raise e => (.ended, e.reply, res.2)

/-- `decorated` of `decorate_generator_step` (soil/agents/__init__.py:30-45). `_last_return` and
`_last_except` are never set by soil, so the body is always resumed by `send(None)`. A finished generator
raises `StopIteration(None)` when resumed; a finished coroutine (`async`) raises `RuntimeError`. -/
def genStep {L X : Type} (pf : String → Option Time) (async : Bool) (body : Body L X) (c : Co L) (x : X) :
    Co L × Reply × X :=
  match c with
  | .none => settle pf (body Option.none x)
  | .susp l => settle pf (body (some l) x)
  | .ended => if async then (.ended, .error, x) else (.none, .ret Option.none, x)

/-- `decorated` of `decorate_normal_func` (soil/agents/__init__.py:49-54): the function is called; there is
nothing to suspend (a "yield" of a function that is not a generator is read as a return). -/
def funStep {L X : Type} (pf : String → Option Time) (res : Seg L × X) : Reply × X :=
  match res.1 with
  | .yld v _ => (finishVal pf v, res.2)
  | .ret v => (finishVal pf v, res.2)
  | .raise e => (e.reply, res.2)

/-- One activation, recorded: the point at which the body was resumed, the outcome of the segment, and
the reply given to the scheduler. `none` for an activation in which no user code ran. -/
structure SegRec (L : Type) where
  at_ : Option L
  seg : Seg L
deriving DecidableEq, Repr

/-- A series of activations of one agent; before the `i`-th one the rest of the world is the `i`-th element
of the list (anything may happen between activations). Returns the final `_coroutine`, what code was run
in each activation, and the replies. -/
def activations {L X : Type} (pf : String → Option Time) (async : Bool) (body : Body L X) :
    Co L → List X → Co L × List (Option (SegRec L)) × List Reply
  | c, [] => (c, [], [])
  | c, x :: xs =>
    let r := genStep pf async body c x
    let rec_ : Option (SegRec L) := match c with
      | .none => some ⟨Option.none, (body Option.none x).1⟩
      | .susp l => some ⟨some l, (body (some l) x).1⟩
      | .ended => Option.none
    let rest := activations pf async body r.1 xs
    (rest.1, rec_ :: rest.2.1, r.2.1 :: rest.2.2)

end Verif
