import Verif.Model.Coroutine

/-!
# Model of steps that call the step of another class (soil/agents/__init__.py:28-54, 64-82)

`MetaAgent` wraps the `step` of every class separately, so `super().step()` or `Base.step(self)` in the body of a step calls the
wrapper of that class. All wrappers of an agent use the same attribute `_coroutine`.
-/

namespace Verif

/-- The three kinds of functions that `MetaAgent` accepts as a `step` (soil/agents/__init__.py:70-81): a plain function, a generator
function, a coroutine function. -/
inductive StepKind where
  | plain
  | gen
  | async
deriving DecidableEq, Repr

/-- The code of a step, from some point on: it returns, yields (and is suspended at `l`), raises, or calls the `step` of class number `c` for
the same agent (`super().step()`, `Base.step(self)`), and goes on with what that call gave (exceptions may be caught). `L` is the type of
suspension points (with the local variables), `X` is everything else. -/
inductive StepCode (L X : Type) where
  | ret (v : Val) (x : X)
  | yld (v : Val) (x : X) (l : L)
  | raise (e : PyErr) (x : X)
  | call (c : Nat) (x : X) (k : Reply → X → StepCode L X)

/-- The `step` in the body of a class: `code none x` starts it, `code (some l) x` resumes it at `l`. -/
structure StepFn (L X : Type) where
  kind : StepKind
  code : Option L → X → StepCode L X

/-- The attribute `_coroutine` of an agent (soil/agents/__init__.py:32-40, 74-78): `None`, a suspended generator or coroutine, one that
is executing at the moment, or one that ended by an exception. `c` is the class whose step it is the generator of. -/
inductive Coro (L : Type) where
  | none
  | susp (c : Nat) (l : L)
  | running
  | ended (c : Nat)
deriving DecidableEq, Repr

/-- Running code until it returns, yields or raises; `call` executes the calls of other steps, `C` is what they may change besides `X` (the
attribute `_coroutine`). -/
def runCode {L X C : Type} (call : Nat → C → X → C × Reply × X) : StepCode L X → C → C × Seg L × X
  | .ret v x, co => (co, .ret v, x)
  | .yld v x l, co => (co, .yld v l, x)
  | .raise e x, co => (co, .raise e, x)
  | .call c x k, co => runCode call (k (call c co x).2.1 (call c co x).2.2) (call c co x).1

/-- What `send(None)` leaves in `_coroutine`, and the value of the wrapper (soil/agents/__init__.py:34-45). -/
def settleCode {L : Type} (pf : String → Option Time) (c : Nat) (seg : Seg L) : Coro L × Reply :=
  match seg with
  | .yld v l => (.susp c l, finishVal pf v)
  | .ret v => (.none, finishVal pf v)
  | .raise e => (.ended c, e.reply)

/-- Whether `send(None)` runs code in a call of the step of class `c`, and which: if there is no generator a new one is made, which starts with the
code of the function; a suspended generator goes on with its own code; one that is executing raises `ValueError` ("generator already
executing"), one that has ended raises `StopIteration` (a coroutine: `RuntimeError`) (soil/agents/__init__.py:32-40). -/
def Coro.resume {L X : Type} (T : Nat → StepFn L X) (c : Nat) (x : X) : Coro L → Coro L × Reply ⊕ Nat × StepCode L X
  | .none => .inr (c, (T c).code Option.none x)
  | .susp o l => .inr (o, (T o).code (some l) x)
  | .running => .inl (.running, .error)
  | .ended o => .inl (if (T o).kind = .async then (.ended o, .error) else (.none, .ret Option.none))

/-- The wrapped step of class `c` (soil/agents/__init__.py:28-54), for an agent with the given `_coroutine`. `T` gives the step of each
class; `fuel` bounds the depth of calls (0: `RecursionError`). -/
def wrappedStep {L X : Type} (pf : String → Option Time) (T : Nat → StepFn L X) : Nat → Nat → Coro L → X → Coro L × Reply × X
  | 0, _, co, x => (co, .error, x)
  | fuel + 1, c, co, x =>
    if (T c).kind = .plain then
      let r := runCode (wrappedStep pf T fuel) ((T c).code Option.none x) co
      (r.1, funStep pf (r.2.1, r.2.2))
    else
      match co.resume T c x with
      | .inl r => (r.1, r.2, x)
      | .inr (o, p) =>
        let r := runCode (wrappedStep pf T fuel) p .running
        ((settleCode pf o r.2.1).1, (settleCode pf o r.2.1).2, r.2.2)

/-- A series of activations of an agent of class `c`: before the `i`-th one, the rest of the world is changed by the `i`-th function.
Returns the final `_coroutine`, the replies and the final world. -/
def activateAll {L X : Type} (pf : String → Option Time) (T : Nat → StepFn L X) (fuel c : Nat) : Coro L → List (X → X) → X →
    Coro L × List Reply × X
  | co, [], x => (co, [], x)
  | co, f :: fs, x =>
    let r := wrappedStep pf T fuel c co (f x)
    let rest := activateAll pf T fuel c r.1 fs r.2.2
    (rest.1, r.2.1 :: rest.2.1, rest.2.2)

end Verif
