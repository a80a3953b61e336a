import Verif.Basic.Events

/-!
# Values returned by user code
-/

namespace Verif

/-- A `State` object (soil/agents/fsm.py:8-54): its name, whether it is marked default, and the identity of
its function. Whether it is bound to an object makes no difference to its meaning. -/
structure StateDef where
  name : String
  dflt : Bool
  fn : Nat
deriving DecidableEq, Repr, Inhabited

/-- Python values that user code may return or yield, as far as soil distinguishes them: `None`, a number,
a string, a `State` object, a `Delay` (soil/time.py:18-28), a tuple of length two, a tuple of another
length, any other object (not iterable, not convertible to a number). -/
inductive Val where
  | none
  | num (t : Time)
  | str (s : String)
  | state (d : StateDef)
  | delay (t : Time)
  | pair (a b : Val)
  | tuple (n : Nat)
  | obj (n : Nat)
deriving DecidableEq, Repr, Inhabited

/-- Python's `float(v)`; `pf` is `float` on strings. `none`: it raises `TypeError`/`ValueError`. -/
def Val.toFloat (pf : String → Option Time) : Val → Option Time
  | .num t => some t
  | .delay t => some t
  | .str s => pf s
  | _ => Option.none

/-- Exceptions: `DeadAgent` (soil/time.py:31-32) and all others. -/
inductive PyErr where
  | dead
  | other
deriving DecidableEq, Repr

def PyErr.reply : PyErr → Reply
  | .dead => .dead
  | .other => .error

/-- `float(val) if val is not None else val` (soil/agents/__init__.py:45, 53). -/
def finishVal (pf : String → Option Time) (v : Val) : Reply :=
  match v with
  | .none => .ret Option.none
  | v => match v.toFloat pf with
    | some t => .ret (some t)
    | Option.none => .error

end Verif
