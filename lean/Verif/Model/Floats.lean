import Verif.Model.Timed

/-!
# The numbers of Python and the default scheduler with them

`Model/Timed.lean` computes with exact numbers. Here times are what they are in Python: integers, which are exact, and floating-point numbers (IEEE 754
binary64, rounded to nearest, ties to even). The scheduler is the one of soil/time.py:121-183 once more, with these numbers.

Simplifications: no NaN and no `-inf`; an integer too large for a `float` becomes `inf` (Python raises `OverflowError`).
-/

namespace Verif

/-! ## binary64 -/

/-- `2 ** e`, exactly. -/
def pow2 : Int → Rat
  | .ofNat n => ((2 ^ n : Nat) : Rat)
  | .negSucc n => mkRat 1 (2 ^ (n + 1))

/-- Round to the nearest integer, ties to even. -/
def rne (x : Rat) : Int :=
  let f := x.floor
  if x - f < 1 / 2 then f
  else if 1 / 2 < x - f then f + 1
  else if f % 2 = 0 then f else f + 1

/-- The exponent of a positive number: `2 ** e <= q < 2 ** (e + 1)`. -/
def ilog2 (q : Rat) : Int :=
  let e : Int := (Nat.log2 q.num.toNat : Int) - (Nat.log2 q.den : Int)
  if pow2 e ≤ q then e else e - 1

/-- The exponent of the distance between neighbouring floating-point numbers around `q`: 53 significant bits, and at least `2 ** -1074`. -/
def ulpExp (q : Rat) : Int := if q = 0 then -1074 else max (ilog2 |q| - 52) (-1074)

/-- The nearest number with 53 significant bits. -/
def round53 (q : Rat) : Rat := rne (q / pow2 (ulpExp q)) * pow2 (ulpExp q)

/-- The `float` nearest to `q`: too large numbers become `inf`. -/
def fl (q : Rat) : Time := if pow2 1024 ≤ round53 q then .inf else .fin (round53 q)

/-! ## Numbers -/

/-- A Python number: an `int`, a finite `float`, or `float("inf")`. -/
inductive Num where
  | int (n : Int)
  | flt (q : Rat)
  | inf
deriving DecidableEq, Repr

namespace Num

/-- Its value. Python compares numbers by value, exactly. -/
def val : Num → Time
  | int n => .fin n
  | flt q => .fin q
  | inf => .inf

/-- A float with the given value. -/
def ofTime : Time → Num
  | .fin q => flt q
  | .inf => inf

/-- `float(x)`. -/
def toFloat : Num → Num
  | int n => ofTime (fl n)
  | x => x

/-- `x + y` (soil/time.py:100, 172): exact for integers, otherwise the sum of the floats, rounded. -/
def add (x y : Num) : Num :=
  match x, y with
  | int a, int b => int (a + b)
  | x, y => match x.toFloat, y.toFloat with
    | flt a, flt b => ofTime (fl (a + b))
    | _, _ => inf

/-- `x - y` for the finite numbers of `at` (soil/agents/__init__.py:296-297), the first of which is a `float`; the difference from `inf` is `inf`. -/
def sub (x y : Num) : Num :=
  match x.toFloat, y.toFloat with
  | flt a, flt b => ofTime (fl (a - b))
  | _, _ => inf

/-- `x or d`: `None`, 0 and 0.0 give the default. -/
def pyOr (x : Option Num) (d : Num) : Num :=
  match x with
  | some t => if t.val = 0 then d else t
  | none => d

end Num

/-! ## The scheduler -/

/-- What `agent.step()` does, as `Reply`. -/
inductive NReply where
  | ret (d : Option Num)
  | dead
  | error
deriving DecidableEq, Repr

/-- The events, as `Ev`. -/
inductive NEv where
  | added (r : Ref) (t : Num)
  | act (r : Ref) (t : Num) (rep : NReply)
deriving DecidableEq, Repr

/-- A `TimedActivation` (see `Sched`). -/
structure NSched where
  time : Num
  steps : Nat
  queue : List (Num × List Ref)
  agents : List Ref
  interval : Num
  shuffle : Bool
  running : Bool
  log : List NEv
deriving Repr, DecidableEq

/-- A new scheduler: `time` is the integer 0 (mesa `BaseScheduler.__init__`; soil/time.py:123-128). -/
def NSched.init (interval : Num) (shuffle : Bool) : NSched :=
  { time := .int 0, steps := 0, queue := [], agents := [], interval, shuffle, running := true, log := [] }

/-- The loop and insertion of `_schedule` (soil/time.py:140-148): times are compared by value, and the bucket keeps the number it was created with. -/
def ninsert (t : Num) (r : Ref) : List (Num × List Ref) → List (Num × List Ref)
  | [] => [(t, [r])]
  | (u, l) :: q =>
    if u.val = t.val then (u, l ++ [r]) :: q
    else if t.val < u.val then (t, [r]) :: (u, l) :: q
    else (u, l) :: ninsert t r q

namespace NSched

/-- `_schedule` (soil/time.py:138-148). -/
def schedule (s : NSched) (r : Ref) (when_ : Option Num) : NSched :=
  { s with queue := ninsert (Num.pyOr when_ s.time) r s.queue }

/-- `add`, `remove` and setting `running` (see `Sched.applyOp`; soil/time.py:130-136). -/
def applyOp (s : NSched) : SOp → NSched
  | .add r _ =>
    let s1 := s.schedule r none
    { s1 with
      agents := if r ∈ s1.agents then s1.agents else s1.agents ++ [r]
      log := s1.log ++ [.added r s.time] }
  | .remove r => { s with agents := s.agents.erase r }
  | .stop => { s with running := false }

/-- Several operations. -/
def applyOps (s : NSched) (ops : List SOp) : NSched := ops.foldl applyOp s

/-- Ghost: record an activation. -/
def logAct (s : NSched) (r : Ref) (t : Num) (rep : NReply) : NSched :=
  { s with log := s.log ++ [.act r t rep] }

end NSched

/-- User code (see `Host`). -/
structure NHost (W : Type) where
  step : Ref → NSched → W → NReply × List SOp × W
  shuffle : List Ref → W → List Ref × W
  shuffle_perm : ∀ l w, (shuffle l w).1.Perm l

variable {W : Type}

/-- The loop over the bucket (soil/time.py:169-177). -/
def nrunBucket (H : NHost W) (now : Num) : List Ref → NSched → W → NSched × W × Bool
  | [], s, w => (s, w, false)
  | r :: rest, s, w =>
    let res := H.step r s w
    let s1 := (s.applyOps res.2.1).logAct r now res.1
    match res.1 with
    | .error => (s1, res.2.2, true)
    | .dead => nrunBucket H now rest s1 res.2.2
    | .ret d =>
      let when_ := (Num.pyOr d s1.interval).add now
      let s2 := if when_.val = .inf then s1 else s1.schedule r (some when_)
      nrunBucket H now rest s2 res.2.2

/-- The time of the first bucket (soil/time.py:180-183). -/
def nheadTime : List (Num × List Ref) → Num
  | [] => .inf
  | (t, _) :: _ => t

/-- The order in which a bucket is run (soil/time.py:167-168). -/
def nrunOrder (H : NHost W) (s : NSched) (bucket : List Ref) (w : W) : List Ref × W :=
  if s.shuffle then H.shuffle bucket w else (bucket, w)

/-- The end of a step (soil/time.py:179-183). -/
def nfinishStep (res : NSched × W × Bool) : NSched × W × Bool :=
  if res.2.2 then res
  else ({ res.1 with steps := res.1.steps + 1, time := nheadTime res.1.queue }, res.2.1, false)

/-- `TimedActivation.step` (soil/time.py:150-183). -/
def NSched.step (H : NHost W) (s : NSched) (w : W) : NSched × W × Bool :=
  match s.queue with
  | [] => (s, w, false)
  | (t, bucket) :: q =>
    if s.time.val < t.val then ({ s with time := t }, w, false)
    else
      let b := nrunOrder H s bucket w
      nfinishStep (nrunBucket H s.time b.1 { s with queue := q } b.2)

/-- A command (see `Cmd.exec`). -/
def Cmd.nexec (H : NHost W) : Cmd W → NSched × W → NSched × W
  | .step, (s, w) => ((s.step H w).1, (s.step H w).2.1)
  | .op o, (s, w) => (s.applyOp o, w)
  | .world f, (s, w) => (s, f w)

/-- A history. -/
def nexecAll (H : NHost W) (h : List (Cmd W)) (sw : NSched × W) : NSched × W :=
  h.foldl (fun sw c => c.nexec H sw) sw

end Verif
