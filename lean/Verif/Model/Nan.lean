import Verif.Model.Timed
import Verif.Model.Heapq

/-!
# The schedulers when a delay is not a number

soil/time.py:43-183 once more with numbers that may be `nan` (the result of `float("nan")`, of `inf - inf`, of many functions of numpy …).
Delays are rationals, `inf` or `nan`; rounding and `-inf` are not modelled here.
-/

namespace Verif

/-- A float: a number (or `inf`), or `nan`. -/
inductive FNum where
  | num (t : Time)
  | nan
deriving DecidableEq, Repr

namespace FNum

/-- `a == b`: `nan` is equal to nothing, not even to itself. -/
def eq : FNum → FNum → Bool
  | num a, num b => decide (a = b)
  | _, _ => false

/-- `a > b`: false if one of them is `nan`. -/
def gt : FNum → FNum → Bool
  | num a, num b => decide (b < a)
  | _, _ => false

/-- `a + b`. -/
def add : FNum → FNum → FNum
  | num a, num b => num (a + b)
  | _, _ => nan

/-- `x or d`: `None` and `0` give `d`; `nan` is true. -/
def pyOr (x : Option FNum) (d : FNum) : FNum :=
  match x with
  | none => d
  | some (num t) => if t = 0 then d else num t
  | some nan => nan

end FNum

/-- The outcome of `agent.step()`, see `Reply`. -/
inductive NanReply where
  | ret (d : Option FNum)
  | dead
  | error
deriving DecidableEq, Repr

/-- Ghost events, see `Ev`. -/
inductive NanEv where
  | added (r : Ref) (t : FNum)
  | act (r : Ref) (t : FNum) (reply : NanReply)
deriving DecidableEq, Repr

/-- The agent of an event. -/
def NanEv.ref : NanEv → Ref
  | added r _ => r
  | act r _ _ => r

/-- The clock when the event happened. -/
def NanEv.time : NanEv → FNum
  | added _ t => t
  | act _ t _ => t

/-- The state of `TimedActivation`, see `Sched`. -/
structure NanSched where
  time : FNum
  steps : Nat
  queue : List (FNum × List Ref)
  agents : List Ref
  interval : Time
  shuffle : Bool
  running : Bool
  log : List NanEv

/-- A fresh scheduler (soil/time.py:123-128). -/
def NanSched.init (interval : Time) (shuffle : Bool) : NanSched :=
  { time := .num 0, steps := 0, queue := [], agents := [], interval, shuffle, running := true, log := [] }

/-- The loop and insertion of `_schedule` (soil/time.py:140-148): no bucket of `nan` is equal to or later than anything, and a new `nan` finds no
bucket that is equal or later. -/
def insertNan (t : FNum) (r : Ref) : List (FNum × List Ref) → List (FNum × List Ref)
  | [] => [(t, [r])]
  | (u, l) :: q =>
    if u.eq t then (u, l ++ [r]) :: q
    else if u.gt t then (t, [r]) :: (u, l) :: q
    else (u, l) :: insertNan t r q

namespace NanSched

/-- `TimedActivation._schedule` (soil/time.py:138-148). -/
def schedule (s : NanSched) (r : Ref) (when_ : Option FNum) : NanSched :=
  { s with queue := insertNan (FNum.pyOr when_ s.time) r s.queue }

/-- `TimedActivation.add` (soil/time.py:130-136), see `Sched.addAgent`. -/
def addAgent (s : NanSched) (r : Ref) : NanSched :=
  let s1 := s.schedule r none
  { s1 with
    agents := if r ∈ s1.agents then s1.agents else s1.agents ++ [r]
    log := s1.log ++ [.added r s.time] }

/-- What user code does with the scheduler, see `Sched.applyOp`. -/
def applyOp (s : NanSched) : SOp → NanSched
  | .add r _ => s.addAgent r
  | .remove r => { s with agents := s.agents.erase r }
  | .stop => { s with running := false }

/-- Several operations. -/
def applyOps (s : NanSched) (ops : List SOp) : NanSched := ops.foldl applyOp s

/-- Ghost: record an activation. -/
def logAct (s : NanSched) (r : Ref) (t : FNum) (rep : NanReply) : NanSched := { s with log := s.log ++ [.act r t rep] }

end NanSched

/-- User code, see `Host`. -/
structure NanHost (W : Type) where
  step : Ref → NanSched → W → NanReply × List SOp × W
  shuffle : List Ref → W → List Ref × W
  shuffle_perm : ∀ l w, (shuffle l w).1.Perm l

variable {W : Type}

/-- What happens to an agent after its step (soil/time.py:171-177): `when = … or self.default_interval; when += now`, and it is scheduled unless
`when` is `inf`. -/
def NanSched.after (s : NanSched) (now : FNum) (r : Ref) : NanReply → NanSched
  | .ret d =>
    if ((FNum.pyOr d (.num s.interval)).add now).eq (.num .inf) then s
    else s.schedule r (some ((FNum.pyOr d (.num s.interval)).add now))
  | .dead => s
  | .error => s

/-- The loop of `TimedActivation.step` (soil/time.py:169-177). -/
def runNan (H : NanHost W) (now : FNum) : List Ref → NanSched → W → NanSched × W × Bool
  | [], s, w => (s, w, false)
  | r :: rest, s, w =>
    let res := H.step r s w
    let s1 := ((s.applyOps res.2.1).logAct r now res.1).after now r res.1
    match res.1 with
    | .error => (s1, res.2.2, true)
    | .dead => runNan H now rest s1 res.2.2
    | .ret _ => runNan H now rest s1 res.2.2

/-- The new value of `self.time` (soil/time.py:180-183). -/
def headNan : List (FNum × List Ref) → FNum
  | [] => .num .inf
  | (t, _) :: _ => t

/-- The order in which a bucket is run (soil/time.py:167-168). -/
def nanOrder (H : NanHost W) (s : NanSched) (bucket : List Ref) (w : W) : List Ref × W :=
  if s.shuffle then H.shuffle bucket w else (bucket, w)

/-- The end of `TimedActivation.step` (soil/time.py:179-183). -/
def finishNan (res : NanSched × W × Bool) : NanSched × W × Bool :=
  if res.2.2 then res
  else ({ res.1 with steps := res.1.steps + 1, time := headNan res.1.queue }, res.2.1, false)

/-- `TimedActivation.step` (soil/time.py:150-183). -/
def NanSched.step (H : NanHost W) (s : NanSched) (w : W) : NanSched × W × Bool :=
  match s.queue with
  | [] => (s, w, false)
  | (t, bucket) :: q =>
    if t.gt s.time then ({ s with time := t }, w, false)
    else finishNan (runNan H s.time (nanOrder H s bucket w).1 { s with queue := q } (nanOrder H s bucket w).2)

/-- One command from outside, see `Cmd.exec`. -/
def Cmd.nanExec (H : NanHost W) : Cmd W → NanSched × W → NanSched × W
  | .step, (s, w) => ((s.step H w).1, (s.step H w).2.1)
  | .op o, (s, w) => (s.applyOp o, w)
  | .world f, (s, w) => (s, f w)

/-- A history. -/
def nanExecAll (H : NanHost W) (h : List (Cmd W)) (sw : NanSched × W) : NanSched × W :=
  h.foldl (fun sw c => c.nanExec H sw) sw

/-- `model.now >= max_time` (soil/simulation.py:248-255). -/
def FNum.reached (t : FNum) (maxTime : Time) : Bool :=
  match t with
  | .num t => decide (maxTime ≤ t)
  | .nan => false

/-- The loop of `_run_model` with `max_time` (soil/simulation.py:251, 274-278): `some` state when it ends (also by an exception), `none` when the
fuel is used up first. -/
def nanRunLoop (H : NanHost W) (maxTime : Time) : Nat → NanSched × W → Option (NanSched × W)
  | 0, _ => none
  | fuel + 1, (s, w) =>
    if !s.running || s.time.reached maxTime then some (s, w)
    else
      let r := s.step H w
      if r.2.2 then some (r.1, r.2.1) else nanRunLoop H maxTime fuel (r.1, r.2.1)

/-! ### The priority queue -/

/-- An entry `((when, id), agent)` of the heap without shuffling (soil/time.py:70-77); ids are different, so that agents are never compared. -/
structure NanEntry where
  when_ : FNum
  id : Nat
deriving DecidableEq, Repr

/-- `<` on entries: tuples are compared by the first components that are not equal; `nan` is never equal and never less. -/
def NanEntry.lt (a b : NanEntry) : Bool :=
  if a.when_.eq b.when_ then decide (a.id < b.id) else b.when_.gt a.when_

/-- The loop of `PQueueActivation.step` (soil/time.py:88-108) for agents that do nothing else than to reply (`reply` may depend on how many
activations there have been, and agents are their ids). Result: the queue, the activations in order, and `next_time`; `none`: the fuel is used up. -/
def nanHeapLoop (reply : Nat → Nat → Option FNum) (iv : Time) (now : FNum) :
    Nat → List NanEntry → List Nat → Option (List NanEntry × List Nat × FNum)
  | 0, _, _ => none
  | fuel + 1, q, acts =>
    match q with
    | [] => some ([], acts, .num .inf)
    | e :: _ =>
      if e.when_.gt now then some (q, acts, e.when_)
      else
        let when_ := (FNum.pyOr (reply e.id acts.length) (.num iv)).add now
        if when_.eq (.num .inf) then nanHeapLoop reply iv now fuel (heappop NanEntry.lt q) (acts ++ [e.id])
        else
          match heapreplace NanEntry.lt q ⟨when_, e.id⟩ with
          | none => none
          | some q' => nanHeapLoop reply iv now fuel q' (acts ++ [e.id])

/-- Several steps of `PQueueActivation`: at each one, the clock and who was activated; `none` if one of the steps does not end. -/
def nanHeapSteps (reply : Nat → Nat → Option FNum) (iv : Time) (fuel : Nat) :
    Nat → FNum → List NanEntry → List Nat → Option (List (FNum × List Nat))
  | 0, _, _, _ => some []
  | n + 1, now, q, acts =>
    if now.eq (.num .inf) then some []
    else
      match nanHeapLoop reply iv now fuel q acts with
      | none => none
      | some (q', acts', next) => (nanHeapSteps reply iv fuel n next q' acts').map (fun l => (now, acts'.drop acts.length) :: l)

end Verif
