import Verif.Model.PQueue

/-!
# `PQueueActivation` with comparisons that raise (soil/time.py:43-118)

In `Model/PQueue.lean` entries with the same time and key are not less than each other. In Python the agents are compared then: if they are equal, so are the
entries; otherwise `<` raises `TypeError`, since agents have no order. Here is the scheduler once more, with that exception.
-/

namespace Verif

variable {α : Type}

/-! ## `heapq` with a comparison that may raise (`none`)

The C implementation swaps entries, so that after an exception the heap has all entries, in some order: the item is where it was when the comparison raised.
The second component says that the operation raised. -/

/-- `_siftdown` (see `siftdown`). -/
def siftdownE (lt : α → α → Option Bool) (item : α) (heap : List α) (start pos : Nat) : List α × Bool :=
  if start < pos then
    match heap[(pos - 1) / 2]? with
    | none => (heap, false)
    | some parent =>
      match lt item parent with
      | none => (heap.set pos item, true)
      | some true => siftdownE lt item (heap.set pos parent) start ((pos - 1) / 2)
      | some false => (heap.set pos item, false)
  else (heap.set pos item, false)
termination_by pos
decreasing_by omega

/-- See `smallerChild`. -/
def smallerChildE (lt : α → α → Option Bool) (heap : List α) (child : Nat) : Option Nat :=
  match heap[child]?, heap[child + 1]? with
  | some l, some r =>
    match lt l r with
    | none => none
    | some b => some (if b then child else child + 1)
  | _, _ => some child

/-- The loop of `_siftup` (see `siftupLoop`): the heap, the place of the item, and whether a comparison raised. -/
def siftupLoopE (lt : α → α → Option Bool) (heap : List α) (pos : Nat) : List α × Nat × Bool :=
  if h : 2 * pos + 1 < heap.length then
    match hc : smallerChildE lt heap (2 * pos + 1) with
    | none => (heap, pos, true)
    | some ch =>
      match heap[ch]? with
      | none => (heap, pos, false)
      | some c => siftupLoopE lt (heap.set pos c) ch
  else (heap, pos, false)
termination_by heap.length - pos
decreasing_by
  simp only [List.length_set]
  have : 2 * pos + 1 ≤ ch := by
    unfold smallerChildE at hc
    split at hc
    · split at hc
      · cases hc
      · simp only [Option.some.injEq] at hc; split at hc <;> omega
    · simp only [Option.some.injEq] at hc; omega
  omega

/-- `_siftup` (see `siftup`). -/
def siftupE (lt : α → α → Option Bool) (item : α) (heap : List α) : List α × Bool :=
  let r := siftupLoopE lt heap 0
  if r.2.2 then (r.1.set r.2.1 item, true) else siftdownE lt item r.1 0 r.2.1

/-- `heappush`: the item is appended first. -/
def heappushE (lt : α → α → Option Bool) (heap : List α) (item : α) : List α × Bool :=
  siftdownE lt item (heap ++ [item]) 0 heap.length

/-- `heappop`: the last entry takes the first place. -/
def heappopE (lt : α → α → Option Bool) (heap : List α) : List α × Bool :=
  match heap.getLast? with
  | none => ([], false)
  | some last => match heap.dropLast with
    | [] => ([], false)
    | h => siftupE lt last h

/-- `heapreplace`; it raises `IndexError` if the heap is empty. -/
def heapreplaceE (lt : α → α → Option Bool) (heap : List α) (item : α) : List α × Bool :=
  match heap with
  | [] => ([], true)
  | _ :: _ => siftupE lt item heap

/-! ## The scheduler -/

/-- `((when, key), agent) < ((when, key), agent)` in Python (soil/time.py:70-77). -/
def PEntry.ltE (a b : PEntry) : Option Bool :=
  if a.when_ = b.when_ ∧ a.key = b.key then (if a.ref = b.ref then some false else none) else some (a.lt b)

variable {W : Type}

namespace PSched

/-- `_schedule` (soil/time.py:67-77). -/
def scheduleE (H : PHost W) (s : PSched) (w : W) (r : Ref) (when_ : Option Time) (replace : Bool) : PSched × W × Bool :=
  let k := H.key r w
  let e : PEntry := ⟨when_.getD s.time, k.1, r⟩
  let q := if replace then heapreplaceE PEntry.ltE s.queue e else heappushE PEntry.ltE s.queue e
  ({ s with queue := q.1 }, k.2, q.2)

/-- `add` (soil/time.py:58-65). -/
def addAgentE (H : PHost W) (s : PSched) (w : W) (r : Ref) (when_ : Option Time) : PSched × W × Bool :=
  let v := when_.getD s.time
  let res := s.scheduleE H w r none v.truthy
  if res.2.2 then res
  else
    ({ res.1 with
        agents := if r ∈ res.1.agents then res.1.agents else res.1.agents ++ [r]
        log := res.1.log ++ [.added r s.time] }, res.2.1, false)

/-- An operation of user code. -/
def applyOpE (H : PHost W) (s : PSched) (w : W) : SOp → PSched × W × Bool
  | .add r wh => s.addAgentE H w r wh
  | .remove r => ({ s with agents := s.agents.erase r }, w, false)
  | .stop => ({ s with running := false }, w, false)

/-- Operations in order; an exception stops the user code. -/
def applyOpsE (H : PHost W) (s : PSched) (w : W) : List SOp → PSched × W × Bool
  | [] => (s, w, false)
  | o :: os =>
    let res := s.applyOpE H w o
    if res.2.2 then res else res.1.applyOpsE H res.2.1 os

end PSched

/-- The loop of `step` (soil/time.py:92-110). -/
def pLoopE (H : PHost W) (now : Time) : Nat → PSched → W → PSched × W × Time × PStatus
  | fuel, s, w =>
    match s.queue with
    | [] => (s, w, .inf, .ok)
    | e :: _ =>
      if now < e.when_ then (s, w, e.when_, .ok)
      else
        match fuel with
        | 0 => (s, w, .inf, .stuck)
        | fuel + 1 =>
          let res := H.step e.ref s w
          let ops := s.applyOpsE H res.2.2 res.2.1
          let rep := if ops.2.2 then Reply.error else res.1
          let s1 := ops.1.logAct e.ref now rep
          match rep with
          | .error => (s1, ops.2.1, .inf, .raised)
          | .dead =>
            let q := heappopE PEntry.ltE s1.queue
            if q.2 then ({ s1 with queue := q.1 }, ops.2.1, .inf, .raised) else pLoopE H now fuel { s1 with queue := q.1 } ops.2.1
          | .ret d =>
            let when_ := Time.pyOr d s1.interval + now
            if when_ = .inf then
              let q := heappopE PEntry.ltE s1.queue
              if q.2 then ({ s1 with queue := q.1 }, ops.2.1, .inf, .raised) else pLoopE H now fuel { s1 with queue := q.1 } ops.2.1
            else
              let sc := s1.scheduleE H ops.2.1 e.ref (some when_) true
              if sc.2.2 then (sc.1, sc.2.1, .inf, .raised)
              else pLoopE H now fuel sc.1 sc.2.1

/-- `step` (soil/time.py:79-118). -/
def PSched.stepE (H : PHost W) (fuel : Nat) (s : PSched) (w : W) : PSched × W × PStatus :=
  if s.time = .inf then (s, w, .ok)
  else
    let res := pLoopE H s.time fuel s w
    match res.2.2.2 with
    | .ok =>
      ({ res.1 with
          steps := res.1.steps + 1
          time := res.2.2.1
          running := if res.2.2.1 = .inf then false else res.1.running }, res.2.1, .ok)
    | st => (res.1, res.2.1, st)

/-- A command (see `Cmd.pexec`). -/
def Cmd.pexecE (H : PHost W) (fuel : Nat) : Cmd W → PSched × W → PSched × W
  | .step, sw => ((sw.1.stepE H fuel sw.2).1, (sw.1.stepE H fuel sw.2).2.1)
  | .op o, sw => ((sw.1.applyOpE H sw.2 o).1, (sw.1.applyOpE H sw.2 o).2.1)
  | .world f, sw => (sw.1, f sw.2)

/-- A history. -/
def pexecAllE (H : PHost W) (fuel : Nat) (h : List (Cmd W)) (sw : PSched × W) : PSched × W :=
  h.foldl (fun sw c => c.pexecE H fuel sw) sw

end Verif
