import Mathlib.Data.List.Basic

/-!
# Python's `heapq` (CPython, Lib/heapq.py), as used by `soil/time.py:3, 74-77, 102, 106`

A heap is a list; `lt` is `<` on its elements. The C implementation that CPython uses has the same effect.
-/

namespace Verif

variable {α : Type}

/-- `_siftdown(heap, startpos, pos)`: `item` is `heap[pos]`, moved towards the root while it is less than its parent. -/
def siftdown (lt : α → α → Bool) (item : α) (heap : List α) (start pos : Nat) : List α :=
  if start < pos then
    match heap[(pos - 1) / 2]? with
    | none => heap
    | some parent =>
      if lt item parent then siftdown lt item (heap.set pos parent) start ((pos - 1) / 2)
      else heap.set pos item
  else heap.set pos item
termination_by pos
decreasing_by omega

/-- The child that the loop of `_siftup` moves up: the right one if it exists and the left one is not less than it. -/
def smallerChild (lt : α → α → Bool) (heap : List α) (child : Nat) : Nat :=
  match heap[child]?, heap[child + 1]? with
  | some l, some r => if lt l r then child else child + 1
  | _, _ => child

/-- The loop of `_siftup(heap, pos)`: move the smaller child up until there is none. Result: the list and the position of the
hole. -/
def siftupLoop (lt : α → α → Bool) (heap : List α) (pos : Nat) : List α × Nat :=
  if 2 * pos + 1 < heap.length then
    match heap[smallerChild lt heap (2 * pos + 1)]? with
    | none => (heap, pos)
    | some c => siftupLoop lt (heap.set pos c) (smallerChild lt heap (2 * pos + 1))
  else (heap, pos)
termination_by heap.length - pos
decreasing_by
  simp only [List.length_set]
  unfold smallerChild
  split
  · split <;> omega
  · omega

/-- `_siftup(heap, 0)` with `heap[0] = item`. -/
def siftup (lt : α → α → Bool) (item : α) (heap : List α) : List α :=
  let r := siftupLoop lt heap 0
  siftdown lt item r.1 0 r.2

/-- `heappush(heap, item)`. -/
def heappush (lt : α → α → Bool) (heap : List α) (item : α) : List α :=
  siftdown lt item (heap ++ [item]) 0 heap.length

/-- `heappop(heap)` for a heap that is not empty: the heap afterwards (what it returns is `heap[0]`). -/
def heappop (lt : α → α → Bool) (heap : List α) : List α :=
  match heap.getLast? with
  | none => []
  | some last => match heap.dropLast with
    | [] => []
    | h => siftup lt last h

/-- `heapreplace(heap, item)`: the heap afterwards; `none`: `IndexError`. -/
def heapreplace (lt : α → α → Bool) (heap : List α) (item : α) : Option (List α) :=
  match heap with
  | [] => none
  | _ :: _ => some (siftup lt item heap)

end Verif
