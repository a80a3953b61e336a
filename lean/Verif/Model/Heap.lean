import Mathlib.Data.List.Basic

/-!
# Mutable defaults: objects, references and `deepcopy`
-/

namespace Verif

/-- A Python value: immutable data or a reference to a mutable object. -/
inductive HVal where
  | int (n : Int)
  | ref (a : Nat)
deriving DecidableEq, Repr

/-- The mutable objects (lists, dictionaries, instances: a sequence of values), by address. -/
abbrev Heap := List (List HVal)

def HVal.shift (n : Nat) : HVal → HVal
  | .int k => .int k
  | .ref a => .ref (a + n)

/-- `copy.deepcopy(v)`: new objects isomorphic to those reachable from `v`. Simplification: all objects are
copied; the copies of those that are not reachable from `v` are garbage that no program can observe. -/
def deepcopy (h : Heap) (v : HVal) : Heap × HVal :=
  (h ++ h.map (fun obj => obj.map (HVal.shift h.length)), v.shift h.length)

/-- The second loop of `BaseAgent.__init__` (soil/agents/__init__.py:138-140): one `deepcopy` per attribute. -/
def copyAll : Heap → List HVal → Heap × List HVal
  | h, [] => (h, [])
  | h, v :: vs =>
    let r := deepcopy h v
    let r2 := copyAll r.1 vs
    (r2.1, r.2 :: r2.2)

/-- The objects, the values in `_defaults` of a class, and the agents of that class (for each the attributes that
come from `_defaults`, in the same order). -/
structure HWorld where
  heap : Heap
  defaults : List HVal
  agents : List (List HVal)
deriving DecidableEq, Repr

/-- Follow a path of positions from a value. -/
def navigate (h : Heap) : HVal → List Nat → Option HVal
  | v, [] => some v
  | .int _, _ :: _ => none
  | .ref a, p :: ps => match h[a]? with
    | none => none
    | some obj => match obj[p]? with
      | none => none
      | some v => navigate h v ps

/-- What an agent may store: immutable data, a new object, or something it already has. -/
inductive Src where
  | int (n : Int)
  | fresh
  | own (k : Nat) (path : List Nat)
deriving DecidableEq, Repr

/-- What can happen: an agent is created; agent `i` mutates something reachable from its attribute `k` (an item
assignment or an `append`) or assigns to the attribute. -/
inductive HOp where
  | create
  | write (i k : Nat) (path : List Nat) (pos : Nat) (src : Src)
  | append (i k : Nat) (path : List Nat) (src : Src)
  | assign (i k : Nat) (src : Src)
deriving DecidableEq, Repr

/-- The value of `self.attr_k.path` for agent `i`. -/
def HWorld.read (w : HWorld) (i k : Nat) (path : List Nat) : Option HVal :=
  match w.agents[i]? with
  | none => none
  | some attrs => match attrs[k]? with
    | none => none
    | some v => navigate w.heap v path

def HWorld.eval (w : HWorld) (i : Nat) : Src → Option (Heap × HVal)
  | .int n => some (w.heap, .int n)
  | .fresh => some (w.heap ++ [[]], .ref w.heap.length)
  | .own k path => match w.read i k path with
    | none => none
    | some v => some (w.heap, v)

/-- One operation; nothing happens if it raises. -/
def HOp.exec (w : HWorld) : HOp → HWorld
  | .create =>
    let r := copyAll w.heap w.defaults
    { w with heap := r.1, agents := w.agents ++ [r.2] }
  | .write i k path pos src => match w.read i k path, w.eval i src with
    | some (.ref a), some (h, v) => { w with heap := h.modify a (fun obj => obj.set pos v) }
    | _, _ => w
  | .append i k path src => match w.read i k path, w.eval i src with
    | some (.ref a), some (h, v) => { w with heap := h.modify a (fun obj => obj ++ [v]) }
    | _, _ => w
  | .assign i k src => match w.agents[i]?, w.eval i src with
    | some attrs, some (h, v) => { w with heap := h, agents := w.agents.set i (attrs.set k v) }
    | _, _ => w

def hexec (os : List HOp) (w : HWorld) : HWorld := os.foldl HOp.exec w

/-- The agent that performs an operation. -/
def HOp.actor : HOp → Option Nat
  | .create => none
  | .write i _ _ _ _ => some i
  | .append i _ _ _ => some i
  | .assign i _ _ => some i

/-- What a value looks like, down to a given depth. -/
inductive Tree where
  | cut
  | int (n : Int)
  | dangling
  | node (ts : List Tree)


def view (h : Heap) : Nat → HVal → Tree
  | 0, _ => .cut
  | _ + 1, .int n => .int n
  | n + 1, .ref a => match h[a]? with
    | none => .dangling
    | some obj => .node (obj.map (view h n))

end Verif
