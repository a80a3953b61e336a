import Verif.Model.Timed
import Verif.Model.Coroutine
import Verif.Model.FSM

/-!
# Agents of all kinds inside the scheduler

`agentHost` turns user code into a `Host` for the scheduler models: it runs the `step` of plain agents,
of agents whose `step` is a generator or coroutine, and of FSM agents.
-/

namespace Verif

/-- What the class of an agent makes of its `step`: a plain function `fn`, a generator (or `async`) function,
or an FSM class (soil/agents/__init__.py:71-83, soil/agents/fsm.py:113-156). -/
inductive Kind where
  | plain (fn : Nat)
  | gen (async : Bool) (fn : Nat)
  | fsm (cls : FsmClass)
deriving DecidableEq, Repr

/-- The attributes of an agent object that soil uses when stepping it: `alive` (soil/agents/__init__.py:125),
`_coroutine` (a suspended body remembers which function it belongs to), `_state`. -/
structure AgentRec (L : Type) where
  kind : Kind
  alive : Bool
  co : Co (Nat × L)
  state : Option StateDef
deriving DecidableEq, Repr

/-- A new agent of the given kind (soil/agents/__init__.py:117-146, soil/agents/fsm.py:114-124). -/
def AgentRec.new {L : Type} (k : Kind) : AgentRec L :=
  ⟨k, true, .none, match k with
    | .fsm cls => cls.init
    | _ => Option.none⟩

/-- Operations user code may perform on the library while it runs: `other.die()` (or its own),
`model.add_agent(...)`, `agent.set_state(v)`, and direct use of the scheduler. -/
inductive AOp where
  | kill (r : Ref)
  | spawn (k : Kind)
  | setState (r : Ref) (v : Val)
  | sched (o : SOp)
deriving DecidableEq, Repr

/-- Ghost events: a piece of code (a segment of function `fn`) of agent `r` was run; `r.die()` was called on
a living agent. -/
inductive GEv where
  | code (r : Ref) (fn : Nat)
  | died (r : Ref)
deriving DecidableEq, Repr

/-- The world outside the scheduler: all agents ever created (identity = position), the rest of the user's
state, and the ghost log. -/
structure AWorld (U L : Type) where
  agents : List (AgentRec L)
  u : U
  glog : List GEv

/-- User code: `run fn l r s w` runs function `fn` on behalf of agent `r`, from its start (`l = none`) or
from a suspension point. It sees everything. Result: how the segment ends, the library operations it
performed in order, and the new user state. `pf` is Python's `float` on strings, `shuffle` the random
generator. -/
structure UserCode (U L : Type) where
  run : Nat → Option L → Ref → Sched → AWorld U L → Seg L × List AOp × U
  pf : String → Option Time
  shuffle : List Ref → AWorld U L → List Ref × AWorld U L
  shuffle_perm : ∀ l w, (shuffle l w).1.Perm l
  shuffle_agents : ∀ l w, (shuffle l w).2.agents = w.agents ∧ (shuffle l w).2.glog = w.glog

variable {U L : Type}

/-- Update the record of agent `r`. -/
def AWorld.modify (w : AWorld U L) (r : Ref) (f : AgentRec L → AgentRec L) : AWorld U L :=
  { w with agents := w.agents.modify r f }

/-- Whether there is an agent `r` and it is alive. -/
def AWorld.isAlive (w : AWorld U L) (r : Ref) : Bool := match w.agents[r]? with
  | some a => a.alive
  | Option.none => false

/-- One operation (soil/agents/__init__.py:232-242 `die`; soil/environment.py:152-166 `add_agent`;
soil/agents/fsm.py:137-140 `set_state`, whose exception is assumed to be handled by the user code).
`now` is `model.now`. Returns the operations on the scheduler. -/
def AOp.apply (now : Time) : AOp → AWorld U L → AWorld U L × List SOp
  | .kill r, w =>
    ({ w.modify r (fun a => { a with alive := false }) with
        glog := if w.isAlive r then w.glog ++ [.died r] else w.glog }, [.remove r])
  | .spawn k, w => ({ w with agents := w.agents ++ [AgentRec.new k] }, [.add w.agents.length Option.none])
  | .setState r v, w =>
    (w.modify r (fun a => match a.kind with
      | .fsm cls => match setStateApi cls now a.state v with
        | some st => { a with state := st }
        | Option.none => a
      | _ => a), [])
  | .sched o, w => (w, [o])

/-- A list of operations, in order. -/
def AOp.applyAll (now : Time) : List AOp → AWorld U L → AWorld U L × List SOp
  | [], w => (w, [])
  | o :: os, w =>
    let r1 := o.apply now w
    let r2 := AOp.applyAll now os r1.1
    (r2.1, r1.2 ++ r2.2)

/-- Run a segment of function `fn` for agent `r`: log it, then perform its operations. -/
def UserCode.segment (C : UserCode U L) (fn : Nat) (l : Option L) (r : Ref) (s : Sched) (w : AWorld U L) :
    Seg (Nat × L) × AWorld U L × List SOp :=
  let res := C.run fn l r s w
  let w1 := { w with u := res.2.2, glog := w.glog ++ [.code r fn] }
  let w2 := AOp.applyAll s.time res.2.1 w1
  let seg : Seg (Nat × L) := match res.1 with
    | .yld v l' => .yld v (fn, l')
    | .ret v => .ret v
    | .raise e => .raise e
  (seg, w2)

/-- The body of `FSM.step` (soil/agents/fsm.py:142-156) as a generator: `_check_alive` and then the function
of the current state; when that returns, the state change. -/
def fsmBody (C : UserCode U L) (cls : FsmClass) (r : Ref) (s : Sched) :
    Body (Nat × L) (AWorld U L × List SOp) := fun l x =>
  let finish (res : Seg (Nat × L) × AWorld U L × List SOp) : Seg (Nat × L) × AWorld U L × List SOp :=
    match res.1 with
    | .ret v =>
      let cur := match res.2.1.agents[r]? with
        | some a => a.state
        | Option.none => Option.none
      let o := fsmReturn cls cur v
      let w' := res.2.1.modify r (fun a => { a with state := o.1 })
      (match o.2 with
        | some v' => .ret v'
        | Option.none => .raise .other, w', res.2.2)
    | _ => res
  match l with
  | some (fn, l') => finish (C.segment fn (some l') r s x.1)
  | Option.none =>
    match x.1.agents[r]? with
    | Option.none => (.raise .other, x)
    | some a =>
      if a.alive then
        match a.state with
        | some d => finish (C.segment d.fn Option.none r s x.1)
        | Option.none => (.raise .other, x)
      else (.raise .dead, x)

/-- The body of a user-defined generator step. -/
def genBody (C : UserCode U L) (fn : Nat) (r : Ref) (s : Sched) :
    Body (Nat × L) (AWorld U L × List SOp) := fun l x =>
  match l with
  | some (fn', l') => C.segment fn' (some l') r s x.1
  | Option.none => C.segment fn Option.none r s x.1

/-- `agent.step()` as called by the scheduler. -/
def stepAgent (C : UserCode U L) (r : Ref) (s : Sched) (w : AWorld U L) : Reply × List SOp × AWorld U L :=
  match w.agents[r]? with
  | Option.none => (.error, [], w)
  | some a =>
    match a.kind with
    | .plain fn =>
      let o := funStep C.pf (C.segment fn Option.none r s w)
      (o.1, o.2.2, o.2.1)
    | .gen async fn =>
      let o := genStep C.pf async (genBody C fn r s) a.co (w, [])
      (o.2.1, o.2.2.2, o.2.2.1.modify r (fun a => { a with co := o.1 }))
    | .fsm cls =>
      let o := genStep C.pf false (fsmBody C cls r s) a.co (w, [])
      (o.2.1, o.2.2.2, o.2.2.1.modify r (fun a => { a with co := o.1 }))

/-- The scheduler's view of all this. -/
def agentHost (C : UserCode U L) : Host (AWorld U L) where
  step := fun r s w => stepAgent C r s w
  shuffle := C.shuffle
  shuffle_perm := C.shuffle_perm

end Verif
