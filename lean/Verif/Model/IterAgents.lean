import Verif.Basic.Events

/-!
# Loops over the agents

`for a in self.iter_agents(...)` and `for a in self.get_agents(...)` in the code of an agent, with a body that
may do anything (soil/agents/__init__.py:270-278, 432-489).
-/

namespace Verif

variable {σ : Type}

/-- The agents in the schedule (`model.schedule._agents`, a set that keeps the order of insertion) and everything else
that the body of a loop may change. -/
structure Pool (σ : Type) where
  members : List Ref
  st : σ
deriving DecidableEq, Repr

/-- How a loop ended: which agents its body was run for, what it left, and whether the iterator raised
`RuntimeError` ("dictionary changed size during iteration"). -/
structure LoopEnd (σ : Type) where
  visited : List Ref
  pool : Pool σ
  raised : Bool
deriving DecidableEq, Repr

/-- `islice(f, limit)` (soil/agents/__init__.py:486-487): whether another agent may be taken after `k` of them. -/
def more (limit : Option Nat) (k : Nat) : Bool :=
  match limit with
  | none => true
  | some n => decide (k < n)

/-- What the body of a loop does with one agent: the new pool, and whether it leaves the loop with `break`. -/
abbrev LoopBody (σ : Type) := Ref → Pool σ → Pool σ × Bool

/-- `for a in self.iter_agents(crit, limit=...): body` (soil/agents/__init__.py:277-278, 472-489): the criteria are looked at
when the iterator reaches an agent. `todo` are the agents that the iterator has not reached, `n` is the number of agents
at the start, `vis` the agents for which the body was run so far.

`frozen`: mesa keeps the agents in a `weakref.WeakKeyDictionary`. In the versions of Python for which soil was written its
iterator raises `RuntimeError` when it is asked for the next key and the size has changed (`frozen`); from Python 3.14
on it goes through a copy. Simplification: bodies that add as many agents as they remove are treated like those that change
nothing. -/
def iterLoop (frozen : Bool) (crit : σ → Ref → Bool) (limit : Option Nat) (body : LoopBody σ) (n : Nat) :
    List Ref → List Ref → Pool σ → LoopEnd σ
  | [], vis, p =>
    if more limit vis.length && frozen && p.members.length != n then ⟨vis, p, true⟩ else ⟨vis, p, false⟩
  | r :: todo, vis, p =>
    if !more limit vis.length then ⟨vis, p, false⟩
    else if frozen && p.members.length != n then ⟨vis, p, true⟩
    else if crit p.st r then
      let b := body r p
      if b.2 then ⟨vis ++ [r], b.1, false⟩ else iterLoop frozen crit limit body n todo (vis ++ [r]) b.1
    else iterLoop frozen crit limit body n todo vis p

/-- `for a in self.iter_agents(...)`. -/
def Pool.iterFor (frozen : Bool) (crit : σ → Ref → Bool) (limit : Option Nat) (body : LoopBody σ) (p : Pool σ) : LoopEnd σ :=
  iterLoop frozen crit limit body p.members.length p.members [] p

/-- `list(it)` of `get_agents` (soil/agents/__init__.py:273-275): the agents that satisfy the criteria, at most `limit`. -/
def Pool.getAgents (crit : σ → Ref → Bool) (limit : Option Nat) (p : Pool σ) : List Ref :=
  (p.iterFor true crit limit (fun _ q => (q, false))).visited

/-- A loop over a list. -/
def listLoop (body : LoopBody σ) : List Ref → List Ref → Pool σ → LoopEnd σ
  | [], vis, p => ⟨vis, p, false⟩
  | r :: todo, vis, p =>
    let b := body r p
    if b.2 then ⟨vis ++ [r], b.1, false⟩ else listLoop body todo (vis ++ [r]) b.1

/-- `for a in self.get_agents(...)`. -/
def Pool.getFor (crit : σ → Ref → Bool) (limit : Option Nat) (body : LoopBody σ) (p : Pool σ) : LoopEnd σ :=
  listLoop body (p.getAgents crit limit) [] p

end Verif
