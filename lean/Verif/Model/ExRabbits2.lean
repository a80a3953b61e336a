import Verif.Model.Timed
import Verif.Model.ExRabbits
import Verif.Model.IterAgents

/-!
# The improved rabbits inside the scheduler (examples/rabbits/rabbit_improved_sim.py)

All of the example, as user code (`Host`) of the model of `TimedActivation`. Agents are numbered in the order in which they are
created; the node of a rabbit is named after it (`add_node`, soil/environment.py:335-358: every node has a rabbit, so a new one
is made). Log messages are left out.
-/

namespace Verif

/-- The attributes of a rabbit (examples/rabbits/rabbit_improved_sim.py:21-25, 37-38, 74-75, 92-95). `conception`, `mate` and `babies`
are used by females only. -/
structure Bun where
  male : Bool
  state : RabState
  birth : Option Rat
  offspring : Nat
  conception : Option Rat
  mate : Option Ref
  babies : Nat
  alive : Bool
deriving DecidableEq, Repr

/-- A new rabbit (examples/rabbits/rabbit_improved_sim.py:21-25, 33-35, 74-75). -/
def Bun.new (male : Bool) : Bun := ⟨male, .newborn, none, 0, none, none, 0, true⟩

/-- An agent of the environment: a `Male` or `Female`, or the `RandomAccident`. -/
inductive Pet where
  | rabbit (b : Bun)
  | accident
deriving DecidableEq, Repr

/-- Ghost: what happened. -/
inductive RabNote where
  | mated (female male : Ref) (t : Rat)
  | litter (mother : Ref) (t : Rat)
  | born (child mother : Ref) (father : Option Ref) (t : Rat)
deriving DecidableEq, Repr

/-- Class attributes and parameters (examples/rabbits/rabbit_improved_sim.py:23-24, 54-55, 74, 135), what `random.shuffle` does, and whether agents may
be removed while `schedule._agents` is iterated (see `iterLoop`). -/
structure RabCode where
  maturity : Rat
  life : Rat
  maxFemales : Nat
  mating : Rat
  gestation : Rat
  death : Rat
  frozen : Bool
  shuffle : Nat → List Ref → List Ref
  perm : ∀ k l, (shuffle k l).Perm l

/-- The environment: agents, network, the results of the random generator (`draw`: `random.random()`, `sex`: `random.choice`),
how many were used so far, and the ghost notes. -/
structure Colony where
  pets : List Pet
  nodes : List Ref
  edges : List (Ref × Ref)
  draw : Nat → Rat
  sex : Nat → Bool
  used : Nat
  notes : List RabNote

namespace Colony

/-- The rabbit `r`. -/
def bun? (w : Colony) (r : Ref) : Option Bun :=
  match w.pets[r]? with
  | some (.rabbit b) => some b
  | _ => none

/-- Change one rabbit. -/
def upd (w : Colony) (r : Ref) (f : Bun → Bun) : Colony :=
  { w with pets := w.pets.modify r (fun p => match p with
      | .rabbit b => .rabbit (f b)
      | .accident => .accident) }

/-- `RabbitsImprovedEnv.init` (examples/rabbits/rabbit_improved_sim.py:10-16): a male, a female, an edge between them, and the accident. -/
def init (draw : Nat → Rat) (sex : Nat → Bool) : Colony :=
  ⟨[.rabbit (Bun.new true), .rabbit (Bun.new false), .accident], [0, 1], [(0, 1)], draw, sex, 0, []⟩

/-- `die()` of a rabbit (examples/rabbits/rabbit_improved_sim.py:123-126; soil/agents/fsm.py:169-171, soil/agents/network_agents.py:90-95, soil/agents/__init__.py:232-242):
a rabbit that is not alive is left alone; otherwise its node is removed with its edges and it is no longer alive. -/
def kill (w : Colony) (r : Ref) : Colony :=
  match w.bun? r with
  | none => w
  | some b =>
    if b.alive then
      { w.upd r (fun b => { b with alive := false }) with
        nodes := w.nodes.filter (· ≠ r)
        edges := w.edges.filter (fun e => e.1 ≠ r ∧ e.2 ≠ r) }
    else w

/-- `agent_class=Female, state_id=Female.fertile.id` (examples/rabbits/rabbit_improved_sim.py:63-65). -/
def isFertileFemale (w : Colony) (r : Ref) : Bool :=
  match w.bun? r with
  | some b => !b.male && decide (b.state = .fertile)
  | none => false

/-- `Female.impregnate` (examples/rabbits/rabbit_improved_sim.py:91-95). -/
def impregnate (w : Colony) (f male : Ref) (now : Rat) : Colony :=
  { w.upd f (fun b => { b with mate := some male, conception := some now, babies := litterSize (w.draw w.used) }) with
    used := w.used + 1
    notes := w.notes ++ [.mated f male now] }

/-- The loop of the males (examples/rabbits/rabbit_improved_sim.py:63-69). -/
def mateLoop (p : Rat) (male : Ref) (now : Rat) : List Ref → Colony → Colony
  | [], w => w
  | f :: fs, w =>
    if w.draw w.used < p then impregnate { w with used := w.used + 1 } f male now
    else mateLoop p male now fs { w with used := w.used + 1 }

/-- The first lines of the loop over the babies (examples/rabbits/rabbit_improved_sim.py:108-111): `random.choice`, `add_node` and the edge to the mother. -/
def addChild (w : Colony) (mother : Ref) (mate : Option Ref) (now : Rat) : Colony :=
  { w with
    pets := w.pets ++ [.rabbit (Bun.new (w.sex w.used))]
    nodes := w.nodes ++ [w.pets.length]
    edges := w.edges ++ [(w.pets.length, mother)]
    used := w.used + 1
    notes := w.notes ++ [.born w.pets.length mother mate now] }

/-- The loop over the babies (examples/rabbits/rabbit_improved_sim.py:107-118), `n` of them. `child.add_edge(self.mate)` raises `ValueError`, which is not caught, if
the father has no node any more. Result: the environment and whether it raised. -/
def births (mother : Ref) (mate : Option Ref) (now : Rat) : Nat → Colony → Colony × Bool
  | 0, w => (w, false)
  | n + 1, w =>
    let w1 := w.addChild mother mate now
    match mate with
    | none => births mother mate now n (w1.upd mother (fun b => { b with offspring := b.offspring + 1 }))
    | some m =>
      if m ∈ w1.nodes then
        births mother mate now n
          (({ w1 with edges := w1.edges ++ [(w.pets.length, m)] }.upd m (fun b => { b with offspring := b.offspring + 1 })).upd mother
            (fun b => { b with offspring := b.offspring + 1 }))
      else (w1, true)

/-- The agents that were created while `w` became `w'`: `schedule.add` was called for each of them. -/
def added (w w' : Colony) : List SOp :=
  ((List.range w'.pets.length).filter (fun r => w.pets.length ≤ r)).map (fun r => .add r none)

/-- One activation of a living rabbit `r` at time `now` (examples/rabbits/rabbit_improved_sim.py:27-120). -/
def act (C : RabCode) (w : Colony) (r : Ref) (b : Bun) (now : Rat) (agents : List Ref) : Reply × List SOp × Colony :=
  match b.state, b.birth with
  | .newborn, _ =>
    (.ret (some (.fin (C.maturity - (now - now)))), [],
      w.upd r (fun b => { b with birth := some now, offspring := 0, state := .youngling }))
  | .youngling, some t =>
    (.ret none, [], if C.maturity ≤ now - t then w.upd r (fun b => { b with state := .fertile }) else w)
  | .fertile, some t =>
    if C.life < now - t then (.ret none, [], w.upd r (fun b => { b with state := .dead }))
    else if b.male then
      (.ret none, [], mateLoop C.mating r now ((agents.filter w.isFertileFemale).take C.maxFemales) w)
    else if b.conception.isSome then (.ret none, [], w.upd r (fun b => { b with state := .pregnant }))
    else (.ret none, [], w)
  | .pregnant, some t =>
    if C.life < now - t then
      (.ret (some .inf), [.remove r], (w.kill r).upd r (fun b => { b with state := .dead }))
    else match b.conception with
      | none => (.error, [], w)
      | some c =>
        if C.gestation ≤ now - c then
          let res := births r b.mate now b.babies { w with notes := w.notes ++ [.litter r now] }
          if res.2 then (.error, added w res.1, res.1)
          else (.ret none, added w res.1, res.1.upd r (fun b => { b with mate := none, state := .fertile }))
        else (.ret none, [], w)
  | .dead, _ => (.ret none, [.remove r], w.kill r)
  | _, none => (.error, [], w)

/-- `prob_death * floor(log10(max(1, rabbits_alive)))` (examples/rabbits/rabbit_improved_sim.py:131, 135-137). -/
def chance (C : RabCode) (w : Colony) : Rat := C.death * (Nat.log 10 (max 1 w.nodes.length) : Nat)

/-- `agent_class=Rabbit` (examples/rabbits/rabbit_improved_sim.py:139). -/
def isRabbit (w : Colony) (r : Ref) : Bool := (w.bun? r).isSome

/-- The body of the loop of `RandomAccident.step` (examples/rabbits/rabbit_improved_sim.py:140-145). -/
def strike (p : Rat) : LoopBody Colony := fun r pool =>
  match pool.st.bun? r with
  | none => (pool, false)
  | some b =>
    if b.state = .dead then (pool, false)
    else
      let w := { pool.st with used := pool.st.used + 1 }
      if pool.st.draw pool.st.used < p then (⟨pool.members.erase r, w.kill r⟩, false) else ({ pool with st := w }, false)

/-- `RandomAccident.step` (examples/rabbits/rabbit_improved_sim.py:129-146). -/
def accidentStep (C : RabCode) (w : Colony) (r : Ref) (agents : List Ref) : Reply × List SOp × Colony :=
  if w.nodes.length = 0 then (.ret (some .inf), [.remove r], w)
  else
    let res := Pool.iterFor C.frozen isRabbit none (strike (w.chance C)) ⟨agents, w⟩
    (if res.raised then .error else .ret none, (agents.filter (· ∉ res.pool.members)).map .remove, res.pool.st)

end Colony

/-- `agent.step()` of the agents of the example (soil/agents/fsm.py:142-156: a rabbit that is not alive raises `DeadAgent`). -/
def colonyStep (C : RabCode) (r : Ref) (s : Sched) (w : Colony) : Reply × List SOp × Colony :=
  match s.time, w.pets[r]? with
  | .fin now, some (.rabbit b) => if b.alive then w.act C r b now s.agents else (.dead, [], w)
  | .fin _, some .accident => w.accidentStep C r s.agents
  | _, _ => (.ret none, [], w)

/-- The example as user code of the scheduler. -/
def colonyHost (C : RabCode) : Host Colony where
  step := colonyStep C
  shuffle l w := (C.shuffle w.used l, { w with used := w.used + 1 })
  shuffle_perm l w := C.perm w.used l

/-- The environment after its construction and `n` calls of `schedule.step()`. -/
def colonyRun (C : RabCode) (sh : Bool) (draw : Nat → Rat) (sex : Nat → Bool) (n : Nat) : Sched × Colony :=
  execAll (colonyHost C) ([.op (.add 0 none), .op (.add 1 none), .op (.add 2 none)] ++ List.replicate n .step)
    (Sched.init 1 sh, Colony.init draw sex)

end Verif
