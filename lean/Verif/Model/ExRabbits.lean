import Verif.Basic.Time
import Mathlib.Data.Nat.Log

/-!
# Rabbits (examples/rabbits/rabbits_basic_sim.py and examples/rabbits/rabbit_improved_sim.py)

Rabbits are identified with the order in which they were added; the node of a rabbit is named after it (a new node is made for
every rabbit, since every node has a rabbit, see C40). Log messages are left out.
-/

namespace Verif

/-- The states of a `Rabbit` (examples/rabbits/rabbits_basic_sim.py:37-58, 65-66, 86-87, 101-102). -/
inductive RabState where
  | newborn
  | youngling
  | fertile
  | pregnant
  | dead
deriving DecidableEq, Repr

/-- The attributes of a rabbit (examples/rabbits/rabbits_basic_sim.py:34-35, 41-42, 62-63, 83-84, 97-99). `pregnancy`, `mate` and `babies`
are used by females only. `matings` and `litters` are ghost counters. -/
structure Rab where
  male : Bool
  state : RabState
  age : Nat
  offspring : Nat
  pregnancy : Int
  mate : Option Nat
  babies : Nat
  alive : Bool
  matings : Nat
  litters : Nat
deriving DecidableEq, Repr

/-- A new rabbit: class attributes, default state `newborn`. -/
def Rab.new (male : Bool) : Rab := ⟨male, .newborn, 0, 0, -1, none, 0, true, 0, 0⟩

/-- Class attributes and parameters (examples/rabbits/rabbits_basic_sim.py:8, 34-35, 62-63, 83). -/
structure RabParams where
  maturity : Nat
  life : Nat
  maxFemales : Nat
  mating : Rat
  gestation : Nat
  death : Rat
deriving DecidableEq, Repr

/-- The environment: the rabbits, the nodes and the edges of the network. -/
structure Warren where
  rabs : List Rab
  nodes : List Nat
  edges : List (Nat × Nat)
deriving DecidableEq, Repr

/-- Change one rabbit. -/
def Warren.upd (w : Warren) (i : Nat) (f : Rab → Rab) : Warren := { w with rabs := w.rabs.modify i f }

/-- `model.add_node(agent_class)` (soil/environment.py `add_node`). -/
def Warren.add (w : Warren) (male : Bool) : Warren :=
  { w with rabs := w.rabs ++ [Rab.new male], nodes := w.nodes ++ [w.rabs.length] }

/-- `self.die()` of a rabbit: its node is removed with its edges (soil/agents/network_agents.py:90-95), it is no longer alive
and leaves the schedule. A dead rabbit cannot die again. -/
def Warren.kill (w : Warren) (i : Nat) : Warren :=
  match w.rabs[i]? with
  | none => w
  | some q =>
    if q.alive then
      { rabs := w.rabs.modify i (fun q => { q with alive := false })
        nodes := w.nodes.filter (· ≠ i)
        edges := w.edges.filter (fun e => e.1 ≠ i ∧ e.2 ≠ i) }
    else w

/-- `RabbitEnv.init` (examples/rabbits/rabbits_basic_sim.py:10-14), without the accident. -/
def Warren.init : Warren := ⟨[Rab.new true, Rab.new false], [0, 1], [(0, 1)]⟩

/-- `int(8 + 4 * self.random.random())` (examples/rabbits/rabbits_basic_sim.py:99). -/
def litterSize (r : Rat) : Nat := (8 + 4 * r).floor.toNat

/-- `Female.impregnate` (examples/rabbits/rabbits_basic_sim.py:95-99). -/
def Warren.impregnate (w : Warren) (f male : Nat) (r : Rat) : Warren :=
  w.upd f (fun q => { q with mate := some male, pregnancy := 0, babies := litterSize r, matings := q.matings + 1 })

/-- `get_agents(agent_class=Female, state_id=Female.fertile.id, limit=…)` (examples/rabbits/rabbits_basic_sim.py:73-75). -/
def Warren.fertileFemales (w : Warren) (limit : Nat) : List Nat :=
  ((List.range w.rabs.length).filter (fun j => match w.rabs[j]? with
    | some q => q.alive && !q.male && decide (q.state = .fertile)
    | none => false)).take limit

/-- The loop of the males (examples/rabbits/rabbits_basic_sim.py:73-79); `d k` is what is drawn for the `k`-th female. -/
def Warren.mateLoop (p : Rat) (male : Nat) (d : Nat → Rat) (r : Rat) : List Nat → Nat → Warren → Warren
  | [], _, w => w
  | f :: fs, k, w => if d k < p then w.impregnate f male r else Warren.mateLoop p male d r fs (k + 1) w

/-- Whether `add_edge(other)` works: `other` has a node (soil/agents/network_agents.py:81-84; the node of a dead rabbit is `None`). -/
def Warren.hasNode (w : Warren) (j : Nat) : Bool := decide (j ∈ w.nodes)

/-- The loop that adds the babies (examples/rabbits/rabbits_basic_sim.py:114-125), `n` of them; `sex k` is the class drawn for the
`k`-th. If the father is alive, `self.model.agents[self.mate]` (line 121) raises `TypeError` (mesa's `AgentSet` is indexed by
numbers), which is not caught. The Boolean tells whether it raises. -/
def Warren.births (i : Nat) (mate : Option Nat) (sex : Nat → Bool) : Nat → Nat → Warren → Warren × Bool
  | 0, _, w => (w, false)
  | n + 1, k, w =>
    let c := w.rabs.length
    let w1 := w.add (sex k)
    let w2 := { w1 with edges := w1.edges ++ [(c, i)] }
    match mate with
    | none => (w2, true)
    | some m =>
      if w2.hasNode m then ({ w2 with edges := w2.edges ++ [(c, m)] }, true)
      else Warren.births i mate sex n (k + 1) (w2.upd i (fun q => { q with offspring := q.offspring + 1 }))

/-- One activation of rabbit `i` (examples/rabbits/rabbits_basic_sim.py:37-133). The Boolean tells whether an exception escapes. -/
def Warren.act (P : RabParams) (w : Warren) (i : Nat) (d : Nat → Rat) (r : Rat) (sex : Nat → Bool) : Warren × Bool :=
  match w.rabs[i]? with
  | none => (w, false)
  | some q =>
    if !q.alive then (w, false)
    else match q.state with
      | .newborn => (w.upd i (fun q => { q with age := 0, offspring := 0, state := .youngling }), false)
      | .youngling =>
        let w1 := w.upd i (fun q => { q with age := q.age + 1 })
        if P.maturity ≤ q.age + 1 then (w1.upd i (fun q => { q with state := .fertile }), false) else (w1, false)
      | .fertile =>
        let w1 := w.upd i (fun q => { q with age := q.age + 1 })
        if P.life < q.age + 1 then (w1.upd i (fun q => { q with state := .dead }), false)
        else if q.male then (Warren.mateLoop P.mating i d r (w1.fertileFemales P.maxFemales) 0 w1, false)
        else if 0 ≤ q.pregnancy then (w1.upd i (fun q => { q with state := .pregnant }), false)
        else (w1, false)
      | .pregnant =>
        let w1 := w.upd i (fun q => { q with age := q.age + 1 })
        if P.life ≤ q.age + 1 then ((w1.kill i).upd i (fun q => { q with state := .dead }), false)
        else if q.pregnancy < P.gestation then (w1.upd i (fun q => { q with pregnancy := q.pregnancy + 1 }), false)
        else
          let b := Warren.births i q.mate sex q.babies 0 w1
          if b.2 then (b.1.upd i (fun q => { q with litters := q.litters + 1 }), true)
          else (b.1.upd i (fun q => { q with mate := none, pregnancy := -1, state := .fertile, litters := q.litters + 1 }), false)
      | .dead => (w.kill i, false)

/-- `prob_death * floor(log10(max(1, rabbits_alive)))` (examples/rabbits/rabbits_basic_sim.py:143-145). -/
def deathChance (P : RabParams) (n : Nat) : Rat := P.death * (Nat.log 10 (max 1 n) : Nat)

/-- `i.state_id == i.dead.id` (examples/rabbits/rabbits_basic_sim.py:148). -/
def Warren.gone (w : Warren) (i : Nat) : Bool :=
  match w.rabs[i]? with
  | some q => decide (q.state = .dead)
  | none => true

/-- The loop of `RandomAccident.step` (examples/rabbits/rabbits_basic_sim.py:147-153) over the rabbits that were there when it
started; `d i` is what is drawn for rabbit `i`. -/
def Warren.accidents (p : Rat) (d : Nat → Rat) : List Nat → Warren → Warren
  | [], w => w
  | i :: is, w =>
    Warren.accidents p d is (if w.gone i then w else if d i < p then w.kill i else w)

/-- Whether a rabbit is in the schedule. -/
def Warren.lives (w : Warren) (i : Nat) : Bool :=
  match w.rabs[i]? with
  | some q => q.alive
  | none => false

/-- `RandomAccident.step` (examples/rabbits/rabbits_basic_sim.py:137-154). -/
def Warren.accident (P : RabParams) (w : Warren) (d : Nat → Rat) : Warren :=
  Warren.accidents (deathChance P w.nodes.length) d
    ((List.range w.rabs.length).filter w.lives) w

/-- What may happen. -/
inductive RabEv where
  | act (i : Nat) (d : Nat → Rat) (r : Rat) (sex : Nat → Bool)
  | accident (d : Nat → Rat)

def Warren.ev (P : RabParams) (w : Warren) : RabEv → Warren × Bool
  | .act i d r sex => w.act P i d r sex
  | .accident d => (w.accident P d, false)

/-- Any schedule with any random numbers, until an exception escapes. -/
def Warren.run (P : RabParams) (w : Warren) : List RabEv → Warren × Bool
  | [] => (w, false)
  | e :: es =>
    let r := w.ev P e
    if r.2 then r else r.1.run P es

/-! ### The improved version: births of the mothers

Only females that are fertile or pregnant, the part that differs. -/

/-- A female of the improved version (examples/rabbits/rabbit_improved_sim.py:21-29, 74-75, 85-95). -/
structure Doe where
  birth : Rat
  state : RabState
  conception : Option Rat
  mate : Option Nat
  babies : Nat
  offspring : Nat
deriving DecidableEq, Repr

/-- A mother, the nodes of the network and the number of children that were born. -/
structure Den where
  doe : Doe
  nodes : List Nat
  born : Nat
deriving DecidableEq, Repr

/-- The loop that adds the babies (examples/rabbits/rabbit_improved_sim.py:107-118): the father is only left out if `self.mate` is
`None`; `add_edge` raises `ValueError`, which is not caught, if the father has no node any more. -/
def Den.births : Nat → Den → Den × Bool
  | 0, w => (w, false)
  | n + 1, w =>
    let w1 := { w with born := w.born + 1 }
    match w.doe.mate with
    | none => Den.births n { w1 with doe := { w1.doe with offspring := w1.doe.offspring + 1 } }
    | some m =>
      if m ∈ w.nodes then Den.births n { w1 with doe := { w1.doe with offspring := w1.doe.offspring + 1 } }
      else (w1, true)

/-- One activation of the mother at time `now` (examples/rabbits/rabbit_improved_sim.py:77-83, 97-120). -/
def Den.act (life gestation now : Rat) (w : Den) : Den × Bool :=
  match w.doe.state with
  | .fertile =>
    if life < now - w.doe.birth then ({ w with doe := { w.doe with state := .dead } }, false)
    else if w.doe.conception.isSome then ({ w with doe := { w.doe with state := .pregnant } }, false)
    else (w, false)
  | .pregnant =>
    if life < now - w.doe.birth then ({ w with doe := { w.doe with state := .dead } }, false)
    else match w.doe.conception with
      | none => (w, true)
      | some t =>
        if gestation ≤ now - t then
          let b := w.births w.doe.babies
          if b.2 then b
          else ({ b.1 with doe := { b.1.doe with mate := none, state := .fertile } }, false)
        else (w, false)
  | _ => (w, false)

/-- Activations at the given times. -/
def Den.run (life gestation : Rat) (w : Den) (ts : List Rat) : Den := ts.foldl (fun w t => (w.act life gestation t).1) w

end Verif
