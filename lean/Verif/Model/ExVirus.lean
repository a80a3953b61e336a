import Verif.Basic.Time

/-!
# The virus on a network (benchmarks/virusonnetwork): three versions of the same model

`soil_step.py`, `soil_states.py` and mesa's own `mesa_basic.py`. Agents are identified with their position in the schedule; `adj i`
are the neighbours of agent `i`, in the order in which they are visited. The numbers drawn during an activation are given as a
stream `d`, consumed in order: `d k` is the `k`-th value of `random.random()`.
-/

namespace Verif

/-- `State` (benchmarks/virusonnetwork/soil_step.py:10-13), and the states of the FSM of the other version
(benchmarks/virusonnetwork/soil_states.py:64-89). -/
inductive VStat where
  | susceptible
  | infected
  | resistant
deriving DecidableEq, Repr

/-- The parameters (benchmarks/virusonnetwork/soil_step.py:21-24). -/
structure VirusParams where
  spread : Rat
  check : Rat
  recovery : Rat
  resistance : Rat
deriving DecidableEq, Repr

/-- `get_neighbors(status=State.SUSCEPTIBLE)` (benchmarks/virusonnetwork/soil_step.py:72, see C43 and C47). -/
def suscNeighbors (adj : Nat → List Nat) (st : List VStat) (i : Nat) : List Nat :=
  (adj i).filter (fun j => decide (st[j]? = some .susceptible))

/-- The loop of `try_to_infect_neighbors` (benchmarks/virusonnetwork/soil_step.py:73-75), with the number of draws used. -/
def infectLoop (p : Rat) (d : Nat → Rat) : List Nat → Nat → List VStat → List VStat × Nat
  | [], k, st => (st, k)
  | a :: as, k, st => infectLoop p d as (k + 1) (if d k < p then st.set a .infected else st)

/-- `try_gain_resistance` (benchmarks/virusonnetwork/soil_step.py:77-80); the Boolean tells whether it returns `at(INFINITY)`. -/
def soilGainResistance (P : VirusParams) (d : Nat → Rat) (k : Nat) (st : List VStat) (i : Nat) : List VStat × Bool :=
  if d k < P.resistance then (st.set i .resistant, true) else (st, false)

/-- `try_remove_infection` (benchmarks/virusonnetwork/soil_step.py:82-87). -/
def soilRemoveInfection (P : VirusParams) (d : Nat → Rat) (k : Nat) (st : List VStat) (i : Nat) : List VStat × Bool :=
  if d k < P.recovery then soilGainResistance P d (k + 1) (st.set i .susceptible) i else (st, false)

/-- `try_check_situation` (benchmarks/virusonnetwork/soil_step.py:89-93). -/
def soilCheckSituation (P : VirusParams) (d : Nat → Rat) (k : Nat) (st : List VStat) (i : Nat) : List VStat × Bool :=
  if d k < P.check then
    if st[i]? = some .infected then soilRemoveInfection P d (k + 1) st i else (st, false)
  else (st, false)

/-- `VirusAgent.step` (benchmarks/virusonnetwork/soil_step.py:95-98). -/
def soilVirusStep (P : VirusParams) (adj : Nat → List Nat) (st : List VStat) (i : Nat) (d : Nat → Rat) : List VStat × Bool :=
  let r := if st[i]? = some .infected then infectLoop P.spread d (suscNeighbors adj st i) 0 st else (st, 0)
  soilCheckSituation P d r.2 r.1 i

/-- Any schedule with any random numbers. -/
def soilVirusRun (P : VirusParams) (adj : Nat → List Nat) (st : List VStat) (h : List (Nat × (Nat → Rat))) : List VStat :=
  h.foldl (fun st e => (soilVirusStep P adj st e.1 e.2).1) st

/-! ### mesa's version -/

/-- `try_gain_resistance` (benchmarks/virusonnetwork/mesa_basic.py:152-154). -/
def mesaGainResistance (P : VirusParams) (d : Nat → Rat) (k : Nat) (st : List VStat) (i : Nat) : List VStat :=
  if d k < P.resistance then st.set i .resistant else st

/-- `try_remove_infection` (benchmarks/virusonnetwork/mesa_basic.py:156-164). -/
def mesaRemoveInfection (P : VirusParams) (d : Nat → Rat) (k : Nat) (st : List VStat) (i : Nat) : List VStat :=
  if d k < P.recovery then mesaGainResistance P d (k + 1) (st.set i .susceptible) i else st.set i .infected

/-- `try_check_situation` (benchmarks/virusonnetwork/mesa_basic.py:166-170). -/
def mesaCheckSituation (P : VirusParams) (d : Nat → Rat) (k : Nat) (st : List VStat) (i : Nat) : List VStat :=
  if d k < P.check then
    if st[i]? = some .infected then mesaRemoveInfection P d (k + 1) st i else st
  else st

/-- `VirusAgent.step` (benchmarks/virusonnetwork/mesa_basic.py:172-175). Simplification: the list of neighbours is the one intended
(`get_neighbors` returned nodes in the version of mesa the example was written for). -/
def mesaVirusStep (P : VirusParams) (adj : Nat → List Nat) (st : List VStat) (i : Nat) (d : Nat → Rat) : List VStat :=
  match st[i]? with
  | some .infected =>
    let r := infectLoop P.spread d (suscNeighbors adj st i) 0 st
    mesaCheckSituation P d r.2 r.1 i
  | _ => mesaCheckSituation P d 0 st i

def mesaVirusRun (P : VirusParams) (adj : Nat → List Nat) (st : List VStat) (h : List (Nat × (Nat → Rat))) : List VStat :=
  h.foldl (fun st e => mesaVirusStep P adj st e.1 e.2) st

/-! ### The version with states -/

/-- An agent (benchmarks/virusonnetwork/soil_states.py:57-62): its state and the attribute `just_been_infected`. -/
structure VAgent where
  state : VStat
  just : Bool
deriving DecidableEq, Repr

/-- `get_neighbors(state_id=self.susceptible.id)` (benchmarks/virusonnetwork/soil_states.py:72). -/
def suscAgents (adj : Nat → List Nat) (st : List VAgent) (i : Nat) : List Nat :=
  (adj i).filter (fun j => decide (st[j]?.map (·.state) = some .susceptible))

/-- The loop over the neighbours (benchmarks/virusonnetwork/soil_states.py:73-75). -/
def flagLoop (p : Rat) (d : Nat → Rat) : List Nat → Nat → List VAgent → List VAgent × Nat
  | [], k, st => (st, k)
  | a :: as, k, st => flagLoop p d as (k + 1) (if d k < p then st.modify a (fun q => { q with just := true }) else st)

/-- One activation of agent `i` (benchmarks/virusonnetwork/soil_states.py:64-89); the Boolean tells whether it returns
`at(INFINITY)`. -/
def statesVirusStep (P : VirusParams) (adj : Nat → List Nat) (st : List VAgent) (i : Nat) (d : Nat → Rat) : List VAgent × Bool :=
  match st[i]? with
  | none => (st, false)
  | some q => match q.state with
    | .susceptible => if q.just then (st.set i ⟨.infected, false⟩, false) else (st, false)
    | .infected =>
      let r := flagLoop P.spread d (suscAgents adj st i) 0 st
      let goto := fun s => (r.1.modify i (fun q => { q with state := s }), false)
      if d r.2 < P.check then
        if d (r.2 + 1) < P.recovery then
          if d (r.2 + 2) < P.resistance then goto .resistant else goto .susceptible
        else goto .infected
      else (r.1, false)
    | .resistant => (st, true)

def statesVirusRun (P : VirusParams) (adj : Nat → List Nat) (st : List VAgent) (h : List (Nat × (Nat → Rat))) : List VAgent :=
  h.foldl (fun st e => (statesVirusStep P adj st e.1 e.2).1) st

/-- The beginning: everybody susceptible but the agents in `ill` (benchmarks/virusonnetwork/soil_step.py:31-37). -/
def virusInit (n : Nat) (ill : List Nat) : List VStat :=
  (List.range n).map (fun i => if i ∈ ill then .infected else .susceptible)

/-- Likewise for the version with states (benchmarks/virusonnetwork/soil_states.py:25-31). -/
def virusInitStates (n : Nat) (ill : List Nat) : List VAgent := (virusInit n ill).map (fun s => ⟨s, false⟩)

/-- `number_susceptible`, `number_infected`, `number_resistant` (benchmarks/virusonnetwork/soil_step.py:47-60). -/
def numberIn (s : VStat) (st : List VStat) : Nat := st.countP (fun t => decide (t = s))

end Verif
