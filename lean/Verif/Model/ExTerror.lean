import Verif.Basic.Time

/-!
# Spread of terrorism (examples/terrorism/TerroristNetworkModel_sim.py)

Agents are numbered; `adj i` are the neighbours of agent `i`. Random numbers, centralities and the results of `**` are arbitrary; what is
assumed about them is said in the theorems. `FSM` is as in C23.
-/

namespace Verif

/-- The classes `TerroristSpreadModel`, `TrainingAreaModel`, `HavenModel` (examples/terrorism/TerroristNetworkModel_sim.py:46, 166, 193). -/
inductive TerrKind where
  | person
  | training
  | haven
deriving DecidableEq, Repr

/-- The states (examples/terrorism/TerroristNetworkModel_sim.py:77-137, 183-190, 217-238). -/
inductive TerrState where
  | civilian
  | terrorist
  | leader
deriving DecidableEq, Repr

/-- The attributes of an agent (examples/terrorism/TerroristNetworkModel_sim.py:63-75, 179-181, 209-211). -/
structure Terr where
  kind : TerrKind
  state : TerrState
  belief : Rat
  vuln : Rat
deriving DecidableEq, Repr

/-- The settings (examples/terrorism/TerroristNetworkModel_sim.py:9-32, 58-61, 176-177, 205-207). -/
structure TerrParams where
  intensity : Rat
  extra : Rat
  interact : Rat
  training : Rat
  trainMin : Rat
  haven : Rat
  havenMin : Rat
  havenMax : Rat
deriving DecidableEq, Repr

/-- What one activation is given: random numbers, the degree and betweenness centralities in the caches, and `**`. -/
structure TerrIn where
  draw : Nat → Rat
  deg : Nat → Rat
  btw : Nat → Rat
  pow : Rat → Rat → Rat

/-- The neighbours that satisfy a condition. -/
def terrNeighbours (adj : Nat → List Nat) (vs : List Terr) (i : Nat) (c : Terr → Bool) : List Nat :=
  (adj i).filter (fun j => match vs[j]? with
    | some v => c v
    | none => false)

/-- `n.mean_belief`. -/
def beliefOf (vs : List Terr) (j : Nat) : Rat :=
  match vs[j]? with
  | some v => v.belief
  | none => 0

/-- `n.state_id == self.leader.id` (examples/terrorism/TerroristNetworkModel_sim.py:130). -/
def isLeader (vs : List Terr) (j : Nat) : Bool :=
  match vs[j]? with
  | some v => decide (v.state = .leader)
  | none => false

/-- The mean of the beliefs of `l` weighted by degrees (examples/terrorism/TerroristNetworkModel_sim.py:86-89, 118-121): `none` for `ZeroDivisionError`. -/
def weightedBelief (vs : List Terr) (deg : Nat → Rat) (l : List Nat) : Option Rat :=
  if l ≠ [] ∧ (l.map deg).sum = 0 then none
  else some ((l.map (fun j => beliefOf vs j * deg j / (l.map deg).sum)).sum)

/-- The state `civilian` of a person (examples/terrorism/TerroristNetworkModel_sim.py:77-99). -/
def actCivilian (P : TerrParams) (adj : Nat → List Nat) (vs : List Terr) (i : Nat) (v : Terr) (x : TerrIn) : List Terr × Bool :=
  let ns := terrNeighbours adj vs i (fun v => decide (v.kind = .person))
  if ns = [] then
    (if (4 : Rat) / 5 ≤ v.belief then vs.set i { v with state := .terrorist } else vs, false)
  else
    match weightedBelief vs x.deg (ns.filter (fun j => decide (x.draw j ≤ P.interact))) with
    | none => (vs, true)
    | some m =>
      let m' := m * P.intensity + v.belief * (1 - P.intensity)
      let b := m' * v.vuln + v.belief * (1 - v.vuln)
      (vs.set i { v with belief := b, state := if (4 : Rat) / 5 ≤ b then .terrorist else .civilian }, false)

/-- The state `leader` of a person (examples/terrorism/TerroristNetworkModel_sim.py:101-108). The neighbours are not limited to persons: training areas and havens in the state
`terrorist` count. -/
def actLeader (P : TerrParams) (adj : Nat → List Nat) (vs : List Terr) (i : Nat) (v : Terr) (x : TerrIn) : List Terr × Bool :=
  let b := x.pow v.belief (1 - P.extra)
  let ns := terrNeighbours adj vs i (fun v => decide (v.state = .terrorist ∨ v.state = .leader))
  (vs.set i { v with belief := b, state := if ns.any (fun j => decide (x.btw i < x.btw j)) then .terrorist else .leader }, false)

/-- The state `terrorist` of a person (examples/terrorism/TerroristNetworkModel_sim.py:110-137). The weighted mean of the beliefs is computed (and may raise), but not used. -/
def actTerrorist (P : TerrParams) (adj : Nat → List Nat) (vs : List Terr) (i : Nat) (v : Terr) (x : TerrIn) : List Terr × Bool :=
  let ns := terrNeighbours adj vs i (fun v => decide (v.kind = .person ∧ (v.state = .terrorist ∨ v.state = .leader)))
  match weightedBelief vs x.deg ns with
  | none => (vs, true)
  | some _ =>
    let b := if ns = [] then v.belief else x.pow v.belief (1 - P.extra)
    let led := ns.any (isLeader vs)
    let st := if led then TerrState.terrorist
      else if ns.any (fun j => decide (x.btw i < x.btw j)) then .terrorist else .leader
    (vs.set i { v with belief := b, state := st }, false)

/-- Change the vulnerability of some agents. -/
def changeVuln (f : Rat → Rat) (js : List Nat) (vs : List Terr) : List Terr :=
  js.foldl (fun vs j => vs.modify j (fun v => { v with vuln := f v.vuln })) vs

/-- One activation: persons as above; training areas (examples/terrorism/TerroristNetworkModel_sim.py:183-190); havens (examples/terrorism/TerroristNetworkModel_sim.py:217-238). The Boolean: an exception escapes. -/
def actTerr (P : TerrParams) (adj : Nat → List Nat) (vs : List Terr) (i : Nat) (x : TerrIn) : List Terr × Bool :=
  match vs[i]? with
  | none => (vs, false)
  | some v =>
    let ns := terrNeighbours adj vs i (fun v => decide (v.kind = .person))
    match v.kind with
    | .person => match v.state with
      | .civilian => actCivilian P adj vs i v x
      | .leader => actLeader P adj vs i v x
      | .terrorist => actTerrorist P adj vs i v x
    | .training => (changeVuln (fun u => if P.trainMin < u then x.pow u (1 - P.training) else u) ns vs, false)
    | .haven => match v.state with
      | .civilian =>
        if terrNeighbours adj vs i (fun v => decide (v.kind = .person ∧ v.state = .civilian)) = [] then
          (vs.set i { v with state := .terrorist }, false)
        else (changeVuln (fun u => if P.havenMin < u then u * (1 - P.haven) else u) ns vs, false)
      | _ => (changeVuln (fun u => if u < P.havenMax then x.pow u (1 - P.haven) else u) ns vs, false)

/-- Any schedule with any inputs, until an exception escapes. -/
def runTerr (P : TerrParams) (adj : Nat → List Nat) : List (Nat × TerrIn) → List Terr → List Terr × Bool
  | [], vs => (vs, false)
  | (i, x) :: h, vs =>
    let r := actTerr P adj vs i x
    if r.2 then r else runTerr P adj h r.1

/-- One activation in a population whose persons are of the class `TerroristNetworkModel` (examples/terrorism/TerroristNetworkModel_sim.py:258-266): the states `terrorist` and
`leader` call `super().terrorist()` and `super().leader()`, which are states, and calling a state raises (soil/agents/fsm.py:32-33).
What `update_relationships` does before is in `TerrNet.act`, which refines this (C241). -/
def actNetTerr (P : TerrParams) (adj : Nat → List Nat) (vs : List Terr) (i : Nat) (x : TerrIn) : List Terr × Bool :=
  match vs[i]? with
  | none => (vs, false)
  | some v => if v.kind = .person ∧ v.state ≠ .civilian then (vs, true) else actTerr P adj vs i x

/-- Any schedule with such persons, until an exception escapes. -/
def runNetTerr (P : TerrParams) (adj : Nat → List Nat) : List (Nat × TerrIn) → List Terr → List Terr × Bool
  | [], vs => (vs, false)
  | (i, x) :: h, vs =>
    let r := actNetTerr P adj vs i x
    if r.2 then r else runNetTerr P adj h r.1

/-! ### The centralities (examples/terrorism/TerroristNetworkModel_sim.py:145-163) -/

/-- The caches `_degree` and `_betweenness` (what was computed, as a function of the network `α`) and `_last_step`, 0 if not set. -/
structure CentralCache (α : Type) where
  degree : Option α
  betweenness : Option α
  last : Rat
deriving Repr

/-- `degree(agent)` (examples/terrorism/TerroristNetworkModel_sim.py:145-153): the network whose centralities are used. -/
def CentralCache.getDegree {α : Type} (c : CentralCache α) (net : α) (now : Rat) : α × CentralCache α :=
  match c.degree with
  | none => (net, { c with degree := some net, last := now })
  | some d => if c.last < now then (net, { c with degree := some net, last := now }) else (d, c)

/-- `betweenness(agent)` (examples/terrorism/TerroristNetworkModel_sim.py:155-163). -/
def CentralCache.getBetweenness {α : Type} (c : CentralCache α) (net : α) (now : Rat) : α × CentralCache α :=
  match c.betweenness with
  | none => (net, { c with betweenness := some net, last := now })
  | some d => if c.last < now then (net, { c with betweenness := some net, last := now }) else (d, c)

end Verif
