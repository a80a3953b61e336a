import Verif.Basic.Time

/-!
# News spreading (examples/newsspread/newsspread_sim.py)

Viewers are numbered; `adj i` are the neighbours of viewer `i`. Random numbers are arbitrary functions. `FSM` is as in C23. Log messages
are left out.
-/

namespace Verif

/-- The three classes (examples/newsspread/newsspread_sim.py:8, 41, 56). -/
inductive ViewerKind where
  | dumb
  | herd
  | wise
deriving DecidableEq, Repr

/-- The states (examples/newsspread/newsspread_sim.py:17-30, 61-82); `cured` only for wise viewers. -/
inductive ViewerState where
  | neutral
  | infected
  | cured
deriving DecidableEq, Repr

/-- The attributes (examples/newsspread/newsspread_sim.py:14-15, 71-72). `curedFlag` tells whether the attribute `has_been_cured` exists; it is only ever set to `True`
(examples/newsspread/newsspread_sim.py:72) and has no default. -/
structure Viewer where
  kind : ViewerKind
  tv : Bool
  flag : Bool
  curedFlag : Bool
  state : ViewerState
deriving DecidableEq, Repr

/-- The probabilities of the environment (examples/newsspread/newsspread_sim.py:89-91). `none`: not given; then the value is the default of the class, which is a tuple
because of the comma at the end of the line, and comparing a number with it raises `TypeError`. -/
structure NewsParams where
  tvSpread : Option Rat
  spread : Option Rat
  cure : Option Rat
deriving DecidableEq, Repr

/-- Random numbers of one activation: the first drawn by the agent, those drawn for each neighbour, and those that herd viewers draw. -/
structure NewsDraws where
  own : Rat
  per : Nat → Rat
  herd : Nat → Rat

/-- The neighbours in a state: `get_neighbors(state_id=s)`. -/
def viewersIn (adj : Nat → List Nat) (vs : List Viewer) (i : Nat) (s : ViewerState) : List Nat :=
  (adj i).filter (fun j => match vs[j]? with
    | some v => decide (v.state = s)
    | none => false)

/-- `neighbor.infect()` (examples/newsspread/newsspread_sim.py:32-38 and 46-53). The Boolean: an exception (`TypeError` for a tuple, `ZeroDivisionError` without
neighbours). -/
def infectViewer (P : NewsParams) (adj : Nat → List Nat) (d : NewsDraws) (vs : List Viewer) (j : Nat) : List Viewer × Bool :=
  match vs[j]? with
  | none => (vs, false)
  | some v => match v.kind with
    | .dumb => (vs.modify j (fun v => { v with flag := true }), false)
    | _ => match P.spread with
      | none => (vs, true)
      | some p =>
        if (adj j).length = 0 then (vs, true)
        else if d.herd j < p * (viewersIn adj vs j .infected).length / (adj j).length then
          (vs.modify j (fun v => { v with flag := true }), false)
        else (vs, false)

/-- The loop over the neutral neighbours (examples/newsspread/newsspread_sim.py:28-30). -/
def spreadNews (P : NewsParams) (adj : Nat → List Nat) (d : NewsDraws) : List Nat → List Viewer → List Viewer × Bool
  | [], vs => (vs, false)
  | j :: js, vs =>
    match P.spread with
    | none => (vs, true)
    | some p =>
      if d.per j < p then
        let r := infectViewer P adj d vs j
        if r.2 then r else spreadNews P adj d js r.1
      else spreadNews P adj d js vs

/-- The loop over the infected neighbours of a cured viewer (examples/newsspread/newsspread_sim.py:62-69): `cure` exists for wise viewers only, for others the
`AttributeError` is caught. -/
def cureNews (P : NewsParams) (d : NewsDraws) : List Nat → List Viewer → List Viewer × Bool
  | [], vs => (vs, false)
  | j :: js, vs =>
    match P.cure with
    | none => (vs, true)
    | some p =>
      if d.per j < p then
        cureNews P d js (vs.modify j (fun v => if v.kind = .wise then { v with curedFlag := true } else v))
      else cureNews P d js vs

/-- One activation (examples/newsspread/newsspread_sim.py:17-30, 61-82). The Boolean: an exception escapes. In the state `infected` of a wise viewer `has_been_cured` is
read (examples/newsspread/newsspread_sim.py:76), which raises `AttributeError` unless it has been set; what follows line 77 is therefore never reached. -/
def actViewer (P : NewsParams) (adj : Nat → List Nat) (vs : List Viewer) (i : Nat) (d : NewsDraws) : List Viewer × Bool :=
  match vs[i]? with
  | none => (vs, false)
  | some v => match v.state with
    | .neutral =>
      if v.tv then
        match P.tvSpread with
        | none => (vs, true)
        | some p =>
          if d.own < p then (vs.modify i (fun v => { v with state := .infected }), false)
          else if v.flag then (vs.modify i (fun v => { v with state := .infected }), false)
          else (vs, false)
      else if v.flag then (vs.modify i (fun v => { v with state := .infected }), false)
      else (vs, false)
    | .infected => match v.kind with
      | .wise =>
        if v.curedFlag then (vs.modify i (fun v => { v with state := .cured }), false)
        else (vs, true)
      | _ => spreadNews P adj d (viewersIn adj vs i .neutral) vs
    | .cured => cureNews P d (viewersIn adj vs i .infected) vs

/-- Any schedule and any random numbers, until an exception escapes. -/
def runNews (P : NewsParams) (adj : Nat → List Nat) : List (Nat × NewsDraws) → List Viewer → List Viewer × Bool
  | [], vs => (vs, false)
  | (i, d) :: h, vs =>
    let r := actViewer P adj vs i d
    if r.2 then r else runNews P adj h r.1

/-- A new viewer (examples/newsspread/newsspread_sim.py:14-15, 17). -/
def Viewer.new (k : ViewerKind) (tv : Bool) : Viewer := ⟨k, tv, false, false, .neutral⟩

end Verif
