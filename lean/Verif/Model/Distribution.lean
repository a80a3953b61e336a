import Verif.Basic.Dict
import Verif.Basic.Val
import Verif.Model.Random
import Mathlib.Data.Rat.Floor

/-!
# Distributions of agents: `calculate_distribution` and `_from_distro` (soil/agents/__init__.py)

Rational numbers instead of floats.
-/

namespace Verif

/-! ### `calculate_distribution` -/

/-- An item of the list: its weight, if any, and whether it has "ids". -/
structure DistEntry where
  weight : Option Rat
  hasIds : Bool
deriving DecidableEq, Repr

/-- `float(x.get("weight", 1))` (soil/agents/__init__.py:354). -/
def DistEntry.w (x : DistEntry) : Rat := x.weight.getD 1

/-- The loop (soil/agents/__init__.py:356-364): the thresholds of every item (`none`: skipped). -/
def thresholds (total : Rat) : Rat → List DistEntry → List (Option (Rat × Rat))
  | _, [] => []
  | acc, v :: vs =>
    if v.hasIds then none :: thresholds total acc vs
    else some (acc, acc + v.w / total) :: thresholds total (acc + v.w / total) vs

/-- `calculate_distribution(network_agents)` (soil/agents/__init__.py:318-364) for a list of dictionaries (which have no
attribute `id`, so none is left out in line 345). `none`: an exception, for an empty list or a division by zero. -/
def calculateDistribution (l : List DistEntry) : Option (List (Option (Rat × Rat))) :=
  if l = [] then none
  else
    let total := (l.map DistEntry.w).sum
    if total = 0 ∧ ∃ v ∈ l, v.hasIds = false then none
    else some (thresholds total 0 l)

/-! ### `_from_distro` -/

/-- One kind of agents of a distribution: `topology` is `some` if it is in `__fields_set__`. -/
structure Distro where
  weight : Option Rat
  n : Option Nat
  cls : Option Nat
  state : Dict String Val
  topology : Option Bool
deriving DecidableEq, Repr

/-- The defaults. -/
structure DistroDefault where
  cls : Nat
  state : Dict String Val
  topology : Bool
deriving DecidableEq, Repr

/-- The specification of one agent; simplification: states have no keys "agent_class" and "topology". -/
structure AgentSpec where
  cls : Nat
  state : Dict String Val
  topology : Bool
deriving DecidableEq, Repr

/-- `int(x)` for a number. -/
def pyTrunc (x : Rat) : Int := if x < 0 then ⌈x⌉ else ⌊x⌋

/-- `min(weights)`. -/
def minWeight : List Rat → Option Rat
  | [] => none
  | w :: ws => some (ws.foldl min w)

/-- The indices before the random ones (soil/agents/__init__.py:633-634), numbered from `i`. -/
def chunkIndices (chunk : Rat) : Nat → List Rat → List Nat
  | _, [] => []
  | i, w :: ws => List.replicate (pyTrunc (w * chunk)).toNat i ++ chunkIndices chunk (i + 1) ws

/-- The indices of the kinds (soil/agents/__init__.py:623-642). `none`: an exception (no kinds; smallest weight 0; sum 0; a
weight `None` when random ones are needed). -/
def distroIndices (distro : List Distro) (n : Int) (draws : Nat → Rat) : Option (List Nat) :=
  match minWeight (distro.map (fun d => d.weight.getD 1)) with
  | none => none
  | some minw =>
    if minw = 0 then none
    else
      let norm := distro.map (fun d => d.weight.getD 1 / minw)
      let total := norm.sum
      if total = 0 then none
      else
        let chunk : Rat := ((⌊(n : Rat) / total⌋ : Int) : Rat)
        let base := chunkIndices chunk 0 norm
        if (base.length : Int) < n then
          match distro.mapM (fun d => d.weight) with
          | none => none
          | some ws =>
            match choices (List.range distro.length) ws ((List.range (n - base.length).toNat).map draws) with
            | none => none
            | some more => some (base ++ more)
        else some base

/-- `d.topology if ("topology" in d.__fields_set__) else topology or default.topology` (soil/agents/__init__.py:660-664). -/
def Distro.topo (d : Distro) (default : DistroDefault) (topology : Bool) : Bool :=
  match d.topology with
  | some t => t
  | none => topology || default.topology

/-- The loop that builds the specifications (soil/agents/__init__.py:653-667); `topology` is the parameter, which each round
assigns again. -/
def buildSpecs (distro : List Distro) (default : DistroDefault) : Bool → List Nat → Option (List AgentSpec)
  | _, [] => some []
  | topology, i :: is =>
    match distro[i]? with
    | none => none
    | some d =>
      match buildSpecs distro default (d.topo default topology) is with
      | none => none
      | some rest => some (⟨d.cls.getD default.cls, Dict.update d.state default.state, d.topo default topology⟩ :: rest)

/-- `_from_distro` (soil/agents/__init__.py:606-668). `n = none`: `any` with two arguments raises `TypeError` (line 619).
`shuffle` is `random.shuffle`. -/
def fromDistro (distro : List Distro) (n : Option Int) (default : DistroDefault) (topology : Bool) (draws : Nat → Rat)
    (shuffle : List Nat → List Nat) : Option (List AgentSpec) :=
  match n with
  | none => none
  | some n =>
    match distroIndices distro n draws with
    | none => none
    | some is => buildSpecs distro default topology (shuffle is)

/-- One item of `_from_fixed` (soil/agents/__init__.py:581-600), for comparison: here the state of the item comes last. -/
def fixedSpec (d : Distro) (default : DistroDefault) (topology : Bool) : AgentSpec :=
  ⟨d.cls.getD default.cls, Dict.update default.state d.state, d.topo default topology⟩

end Verif
