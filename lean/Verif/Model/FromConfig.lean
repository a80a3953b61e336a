import Verif.Model.Distribution

/-!
# `agents.from_config` and `_from_fixed` (soil/agents/__init__.py:492-602)

`from_config` uses classes `AgentConfig` and `Strategy` of soil/config.py, which are not there. Whether they are is a parameter, so that the function can be
described as it is, and as it was meant; the fields are those that the function reads.
-/

namespace Verif

/-- `d.strategy`. -/
inductive Strategy where
  | topology | total
deriving DecidableEq, Repr

/-- An agent given one by one. -/
structure FixedAgent where
  spec : Distro
  hidden : Bool
deriving DecidableEq, Repr

/-- A configuration of agents. -/
structure AgentCfg where
  n : Option Int
  fixed : Option (List FixedAgent)
  distribution : List (Strategy × Distro)
  default : DistroDefault
deriving DecidableEq, Repr

/-- How `from_config` fails: `config` has no `AgentConfig`; the configuration makes no sense; `_from_distro` raises; the name `assigned` of the warning does not
exist. -/
inductive CfgFail where
  | attribute | value | distro | name
deriving DecidableEq, Repr

/-- `_from_fixed` (soil/agents/__init__.py:571-602): the agents, the number of those that are not hidden, the number of those in the topology. -/
def fromFixed (default : DistroDefault) (topology : Bool) : List FixedAgent → List AgentSpec × Nat × Nat
  | [] => ([], 0, 0)
  | f :: fs =>
    let rest := fromFixed default topology fs
    let a := fixedSpec f.spec default topology
    (a :: rest.1, (if f.hidden then 0 else 1) + rest.2.1, (if a.topology then 1 else 0) + rest.2.2)

/-- The agents given one by one, if any (soil/agents/__init__.py:508-516). -/
def AgentCfg.fixedPart (cfg : AgentCfg) : List AgentSpec × Nat × Nat :=
  match cfg.fixed with
  | none => ([], 0, 0)
  | some l => fromFixed cfg.default cfg.default.topology l

/-- `d.topology if ("topology" in d.__fields_set__) else cfg.topology` (soil/agents/__init__.py:529). -/
def cfgTopo (cfg : AgentCfg) (d : Distro) : Bool := d.topology.getD cfg.default.topology

/-- The loop over the kinds (soil/agents/__init__.py:527-546): the kinds for the nodes, the kinds for the total, the last value of `topo`. -/
def sortKinds (cfg : AgentCfg) (topoSize : Nat) : List (Strategy × Distro) → List Distro → List Distro → Option Bool →
    Except CfgFail (List Distro × List Distro × Option Bool)
  | [], networked, total, topo => .ok (networked, total, topo)
  | (.topology, d) :: ds, networked, total, _ =>
    if !cfgTopo cfg d then .error .value
    else if topoSize = 0 then .error .value
    else sortKinds cfg topoSize ds (networked ++ [d]) total (some (cfgTopo cfg d))
  | (.total, d) :: ds, networked, total, topo =>
    if cfg.n.getD 0 = 0 then .error .value else sortKinds cfg topoSize ds networked (total ++ [d]) topo

/-- The random numbers and shufflings of the two calls of `_from_distro`. -/
structure CfgRandom where
  draws : Bool → Nat → Rat
  shuffle : Bool → List Nat → List Nat

/-- A call of `_from_distro` if there are kinds (soil/agents/__init__.py:548-562). -/
def distroIf (R : CfgRandom) (which : Bool) (kinds : List Distro) (n : Int) (default : DistroDefault) (topology : Bool) : Except CfgFail (List AgentSpec) :=
  if kinds = [] then .ok []
  else match fromDistro kinds (some n) default topology (R.draws which) (R.shuffle which) with
    | none => .error .distro
    | some l => .ok l

/-- `from_config(cfg, random, topology)` (soil/agents/__init__.py:492-568); `topoSize` is the number of nodes, 0 without a topology. -/
def agentsFromConfig (classes : Bool) (R : CfgRandom) (cfg : AgentCfg) (topoSize : Nat) : Except CfgFail (List AgentSpec) :=
  if !classes then .error .attribute
  else
    let fixed := cfg.fixedPart
    if cfg.distribution = [] then .ok fixed.1
    else match sortKinds cfg topoSize cfg.distribution [] [] none with
      | .error e => .error e
      | .ok (networked, total, topo) =>
        match distroIf R false networked ((topoSize : Int) - fixed.2.2) cfg.default (topo.getD false) with
        | .error e => .error e
        | .ok l1 =>
          match distroIf R true total (cfg.n.getD 0 - ((fixed.2.1 + l1.length : Nat) : Int)) cfg.default false with
          | .error e => .error e
          | .ok l2 => if fixed.2.2 + l1.length < topoSize then .error .name else .ok (fixed.1 ++ l1 ++ l2)

/-- `soil/config.py:1-2` defines `load_config` only. -/
def configNames : List String := ["load_config"]

/-- `from_config` of the package: the classes are there if the names are. -/
def packageFromConfig (R : CfgRandom) (cfg : AgentCfg) (topoSize : Nat) : Except CfgFail (List AgentSpec) :=
  agentsFromConfig (decide ("AgentConfig" ∈ configNames)) R cfg topoSize

end Verif
