import Verif.Model.Network
import Verif.Model.Nested

/-!
# Where the network of an environment comes from, and `NetworkEnvironment.__init__`
-/

namespace Verif

/-! ### `from_topology`, `from_params`, `create_network` -/

/-- The contents of a networkx graph (see `NWorld`). -/
structure NGraph where
  nodes : Dict NId (Option (Option Nat))
  edges : List (NId × NId)
  directed : Bool
deriving DecidableEq, Repr

/-- `nx.Graph()`. -/
def NGraph.empty : NGraph := ⟨[], [], false⟩

/-- The parameter `topology`: absent, a graph object (by identity), a dictionary (its graph, if it is in node-link format; whether
it is empty), a path. -/
inductive Topo where
  | none
  | graph (o : Nat)
  | dict (g : Option NGraph) (isEmpty : Bool)
  | path (p : Str)
deriving Repr

/-- A graph that was given as an object, or a new one. -/
inductive NetRes where
  | given (o : Nat)
  | fresh (g : NGraph)
deriving DecidableEq, Repr

/-- Exceptions. `other`: raised by a reader or by a generator (anything but `TypeError`). -/
inductive NetErr where
  | valueError
  | attributeError
  | typeError
  | other
deriving DecidableEq, Repr

/-- What a call of a generator does. -/
inductive GenRes where
  | ok (g : NGraph)
  | typeError
  | fails
deriving DecidableEq, Repr

/-- Everything outside: the contents of the graph objects, the readers of networkx by extension (applied to a path; `none`: it
raises), and the directory of the environment. -/
structure NetHost where
  store : Nat → NGraph
  reader : Str → Option (Str → Option NGraph)
  dirPath : Str

/-- `os.path.join(dir_path, path)` for a relative path. -/
def joinPath (d p : Str) : Str := if d.getLast? = some '/' then d ++ p else d ++ '/' :: p

/-- `os.path.isabs`. -/
def isAbsPath (p : Str) : Bool := p.head? == some '/'

/-- `os.path.splitext(path)[1][1:]`: what follows the last dot of the base name, leading dots of the base name not counting. -/
def extension (p : Str) : Str :=
  match pyRsplit1 '.' ((pyRsplit1 '/' p).2.dropWhile (· == '.')) with
  | (none, _) => []
  | (some _, e) => e

/-- The path that is read (soil/network.py:27-29). -/
def resolvePath (dirPath p : Str) : Str := if !dirPath.isEmpty && !isAbsPath p then joinPath dirPath p else p

/-- `from_topology` (soil/network.py:13-39). The extra arguments for gexf files are part of the reader. -/
def fromTopology (F : NetHost) : Topo → Except NetErr NetRes
  | .none => .ok (.fresh .empty)
  | .graph o => .ok (.given o)
  | .dict (some g) _ => .ok (.fresh g)
  | .dict none _ => .error .valueError
  | .path p =>
    let path := resolvePath F.dirPath p
    match F.reader (extension path) with
    | none => .error .attributeError
    | some read => match read path with
      | none => .error .other
      | some g => .ok (.fresh g)

/-- A call of the generator: with or without `seed=`, and with which other keywords. -/
abbrev GenCall (V : Type) := Bool × Dict String V

/-- The arguments of `NetworkEnvironment` that concern the network (soil/environment.py:262-272). The generator is what
`deserializer` makes of it, as a function of its calls; `network_params` without the key `path`, which is separate. -/
structure NetArgs (V : Type) where
  topology : Topo
  generator : Option (GenCall V → GenRes)
  params : Dict String V
  path : Option Str

/-- What happens in `create_network`: outcome, the calls of the generator, and whether `dir_path` was put on `sys.path`
(if it was not there). -/
structure NetOut (V : Type) where
  res : Except NetErr NetRes
  calls : List (GenCall V)
  pathAdded : Bool

/-- The outcome of the generator. -/
def GenRes.toExcept : GenRes → Except NetErr NetRes
  | .ok g => .ok (.fresh g)
  | .typeError => .error .typeError
  | .fails => .error .other

/-- `create_network` with a generator (soil/environment.py:308-317, soil/network.py:42-53): first with `seed=self.random`; if
that raises `TypeError`, again without. Keywords given twice are a `TypeError` (line 309). -/
def generate {V : Type} (gen : GenCall V → GenRes) (params : Dict String V) : NetOut V :=
  if Dict.has params "seed" || Dict.has params "dir_path" then ⟨.error .typeError, [], false⟩
  else match gen (true, params) with
    | .typeError => ⟨(gen (false, params)).toExcept, [(true, params), (false, params)], true⟩
    | r => ⟨r.toExcept, [(true, params)], true⟩

/-- `create_network(topology, generator=..., **network_params)` (soil/environment.py:303-320). -/
def createNetwork {V : Type} (F : NetHost) (a : NetArgs V) : NetOut V :=
  if Dict.has a.params "topology" || Dict.has a.params "generator" then ⟨.error .typeError, [], false⟩
  else match a.topology with
    | .none => match a.path with
      | some p => ⟨fromTopology F (.path p), [], false⟩
      | none => match a.generator with
        | some gen => generate gen a.params
        | none => ⟨.error .valueError, [], false⟩
    | t => ⟨fromTopology F t, [], false⟩

/-- Truth value of the parameter `topology`: a graph without nodes counts as false, as do an empty dictionary and an empty path. -/
def Topo.truthy (F : NetHost) : Topo → Bool
  | .none => false
  | .graph o => !(F.store o).nodes.isEmpty
  | .dict _ e => !e
  | .path p => !p.isEmpty

/-- The start of `NetworkEnvironment.__init__` (soil/environment.py:270-276). -/
def envNetwork {V : Type} (F : NetHost) (a : NetArgs V) : NetOut V :=
  if a.topology.truthy F || (!a.params.isEmpty || a.path.isSome) || a.generator.isSome then createNetwork F a
  else ⟨.ok (.fresh .empty), [], false⟩

/-! ### The rest of the constructor -/

/-- One round of the second loop of `_check_agent_nodes` (soil/environment.py:370-378); `none`: `ValueError`. `eqv` is `==` of
agents. Network agents always have an attribute `node_id`, others only if one was given. -/
def NWorld.checkOne (eqv : Nat → Nat → Bool) (w : NWorld) (r : Nat) : Option NWorld :=
  match w.agents[r]? with
  | none => some w
  | some a =>
    if a.net || a.node.isSome then
      match a.node with
      | none => none
      | some n => match Dict.get? w.nodes n with
        | none => none
        | some (some (some s)) =>
          if eqv s r then some { w with nodes := Dict.set w.nodes n (some (some r)) } else none
        | some _ => some { w with nodes := Dict.set w.nodes n (some (some r)) }
    else some w

/-- The second loop of `_check_agent_nodes`. -/
def NWorld.checkLoop (eqv : Nat → Nat → Bool) : List Nat → NWorld → Option NWorld
  | [], w => some w
  | r :: rs, w => match w.checkOne eqv r with
    | none => none
    | some w' => NWorld.checkLoop eqv rs w'

/-- `_check_agent_nodes` (soil/environment.py:360-378). `withIds`: the nodes with an attribute `agent_id`. `get_agents(id)` is a
list, to which no attribute can be assigned (line 369), so one such node is enough for an `AttributeError`. -/
def NWorld.check (eqv : Nat → Nat → Bool) (withIds : List NId) (w : NWorld) : Option NWorld :=
  if (Dict.keys w.nodes).any (fun n => decide (n ∈ withIds)) then none else NWorld.checkLoop eqv w.sched w

/-- The parameter `agent_class` of the constructor. -/
structure PopArgs where
  classes : List Bool
  draws : Nat → Rat
  inits : Nat → InitRes

/-- The constructor from the moment there is a graph (soil/environment.py:277-285); the parameter `agents` and user code in `init`
come as operations of their own. The flag tells whether it returned. -/
def NWorld.create (eqv : Nat → Nat → Bool) (withIds : List NId) (w : NWorld) (pop : Option PopArgs) : NWorld × Bool :=
  match pop with
  | none => match w.check eqv withIds with
    | none => (w, false)
    | some w' => (w', true)
  | some p =>
    match w.populate p.classes none p.draws p.inits with
    | (w1, false) => (w1, false)
    | (w1, true) => match w1.check eqv withIds with
      | none => (w1, false)
      | some w' => (w', true)

/-- A new environment on the graph of an earlier one (the same networkx object): no agents of its own, ids from 0. The agents of
the earlier environment are still on the nodes. -/
def NWorld.reuse (w : NWorld) : NWorld := { w with sched := [], nextId := 0 }

/-- A new environment on a new graph. -/
def NGraph.world (g : NGraph) : NWorld := NWorld.start g.nodes g.edges g.directed

/-- The iterations of one combination of parameters (soil/simulation.py:191-256) as far as the network is concerned: `shared` says
whether the parameter `topology` is a graph object, which every environment then uses; otherwise each reads or generates the
graph `g`. `run i` is what happens in iteration `i`. Lists the environments after their creation; stops at the first exception,
which includes an environment without agents ("No agents in model", soil/simulation.py:257-258). -/
def iterWorlds (shared : Bool) (eqv : Nat → Nat → Bool) (withIds : List NId) (g : NGraph) (pop : Nat → Option PopArgs)
    (run : Nat → NWorld → NWorld) : Nat → Nat → NWorld → List NWorld × Bool
  | 0, _, _ => ([], true)
  | n + 1, i, prev =>
    match NWorld.create eqv withIds (if shared then prev.reuse else g.world) (pop i) with
    | (w, false) => ([w], false)
    | (w, true) =>
      if w.sched = [] then ([w], false)
      else
        let r := iterWorlds shared eqv withIds g pop run n (i + 1) (run i w)
        (w :: r.1, r.2)

end Verif
