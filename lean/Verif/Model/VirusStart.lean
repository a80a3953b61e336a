import Verif.Model.ExVirus
import Verif.Model.Filter

/-!
# The virus benchmark: how it begins, and what it reports
-/

namespace Verif

/-- How `init` ends: `avg_node_degree / num_nodes` with `num_nodes = 0`; `random.sample` with a negative size; the assertion at the end; normally. -/
inductive StartRes (S : Type) where
  | zeroDivision
  | badSample
  | assertion
  | ok (st : List S)
deriving DecidableEq, Repr

/-- A status as the value of an attribute. -/
def VStat.val : VStat → Val
  | .susceptible => .str "susceptible"
  | .infected => .str "infected"
  | .resistant => .str "resistant"

/-- The agents as queries see them; `key` is `status` (benchmarks/virusonnetwork/soil_step.py:65) or `state_id` (benchmarks/virusonnetwork/soil_states.py:44). The nodes
of `erdos_renyi_graph` are 0, 1, …, and `populate_network` adds one agent to each of them in this order (soil/environment.py:390-411). -/
def virusRecs (key : String) (st : List VStat) : List FAgent :=
  st.mapIdx (fun i s => ⟨i, i, 0, [("node_id", .num (.fin (i : Rat))), (key, s.val)], []⟩)

/-- `self.get_agents(node_id=infected_nodes)` (benchmarks/virusonnetwork/soil_step.py:35). -/
def onNodes (key : String) (st : List VStat) (nodes : List Nat) : List FAgent :=
  baseGetAgents (fun _ _ => true) (virusRecs key st) { kwargs := [("node_id", .many (nodes.map (fun i => .num (.fin (i : Rat)))))] }

/-- `self.count_agents(status=…)` (benchmarks/virusonnetwork/soil_step.py:46-59). -/
def countStatus (st : List VStat) (s : VStat) : Nat := (baseGetAgents (fun _ _ => true) (virusRecs "status" st) { kwargs := [("status", .one s.val)] }).length

/-- `self.count_agents(state_id=…)` (benchmarks/virusonnetwork/soil_states.py:41-54). -/
def countState (st : List VAgent) (s : VStat) : Nat :=
  (baseGetAgents (fun _ _ => true) (virusRecs "state_id" (st.map (·.state))) { stateId := some [s.val] }).length

/-- `init` of `soil_step.py` (benchmarks/virusonnetwork/soil_step.py:26-37). `sample k` are the nodes drawn by `random.sample(list(self.G), k)`. -/
def stepStart (n : Nat) (size : Int) (sample : Nat → List Nat) : StartRes VStat :=
  if n = 0 then .zeroDivision
  else
    let size := min size n
    if size < 0 then .badSample
    else
      let st := List.replicate n VStat.susceptible
      let st := (onNodes "status" st (sample size.toNat)).foldl (fun st a => st.set a.ref .infected) st
      if (countStatus st .infected : Int) = size then .ok st else .assertion

/-- `init` of `soil_states.py` (benchmarks/virusonnetwork/soil_states.py:20-31): `set_state` instead of an assignment. -/
def statesStart (n : Nat) (size : Int) (sample : Nat → List Nat) : StartRes VAgent :=
  if n = 0 then .zeroDivision
  else
    let size := min size n
    if size < 0 then .badSample
    else
      let st := List.replicate n (⟨.susceptible, false⟩ : VAgent)
      let st := (onNodes "state_id" (st.map (·.state)) (sample size.toNat)).foldl (fun st a => st.modify a.ref (fun q => { q with state := .infected })) st
      if (countState st .infected : Int) = size then .ok st else .assertion

/-- `__init__` of mesa's version (benchmarks/virusonnetwork/mesa_basic.py:35-91): the agents on the nodes that were drawn are infected one after the other. -/
def mesaStart (n : Nat) (size : Int) (sample : Nat → List Nat) : StartRes VStat :=
  if n = 0 then .zeroDivision
  else
    let size := if size ≤ n then size else n
    if size < 0 then .badSample
    else .ok ((sample size.toNat).foldl (fun st i => st.set i .infected) (List.replicate n VStat.susceptible))

/-- `resistant_susceptible_ratio` (benchmarks/virusonnetwork/soil_step.py:39-45, benchmarks/virusonnetwork/mesa_basic.py:103-109). -/
def virusRatio (resistant susceptible : Nat) : Time := if susceptible = 0 then .inf else .fin ((resistant : Rat) / (susceptible : Rat))

end Verif
