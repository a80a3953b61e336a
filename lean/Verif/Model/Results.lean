import Verif.Model.Plot
import Verif.Model.Database
import Verif.Model.ParamsId

/-!
# From a simulation to its database: running, collecting and exporting together

The pieces are modelled in `Simulation`, `RunLoop`, `Data`, `Plot`, `ParamsId` and `Database`; here they are put together as in soil/simulation.py:135-280.
-/

namespace Verif

variable {S A : Type}

/-- `BaseEnvironment.step` (soil/environment.py:189-202) as `_run_model` sees it: the scheduler and the collection of data. -/
def dataStepper (st : Stepper S) (ob : Observed S A) (regs : S → List (Reg S A)) : Stepper (DataEnv S A) where
  step e := e.step st ob regs
  time e := st.time e.state
  steps e := st.steps e.state
  running e := st.running e.state
  noAgents e := st.noAgents e.state

/-- What a model class makes of the parameters: the environment before the first collection, with its reporters (`mr`, `ar`: given to the
constructor; `regs0`: registered by `init`; `regs`: registered during steps). -/
structure EnvModel (S A : Type) where
  st : Stepper S
  ob : Observed S A
  mr : Dict String (ModelRep S)
  ar : Dict String (AgentRep S A)
  regs0 : List (Reg S A)
  regs : S → List (Reg S A)
  state : S

/-- The environment when it has been built (soil/environment.py:40-110). The Boolean: an exception. -/
def EnvModel.start (m : EnvModel S A) : DataEnv S A × Bool := DataEnv.new m.ob (soilCollector m.st m.ob m.mr m.ar) m.regs0 true m.state

/-- `_run_model` (soil/simulation.py:236-280) with the limits of the simulation. -/
def EnvModel.run (m : EnvModel S A) (s : Sim) (fuel : Nat) : Outcome (DataEnv S A) :=
  if m.start.2 then .raised m.start.1 else s.runEnv (dataStepper m.st m.ob m.regs) fuel m.start.1

/-- The rows of a data frame of the model. -/
def frameRecs (cell : RVal → DbCell) (f : MFrame) : List (Nat × DbRow) :=
  (List.range f.index.length).map (fun i => (i, f.cols.map (fun kl => (kl.1, cell (kl.2[i]?.getD .none)))))

/-- mesa's `get_agent_vars_dataframe`: the records of all step numbers in order of insertion. -/
def agentRecs (cell : RVal → DbCell) (aid : A → Nat) (c : Collector S A) : List (Nat × Nat × DbRow) :=
  c.agentRecords.flatMap (fun kr => kr.2.map (fun r => (kr.1, aid r.1, (Dict.keys c.agentReporters).zip (r.2.map cell))))

/-- What `get_dc_dfs` (soil/exporters.py:96-114) finds in a collector without tables; `none` if the data frame of the model cannot be made.
`cell` is what pandas writes for a value. -/
def collectorJob (cell : RVal → DbCell) (aid : A → Nat) (c : Collector S A) (params : Dict String DbCell) (pid iid : String) : Option DbJob :=
  (modelVarsFrame c).map (fun f =>
    { params := params, pid := pid, iid := iid, reps := Dict.keys f.cols, recs := frameRecs cell f,
      areps := Dict.keys c.agentReporters, arecs := agentRecs cell aid c, tables := [] })

/-- What the exporter is given for the combination `ps` and iteration `i`, if the iteration returns. `m ps i` is the environment that the model class
makes of the combination with the seed of the iteration. Simplification: combinations do not bring reporters of their own (see C56). -/
def simJob (s : Sim) (m : Params → Nat → EnvModel S A) (fuel : Nat) (cell : RVal → DbCell) (aid : A → Nat) (pcell : PV → DbCell)
    (pid : Params → String) (ps : Params) (i : Nat) : Option DbJob :=
  match (m ps i).run s fuel with
  | .done e => collectorJob cell aid e.dc (ps.map (fun kv => (kv.1, pcell kv.2))) (pid ps) (toString i)
  | _ => none

/-- `Simulation.run` (soil/simulation.py:135-172) with the exporter `SQLite` and a new file; `none`: an exception, or an iteration that does not end
within `fuel` steps. Simplification: everything is written at the end. -/
def Sim.database (s : Sim) (m : Params → Nat → EnvModel S A) (fuel : Nat) (cell : RVal → DbCell) (aid : A → Nat) (pcell : PV → DbCell)
    (pid : Params → String) (sid : String) (conf : DbRow) : Option Database :=
  match s.jobs.mapM (fun pi => simJob s m fuel cell aid pcell pid pi.1 pi.2) with
  | none => none
  | some jobs => Database.dumpSims [] [⟨sid, conf, jobs⟩]

end Verif
