import Verif.Basic.Dict
import Verif.Model.RunLoop

/-!
# Data collection

`SoilCollector` (soil/datacollection.py), mesa's `DataCollector`, and the parts of `BaseEnvironment` that use them.
-/

namespace Verif

/-- Collected values, as far as soil distinguishes them. -/
inductive RVal where
  | none
  | num (t : Time)
  | obj (n : Nat)
deriving DecidableEq, Repr

/-- A reporter of the model: a function of the state of the environment; `none` when it raises. Covers functions and
names of attributes (mesa `DataCollector.collect`). Simplification: reporters do not change the model. -/
abbrev ModelRep (S : Type) := S → Option RVal

/-- A reporter of agents. -/
abbrev AgentRep (S A : Type) := S → A → Option RVal

/-- mesa `DataCollector`: reporters, collected columns, and records of agents by step number. Tables are not modelled. -/
structure Collector (S A : Type) where
  modelReporters : Dict String (ModelRep S)
  modelVars : Dict String (List RVal)
  agentReporters : Dict String (AgentRep S A)
  agentRecords : Dict Nat (List (A × List RVal))

/-- What the collector needs to know of an environment beyond `Stepper`: `schedule.agents` in order, and the number under
which records of agents are stored (`schedule.steps` in mesa 1.2, `model._steps` in later ones). -/
structure Observed (S A : Type) where
  agents : S → List A
  key : S → Nat

variable {S A : Type}

/-- mesa `DataCollector._new_model_reporter`. -/
def Collector.newModelReporter (c : Collector S A) (name : String) (f : ModelRep S) : Collector S A :=
  { c with modelReporters := Dict.set c.modelReporters name f, modelVars := Dict.set c.modelVars name [] }

/-- mesa `DataCollector._new_agent_reporter`. -/
def Collector.newAgentReporter (c : Collector S A) (name : String) (f : AgentRep S A) : Collector S A :=
  { c with agentReporters := Dict.set c.agentReporters name f }

/-- The reporter `agent_count` (soil/datacollection.py:10; mesa `get_agent_count`). -/
def countRep (ob : Observed S A) : ModelRep S := fun s => some (.num (.fin (ob.agents s).length))

/-- The reporter `time` (soil/datacollection.py:12). -/
def timeRep (st : Stepper S) : ModelRep S := fun s => some (.num (st.time s))

/-- `SoilCollector.__init__` (soil/datacollection.py:5-19): the two built-in reporters unless there are reporters with their
names; mesa's constructor registers them one by one. -/
def soilCollector (st : Stepper S) (ob : Observed S A) (mr : Dict String (ModelRep S)) (ar : Dict String (AgentRep S A)) :
    Collector S A :=
  let mr1 := if Dict.has mr "agent_count" then mr else Dict.set mr "agent_count" (countRep ob)
  let mr2 := if Dict.has mr1 "time" then mr1 else Dict.set mr1 "time" (timeRep st)
  let c := mr2.foldl (fun c nf => c.newModelReporter nf.1 nf.2) (⟨[], [], [], []⟩ : Collector S A)
  ar.foldl (fun c nf => c.newAgentReporter nf.1 nf.2) c

/-- The loop over the reporters of the model in mesa's `DataCollector.collect`. The Boolean tells whether one raised; the
columns before it then have one more row. -/
def collectModel (s : S) : List (String × ModelRep S) → Dict String (List RVal) → Dict String (List RVal) × Bool
  | [], vars => (vars, false)
  | (n, f) :: rest, vars => match f s with
    | none => (vars, true)
    | some v => collectModel s rest (Dict.set vars n ((Dict.get? vars n).getD [] ++ [v]))

/-- mesa `DataCollector._record_agents`; `none` when a reporter raises. -/
def recordAgents (ob : Observed S A) (reps : Dict String (AgentRep S A)) (s : S) : Option (List (A × List RVal)) :=
  (ob.agents s).mapM (fun a => (reps.mapM (fun (nf : String × AgentRep S A) => nf.2 s a)).map (fun vs => (a, vs)))

/-- mesa `DataCollector.collect`. -/
def Collector.collect (ob : Observed S A) (c : Collector S A) (s : S) : Collector S A × Bool :=
  let r := collectModel s c.modelReporters c.modelVars
  let c1 := { c with modelVars := r.1 }
  if r.2 then (c1, true)
  else if c.agentReporters.isEmpty then (c1, false)
  else match recordAgents ob c.agentReporters s with
    | none => (c1, true)
    | some rec => ({ c1 with agentRecords := Dict.set c1.agentRecords (ob.key s) rec }, false)

/-- Registrations made by user code. -/
inductive Reg (S A : Type) where
  | model (name : String) (f : ModelRep S)
  | agent (name : String) (f : AgentRep S A)

/-- `add_model_reporter` and `add_agent_reporter` without type (soil/environment.py:204-214). A reporter given by the name of
an attribute is the corresponding function. -/
def Collector.register (c : Collector S A) : Reg S A → Collector S A
  | .model n f => c.newModelReporter n f
  | .agent n f => c.newAgentReporter n f

/-- An environment with its collector. -/
structure DataEnv (S A : Type) where
  state : S
  dc : Collector S A

/-- The end of `BaseEnvironment.__init__` (soil/environment.py:104-110): `init()` has left the state `s` and made the
registrations `regs` (those of `__new__`, lines 58-63, come first); then data is collected. With `init=False` nothing is. -/
def DataEnv.new (ob : Observed S A) (c : Collector S A) (regs : List (Reg S A)) (init : Bool) (s : S) : DataEnv S A × Bool :=
  let c1 := regs.foldl Collector.register c
  if init then
    let r := c1.collect ob s
    (⟨s, r.1⟩, r.2)
  else (⟨s, c1⟩, false)

/-- `BaseEnvironment.step` (soil/environment.py:189-202): the step of the scheduler, during which user code makes the
registrations `regs`, and data collection. The Boolean tells whether an exception escaped. Logging is not modelled. -/
def DataEnv.step (st : Stepper S) (ob : Observed S A) (regs : S → List (Reg S A)) (e : DataEnv S A) : DataEnv S A × Bool :=
  let r := st.step e.state
  let c1 := (regs e.state).foldl Collector.register e.dc
  if r.2 then (⟨r.1, c1⟩, true)
  else
    let q := c1.collect ob r.1
    (⟨r.1, q.1⟩, q.2)

/-- `n` steps; stops at the first exception. -/
def DataEnv.steps (st : Stepper S) (ob : Observed S A) (regs : S → List (Reg S A)) : Nat → DataEnv S A → DataEnv S A × Bool
  | 0, e => (e, false)
  | n + 1, e =>
    let r := e.step st ob regs
    if r.2 then r else r.1.steps st ob regs n

/-- `add_agent_reporter(name, reporter, agent_type)` with a type (soil/environment.py:212-214): the lambda refers to the
variable it is assigned to, so it calls itself. `fuel` is the recursion limit; `none`: `RecursionError`. The argument
`reporter` is not used. -/
def typedReporter (isInstance : A → Bool) (_reporter : AgentRep S A) : Nat → AgentRep S A
  | 0, _, _ => none
  | fuel + 1, s, a => if isInstance a then typedReporter isInstance _reporter fuel s a else some .none

end Verif
