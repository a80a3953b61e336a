import Verif.Model.FSM
import Verif.Model.Filter
import Verif.Model.Random
import Verif.Model.Attrs

/-!
# The agents that come with soil: SISa, independent cascade, Bass, counters
-/

namespace Verif

/-! ### What a state function sees of the world -/

/-- The scheduled agents (with their `state_id` among the attributes), the ids of the neighbours of the agent at hand, and the
current time. -/
structure Surroundings where
  agents : List FAgent
  neighborIds : List Nat
  now : Rat
deriving DecidableEq, Repr

/-- `self.get_neighbors(state_id=v, **kwargs)` (soil/agents/network_agents.py:32-60); `count_neighbors` (26-27) is its
length. -/
def Surroundings.neighbors (x : Surroundings) (sub : Nat → Nat → Bool) (v : Val) (kwargs : Dict String CritVal) : List FAgent :=
  netGetAgents sub x.agents (some x.neighborIds) { stateId := some [v], kwargs := kwargs }

/-! ### SISa (soil/agents/SISaModel.py) -/

/-- The parameters of one agent (soil/agents/SISaModel.py:43-68). -/
structure SisaParams where
  neutralDiscontentSpon : Rat
  neutralDiscontentInf : Rat
  neutralContentSpon : Rat
  neutralContentInf : Rat
  discontentNeutral : Rat
  discontentContent : Rat
  contentDiscontent : Rat
  contentNeutral : Rat
deriving DecidableEq, Repr

def sNeutral : StateDef := ⟨"neutral", true, 1⟩
def sDiscontent : StateDef := ⟨"discontent", false, 2⟩
def sContent : StateDef := ⟨"content", false, 3⟩

/-- The class. -/
def sisaClass : FsmClass := mkFsm [fsmRoot 0] [sNeutral, sDiscontent, sContent]

/-- `neutral` (soil/agents/SISaModel.py:70-86); note `state_id=self.discontent` (a `State`) in line 80 and
`state_id=self.content.id` (its name) in line 83. -/
def sisaNeutral (p : SisaParams) (sub : Nat → Nat → Bool) (x : Surroundings) (draws : List Rat) : Val × List Rat :=
  let r1 := prob p.neutralDiscontentSpon draws
  if r1.1 then (.state sDiscontent, r1.2)
  else
    let r2 := prob p.neutralContentSpon r1.2
    if r2.1 then (.state sContent, r2.2)
    else
      let r3 := prob ((x.neighbors sub (.state sDiscontent) []).length * p.neutralDiscontentInf) r2.2
      if r3.1 then (.state sDiscontent, r3.2)
      else
        let r4 := prob ((x.neighbors sub (.str "content") []).length * p.neutralContentInf) r3.2
        if r4.1 then (.state sContent, r4.2)
        else (.state sNeutral, r4.2)

/-- `discontent` (soil/agents/SISaModel.py:88-98). -/
def sisaDiscontent (p : SisaParams) (sub : Nat → Nat → Bool) (x : Surroundings) (draws : List Rat) : Val × List Rat :=
  let r1 := prob p.discontentNeutral draws
  if r1.1 then (.state sNeutral, r1.2)
  else
    let r2 := prob ((x.neighbors sub (.str "content") []).length * p.discontentContent) r1.2
    if r2.1 then (.state sContent, r2.2)
    else (.state sDiscontent, r2.2)

/-- `content` (soil/agents/SISaModel.py:100-110): line 109 is `self.discontent`, without `return`. -/
def sisaContent (p : SisaParams) (sub : Nat → Nat → Bool) (x : Surroundings) (draws : List Rat) : Val × List Rat :=
  let r1 := prob p.contentNeutral draws
  if r1.1 then (.state sNeutral, r1.2)
  else
    let r2 := prob ((x.neighbors sub (.str "discontent") []).length * p.contentDiscontent) r1.2
    (.state sContent, r2.2)

/-- The function of a state; `dead` returns `INFINITY` (soil/agents/fsm.py:173-175). -/
def sisaFn (p : SisaParams) (sub : Nat → Nat → Bool) (x : Surroundings) (d : StateDef) (draws : List Rat) : Val × List Rat :=
  if d.fn = 1 then sisaNeutral p sub x draws
  else if d.fn = 2 then sisaDiscontent p sub x draws
  else if d.fn = 3 then sisaContent p sub x draws
  else (.num .inf, draws)

/-- One step of the agent (`FSM.step`, soil/agents/fsm.py:142-156): the new state. -/
def sisaStep (p : SisaParams) (sub : Nat → Nat → Bool) (cur : Option StateDef) (x : Surroundings) (draws : List Rat) :
    Option StateDef :=
  match cur with
  | none => none
  | some d => (fsmReturn sisaClass cur (sisaFn p sub x d draws).1).1

/-- Many steps, each with its surroundings and its draws. -/
def sisaRun (p : SisaParams) (sub : Nat → Nat → Bool) : Option StateDef → List (Surroundings × List Rat) → Option StateDef
  | cur, [] => cur
  | cur, (x, ds) :: rest => sisaRun p sub (sisaStep p sub cur x ds) rest

/-- A generator of numpy: its seed and how many numbers it has given. -/
structure NpGen where
  seed : Nat
  used : Nat
deriving DecidableEq, Repr

/-- `np.random.default_rng(seed)`; without a seed it takes one from the operating system (`entropy`). -/
def defaultRng (seed : Option Nat) (entropy : List Nat) : NpGen × List Nat :=
  match seed, entropy with
  | some s, e => (⟨s, 0⟩, e)
  | none, s :: e => (⟨s, 0⟩, e)
  | none, [] => (⟨0, 0⟩, [])

/-- `random.normal(mean, dev)`; `normals s i` is the standard normal deviate number `i` of a generator with seed `s`. -/
def NpGen.normal (normals : Nat → Nat → Rat) (g : NpGen) (mean dev : Rat) : Rat × NpGen :=
  (mean + dev * normals g.seed g.used, ⟨g.seed, g.used + 1⟩)

/-- The settings of a SISa model (soil/agents/SISaModel.py:8-30). -/
structure SisaSettings where
  means : SisaParams
  standardVariance : Rat
  varianceDC : Rat
  varianceCD : Rat
deriving DecidableEq, Repr

/-- `SISaModel.__init__` (soil/agents/SISaModel.py:32-68), the parameters; line 67 uses `discontent_neutral` again. -/
def sisaInit (normals : Nat → Nat → Rat) (seed : Option Nat) (m : SisaSettings) (entropy : List Nat) :
    SisaParams × List Nat :=
  let g := defaultRng seed entropy
  let r1 := g.1.normal normals m.means.neutralDiscontentSpon m.standardVariance
  let r2 := r1.2.normal normals m.means.neutralDiscontentInf m.standardVariance
  let r3 := r2.2.normal normals m.means.neutralContentSpon m.standardVariance
  let r4 := r3.2.normal normals m.means.neutralContentInf m.standardVariance
  let r5 := r4.2.normal normals m.means.discontentNeutral m.standardVariance
  let r6 := r5.2.normal normals m.means.discontentContent m.varianceDC
  let r7 := r6.2.normal normals m.means.contentDiscontent m.varianceCD
  let r8 := r7.2.normal normals m.means.discontentNeutral m.standardVariance
  (⟨r1.1, r2.1, r3.1, r4.1, r5.1, r6.1, r7.1, r8.1⟩, g.2)

/-- The parameters of `n` agents created one after the other. -/
def sisaAgents (normals : Nat → Nat → Rat) (seed : Option Nat) (m : SisaSettings) : Nat → List Nat → List SisaParams
  | 0, _ => []
  | n + 1, entropy =>
    let r := sisaInit normals seed m entropy
    r.1 :: sisaAgents normals seed m n r.2

/-! ### Independent cascade (soil/agents/IndependentCascadeModel.py) -/

def sOutside : StateDef := ⟨"outside", true, 1⟩
def sImitate : StateDef := ⟨"imitate", false, 2⟩

/-- The class. -/
def cascadeClass : FsmClass := mkFsm [fsmRoot 0] [sOutside, sImitate]

/-- `outside` and `imitate` (soil/agents/IndependentCascadeModel.py:16-30), as far as the state is concerned; note
`state_id=1`. -/
def cascadeFn (innovation imitation : Rat) (sub : Nat → Nat → Bool) (x : Surroundings) (d : StateDef) (draws : List Rat) : Val :=
  if d.fn = 1 then (if (prob innovation draws).1 then .state sImitate else .none)
  else if d.fn = 2 then
    let aware := x.neighbors sub (.num 1) [("time_awareness", .one (.num (.fin (x.now - 1))))]
    if (prob (imitation * aware.length) draws).1 then .state sOutside else .none
  else .num .inf

def cascadeStep (innovation imitation : Rat) (sub : Nat → Nat → Bool) (cur : Option StateDef) (x : Surroundings)
    (draws : List Rat) : Option StateDef :=
  match cur with
  | none => none
  | some d => (fsmReturn cascadeClass cur (cascadeFn innovation imitation sub x d draws)).1

def cascadeRun (innovation imitation : Rat) (sub : Nat → Nat → Bool) :
    Option StateDef → List (Surroundings × List Rat) → Option StateDef
  | cur, [] => cur
  | cur, (x, ds) :: rest => cascadeRun innovation imitation sub (cascadeStep innovation imitation sub cur x ds) rest

/-! ### Bass (soil/agents/BassModel.py) -/

/-- The names that attribute lookup finds on the class `BassModel`: its own, those of `FSM`, `BaseAgent`, Mesa's `Agent`,
`MutableMapping` and `object` (dunder methods left out). -/
def bassNames : List String :=
  ["step", "innovation", "aware",
   "states", "state_id", "set_state", "_set_state", "die", "dead", "_state", "_states",
   "_defaults", "_last_return", "_last_except", "_coroutine", "init", "prob", "w", "id", "from_dict", "keys", "items", "get",
   "now", "_check_alive", "log", "debug", "info", "count_agents", "get_agents", "iter_agents", "to_str", "at", "delay",
   "remove", "advance", "random", "_setup",
   "pop", "popitem", "clear", "update", "setdefault", "values"]

/-- `BassModel` as an agent class: what is found on the class has some value; the defaults are `sentimentCorrelation` and the
states (soil/agents/__init__.py:98: states are not functions). -/
def bassClass : AgentCls where
  defaults := [("sentimentCorrelation", .num 0), ("innovation", .obj 1), ("aware", .obj 2)]
  attrs := bassNames.map (fun k => (k, .obj 0))
  readonly := ["state_id", "id", "now"]

/-- `BassModel.step` (soil/agents/BassModel.py:13-14): `self.behaviour()`; `run` is what calling the attribute does. `none`:
`AttributeError`. -/
def bassStep {R : Type} (c : AgentCls) (inst : Dict String Val) (run : Val → R) : Option R :=
  (c.getattr inst "behaviour").map run

/-! ### Counters (soil/agents/CounterModel.py) -/

/-- `self[key]` as a number. -/
def numAttr (inst : Dict String Val) (k : String) : Option Rat :=
  match Dict.get? inst k with
  | some (.num (.fin q)) => some q
  | _ => none

/-- `Ticker.step` (soil/agents/CounterModel.py:4-8); `none`: an exception. -/
def tickerStep (inst : Dict String Val) : Option (Dict String Val) :=
  match numAttr inst "times" with
  | none => none
  | some t => some (Dict.set inst "times" (.num (.fin (t + 1))))

/-- `CounterModel.step` (soil/agents/CounterModel.py:20-26) with `neighbors` neighbours and `total` scheduled agents.
Simplification: `get("times", 0)` is that of an agent that has the attribute. -/
def counterStep (neighbors total : Nat) (inst : Dict String Val) : Option (Dict String Val) :=
  match numAttr inst "times" with
  | none => none
  | some t =>
    let i1 := Dict.set inst "times" (.num (.fin (t + 1)))
    let i2 := Dict.set i1 "neighbors" (.num (.fin neighbors))
    some (Dict.set i2 "total" (.num (.fin total)))

/-- `AggregatedCounter.step` (soil/agents/CounterModel.py:39-46). -/
def aggregatedStep (neighbors total : Nat) (inst : Dict String Val) : Option (Dict String Val) :=
  match numAttr inst "times" with
  | none => none
  | some t =>
    let i1 := Dict.set inst "times" (.num (.fin (t + 1)))
    match numAttr i1 "neighbors" with
    | none => none
    | some n =>
      let i2 := Dict.set i1 "neighbors" (.num (.fin (n + neighbors)))
      match numAttr i2 "total" with
      | none => none
      | some s => some (Dict.set i2 "total" (.num (.fin (s + total))))

/-- Many steps; `step` gets the observations of each. -/
def runCounter (step : Nat → Nat → Dict String Val → Option (Dict String Val)) :
    List (Nat × Nat) → Dict String Val → Option (Dict String Val)
  | [], inst => some inst
  | (n, t) :: rest, inst => match step n t inst with
    | none => none
    | some inst' => runCounter step rest inst'

end Verif
