import Verif.Basic.Val
import Verif.Basic.Dict

/-!
# Model of `MetaFSM` and of state changes in `FSM` (soil/agents/fsm.py)
-/

namespace Verif

/-- The class attributes `_states` and `_state` of an FSM class (soil/agents/fsm.py:98-103). -/
structure FsmClass where
  states : Dict String StateDef
  init : Option StateDef
deriving DecidableEq, Repr

/-- One step of the loops of `MetaFSM.__new__`: `if state.default: default_state = state` and
`states[state_id] = state` (soil/agents/fsm.py:86-89, 94-96). -/
def FsmClass.addState (c : FsmClass) (id : String) (d : StateDef) : FsmClass :=
  ⟨Dict.set c.states id d, if d.dflt then some d else c.init⟩

/-- The loop over the states of one base (soil/agents/fsm.py:86-89). -/
def FsmClass.addBase (c b : FsmClass) : FsmClass :=
  b.states.foldl (fun c kd => c.addState kd.1 kd.2) c

/-- `MetaFSM.__new__` (soil/agents/fsm.py:80-110): `bases` are the bases that are FSM classes, `ns` the
`State` objects of the class body in order. (The class attributes with the names of the states, set in
lines 108-109, are not modelled: every instance sets its own, 123-124.) -/
def mkFsm (bases : List FsmClass) (ns : List StateDef) : FsmClass :=
  ns.foldl (fun c d => c.addState d.name d) (bases.foldl FsmClass.addBase ⟨[], none⟩)

/-- The states of the class `FSM` itself (soil/agents/fsm.py:173-175). -/
def fsmRoot (deadFn : Nat) : FsmClass := mkFsm [] [⟨"dead", false, deadFn⟩]

/-- `FSM._set_state` (soil/agents/fsm.py:158-167): the new `_state`, or `none` if it raises `ValueError`. -/
def setState (cls : FsmClass) (cur : Option StateDef) (v : Val) : Option (Option StateDef) :=
  match v with
  | .none => some cur
  | .str s => match Dict.get? cls.states s with
    | none => none
    | some d => some (some d)
  | .state d => some (some d)
  | _ => none

/-- `next_state, when = next_state` (soil/agents/fsm.py:147): succeeds on tuples of length two and on
strings of length two. -/
def unpack2 (v : Val) : Option (Val × Val) :=
  match v with
  | .pair a b => some (a, b)
  | .str s => match s.toList with
    | [a, b] => some (.str (String.ofList [a]), .str (String.ofList [b]))
    | _ => none
  | _ => none

/-- The end of `FSM.step` (soil/agents/fsm.py:146-156): what happens with the value `v` returned by the
state function. Result: the new `_state`, and the value returned by `step` (`none`: `ValueError` escapes). -/
def fsmReturn (cls : FsmClass) (cur : Option StateDef) (v : Val) : Option StateDef × Option Val :=
  match unpack2 v with
  | some (ns, when_) => match setState cls cur ns with
    | none => (cur, none)
    | some c => (c, some when_)
  | none => match setState cls cur v with
    | some c => (c, some .none)
    | none => (cur, some v)

/-- The same including the conversion of the delay by the wrapper (soil/agents/__init__.py:45). -/
def fsmOutcome (pf : String → Option Time) (cls : FsmClass) (cur : Option StateDef) (v : Val) :
    Option StateDef × Reply :=
  let r := fsmReturn cls cur v
  match r.2 with
  | none => (r.1, .error)
  | some w => (r.1, finishVal pf w)

/-- `FSM.set_state` (soil/agents/fsm.py:137-140); `none` if it raises. -/
def setStateApi (cls : FsmClass) (now : Time) (cur : Option StateDef) (v : Val) : Option (Option StateDef) :=
  if (0 : Time) < now then none else setState cls cur v

/-- `FSM.__init__` (soil/agents/fsm.py:114-124): the initial `_state` of an instance given `state_id`
(`Val.none` if not given); `none` if the constructor raises. -/
def fsmInit (cls : FsmClass) (stateId : Val) : Option (Option StateDef) :=
  match setState cls cls.init stateId with
  | none => none
  | some st => if cls.states.length > 1 && st.isNone then none else some st

end Verif
