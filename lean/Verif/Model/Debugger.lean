import Verif.Basic.Dict

/-!
# The debugger (soil/debugging.py)

The commands of `Debug` on top of pdb. What pdb and bdb do with breakpoints (python's bdb.py: `set_break`, `get_breaks`, `effective`,
`checkfuncname`, `break_here`) is modelled for the beginning of functions only. Values of variables are numbered models and agents,
classes and other things; what the functions of the program look like is an input (`DWorld`).
-/

namespace Verif

/-- Where the code of a function is (`__code__`): its file, its first line, its name. -/
structure CodeRef where
  file : Nat
  line : Nat
  name : Nat
deriving DecidableEq, Repr

/-- The value of a variable. `debugger`: the instance of `Debug` itself; `other n b`: something else, with its truth value. -/
inductive DVal where
  | model (m : Nat)
  | agent (a : Nat)
  | cls (k : Nat)
  | debugger
  | other (n : Nat) (truthy : Bool)
deriving DecidableEq, Repr

/-- Truth value. Models and agents have `__len__` (soil/environment.py:244-245, soil/agents/__init__.py:199-200), which counts the public
attributes; they always have some (`unique_id`, `name`, `alive`; `id`, `schedule`). -/
def DVal.truthy : DVal → Bool
  | .other _ b => b
  | _ => true

/-- What `getattr(x, name)` gives: a function, a method (with `__func__`), a state made by `@state` (soil/agents/fsm.py:8-38; it has
neither `__func__` nor `__code__`), or anything else without code. -/
inductive DAttr where
  | fn (c : CodeRef)
  | method (c : CodeRef)
  | state (c : CodeRef)
  | data
deriving DecidableEq, Repr

/-- The program that is debugged: attributes (`none`: `AttributeError`), which classes are subclasses of `FSM`, the model and the
`unique_id` of agents, the names of their classes, their public attributes, whether pdb accepts the first line of a function
(`checkline`). -/
structure DWorld where
  attr : DVal → List Char → Option DAttr
  fsm : Nat → Bool
  modelOf : Nat → Nat
  uid : Nat → Nat
  className : Nat → List Char
  keys : Nat → List (List Char)
  lineOk : CodeRef → Bool

/-- The frame in which the debugger has stopped (`curframe`). -/
structure DFrame where
  globals : Dict String DVal
  locals : Dict String DVal

/-- The conditions that soil gives to breakpoints (soil/debugging.py:125, 193-195). -/
inductive DCond where
  | ids (l : List Nat)
  | stepsAbove (n : Nat)
deriving DecidableEq, Repr

/-- A breakpoint of bdb. -/
structure DBreak where
  code : CodeRef
  cond : Option DCond
  temporary : Bool
deriving DecidableEq, Repr

/-- The state: the global variables of the module soil.debugging (those that may concern the commands), and the breakpoints. -/
structure Dbg where
  known : Dict String DVal
  bps : List DBreak

/-- What a command does. `notFound`: "State … not found in class …"; `exists_`: "Breakpoint already exists at …"; `set`: "Breakpoint … at
…"; `agents`: the agents of a model are printed; `agent`: an agent is printed with the given attributes. -/
inductive DMsg where
  | specify
  | noClasses
  | notFound
  | exists_ (c : CodeRef)
  | set (c : CodeRef)
  | noStep
  | noAgent
  | agents (m : Nat)
  | agent (a : Nat) (keys : List (List Char))
  | noCurrent
deriving DecidableEq, Repr

/-- Exceptions. -/
inductive DErr where
  | nameError
  | keyError
  | attributeError
  | valueError
deriving DecidableEq, Repr

/-- The result of a command: the new state, the messages, the exception if one escapes, and whether the program continues. -/
structure DRes where
  dbg : Dbg
  msgs : List DMsg
  err : Option DErr
  cont : Bool

/-- `known = globals(); known.update(f_globals); known.update(f_locals)` (soil/debugging.py:20-22, 98-100): the global variables of the
module are overwritten. -/
def Dbg.gather (d : Dbg) (f : DFrame) : Dict String DVal := Dict.update (Dict.update d.known f.globals) f.locals

/-- `wrapcmd` (soil/debugging.py:14-36) without the call: what `known` is when the command runs. -/
def Dbg.wrap (W : DWorld) (d : Dbg) (f : DFrame) : Dict String DVal :=
  let known := d.gather f
  let known := match Dict.get? known "self" with
    | some (.model m) => Dict.set known "model" (.model m)
    | some (.agent a) => Dict.set (Dict.set known "agent" (.agent a)) "model" (.model (W.modelOf a))
    | _ => known
  Dict.set known "self" .debugger

/-- `do_soil_agents`, `do_soil_list` (soil/debugging.py:50-66; soil/environment.py:116-117). A variable that does not exist: `NameError`. -/
def Dbg.soilAgents (W : DWorld) (d : Dbg) (f : DFrame) : DRes :=
  let known := d.wrap W f
  match Dict.get? known "model" with
  | none => ⟨{ d with known := known }, [], some .nameError, false⟩
  | some (.model m) => ⟨{ d with known := known }, [.agents m], none, false⟩
  | some (.agent a) => ⟨{ d with known := known }, [.agents (W.modelOf a)], none, false⟩
  | some _ => ⟨{ d with known := known }, [], some .attributeError, false⟩

/-- The attributes that are shown: without arguments the public ones, otherwise for each argument those that begin with it; `dict` keeps
the first of equal names (soil/debugging.py:81-87; soil/agents/__init__.py:205-213, 283-292). -/
def shownKeys (keys : List (List Char)) (attrs : List (List Char)) : List (List Char) :=
  if attrs = [] then keys
  else (attrs.flatMap (fun k => keys.filter (fun key => k.isPrefixOf key))).foldl (fun acc k => if k ∈ acc then acc else acc ++ [k]) []

/-- `do_soil_agent` (soil/debugging.py:75-91). -/
def Dbg.soilAgent (W : DWorld) (d : Dbg) (f : DFrame) (attrs : List (List Char)) : DRes :=
  let known := d.wrap W f
  match Dict.get? known "agent" with
  | none => ⟨{ d with known := known }, [], some .nameError, false⟩
  | some (.agent a) => ⟨{ d with known := known }, [.agent a (shownKeys (W.keys a) attrs)], none, false⟩
  | some v =>
    if v.truthy then ⟨{ d with known := known }, [], some .attributeError, false⟩
    else ⟨{ d with known := known }, [.noAgent], none, false⟩

/-- Is there a breakpoint at the line (`get_breaks`)? -/
def Dbg.hasBreak (d : Dbg) (c : CodeRef) : Bool := d.bps.any (fun b => b.code.file = c.file && b.code.line = c.line)

/-- `do_break_step` (soil/debugging.py:93-134). `steps m`: `schedule.steps` of model `m`. -/
def Dbg.breakStep (W : DWorld) (steps : Nat → Nat) (d : Dbg) (f : DFrame) : DRes :=
  let known := d.gather f
  let d := { d with known := known }
  match Dict.get? known "model" with
  | none => ⟨d, [], some .keyError, false⟩
  | some v => match W.attr v "step".toList with
    | none => ⟨d, [.noStep], none, false⟩
    | some .data => ⟨d, [], some .attributeError, false⟩
    | some (.state _) => ⟨d, [], some .attributeError, false⟩
    | some (.fn c) => fin d v c
    | some (.method c) => fin d v c
where
  /-- From line 105. -/
  fin (d : Dbg) (v : DVal) (c : CodeRef) : DRes :=
    if W.lineOk c = false then ⟨d, [], some .valueError, false⟩
    else if d.hasBreak c then ⟨d, [.exists_ c], none, false⟩
    else match v with
      | .model m => ⟨{ d with bps := d.bps ++ [⟨c, some (.stepsAbove (steps m)), true⟩] }, [.set c], none, true⟩
      | _ => ⟨d, [], some .attributeError, false⟩

/-- The body of the loop of `do_break_state` for one class (soil/debugging.py:172-206). -/
def Dbg.breakOne (W : DWorld) (state : List Char) (inst : List Nat) (temporary : Bool) (k : DVal) (d : Dbg) : DRes :=
  match W.attr k state with
  | none => ⟨d, [.notFound], none, false⟩
  | some .data => ⟨d, [], some .attributeError, false⟩
  | some (.state _) => ⟨d, [], some .attributeError, false⟩
  | some (.fn c) => set c
  | some (.method c) => set c
where
  /-- From line 178. -/
  set (c : CodeRef) : DRes :=
    if W.lineOk c = false then ⟨d, [], some .valueError, false⟩
    else if d.hasBreak c then ⟨d, [.exists_ c], none, false⟩
    else ⟨{ d with bps := d.bps ++ [⟨c, if inst = [] then none else some (.ids inst), temporary⟩] }, [.set c], none, false⟩

/-- The loop over the classes (soil/debugging.py:172), until an exception escapes. -/
def Dbg.breakIn (W : DWorld) (state : List Char) (inst : List Nat) (temporary : Bool) : List DVal → Dbg → DRes
  | [], d => ⟨d, [], none, false⟩
  | k :: ks, d =>
    let r := d.breakOne W state inst temporary k
    match r.err with
    | some _ => r
    | none =>
      let r' := Dbg.breakIn W state inst temporary ks r.dbg
      { r' with msgs := r.msgs ++ r'.msgs }

/-- `str.split()`, after the characters `cur` of a word. -/
def splitFrom : List Char → List Char → List (List Char)
  | cur, [] => if cur = [] then [] else [cur]
  | cur, c :: cs =>
    if c.isWhitespace then (if cur = [] then splitFrom [] cs else cur :: splitFrom [] cs)
    else splitFrom (cur ++ [c]) cs

/-- `str.split()`: the words. -/
def splitWords (s : List Char) : List (List Char) := splitFrom [] s

/-- `eval(token)` (soil/debugging.py:149) for numerals; other expressions are not modelled and count as undefined names. -/
def evalToken (t : List Char) : Option Nat := if t ≠ [] ∧ t.all Char.isDigit then some (Nat.ofDigitChars 10 t 0) else none

/-- Before and after the first colon (`state.find(":")`, soil/debugging.py:151-155); the first component is `none` if there is no colon
or if it comes first (`colon > 0`). The words have no blanks, so that `strip` does nothing. -/
def splitColon (t : List Char) : Option (List Char) × List Char :=
  if t.contains ':' && t.head? ≠ some ':' then (some (t.takeWhile (· ≠ ':')), (t.dropWhile (· ≠ ':')).drop 1) else (none, t)

/-- The value of a name in a frame: `eval(name, f_globals, locals)` (soil/debugging.py:158). -/
def DFrame.lookup (f : DFrame) (k : List Char) : Option DVal :=
  match Dict.get? f.locals (String.ofList k) with
  | some v => some v
  | none => Dict.get? f.globals (String.ofList k)

/-- The classes of machines that the frame knows (soil/debugging.py:162-167). -/
def DFrame.machines (W : DWorld) (f : DFrame) : List DVal :=
  (f.globals.map Prod.snd).filter (fun v => match v with | .cls k => W.fsm k | _ => false)

/-- `do_break_state` (soil/debugging.py:136-208). pdb strips the argument, so that it has a word unless it is empty.
The parameter `instances` is not given by any command. -/
def Dbg.breakState (W : DWorld) (d : Dbg) (f : DFrame) (arg : List Char) (temporary : Bool) : DRes :=
  match splitWords arg with
  | [] => ⟨d, [.specify], none, false⟩
  | w :: tokens => match tokens.mapM evalToken with
    | none => ⟨d, [], some .nameError, false⟩
    | some inst =>
      match splitColon w with
      | (none, state) => go inst (f.machines W) state
      | (some name, state) => match f.lookup name with
        | none => ⟨d, [], some .nameError, false⟩
        | some v => if v.truthy then go inst [v] state else go inst (f.machines W) state
where
  /-- From line 161. -/
  go (inst : List Nat) (ks : List DVal) (state : List Char) : DRes :=
    let r := Dbg.breakIn W state inst temporary ks d
    if ks = [] then { r with msgs := .noClasses :: r.msgs } else r

/-- `do_continue_state` (soil/debugging.py:68-71): the program continues unless an exception escapes. -/
def Dbg.continueState (W : DWorld) (d : Dbg) (f : DFrame) (arg : List Char) : DRes :=
  let r := d.breakState W f arg true
  match r.err with
  | none => { r with cont := true }
  | some _ => r

/-- `do_break_state_self` (soil/debugging.py:210-221); `temporary` is not passed on. For something that is not an agent (a model or any
other object) `unique_id` raises `AttributeError`. -/
def Dbg.breakStateSelf (W : DWorld) (d : Dbg) (f : DFrame) (arg : List Char) : DRes :=
  match Dict.get? f.locals "self" with
  | none => ⟨d, [.noCurrent], none, false⟩
  | some (.agent a) =>
    d.breakState W f (W.className a ++ ':' :: arg ++ ' ' :: (Nat.repr (W.uid a)).toList) false
  | some v => if v.truthy then ⟨d, [], some .attributeError, false⟩ else ⟨d, [.noCurrent], none, false⟩

/-- What is `self` in a function that is called: an agent with its `unique_id`, a model with its `schedule.steps`, or something else. -/
inductive DSelf where
  | agent (uid : Nat)
  | model (steps : Nat)
  | none
deriving DecidableEq, Repr

/-- The value of a condition; `none` if it raises. -/
def DCond.eval : DCond → DSelf → Option Bool
  | .ids l, .agent u => some (decide (u ∈ l))
  | .stepsAbove n, .model s => some (decide (n < s))
  | _, _ => Option.none

/-- `effective` (bdb.py): the first breakpoint of the function whose condition holds or raises; whether it is to be removed if temporary. -/
def effective (c : CodeRef) (s : DSelf) : List DBreak → Option (DBreak × Bool)
  | [] => Option.none
  | b :: bs =>
    if b.code = c then match b.cond with
      | Option.none => some (b, true)
      | some x => match x.eval s with
        | some true => some (b, true)
        | some false => effective c s bs
        | Option.none => some (b, false)
    else effective c s bs

/-- A function is called: does the debugger stop (`break_here`, bdb.py)? A temporary breakpoint is removed. -/
def Dbg.enter (d : Dbg) (c : CodeRef) (s : DSelf) : Bool × Dbg :=
  match effective c s d.bps with
  | Option.none => (false, d)
  | some (b, del) => (true, if del && b.temporary then { d with bps := d.bps.erase b } else d)

/-- The calls of functions up to the first at which the debugger stops: its index. -/
def Dbg.firstStop (d : Dbg) : List (CodeRef × DSelf) → Option Nat
  | [] => Option.none
  | e :: es => if (d.enter e.1 e.2).1 then some 0 else (d.firstStop es).map (· + 1)

end Verif
