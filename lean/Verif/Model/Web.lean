import Verif.Basic.Dict
import Mathlib.Algebra.Order.Ring.Rat

/-!
# The web interface (soil/web/__init__.py)

Three parts: the capture of the log of a simulation (threads interleave with the event loop at single operations on the buffer), the
messages of a web socket, and the options of the command. Tornado is modelled as far as it is used: callbacks of the event loop are not
interrupted by other callbacks, and an exception in `on_message` closes the connection. PyYAML is the one before version 6 (`load_all`
without a loader raises from version 6 on, which ends every upload with an exception).
-/

namespace Verif

/-! ## Loggers -/

/-- The name of a logger, as its parts between the dots (no empty parts); the root logger has none. -/
abbrev LogName := List String

/-- A record of the logger `l` is handled by a handler of the logger `h` iff `h` is `l` or one of its ancestors (the library never changes
`propagate`). -/
def reaches (h l : LogName) : Prop := h <+: l

/-- The loggers of a run of the simulation called `n`: `logger.getChild(self.name)` (soil/simulation.py:115), and its descendants for the
iterations, schedulers and agents (soil/simulation.py:229, soil/time.py:55, soil/agents/__init__.py:127). -/
def simLogger (n : LogName) (sub : LogName) : LogName := "soil" :: n ++ sub

/-- `SocketHandler.logging`: the handler is added to `logging.getLogger(self.simulation_name)` (soil/web/__init__.py:224, 253-256). -/
def webLogger (n : LogName) : LogName := n

/-! ## The capture of a log -/

/-- `io.StringIO`: its text, its position, and whether it is closed. -/
structure SIO where
  text : List Char
  pos : Nat
  closed : Bool
deriving DecidableEq, Repr

/-- `StringIO.write`: at the position, overwriting; a gap is filled with null characters. On a closed buffer it raises, which
`logging` only reports on the console. -/
def SIO.write (b : SIO) (s : List Char) : SIO :=
  if b.closed then b
  else
    let t := b.text ++ List.replicate (b.pos - b.text.length) (Char.ofNat 0)
    ⟨t.take b.pos ++ s ++ t.drop (b.pos + s.length), b.pos + s.length, false⟩

/-- `s.split("\n")` without its last item, which is not sent (soil/web/__init__.py:189): the lines that end. `cur`: the characters of the
line so far. -/
def endedLines : List Char → List Char → List (List Char)
  | _, [] => []
  | cur, c :: cs => if c = '\n' then cur :: endedLines [] cs else endedLines (cur ++ [c]) cs

/-- Where the event loop is: outside `update_logging`; about to begin it; in its loop, before sending line `i` of `n`; after
`truncate(0)`. -/
inductive WPhase where
  | idle
  | due
  | loop (i n : Nat)
  | cut
deriving DecidableEq, Repr

/-- The state of the log of a connection. `ios`: the buffers, one for each run so far (the last one is `self.log_capture_string`);
`attached`: the runs whose handlers are installed; `capture`: `self.capture_logging`; `timers`: the calls of `update_logging` that are
scheduled; `sent`: the lines sent to the client. All runs have the same name, so that each handler gets all records. -/
structure WebLog where
  ios : List SIO
  attached : List Nat
  capture : Bool
  timers : Nat
  phase : WPhase
  sent : List (List Char)
deriving DecidableEq, Repr

/-- What can happen. `log`: a thread logs a message, at any time. The others belong to the event loop: a run begins, a scheduled call
begins, its steps, the run `k` is over. -/
inductive WEv where
  | begin
  | log (m : List Char)
  | fire
  | check
  | send
  | cut
  | seek
  | finish (k : Nat)
deriving DecidableEq, Repr

/-- `finally: if self.capture_logging: call_later(...)` (soil/web/__init__.py:196-200). -/
def WebLog.endUpdate (w : WebLog) : WebLog :=
  { w with phase := .idle, timers := if w.capture then w.timers + 1 else w.timers }

/-- One event; `none`: it cannot happen. `begin`: `SocketHandler.logging` before its `yield` (soil/web/__init__.py:252-257). `log`:
`StreamHandler.emit` of all installed handlers: one write of the message and a newline. `check` … `seek`: `update_logging`
(soil/web/__init__.py:183-200); the condition and the range of the loop are evaluated at once. `finish`: `SocketHandler.logging` after its
`yield` (soil/web/__init__.py:260-264). -/
def WebLog.step (w : WebLog) : WEv → Option WebLog
  | .begin =>
    if w.phase = .idle then
      some { w with ios := w.ios ++ [⟨[], 0, false⟩], attached := w.attached ++ [w.ios.length], capture := true, phase := .due }
    else none
  | .log m =>
    some { w with ios := w.ios.mapIdx (fun k b => if k ∈ w.attached then b.write (m ++ ['\n']) else b) }
  | .fire =>
    if w.phase = .idle ∧ 0 < w.timers then some { w with phase := .due, timers := w.timers - 1 } else none
  | .check =>
    if w.phase = .due then
      match w.ios.getLast? with
      | none => none
      | some b =>
        if b.closed = false ∧ b.text ≠ [] then some { w with phase := .loop 0 (endedLines [] b.text).length }
        else some w.endUpdate
    else none
  | .send =>
    match w.phase, w.ios.getLast? with
    | .loop i n, some b =>
      if i < n then some { w with phase := .loop (i + 1) n, sent := w.sent ++ [((endedLines [] b.text)[i]?).getD []] } else none
    | _, _ => none
  | .cut =>
    match w.phase, w.ios.getLast? with
    | .loop i n, some b => if i < n then none else some { w with ios := w.ios.dropLast ++ [{ b with text := [] }], phase := .cut }
    | _, _ => none
  | .seek =>
    match w.phase, w.ios.getLast? with
    | .cut, some b => some ({ w with ios := w.ios.dropLast ++ [{ b with pos := 0 }] } : WebLog).endUpdate
    | _, _ => none
  | .finish k =>
    if w.phase = .idle ∧ k ∈ w.attached then
      match w.ios.getLast? with
      | none => none
      | some b =>
        some { w with ios := w.ios.dropLast ++ [{ b with closed := true }], attached := w.attached.erase k, capture := false }
    else none

/-- Several events. -/
def WebLog.run : WebLog → List WEv → Option WebLog
  | w, [] => some w
  | w, e :: es => match w.step e with
    | none => none
    | some w' => w'.run es

/-- A connection before its first run. -/
def webLog0 : WebLog := ⟨[], [], false, 0, .idle, []⟩

/-- The lines of the messages that the events log. -/
def loggedLines (es : List WEv) : List (List Char) :=
  es.flatMap (fun e => match e with | .log m => endedLines [] (m ++ ['\n']) | _ => [])

/-! ## Messages -/

/-- A value of a parameter: numbers are `int` or `float`; booleans are not numbers for `type(v)`. -/
inductive WebVal where
  | num (q : Rat)
  | bool (b : Bool)
  | other (n : Nat)
deriving DecidableEq, Repr

/-- A value in a configuration. -/
inductive ConfVal where
  | text (s : String)
  | params (d : Dict String WebVal)
  | other (n : Nat)
deriving DecidableEq, Repr

/-- A configuration: a dictionary (other YAML documents are left out). -/
abbrev WebDict := Dict String ConfVal

/-- The type of a setting. -/
inductive SetType where
  | number
  | greatNumber
  | boolean
  | undefined
deriving DecidableEq, Repr

/-- What the server sends. -/
inductive WebOut where
  | log (level name : String)
  | error
  | visualization (v : ConfVal)
  | settings (l : List (String × SetType × WebVal))
  | trials (names : List String)
  | graph (i : Int)
deriving DecidableEq, Repr

/-- What the client sends: the documents of a file; a request for a trial; new parameters; a download. -/
inductive WebIn where
  | configFile (docs : List WebDict)
  | getTrial (i : Int)
  | runSimulation (data : ConfVal)
  | download (i : Int)
  | unknown
deriving DecidableEq, Repr

/-- A model that a simulation returns: its attribute `name`, if it has one (those of the library have none), and whether it has
`history_to_graph` (those of the library do not). -/
structure WebTrial where
  name : Option String
  graph : Bool
deriving DecidableEq, Repr

/-- `self.config`: not set; a list of configurations; a configuration. -/
inductive WebConf where
  | unset
  | list
  | one (c : WebDict)
deriving DecidableEq, Repr

/-- A connection. `alive`: it is open; `pending`: the configurations that are being run; `out`: what was sent. -/
structure WebConn where
  config : WebConf
  trials : Option (List WebTrial)
  alive : Bool
  pending : List WebDict
  out : List WebOut
deriving DecidableEq, Repr

/-- The fields of `Simulation` (soil/simulation.py:80-107). -/
def simFields : List String :=
  ["version", "source_file", "name", "description", "group", "backup", "overwrite", "dry_run", "dump", "model", "parameters", "matrix",
   "seed", "dir_path", "max_time", "max_steps", "iterations", "num_processes", "exporters", "model_reporters", "agent_reporters", "tables",
   "outdir", "exporter_params", "level", "skip_test", "debug"]

/-- The type of a setting (soil/web/__init__.py:94-105). -/
def setType : WebVal → SetType
  | .num q => if q ≤ 1 then .number else .greatNumber
  | .bool _ => .boolean
  | .other _ => .undefined

/-- An exception in `on_message`: tornado closes the connection. -/
def WebConn.die (w : WebConn) : WebConn := { w with alive := false }

/-- `write_message`. -/
def WebConn.write (w : WebConn) (o : WebOut) : WebConn := { w with out := w.out ++ [o] }

/-- `run_simulation` up to its `yield` (soil/web/__init__.py:219-229), for the configuration `c`: `visualization_params` are removed, a
copy is run by another thread. The output directory and `dump` are put into the copy. -/
def WebConn.start (w : WebConn) (c : WebDict) : WebConn :=
  let c := if Dict.has c "visualization_params" then Dict.del c "visualization_params" else c
  { w with config := .one c,
           pending := w.pending ++ [Dict.set (Dict.set c "outdir" (.other 0)) "dump" (.other 0)] }

/-- `self.trials[i].history_to_graph()` (soil/web/__init__.py:117-123, 137-177, 243-248). The line of `get_trial` that says that a trial
was requested is left out. -/
def WebConn.getGraph (w : WebConn) (i : Int) : WebConn :=
  match w.trials with
  | none => w.die
  | some ts =>
    match (if 0 ≤ i then ts[i.toNat]? else if -i ≤ ts.length then ts[(ts.length + i).toNat]? else none) with
    | none => w.die
    | some t => if t.graph then w.write (.graph i) else w.die

/-- `visualization_params` are sent (soil/web/__init__.py:82-88). -/
def WebConn.showParams (w : WebConn) (c : WebDict) : WebConn :=
  match Dict.get? c "visualization_params" with
  | some v => w.write (.visualization v)
  | none => w

/-- `on_message` (soil/web/__init__.py:57-181). A name that is not a text raises, and so does a missing one, before anything is sent. -/
def WebConn.receive (w : WebConn) : WebIn → WebConn
  | .configFile docs =>
    match docs with
    | [] => { w with config := .list }.die
    | _ :: _ :: _ => { w with config := .list }.write .error
    | [c] =>
      let w := { w with config := .one c }
      match Dict.get? c "name" with
      | some (.text n) =>
        let w := w.write (.log "INFO" n)
        let w := (w.showParams c).start c
        match Dict.get? c "environment_params" with
        | some (.params d) => w.write (.settings (d.map (fun kv => (kv.1, setType kv.2, kv.2))))
        | _ => w.die
      | _ => w.die
  | .getTrial i => w.getGraph i
  | .runSimulation data =>
    match w.config with
    | .one c =>
      match Dict.get? c "name" with
      | some (.text n) => (w.write (.log "INFO" n)).start (Dict.set c "environment_params" data)
      | _ => w.die
    | _ => w.die
  | .download i => w.getGraph i
  | .unknown => w

/-- The rest of `run_simulation` (soil/web/__init__.py:213-216, 229-241) for the `k`-th of the pending configurations. `sim c`: what
`Simulation(**c).run()` returns (`none`: it raises), if all keys are fields. Writing to a closed connection raises. -/
def WebConn.complete (sim : WebDict → Option (List WebTrial)) (w : WebConn) (k : Nat) : WebConn :=
  match w.pending[k]? with
  | none => w
  | some c =>
    let w := { w with pending := w.pending.eraseIdx k }
    let failed (w : WebConn) := if w.alive then (w.write .error).write (.log "ERROR" "") else w
    if (Dict.keys c).all (fun f => decide (f ∈ simFields)) then
      match sim c with
      | none => failed w
      | some ts =>
        let w := { w with trials := some ts }
        match ts.mapM WebTrial.name with
        | none => failed w
        | some names => if w.alive then w.write (.trials names) else w
    else failed w

/-- What happens in a connection: a message comes, or a run is over. -/
inductive WebEvent where
  | msg (m : WebIn)
  | done (k : Nat)

/-- Messages come only while the connection is open. -/
def WebConn.step (sim : WebDict → Option (List WebTrial)) (w : WebConn) : WebEvent → WebConn
  | .msg m => if w.alive then w.receive m else w
  | .done k => w.complete sim k

/-- A connection. -/
def WebConn.run (sim : WebDict → Option (List WebTrial)) (w : WebConn) (es : List WebEvent) : WebConn := es.foldl (WebConn.step sim) w

/-- A new connection. -/
def webConn0 : WebConn := ⟨.unset, none, true, [], []⟩

/-! ## The options -/

/-- The arguments of the command `soil-web`. -/
structure WebArgs where
  name : Option String
  dump : Bool
  port : Option String
  verbose : Bool
deriving DecidableEq, Repr

/-- A value given to the server: a text, a number, or (because of `nargs=1`) a list of one text. -/
inductive ArgVal where
  | text (s : String)
  | int (n : Nat)
  | single (s : String)
deriving DecidableEq, Repr

/-- `ModularServer`: its attributes. -/
structure WebServer where
  port : ArgVal
  name : ArgVal
  dump : Bool
  verbose : Bool
deriving DecidableEq, Repr

/-- `ModularServer.__init__` (soil/web/__init__.py:267-293): `port` is the attribute of the class; other keywords (`kw`, such as `port`)
are accepted and not used. -/
def modularServer (dump : Bool) (name : ArgVal) (verbose : Bool) (_kw : Dict String ArgVal) : WebServer := ⟨.int 8001, name, dump, verbose⟩

/-- `ModularServer.launch` (soil/web/__init__.py:295-304). -/
def WebServer.launch (s : WebServer) (port : Option ArgVal) : WebServer :=
  match port with
  | some p => { s with port := p }
  | none => s

/-- `main` and `run` (soil/web/__init__.py:307-334): the server that is listening. -/
def webMain (a : WebArgs) : WebServer :=
  let name : ArgVal := match a.name with
    | some n => .single n
    | none => .text "SOIL"
  let port : ArgVal := match a.port with
    | some p => .text p
    | none => .int 8001
  (modularServer false name a.verbose [("port", port)]).launch none

end Verif
