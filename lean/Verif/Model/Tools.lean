import Verif.Basic.Dict
import Verif.Model.Nested
import Mathlib.Algebra.Order.Field.Rat

/-!
# Tools: timing of blocks, `easy`, the debugger object, writing graphs, dry runs, numeric seeds

soil/utils.py:34-47 (`timer`) and 159-160 (`int_seed`); soil/__init__.py:272-282 (`easy`); soil/debugging.py:39-48 (`Debug.__init__`) and
226-243 (`set_trace`, `post_mortem`); soil/network.py:71-83 (`dump_gexf`); soil/exporters.py:19-44 (`DryRunner`).
-/

namespace Verif

/-! ### `timer` (soil/utils.py:34-47) -/

/-- A line of the log: of `timer` (lines 37, 40-44: the name and the times) or of somebody else. -/
inductive TimerEv where
  | start (name : Str) (t : Rat)
  | finish (name : Str) (t dur : Rat)
  | msg (m : Str)
deriving DecidableEq, Repr

/-- Code that uses `with timer(...)`. `obj` is `to_object`: its identity and its truth value. `raise` raises an exception that is not
caught in the code. -/
inductive TimedCode where
  | skip
  | emit (m : Str)
  | raise
  | seq (a b : TimedCode)
  | timed (name : Str) (obj : Option (Nat × Bool)) (body : TimedCode)
deriving DecidableEq, Repr

/-- `clock k` is the result of the `k`-th call of `time()`; `reads` of them have been made; `out` is the log; `times` has the attributes
`start` and `end` of the objects. -/
structure TimerWorld where
  reads : Nat
  out : List TimerEv
  times : Dict Nat (Rat × Rat)
deriving DecidableEq, Repr

/-- Running the code. `timer` is a generator with one `yield` and no `try` (lines 36-47): what follows the `yield` is not executed when
the block raises. The Boolean: an exception escapes. -/
def TimedCode.run (clock : Nat → Rat) : TimedCode → TimerWorld → TimerWorld × Bool
  | .skip, w => (w, false)
  | .emit m, w => ({ w with out := w.out ++ [.msg m] }, false)
  | .raise, w => (w, true)
  | .seq a b, w =>
    let r := a.run clock w
    if r.2 then r else b.run clock r.1
  | .timed name obj body, w =>
    let start := clock w.reads
    let r := body.run clock { w with reads := w.reads + 1, out := w.out ++ [.start name start] }
    if r.2 then r
    else
      let stop := clock r.1.reads
      ({ reads := r.1.reads + 1
         out := r.1.out ++ [.finish name stop (stop - start)]
         times := (match obj with
           | some (o, true) => Dict.set r.1.times o (start, stop)
           | _ => r.1.times) }, false)

/-! ### `easy` (soil/__init__.py:272-282) -/

/-- What matters of the world: how often `main` has been run, how often a post-mortem debugger was opened, how often the block of a
`with` was executed. -/
structure EasyWorld where
  runs : Nat
  postmortems : Nat
  blocks : Nat
deriving DecidableEq, Repr

/-- How a use of `easy` ends: normally, with the exception of `main`, with `IndexError` (`[0]` of an empty list) or with `TypeError`
(`next` of a list). -/
inductive EasyEnd (ε : Type) where
  | ok
  | mainError (e : ε)
  | indexError
  | typeError
deriving DecidableEq, Repr

/-- `easy(cfg, ...)`: the function is decorated with `contextmanager`, but it does not yield: `contextlib` calls it at once
(`self.gen = func(...)`), so `main` is run by the call. `main` is given by its result: an exception or a list with the results of
`Simulation.run`, which are lists (soil/__init__.py:251, soil/simulation.py:127-160). The result: the first of them, kept as `gen`. -/
def easyCall {ε α : Type} (main : Except ε (List (List α))) (postmortem : Bool) (w : EasyWorld) :
    EasyWorld × Except (EasyEnd ε) (List α) :=
  let w1 := { w with runs := w.runs + 1 }
  let w2 := if postmortem then { w1 with postmortems := w1.postmortems + 1 } else w1
  match main with
  | .error e => (w2, .error (.mainError e))
  | .ok [] => (w2, .error .indexError)
  | .ok (x :: _) => (w1, .ok x)

/-- `with easy(cfg, ...) as x: block`: after the call, `__enter__` does `next(self.gen)`, and a list is not an iterator. -/
def easyWith {ε α : Type} (main : Except ε (List (List α))) (postmortem : Bool) (w : EasyWorld) : EasyWorld × EasyEnd ε :=
  match easyCall main postmortem w with
  | (w', .error e) => (w', e)
  | (w', .ok _) => (w', .typeError)

/-- `easy(cfg, ...)` as a statement. -/
def easyPlain {ε α : Type} (main : Except ε (List (List α))) (postmortem : Bool) (w : EasyWorld) : EasyWorld × EasyEnd ε :=
  match easyCall main postmortem w with
  | (w', .error e) => (w', e)
  | (w', .ok _) => (w', .ok)

/-! ### The debugger (soil/debugging.py) -/

/-- `fnmatch.fnmatchcase` for patterns with `*` and `?` (no brackets). -/
def globMatch : Str → Str → Bool
  | [], s => s.isEmpty
  | p :: ps, s =>
    if p = '*' then s.tails.any (globMatch ps)
    else match s with
      | [] => false
      | c :: s => (p == '?' || p == c) && globMatch ps s

/-- The patterns added for `skip_soil` (soil/debugging.py:43-46). -/
def soilSkips : List Str := ["soil".toList, "contextlib".toList, "soil.*".toList, "mesa.*".toList]

/-- `Debug(skip_soil=..., **kwargs)` (soil/debugging.py:39-48): the patterns of the debugger, or `TypeError` when `skip` is among the
keyword arguments, because it is passed twice; and the list that the caller passed afterwards. The other options are not modelled. -/
def debugInit (skipSoil : Bool) (skip : Option (List Str)) : Except Unit (List Str) × Option (List Str) :=
  let l := skip.getD []
  let l' := if skipSoil then l ++ soilSkips else l
  match skip with
  | none => (.ok l', none)
  | some _ => (.error (), some l')

/-- `Bdb.is_skipped_module` (CPython, bdb.py): a module without name is not skipped. -/
def isSkipped (skips : List Str) (name : Option Str) : Bool :=
  match name with
  | none => false
  | some n => skips.any (fun p => globMatch p n)

/-- The options of the debugger, when it exists (the global `debugger`, soil/debugging.py:226), and what it was used for so far: the
frame or traceback shown with the patterns in use. -/
structure DebugWorld where
  debugger : Option (List Str)
  shown : List (Nat × List Str)
deriving DecidableEq, Repr

/-- A use of the module: `set_trace(frame, skip_soil=...)` (soil/debugging.py:229-234) or `post_mortem(traceback, skip_soil=...)`
(237-243) while the exception with traceback `exc` (if any) is being handled. -/
inductive DebugCall where
  | trace (frame : Option Nat) (caller : Nat) (skipSoil : Bool)
  | mortem (traceback : Option Nat) (exc : Option Nat) (skipSoil : Bool)
deriving DecidableEq, Repr

/-- The call; the Boolean: it raises. `set_trace` uses the frame given or that of the caller (`frame or ...`; frames are true).
`post_mortem` does not look at its argument `traceback`; with no exception being handled the traceback is `None`, for which `interaction`
raises (CPython, pdb.py: `setup` takes the last entry of an empty stack). -/
def DebugCall.exec (c : DebugCall) (w : DebugWorld) : DebugWorld × Bool :=
  match c with
  | .trace frame caller skipSoil =>
    let d := match w.debugger with
      | some d => d
      | none => if skipSoil then soilSkips else []
    ({ debugger := some d, shown := w.shown ++ [(frame.getD caller, d)] }, false)
  | .mortem _ exc skipSoil =>
    let d := match w.debugger with
      | some d => d
      | none => if skipSoil then soilSkips else []
    match exc with
    | some t => ({ debugger := some d, shown := w.shown ++ [(t, d)] }, false)
    | none => ({ debugger := some d, shown := w.shown }, true)

/-- A history of calls; those that raise change what they change. -/
def debugRun (cs : List DebugCall) (w : DebugWorld) : DebugWorld := cs.foldl (fun w c => (c.exec w).1) w

/-! ### `dump_gexf` (soil/network.py:71-83) -/

/-- Values of node attributes: a sequence of numbers (a position), the dictionary that `dump_gexf` builds, or anything else. -/
inductive GexfVal where
  | pos (l : List Rat)
  | viz (x y : Rat)
  | other (v : Nat)
deriving DecidableEq, Repr

/-- The nodes of a graph with their attributes. -/
abbrev GexfGraph := List (Nat × Dict Str GexfVal)

/-- The first two elements of `pos` (lines 76-77). Anything that is no sequence of numbers raises (simplification: strings and
dictionaries can be indexed as well). -/
def gexfXY : GexfVal → Option (Rat × Rat)
  | .pos (x :: y :: _) => some (x, y)
  | _ => none

/-- The body of the loop for one node (lines 73-81); `none` when it raises, in which case the attributes are unchanged. -/
def gexfNode (d : Dict Str GexfVal) : Option (Dict Str GexfVal) :=
  match Dict.get? d "pos".toList with
  | none => some d
  | some p =>
    match gexfXY p with
    | none => none
    | some (x, y) => some (Dict.del (Dict.set d "viz".toList (.viz x y)) "pos".toList)

/-- The loop (lines 72-81): the graph afterwards, and whether it raised; the nodes before the failing one have been changed. -/
def gexfLoop : GexfGraph → GexfGraph × Bool
  | [] => ([], false)
  | (n, d) :: g =>
    match gexfNode d with
    | none => ((n, d) :: g, true)
    | some d' =>
      let r := gexfLoop g
      ((n, d') :: r.1, r.2)

/-- `dump_gexf(G, f)`: the graph afterwards, and what is handed to `nx.write_gexf` (if anything). -/
def dumpGexf (g : GexfGraph) : GexfGraph × Option GexfGraph :=
  let r := gexfLoop g
  if r.2 then (r.1, none) else (r.1, some r.1)

/-! ### `DryRunner` (soil/exporters.py:19-44) -/

/-- The argument of `write`. -/
inductive Chunk where
  | text (s : Str)
  | bytes (b : List UInt8)
deriving DecidableEq, Repr

/-- `bytes(txt, "utf-8")`. -/
def utf8Bytes (s : Str) : List UInt8 := s.flatMap String.utf8EncodeChar

/-- A dry run of a file: its name, what was written, and what was written to `copy_to` (if there is one). `reprBytes` is `format` of
bytes. -/
structure DryFile where
  fname : Str
  buffer : List UInt8
  copied : Option Str
deriving DecidableEq, Repr

/-- `DryRunner.write` (soil/exporters.py:25-31): it accepts text and bytes; it returns nothing. -/
def DryFile.write (reprBytes : List UInt8 → Str) (f : DryFile) (c : Chunk) : DryFile :=
  { f with
    copied := f.copied.map (fun s => s ++ f.fname ++ ":::".toList ++ (match c with
      | .text t => t
      | .bytes b => reprBytes b))
    buffer := f.buffer ++ (match c with
      | .text t => utf8Bytes t
      | .bytes b => b) }

/-- Several writes. -/
def DryFile.writeAll (reprBytes : List UInt8 → Str) (f : DryFile) (cs : List Chunk) : DryFile :=
  cs.foldl (fun f c => f.write reprBytes c) f

/-- Writing to a file opened for text or for bytes (CPython, `open(path, mode)`, in UTF-8): `TypeError` (`none`) for the other kind. -/
def realWrite (binary : Bool) (content : List UInt8) (c : Chunk) : Option (List UInt8) :=
  match binary, c with
  | false, .text t => some (content ++ utf8Bytes t)
  | true, .bytes b => some (content ++ b)
  | _, _ => none

/-- Several writes, until one raises: the content, and whether one raised. -/
def realWriteAll (binary : Bool) : List Chunk → List UInt8 → List UInt8 × Bool
  | [], content => (content, false)
  | c :: cs, content =>
    match realWrite binary content c with
    | none => (content, true)
    | some content' => realWriteAll binary cs content'

/-! ### `int_seed` (soil/utils.py:159-160) -/

/-- `int.from_bytes(b, "little")`. -/
def fromBytesLE : List UInt8 → Nat
  | [] => 0
  | b :: l => b.toNat + 256 * fromBytesLE l

/-- `int_seed(seed)`. -/
def intSeed (s : Str) : Nat := fromBytesLE (utf8Bytes s)

end Verif
