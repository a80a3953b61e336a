import Verif.Basic.Dict
import Verif.Model.Nested

/-!
# Result files: backups (`soil/utils.py`) and the exporters of `soil/exporters.py`
-/

namespace Verif

/-! ### Files and backups -/

/-- A path: directory and name. -/
structure FilePath where
  dir : List Str
  base : Str
deriving DecidableEq, Repr

/-- A file: contents, and `os.path.getctime`, in seconds. -/
structure FileEntry where
  content : Str
  ctime : Nat
deriving DecidableEq, Repr

/-- The file system: files and directories. Simplifications: writing never fails for lack of space or permissions; no
directory has the path of a file. -/
structure Disk where
  files : Dict FilePath FileEntry
  dirs : List (List Str)
deriving DecidableEq, Repr

/-- `"backup"`. -/
def backupName : Str := "backup".toList

/-- The path of a backup (soil/utils.py:56-62); `stamp` is `strftime("%Y-%m-%d_%H.%M.%S", localtime(t))`. -/
def backupPath (stamp : Nat → Str) (p : FilePath) (t : Nat) : FilePath :=
  ⟨p.dir ++ [backupName], p.base ++ '@' :: stamp t⟩

/-- `os.makedirs` if the directory does not exist (parents are not modelled). -/
def Disk.mkdir (d : Disk) (dir : List Str) : Disk :=
  if dir ∈ d.dirs then d else { d with dirs := dir :: d.dirs }

/-- `try_backup(path, remove)` (soil/utils.py:50-67) at second `now`. Copies and moved files get a new `ctime`; an existing
file with the name of the backup is replaced. -/
def Disk.tryBackup (stamp : Nat → Str) (now : Nat) (p : FilePath) (remove : Bool) (d : Disk) : Disk :=
  match Dict.get? d.files p with
  | none => d
  | some e =>
    let d1 := d.mkdir (p.dir ++ [backupName])
    let base := if remove then Dict.del d1.files p else d1.files
    { d1 with files := Dict.set base (backupPath stamp p e.ctime) ⟨e.content, now⟩ }

/-- Contents of a file that may not exist. -/
def Disk.contentOf (d : Disk) (p : FilePath) : Str :=
  match Dict.get? d.files p with
  | none => []
  | some e => e.content

/-- `safe_open(path, mode, backup)` (soil/utils.py:70-76), writing `text` and closing the file. The modes used by soil are
"w", "wb" and "a". -/
def Disk.safeWrite (stamp : Nat → Str) (now : Nat) (p : FilePath) (mode : Str) (backup : Bool) (text : Str) (d : Disk) : Disk :=
  let d1 := d.mkdir p.dir
  let d2 := if backup && mode.contains 'w' then d1.tryBackup stamp now p false else d1
  let old := if mode.contains 'w' then [] else d2.contentOf p
  { d2 with files := Dict.set d2.files p ⟨old ++ text, now⟩ }

/-- Opening a database and appending to its tables (`create_engine`, `to_sql(..., if_exists="append")`). The contents are
modelled as a text to which rows are appended. The Boolean: an exception, when the directory does not exist. -/
def Disk.dbAppend (now : Nat) (p : FilePath) (rows : Str) (d : Disk) : Disk × Bool :=
  if p.dir ∈ d.dirs then ({ d with files := Dict.set d.files p ⟨d.contentOf p ++ rows, now⟩ }, false)
  else (d, true)

/-- `SQLite.sim_start` (soil/exporters.py:121-142), from the backup on. -/
def Disk.dbStart (stamp : Nat → Str) (now : Nat) (p : FilePath) (backup overwrite : Bool) (rows : Str) (d : Disk) :
    Disk × Bool :=
  let d1 := if backup then d.tryBackup stamp now p true else d
  let d2 := if overwrite then { d1 with files := Dict.del d1.files p } else d1
  d2.dbAppend now p rows

/-- What soil does to result files when backups are enabled. -/
inductive FileOp where
  | write (p : FilePath) (mode text : Str)
  | dbStart (p : FilePath) (overwrite : Bool) (rows : Str)
  | dbAppend (p : FilePath) (rows : Str)
deriving DecidableEq, Repr

/-- The file an operation is about. -/
def FileOp.path : FileOp → FilePath
  | .write p _ _ => p
  | .dbStart p _ _ => p
  | .dbAppend p _ => p

/-- One operation at second `now`. -/
def FileOp.exec (stamp : Nat → Str) (now : Nat) : FileOp → Disk → Disk
  | .write p mode text, d => d.safeWrite stamp now p mode true text
  | .dbStart p overwrite rows, d => (d.dbStart stamp now p true overwrite rows).1
  | .dbAppend p rows, d => (d.dbAppend now p rows).1

/-- A history: operations with their seconds. -/
def runFiles (stamp : Nat → Str) : List (Nat × FileOp) → Disk → Disk
  | [], d => d
  | (now, op) :: rest, d => runFiles stamp rest (op.exec stamp now d)

/-! ### `open_or_reuse` -/

/-- Exceptions of a block, by class. -/
inductive BlockExn where
  | attributeError
  | typeError
  | runtimeError
  | other (n : Nat)
deriving DecidableEq, Repr

/-- `with open_or_reuse(f) as g: body` (soil/utils.py:79-85), for a path (`reuse = false`) or something that is no path, such
as a `DryRunner` (`reuse = true`: `safe_open` raises `TypeError` before the block). `body` is how the block ends. A generator
that yields again after an exception has been thrown into it makes `contextmanager` raise `RuntimeError`. -/
def openOrReuse (reuse : Bool) (body : Option BlockExn) : Option BlockExn :=
  if reuse then body
  else match body with
    | some .attributeError => some .runtimeError
    | some .typeError => some .runtimeError
    | r => r

/-! ### Exporters -/

/-- What exporters know of their simulation (soil/exporters.py:53-61): `outdir` is the directory of the simulation; `dump` is
`simulation.dump and not simulation.dry_run` (soil/simulation.py:148). -/
structure ExportCtx where
  outdir : List Str
  name : Str
  id : Str
  dump : Bool
  backup : Bool
  overwrite : Bool
  configRow : Str
  yaml : Str
deriving DecidableEq, Repr

/-- What exporters see of an environment: its id, its data frames (name and text), the rows of its parameters, its graph. -/
structure ExportEnv where
  id : Str
  frames : List (Str × Str)
  paramRows : Str
  graph : Str
deriving DecidableEq, Repr

/-- The world of the exporters: the disk, and what has been written to `copy_to` (standard output). -/
structure ExportWorld where
  disk : Disk
  copied : List (Str × Str)
deriving DecidableEq, Repr

/-- `with self.output(f, mode) as f: f.write(text)` (soil/exporters.py:78-87 and `DryRunner`, 19-44); `f` is a name without
directory. -/
def ExportCtx.output (c : ExportCtx) (stamp : Nat → Str) (now : Nat) (f mode text : Str) (w : ExportWorld) : ExportWorld :=
  if c.dump then { w with disk := w.disk.safeWrite stamp now ⟨c.outdir, f⟩ mode c.backup text }
  else { w with copied := w.copied ++ [(f, text)] }

/-- Exporters of soil, except `default`. -/
inductive BasicExporter where
  | sqlite | csv | gexf | dummy | graphdrawing | summary | yaml
deriving DecidableEq, Repr

/-- Calls of `Simulation` (soil/simulation.py:154-170); nothing calls `iteration_start`. -/
inductive ExportHook where
  | simStart
  | iterationStart
  | iterationEnd (env : ExportEnv)
  | simEnd
deriving DecidableEq, Repr

/-- The path of the database (soil/exporters.py:128). -/
def ExportCtx.dbPath (c : ExportCtx) : FilePath := ⟨c.outdir, c.name ++ ".sqlite".toList⟩

/-- The methods of the exporters (soil/exporters.py:117-262). Simplifications: one hook happens within one second; time stamps
in the text of `dummy` are the seconds; plotting and formatting (matplotlib, pandas) succeed. The Boolean: an exception. -/
def BasicExporter.hook (c : ExportCtx) (stamp : Nat → Str) (now : Nat) : BasicExporter → ExportHook → ExportWorld →
    ExportWorld × Bool
  | .sqlite, .simStart, w =>
    if c.dump then
      let r := w.disk.dbStart stamp now c.dbPath c.backup c.overwrite c.configRow
      ({ w with disk := r.1 }, r.2)
    else (w, false)
  | .sqlite, .iterationEnd env, w =>
    if c.dump then
      let r := w.disk.dbAppend now c.dbPath (env.paramRows ++ env.frames.flatMap Prod.snd)
      ({ w with disk := r.1 }, r.2)
    else (w, false)
  | .csv, .iterationEnd env, w =>
    (env.frames.foldl (fun w nf => c.output stamp now (env.id ++ '.' :: nf.1 ++ ".csv".toList) ['a'] nf.2 w) w, false)
  | .gexf, .iterationEnd env, w =>
    if c.dump then (c.output stamp now (env.id ++ ".gexf".toList) ['w', 'b'] env.graph w, false) else (w, false)
  | .dummy, .simStart, w =>
    (c.output stamp now "dummy".toList ['w'] ("simulation started @ " ++ toString now ++ "\n").toList w, false)
  | .dummy, .iterationStart, w =>
    (c.output stamp now "dummy".toList ['w'] ("iteration started@ " ++ toString now ++ "\n").toList w, false)
  | .dummy, .iterationEnd _, w =>
    (c.output stamp now "dummy".toList ['w'] ("iteration ended@ " ++ toString now ++ "\n").toList w, false)
  | .dummy, .simEnd, w =>
    (c.output stamp now "dummy".toList ['a'] ("simulation ended @ " ++ toString now ++ "\n").toList w, false)
  -- `open("graph-....png")` opens for reading: `FileNotFoundError`, or else `f.savefig(f)` on a file: `AttributeError`
  | .graphdrawing, .iterationEnd _, w => (w, true)
  | .yaml, .simStart, w =>
    if c.dump then (c.output stamp now (c.id ++ ".dumped.yml".toList) ['w'] c.yaml w, false) else (w, false)
  | _, _, w => (w, false)

/-- All exporters: `default` has a list of inner exporters, `[YAML, SQLite]` unless told otherwise (soil/exporters.py:265-282;
it has no `iteration_start` of its own). -/
inductive SoilExporter where
  | basic (e : BasicExporter)
  | default (inner : List BasicExporter)
deriving DecidableEq, Repr

/-- One exporter after the other, until an exception. -/
def hookAll (c : ExportCtx) (stamp : Nat → Str) (now : Nat) (h : ExportHook) : List BasicExporter → ExportWorld →
    ExportWorld × Bool
  | [], w => (w, false)
  | e :: es, w =>
    let r := e.hook c stamp now h w
    if r.2 then r else hookAll c stamp now h es r.1

/-- A method of any exporter. -/
def SoilExporter.hook (c : ExportCtx) (stamp : Nat → Str) (now : Nat) (h : ExportHook) : SoilExporter → ExportWorld →
    ExportWorld × Bool
  | .basic e, w => e.hook c stamp now h w
  | .default inner, w => if h = .iterationStart then (w, false) else hookAll c stamp now h inner w

/-- Any sequence of calls, until an exception. -/
def runHooks (c : ExportCtx) (stamp : Nat → Str) : List (Nat × SoilExporter × ExportHook) → ExportWorld → ExportWorld × Bool
  | [], w => (w, false)
  | (now, e, h) :: rest, w =>
    let r := e.hook c stamp now h w
    if r.2 then r else runHooks c stamp rest r.1

end Verif
