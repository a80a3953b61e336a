import Verif.Basic.Dict

/-!
# The database of results (soil/exporters.py: `SQLite`) and reading it back (soil/analysis.py)

A table is its columns and its rows; a row is a dictionary from columns to values (a missing one is NULL). pandas' `to_sql` and
`read_sql_table` are modelled as far as they are used here. The types of columns are left out, and so is that SQLite ignores the case of
names. Paths are lists of characters.
-/

namespace Verif

/-- A value in a table: a text, or anything else (numbered). -/
inductive DbCell where
  | text (s : String)
  | other (n : Nat)
deriving DecidableEq, Repr

/-- A row of a table or of a data frame. -/
abbrev DbRow := Dict String DbCell

/-- A table. -/
structure DbTable where
  cols : List String
  rows : List DbRow
deriving DecidableEq, Repr

/-- A database. -/
abbrev Database := Dict String DbTable

/-- A data frame: the names of the levels of its index, its columns, its rows (with the values of the index). -/
structure DFrameDb where
  idx : List String
  cols : List String
  rows : List DbRow
deriving DecidableEq, Repr

/-- `df.to_sql(t, if_exists="append")`: the levels of the index become columns. `none`: an exception, if a name occurs twice, or if
columns are missing in an existing table. Without rows nothing is inserted. -/
def Database.toSql (db : Database) (t : String) (f : DFrameDb) : Option Database :=
  if ¬ (f.idx ++ f.cols).Nodup then none
  else match Dict.get? db t with
    | none => some (Dict.set db t ⟨f.idx ++ f.cols, f.rows⟩)
    | some tb =>
      if f.rows = [] then some db
      else if (f.idx ++ f.cols).all (fun c => decide (c ∈ tb.cols)) then some (Dict.set db t ⟨tb.cols, tb.rows ++ f.rows⟩)
      else none

/-- What a finished iteration has: its parameters (serialized), the identifiers, and what its collector has recorded: names of the model
reporters and one row for each step; names of the agent reporters and one row for each step and agent; the user's tables. -/
structure DbJob where
  params : Dict String DbCell
  pid : String
  iid : String
  reps : List String
  recs : List (Nat × DbRow)
  areps : List String
  arecs : List (Nat × Nat × DbRow)
  tables : Dict String (List String × List DbRow)

/-- `for (k, v) in kwargs.items(): df[k] = v` (soil/exporters.py:110-111): columns with constant values; existing ones are overwritten. -/
def tagRow (sid : String) (j : DbJob) (r : DbRow) : DbRow :=
  Dict.set (Dict.set (Dict.set r "simulation_id" (.text sid)) "iteration_id" (.text j.iid)) "params_id" (.text j.pid)

/-- The columns that remain when `simulation_id` and `iteration_id` have moved to the index (soil/exporters.py:112). -/
def tagCols (cols : List String) : List String :=
  (if "params_id" ∈ cols then cols else cols ++ ["params_id"]).filter (fun c => c ≠ "simulation_id" && c ≠ "iteration_id")

/-- The frame `env` (soil/exporters.py:98-100, 109-112). -/
def DbJob.envFrame (sid : String) (j : DbJob) : DFrameDb :=
  ⟨["step", "simulation_id", "iteration_id"], tagCols j.reps,
    j.recs.map (fun r => Dict.set (tagRow sid j r.2) "step" (.other r.1))⟩

/-- The frame `agents` (soil/exporters.py:101-106, 109-112). -/
def DbJob.agentFrame (sid : String) (j : DbJob) : DFrameDb :=
  ⟨["step", "agent_id", "simulation_id", "iteration_id"], tagCols j.areps,
    j.arecs.map (fun r => Dict.set (Dict.set (tagRow sid j r.2.2) "step" (.other r.1)) "agent_id" (.other r.2.1))⟩

/-- The frame of a table of the user (soil/exporters.py:107-112). -/
def DbJob.tableFrame (sid : String) (j : DbJob) (cols : List String) (rows : List DbRow) : DFrameDb :=
  ⟨["level_0", "simulation_id", "iteration_id"], tagCols cols,
    rows.zipIdx.map (fun r => Dict.set (tagRow sid j r.1) "level_0" (.other r.2))⟩

/-- `get_dc_dfs` (soil/exporters.py:96-114): a dictionary of frames, so that a table of the user called `env` replaces the frame `env`.
Without agent reporters there is no frame `agents` (mesa raises `UserWarning`). Simplification: with agent reporters but without a single row (there
never was an agent) pandas makes an index with one level, and renaming it raises; here the frame is empty. -/
def DbJob.frames (sid : String) (j : DbJob) : Dict String DFrameDb :=
  let dfs : Dict String DFrameDb := [("env", j.envFrame sid)]
  let dfs := if j.areps = [] then dfs else Dict.set dfs "agents" (j.agentFrame sid)
  Dict.update dfs (j.tables.map (fun t => (t.1, j.tableFrame sid t.2.1 t.2.2)))

/-- The frame of the parameters (soil/exporters.py:153-157); without parameters it has no columns. -/
def DbJob.paramFrame (sid : String) (j : DbJob) : DFrameDb :=
  ⟨["index"], if j.params = [] then [] else ["simulation_id", "params_id", "iteration_id", "key", "value"],
    j.params.zipIdx.map (fun kv => [("index", .other kv.2), ("simulation_id", .text sid), ("params_id", .text j.pid),
      ("iteration_id", .text j.iid), ("key", .text kv.1.1), ("value", kv.1.2)])⟩

/-- Write several frames. -/
def Database.toSqlAll (db : Database) : List (String × DFrameDb) → Option Database
  | [] => some db
  | (t, f) :: fs => match db.toSql t f with
    | none => none
    | some db => db.toSqlAll fs

/-- `SQLite.iteration_end` (soil/exporters.py:144-160). -/
def Database.dumpJob (sid : String) (db : Database) (j : DbJob) : Option Database :=
  db.toSqlAll (("parameters", j.paramFrame sid) :: j.frames sid)

/-- `SQLite.sim_start` (soil/exporters.py:139-142): one row with the fields of the simulation (`conf`). -/
def Database.dumpConfig (sid : String) (conf : DbRow) (db : Database) : Option Database :=
  db.toSql "configuration" ⟨["index"], Dict.keys (Dict.set conf "simulation_id" (.text sid)),
    [Dict.set (Dict.set conf "simulation_id" (.text sid)) "index" (.other 0)]⟩

/-- All iterations. -/
def Database.dumpJobs (sid : String) (db : Database) : List DbJob → Option Database
  | [] => some db
  | j :: js => match db.dumpJob sid j with
    | none => none
    | some db => db.dumpJobs sid js

/-- A simulation with the exporter `SQLite`. -/
def Database.dump (sid : String) (conf : DbRow) (jobs : List DbJob) (db : Database) : Option Database :=
  match db.dumpConfig sid conf with
  | none => none
  | some db => db.dumpJobs sid jobs

/-- A simulation that is run: its id, its fields, its iterations. -/
structure DbSim where
  sid : String
  conf : DbRow
  jobs : List DbJob

/-- Several simulations, one after the other, into the same file (without `overwrite` and `backup`); the same simulation may be run twice. -/
def Database.dumpSims (db : Database) : List DbSim → Option Database
  | [] => some db
  | s :: ss => match db.dump s.sid s.conf s.jobs with
    | none => none
    | some db => db.dumpSims ss

/-- What goes wrong when a table is read: it does not exist (`ValueError`), or a column for the index does not (`KeyError`). -/
inductive ReadErr where
  | noTable
  | noColumn
deriving DecidableEq, Repr

/-- `pd.read_sql_table(t, index_col=idx)`. -/
def Database.readTable (db : Database) (t : String) (idx : List String) : Except ReadErr (List DbRow) :=
  match Dict.get? db t with
  | none => .error .noTable
  | some tb => if idx.all (fun c => decide (c ∈ tb.cols)) then .ok tb.rows else .error .noColumn

/-- The index and the column of a row of the table `parameters`. -/
def pivotKey (r : DbRow) : Option DbCell × Option DbCell × Option DbCell × Option DbCell :=
  (Dict.get? r "iteration_id", Dict.get? r "params_id", Dict.get? r "simulation_id", Dict.get? r "key")

/-- `parameters.pivot(columns="key", values="value")`: one row for each index, one column for each key. `none`: an exception, if an index
and a key occur twice. -/
def pivotRows (rows : List DbRow) : Option (Dict (Option DbCell × Option DbCell × Option DbCell × Option DbCell) (Option DbCell)) :=
  if (rows.map pivotKey).Nodup then some (rows.map (fun r => (pivotKey r, Dict.get? r "value"))) else none

/-- `Results` (soil/analysis.py:30). The parameters: pivoted, or as they are in the table. -/
structure DbResults where
  config : List DbRow
  pivot : Option (Dict (Option DbCell × Option DbCell × Option DbCell × Option DbCell) (Option DbCell))
  params : List DbRow
  env : List DbRow
  agents : List DbRow

/-- `read_sql` from the engine on (soil/analysis.py:42-57). `include_agents` is not looked at. If the pivot fails a warning is printed. -/
def Database.readSql (db : Database) : Except ReadErr DbResults := do
  let env ← db.readTable "env" ["step", "simulation_id", "params_id", "iteration_id"]
  let agents ← db.readTable "agents" ["simulation_id", "params_id", "iteration_id", "step", "agent_id"]
  let config ← db.readTable "configuration" ["simulation_id"]
  let params ← db.readTable "parameters" ["iteration_id", "params_id", "simulation_id"]
  .ok ⟨config, pivotRows params, params, env, agents⟩

/-! ## Which file -/

/-- `os.path.join(a, b)` (posixpath). -/
def dbJoinPath (a b : List Char) : List Char :=
  if b.head? = some '/' then b
  else if a = [] ∨ a.getLast? = some '/' then a ++ b
  else a ++ '/' :: b

/-- `str.split("/")`: the parts between the slashes, after the characters `cur`. -/
def splitSlash : List Char → List Char → List (List Char)
  | cur, [] => [cur]
  | cur, c :: cs => if c = '/' then cur :: splitSlash [] cs else splitSlash (cur ++ [c]) cs

/-- The loop of `os.path.normpath` (posixpath) over the parts; `abs`: the path begins with a slash. `acc` is reversed. -/
def normParts (abs : Bool) : List (List Char) → List (List Char) → List (List Char)
  | acc, [] => acc.reverse
  | acc, p :: ps =>
    if p = [] ∨ p = ['.'] then normParts abs acc ps
    else if p = ['.', '.'] then
      match acc with
      | [] => if abs then normParts abs [] ps else normParts abs [p] ps
      | q :: acc' => if q = ['.', '.'] then normParts abs (p :: q :: acc') ps else normParts abs acc' ps
    else normParts abs (p :: acc) ps

/-- `"/".join(parts)`. -/
def joinSlash : List (List Char) → List Char
  | [] => []
  | [p] => p
  | p :: q :: ps => p ++ '/' :: joinSlash (q :: ps)

/-- `os.path.normpath` (posixpath): exactly two slashes at the beginning are kept. -/
def normPath (p : List Char) : List Char :=
  if p = [] then ['.']
  else
    let slashes := if p.head? = some '/' then
        (if (p.drop 1).head? = some '/' ∧ (p.drop 2).head? ≠ some '/' then ['/', '/'] else ['/'])
      else []
    let r := slashes ++ joinSlash (normParts (decide (slashes ≠ [])) [] (splitSlash [] p))
    if r = [] then ['.'] else r

/-- `os.path.abspath`. -/
def absPath (cwd p : List Char) : List Char :=
  normPath (if p.head? = some '/' then p else dbJoinPath cwd p)

/-- What `read_sql` opens (soil/analysis.py:34-42): an SQLite file, a URL; or it raises. -/
inductive Opened where
  | file (p : List Char)
  | url (u : List Char)
  | valueError
  | typeError
deriving DecidableEq, Repr

/-- Lines 34-42 of soil/analysis.py. -/
def readTarget (cwd : List Char) (fpath name : Option (List Char)) : Opened :=
  if fpath.isNone == name.isNone then .valueError
  else
    let fpath := match name with
      | some n => if n = [] then fpath else
        some (dbJoinPath (dbJoinPath "soil_output".toList n) (n ++ ".sqlite".toList))
      | none => fpath
    match fpath with
    | none => .typeError
    | some p =>
      let p := absPath cwd p
      if [':', '/', '/'] <:+: p then .url p else .file p

/-- The file that the exporter writes (soil/exporters.py:53-56, 128): `outdir`, `group` and `name` of the simulation. -/
def dbFile (cwd : List Char) (outdir group : Option (List Char)) (name : List Char) : List Char :=
  let out := match outdir with
    | some o => if o = [] then dbJoinPath cwd "soil_output".toList else o
    | none => dbJoinPath cwd "soil_output".toList
  dbJoinPath (dbJoinPath (dbJoinPath out (group.getD [])) name) (name ++ ".sqlite".toList)

end Verif
