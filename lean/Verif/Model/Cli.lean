import Verif.Basic.Dict

/-!
# The command line (`main`, soil/__init__.py:30-272): from options to the settings of a simulation

`--set` is in `Verif.Model.Nested` (C67), the limits in `Verif.Model.Simulation` (C20), loading in `Verif.Model.Loading`.
-/

namespace Verif

/-- Values of settings. -/
inductive CliVal where
  | bool (b : Bool)
  | num (n : Int)
  | str (s : String)
  | strs (l : List String)
  | emptyDict
  | other (n : Nat)
deriving DecidableEq, Repr

/-- The options given on the command line, as parsed by `argparse` (soil/__init__.py:51-161); `none`: not given. -/
structure CliGiven where
  exporter : List String := []
  csv : Bool := false
  graph : Bool := false
  dryRun : Bool := false
  noDump : Bool := false
  debug : Bool := false
  level : Option Int := none
  output : Option String := none
  numProcesses : Option String := none
  seed : Option String := none
  iterations : Option Int := none
deriving DecidableEq, Repr

/-- The arguments of `main` (soil/__init__.py:30-39). -/
structure MainArgs where
  exporters : Option (List String) := none
  numProcesses : Int := 1
  output : Option String := some "soil_output"
  debug : Bool := false
  kwargs : Dict String CliVal := []
deriving DecidableEq, Repr

/-- `exporters` (soil/__init__.py:168-177): the exporters to use. -/
def cliExporters (m : MainArgs) (o : CliGiven) : List String :=
  let start := match m.exporters with
    | some (e :: l) => e :: l
    | _ => ["default"]
  let l := o.exporter.foldl (fun l e => if e ∈ l then l else l ++ [e]) start
  let l := if o.csv then l ++ ["csv"] else l
  if o.graph then l ++ ["gexf"] else l

/-- The list of the caller after the call: the list is changed in place, unless it was empty. -/
def exportersAfter (m : MainArgs) (o : CliGiven) : Option (List String) :=
  match m.exporters with
  | some (_ :: _) => some (cliExporters m o)
  | x => x

/-- `output` (soil/__init__.py:102, 183-184). -/
def cliOutdir (m : MainArgs) (o : CliGiven) : String :=
  match m.output with
  | some s => s
  | none => o.output.getD "soil_output"

/-- The value 20 of `logging.INFO`. -/
def infoLevel : Int := 20

/-- The settings that are always passed (soil/__init__.py:195-203). `--num-processes` has no `type`, so that it is a string. -/
def cliFixed (m : MainArgs) (o : CliGiven) : Dict String CliVal :=
  [("dry_run", .bool o.dryRun), ("dump", .bool (!o.noDump)), ("debug", .bool (m.debug || o.debug)),
    ("exporters", .strs (cliExporters m o)),
    ("num_processes", match o.numProcesses with
      | some s => .str s
      | none => .num m.numProcesses),
    ("level", .num (o.level.getD infoLevel)), ("outdir", .str (cliOutdir m o)), ("exporter_params", .emptyDict)]

/-- `opts` (soil/__init__.py:195-208); `none`: an argument of `main` is one of the fixed ones (`TypeError`). -/
def cliOpts (m : MainArgs) (o : CliGiven) : Option (Dict String CliVal) :=
  if m.kwargs.any (fun p => Dict.has (cliFixed m o) p.1) then none
  else
    let d := Dict.update (cliFixed m o) m.kwargs
    let d := match o.seed with
      | some s => Dict.set d "seed" (.str s)
      | none => d
    some (match o.iterations with
      | some n => Dict.set d "iterations" (.num n)
      | none => d)

/-- The settings of a simulation after they were applied: `setattr` for a simulation object (soil/__init__.py:212-213), `replace` for
one from a file (C96). -/
def cliApply (m : MainArgs) (o : CliGiven) (s : Dict String CliVal) : Option (Dict String CliVal) :=
  (cliOpts m o).map (Dict.update s)

end Verif
