import Verif.Model.Data
import Mathlib.Data.List.Sort

/-!
# `agent_df`: the data of agents as a table
-/

namespace Verif

variable {S A : Type}

/-- The first level of the index of mesa's `get_agent_vars_dataframe`: the step numbers that occur in some row, sorted (pandas
factorises an index into sorted levels). -/
def stepLevels {R : Type} (recs : Dict Nat (List R)) : List Nat :=
  ((recs.filter (fun p => !p.2.isEmpty)).map Prod.fst).insertionSort (· ≤ ·)

/-- `BaseEnvironment.agent_df()` (soil/environment.py:125-132): the rows of all records (step numbers in order of insertion), where
the levels of the index are replaced by the column `time` of the model data: the `j`-th level by the `j`-th value. `none` when it
raises: without agent reporters (`UserWarning` of mesa), without any row (pandas then makes an index without levels), without a
column `time`, and when the new levels are too few or not distinct (`set_levels` of pandas checks that). -/
def agentDf (c : Collector S A) : Option (List (RVal × A × List RVal)) :=
  if c.agentReporters.isEmpty then none
  else
    let rows := c.agentRecords.flatMap (fun p => p.2.map (fun r => (p.1, r)))
    if rows.isEmpty then none
    else match Dict.get? c.modelVars "time" with
      | none => none
      | some labels =>
        let levels := stepLevels c.agentRecords
        if levels.length ≤ labels.length ∧ labels.Nodup then
          rows.mapM (fun kr => (labels[levels.idxOf kr.1]?).map (fun l => (l, kr.2)))
        else none

/-- Data is collected in each of the states, one after another. The Boolean tells whether an exception escaped. -/
def collectSeq (ob : Observed S A) (c : Collector S A) : List S → Collector S A × Bool
  | [] => (c, false)
  | s :: ss =>
    let r := c.collect ob s
    if r.2 then r else collectSeq ob r.1 ss

end Verif
