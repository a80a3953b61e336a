import Verif.Model.Frames

/-!
# Drawing: `plot` (soil/analysis.py) and the page for notebooks (soil/visualization.py)
-/

namespace Verif

variable {S A : Type}

/-- A data frame of the model: its index and its columns. -/
structure MFrame where
  index : List RVal
  cols : Dict String (List RVal)
deriving DecidableEq, Repr

/-- mesa `get_model_vars_dataframe`: `pd.DataFrame(self.model_vars)`, which raises (`none`) if the columns have different lengths. The index
counts the rows. -/
def modelVarsFrame (c : Collector S A) : Option MFrame :=
  match c.modelVars with
  | [] => some ⟨[], []⟩
  | (k, l) :: vars =>
    if vars.all (fun v => v.2.length == l.length) then some ⟨(List.range l.length).map (fun i : Nat => .num (.fin i)), (k, l) :: vars⟩ else none

/-- `BaseEnvironment.model_df` (soil/environment.py:134-139): with `steps=False` the index becomes the column `step` (an exception if there
is one), and the column `time` becomes the index (an exception if there is none). -/
def modelDf (c : Collector S A) (steps : Bool) : Option MFrame :=
  match modelVarsFrame c with
  | none => none
  | some df =>
    if steps then some df
    else if Dict.has df.cols "step" then none
    else match Dict.get? df.cols "time" with
      | none => none
      | some t => some ⟨t, ("step", df.index) :: Dict.del df.cols "time"⟩

/-- `df.drop(names, axis="columns")`: an exception if one of them is not a column. -/
def MFrame.drop (df : MFrame) (names : List String) : Option MFrame :=
  if names.all (fun n => Dict.has df.cols n) then some { df with cols := df.cols.filter (fun c => decide (c.1 ∉ names)) } else none

/-- A column that pandas takes for numbers (`None` becomes `NaN`). -/
def numericCol (l : List RVal) : Bool :=
  l.any (fun v => match v with | .num _ => true | _ => false) && l.all (fun v => match v with | .obj _ => false | _ => true)

/-- `df.plot()`: the numeric columns are drawn; without any it raises `TypeError`. -/
def MFrame.plot (df : MFrame) : Option MFrame :=
  if df.cols.any (fun c => numericCol c.2) then some { df with cols := df.cols.filter (fun c => numericCol c.2) } else none

/-- `agent_df.unstack().apply(lambda x: x.value_counts(), axis=1).fillna(0)` (soil/analysis.py:25-26): for a time and a value, how often the
value occurs in the rows of that time, in all columns; `None` is not counted. -/
def valueCount (rows : List (RVal × A × List RVal)) (t v : RVal) : Nat :=
  if v = .none then 0 else ((rows.filter (fun r => decide (r.1 = t))).flatMap (fun r => r.2.2)).count v

/-- What is drawn: the columns of the model; for the agents the rows that are counted, if there are any. -/
structure Drawn (A : Type) where
  model : MFrame
  agents : Option (List (RVal × A × List RVal))

/-- `plot(env, steps=steps, ignore=ignore)` (soil/analysis.py:7-27), with the data frames of the environment. `none`: an exception. Without
agent reporters mesa raises `UserWarning`, which is caught; other exceptions of `agent_df` are not. `unstack` raises if a time and an agent
occur twice. -/
def plotEnv [DecidableEq A] (c : Collector S A) (steps : Bool) (ignore : List String) : Option (Drawn A) :=
  match modelDf c false with
  | none => none
  | some df => match df.drop (ignore ++ [if steps then "time" else "step"]) with
    | none => none
    | some df => match df.plot with
      | none => none
      | some m =>
        if c.agentReporters.isEmpty then some ⟨m, none⟩
        else match agentDf c with
          | none => none
          | some rows => if (rows.map (fun r => (r.1, r.2.1))).Nodup then some ⟨m, some rows⟩ else none

/-! ## The page -/

/-- A parameter given to the page: fixed, or with an input element (a dictionary with `type`) and its initial value. -/
inductive PageParam (V : Type) where
  | fixed (v : V)
  | user (value : V)

/-- mesa `split_model_params`, second result. -/
def fixedParams {V : Type} (ps : Dict String (PageParam V)) : Dict String V :=
  ps.filterMap (fun p => match p.2 with | .fixed v => some (p.1, v) | .user _ => none)

/-- mesa `split_model_params`, first result, with the initial values. -/
def userParams {V : Type} (ps : Dict String (PageParam V)) : Dict String V :=
  ps.filterMap (fun p => match p.2 with | .user v => some (p.1, v) | .fixed _ => none)

/-- The state of a page: the parameters (`solara.use_state`), the number of resets, what `solara.use_memo` remembers (dependencies and the
model), `controller.model`, and how many models were made. A model is its number and the parameters it was made with. -/
structure Page (V : Type) where
  params : Dict String V
  resets : Nat
  memo : Option ((List V × Nat) × (Nat × Dict String V))
  controller : Option (Nat × Dict String V)
  made : Nat

/-- `JupyterPage` up to `use_memo` (soil/visualization.py:57-78): a model is made if a value or the number of resets has changed. -/
def Page.render {V : Type} [DecidableEq V] (p : Page V) : Page V :=
  let deps := (p.params.map Prod.snd, p.resets)
  let make : Page V := { p with memo := some (deps, (p.made, p.params)), controller := some (p.made, p.params), made := p.made + 1 }
  match p.memo with
  | none => make
  | some m => if m.1 = deps then p else make

/-- The page before it is rendered (soil/visualization.py:63-66). -/
def pageInit {V : Type} (ps : Dict String (PageParam V)) : Page V := ⟨Dict.update (fixedParams ps) (userParams ps), 0, none, none, 0⟩

/-- What the user does: change a parameter (`handle_change_model_params`, soil/visualization.py:80-81), reset; or the page is rendered for
another reason (a step). -/
inductive PageEv (V : Type) where
  | change (name : String) (v : V)
  | reset
  | redraw

/-- An event, and the page is rendered again. -/
def Page.on {V : Type} [DecidableEq V] (p : Page V) : PageEv V → Page V
  | .change n v => ({ p with params := Dict.set p.params n v } : Page V).render
  | .reset => ({ p with resets := p.resets + 1 } : Page V).render
  | .redraw => p.render

/-- A measure: a callable, or the name of a reporter. -/
inductive Measure where
  | callable (n : Nat)
  | name (s : String)
deriving DecidableEq, Repr

/-- The argument `space_drawer`: the default, a function, or `False`. -/
inductive SpaceDrawer where
  | default
  | drawer (n : Nat)
  | off
deriving DecidableEq, Repr

/-- What is drawn of a model (its number). -/
inductive Element where
  | space (model : Nat)
  | custom (drawer model : Nat)
  | call (measure model : Nat)
  | plot (name : String) (model : Nat)
deriving DecidableEq, Repr

/-- The rest of `JupyterPage` (soil/visualization.py:92-110): the space and the measures of the model of `use_memo`; `none`: an exception
(`None` cannot be iterated, and there is no model before the page is rendered). -/
def Page.draw {V : Type} (p : Page V) (space : SpaceDrawer) (measures : Option (List Measure)) : Option (List Element) :=
  match p.memo, measures with
  | some m, some ms =>
    some ((match space with | .default => [.space m.2.1] | .drawer n => [.custom n m.2.1] | .off => []) ++
      ms.map (fun x => match x with | .callable n => .call n m.2.1 | .name s => .plot s m.2.1))
  | _, _ => none

end Verif
