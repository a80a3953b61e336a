import Verif.Model.Results
import Verif.Props.Frames
import Verif.Props.Database
import Verif.Props.ParamsId
import Verif.Props.Simulation

/-!
# C227: what is read from the database of a simulation is the history of each iteration
-/

namespace Verif

variable {S A : Type}

/-! ### Running -/

theorem dataStep_state (st : Stepper S) (ob : Observed S A) (regs : S → List (Reg S A)) (e : DataEnv S A) :
    (e.step st ob regs).1.state = (st.step e.state).1 := by
  unfold DataEnv.step
  simp only
  split <;> rfl

theorem dataIter_state (st : Stepper S) (ob : Observed S A) (regs : S → List (Reg S A)) (n : Nat) (e : DataEnv S A) :
    (iterStep (dataStepper st ob regs) n e).state = iterStep st n e.state := by
  induction n generalizing e with
  | zero => rfl
  | succ n ih =>
    show (iterStep (dataStepper st ob regs) n (e.step st ob regs).1).state = _
    rw [ih, dataStep_state]
    rfl

theorem dataIter_steps (st : Stepper S) (ob : Observed S A) (regs : S → List (Reg S A)) (n : Nat) (e : DataEnv S A)
    (h : ∀ j < n, ((iterStep (dataStepper st ob regs) j e).step st ob regs).2 = false) :
    e.steps st ob regs n = (iterStep (dataStepper st ob regs) n e, false) := by
  induction n generalizing e with
  | zero => rfl
  | succ n ih =>
    have h0 : (e.step st ob regs).2 = false := h 0 (by omega)
    simp only [DataEnv.steps, h0, Bool.false_eq_true, if_false]
    exact ih _ (fun j hj => h (j + 1) (by omega))

theorem dataIsDone (st : Stepper S) (ob : Observed S A) (regs : S → List (Reg S A)) (mt : Option Time) (ms : Option Nat) (e : DataEnv S A) :
    isDone (dataStepper st ob regs) mt ms e = isDone st mt ms e.state := by
  cases mt <;> cases ms <;> rfl

/-- When is a state the last one, with the limits of a simulation? -/
def Sim.isDoneAt (s : Sim) (st : Stepper S) (x : S) : Bool := isDone st (s.maxTime.map Time.fin) (s.maxSteps.map fun r => r.ceil.toNat) x

/-- An iteration that returns is a number of steps, each followed by a collection. -/
theorem envRun_done (m : EnvModel S A) (s : Sim) (fuel : Nat) (e : DataEnv S A) (h : m.run s fuel = .done e) :
    m.start.2 = false ∧ ∃ n, m.start.1.steps m.st m.ob m.regs n = (e, false) ∧ s.isDoneAt m.st (iterStep m.st n m.state) = true ∧
      ∀ j < n, s.isDoneAt m.st (iterStep m.st j m.state) = false := by
  unfold EnvModel.run at h
  split at h
  · cases h
  · rename_i h0
    refine ⟨by simpa using h0, ?_⟩
    unfold Sim.runEnv runModel at h
    split at h
    · cases h
    · obtain ⟨n, h1, h2, h3⟩ := runLoop_done _ _ _ h
      have hs : m.start.1.state = m.state := rfl
      refine ⟨n, ?_, ?_, ?_⟩
      · rw [dataIter_steps _ _ _ _ _ (fun j hj => (h3 j hj).2), h1]
      · rw [h1, dataIsDone, dataIter_state, hs] at h2
        exact h2
      · intro j hj
        have := (h3 j hj).1
        rw [dataIsDone, dataIter_state, hs] at this
        exact this

/-! ### The frame of the model -/

theorem get?_mapVal {V V' : Type} (f : V → V') (d : Dict String V) (k : String) :
    Dict.get? (d.map (fun kv => (kv.1, f kv.2))) k = (Dict.get? d k).map f := by
  induction d with
  | nil => rfl
  | cons kv d ih =>
    simp only [List.map_cons, Dict.get?]
    split
    · rfl
    · exact ih

theorem frameRecs_column (cell : RVal → DbCell) (c : Collector S A) (f : MFrame) (hf : modelVarsFrame c = some f) (name : String) (l : List RVal)
    (hl : Dict.get? c.modelVars name = some l) :
    (frameRecs cell f).map (fun x => (x.1, Dict.get? x.2 name)) = (List.range l.length).map (fun i => (i, (l[i]?).map cell)) := by
  have hlen : f.index.length = l.length ∧ f.cols = c.modelVars := by
    unfold modelVarsFrame at hf
    cases hv : c.modelVars with
    | nil => rw [hv] at hl; cases hl
    | cons kl vars =>
      rw [hv] at hf hl
      simp only at hf
      split at hf
      · rename_i hall
        cases hf
        refine ⟨?_, rfl⟩
        simp only [List.length_map, List.length_range]
        rcases List.mem_cons.1 (Dict.get?_mem hl) with h | h
        · cases h; rfl
        · have := List.all_eq_true.1 hall _ h
          exact (eq_of_beq this).symm
      · cases hf
  unfold frameRecs
  rw [List.map_map, hlen.1, hlen.2]
  refine List.map_congr_left ?_
  intro i hi
  have hi' : i < l.length := List.mem_range.1 hi
  simp only [Function.comp, get?_mapVal (fun l : List RVal => cell (l[i]?.getD .none)), hl, Option.map_some]
  rw [List.getElem?_eq_getElem hi']
  rfl

/-! ### The records of agents -/

/-- Is something registered for agents? -/
def Reg.isAgent : Reg S A → Bool
  | .model _ _ => false
  | .agent _ _ => true

theorem registerAll_agents (rs : List (Reg S A)) (c : Collector S A) (h : ∀ r ∈ rs, r.isAgent = false) :
    (rs.foldl Collector.register c).agentReporters = c.agentReporters := by
  induction rs generalizing c with
  | nil => rfl
  | cons r rs ih =>
    rw [List.foldl_cons, ih _ (fun r' hr' => h r' (by simp [hr']))]
    cases r with
    | model n f => rfl
    | agent n f => have := h (.agent n f) (by simp); cases this

theorem registerAll_records (rs : List (Reg S A)) (c : Collector S A) : (rs.foldl Collector.register c).agentRecords = c.agentRecords := by
  induction rs generalizing c with
  | nil => rfl
  | cons r rs ih =>
    rw [List.foldl_cons, ih]
    cases r <;> rfl

theorem steps_records (st : Stepper S) (ob : Observed S A) (regs : S → List (Reg S A)) (n : Nat) (e : DataEnv S A)
    (hne : e.dc.agentReporters ≠ [])
    (hregs : ∀ i < n, ∀ r ∈ regs (iterStep st i e.state), r.isAgent = false)
    (hlt : ∀ k ∈ Dict.keys e.dc.agentRecords, k ≤ ob.key e.state)
    (hinc : ∀ i < n, ob.key (iterStep st i e.state) < ob.key (iterStep st (i + 1) e.state))
    (hok : (e.steps st ob regs n).2 = false) :
    ∃ recs, ((statesUpTo st e.state n).tail).map (recordAgents ob e.dc.agentReporters) = recs.map some ∧
      (e.steps st ob regs n).1.dc.agentRecords = e.dc.agentRecords ++ (((statesUpTo st e.state n).tail).map ob.key).zip recs ∧
      (e.steps st ob regs n).1.dc.agentReporters = e.dc.agentReporters := by
  induction n generalizing e with
  | zero => exact ⟨[], rfl, by simp [DataEnv.steps], rfl⟩
  | succ n ih =>
    simp only [DataEnv.steps] at hok ⊢
    by_cases hs : (e.step st ob regs).2 = true
    · rw [if_pos hs, hs] at hok; cases hok
    · rw [if_neg hs] at hok ⊢
      have hstep : (((regs e.state).foldl Collector.register e.dc).collect ob (st.step e.state).1).2 = false ∧
          (e.step st ob regs).1 = ⟨(st.step e.state).1,
            (((regs e.state).foldl Collector.register e.dc).collect ob (st.step e.state).1).1⟩ := by
        unfold DataEnv.step at hs ⊢
        simp only at hs ⊢
        by_cases hx : (st.step e.state).2 = true
        · rw [if_pos hx] at hs; exact absurd rfl hs
        · rw [if_neg hx] at hs ⊢
          exact ⟨by simpa using hs, rfl⟩
      obtain ⟨hc, heq⟩ := hstep
      have hra := registerAll_agents (regs e.state) e.dc (hregs 0 (by omega))
      obtain ⟨rec, r1, r2⟩ := collect_records ob _ _ hc (by rw [hra]; exact hne)
      rw [registerAll_records] at r2
      rw [hra] at r1
      have hk0 : ob.key e.state < ob.key (st.step e.state).1 := hinc 0 (by omega)
      have hset : (e.step st ob regs).1.dc.agentRecords = e.dc.agentRecords ++ [(ob.key (st.step e.state).1, rec)] := by
        rw [heq, r2, Dict.set_of_absent]
        intro hk
        exact absurd (hlt _ hk) (not_le.2 hk0)
      have hrep : (e.step st ob regs).1.dc.agentReporters = e.dc.agentReporters := by
        rw [heq, collect_agentReporters, hra]
      have hst : (e.step st ob regs).1.state = (st.step e.state).1 := by rw [heq]
      obtain ⟨recs, i1, i2, i3⟩ := ih (e.step st ob regs).1 (by rw [hrep]; exact hne)
        (fun i hi r hr => hregs (i + 1) (by omega) r (by rw [hst] at hr; exact hr))
        (by
          intro k hk
          rw [hset] at hk
          rw [hst]
          simp only [Dict.keys, List.map_append, List.mem_append, List.map_cons, List.map_nil, List.mem_singleton] at hk
          rcases hk with hk | rfl
          · exact Nat.le_of_lt (Nat.lt_of_le_of_lt (hlt k hk) hk0)
          · exact Nat.le_refl _)
        (by
          intro i hi
          rw [hst]
          exact hinc (i + 1) (by omega))
        hok
      rw [hst, hrep] at i1
      rw [hst, hset] at i2
      have hstates : (statesUpTo st e.state (n + 1)).tail = statesUpTo st (st.step e.state).1 n := by
        rw [statesUpTo_succ]; rfl
      have hhead : statesUpTo st (st.step e.state).1 n = (st.step e.state).1 :: (statesUpTo st (st.step e.state).1 n).tail := by
        unfold statesUpTo
        rw [List.range_succ_eq_map]
        rfl
      refine ⟨rec :: recs, ?_, ?_, i3.trans hrep⟩
      · rw [hstates, hhead, List.map_cons, r1, i1, List.map_cons]
      · rw [i2, hstates]
        conv => rhs; rw [hhead]
        simp

/-- What was recorded for one agent, in the row that is written. -/
theorem record_row (cell : RVal → DbCell) (reps : Dict String (AgentRep S A)) (x : S) (a : A) (vs : List RVal)
    (h : reps.mapM (fun (nf : String × AgentRep S A) => nf.2 x a) = some vs) (name : String) :
    Dict.get? ((Dict.keys reps).zip (vs.map cell)) name = (Dict.get? reps name).bind (fun f => (f x a).map cell) := by
  induction reps generalizing vs with
  | nil => rfl
  | cons nf reps ih =>
    rw [List.mapM_cons] at h
    cases hv : nf.2 x a with
    | none => rw [hv] at h; cases h
    | some v =>
      rw [hv] at h
      cases hr : reps.mapM (fun (nf : String × AgentRep S A) => nf.2 x a) with
      | none => rw [hr] at h; cases h
      | some ws =>
        rw [hr] at h
        cases h
        simp only [Dict.keys, List.map_cons, List.zip_cons_cons, Dict.get?]
        split
        · simp [hv]
        · exact ih ws hr

theorem record_rows (cell : RVal → DbCell) (aid : A → Nat) (ob : Observed S A) (reps : Dict String (AgentRep S A)) (x : S)
    (rec : List (A × List RVal)) (h : recordAgents ob reps x = some rec) (name : String) (k : Nat) :
    rec.map (fun r => (k, aid r.1, Dict.get? ((Dict.keys reps).zip (r.2.map cell)) name)) =
      (ob.agents x).map (fun a => (k, aid a, (Dict.get? reps name).bind (fun f => (f x a).map cell))) := by
  unfold recordAgents at h
  generalize ob.agents x = as at h ⊢
  induction as generalizing rec with
  | nil => cases h; rfl
  | cons a as ih =>
    rw [List.mapM_cons] at h
    cases hv : reps.mapM (fun (nf : String × AgentRep S A) => nf.2 x a) with
    | none => rw [hv] at h; cases h
    | some vs =>
      rw [hv] at h
      cases hr : as.mapM (fun a => (reps.mapM (fun (nf : String × AgentRep S A) => nf.2 x a)).map (fun vs => (a, vs))) with
      | none => rw [hr] at h; cases h
      | some ws =>
        rw [hr] at h
        cases h
        simp only [List.map_cons, ih ws hr, record_row cell reps x a vs hv]

/-- Reporters of agents stay registered. -/
theorem register_agents_ne (r : Reg S A) (c : Collector S A) (h : c.agentReporters ≠ []) : (c.register r).agentReporters ≠ [] := by
  cases r with
  | model n f => exact h
  | agent n f =>
    intro h0
    have : Dict.get? (Dict.set c.agentReporters n f) n = some f := Dict.get?_set_self _ _ _
    have h1 : Dict.set c.agentReporters n f = [] := h0
    rw [h1] at this
    cases this

theorem registerAll_agents_ne (rs : List (Reg S A)) (c : Collector S A) (h : c.agentReporters ≠ []) :
    (rs.foldl Collector.register c).agentReporters ≠ [] := by
  induction rs generalizing c with
  | nil => exact h
  | cons r rs ih => exact ih _ (register_agents_ne r c h)

theorem steps_agents_ne (st : Stepper S) (ob : Observed S A) (regs : S → List (Reg S A)) (n : Nat) (e : DataEnv S A)
    (h : e.dc.agentReporters ≠ []) : (e.steps st ob regs n).1.dc.agentReporters ≠ [] := by
  induction n generalizing e with
  | zero => exact h
  | succ n ih =>
    have h1 : (e.step st ob regs).1.dc.agentReporters ≠ [] := by
      unfold DataEnv.step
      simp only
      split
      · exact registerAll_agents_ne _ _ h
      · rw [collect_agentReporters]; exact registerAll_agents_ne _ _ h
    simp only [DataEnv.steps]
    split
    · exact h1
    · exact ih _ h1

theorem foldl_newAgent_agents (ar : List (String × AgentRep S A)) (c : Collector S A) :
    (ar.foldl (fun c nf => c.newAgentReporter nf.1 nf.2) c).agentReporters = Dict.update c.agentReporters ar := by
  induction ar generalizing c with
  | nil => rfl
  | cons p ar ih => rw [List.foldl_cons, ih]; rfl

theorem foldl_newModel_agents (mr : List (String × ModelRep S)) (c : Collector S A) :
    (mr.foldl (fun c nf => c.newModelReporter nf.1 nf.2) c).agentReporters = c.agentReporters ∧
    (mr.foldl (fun c nf => c.newModelReporter nf.1 nf.2) c).agentRecords = c.agentRecords := by
  induction mr generalizing c with
  | nil => exact ⟨rfl, rfl⟩
  | cons p mr ih => rw [List.foldl_cons]; exact ih _

theorem foldl_newAgent_records (ar : List (String × AgentRep S A)) (c : Collector S A) :
    (ar.foldl (fun c nf => c.newAgentReporter nf.1 nf.2) c).agentRecords = c.agentRecords := by
  induction ar generalizing c with
  | nil => rfl
  | cons p ar ih => rw [List.foldl_cons, ih]; rfl

theorem soilCollector_agents (st : Stepper S) (ob : Observed S A) (mr : Dict String (ModelRep S)) (ar : Dict String (AgentRep S A)) :
    (soilCollector st ob mr ar).agentReporters = Dict.update [] ar ∧ (soilCollector st ob mr ar).agentRecords = [] := by
  unfold soilCollector
  simp only
  rw [foldl_newAgent_agents, foldl_newAgent_records, (foldl_newModel_agents _ _).1, (foldl_newModel_agents _ _).2]
  exact ⟨rfl, rfl⟩

theorem update_ne {K V : Type} [DecidableEq K] (d e : Dict K V) (h : e ≠ []) : Dict.update d e ≠ [] := by
  have hset : ∀ (d : Dict K V) (k : K) (v : V), Dict.set d k v ≠ [] := by
    intro d k v h0
    have : Dict.get? (Dict.set d k v) k = some v := Dict.get?_set_self _ _ _
    rw [h0] at this
    cases this
  have : ∀ (e d : Dict K V), d ≠ [] → Dict.update d e ≠ [] := by
    intro e
    induction e with
    | nil => intro d hd; exact hd
    | cons p e ih => intro d _; exact ih _ (hset _ _ _)
  cases e with
  | nil => exact absurd rfl h
  | cons p e => exact this e _ (hset _ _ _)

/-! ### The statement -/

namespace Spec

/-- The column `name` of the model reports `f`: the last reporter with this name that `init` has registered; or the one given to the constructor; or
one of the two that are always there. -/
inductive Reports (m : EnvModel S A) (name : String) (f : ModelRep S) : Prop
  | init (before after : List (Reg S A)) (h : m.regs0 = before ++ .model name f :: after) (hno : ∀ r ∈ after, r.isModel name = false)
  | given (hno : ∀ r ∈ m.regs0, r.isModel name = false) (h : Dict.get? m.mr name = some f)
  | time (hno : ∀ r ∈ m.regs0, r.isModel name = false) (h : Dict.get? m.mr name = none) (hn : name = "time")
      (hf : f = fun x => some (.num (m.st.time x)))
  | count (hno : ∀ r ∈ m.regs0, r.isModel name = false) (h : Dict.get? m.mr name = none) (hn : name = "agent_count")
      (hf : f = fun x => some (.num (.fin (m.ob.agents x).length)))

end Spec

theorem reports_column (m : EnvModel S A) (hwf : Dict.WF m.mr) (name : String) (f : ModelRep S) (h : Spec.Reports m name f) :
    HasColumn (m.regs0.foldl Collector.register (soilCollector m.st m.ob m.mr m.ar)) name f [] := by
  obtain ⟨c1, c2, c3⟩ := soilCollector_columns m.st m.ob m.mr m.ar hwf
  cases h with
  | given hno h => exact (c1 _ _ h).registerAll _ hno
  | time hno h hn hf => subst hn; subst hf; exact (c2 h).registerAll _ hno
  | count hno h hn hf => subst hn; subst hf; exact (c3 h).registerAll _ hno
  | init before after h hno =>
    rw [h, List.foldl_append, List.foldl_cons]
    refine HasColumn.registerAll ?_ _ hno
    refine HasColumn.new ?_ name f
    have hwf0 : Dict.WF (soilCollector m.st m.ob m.mr m.ar).modelReporters := by
      cases ht : Dict.get? m.mr "time" with
      | none => exact (c2 ht).wf
      | some g => exact (c1 _ _ ht).wf
    revert hwf0
    generalize soilCollector m.st m.ob m.mr m.ar = c
    clear h
    intro hc
    induction before generalizing c with
    | nil => exact hc
    | cons r rs ih =>
      refine ih _ ?_
      cases r with
      | model n f => exact hc.set _ _
      | agent n f => exact hc

theorem mapM_eq_map {α β : Type} (f : α → Option β) (g : α → β) (l : List α) (r : List β) (h : l.mapM f = some r)
    (hg : ∀ a b, f a = some b → g a = b) : r = l.map g ∧ ∀ a ∈ l, f a = some (g a) := by
  induction l generalizing r with
  | nil => have : r = [] := by simpa using h.symm
           exact ⟨by rw [this]; rfl, by simp⟩
  | cons a l ih =>
    rw [List.mapM_cons] at h
    cases ha : f a with
    | none => rw [ha] at h; cases h
    | some b =>
      cases hl : l.mapM f with
      | none => rw [ha, hl] at h; cases h
      | some r' =>
        rw [ha, hl] at h
        have hr : r = b :: r' := by simpa using h.symm
        obtain ⟨i1, i2⟩ := ih r' hl
        refine ⟨by rw [hr, List.map_cons, hg _ _ ha, ← i1], ?_⟩
        intro x hx
        rcases List.mem_cons.1 hx with rfl | hx
        · rw [ha, hg _ _ ha]
        · exact i2 x hx

/-- C227: if the iterations of a simulation return and could be written to a new database, nothing is repeated in its configuration, the identifiers
are different, all combinations have parameters and there are reporters of agents, then `read_sql` gives for each combination and iteration: the
parameters; for each reporter of the model its value at the start and after each of the steps `1, …, n`, in order, where `n` is the first state in which
the limits of the simulation tell to stop; and for each reporter of agents (as long as the step number increases) its value for each agent of the
scheduler in the same states. Missing: the other cases, see C169, C170, C72 and C225. -/
theorem C227_history_partial (s : Sim) (h : Spec.NoRepetition s) (sha : Str → Nat) (printable : Char → Bool) (den : PV → PyLit)
    (hinj : ∀ v w, den v = den w → v = w) (hfin : ∀ v, Finite (den v))
    (hno : NoCollision sha printable ((collectParams s).map (litParams den)))
    (m : Params → Nat → EnvModel S A) (hwf : ∀ c i, Dict.WF (m c i).mr ∧ Dict.WF (m c i).ar)
    (fuel : Nat) (cell : RVal → DbCell) (aid : A → Nat) (pcell : PV → DbCell) (sid : String) (conf : DbRow)
    (hpar : ∀ c ∈ collectParams s, c ≠ []) (hag : ∃ c ∈ collectParams s, ∃ i < s.iterations, (m c i).ar ≠ [])
    (db : Database) (hdb : s.database m fuel cell aid pcell (fun c => paramsId sha printable (litParams den c)) sid conf = some db) :
    ∃ r P, db.readSql = .ok r ∧ r.pivot = some P ∧ ∀ c ∈ collectParams s, ∀ i < s.iterations,
      (∀ k, Dict.get? P (some (.text (toString i)), some (.text (paramsId sha printable (litParams den c))), some (.text sid), some (.text k)) =
        (Dict.get? c k).map (fun v => some (pcell v))) ∧
      ∃ n, s.isDoneAt (m c i).st (iterStep (m c i).st n (m c i).state) = true ∧
        (∀ j < n, s.isDoneAt (m c i).st (iterStep (m c i).st j (m c i).state) = false) ∧
        (∀ name f, name ∉ ["step", "simulation_id", "iteration_id", "params_id"] → Spec.Reports (m c i) name f →
          (∀ j < n, ∀ r ∈ (m c i).regs (iterStep (m c i).st j (m c i).state), r.isModel name = false) →
          (r.env.filter (ofIteration sid (paramsId sha printable (litParams den c)) (toString i))).map
            (fun x => (Dict.get? x "step", Dict.get? x name)) =
          (List.range (n + 1)).map (fun j => (some (.other j), (f (iterStep (m c i).st j (m c i).state)).map cell))) ∧
        (∀ name f, name ∉ ["step", "agent_id", "simulation_id", "iteration_id", "params_id"] → Dict.get? (m c i).ar name = some f →
          (∀ r ∈ (m c i).regs0, r.isAgent = false) →
          (∀ j < n, ∀ r ∈ (m c i).regs (iterStep (m c i).st j (m c i).state), r.isAgent = false) →
          (∀ j < n, (m c i).ob.key (iterStep (m c i).st j (m c i).state) < (m c i).ob.key (iterStep (m c i).st (j + 1) (m c i).state)) →
          (r.agents.filter (ofIteration sid (paramsId sha printable (litParams den c)) (toString i))).map
            (fun x => (Dict.get? x "step", Dict.get? x "agent_id", Dict.get? x name)) =
          (statesUpTo (m c i).st (m c i).state n).flatMap (fun x => ((m c i).ob.agents x).map
            (fun a => (some (.other ((m c i).ob.key x)), some (.other (aid a)), (f x a).map cell)))) := by
  have hjobs : ∃ jobs, s.jobs.mapM (fun pi => simJob s m fuel cell aid pcell (fun c => paramsId sha printable (litParams den c)) pi.1 pi.2) = some jobs ∧
      Database.dumpSims [] [⟨sid, conf, jobs⟩] = some db := by
    unfold Sim.database at hdb
    split at hdb
    · cases hdb
    · rename_i jobs hj
      exact ⟨jobs, hj, hdb⟩
  obtain ⟨jobs, hj, hdb'⟩ := hjobs
  -- the jobs as a function
  let dflt : Params → Nat → DbJob := fun c i =>
    { params := c.map (fun kv => (kv.1, pcell kv.2)), pid := paramsId sha printable (litParams den c), iid := toString i, reps := [], recs := [],
      areps := [], arecs := [], tables := [] }
  let job : Params → Nat → DbJob := fun c i =>
    (simJob s m fuel cell aid pcell (fun c => paramsId sha printable (litParams den c)) c i).getD (dflt c i)
  have hjob : ∀ c i, (job c i).pid = paramsId sha printable (litParams den c) ∧ (job c i).iid = toString i ∧
      (job c i).params = c.map (fun kv => (kv.1, pcell kv.2)) ∧ (job c i).tables = [] := by
    intro c i
    simp only [job]
    cases hs : simJob s m fuel cell aid pcell (fun c => paramsId sha printable (litParams den c)) c i with
    | none => exact ⟨rfl, rfl, rfl, rfl⟩
    | some j =>
      unfold simJob at hs
      split at hs
      · unfold collectorJob at hs
        obtain ⟨f, _, rfl⟩ := Option.map_eq_some_iff.1 hs
        exact ⟨rfl, rfl, rfl, rfl⟩
      · cases hs
  obtain ⟨hjl, hjs⟩ := mapM_eq_map _ (fun pi => job pi.1 pi.2) _ _ hj (by
    intro a b hab
    simp only [job, hab, Option.getD_some])
  have hlist : jobs = (collectParams s).flatMap (fun c => (List.range s.iterations).map (job c)) := by
    rw [hjl, Sim.jobs, List.map_flatMap]
    simp only [List.map_map, Function.comp_def]
  have hmem : ∀ j ∈ jobs, ∃ c ∈ collectParams s, ∃ i < s.iterations, j = job c i := by
    intro j hj
    rw [hlist] at hj
    obtain ⟨c, hc, hj⟩ := List.mem_flatMap.1 hj
    obtain ⟨i, hi, rfl⟩ := List.mem_map.1 hj
    exact ⟨c, hc, i, List.mem_range.1 hi, rfl⟩
  have hmem' : ∀ c ∈ collectParams s, ∀ i < s.iterations, job c i ∈ jobs := by
    intro c hc i hi
    rw [hlist]
    exact List.mem_flatMap.2 ⟨c, hc, List.mem_map.2 ⟨i, List.mem_range.2 hi, rfl⟩⟩
  -- each iteration has returned
  have hrun : ∀ c ∈ collectParams s, ∀ i < s.iterations, ∃ e f, (m c i).run s fuel = .done e ∧ modelVarsFrame e.dc = some f ∧
      (job c i).recs = frameRecs cell f ∧ (job c i).areps = Dict.keys e.dc.agentReporters ∧ (job c i).arecs = agentRecs cell aid e.dc := by
    intro c hc i hi
    have h1 := hjs (c, i) (List.mem_flatMap.2 ⟨c, hc, List.mem_map.2 ⟨i, List.mem_range.2 hi, rfl⟩⟩)
    simp only at h1
    unfold simJob at h1
    split at h1
    · rename_i e he
      unfold collectorJob at h1
      obtain ⟨f, hf, h2⟩ := Option.map_eq_some_iff.1 h1
      refine ⟨e, f, he, hf, ?_, ?_, ?_⟩ <;> rw [← h2]
    · cases h1
  have hstart : ∀ c i, (m c i).ar ≠ [] → (m c i).start.1.dc.agentReporters ≠ [] := by
    intro c i ha
    unfold EnvModel.start DataEnv.new
    simp only [if_true]
    rw [collect_agentReporters]
    refine registerAll_agents_ne _ _ ?_
    rw [(soilCollector_agents _ _ _ _).1]
    exact update_ne _ _ ha
  have hareps : ∀ c ∈ collectParams s, ∀ i < s.iterations, (m c i).ar ≠ [] → (job c i).areps ≠ [] := by
    intro c hc i hi ha
    obtain ⟨e, f, he, _, _, h2, _⟩ := hrun c hc i hi
    obtain ⟨_, n, h3, _⟩ := envRun_done _ _ _ _ he
    rw [h2]
    have h4 := steps_agents_ne (m c i).st (m c i).ob (m c i).regs n _ (hstart c i ha)
    rw [h3] at h4
    intro h5
    exact h4 (List.map_eq_nil_iff.1 h5)
  obtain ⟨r, P, h1, h2, h3⟩ := C169_read_back_partial _ db hdb'
    (by
      intro x hx j hj t ht
      rw [List.mem_singleton] at hx
      subst hx
      obtain ⟨c, _, i, _, rfl⟩ := hmem j hj
      rw [(hjob c i).2.2.2] at ht
      cases ht)
    (by
      intro x hx j hj
      rw [List.mem_singleton] at hx
      subst hx
      obtain ⟨c, hc, i, _, rfl⟩ := hmem j hj
      rw [(hjob c i).2.2.1]
      refine ⟨fun e => hpar c hc (List.map_eq_nil_iff.1 e), ?_⟩
      have := (collect_pairwise h).1 c hc
      unfold Dict.WF Dict.keys at *
      rw [List.map_map]
      exact this)
    (by
      obtain ⟨c, hc, i, hi, ha⟩ := hag
      exact ⟨_, List.mem_singleton.2 rfl, job c i, hmem' c hc i hi, hareps c hc i hi ha⟩)
    (by
      rw [List.flatMap_singleton]
      simp only
      rw [hlist, List.map_flatMap]
      have e : ((collectParams s).flatMap fun c => ((List.range s.iterations).map (job c)).map (fun j => (sid, j.pid, j.iid))) =
          (runIds sha printable den s).map (fun x => (sid, x.1, x.2)) := by
        unfold runIds
        rw [List.map_flatMap]
        refine List.flatMap_congr ?_
        intro c _
        rw [List.map_map, List.map_map]
        refine List.map_congr_left ?_
        intro i _
        simp only [Function.comp, (hjob c i).1, (hjob c i).2.1]
      rw [e]
      refine List.Nodup.map ?_ (C225_told_apart_partial s h sha printable den hinj hfin hno)
      intro x y hxy
      simp only [Prod.mk.injEq, true_and] at hxy
      exact Prod.ext hxy.1 hxy.2)
  refine ⟨r, P, h1, h2, ?_⟩
  intro c hc i hi
  obtain ⟨a1, a2, a3⟩ := h3 _ (List.mem_singleton.2 rfl) (job c i) (hmem' c hc i hi)
  rw [(hjob c i).1, (hjob c i).2.1] at a1 a2 a3
  obtain ⟨e, f0, he, hf0, hrecs, hareps', harecs⟩ := hrun c hc i hi
  obtain ⟨hnew, n, hsteps, hdone, hnot⟩ := envRun_done _ _ _ _ he
  have hs2 : ((m c i).start.1.steps (m c i).st (m c i).ob (m c i).regs n).2 = false := by rw [hsteps]
  refine ⟨?_, n, hdone, hnot, ?_, ?_⟩
  · intro k
    rw [a1 k, (hjob c i).2.2.1, get?_mapVal]
    cases Dict.get? c k <;> rfl
  · intro name f hname hrep hregs
    rw [a2 name hname, hrecs]
    obtain ⟨rows, b1, b2, b3⟩ := C57_rows (m c i).st (m c i).ob _ (m c i).regs0 (m c i).regs (m c i).state n name f
      (reports_column _ (hwf c i).1 _ _ hrep) hnew hregs hs2
    have b1' : Dict.get? e.dc.modelVars name = some rows := by
      have : ((m c i).start.1.steps (m c i).st (m c i).ob (m c i).regs n).1 = e := by rw [hsteps]
      rw [← this]; exact b1
    have hcol := frameRecs_column cell e.dc f0 hf0 name rows b1'
    have := congrArg (List.map (fun x : Nat × Option DbCell => (some (DbCell.other x.1), x.2))) hcol
    rw [List.map_map, List.map_map, b2] at this
    refine Eq.trans this ?_
    refine List.map_congr_left ?_
    intro j hj
    simp only [Function.comp]
    rw [b3 j (by have := List.mem_range.1 hj; omega)]
  · intro name f hname hf hr0 hregs hinc
    have hne : (m c i).ar ≠ [] := by intro h0; rw [h0] at hf; cases hf
    rw [a3 (hareps c hc i hi hne) name hname, harecs]
    -- the reporters
    have hreps : (m c i).start.1.dc.agentReporters = Dict.update [] (m c i).ar := by
      unfold EnvModel.start DataEnv.new
      simp only [if_true]
      rw [collect_agentReporters, registerAll_agents _ _ hr0, (soilCollector_agents _ _ _ _).1]
    have hget : Dict.get? (Dict.update [] (m c i).ar) name = some f := by
      rw [Dict.get?_update _ _ (hwf c i).2, hf]; rfl
    -- the first collection
    have hfirst : ∃ rec0, recordAgents (m c i).ob (Dict.update [] (m c i).ar) (m c i).state = some rec0 ∧
        (m c i).start.1.dc.agentRecords = [((m c i).ob.key (m c i).state, rec0)] := by
      have hc0 : (((m c i).regs0.foldl Collector.register (soilCollector (m c i).st (m c i).ob (m c i).mr (m c i).ar)).collect (m c i).ob
          (m c i).state).2 = false := by simpa [EnvModel.start, DataEnv.new] using hnew
      have e1 := registerAll_agents (m c i).regs0 (soilCollector (m c i).st (m c i).ob (m c i).mr (m c i).ar) hr0
      rw [(soilCollector_agents _ _ _ _).1] at e1
      obtain ⟨rec0, x1, x2⟩ := collect_records (m c i).ob _ _ hc0 (by rw [e1]; exact update_ne _ _ hne)
      rw [e1] at x1
      rw [registerAll_records, (soilCollector_agents _ _ _ _).2] at x2
      refine ⟨rec0, x1, ?_⟩
      unfold EnvModel.start DataEnv.new
      simp only [if_true]
      rw [x2]; rfl
    obtain ⟨rec0, x1, x2⟩ := hfirst
    obtain ⟨recs, y1, y2, y3⟩ := steps_records (m c i).st (m c i).ob (m c i).regs n (m c i).start.1 (hstart c i hne) hregs
      (by
        intro k hk
        rw [x2] at hk
        simp only [Dict.keys, List.map_cons, List.map_nil, List.mem_singleton] at hk
        rw [hk]; exact Nat.le_refl _)
      hinc hs2
    rw [hsteps, x2] at y2
    rw [hsteps] at y3
    rw [hreps] at y1 y3
    have hst : (m c i).start.1.state = (m c i).state := rfl
    rw [hst] at y1 y2
    have hcons : statesUpTo (m c i).st (m c i).state n = (m c i).state :: (statesUpTo (m c i).st (m c i).state n).tail := by
      unfold statesUpTo
      rw [List.range_succ_eq_map]
      rfl
    have hz : e.dc.agentRecords = ((statesUpTo (m c i).st (m c i).state n).map (m c i).ob.key).zip (rec0 :: recs) ∧
        (statesUpTo (m c i).st (m c i).state n).map (recordAgents (m c i).ob (Dict.update [] (m c i).ar)) = (rec0 :: recs).map some := by
      rw [hcons]
      exact ⟨by rw [y2]; rfl, by rw [List.map_cons, x1, y1]; rfl⟩
    obtain ⟨hz1, hz2⟩ := hz
    unfold agentRecs
    rw [hz1, y3]
    generalize statesUpTo (m c i).st (m c i).state n = xs at hz2 ⊢
    generalize rec0 :: recs = rs at hz2 ⊢
    clear hz1 y1 y2 x1 x2 hcons
    induction xs generalizing rs with
    | nil => rfl
    | cons x xs ih =>
      cases rs with
      | nil => cases hz2
      | cons rc rs =>
        simp only [List.map_cons, List.cons.injEq] at hz2
        have hrow := record_rows cell aid (m c i).ob (Dict.update [] (m c i).ar) x rc hz2.1 name ((m c i).ob.key x)
        have hrow' := congrArg (List.map (fun y : Nat × Nat × Option DbCell => (some (DbCell.other y.1), some (DbCell.other y.2.1), y.2.2))) hrow
        rw [List.map_map, List.map_map] at hrow'
        simp only [List.map_cons, List.zip_cons_cons, List.flatMap_cons, List.map_append, List.map_map]
        rw [ih rs hz2.2]
        congr 1
        refine Eq.trans hrow' ?_
        refine List.map_congr_left ?_
        intro a _
        simp only [Function.comp, hget, Option.bind_some]

theorem steps_agents_nil (st : Stepper S) (ob : Observed S A) (regs : S → List (Reg S A)) (hregs : ∀ x, ∀ r ∈ regs x, r.isAgent = false) (n : Nat)
    (e : DataEnv S A) : (e.steps st ob regs n).1.dc.agentReporters = e.dc.agentReporters := by
  induction n generalizing e with
  | zero => rfl
  | succ n ih =>
    have h1 : (e.step st ob regs).1.dc.agentReporters = e.dc.agentReporters := by
      unfold DataEnv.step
      simp only
      split
      · exact registerAll_agents _ _ (hregs _)
      · rw [collect_agentReporters]; exact registerAll_agents _ _ (hregs _)
    simp only [DataEnv.steps]
    split
    · exact h1
    · rw [ih, h1]

/-- C227 is violated by every simulation whose models have no reporters of agents, which is the default: all iterations return, everything is written
to a new file, and nothing can be read, whatever the parameters and the limits. -/
theorem C227_unreadable_false (s : Sim) (m : Params → Nat → EnvModel S A) (fuel : Nat) (cell : RVal → DbCell) (aid : A → Nat) (pcell : PV → DbCell)
    (pid : Params → String) (sid : String) (conf : DbRow)
    (hno : ∀ c i, (m c i).ar = [] ∧ (∀ r ∈ (m c i).regs0, r.isAgent = false) ∧ ∀ x, ∀ r ∈ (m c i).regs x, r.isAgent = false)
    (db : Database) (hdb : s.database m fuel cell aid pcell pid sid conf = some db) : db.readSql = .error .noTable := by
  unfold Sim.database at hdb
  split at hdb
  · cases hdb
  · rename_i jobs hj
    have hall : ∀ j ∈ jobs, j.tables = [] ∧ j.areps = [] := by
      intro j hjm
      have key : ∀ (l : List (Params × Nat)) (js : List DbJob),
          l.mapM (fun pi => simJob s m fuel cell aid pcell pid pi.1 pi.2) = some js → ∀ j ∈ js, ∃ pi : Params × Nat, simJob s m fuel cell aid pcell pid pi.1 pi.2 = some j := by
        intro l
        induction l with
        | nil => intro js h j hj; have : js = [] := by simpa using h.symm
                 rw [this] at hj; cases hj
        | cons pi l ih =>
          intro js h j hj
          rw [List.mapM_cons] at h
          cases ha : simJob s m fuel cell aid pcell pid pi.1 pi.2 with
          | none => rw [ha] at h; cases h
          | some b =>
            cases hl : l.mapM (fun pi => simJob s m fuel cell aid pcell pid pi.1 pi.2) with
            | none => rw [ha, hl] at h; cases h
            | some r' =>
              rw [ha, hl] at h
              have hr : js = b :: r' := by simpa using h.symm
              rw [hr] at hj
              rcases List.mem_cons.1 hj with rfl | hj
              · exact ⟨pi, ha⟩
              · exact ih r' hl j hj
      obtain ⟨pi, hpi⟩ := key _ _ hj j hjm
      unfold simJob at hpi
      split at hpi
      · rename_i e he
        obtain ⟨_, n, hs, _⟩ := envRun_done _ _ _ _ he
        unfold collectorJob at hpi
        obtain ⟨f, _, rfl⟩ := Option.map_eq_some_iff.1 hpi
        refine ⟨rfl, ?_⟩
        obtain ⟨n1, n2, n3⟩ := hno pi.1 pi.2
        have h1 := steps_agents_nil (m pi.1 pi.2).st (m pi.1 pi.2).ob (m pi.1 pi.2).regs n3 n (m pi.1 pi.2).start.1
        rw [hs] at h1
        have h2 : (m pi.1 pi.2).start.1.dc.agentReporters = [] := by
          unfold EnvModel.start DataEnv.new
          simp only [if_true]
          rw [collect_agentReporters, registerAll_agents _ _ n2, (soilCollector_agents _ _ _ _).1, n1]
          rfl
        have h3 : e.dc.agentReporters = [] := h1.trans h2
        show Dict.keys e.dc.agentReporters = []
        rw [h3]
        rfl
      · cases hpi
    refine C169_no_agents_false _ db hdb ?_ ?_
    · intro x hx j hj' t ht
      rw [List.mem_singleton] at hx
      subst hx
      rw [(hall j hj').1] at ht
      cases ht
    · intro x hx j hj'
      rw [List.mem_singleton] at hx
      subst hx
      exact (hall j hj').2

/-! ### An example -/

/-- A clock that advances by `d` in each step. -/
def exClock (d : Nat) : Stepper Nat where
  step x := (x + 1, false)
  time x := .fin (d * x : Nat)
  steps x := x
  running _ := true
  noAgents _ := false

/-- A model with two agents; a reporter of the model, registered by `init`, and one of agents (when asked for). -/
def exClockModel (agents : Bool) (d : Nat) : EnvModel Nat Nat where
  st := exClock d
  ob := ⟨fun _ => [4, 7], fun x => x⟩
  mr := []
  ar := if agents then [("age", fun x a => some (.obj (x + a)))] else []
  regs0 := [.model "square" (fun x => some (.obj (x * x)))]
  regs _ := []
  state := 0

/-- Two combinations, two iterations of each, at most two steps, and time below 3: with `d = 2` the second step is the last one in any case. -/
def exClockSim : Sim := { iterations := 2, maxSteps := some 2, maxTime := some 3, matrix := [("d", [.val 1, .val 2])] }

def exClockD (c : Params) : Nat := match Dict.get? c "d" with
  | some (.val d) => d
  | _ => 0

def exClockCell : RVal → DbCell
  | .none => .other 0
  | .num (.fin q) => .other q.num.toNat
  | .num .inf => .text "inf"
  | .obj n => .other n

def exClockDb (agents : Bool) : Option Database :=
  exClockSim.database (fun c _ => exClockModel agents (exClockD c)) 9 exClockCell id (fun v => match v with | .val n => .other n | _ => .other 0)
    (fun c => toString (exClockD c)) "sim" [("name", .text "sim")]

def exClockEnv : Option (List (Option DbCell × Option DbCell)) := (exClockDb true).bind (fun (db : Database) => db.readSql.toOption.map (fun r =>
  (r.env.filter (ofIteration "sim" "2" "1")).map (fun x => (Dict.get? x "step", Dict.get? x "time"))))

def exClockAgents : Option (List (Option DbCell × Option DbCell × Option DbCell)) :=
  (exClockDb true).bind (fun (db : Database) => db.readSql.toOption.map (fun r =>
    (r.agents.filter (ofIteration "sim" "2" "1")).map (fun x => (Dict.get? x "step", Dict.get? x "agent_id", Dict.get? x "age"))))

set_option maxRecDepth 100000 in
/-- What is read for the second iteration of the second combination. -/
example : exClockEnv =
    some [(some (.other 0), some (.other 0)), (some (.other 1), some (.other 2)), (some (.other 2), some (.other 4))] ∧
    exClockAgents = some
      [(some (.other 0), some (.other 4), some (.other 4)), (some (.other 0), some (.other 7), some (.other 7)),
        (some (.other 1), some (.other 4), some (.other 5)), (some (.other 1), some (.other 7), some (.other 8)),
        (some (.other 2), some (.other 4), some (.other 6)), (some (.other 2), some (.other 7), some (.other 9))] := by decide +kernel

set_option maxRecDepth 100000 in
/-- Without reporters of agents nothing can be read, though everything was written. -/
example : (exClockDb false).map (fun (db : Database) => ((Dict.get? db "env").map (fun t => t.rows.length), db.readSql.toOption.isNone)) =
    some (some 12, true) := by decide +kernel

end Verif
