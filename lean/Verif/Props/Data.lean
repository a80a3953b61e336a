import Verif.Model.Data
import Verif.Props.RunLoop

/-!
# Properties C57, C58, C72: data collection
-/

namespace Verif

variable {S A : Type}

/-- What a registration is about. -/
def Reg.isModel (name : String) : Reg S A → Bool
  | .model n _ => n == name
  | .agent _ _ => false

/-- The column `name` of the collector: registered with the function `f` and holding exactly the rows `l`. -/
structure HasColumn (c : Collector S A) (name : String) (f : ModelRep S) (l : List RVal) : Prop where
  wf : Dict.WF c.modelReporters
  rep : Dict.get? c.modelReporters name = some f
  rows : Dict.get? c.modelVars name = some l

theorem HasColumn.new {c : Collector S A} (h : Dict.WF c.modelReporters) (name : String) (f : ModelRep S) :
    HasColumn (c.newModelReporter name f) name f [] :=
  ⟨h.set _ _, Dict.get?_set_self _ _ _, Dict.get?_set_self _ _ _⟩

theorem HasColumn.register {c : Collector S A} {name : String} {f : ModelRep S} {l : List RVal} (h : HasColumn c name f l)
    (r : Reg S A) (hr : r.isModel name = false) : HasColumn (c.register r) name f l := by
  cases r with
  | model n g =>
    have hne : n ≠ name := by simpa [Reg.isModel] using hr
    exact ⟨h.wf.set _ _, by rw [← h.rep]; exact Dict.get?_set_ne _ _ hne, by rw [← h.rows]; exact Dict.get?_set_ne _ _ hne⟩
  | agent n g => exact ⟨h.wf, h.rep, h.rows⟩

theorem HasColumn.registerAll {c : Collector S A} {name : String} {f : ModelRep S} {l : List RVal}
    (h : HasColumn c name f l) (rs : List (Reg S A)) (hr : ∀ r ∈ rs, r.isModel name = false) :
    HasColumn (rs.foldl Collector.register c) name f l := by
  induction rs generalizing c with
  | nil => exact h
  | cons r rs ih => exact ih (h.register r (hr r (by simp))) (fun r' h' => hr r' (by simp [h']))

theorem collectModel_other (s : S) (name : String) (reps : List (String × ModelRep S)) (vars : Dict String (List RVal))
    (h : name ∉ reps.map Prod.fst) : Dict.get? (collectModel s reps vars).1 name = Dict.get? vars name := by
  induction reps generalizing vars with
  | nil => rfl
  | cons p reps ih =>
    obtain ⟨n, f⟩ := p
    simp only [List.map_cons, List.mem_cons, not_or] at h
    simp only [collectModel]
    cases f s with
    | none => rfl
    | some v => simp only; rw [ih _ h.2, Dict.get?_set_ne _ _ (Ne.symm h.1)]

theorem collectModel_self (s : S) (name : String) (f : ModelRep S) (l : List RVal) (reps : List (String × ModelRep S))
    (vars : Dict String (List RVal)) (hwf : (reps.map Prod.fst).Nodup) (hmem : (name, f) ∈ reps)
    (hl : Dict.get? vars name = some l) (hok : (collectModel s reps vars).2 = false) :
    ∃ v, f s = some v ∧ Dict.get? (collectModel s reps vars).1 name = some (l ++ [v]) := by
  induction reps generalizing vars with
  | nil => cases hmem
  | cons p reps ih =>
    obtain ⟨n, g⟩ := p
    simp only [List.map_cons, List.nodup_cons] at hwf
    simp only [collectModel] at hok ⊢
    cases hg : g s with
    | none => rw [hg] at hok; cases hok
    | some v =>
      rw [hg] at hok
      simp only at hok ⊢
      rcases List.mem_cons.1 hmem with h | h
      · cases h
        refine ⟨v, hg, ?_⟩
        rw [collectModel_other _ _ _ _ hwf.1, hl]
        simp
      · have hne : n ≠ name := by
          rintro rfl
          exact hwf.1 (List.mem_map.2 ⟨_, h, rfl⟩)
        exact ih _ hwf.2 h (by rw [Dict.get?_set_ne _ _ hne]; exact hl) hok

theorem HasColumn.collect {c : Collector S A} {name : String} {f : ModelRep S} {l : List RVal} (h : HasColumn c name f l)
    (ob : Observed S A) (s : S) (hok : (c.collect ob s).2 = false) :
    ∃ v, f s = some v ∧ HasColumn (c.collect ob s).1 name f (l ++ [v]) := by
  have hm : (collectModel s c.modelReporters c.modelVars).2 = false := by
    unfold Collector.collect at hok
    simp only at hok
    split at hok
    · cases hok
    · rename_i h; simpa using h
  obtain ⟨v, hv, hr⟩ := collectModel_self s name f l c.modelReporters c.modelVars h.wf (Dict.get?_mem h.rep) h.rows hm
  refine ⟨v, hv, ?_⟩
  unfold Collector.collect at hok ⊢
  simp only [hm, Bool.false_eq_true, if_false] at hok ⊢
  by_cases he : c.agentReporters.isEmpty = true
  · rw [if_pos he]; exact ⟨h.wf, h.rep, hr⟩
  · rw [if_neg he] at hok ⊢
    cases hrec : recordAgents ob c.agentReporters s with
    | none => rw [hrec] at hok; cases hok
    | some rec => exact ⟨h.wf, h.rep, hr⟩

/-! ### C57 -/

/-- The states of the environment: initially and after each of the first `n` steps. -/
def statesUpTo (st : Stepper S) (s : S) (n : Nat) : List S := (List.range (n + 1)).map (fun i => iterStep st i s)

theorem statesUpTo_succ (st : Stepper S) (s : S) (n : Nat) : statesUpTo st s (n + 1) = s :: statesUpTo st (st.step s).1 n := by
  unfold statesUpTo
  rw [List.range_succ_eq_map, List.map_cons, List.map_map]
  rfl

theorem steps_column (st : Stepper S) (ob : Observed S A) (regs : S → List (Reg S A)) (name : String) (f : ModelRep S)
    (n : Nat) (e : DataEnv S A) (l : List RVal) (h : HasColumn e.dc name f l)
    (hregs : ∀ i < n, ∀ r ∈ regs (iterStep st i e.state), r.isModel name = false)
    (hok : (e.steps st ob regs n).2 = false) :
    ∃ l', HasColumn (e.steps st ob regs n).1.dc name f (l ++ l') ∧
      l'.map some = ((statesUpTo st e.state n).tail).map f ∧ (e.steps st ob regs n).1.state = iterStep st n e.state := by
  induction n generalizing e l with
  | zero => exact ⟨[], by simpa [DataEnv.steps] using h, rfl, rfl⟩
  | succ n ih =>
    simp only [DataEnv.steps] at hok ⊢
    by_cases hs : (e.step st ob regs).2 = true
    · rw [if_pos hs, hs] at hok; cases hok
    · rw [if_neg hs] at hok ⊢
      have h1 := h.registerAll (regs e.state) (hregs 0 (by omega))
      have hstep : (st.step e.state).2 = false ∧
          (((regs e.state).foldl Collector.register e.dc).collect ob (st.step e.state).1).2 = false ∧
          (e.step st ob regs).1 = ⟨(st.step e.state).1,
            (((regs e.state).foldl Collector.register e.dc).collect ob (st.step e.state).1).1⟩ := by
        unfold DataEnv.step at hs ⊢
        simp only at hs ⊢
        by_cases hx : (st.step e.state).2 = true
        · rw [if_pos hx] at hs; exact absurd rfl hs
        · rw [if_neg hx] at hs ⊢
          exact ⟨by simpa using hx, by simpa using hs, rfl⟩
      obtain ⟨_, hc, heq⟩ := hstep
      obtain ⟨v, hv, h2⟩ := h1.collect ob _ hc
      have h3 : HasColumn (e.step st ob regs).1.dc name f (l ++ [v]) := by rw [heq]; exact h2
      have hst : (e.step st ob regs).1.state = (st.step e.state).1 := by rw [heq]
      obtain ⟨l', a1, a2, a3⟩ := ih _ _ h3 (fun i hi r hr => hregs (i + 1) (by omega) r (by
        rw [hst] at hr; exact hr)) hok
      refine ⟨v :: l', by simpa using a1, ?_, by rw [a3, hst]; rfl⟩
      rw [statesUpTo_succ, List.tail_cons, List.map_cons, a2, hst]
      unfold statesUpTo
      rw [List.range_succ_eq_map]
      simp [iterStep, hv]

theorem registerAll_wf (c : Collector S A) (h : Dict.WF c.modelReporters) (rs : List (Reg S A)) :
    Dict.WF (rs.foldl Collector.register c).modelReporters := by
  induction rs generalizing c with
  | nil => exact h
  | cons r rs ih =>
    refine ih _ ?_
    cases r with
    | model n f => exact h.set _ _
    | agent n f => exact h

/-- C57: a reporter that is defined before the first step (in the constructor or in `init`) and not defined again has
exactly `n + 1` rows after `n` steps: its value in the initial state and after each step. -/
theorem C57_rows (st : Stepper S) (ob : Observed S A) (c : Collector S A) (regs0 : List (Reg S A))
    (regs : S → List (Reg S A)) (s : S) (n : Nat) (name : String) (f : ModelRep S)
    (hcol : HasColumn (regs0.foldl Collector.register c) name f [])
    (hnew : (DataEnv.new ob c regs0 true s).2 = false)
    (hregs : ∀ i < n, ∀ r ∈ regs (iterStep st i s), r.isModel name = false)
    (hok : ((DataEnv.new ob c regs0 true s).1.steps st ob regs n).2 = false) :
    ∃ rows, Dict.get? ((DataEnv.new ob c regs0 true s).1.steps st ob regs n).1.dc.modelVars name = some rows ∧
      rows.length = n + 1 ∧ ∀ i ≤ n, rows[i]? = f (iterStep st i s) := by
  obtain ⟨v, hv, h1⟩ := hcol.collect ob s (by simpa [DataEnv.new] using hnew)
  obtain ⟨l', a1, a2, _⟩ := steps_column st ob regs name f n (DataEnv.new ob c regs0 true s).1 [v]
    (by simpa [DataEnv.new] using h1) hregs hok
  have hs : (DataEnv.new ob c regs0 true s).1.state = s := rfl
  rw [hs] at a2
  have hall : ([v] ++ l').map some = (statesUpTo st s n).map f := by
    unfold statesUpTo at a2 ⊢
    rw [List.range_succ_eq_map] at a2 ⊢
    simp only [List.map_cons, List.tail_cons] at a2
    simp only [List.singleton_append, List.map_cons, a2]
    rw [← hv]; rfl
  refine ⟨[v] ++ l', a1.rows, ?_, ?_⟩
  · have := congrArg List.length hall
    simpa [statesUpTo] using this
  · intro i hi
    have h2 : (([v] ++ l').map some)[i]? = ((statesUpTo st s n).map f)[i]? := by rw [hall]
    rw [List.getElem?_map, List.getElem?_map] at h2
    have h3 : (statesUpTo st s n)[i]? = some (iterStep st i s) := by
      unfold statesUpTo
      rw [List.getElem?_map, List.getElem?_range (by omega)]
      rfl
    rw [h3] at h2
    cases hx : ([v] ++ l')[i]? with
    | none => rw [hx] at h2; simp at h2
    | some x => rw [hx] at h2; simpa using h2

theorem foldl_newModel_spec (mr : List (String × ModelRep S)) (c : Collector S A) (hwf : (mr.map Prod.fst).Nodup)
    (hc : Dict.WF c.modelReporters) (name : String) (f : ModelRep S) (hmem : (name, f) ∈ mr) :
    HasColumn (mr.foldl (fun c nf => c.newModelReporter nf.1 nf.2) c) name f [] := by
  induction mr generalizing c with
  | nil => cases hmem
  | cons p mr ih =>
    simp only [List.map_cons, List.nodup_cons] at hwf
    rw [List.foldl_cons]
    rcases List.mem_cons.1 hmem with h | h
    · subst h
      have h1 : HasColumn (c.newModelReporter name f) name f [] := HasColumn.new hc name f
      have : ∀ (l : List (String × ModelRep S)) (c : Collector S A), HasColumn c name f [] → name ∉ l.map Prod.fst →
          HasColumn (l.foldl (fun c nf => c.newModelReporter nf.1 nf.2) c) name f [] := by
        intro l
        induction l with
        | nil => intro c h _; exact h
        | cons q l ih2 =>
          intro c h hn
          simp only [List.map_cons, List.mem_cons, not_or] at hn
          exact ih2 _ (h.register (.model q.1 q.2) (by simpa [Reg.isModel] using Ne.symm hn.1)) hn.2
      exact this mr _ h1 hwf.1
    · exact ih _ hwf.2 (hc.set _ _) h

theorem foldl_newAgent_spec (ar : List (String × AgentRep S A)) (c : Collector S A) (name : String) (f : ModelRep S)
    (l : List RVal) (h : HasColumn c name f l) :
    HasColumn (ar.foldl (fun c nf => c.newAgentReporter nf.1 nf.2) c) name f l := by
  induction ar generalizing c with
  | nil => exact h
  | cons p ar ih => exact ih _ (h.register (.agent p.1 p.2) rfl)

/-- The collector that soil makes has the given reporters, and the two built-in ones unless they are overridden. -/
theorem soilCollector_columns (st : Stepper S) (ob : Observed S A) (mr : Dict String (ModelRep S))
    (ar : Dict String (AgentRep S A)) (hwf : Dict.WF mr) :
    (∀ name f, Dict.get? mr name = some f → HasColumn (soilCollector st ob mr ar) name f []) ∧
    (Dict.get? mr "time" = none → HasColumn (soilCollector st ob mr ar) "time" (timeRep st) []) ∧
    (Dict.get? mr "agent_count" = none → HasColumn (soilCollector st ob mr ar) "agent_count" (countRep ob) []) := by
  let mr1 := if Dict.has mr "agent_count" then mr else Dict.set mr "agent_count" (countRep ob)
  let mr2 := if Dict.has mr1 "time" then mr1 else Dict.set mr1 "time" (timeRep st)
  have h1 : Dict.WF mr1 := by simp only [mr1]; split; exact hwf; exact hwf.set _ _
  have h2 : Dict.WF mr2 := by simp only [mr2]; split; exact h1; exact h1.set _ _
  have key : ∀ name f, Dict.get? mr2 name = some f → HasColumn (soilCollector st ob mr ar) name f [] := by
    intro name f hf
    exact foldl_newAgent_spec _ _ _ _ _ (foldl_newModel_spec mr2 _ h2 (by simp [Dict.WF, Dict.keys]) name f (Dict.get?_mem hf))
  have g1 : ∀ name, Dict.get? mr1 name = if Dict.get? mr name = none ∧ name = "agent_count" then some (countRep ob)
      else Dict.get? mr name := by
    intro name
    simp only [mr1]
    by_cases hh : Dict.has mr "agent_count" = true
    · rw [if_pos hh]
      split
      · rename_i h; obtain ⟨h, rfl⟩ := h; simp [Dict.has, h] at hh
      · rfl
    · rw [if_neg hh, Dict.get?_set]
      have hn : Dict.get? mr "agent_count" = none := by simpa [Dict.has] using hh
      by_cases he : "agent_count" = name
      · subst he; rw [if_pos rfl, if_pos ⟨hn, rfl⟩]
      · rw [if_neg he, if_neg (fun h => he h.2.symm)]
  have g2 : ∀ name, Dict.get? mr2 name = if Dict.get? mr1 name = none ∧ name = "time" then some (timeRep st)
      else Dict.get? mr1 name := by
    intro name
    simp only [mr2]
    by_cases hh : Dict.has mr1 "time" = true
    · rw [if_pos hh]
      split
      · rename_i h; obtain ⟨h, rfl⟩ := h; simp [Dict.has, h] at hh
      · rfl
    · rw [if_neg hh, Dict.get?_set]
      have hn : Dict.get? mr1 "time" = none := by simpa [Dict.has] using hh
      by_cases he : "time" = name
      · subst he; rw [if_pos rfl, if_pos ⟨hn, rfl⟩]
      · rw [if_neg he, if_neg (fun h => he h.2.symm)]
  refine ⟨?_, ?_, ?_⟩
  · intro name f hf
    exact key name f (by rw [g2, g1, hf]; simp)
  · intro hn
    exact key _ _ (by rw [g2, g1, hn]; simp)
  · intro hn
    exact key _ _ (by rw [g2, g1, hn]; simp)

/-- C57 for the collector soil makes: after `n` steps the columns `time` and `agent_count` have `n + 1` rows, and row `i` is
the time and number of scheduled agents after step `i`; in particular the last one is the current one. -/
theorem C57_builtin (st : Stepper S) (ob : Observed S A) (mr : Dict String (ModelRep S)) (ar : Dict String (AgentRep S A))
    (hwf : Dict.WF mr) (ht : Dict.get? mr "time" = none) (hc : Dict.get? mr "agent_count" = none)
    (regs0 : List (Reg S A)) (regs : S → List (Reg S A)) (s : S) (n : Nat)
    (h0 : ∀ r ∈ regs0, r.isModel "time" = false ∧ r.isModel "agent_count" = false)
    (hregs : ∀ i < n, ∀ r ∈ regs (iterStep st i s), r.isModel "time" = false ∧ r.isModel "agent_count" = false)
    (hnew : (DataEnv.new ob (soilCollector st ob mr ar) regs0 true s).2 = false)
    (hok : ((DataEnv.new ob (soilCollector st ob mr ar) regs0 true s).1.steps st ob regs n).2 = false) :
    let e := ((DataEnv.new ob (soilCollector st ob mr ar) regs0 true s).1.steps st ob regs n).1
    ∃ times counts, Dict.get? e.dc.modelVars "time" = some times ∧ Dict.get? e.dc.modelVars "agent_count" = some counts ∧
      times.length = n + 1 ∧ counts.length = n + 1 ∧
      (∀ i ≤ n, times[i]? = some (.num (st.time (iterStep st i s)))) ∧
      (∀ i ≤ n, counts[i]? = some (.num (.fin (ob.agents (iterStep st i s)).length))) ∧
      times.getLast? = some (.num (st.time e.state)) ∧ counts.getLast? = some (.num (.fin (ob.agents e.state).length)) := by
  obtain ⟨_, c1, c2⟩ := soilCollector_columns st ob mr ar hwf
  have k1 := (c1 ht).registerAll regs0 (fun r hr => (h0 r hr).1)
  have k2 := (c2 hc).registerAll regs0 (fun r hr => (h0 r hr).2)
  obtain ⟨times, a1, a2, a3⟩ := C57_rows st ob _ regs0 regs s n _ _ k1 hnew (fun i hi r hr => (hregs i hi r hr).1) hok
  obtain ⟨counts, b1, b2, b3⟩ := C57_rows st ob _ regs0 regs s n _ _ k2 hnew (fun i hi r hr => (hregs i hi r hr).2) hok
  obtain ⟨v, _, hcol⟩ := k1.collect ob s (by simpa [DataEnv.new] using hnew)
  obtain ⟨_, _, _, hst⟩ := steps_column st ob regs _ _ n (DataEnv.new ob (soilCollector st ob mr ar) regs0 true s).1 [v]
    (by simpa [DataEnv.new] using hcol) (fun i hi r hr => (hregs i hi r hr).1) hok
  refine ⟨times, counts, a1, b1, a2, b2, a3, b3, ?_, ?_⟩
  · rw [List.getLast?_eq_getElem?, a2, Nat.add_sub_cancel, a3 n (Nat.le_refl n), hst]; rfl
  · rw [List.getLast?_eq_getElem?, b2, Nat.add_sub_cancel, b3 n (Nat.le_refl n), hst]; rfl

/-- An environment with the default scheduler as the collector sees it. -/
def timedObserved {W : Type} : Observed (Sched × W) Ref where
  agents sw := sw.1.agents
  key sw := sw.1.steps

/-- C57: a step that raises adds no row, neither of the model nor of the agents, and the exception reaches the caller. -/
theorem C57_failed_step (st : Stepper S) (ob : Observed S A) (regs : S → List (Reg S A)) (e : DataEnv S A) (name : String)
    (f : ModelRep S) (rows : List RVal) (hcol : HasColumn e.dc name f rows) (hregs : ∀ r ∈ regs e.state, r.isModel name = false)
    (hx : (st.step e.state).2 = true) :
    (e.step st ob regs).2 = true ∧ Dict.get? (e.step st ob regs).1.dc.modelVars name = some rows ∧
    (e.step st ob regs).1.dc.agentRecords = e.dc.agentRecords := by
  unfold DataEnv.step
  simp only [hx, if_true, true_and]
  refine ⟨(hcol.registerAll _ hregs).rows, ?_⟩
  have : ∀ (rs : List (Reg S A)) (c : Collector S A), (rs.foldl Collector.register c).agentRecords = c.agentRecords := by
    intro rs
    induction rs with
    | nil => intro c; rfl
    | cons r rs ih =>
      intro c
      rw [List.foldl_cons, ih]
      cases r <;> rfl
  exact this _ _

/-- C57 with the default scheduler: the column `time` never decreases. -/
theorem C57_time_column {W : Type} (H : Host W) (iv : Time) (hiv : 0 < iv) (sh : Bool) (w0 : W) (h : List (Cmd W)) (n : Nat)
    (hg : Spec.GoodLog (iterStep (timedStepper H) n (reach H iv sh w0 h)).1.log) (i j : Nat) (hij : i ≤ j) (hj : j ≤ n) :
    (timedStepper H).time (iterStep (timedStepper H) i (reach H iv sh w0 h)) ≤
      (timedStepper H).time (iterStep (timedStepper H) j (reach H iv sh w0 h)) := by
  have hr : ∀ k, iterStep (timedStepper H) k (reach H iv sh w0 h) = reach H iv sh w0 (h ++ List.replicate k .step) :=
    fun k => iterStep_reach H iv sh w0 h k
  have e1 : h ++ List.replicate j .step = (h ++ List.replicate i .step) ++ List.replicate (j - i) (Cmd.step : Cmd W) := by
    rw [List.append_assoc, List.replicate_append_replicate]
    congr 2; omega
  have e2 : h ++ List.replicate n .step = (h ++ List.replicate j .step) ++ List.replicate (n - j) (Cmd.step : Cmd W) := by
    rw [List.append_assoc, List.replicate_append_replicate]
    congr 2; omega
  rw [hr, e2] at hg
  have hg' : Spec.GoodLog (reach H iv sh w0 (h ++ List.replicate j .step)).1.log := by
    rw [reach, execAll_append] at hg
    obtain ⟨l, hl⟩ := execAll_log H (List.replicate (n - j) .step) (execAll H (h ++ List.replicate j .step) (Sched.init iv sh, w0))
    rw [hl] at hg; exact hg.prefix
  rw [hr, hr, e1] at *
  exact (C01_time_monotone H iv hiv sh w0 _ _ hg').2.1

/-- A run with three agents, with one reporter more and two steps. -/
def exDataEnv (n : Nat) : DataEnv (Sched × Unit) Ref × Bool :=
  (DataEnv.new timedObserved (soilCollector (timedStepper exHost) timedObserved
    [("steps", fun sw => some (.num (.fin sw.1.steps)))] []) [] true (reach exHost 1 true () exPop)).1.steps
      (timedStepper exHost) timedObserved (fun _ => []) n

example : (exDataEnv 2).2 = false ∧ (exDataEnv 2).1.dc.modelVars =
    [("steps", [.num 0, .num 1, .num 2]), ("agent_count", [.num 3, .num 4, .num 4]), ("time", [.num 0, .num 0, .num 1])] := by
  decide +kernel

/-! ### C72: records of agents -/

theorem collect_records (ob : Observed S A) (c : Collector S A) (s : S) (hok : (c.collect ob s).2 = false)
    (hne : c.agentReporters ≠ []) :
    ∃ rec, recordAgents ob c.agentReporters s = some rec ∧
      (c.collect ob s).1.agentRecords = Dict.set c.agentRecords (ob.key s) rec := by
  unfold Collector.collect at hok ⊢
  simp only at hok ⊢
  by_cases h1 : (collectModel s c.modelReporters c.modelVars).2 = true
  · rw [if_pos h1] at hok; cases hok
  · rw [if_neg h1] at hok ⊢
    have h2 : ¬ c.agentReporters.isEmpty = true := by simpa using hne
    rw [if_neg h2] at hok ⊢
    cases hr : recordAgents ob c.agentReporters s with
    | none => rw [hr] at hok; cases hok
    | some rec => exact ⟨rec, rfl, rfl⟩

/-- C72 is violated: whenever a step does not change the number under which records are kept (`schedule.steps`), the
records of the previous step are lost. -/
theorem C72_overwritten_false (st : Stepper S) (ob : Observed S A) (e : DataEnv S A)
    (hkey : ob.key (st.step e.state).1 = ob.key e.state) (hne : e.dc.agentReporters ≠ [])
    (hold : Dict.has e.dc.agentRecords (ob.key e.state) = true) (hok : (e.step st ob (fun _ => [])).2 = false) :
    ∃ rec, recordAgents ob e.dc.agentReporters (st.step e.state).1 = some rec ∧
      Dict.get? (e.step st ob (fun _ => [])).1.dc.agentRecords (ob.key e.state) = some rec ∧
      (e.step st ob (fun _ => [])).1.dc.agentRecords.length = e.dc.agentRecords.length := by
  unfold DataEnv.step at hok ⊢
  simp only [List.foldl_nil] at hok ⊢
  by_cases hx : (st.step e.state).2 = true
  · rw [if_pos hx] at hok; cases hok
  · rw [if_neg hx] at hok ⊢
    obtain ⟨rec, h1, h2⟩ := collect_records ob e.dc _ hok hne
    refine ⟨rec, h1, by rw [h2, hkey]; simp, ?_⟩
    rw [h2, hkey]
    have hk := Dict.keys_set e.dc.agentRecords (ob.key e.state) rec
    rw [if_pos ((Dict.mem_keys _ _).2 hold)] at hk
    have := congrArg List.length hk
    simpa [Dict.keys] using this

/-- That happens with the default scheduler when nothing is scheduled any more (all agents wait for ever or are dead). -/
theorem C72_exhausted_false {W : Type} (H : Host W) (sw : Sched × W) (hq : sw.1.queue = []) :
    timedObserved.key ((timedStepper H).step sw).1 = timedObserved.key sw := by
  simp [timedObserved, timedStepper, Sched.step, hq]

/-- C72, what holds: as long as the number increases with every step, there is one entry per step, with the values of the
reporters for the agents scheduled at that moment, and entries of earlier steps do not change. -/
theorem C72_increasing_partial (st : Stepper S) (ob : Observed S A) (n : Nat) (e : DataEnv S A)
    (hinc : ∀ i < n, ob.key (iterStep st i e.state) < ob.key (iterStep st (i + 1) e.state))
    (hne : e.dc.agentReporters ≠ []) (hok : (e.steps st ob (fun _ => []) n).2 = false) :
    (∀ i, 1 ≤ i → i ≤ n → ∃ rec, recordAgents ob e.dc.agentReporters (iterStep st i e.state) = some rec ∧
      Dict.get? (e.steps st ob (fun _ => []) n).1.dc.agentRecords (ob.key (iterStep st i e.state)) = some rec) ∧
    (∀ k ≤ ob.key e.state, Dict.get? (e.steps st ob (fun _ => []) n).1.dc.agentRecords k = Dict.get? e.dc.agentRecords k) := by
  induction n generalizing e with
  | zero => exact ⟨fun i h1 h2 => by omega, fun k _ => rfl⟩
  | succ n ih =>
    simp only [DataEnv.steps] at hok ⊢
    by_cases hs : (e.step st ob (fun _ => [])).2 = true
    · rw [if_pos hs, hs] at hok; cases hok
    · rw [if_neg hs] at hok ⊢
      have hst : (e.step st ob (fun _ => [])).1.state = (st.step e.state).1 ∧
          ((e.step st ob (fun _ => [])).1.dc = (e.dc.collect ob (st.step e.state).1).1) ∧
          (e.dc.collect ob (st.step e.state).1).2 = false := by
        unfold DataEnv.step at hs ⊢
        simp only [List.foldl_nil] at hs ⊢
        by_cases hx : (st.step e.state).2 = true
        · rw [if_pos hx] at hs; exact absurd rfl hs
        · rw [if_neg hx] at hs ⊢; exact ⟨rfl, rfl, by simpa using hs⟩
      obtain ⟨s1, s2, s3⟩ := hst
      obtain ⟨rec, r1, r2⟩ := collect_records ob e.dc _ s3 hne
      have hrep : (e.step st ob (fun _ => [])).1.dc.agentReporters = e.dc.agentReporters := by
        rw [s2]
        unfold Collector.collect
        simp only
        split
        · rfl
        · split
          · rfl
          · split <;> rfl
      have hlt := hinc 0 (by omega)
      have hk1 : ob.key (iterStep st 1 e.state) = ob.key (st.step e.state).1 := rfl
      rw [hk1] at hlt
      have hk0 : ob.key (iterStep st 0 e.state) = ob.key e.state := rfl
      rw [hk0] at hlt
      obtain ⟨i1, i2⟩ := ih (e.step st ob (fun _ => [])).1
        (fun i hi => by rw [s1]; exact hinc (i + 1) (by omega)) (by rw [hrep]; exact hne) hok
      rw [s1, hrep] at i1
      rw [s1] at i2
      constructor
      · intro i h1 h2
        by_cases hi : i = 1
        · subst hi
          refine ⟨rec, r1, ?_⟩
          rw [hk1, i2 _ (Nat.le_refl _), s2, r2]
          simp
        · obtain ⟨j, rfl⟩ : ∃ j, i = j + 1 := ⟨i - 1, by omega⟩
          exact i1 j (by omega) (by omega)
      · intro k hk
        rw [i2 k (by omega), s2, r2, Dict.get?_set_ne]
        omega

/-- With the default scheduler the number does increase with every step that finds something to do. -/
theorem C72_scheduler_partial {W : Type} (H : Host W) (s : Sched) (w : W) (h : Inv s) (hq : s.queue ≠ [])
    (hne : (s.step H w).2.2 = false) :
    timedObserved.key ((timedStepper H).step (s, w)).1 = timedObserved.key (s, w) + 1 := by
  have := h.step_steps (H := H) w hne
  simp only [timedObserved, timedStepper]
  simpa [hq] using this

/-- An environment whose only agent waits for ever after its first activation. -/
def exIdle (n : Nat) : DataEnv (Sched × Unit) Ref × Bool :=
  (DataEnv.new timedObserved (soilCollector (timedStepper idleHost) timedObserved []
    [("t", fun sw _ => some (.num sw.1.time))]) [] true (reach idleHost 1 true () [.op (.add 5 none)])).1.steps
      (timedStepper idleHost) timedObserved (fun _ => []) n
where
  idleHost : Host Unit :=
    ⟨fun _ _ _ => (.ret (some .inf), [], ()), fun l _ => (l, ()), fun l _ => List.Perm.refl l⟩

example : (exIdle 3).2 = false ∧ (exIdle 3).1.dc.agentRecords = [(0, [(5, [.num 0])]), (1, [(5, [.num .inf])])] ∧
    Dict.get? (exIdle 3).1.dc.modelVars "time" = some [.num 0, .num .inf, .num .inf, .num .inf] := by
  decide +kernel

/-! ### C58 -/

/-- C58 is violated: for an agent of the type the reporter never returns, whatever the reporter and however deep the
recursion may go. -/
theorem C58_recursion_false (isInstance : A → Bool) (reporter : AgentRep S A) (limit : Nat) (s : S) (a : A)
    (h : isInstance a = true) : typedReporter isInstance reporter limit s a = none := by
  induction limit with
  | zero => rfl
  | succ n ih => simp [typedReporter, h, ih]

/-- C58 is violated for whole runs: with such a reporter, no step of an environment with an agent of the type succeeds. -/
theorem C58_step_fails_false (st : Stepper S) (ob : Observed S A) (regs : S → List (Reg S A)) (e : DataEnv S A)
    (isInstance : A → Bool) (reporter : AgentRep S A) (limit : Nat) (name : String) (a : A)
    (hrep : (name, typedReporter isInstance reporter limit) ∈ ((regs e.state).foldl Collector.register e.dc).agentReporters)
    (ha : a ∈ ob.agents (st.step e.state).1) (h : isInstance a = true) : (e.step st ob regs).2 = true := by
  have hrec : ∀ (c : Collector S A) (s : S), (name, typedReporter isInstance reporter limit) ∈ c.agentReporters →
      a ∈ ob.agents s → recordAgents ob c.agentReporters s = none := by
    intro c s hc has
    unfold recordAgents
    have mapM_none : ∀ {α β : Type} (g : α → Option β) (l : List α) (x : α), x ∈ l → g x = none → l.mapM g = none := by
      intro α β g l x hx hg
      induction l with
      | nil => cases hx
      | cons y l ih =>
        rw [List.mapM_cons]
        rcases List.mem_cons.1 hx with e | hx
        · rw [← e, hg]; rfl
        · rw [ih hx]
          cases g y <;> rfl
    refine mapM_none _ _ a has ?_
    rw [mapM_none _ _ _ hc (C58_recursion_false isInstance reporter limit s a h)]
    rfl
  unfold DataEnv.step
  simp only
  split
  · rfl
  · unfold Collector.collect
    simp only
    split
    · rfl
    · split
      · rename_i he
        rw [List.isEmpty_iff] at he
        rw [he] at hrep; cases hrep
      · rw [hrec _ _ hrep ha]

/-- C58, what holds: agents of other types get `None`; and a reporter given without type is applied as it is. -/
theorem C58_others_partial (isInstance : A → Bool) (reporter : AgentRep S A) (limit : Nat) (s : S) (a : A)
    (h : isInstance a = false) : typedReporter isInstance reporter (limit + 1) s a = some .none := by
  simp [typedReporter, h]

theorem C58_untyped_partial (ob : Observed S A) (c : Collector S A) (name : String) (f : AgentRep S A) (s : S)
    (hempty : c.agentReporters = []) (hok : ((c.register (.agent name f)).collect ob s).2 = false) :
    ∃ rec, Dict.get? ((c.register (.agent name f)).collect ob s).1.agentRecords (ob.key s) = some rec ∧
      rec.map Prod.fst = ob.agents s ∧ ∀ a v, (a, v) ∈ rec → ∃ x, f s a = some x ∧ v = [x] := by
  obtain ⟨rec, h1, h2⟩ := collect_records ob (c.register (.agent name f)) s hok (by
    simp [Collector.register, Collector.newAgentReporter, hempty, Dict.set])
  refine ⟨rec, by rw [h2]; simp, ?_⟩
  clear h2 hok
  have hr : (c.register (.agent name f)).agentReporters = [(name, f)] := by
    simp [Collector.register, Collector.newAgentReporter, hempty, Dict.set]
  unfold recordAgents at h1
  rw [hr] at h1
  revert h1
  generalize ob.agents s = l
  intro h1
  induction l generalizing rec with
  | nil => simp at h1; subst h1; exact ⟨rfl, fun a v h => by cases h⟩
  | cons a l ih =>
    rw [List.mapM_cons] at h1
    cases hf : f s a with
    | none => simp [hf] at h1
    | some x =>
      cases hl : l.mapM (fun a => ([(name, f)].mapM (fun (nf : String × AgentRep S A) => nf.2 s a)).map (fun vs => (a, vs))) with
      | none => rw [hl] at h1; simp [hf] at h1
      | some r =>
        rw [hl] at h1
        simp [hf] at h1
        subst h1
        obtain ⟨i1, i2⟩ := ih r hl
        refine ⟨by simp [i1], ?_⟩
        intro b v hb
        rcases List.mem_cons.1 hb with hb | hb
        · cases hb; exact ⟨x, hf, rfl⟩
        · exact i2 b v hb

example : typedReporter (S := Unit) (fun a : Nat => a == 1) (fun _ _ => some (.obj 3)) 1000 () 1 = none ∧
    typedReporter (S := Unit) (fun a : Nat => a == 1) (fun _ _ => some (.obj 3)) 1000 () 2 = some .none := by
  decide +kernel

end Verif
