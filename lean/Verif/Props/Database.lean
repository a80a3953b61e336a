import Verif.Model.Database

/-!
# Theorems about the database of results
-/

namespace Verif

open List

/-! ## Writing -/

theorem Database.toSql_other {db db' : Database} {t : String} {f : DFrameDb} (h : db.toSql t f = some db') {t' : String} (ht : t' ≠ t) :
    Dict.get? db' t' = Dict.get? db t' := by
  unfold Database.toSql at h
  split at h
  · cases h
  · split at h
    · cases h
      exact Dict.get?_set_ne _ _ (Ne.symm ht)
    · split at h
      · cases h; rfl
      · split at h
        · cases h
          exact Dict.get?_set_ne _ _ (Ne.symm ht)
        · cases h

/-- The rows of a table; none if it does not exist. -/
def Database.rowsOf (db : Database) (t : String) : List DbRow := ((Dict.get? db t).map DbTable.rows).getD []

theorem Database.toSql_self {db db' : Database} {t : String} {f : DFrameDb} (h : db.toSql t f = some db') :
    db'.rowsOf t = db.rowsOf t ++ f.rows ∧ ∃ tb, Dict.get? db' t = some tb ∧
      (Dict.get? db t = none → tb.cols = f.idx ++ f.cols) ∧ ∀ tb0, Dict.get? db t = some tb0 → tb.cols = tb0.cols := by
  unfold Database.toSql at h
  split at h
  · cases h
  · split at h
    · rename_i hn
      cases h
      simp [Database.rowsOf, hn]
    · rename_i tb0 hs
      split at h
      · rename_i hr
        cases h
        simp [Database.rowsOf, hs, hr]
      · split at h
        · cases h
          simp [Database.rowsOf, hs]
        · cases h

theorem Database.toSqlAll_rows (fs : List (String × DFrameDb)) : ∀ {db db' : Database}, db.toSqlAll fs = some db' → (Dict.keys fs).Nodup →
    ∀ t, db'.rowsOf t = db.rowsOf t ++ ((Dict.get? (fs : Dict String DFrameDb) t).map DFrameDb.rows).getD [] := by
  induction fs with
  | nil =>
    intro db db' h _ t
    cases h
    simp
  | cons tf fs ih =>
    obtain ⟨t0, f⟩ := tf
    intro db db' h hnd t
    simp only [Database.toSqlAll] at h
    split at h
    · cases h
    · rename_i db1 h1
      simp only [Dict.keys, List.map_cons, List.nodup_cons] at hnd
      have hnd2 : (Dict.keys (fs : Dict String DFrameDb)).Nodup := hnd.2
      have := ih h hnd2 t
      rw [this]
      by_cases ht : t = t0
      · subst ht
        have hno : Dict.get? (fs : Dict String DFrameDb) t = none := (Dict.get?_none_iff _ _).2 hnd.1
        rw [hno, (Database.toSql_self h1).1]
        simp [Dict.get?]
      · have h2 := Database.toSql_other h1 ht
        have hg : Dict.get? (((t0, f) :: fs : Dict String DFrameDb)) t = Dict.get? (fs : Dict String DFrameDb) t := by
          simp [Dict.get?, Ne.symm ht]
        rw [hg]
        simp only [Database.rowsOf, h2]

/-- A property of the columns of a table that holds for all frames written to it. -/
theorem Database.toSqlAll_cols (t : String) (C : List String → Prop) (fs : List (String × DFrameDb)) :
    ∀ {db db' : Database}, db.toSqlAll fs = some db' → (∀ f, (t, f) ∈ fs → C (f.idx ++ f.cols)) →
    (∀ tb, Dict.get? db t = some tb → C tb.cols) →
    (∀ tb, Dict.get? db' t = some tb → C tb.cols) ∧
    ((∃ tb, Dict.get? db t = some tb) ∨ (∃ f, (t, f) ∈ fs) ↔ ∃ tb, Dict.get? db' t = some tb) := by
  induction fs with
  | nil =>
    intro db db' h _ hC
    cases h
    exact ⟨hC, by simp⟩
  | cons tf fs ih =>
    obtain ⟨t0, f⟩ := tf
    intro db db' h hf hC
    simp only [Database.toSqlAll] at h
    split at h
    · cases h
    · rename_i db1 h1
      have hf' : ∀ f, (t, f) ∈ fs → C (f.idx ++ f.cols) := fun f hm => hf f (List.mem_cons_of_mem _ hm)
      by_cases ht : t = t0
      · subst ht
        obtain ⟨_, tb, htb, ha, hb⟩ := Database.toSql_self h1
        have hc1 : ∀ tb, Dict.get? db1 t = some tb → C tb.cols := by
          intro tb' htb'
          rw [htb] at htb'; cases htb'
          cases hg : Dict.get? db t with
          | none => rw [ha hg]; exact hf f List.mem_cons_self
          | some tb0 => rw [hb tb0 hg]; exact hC tb0 hg
        obtain ⟨k1, k2⟩ := ih h hf' hc1
        refine ⟨k1, fun _ => k2.1 (Or.inl ⟨tb, htb⟩), fun _ => Or.inr ⟨f, List.mem_cons_self⟩⟩
      · have h2 := Database.toSql_other h1 ht
        obtain ⟨k1, k2⟩ := ih h hf' (by rw [h2]; exact hC)
        refine ⟨k1, ?_⟩
        rw [← k2, h2]
        simp [ht]

theorem get?_update_absent {K V : Type} [DecidableEq K] (e : Dict K V) : ∀ (d : Dict K V) (k : K), k ∉ Dict.keys e →
    Dict.get? (Dict.update d e) k = Dict.get? d k := by
  induction e with
  | nil => intro d k _; rfl
  | cons kv e ih =>
    intro d k hk
    simp only [Dict.keys, List.map_cons, List.mem_cons, not_or] at hk
    have : Dict.update d (kv :: e) = Dict.update (Dict.set d kv.1 kv.2) e := rfl
    rw [this, ih _ _ hk.2, Dict.get?_set_ne _ _ (Ne.symm hk.1)]

/-- The names that soil uses for its own tables. -/
def soilTables : List String := ["configuration", "parameters", "env", "agents"]

theorem DbJob.frames_wf (sid : String) (j : DbJob) : Dict.WF (j.frames sid) := by
  unfold DbJob.frames
  apply Dict.WF.update
  split
  · simp [Dict.WF, Dict.keys]
  · apply Dict.WF.set
    simp [Dict.WF, Dict.keys]

theorem DbJob.frames_get (sid : String) (j : DbJob) (h : ∀ t ∈ soilTables, t ∉ Dict.keys j.tables) :
    Dict.get? (j.frames sid) "env" = some (j.envFrame sid) ∧
    Dict.get? (j.frames sid) "agents" = (if j.areps = [] then none else some (j.agentFrame sid)) ∧
    Dict.get? (j.frames sid) "parameters" = none ∧ Dict.get? (j.frames sid) "configuration" = none := by
  have hk : ∀ t ∈ soilTables, t ∉ Dict.keys ((j.tables.map (fun t => (t.1, j.tableFrame sid t.2.1 t.2.2))) : Dict String DFrameDb) := by
    intro t ht hm
    refine h t ht ?_
    simpa [Dict.keys] using hm
  unfold DbJob.frames
  simp only [get?_update_absent _ _ _ (hk "env" (by simp [soilTables])), get?_update_absent _ _ _ (hk "agents" (by simp [soilTables])),
    get?_update_absent _ _ _ (hk "parameters" (by simp [soilTables])),
    get?_update_absent _ _ _ (hk "configuration" (by simp [soilTables]))]
  by_cases ha : j.areps = []
  · simp [ha, Dict.get?]
  · simp [ha, Dict.get?, Dict.set]

/-- All iterations, with the id of their simulation. -/
def allJobs (sims : List DbSim) : List (String × DbJob) := sims.flatMap (fun s => s.jobs.map (fun j => (s.sid, j)))

theorem mem_allJobs {sims : List DbSim} {x : String × DbJob} : x ∈ allJobs sims ↔ ∃ s ∈ sims, x.1 = s.sid ∧ x.2 ∈ s.jobs := by
  unfold allJobs
  simp only [List.mem_flatMap, List.mem_map]
  constructor
  · rintro ⟨s, hs, j, hj, rfl⟩
    exact ⟨s, hs, rfl, hj⟩
  · rintro ⟨s, hs, h1, h2⟩
    exact ⟨s, hs, x.2, h2, by rw [← h1]⟩

theorem Database.dumpJob_rows {sid : String} {j : DbJob} {db db' : Database} (h : db.dumpJob sid j = some db')
    (hr : ∀ t ∈ soilTables, t ∉ Dict.keys j.tables) :
    db'.rowsOf "env" = db.rowsOf "env" ++ (j.envFrame sid).rows ∧
    db'.rowsOf "agents" = db.rowsOf "agents" ++ (if j.areps = [] then [] else (j.agentFrame sid).rows) ∧
    db'.rowsOf "parameters" = db.rowsOf "parameters" ++ (j.paramFrame sid).rows := by
  obtain ⟨g1, g2, g3, g4⟩ := j.frames_get sid hr
  have hnd : (Dict.keys ((("parameters", j.paramFrame sid) :: j.frames sid : Dict String DFrameDb))).Nodup := by
    have := j.frames_wf sid
    simp only [Dict.WF, Dict.keys] at this ⊢
    rw [List.map_cons, List.nodup_cons]
    exact ⟨(Dict.get?_none_iff _ _).1 g3, this⟩
  have key := Database.toSqlAll_rows _ h hnd
  refine ⟨?_, ?_, ?_⟩
  · rw [key]
    simp only [Dict.get?] at g1 ⊢
    simp [g1]
  · rw [key]
    simp only [Dict.get?] at g2 ⊢
    by_cases ha : j.areps = []
    · simp [g2, ha]
    · simp [g2, ha]
  · rw [key]
    simp [Dict.get?]

theorem Database.dumpConfig_rows {sid : String} {conf : DbRow} {db db' : Database} (h : db.dumpConfig sid conf = some db') {t : String}
    (ht : t ≠ "configuration") : Dict.get? db' t = Dict.get? db t := Database.toSql_other h ht

/-- Everything that is true at the beginning and kept by each write is true at the end. -/
theorem Database.dumpSims_induct (P : List (String × DbJob) → Database → Prop)
    (hc : ∀ L sid conf db db', P L db → Database.dumpConfig sid conf db = some db' → P L db') (js : List (String × DbJob))
    (hj : ∀ L sid j db db', P L db → (sid, j) ∈ js → db.dumpJob sid j = some db' → P (L ++ [(sid, j)]) db') :
    ∀ (sims : List DbSim) (L : List (String × DbJob)) (db db' : Database), (∀ x ∈ allJobs sims, x ∈ js) → P L db →
      db.dumpSims sims = some db' → P (L ++ allJobs sims) db' := by
  have hjobs : ∀ (sid : String) (jobs : List DbJob) (L : List (String × DbJob)) (db db' : Database), (∀ j ∈ jobs, (sid, j) ∈ js) → P L db →
      db.dumpJobs sid jobs = some db' → P (L ++ jobs.map (fun j => (sid, j))) db' := by
    intro sid jobs
    induction jobs with
    | nil =>
      intro L db db' _ hP h
      cases h
      simpa using hP
    | cons j jobs ih =>
      intro L db db' hm hP h
      simp only [Database.dumpJobs] at h
      split at h
      · cases h
      · rename_i db1 h1
        have := ih (L ++ [(sid, j)]) db1 db' (fun j hj => hm j (List.mem_cons_of_mem _ hj)) (hj L sid j db db1 hP (hm j List.mem_cons_self) h1) h
        simpa using this
  intro sims
  induction sims with
  | nil =>
    intro L db db' _ hP h
    cases h
    simpa [allJobs] using hP
  | cons s sims ih =>
    intro L db db' hm hP h
    simp only [Database.dumpSims] at h
    split at h
    · cases h
    · rename_i db1 h1
      unfold Database.dump at h1
      split at h1
      · cases h1
      · rename_i db0 h0
        have k1 := hjobs s.sid s.jobs L db0 db1 (fun j hj => hm _ (mem_allJobs.2 ⟨s, List.mem_cons_self, rfl, hj⟩)) (hc L _ _ db db0 hP h0) h1
        have k2 := ih _ db1 db' (fun x hx => by
          obtain ⟨s', hs', h1, h2⟩ := mem_allJobs.1 hx
          exact hm x (mem_allJobs.2 ⟨s', List.mem_cons_of_mem _ hs', h1, h2⟩)) k1 h
        have : allJobs (s :: sims) = s.jobs.map (fun j => (s.sid, j)) ++ allJobs sims := by simp [allJobs]
        rw [this, ← List.append_assoc]
        exact k2

/-- The rows of the tables at the end. -/
theorem Database.dumpSims_rows {sims : List DbSim} {db : Database} (h : Database.dumpSims [] sims = some db)
    (hr : ∀ x ∈ allJobs sims, ∀ t ∈ soilTables, t ∉ Dict.keys x.2.tables) :
    db.rowsOf "env" = (allJobs sims).flatMap (fun x => (x.2.envFrame x.1).rows) ∧
    db.rowsOf "agents" = (allJobs sims).flatMap (fun x => if x.2.areps = [] then [] else (x.2.agentFrame x.1).rows) ∧
    db.rowsOf "parameters" = (allJobs sims).flatMap (fun x => (x.2.paramFrame x.1).rows) := by
  have := Database.dumpSims_induct (fun L db =>
    db.rowsOf "env" = L.flatMap (fun x => (x.2.envFrame x.1).rows) ∧
    db.rowsOf "agents" = L.flatMap (fun x => if x.2.areps = [] then [] else (x.2.agentFrame x.1).rows) ∧
    db.rowsOf "parameters" = L.flatMap (fun x => (x.2.paramFrame x.1).rows)) ?_ (allJobs sims) ?_ sims [] [] db (fun _ hx => hx) ?_ h
  · simpa using this
  · intro L sid conf db db' hP hd
    simp only [Database.rowsOf, Database.dumpConfig_rows hd (t := "env") (by decide),
      Database.dumpConfig_rows hd (t := "agents") (by decide), Database.dumpConfig_rows hd (t := "parameters") (by decide)]
    exact hP
  · intro L sid j db db' ⟨p1, p2, p3⟩ hm hd
    obtain ⟨k1, k2, k3⟩ := Database.dumpJob_rows hd (hr _ hm)
    simp [k1, k2, k3, p1, p2, p3]
  · simp [Database.rowsOf]

theorem Database.dumpJobs_mono (t : String) (sid : String) (jobs : List DbJob) : ∀ (db db' : Database), (∃ tb, Dict.get? db t = some tb) →
    db.dumpJobs sid jobs = some db' → ∃ tb, Dict.get? db' t = some tb := by
  induction jobs with
  | nil => intro db db' he h; cases h; exact he
  | cons j jobs ih =>
    intro db db' he h
    simp only [Database.dumpJobs] at h
    split at h
    · cases h
    · rename_i db1 h1
      exact ih db1 db' ((Database.toSqlAll_cols t (fun _ => True) _ h1 (fun _ _ => trivial) (fun _ _ => trivial)).2.1 (Or.inl he)) h

theorem Database.dumpSims_mono (t : String) (sims : List DbSim) : ∀ (db db' : Database), (∃ tb, Dict.get? db t = some tb) →
    db.dumpSims sims = some db' → ∃ tb, Dict.get? db' t = some tb := by
  induction sims with
  | nil => intro db db' he h; cases h; exact he
  | cons s sims ih =>
    intro db db' he h
    simp only [Database.dumpSims] at h
    split at h
    · cases h
    · rename_i db1 h1
      unfold Database.dump at h1
      split at h1
      · cases h1
      · rename_i db0 h0
        refine ih db1 db' (Database.dumpJobs_mono t s.sid s.jobs db0 db1 ?_ h1) h
        by_cases ht : t = "configuration"
        · obtain ⟨_, tb, htb, _⟩ := Database.toSql_self h0
          exact ⟨tb, ht ▸ htb⟩
        · rw [Database.toSql_other h0 ht]
          exact he

theorem params_mem_tagCols (cols : List String) : "params_id" ∈ tagCols cols := by
  unfold tagCols
  split
  · rename_i h; simp [h]
  · simp

/-- Which tables there are at the end, and some of their columns. -/
theorem Database.dumpSims_cols {sims : List DbSim} {db : Database} (h : Database.dumpSims [] sims = some db)
    (hr : ∀ x ∈ allJobs sims, ∀ t ∈ soilTables, t ∉ Dict.keys x.2.tables) :
    ((∀ tb, Dict.get? db "env" = some tb → ∀ c ∈ ["step", "simulation_id", "params_id", "iteration_id"], c ∈ tb.cols) ∧
      ((∃ tb, Dict.get? db "env" = some tb) ↔ allJobs sims ≠ [])) ∧
    ((∀ tb, Dict.get? db "agents" = some tb → ∀ c ∈ ["simulation_id", "params_id", "iteration_id", "step", "agent_id"], c ∈ tb.cols) ∧
      ((∃ tb, Dict.get? db "agents" = some tb) ↔ ∃ x ∈ allJobs sims, x.2.areps ≠ [])) ∧
    ((∀ tb, Dict.get? db "configuration" = some tb → "simulation_id" ∈ tb.cols) ∧
      ((∃ tb, Dict.get? db "configuration" = some tb) ∨ allJobs sims = [])) := by
  have hfr : ∀ x ∈ allJobs sims, ∀ t f, (t, f) ∈ ("parameters", x.2.paramFrame x.1) :: x.2.frames x.1 →
      (t = "env" → f = x.2.envFrame x.1) ∧ (t = "agents" → f = x.2.agentFrame x.1 ∧ x.2.areps ≠ []) ∧ t ≠ "configuration" := by
    intro x hx t f hm
    obtain ⟨g1, g2, g3, g4⟩ := x.2.frames_get x.1 (hr x hx)
    rcases List.mem_cons.1 hm with hm | hm
    · cases hm
      exact ⟨(fun h => absurd h (by decide)), (fun h => absurd h (by decide)), by decide⟩
    · have hg := Dict.get?_of_mem (x.2.frames_wf x.1) hm
      refine ⟨?_, ?_, ?_⟩
      · rintro rfl
        rw [g1] at hg; cases hg; rfl
      · rintro rfl
        rw [g2] at hg
        split at hg
        · cases hg
        · rename_i ha
          cases hg; exact ⟨rfl, ha⟩
      · rintro rfl
        rw [g4] at hg; cases hg
  have hfr2 : ∀ x ∈ allJobs sims, ("env", x.2.envFrame x.1) ∈ ("parameters", x.2.paramFrame x.1) :: x.2.frames x.1 ∧
      (x.2.areps ≠ [] → ("agents", x.2.agentFrame x.1) ∈ ("parameters", x.2.paramFrame x.1) :: x.2.frames x.1) := by
    intro x hx
    obtain ⟨g1, g2, g3, g4⟩ := x.2.frames_get x.1 (hr x hx)
    refine ⟨List.mem_cons_of_mem _ (Dict.get?_mem g1), ?_⟩
    intro ha
    rw [if_neg ha] at g2
    exact List.mem_cons_of_mem _ (Dict.get?_mem g2)
  refine ⟨?_, ?_, ?_⟩
  · have := Database.dumpSims_induct (fun L db =>
      (∀ tb, Dict.get? db "env" = some tb → ∀ c ∈ ["step", "simulation_id", "params_id", "iteration_id"], c ∈ tb.cols) ∧
      ((∃ tb, Dict.get? db "env" = some tb) ↔ L ≠ [])) ?_ (allJobs sims) ?_ sims [] [] db (fun _ hx => hx) ?_ h
    · simpa using this
    · intro L sid conf db db' hP hd
      rw [Database.dumpConfig_rows hd (t := "env") (by decide)]
      exact hP
    · intro L sid j db db' ⟨p1, p2⟩ hm hd
      obtain ⟨k1, k2⟩ := Database.toSqlAll_cols "env" (fun l => ∀ c ∈ ["step", "simulation_id", "params_id", "iteration_id"], c ∈ l) _ hd (by
        intro f hf
        rw [(hfr _ hm _ _ hf).1 rfl]
        have := params_mem_tagCols j.reps
        intro c hc
        simp only [List.mem_cons, List.not_mem_nil, or_false] at hc
        simp only [DbJob.envFrame, List.mem_append]
        rcases hc with rfl | rfl | rfl | rfl
        · simp
        · simp
        · exact Or.inr this
        · simp) p1
      exact ⟨k1, fun _ => by simp, fun _ => k2.1 (Or.inr ⟨_, (hfr2 _ hm).1⟩)⟩
    · simp
  · have := Database.dumpSims_induct (fun L db =>
      (∀ tb, Dict.get? db "agents" = some tb → ∀ c ∈ ["simulation_id", "params_id", "iteration_id", "step", "agent_id"], c ∈ tb.cols) ∧
      ((∃ tb, Dict.get? db "agents" = some tb) ↔ ∃ x ∈ L, x.2.areps ≠ [])) ?_ (allJobs sims) ?_ sims [] [] db (fun _ hx => hx) ?_ h
    · simpa using this
    · intro L sid conf db db' hP hd
      rw [Database.dumpConfig_rows hd (t := "agents") (by decide)]
      exact hP
    · intro L sid j db db' ⟨p1, p2⟩ hm hd
      obtain ⟨k1, k2⟩ := Database.toSqlAll_cols "agents"
        (fun l => ∀ c ∈ ["simulation_id", "params_id", "iteration_id", "step", "agent_id"], c ∈ l) _ hd (by
        intro f hf
        rw [((hfr _ hm _ _ hf).2.1 rfl).1]
        have := params_mem_tagCols j.areps
        intro c hc
        simp only [List.mem_cons, List.not_mem_nil, or_false] at hc
        simp only [DbJob.agentFrame, List.mem_append]
        rcases hc with rfl | rfl | rfl | rfl | rfl
        · simp
        · exact Or.inr this
        · simp
        · simp
        · simp) p1
      refine ⟨k1, ?_⟩
      rw [← k2, p2]
      constructor
      · rintro (⟨x, hx, ha⟩ | ⟨f, hf⟩)
        · exact ⟨x, by simp [hx], ha⟩
        · exact ⟨(sid, j), by simp, ((hfr _ hm _ _ hf).2.1 rfl).2⟩
      · rintro ⟨x, hx, ha⟩
        rcases List.mem_append.1 hx with hx | hx
        · exact Or.inl ⟨x, hx, ha⟩
        · rw [List.mem_singleton.1 hx] at ha
          exact Or.inr ⟨_, (hfr2 _ hm).2 ha⟩
    · simp
  · have hconf : ∀ (sid : String) (conf : DbRow) (db db' : Database), Database.dumpConfig sid conf db = some db' →
        (∀ tb, Dict.get? db "configuration" = some tb → "simulation_id" ∈ tb.cols) →
        (∀ tb, Dict.get? db' "configuration" = some tb → "simulation_id" ∈ tb.cols) ∧ ∃ tb, Dict.get? db' "configuration" = some tb := by
      intro sid conf db db' hd hP
      obtain ⟨_, tb, htb, ha, hb⟩ := Database.toSql_self hd
      refine ⟨?_, tb, htb⟩
      intro tb' htb'
      rw [htb] at htb'; cases htb'
      cases hg : Dict.get? db "configuration" with
      | none =>
        rw [ha hg]
        refine List.mem_append.2 (Or.inr ?_)
        exact (Dict.mem_keys _ _).2 (by simp)
      | some tb0 => rw [hb tb0 hg]; exact hP tb0 hg
    refine ⟨?_, ?_⟩
    · have := Database.dumpSims_induct (fun _ db => ∀ tb, Dict.get? db "configuration" = some tb → "simulation_id" ∈ tb.cols)
        ?_ (allJobs sims) ?_ sims [] [] db (fun _ hx => hx) ?_ h
      · exact this
      · intro L sid conf db db' hP hd
        exact (hconf sid conf db db' hd hP).1
      · intro L sid j db db' hP hm hd
        exact (Database.toSqlAll_cols "configuration" (fun l => "simulation_id" ∈ l) _ hd
          (fun f hf => absurd rfl ((hfr _ hm _ _ hf).2.2)) hP).1
      · simp
    · cases sims with
      | nil => exact Or.inr rfl
      | cons s sims =>
        refine Or.inl ?_
        simp only [Database.dumpSims] at h
        split at h
        · cases h
        · rename_i db1 h1
          unfold Database.dump at h1
          split at h1
          · cases h1
          · rename_i db0 h0
            obtain ⟨_, tb, htb, _⟩ := Database.toSql_self h0
            exact Database.dumpSims_mono "configuration" sims db1 db (Database.dumpJobs_mono "configuration" s.sid s.jobs db0 db1 ⟨tb, htb⟩ h1) h

/-- The columns of the table of parameters. -/
theorem Database.dumpSims_params {sims : List DbSim} {db : Database} (h : Database.dumpSims [] sims = some db)
    (hr : ∀ x ∈ allJobs sims, ∀ t ∈ soilTables, t ∉ Dict.keys x.2.tables) (C : List String → Prop)
    (hC : ∀ x ∈ allJobs sims, C ((x.2.paramFrame x.1).idx ++ (x.2.paramFrame x.1).cols)) :
    (∀ tb, Dict.get? db "parameters" = some tb → C tb.cols) ∧ ((∃ tb, Dict.get? db "parameters" = some tb) ↔ allJobs sims ≠ []) := by
  have := Database.dumpSims_induct (fun L db =>
      (∀ tb, Dict.get? db "parameters" = some tb → C tb.cols) ∧
      ((∃ tb, Dict.get? db "parameters" = some tb) ↔ L ≠ [])) ?_ (allJobs sims) ?_ sims [] [] db (fun _ hx => hx) ?_ h
  · simpa using this
  · intro L sid conf db db' hP hd
    rw [Database.dumpConfig_rows hd (t := "parameters") (by decide)]
    exact hP
  · intro L sid j db db' ⟨p1, p2⟩ hm hd
    obtain ⟨k1, k2⟩ := Database.toSqlAll_cols "parameters" C _ hd (by
      intro f hf
      rcases List.mem_cons.1 hf with hf | hf
      · cases hf
        exact hC _ hm
      · have hg := Dict.get?_of_mem (j.frames_wf sid) hf
        rw [(j.frames_get sid (hr _ hm)).2.2.1] at hg
        cases hg) p1
    exact ⟨k1, fun _ => by simp, fun _ => k2.1 (Or.inr ⟨_, List.mem_cons_self⟩)⟩
  · simp

/-- The rows of one iteration among those of all. -/
theorem filter_flatMap_key {A K : Type} (L : List A) (key : A → K) (f : A → List DbRow) (p : DbRow → Bool) (x : A) (hx : x ∈ L)
    (hnd : (L.map key).Nodup) (hp : ∀ y ∈ L, ∀ r ∈ f y, p r = true ↔ key y = key x) : (L.flatMap f).filter p = f x := by
  induction L with
  | nil => cases hx
  | cons y L ih =>
    simp only [List.map_cons, List.nodup_cons] at hnd
    rw [List.flatMap_cons, List.filter_append]
    have hp' : ∀ y ∈ L, ∀ r ∈ f y, p r = true ↔ key y = key x := fun z hz => hp z (List.mem_cons_of_mem _ hz)
    by_cases hyx : key y = key x
    · have hrest : (L.flatMap f).filter p = [] := by
        rw [List.filter_eq_nil_iff]
        intro r hr hpr
        obtain ⟨z, hz, hrz⟩ := List.mem_flatMap.1 hr
        have := (hp' z hz r hrz).1 hpr
        exact hnd.1 (by rw [hyx, ← this]; exact List.mem_map_of_mem hz)
      have hxy : x = y := by
        rcases List.mem_cons.1 hx with h | h
        · exact h
        · exact absurd (by rw [hyx]; exact List.mem_map_of_mem h) hnd.1
      subst hxy
      rw [hrest, List.append_nil, List.filter_eq_self]
      intro r hr
      exact (hp x List.mem_cons_self r hr).2 rfl
    · have h1 : (f y).filter p = [] := by
        rw [List.filter_eq_nil_iff]
        intro r hr hpr
        exact hyx ((hp y List.mem_cons_self r hr).1 hpr)
      have hxL : x ∈ L := by
        rcases List.mem_cons.1 hx with h | h
        · exact absurd (by rw [h]) hyx
        · exact h
      rw [h1, List.nil_append]
      exact ih hxL hnd.2 hp'

/-- Is the row one of the iteration? -/
def ofIteration (sid pid iid : String) (r : DbRow) : Bool :=
  decide (Dict.get? r "simulation_id" = some (.text sid) ∧ Dict.get? r "params_id" = some (.text pid) ∧
    Dict.get? r "iteration_id" = some (.text iid))

theorem tagRow_get (sid : String) (j : DbJob) (r : DbRow) :
    Dict.get? (tagRow sid j r) "simulation_id" = some (.text sid) ∧ Dict.get? (tagRow sid j r) "params_id" = some (.text j.pid) ∧
    Dict.get? (tagRow sid j r) "iteration_id" = some (.text j.iid) ∧
    ∀ c, c ≠ "simulation_id" → c ≠ "params_id" → c ≠ "iteration_id" → Dict.get? (tagRow sid j r) c = Dict.get? r c := by
  unfold tagRow
  refine ⟨?_, ?_, ?_, ?_⟩
  · rw [Dict.get?_set_ne _ _ (by decide), Dict.get?_set_ne _ _ (by decide), Dict.get?_set_self]
  · rw [Dict.get?_set_self]
  · rw [Dict.get?_set_ne _ _ (by decide), Dict.get?_set_self]
  · intro c h1 h2 h3
    rw [Dict.get?_set_ne _ _ (Ne.symm h2), Dict.get?_set_ne _ _ (Ne.symm h3), Dict.get?_set_ne _ _ (Ne.symm h1)]

theorem envFrame_row {sid : String} {j : DbJob} {r : DbRow} (h : r ∈ (j.envFrame sid).rows) :
    Dict.get? r "simulation_id" = some (.text sid) ∧ Dict.get? r "params_id" = some (.text j.pid) ∧
    Dict.get? r "iteration_id" = some (.text j.iid) := by
  obtain ⟨x, _, rfl⟩ := List.mem_map.1 h
  have := tagRow_get sid j x.2
  simp only [Dict.get?_set_ne _ _ (show "step" ≠ "simulation_id" by decide), Dict.get?_set_ne _ _ (show "step" ≠ "params_id" by decide),
    Dict.get?_set_ne _ _ (show "step" ≠ "iteration_id" by decide)]
  exact ⟨this.1, this.2.1, this.2.2.1⟩

theorem agentFrame_row {sid : String} {j : DbJob} {r : DbRow} (h : r ∈ (j.agentFrame sid).rows) :
    Dict.get? r "simulation_id" = some (.text sid) ∧ Dict.get? r "params_id" = some (.text j.pid) ∧
    Dict.get? r "iteration_id" = some (.text j.iid) := by
  obtain ⟨x, _, rfl⟩ := List.mem_map.1 h
  have := tagRow_get sid j x.2.2
  simp only [Dict.get?_set_ne _ _ (show "step" ≠ "simulation_id" by decide), Dict.get?_set_ne _ _ (show "step" ≠ "params_id" by decide),
    Dict.get?_set_ne _ _ (show "step" ≠ "iteration_id" by decide), Dict.get?_set_ne _ _ (show "agent_id" ≠ "simulation_id" by decide),
    Dict.get?_set_ne _ _ (show "agent_id" ≠ "params_id" by decide), Dict.get?_set_ne _ _ (show "agent_id" ≠ "iteration_id" by decide)]
  exact ⟨this.1, this.2.1, this.2.2.1⟩

/-- What identifies an iteration in the tables. -/
def iterKey (x : String × DbJob) : String × String × String := (x.1, x.2.pid, x.2.iid)

theorem ofIteration_iff {x y : String × DbJob} {r : DbRow} (h : Dict.get? r "simulation_id" = some (.text y.1) ∧
    Dict.get? r "params_id" = some (.text y.2.pid) ∧ Dict.get? r "iteration_id" = some (.text y.2.iid)) :
    ofIteration x.1 x.2.pid x.2.iid r = true ↔ iterKey y = iterKey x := by
  unfold ofIteration iterKey
  rw [decide_eq_true_iff, h.1, h.2.1, h.2.2]
  simp

theorem paramFrame_keys (sid : String) (j : DbJob) :
    (j.paramFrame sid).rows.map pivotKey = j.params.map (fun kv => (some (.text j.iid), some (.text j.pid), some (.text sid), some (.text kv.1))) := by
  have : ∀ (l : Dict String DbCell) (n : Nat), (l.zipIdx n).map (fun kv => pivotKey [("index", .other kv.2), ("simulation_id", .text sid),
      ("params_id", .text j.pid), ("iteration_id", .text j.iid), ("key", .text kv.1.1), ("value", kv.1.2)]) =
      l.map (fun kv => (some (.text j.iid), some (.text j.pid), some (.text sid), some (.text kv.1))) := by
    intro l
    induction l with
    | nil => intro n; rfl
    | cons kv l ih =>
      intro n
      rw [List.zipIdx_cons, List.map_cons, List.map_cons, ih]
      simp [pivotKey, Dict.get?]
  have h2 := this j.params 0
  simpa [DbJob.paramFrame, Function.comp_def] using h2

theorem paramFrame_pivot (sid : String) (j : DbJob) :
    (j.paramFrame sid).rows.map (fun r => (pivotKey r, Dict.get? r "value")) =
      j.params.map (fun kv => ((some (.text j.iid), some (.text j.pid), some (.text sid), some (.text kv.1)), some kv.2)) := by
  have : ∀ (l : Dict String DbCell) (n : Nat), (l.zipIdx n).map (fun kv =>
      let r : DbRow := [("index", .other kv.2), ("simulation_id", .text sid),
      ("params_id", .text j.pid), ("iteration_id", .text j.iid), ("key", .text kv.1.1), ("value", kv.1.2)]
      (pivotKey r, Dict.get? r "value")) =
      l.map (fun kv => ((some (.text j.iid), some (.text j.pid), some (.text sid), some (.text kv.1)), some kv.2)) := by
    intro l
    induction l with
    | nil => intro n; rfl
    | cons kv l ih =>
      intro n
      rw [List.zipIdx_cons, List.map_cons, List.map_cons, ih]
      simp [pivotKey, Dict.get?]
  have h2 := this j.params 0
  simpa [DbJob.paramFrame, Function.comp_def] using h2

theorem Database.readTable_ok {db : Database} {t : String} {idx : List String} {tb : DbTable} (h : Dict.get? db t = some tb)
    (hc : ∀ c ∈ idx, c ∈ tb.cols) : db.readTable t idx = .ok (db.rowsOf t) := by
  unfold Database.readTable Database.rowsOf
  rw [h]
  have : idx.all (fun c => decide (c ∈ tb.cols)) = true := by
    rw [List.all_eq_true]
    intro c h
    exact decide_eq_true (hc c h)
  simp [this]

/-- C169: when the simulations could be written to a new file, each combination of simulation, parameters and iteration occurs once, all have
parameters, at least one iteration has agent reporters, and no user table has the name of one of soil's, `read_sql` gives: the parameters as
a table with one row for each iteration and one column for each parameter; and for each iteration, selected by its identifiers, exactly the
steps and the values of each reporter in the order in which they were collected, and the same for the agents. -/
theorem C169_read_back_partial (sims : List DbSim) (db : Database) (h : Database.dumpSims [] sims = some db)
    (htab : ∀ s ∈ sims, ∀ j ∈ s.jobs, ∀ t ∈ Dict.keys j.tables, t ∉ ["configuration", "parameters", "env", "agents"])
    (hpar : ∀ s ∈ sims, ∀ j ∈ s.jobs, j.params ≠ [] ∧ Dict.WF j.params)
    (hag : ∃ s ∈ sims, ∃ j ∈ s.jobs, j.areps ≠ [])
    (hid : (sims.flatMap (fun s => s.jobs.map (fun j => (s.sid, j.pid, j.iid)))).Nodup) :
    ∃ r P, db.readSql = .ok r ∧ r.pivot = some P ∧ ∀ s ∈ sims, ∀ j ∈ s.jobs,
      (∀ k, Dict.get? P (some (.text j.iid), some (.text j.pid), some (.text s.sid), some (.text k)) = (Dict.get? j.params k).map some) ∧
      (∀ c, c ∉ ["step", "simulation_id", "iteration_id", "params_id"] →
        (r.env.filter (ofIteration s.sid j.pid j.iid)).map (fun x => (Dict.get? x "step", Dict.get? x c)) =
          j.recs.map (fun x => (some (.other x.1), Dict.get? x.2 c))) ∧
      (j.areps ≠ [] → ∀ c, c ∉ ["step", "agent_id", "simulation_id", "iteration_id", "params_id"] →
        (r.agents.filter (ofIteration s.sid j.pid j.iid)).map (fun x => (Dict.get? x "step", Dict.get? x "agent_id", Dict.get? x c)) =
          j.arecs.map (fun x => (some (.other x.1), some (.other x.2.1), Dict.get? x.2.2 c))) := by
  have hr : ∀ x ∈ allJobs sims, ∀ t ∈ soilTables, t ∉ Dict.keys x.2.tables := by
    intro x hx t ht hk
    obtain ⟨s, hs, _, hj⟩ := mem_allJobs.1 hx
    exact htab s hs _ hj t hk ht
  have hall : ((allJobs sims).map iterKey).Nodup := by
    have : (allJobs sims).map iterKey = sims.flatMap (fun s => s.jobs.map (fun j => (s.sid, j.pid, j.iid))) := by
      unfold allJobs
      rw [List.map_flatMap]
      simp [Function.comp_def, iterKey]
    rw [this]; exact hid
  obtain ⟨s0, hs0, j0, hj0, ha0⟩ := hag
  have hx0 : (s0.sid, j0) ∈ allJobs sims := mem_allJobs.2 ⟨s0, hs0, rfl, hj0⟩
  have hne : allJobs sims ≠ [] := fun he => by rw [he] at hx0; cases hx0
  obtain ⟨⟨e1, e2⟩, ⟨a1, a2⟩, c1, c2⟩ := Database.dumpSims_cols h hr
  obtain ⟨r1, r2, r3⟩ := Database.dumpSims_rows h hr
  obtain ⟨p1, p2⟩ := Database.dumpSims_params h hr (fun l => ∀ c ∈ ["iteration_id", "params_id", "simulation_id"], c ∈ l) (by
    intro x hx
    obtain ⟨s, hs, _, hj⟩ := mem_allJobs.1 hx
    simp [DbJob.paramFrame, (hpar s hs _ hj).1])
  obtain ⟨te, hte⟩ := e2.2 hne
  obtain ⟨ta, hta⟩ := a2.2 ⟨_, hx0, ha0⟩
  obtain ⟨tc, htc⟩ := c2.resolve_right hne
  obtain ⟨tp, htp⟩ := p2.2 hne
  have hkeys : ((allJobs sims).flatMap (fun x => (x.2.paramFrame x.1).rows)).map pivotKey =
      (allJobs sims).flatMap (fun x => x.2.params.map (fun kv =>
        ((some (DbCell.text x.2.iid), some (DbCell.text x.2.pid), some (DbCell.text x.1), some (DbCell.text kv.1)) :
          Option DbCell × Option DbCell × Option DbCell × Option DbCell))) := by
    rw [List.map_flatMap]
    simp only [paramFrame_keys]
  have hnd : (((allJobs sims).flatMap (fun x => (x.2.paramFrame x.1).rows)).map pivotKey).Nodup := by
    rw [hkeys, List.nodup_flatMap]
    refine ⟨?_, ?_⟩
    · intro x hx
      obtain ⟨s, hs, _, hj⟩ := mem_allJobs.1 hx
      have hwf := (hpar s hs _ hj).2
      unfold Dict.WF Dict.keys at hwf
      rw [List.nodup_iff_pairwise_ne, List.pairwise_map] at hwf ⊢
      exact hwf.imp (fun hab heq => hab (by simpa using heq))
    · rw [List.nodup_iff_pairwise_ne, List.pairwise_map] at hall
      refine hall.imp ?_
      intro x y hxy
      simp only [Function.onFun]
      intro k hk1 hk2
      obtain ⟨kv, _, rfl⟩ := List.mem_map.1 hk1
      obtain ⟨kv', _, hkv⟩ := List.mem_map.1 hk2
      simp only [Prod.mk.injEq, Option.some.injEq, DbCell.text.injEq] at hkv
      exact hxy (by simp [iterKey, hkv])
  refine ⟨⟨db.rowsOf "configuration", pivotRows (db.rowsOf "parameters"), db.rowsOf "parameters", db.rowsOf "env", db.rowsOf "agents"⟩,
    (db.rowsOf "parameters").map (fun r => (pivotKey r, Dict.get? r "value")), ?_, ?_, ?_⟩
  · unfold Database.readSql
    rw [Database.readTable_ok hte (e1 te hte), Database.readTable_ok hta (a1 ta hta),
      Database.readTable_ok htc (by simpa using c1 tc htc), Database.readTable_ok htp (p1 tp htp)]
    rfl
  · simp only [pivotRows]
    rw [r3, if_pos hnd]
  · intro s hs j hj
    have hx : (s.sid, j) ∈ allJobs sims := mem_allJobs.2 ⟨s, hs, rfl, hj⟩
    refine ⟨?_, ?_, ?_⟩
    · intro k
      rw [r3]
      have hP : ((allJobs sims).flatMap (fun x => (x.2.paramFrame x.1).rows)).map (fun r => (pivotKey r, Dict.get? r "value")) =
          (allJobs sims).flatMap (fun x => x.2.params.map (fun kv =>
            ((some (DbCell.text x.2.iid), some (DbCell.text x.2.pid), some (DbCell.text x.1), some (DbCell.text kv.1)), some kv.2))) := by
        rw [List.map_flatMap]
        simp only [paramFrame_pivot]
      have hwf : Dict.WF (((allJobs sims).flatMap (fun x => (x.2.paramFrame x.1).rows)).map (fun r => (pivotKey r, Dict.get? r "value"))) := by
        unfold Dict.WF Dict.keys
        rw [List.map_map]
        exact hnd
      cases hk : Dict.get? j.params k with
      | some v =>
        refine Dict.get?_of_mem hwf ?_
        rw [hP]
        exact List.mem_flatMap.2 ⟨(s.sid, j), hx, List.mem_map.2 ⟨(k, v), Dict.get?_mem hk, rfl⟩⟩
      | none =>
        rw [Option.map_none, Dict.get?_none_iff]
        unfold Dict.keys
        rw [List.map_map]
        intro hm
        have hm : (some (DbCell.text j.iid), some (DbCell.text j.pid), some (DbCell.text s.sid), some (DbCell.text k)) ∈
          ((allJobs sims).flatMap (fun x => (x.2.paramFrame x.1).rows)).map pivotKey := hm
        rw [hkeys] at hm
        obtain ⟨y, hy, hm⟩ := List.mem_flatMap.1 hm
        obtain ⟨kv, hkv, heq⟩ := List.mem_map.1 hm
        simp only [Prod.mk.injEq, Option.some.injEq, DbCell.text.injEq] at heq
        have hxy : y = (s.sid, j) := by
          refine List.inj_on_of_nodup_map hall hy hx ?_
          simp [iterKey, heq]
        subst hxy
        refine (Dict.get?_none_iff _ _).1 hk ?_
        rw [← heq.2.2.2]
        exact List.mem_map_of_mem hkv
    · intro c hc
      simp only [List.mem_cons, List.not_mem_nil, or_false, not_or] at hc
      simp only
      rw [r1, filter_flatMap_key (allJobs sims) iterKey _ _ (s.sid, j) hx hall
        (fun y _ r hr => ofIteration_iff (x := (s.sid, j)) (y := y) (envFrame_row hr))]
      simp only [DbJob.envFrame, List.map_map]
      refine List.map_congr_left (fun x _ => ?_)
      simp only [Function.comp_apply, Dict.get?_set_self, Dict.get?_set_ne _ _ (Ne.symm hc.1),
        (tagRow_get s.sid j x.2).2.2.2 c hc.2.1 hc.2.2.2 hc.2.2.1]
    · intro ha c hc
      simp only [List.mem_cons, List.not_mem_nil, or_false, not_or] at hc
      simp only
      rw [r2, filter_flatMap_key (allJobs sims) iterKey _ _ (s.sid, j) hx hall
        (fun y _ r hr => ofIteration_iff (x := (s.sid, j)) (y := y) (by
          split at hr
          · cases hr
          · exact agentFrame_row hr))]
      simp only [DbJob.agentFrame, if_neg ha, List.map_map]
      refine List.map_congr_left (fun x _ => ?_)
      simp only [Function.comp_apply, Dict.get?_set_self, Dict.get?_set_ne _ _ (show "agent_id" ≠ "step" by decide),
        Dict.get?_set_ne _ _ (Ne.symm hc.1), Dict.get?_set_ne _ _ (Ne.symm hc.2.1),
        (tagRow_get s.sid j x.2.2).2.2.2 c hc.2.2.1 hc.2.2.2.2 hc.2.2.2.1]

/-- C169, violated without agent reporters: the table `agents` is not written, and `read_sql` raises, even though the agents were not asked for
(`include_agents` is not looked at). -/
theorem C169_no_agents_false (sims : List DbSim) (db : Database) (h : Database.dumpSims [] sims = some db)
    (htab : ∀ s ∈ sims, ∀ j ∈ s.jobs, ∀ t ∈ Dict.keys j.tables, t ∉ ["configuration", "parameters", "env", "agents"])
    (hno : ∀ s ∈ sims, ∀ j ∈ s.jobs, j.areps = []) : db.readSql = .error .noTable := by
  have hr : ∀ x ∈ allJobs sims, ∀ t ∈ soilTables, t ∉ Dict.keys x.2.tables := by
    intro x hx t ht hk
    obtain ⟨s, hs, _, hj⟩ := mem_allJobs.1 hx
    exact htab s hs _ hj t hk ht
  obtain ⟨⟨e1, e2⟩, ⟨a1, a2⟩, _⟩ := Database.dumpSims_cols h hr
  have hag : Dict.get? db "agents" = none := by
    cases hg : Dict.get? db "agents" with
    | none => rfl
    | some tb =>
      obtain ⟨x, hx, hne⟩ := a2.1 ⟨tb, hg⟩
      obtain ⟨s, hs, _, hj⟩ := mem_allJobs.1 hx
      exact absurd (hno s hs _ hj) hne
  unfold Database.readSql
  cases hg : Dict.get? db "env" with
  | none => simp only [Database.readTable, hg]; rfl
  | some te =>
    rw [Database.readTable_ok hg (e1 te hg)]
    simp only [Database.readTable, hag]
    rfl

/-- C169, violated without parameters: the table of the parameters has no columns for the identifiers, and `read_sql` raises `KeyError`. -/
theorem C169_no_params_false (sims : List DbSim) (db : Database) (h : Database.dumpSims [] sims = some db)
    (htab : ∀ s ∈ sims, ∀ j ∈ s.jobs, ∀ t ∈ Dict.keys j.tables, t ∉ ["configuration", "parameters", "env", "agents"])
    (hno : ∀ s ∈ sims, ∀ j ∈ s.jobs, j.params = []) (hag : ∃ s ∈ sims, ∃ j ∈ s.jobs, j.areps ≠ []) :
    db.readSql = .error .noColumn := by
  have hr : ∀ x ∈ allJobs sims, ∀ t ∈ soilTables, t ∉ Dict.keys x.2.tables := by
    intro x hx t ht hk
    obtain ⟨s, hs, _, hj⟩ := mem_allJobs.1 hx
    exact htab s hs _ hj t hk ht
  obtain ⟨s0, hs0, j0, hj0, ha0⟩ := hag
  have hx0 : (s0.sid, j0) ∈ allJobs sims := mem_allJobs.2 ⟨s0, hs0, rfl, hj0⟩
  have hne : allJobs sims ≠ [] := fun he => by rw [he] at hx0; cases hx0
  obtain ⟨⟨e1, e2⟩, ⟨a1, a2⟩, c1, c2⟩ := Database.dumpSims_cols h hr
  obtain ⟨p1, p2⟩ := Database.dumpSims_params h hr (fun l => l = ["index"]) (by
    intro x hx
    obtain ⟨s, hs, _, hj⟩ := mem_allJobs.1 hx
    simp [DbJob.paramFrame, hno s hs _ hj])
  obtain ⟨te, hte⟩ := e2.2 hne
  obtain ⟨ta, hta⟩ := a2.2 ⟨_, hx0, ha0⟩
  obtain ⟨tc, htc⟩ := c2.resolve_right hne
  obtain ⟨tp, htp⟩ := p2.2 hne
  have hp : db.readTable "parameters" ["iteration_id", "params_id", "simulation_id"] = .error .noColumn := by
    unfold Database.readTable
    rw [htp]
    simp [p1 tp htp]
  unfold Database.readSql
  rw [Database.readTable_ok hte (e1 te hte), Database.readTable_ok hta (a1 ta hta),
    Database.readTable_ok htc (by simpa using c1 tc htc), hp]
  rfl

/-- C169, violated when a combination of simulation, parameters and iteration occurs twice (the same simulation run twice into the same file;
a combination of the matrix that is equal to `parameters`): if all have some parameter in common, the parameters are not pivoted. -/
theorem C169_twice_false (sims : List DbSim) (db : Database) (h : Database.dumpSims [] sims = some db)
    (htab : ∀ s ∈ sims, ∀ j ∈ s.jobs, ∀ t ∈ Dict.keys j.tables, t ∉ ["configuration", "parameters", "env", "agents"])
    (k : String) (hk : ∀ s ∈ sims, ∀ j ∈ s.jobs, k ∈ Dict.keys j.params)
    (hid : ¬ (sims.flatMap (fun s => s.jobs.map (fun j => (s.sid, j.pid, j.iid)))).Nodup) :
    ∀ r, db.readSql = .ok r → r.pivot = none := by
  have hr : ∀ x ∈ allJobs sims, ∀ t ∈ soilTables, t ∉ Dict.keys x.2.tables := by
    intro x hx t ht hk
    obtain ⟨s, hs, _, hj⟩ := mem_allJobs.1 hx
    exact htab s hs _ hj t hk ht
  intro r hread
  have hrows : r.pivot = pivotRows (db.rowsOf "parameters") := by
    unfold Database.readSql Database.readTable at hread
    cases h1 : Dict.get? db "env" <;> cases h2 : Dict.get? db "agents" <;> cases h3 : Dict.get? db "configuration" <;>
      cases h4 : Dict.get? db "parameters" <;> simp only [h1, h2, h3, h4] at hread <;>
      (try (cases hread; done)) <;> (try (split at hread <;> cases hread; done)) <;>
      (try (split at hread <;> [split at hread <;> cases hread; cases hread]; done)) <;>
      (try (split at hread <;> [split at hread <;> [split at hread <;> cases hread; cases hread]; cases hread]; done))
    split at hread
    · split at hread
      · split at hread
        · split at hread
          · cases hread
            simp [Database.rowsOf, h4]
          · cases hread
        · cases hread
      · cases hread
    · cases hread
  rw [hrows, (Database.dumpSims_rows h hr).2.2]
  unfold pivotRows
  rw [if_neg]
  intro hnd
  apply hid
  rw [List.map_flatMap] at hnd
  simp only [paramFrame_keys] at hnd
  rw [List.nodup_flatMap] at hnd
  have : (allJobs sims).map iterKey = sims.flatMap (fun s => s.jobs.map (fun j => (s.sid, j.pid, j.iid))) := by
    unfold allJobs
    rw [List.map_flatMap]
    simp [Function.comp_def, iterKey]
  rw [← this, List.nodup_iff_pairwise_ne, List.pairwise_map]
  refine hnd.2.imp_of_mem ?_
  intro x y hx hy hdis heq
  obtain ⟨s, hs, _, hj⟩ := mem_allJobs.1 hx
  obtain ⟨s', hs', _, hj'⟩ := mem_allJobs.1 hy
  obtain ⟨kv, hkv, hkv'⟩ := List.mem_map.1 (hk s hs _ hj)
  obtain ⟨kw, hkw, hkw'⟩ := List.mem_map.1 (hk s' hs' _ hj')
  simp only [iterKey, Prod.mk.injEq] at heq
  refine hdis (List.mem_map.2 ⟨kv, hkv, rfl⟩) (List.mem_map.2 ⟨kw, hkw, ?_⟩)
  simp [heq, hkv', hkw']

/-! ## Names of reporters and tables -/

/-- C170, violated: a model reporter called `step` makes every write of an iteration raise. -/
theorem C170_step_false (sid : String) (j : DbJob) (db : Database) (h : "step" ∈ j.reps) (ht : "env" ∉ Dict.keys j.tables) :
    db.dumpJob sid j = none := by
  have hget : Dict.get? (j.frames sid) "env" = some (j.envFrame sid) := by
    unfold DbJob.frames
    simp only
    rw [get?_update_absent]
    · split <;> simp [Dict.get?, Dict.set]
    · intro hm
      refine ht ?_
      simpa [Dict.keys] using hm
  have key : ∀ (fs : List (String × DFrameDb)) (db : Database), ("env", j.envFrame sid) ∈ fs → db.toSqlAll fs = none := by
    intro fs
    induction fs with
    | nil => intro db hm; cases hm
    | cons tf fs ih =>
      intro db hm
      obtain ⟨t, f⟩ := tf
      simp only [Database.toSqlAll]
      rcases List.mem_cons.1 hm with hm | hm
      · cases hm
        have : ¬ ((j.envFrame sid).idx ++ (j.envFrame sid).cols).Nodup := by
          intro hnd
          have hin : "step" ∈ tagCols j.reps := by
            unfold tagCols
            split <;> simp [h]
          exact (List.nodup_append.1 hnd).2.2 "step" (by simp [DbJob.envFrame]) "step" hin rfl
        simp [Database.toSql, this]
      · split
        · rfl
        · exact ih _ hm
  exact key _ db (List.mem_cons_of_mem _ (Dict.get?_mem hget))

/-- C170, violated: what a reporter called `params_id`, `simulation_id` or `iteration_id` reports is lost; every row has the identifiers
of the iteration there. -/
theorem C170_overwritten_false (sid : String) (j : DbJob) (db db' : Database) (h : db.dumpJob sid j = some db')
    (htab : ∀ t ∈ Dict.keys j.tables, t ∉ ["configuration", "parameters", "env", "agents"]) (c : String)
    (hc : c ∈ ["params_id", "simulation_id", "iteration_id"]) :
    ∃ new, ((Dict.get? db' "env").map DbTable.rows).getD [] = ((Dict.get? db "env").map DbTable.rows).getD [] ++ new ∧
      new.length = j.recs.length ∧ ∀ r ∈ new, ∀ r' ∈ new, Dict.get? r c = Dict.get? r' c ∧
      Dict.get? r c = some (.text (if c = "params_id" then j.pid else if c = "simulation_id" then sid else j.iid)) := by
  have hr := (Database.dumpJob_rows h (fun t ht hk => htab t hk ht)).1
  refine ⟨_, hr, by simp [DbJob.envFrame], ?_⟩
  intro r hr r' hr'
  have h1 := envFrame_row hr
  have h2 := envFrame_row hr'
  simp only [List.mem_cons, List.not_mem_nil, or_false] at hc
  rcases hc with rfl | rfl | rfl
  · simp [h1, h2]
  · simp [h1, h2]
  · simp [h1, h2]

/-- C170, violated: a table of the user called `env` takes the place of what the model reporters have recorded; none of it is written. -/
theorem C170_env_false (sid : String) (j : DbJob) (db : Database) (cols : List String) (rows : List DbRow) (hwf : Dict.WF j.tables)
    (ht : Dict.get? j.tables "env" = some (cols, rows)) (hp : "parameters" ∉ Dict.keys j.tables) (h : Database.dumpJob sid [] j = some db) :
    ((Dict.get? db "env").map DbTable.rows).getD [] = rows.zipIdx.map (fun r => Dict.set (tagRow sid j r.1) "level_0" (.other r.2)) := by
  have hget : ∀ t, Dict.get? ((j.tables.map (fun t => (t.1, j.tableFrame sid t.2.1 t.2.2))) : Dict String DFrameDb) t =
      (Dict.get? j.tables t).map (fun x => j.tableFrame sid x.1 x.2) := by
    intro t
    generalize j.tables = T
    induction T with
    | nil => rfl
    | cons x T ih =>
      simp only [List.map_cons, Dict.get?]
      split
      · rfl
      · exact ih
  have hwf' : Dict.WF ((j.tables.map (fun t => (t.1, j.tableFrame sid t.2.1 t.2.2))) : Dict String DFrameDb) := by
    unfold Dict.WF Dict.keys at hwf ⊢
    rw [List.map_map]
    exact hwf
  have h1 : Dict.get? (j.frames sid) "env" = some (j.tableFrame sid cols rows) := by
    unfold DbJob.frames
    simp only
    rw [Dict.get?_update _ _ hwf', hget, ht]
    rfl
  have h2 : Dict.get? (j.frames sid) "parameters" = none := by
    unfold DbJob.frames
    simp only
    rw [Dict.get?_update _ _ hwf', hget, (Dict.get?_none_iff _ _).2 hp]
    split <;> simp [Dict.get?, Dict.set]
  have hnd : (Dict.keys ((("parameters", j.paramFrame sid) :: j.frames sid : Dict String DFrameDb))).Nodup := by
    have := j.frames_wf sid
    simp only [Dict.WF, Dict.keys] at this ⊢
    rw [List.map_cons, List.nodup_cons]
    exact ⟨(Dict.get?_none_iff _ _).1 h2, this⟩
  have key := Database.toSqlAll_rows _ h hnd "env"
  simp only [Dict.get?] at h1 key
  unfold Database.rowsOf at key
  rw [key]
  simp [h1, DbJob.tableFrame]

theorem Database.toSql_fixed {db : Database} {t : String} {f : DFrameDb} (F : String → List String)
    (hF : ∀ t tb, Dict.get? db t = some tb → tb.cols = F t) (hf : f.idx ++ f.cols = F t) (hnd : (F t).Nodup) :
    ∃ db', db.toSql t f = some db' ∧ ∀ t tb, Dict.get? db' t = some tb → tb.cols = F t := by
  have hex : ∃ db', db.toSql t f = some db' := by
    unfold Database.toSql
    rw [hf, if_neg (by simpa using hnd)]
    cases hg : Dict.get? db t with
    | none => exact ⟨_, rfl⟩
    | some tb =>
      simp only
      by_cases hr : f.rows = []
      · rw [if_pos hr]; exact ⟨_, rfl⟩
      · rw [if_neg hr, if_pos]
        · exact ⟨_, rfl⟩
        · rw [List.all_eq_true]
          intro c hc
          rw [hF t tb hg]
          exact decide_eq_true hc
  obtain ⟨db', h⟩ := hex
  refine ⟨db', h, ?_⟩
  intro t' tb' ht'
  by_cases he : t' = t
  · subst he
    obtain ⟨_, tb, htb, ha, hb⟩ := Database.toSql_self h
    rw [htb] at ht'; cases ht'
    cases hg : Dict.get? db t' with
    | none => rw [ha hg, hf]
    | some tb0 => rw [hb tb0 hg, hF _ _ hg]
  · rw [Database.toSql_other h he] at ht'
    exact hF _ _ ht'

theorem Database.toSqlAll_fixed (F : String → List String) (fs : List (String × DFrameDb)) : ∀ (db : Database),
    (∀ t tb, Dict.get? db t = some tb → tb.cols = F t) → (∀ x ∈ fs, x.2.idx ++ x.2.cols = F x.1 ∧ (F x.1).Nodup) →
    ∃ db', db.toSqlAll fs = some db' ∧ ∀ t tb, Dict.get? db' t = some tb → tb.cols = F t := by
  induction fs with
  | nil => intro db hF _; exact ⟨db, rfl, hF⟩
  | cons x fs ih =>
    obtain ⟨t, f⟩ := x
    intro db hF hx
    obtain ⟨db1, h1, hF1⟩ := Database.toSql_fixed F hF (hx _ List.mem_cons_self).1 (hx _ List.mem_cons_self).2
    obtain ⟨db2, h2, hF2⟩ := ih db1 hF1 (fun x hm => hx x (List.mem_cons_of_mem _ hm))
    refine ⟨db2, ?_, hF2⟩
    simp only [Database.toSqlAll]
    simp only at h1
    rw [h1]
    exact h2

theorem mem_set {K V : Type} [DecidableEq K] {d : Dict K V} {k : K} {v : V} {x : K × V} (h : x ∈ Dict.set d k v) : x ∈ d ∨ x = (k, v) := by
  induction d with
  | nil => exact Or.inr (List.mem_singleton.1 h)
  | cons y d ih =>
    obtain ⟨a, b⟩ := y
    simp only [Dict.set] at h
    split at h
    · rcases List.mem_cons.1 h with h | h
      · exact Or.inr h
      · exact Or.inl (List.mem_cons_of_mem _ h)
    · rcases List.mem_cons.1 h with h | h
      · exact Or.inl (by rw [h]; exact List.mem_cons_self)
      · rcases ih h with h | h
        · exact Or.inl (List.mem_cons_of_mem _ h)
        · exact Or.inr h

theorem mem_update {K V : Type} [DecidableEq K] (e : Dict K V) : ∀ {d : Dict K V} {x : K × V}, x ∈ Dict.update d e → x ∈ d ∨ x ∈ e := by
  induction e with
  | nil => intro d x h; exact Or.inl h
  | cons y e ih =>
    intro d x h
    have h : x ∈ Dict.update (Dict.set d y.1 y.2) e := h
    rcases ih h with h | h
    · rcases mem_set h with h | h
      · exact Or.inl h
      · exact Or.inr (by rw [h]; exact List.mem_cons_self)
    · exact Or.inr (List.mem_cons_of_mem _ h)

theorem tagCols_nodup {cols : List String} (h : cols.Nodup) : (tagCols cols).Nodup := by
  unfold tagCols
  refine List.Nodup.filter _ ?_
  split
  · exact h
  · rename_i hn
    rw [List.nodup_append]
    refine ⟨h, by simp, ?_⟩
    intro a ha b hb
    rw [List.mem_singleton.1 hb]
    rintro rfl
    exact hn ha

theorem mem_tagCols {cols : List String} {c : String} (h : c ∈ tagCols cols) :
    (c ∈ cols ∨ c = "params_id") ∧ c ≠ "simulation_id" ∧ c ≠ "iteration_id" := by
  unfold tagCols at h
  rw [List.mem_filter] at h
  obtain ⟨h1, h2⟩ := h
  simp only [Bool.and_eq_true, decide_eq_true_eq] at h2
  refine ⟨?_, h2⟩
  split at h1
  · exact Or.inl h1
  · rcases List.mem_append.1 h1 with h1 | h1
    · exact Or.inl h1
    · exact Or.inr (List.mem_singleton.1 h1)

/-- C170: if in all simulations and iterations the reporters, the columns of the tables and the fields of the simulations have the same names,
the names are different and not those that soil uses for its indices, and no table has the name of one of soil's, then everything can be
written. -/
theorem C170_written_partial (sims : List DbSim) (fields reps areps : List String) (T : String → List String)
    (hconf : ∀ s ∈ sims, Dict.keys s.conf = fields) (hfn : fields.Nodup) (hfi : "index" ∉ fields)
    (hpar : (∀ s ∈ sims, ∀ j ∈ s.jobs, j.params ≠ []) ∨ (∀ s ∈ sims, ∀ j ∈ s.jobs, j.params = []))
    (hrep : ∀ s ∈ sims, ∀ j ∈ s.jobs, j.reps = reps ∧ j.areps = areps)
    (hrn : reps.Nodup ∧ "step" ∉ reps) (han : areps.Nodup ∧ "step" ∉ areps ∧ "agent_id" ∉ areps)
    (htab : ∀ s ∈ sims, ∀ j ∈ s.jobs, ∀ t ∈ j.tables, t.1 ∉ ["configuration", "parameters", "env", "agents"] ∧
      t.2.1 = T t.1 ∧ t.2.1.Nodup ∧ "level_0" ∉ t.2.1) :
    ∃ db, Database.dumpSims [] sims = some db := by
  let F : String → List String := fun t =>
    if t = "configuration" then "index" :: (if "simulation_id" ∈ fields then fields else fields ++ ["simulation_id"])
    else if t = "parameters" then
      (if (∀ s ∈ sims, ∀ j ∈ s.jobs, j.params = []) then ["index"]
        else ["index", "simulation_id", "params_id", "iteration_id", "key", "value"])
    else if t = "env" then ["step", "simulation_id", "iteration_id"] ++ tagCols reps
    else if t = "agents" then ["step", "agent_id", "simulation_id", "iteration_id"] ++ tagCols areps
    else ["level_0", "simulation_id", "iteration_id"] ++ tagCols (T t)
  have hconfF : ∀ s ∈ sims, ∀ db : Database, (∀ t tb, Dict.get? db t = some tb → tb.cols = F t) →
      ∃ db', db.dumpConfig s.sid s.conf = some db' ∧ ∀ t tb, Dict.get? db' t = some tb → tb.cols = F t := by
    intro s hs db hF
    refine Database.toSql_fixed F hF ?_ ?_
    · simp only [Dict.keys_set, hconf s hs, F, if_true]
      rfl
    · simp only [F, if_true]
      split
      · exact List.nodup_cons.2 ⟨hfi, hfn⟩
      · rename_i hn
        refine List.nodup_cons.2 ⟨by simp [hfi], ?_⟩
        rw [List.nodup_append]
        refine ⟨hfn, by simp, ?_⟩
        intro a ha b hb
        rw [List.mem_singleton.1 hb]
        rintro rfl
        exact hn ha
  have hjobF : ∀ s ∈ sims, ∀ j ∈ s.jobs, ∀ db : Database, (∀ t tb, Dict.get? db t = some tb → tb.cols = F t) →
      ∃ db', db.dumpJob s.sid j = some db' ∧ ∀ t tb, Dict.get? db' t = some tb → tb.cols = F t := by
    intro s hs j hj db hF
    refine Database.toSqlAll_fixed F _ db hF ?_
    intro x hx
    have henv : ∀ x : String × DFrameDb, x = ("env", j.envFrame s.sid) → x.2.idx ++ x.2.cols = F x.1 ∧ (F x.1).Nodup := by
      rintro _ rfl
      have h1 : F "env" = ["step", "simulation_id", "iteration_id"] ++ tagCols reps := by simp [F]
      refine ⟨by simp [h1, DbJob.envFrame, (hrep s hs j hj).1], ?_⟩
      simp only [h1]
      rw [List.nodup_append]
      refine ⟨by decide, tagCols_nodup hrn.1, ?_⟩
      intro a ha b hb hab
      subst hab
      have hm := mem_tagCols hb
      simp only [List.mem_cons, List.not_mem_nil, or_false] at ha
      rcases ha with rfl | rfl | rfl
      · exact hrn.2 (hm.1.resolve_right (by decide))
      · exact hm.2.1 rfl
      · exact hm.2.2 rfl
    rcases List.mem_cons.1 hx with rfl | hx
    · rcases hpar with hp | hp
      · have hno : ¬ ∀ s ∈ sims, ∀ j ∈ s.jobs, j.params = [] := fun hall => hp s hs j hj (hall s hs j hj)
        have h1 : F "parameters" = ["index", "simulation_id", "params_id", "iteration_id", "key", "value"] := by
          simp only [F]
          rw [if_neg (by decide), if_pos trivial, if_neg hno]
        simp only [h1]
        exact ⟨by simp [DbJob.paramFrame, hp s hs j hj], by decide⟩
      · have h1 : F "parameters" = ["index"] := by
          simp only [F]
          rw [if_neg (by decide), if_pos trivial, if_pos hp]
        simp only [h1]
        exact ⟨by simp [DbJob.paramFrame, hp s hs j hj], by decide⟩
    · unfold DbJob.frames at hx
      rcases mem_update _ hx with hx | hx
      · split at hx
        · exact henv x (List.mem_singleton.1 hx)
        · rcases mem_set hx with hx | rfl
          · exact henv x (List.mem_singleton.1 hx)
          · have h1 : F "agents" = ["step", "agent_id", "simulation_id", "iteration_id"] ++ tagCols areps := by simp [F]
            refine ⟨by simp [h1, DbJob.agentFrame, (hrep s hs j hj).2], ?_⟩
            simp only [h1]
            rw [List.nodup_append]
            refine ⟨by decide, tagCols_nodup han.1, ?_⟩
            intro a ha b hb hab
            subst hab
            have hm := mem_tagCols hb
            simp only [List.mem_cons, List.not_mem_nil, or_false] at ha
            rcases ha with rfl | rfl | rfl | rfl
            · exact han.2.1 (hm.1.resolve_right (by decide))
            · exact han.2.2 (hm.1.resolve_right (by decide))
            · exact hm.2.1 rfl
            · exact hm.2.2 rfl
      · obtain ⟨t, ht, rfl⟩ := List.mem_map.1 hx
        obtain ⟨k1, k2, k3, k4⟩ := htab s hs j hj t ht
        simp only [List.mem_cons, List.not_mem_nil, or_false, not_or] at k1
        have h1 : F t.1 = ["level_0", "simulation_id", "iteration_id"] ++ tagCols t.2.1 := by
          simp only [F]
          rw [if_neg k1.1, if_neg k1.2.1, if_neg k1.2.2.1, if_neg k1.2.2.2, k2]
        refine ⟨by simp [h1, DbJob.tableFrame], ?_⟩
        simp only [h1]
        rw [List.nodup_append]
        refine ⟨by decide, tagCols_nodup k3, ?_⟩
        intro a ha b hb hab
        subst hab
        have hm := mem_tagCols hb
        simp only [List.mem_cons, List.not_mem_nil, or_false] at ha
        rcases ha with rfl | rfl | rfl
        · exact k4 (hm.1.resolve_right (by decide))
        · exact hm.2.1 rfl
        · exact hm.2.2 rfl
  have hjobs : ∀ s ∈ sims, ∀ (l : List DbJob), (∀ j ∈ l, j ∈ s.jobs) → ∀ db : Database, (∀ t tb, Dict.get? db t = some tb → tb.cols = F t) →
      ∃ db', db.dumpJobs s.sid l = some db' ∧ ∀ t tb, Dict.get? db' t = some tb → tb.cols = F t := by
    intro s hs l
    induction l with
    | nil => intro _ db hF; exact ⟨db, rfl, hF⟩
    | cons j l ih =>
      intro hl db hF
      obtain ⟨db1, h1, hF1⟩ := hjobF s hs j (hl j List.mem_cons_self) db hF
      obtain ⟨db2, h2, hF2⟩ := ih (fun j hj => hl j (List.mem_cons_of_mem _ hj)) db1 hF1
      refine ⟨db2, ?_, hF2⟩
      simp only [Database.dumpJobs]
      rw [h1]
      exact h2
  have hsims : ∀ (l : List DbSim), (∀ s ∈ l, s ∈ sims) → ∀ db : Database, (∀ t tb, Dict.get? db t = some tb → tb.cols = F t) →
      ∃ db', db.dumpSims l = some db' := by
    intro l
    induction l with
    | nil => intro _ db _; exact ⟨db, rfl⟩
    | cons s l ih =>
      intro hl db hF
      have hs := hl s List.mem_cons_self
      obtain ⟨db0, h0, hF0⟩ := hconfF s hs db hF
      obtain ⟨db1, h1, hF1⟩ := hjobs s hs s.jobs (fun _ h => h) db0 hF0
      obtain ⟨db2, h2⟩ := ih (fun s hs => hl s (List.mem_cons_of_mem _ hs)) db1 hF1
      refine ⟨db2, ?_⟩
      simp only [Database.dumpSims, Database.dump]
      rw [h0]
      simp only [h1]
      exact h2
  exact hsims sims (fun _ h => h) [] (by intro t tb h; cases h)

/-! ## Which file -/

theorem not_dbl_join {p rest : List Char} (hp : '/' ∉ p) (hr : rest.head? ≠ some '/') (hd : ∀ a b, rest ≠ a ++ '/' :: '/' :: b) :
    ∀ a b, p ++ '/' :: rest ≠ a ++ '/' :: '/' :: b := by
  induction p with
  | nil =>
    intro a b h
    cases a with
    | nil =>
      simp only [List.nil_append, List.cons.injEq, true_and] at h
      rw [h] at hr
      simp at hr
    | cons x a =>
      simp only [List.nil_append, List.cons_append, List.cons.injEq] at h
      exact hd a b h.2
  | cons c p ih =>
    intro a b h
    simp only [List.mem_cons, not_or] at hp
    cases a with
    | nil =>
      simp only [List.cons_append, List.nil_append, List.cons.injEq] at h
      exact hp.1 h.1.symm
    | cons x a =>
      simp only [List.cons_append, List.cons.injEq] at h
      exact ih hp.2 a b h.2

theorem joinSlash_head (p : List Char) (ps : List (List Char)) (hp : p ≠ []) : (joinSlash (p :: ps)).head? = p.head? := by
  cases p with
  | nil => exact absurd rfl hp
  | cons c p => cases ps <;> rfl

theorem joinSlash_not_dbl (ps : List (List Char)) (h : ∀ p ∈ ps, p ≠ [] ∧ '/' ∉ p) :
    (joinSlash ps).head? ≠ some '/' ∧ ∀ a b, joinSlash ps ≠ a ++ '/' :: '/' :: b := by
  induction ps with
  | nil => simp [joinSlash]
  | cons p ps ih =>
    obtain ⟨h1, h2⟩ := h p List.mem_cons_self
    have hhead : p.head? ≠ some '/' := by
      intro hh
      cases p with
      | nil => cases hh
      | cons c p => simp only [List.head?_cons, Option.some.injEq] at hh; exact h2 (by rw [hh]; exact List.mem_cons_self)
    refine ⟨by rw [joinSlash_head _ _ h1]; exact hhead, ?_⟩
    cases ps with
    | nil =>
      intro a b he
      have he : p = a ++ '/' :: '/' :: b := he
      exact h2 (by rw [he]; simp)
    | cons q ps =>
      obtain ⟨i1, i2⟩ := ih (fun p hp => h p (List.mem_cons_of_mem _ hp))
      exact not_dbl_join h2 i1 i2

theorem splitSlash_noslash (s : List Char) : ∀ cur, '/' ∉ cur → ∀ p ∈ splitSlash cur s, '/' ∉ p := by
  induction s with
  | nil => intro cur hc p hp; rw [List.mem_singleton.1 hp]; exact hc
  | cons c s ih =>
    intro cur hc p hp
    simp only [splitSlash] at hp
    split at hp
    · rcases List.mem_cons.1 hp with rfl | hp
      · exact hc
      · exact ih [] (by simp) p hp
    · rename_i hne
      refine ih (cur ++ [c]) ?_ p hp
      simp only [List.mem_append, List.mem_singleton, not_or]
      exact ⟨hc, fun h => hne h.symm⟩

theorem normParts_ok (abs : Bool) (ps : List (List Char)) : ∀ acc, (∀ p ∈ acc, p ≠ [] ∧ '/' ∉ p) → (∀ p ∈ ps, '/' ∉ p) →
    ∀ p ∈ normParts abs acc ps, p ≠ [] ∧ '/' ∉ p := by
  induction ps with
  | nil =>
    intro acc ha _ p hp
    simp only [normParts, List.mem_reverse] at hp
    exact ha p hp
  | cons q ps ih =>
    intro acc ha hps
    have hps' : ∀ p ∈ ps, '/' ∉ p := fun p hp => hps p (List.mem_cons_of_mem _ hp)
    have hq := hps q List.mem_cons_self
    simp only [normParts]
    split
    · exact ih acc ha hps'
    · rename_i h1
      rw [not_or] at h1
      have hcons : ∀ (acc : List (List Char)), (∀ p ∈ acc, p ≠ [] ∧ '/' ∉ p) → ∀ p ∈ q :: acc, p ≠ [] ∧ '/' ∉ p := by
        intro acc ha p hp
        rcases List.mem_cons.1 hp with rfl | hp
        · exact ⟨h1.1, hq⟩
        · exact ha p hp
      split
      · split
        · split
          · exact ih [] (by simp) hps'
          · exact ih [q] (hcons [] (by simp)) hps'
        · rename_i r acc'
          split
          · exact ih _ (hcons _ ha) hps'
          · exact ih acc' (fun p hp => ha p (List.mem_cons_of_mem _ hp)) hps'
      · exact ih _ (hcons acc ha) hps'

/-- A normalized path never contains `://`. -/
theorem normPath_no_url (p : List Char) : ¬ [':', '/', '/'] <:+: normPath p := by
  rintro ⟨a, b, h⟩
  unfold normPath at h
  split at h
  · have := congrArg List.length h
    simp at this
    omega
  · simp only at h
    generalize hs : (if p.head? = some '/' then
        (if (p.drop 1).head? = some '/' ∧ (p.drop 2).head? ≠ some '/' then ['/', '/'] else ['/'])
      else ([] : List Char)) = sl at h
    have hok := normParts_ok (decide (sl ≠ [])) (splitSlash [] p) [] (by simp) (splitSlash_noslash p [] (by simp))
    generalize normParts (decide (sl ≠ [])) [] (splitSlash [] p) = ps at h hok
    obtain ⟨j1, j2⟩ := joinSlash_not_dbl ps hok
    split at h
    · have := congrArg List.length h
      simp at this
      omega
    · have hsl : sl = [] ∨ sl = ['/'] ∨ sl = ['/', '/'] := by
        rw [← hs]
        split
        · split <;> simp
        · simp
      rcases hsl with rfl | rfl | rfl
      · exact j2 (a ++ [':']) b (by simpa using h.symm)
      · cases a with
        | nil => simp at h
        | cons x a =>
          simp only [List.cons_append, List.nil_append, List.append_assoc, List.cons.injEq] at h
          exact j2 (a ++ [':']) b (by simpa using h.2.symm)
      · cases a with
        | nil => simp at h
        | cons x a =>
          cases a with
          | nil => simp at h
          | cons y a =>
            simp only [List.cons_append, List.nil_append, List.append_assoc, List.cons.injEq] at h
            exact j2 (a ++ [':']) b (by simpa using h.2.2.symm)

/-- C168, violated: a URL of a database is never opened; it is taken for a file, whatever it is. -/
theorem C168_url_false (cwd : List Char) (fpath name : Option (List Char)) (u : List Char) : readTarget cwd fpath name ≠ .url u := by
  unfold readTarget
  split
  · simp
  · simp only
    split
    · simp
    · rename_i p _
      rw [if_neg (show ¬ [':', '/', '/'] <:+: absPath cwd p from normPath_no_url _)]
      simp

/-- C168: `read_sql` raises `ValueError` if and only if both or none of a path and a name are given. -/
theorem C168_arguments (cwd : List Char) (fpath name : Option (List Char)) :
    readTarget cwd fpath name = .valueError ↔ (fpath = none ∧ name = none) ∨ (∃ p n, fpath = some p ∧ name = some n) := by
  cases fpath with
  | none =>
    cases name with
    | none => simp [readTarget]
    | some n =>
      simp only [readTarget]
      by_cases hn : n = []
      · simp [hn]
      · simp [hn]
        split <;> simp
  | some p =>
    cases name with
    | none =>
      simp [readTarget]
      split <;> simp
    | some n => simp [readTarget]

/-- A part of a path that normalization keeps. -/
def PlainPart (p : List Char) : Prop := p ≠ [] ∧ '/' ∉ p ∧ p ≠ ['.'] ∧ p ≠ ['.', '.']

theorem splitSlash_append (p : List Char) : ∀ (cur : List Char), '/' ∉ p → ∀ rest, splitSlash cur (p ++ '/' :: rest) = (cur ++ p) :: splitSlash [] rest := by
  induction p with
  | nil => intro cur _ rest; simp [splitSlash]
  | cons c p ih =>
    intro cur hp rest
    simp only [List.mem_cons, not_or] at hp
    simp only [List.cons_append, splitSlash, if_neg (fun h => hp.1 h.symm : ¬ c = '/')]
    rw [ih _ hp.2]
    simp

theorem splitSlash_single (p : List Char) : ∀ (cur : List Char), '/' ∉ p → splitSlash cur p = [cur ++ p] := by
  induction p with
  | nil => intro cur _; simp [splitSlash]
  | cons c p ih =>
    intro cur hp
    simp only [List.mem_cons, not_or] at hp
    simp only [splitSlash, if_neg (fun h => hp.1 h.symm : ¬ c = '/')]
    rw [ih _ hp.2]
    simp

theorem splitSlash_join (ps : List (List Char)) (hps : ps ≠ []) (h : ∀ p ∈ ps, '/' ∉ p) : splitSlash [] (joinSlash ps) = ps := by
  induction ps with
  | nil => exact absurd rfl hps
  | cons p ps ih =>
    cases ps with
    | nil =>
      simp only [joinSlash]
      rw [splitSlash_single p [] (h p List.mem_cons_self), List.nil_append]
    | cons q ps =>
      simp only [joinSlash]
      rw [splitSlash_append p [] (h p List.mem_cons_self), List.nil_append, ih (by simp) (fun p hp => h p (List.mem_cons_of_mem _ hp))]

theorem normParts_plain (abs : Bool) (ps : List (List Char)) (h : ∀ p ∈ ps, PlainPart p) : ∀ acc, normParts abs acc ps = acc.reverse ++ ps := by
  induction ps with
  | nil => intro acc; simp [normParts]
  | cons p ps ih =>
    intro acc
    obtain ⟨h1, h2, h3, h4⟩ := h p List.mem_cons_self
    simp only [normParts, h1, h3, h4, or_self, if_false]
    rw [ih (fun p hp => h p (List.mem_cons_of_mem _ hp))]
    simp

/-- A normal absolute path. -/
theorem normPath_plain (ps : List (List Char)) (hps : ps ≠ []) (h : ∀ p ∈ ps, PlainPart p) :
    normPath ('/' :: joinSlash ps) = '/' :: joinSlash ps := by
  have hh := (joinSlash_not_dbl ps (fun p hp => ⟨(h p hp).1, (h p hp).2.1⟩)).1
  unfold normPath
  rw [if_neg (by simp)]
  have hsl : (if ('/' :: joinSlash ps).head? = some '/' then
        (if (('/' :: joinSlash ps).drop 1).head? = some '/' ∧ (('/' :: joinSlash ps).drop 2).head? ≠ some '/' then ['/', '/'] else ['/'])
      else ([] : List Char)) = ['/'] := by
    simp [hh]
  simp only [hsl]
  have : splitSlash [] ('/' :: joinSlash ps) = [] :: ps := by
    simp only [splitSlash, if_true]
    rw [splitSlash_join ps hps (fun p hp => (h p hp).2.1)]
  rw [this]
  simp only [normParts, true_or, if_true]
  rw [normParts_plain _ ps h]
  simp

theorem joinSlash_append (ps : List (List Char)) : ∀ (qs : List (List Char)), ps ≠ [] → qs ≠ [] → joinSlash (ps ++ qs) = joinSlash ps ++ '/' :: joinSlash qs := by
  induction ps with
  | nil => intro qs h; exact absurd rfl h
  | cons p ps ih =>
    intro qs _ hq
    cases ps with
    | nil =>
      cases qs with
      | nil => exact absurd rfl hq
      | cons q qs => rfl
    | cons p' ps =>
      have := ih qs (by simp) hq
      simp only [List.cons_append, joinSlash] at this ⊢
      rw [this]
      simp

theorem joinSlash_last (ps : List (List Char)) (hps : ps ≠ []) (h : ∀ p ∈ ps, p ≠ [] ∧ '/' ∉ p) : (joinSlash ps).getLast? ≠ some '/' := by
  induction ps with
  | nil => exact absurd rfl hps
  | cons p ps ih =>
    cases ps with
    | nil =>
      intro hl
      obtain ⟨h1, h2⟩ := h p List.mem_cons_self
      exact h2 (List.mem_of_getLast? hl)
    | cons q ps =>
      have h2 := ih (by simp) (fun p hp => h p (List.mem_cons_of_mem _ hp))
      have hne : joinSlash (q :: ps) ≠ [] := by
        intro he
        have := joinSlash_head q ps (h q (by simp)).1
        rw [he] at this
        cases q with
        | nil => exact (h [] (by simp)).1 rfl
        | cons c q => simp at this
      simp only [joinSlash] at h2 ⊢
      rw [List.getLast?_append, List.getLast?_cons]
      cases hg : (joinSlash (q :: ps)).getLast? with
      | none => exact absurd (List.getLast?_eq_none_iff.1 hg) hne
      | some c =>
        rw [hg] at h2
        simpa [hg] using h2

theorem joinSlash_ne_nil {ps : List (List Char)} (hps : ps ≠ []) (h : ∀ p ∈ ps, p ≠ [] ∧ '/' ∉ p) : joinSlash ps ≠ [] := by
  cases ps with
  | nil => exact absurd rfl hps
  | cons q ps =>
    intro he
    have := joinSlash_head q ps (h q (by simp)).1
    rw [he] at this
    cases q with
    | nil => exact (h [] (by simp)).1 rfl
    | cons c q => simp at this

theorem PlainPart.weak {ps : List (List Char)} (h : ∀ p ∈ ps, PlainPart p) : ∀ p ∈ ps, p ≠ [] ∧ '/' ∉ p := fun p hp => ⟨(h p hp).1, (h p hp).2.1⟩

theorem joinPath_abs {A B : List (List Char)} (hA : ∀ p ∈ A, PlainPart p) (hB : ∀ p ∈ B, PlainPart p) (hne : B ≠ []) :
    dbJoinPath ('/' :: joinSlash A) (joinSlash B) = '/' :: joinSlash (A ++ B) := by
  have hh := (joinSlash_not_dbl B (PlainPart.weak hB)).1
  unfold dbJoinPath
  rw [if_neg hh]
  by_cases hA0 : A = []
  · subst hA0
    simp [joinSlash]
  · have hl := joinSlash_last A hA0 (PlainPart.weak hA)
    have : ('/' :: joinSlash A).getLast? = (joinSlash A).getLast? := by
      rw [List.getLast?_cons]
      cases hg : (joinSlash A).getLast? with
      | none => exact absurd (List.getLast?_eq_none_iff.1 hg) (joinSlash_ne_nil hA0 (PlainPart.weak hA))
      | some c => rfl
    rw [if_neg (by rw [this]; simp [hl]), joinSlash_append A B hA0 hne]
    rfl

theorem joinPath_rel {A B : List (List Char)} (hA : ∀ p ∈ A, PlainPart p) (hB : ∀ p ∈ B, PlainPart p) (hA0 : A ≠ []) (hne : B ≠ []) :
    dbJoinPath (joinSlash A) (joinSlash B) = joinSlash (A ++ B) := by
  have hh := (joinSlash_not_dbl B (PlainPart.weak hB)).1
  have hl := joinSlash_last A hA0 (PlainPart.weak hA)
  have hn := joinSlash_ne_nil hA0 (PlainPart.weak hA)
  unfold dbJoinPath
  rw [if_neg hh, if_neg (by simp [hl, hn]), joinSlash_append A B hA0 hne]

/-- A trailing slash (from an empty group) makes no difference. -/
theorem joinPath_slash {A B : List (List Char)} (hA : ∀ p ∈ A, PlainPart p) (hB : ∀ p ∈ B, PlainPart p) (hA0 : A ≠ []) (hne : B ≠ []) :
    dbJoinPath (dbJoinPath ('/' :: joinSlash A) []) (joinSlash B) = '/' :: joinSlash (A ++ B) := by
  have hh := (joinSlash_not_dbl B (PlainPart.weak hB)).1
  have hl := joinSlash_last A hA0 (PlainPart.weak hA)
  have h1 : ('/' :: joinSlash A).getLast? = (joinSlash A).getLast? := by
    rw [List.getLast?_cons]
    cases hg : (joinSlash A).getLast? with
    | none => exact absurd (List.getLast?_eq_none_iff.1 hg) (joinSlash_ne_nil hA0 (PlainPart.weak hA))
    | some c => rfl
  have h2 : dbJoinPath ('/' :: joinSlash A) [] = '/' :: joinSlash A ++ ['/'] := by
    unfold dbJoinPath
    rw [if_neg (by simp), if_neg (by rw [h1]; simp [hl])]
  rw [h2]
  unfold dbJoinPath
  rw [if_neg hh, if_pos (Or.inr (by rw [List.getLast?_append]; rfl)), joinSlash_append A B hA0 hne]
  simp

theorem sqlite_parts (N : List (List Char)) (hN : N ≠ []) (h : ∀ p ∈ N, PlainPart p) :
    ∃ N', N' ≠ [] ∧ (∀ p ∈ N', PlainPart p) ∧ joinSlash N ++ ".sqlite".toList = joinSlash N' := by
  induction N with
  | nil => exact absurd rfl hN
  | cons p N ih =>
    cases N with
    | nil =>
      obtain ⟨h1, h2, h3, h4⟩ := h p List.mem_cons_self
      refine ⟨[p ++ ".sqlite".toList], by simp, ?_, rfl⟩
      intro q hq
      rw [List.mem_singleton.1 hq]
      refine ⟨by simp [h1], ?_, ?_, ?_⟩
      · rw [List.mem_append, not_or]
        exact ⟨h2, by decide⟩
      · intro he
        have := congrArg List.length he
        simp at this
      · intro he
        have := congrArg List.length he
        simp at this
    | cons q N =>
      obtain ⟨N', h1, h2, h3⟩ := ih (by simp) (fun p hp => h p (List.mem_cons_of_mem _ hp))
      refine ⟨p :: N', by simp, ?_, ?_⟩
      · intro x hx
        rcases List.mem_cons.1 hx with rfl | hx
        · exact h _ List.mem_cons_self
        · exact h2 x hx
      · cases N' with
        | nil => exact absurd rfl h1
        | cons n N' =>
          simp only [joinSlash, List.append_assoc, List.cons_append]
          rw [h3]

/-- What `read_sql(name=…)` opens, in parts. -/
theorem readTarget_parts (C N N' : List (List Char)) (hC : ∀ p ∈ C, PlainPart p) (hN : N ≠ []) (hNp : ∀ p ∈ N, PlainPart p)
    (hN' : N' ≠ []) (hNp' : ∀ p ∈ N', PlainPart p) (he : joinSlash N ++ ".sqlite".toList = joinSlash N') :
    readTarget ('/' :: joinSlash C) none (some (joinSlash N)) =
      .file ('/' :: joinSlash ((C ++ ["soil_output".toList]) ++ (N ++ N'))) := by
  have hso : ∀ p ∈ ["soil_output".toList], PlainPart p := by
    intro p hp
    rw [List.mem_singleton.1 hp]
    unfold PlainPart
    decide
  have happ : ∀ {A B : List (List Char)}, (∀ p ∈ A, PlainPart p) → (∀ p ∈ B, PlainPart p) → ∀ p ∈ A ++ B, PlainPart p := by
    intro A B hA hB p hp
    rcases List.mem_append.1 hp with hp | hp
    · exact hA p hp
    · exact hB p hp
  have h1 : dbJoinPath (dbJoinPath "soil_output".toList (joinSlash N)) (joinSlash N') = joinSlash (["soil_output".toList] ++ N ++ N') := by
    have : "soil_output".toList = joinSlash ["soil_output".toList] := rfl
    rw [this, joinPath_rel hso hNp (by simp) hN, joinPath_rel (happ hso hNp) hNp' (by simp) hN']
    rfl
  have hne := joinSlash_ne_nil hN (PlainPart.weak hNp)
  have hrel := (joinSlash_not_dbl (["soil_output".toList] ++ N ++ N') (PlainPart.weak (happ (happ hso hNp) hNp'))).1
  have habs : absPath ('/' :: joinSlash C) (joinSlash (["soil_output".toList] ++ N ++ N')) =
      '/' :: joinSlash ((C ++ ["soil_output".toList]) ++ (N ++ N')) := by
    unfold absPath
    rw [if_neg hrel, joinPath_abs hC (happ (happ hso hNp) hNp') (by simp)]
    rw [normPath_plain _ (by simp) (happ hC (happ (happ hso hNp) hNp'))]
    simp
  unfold readTarget
  simp only [Option.isNone_none, Option.isNone_some, if_neg hne, he, h1]
  rw [if_neg (by decide), if_neg (show ¬ [':', '/', '/'] <:+: absPath _ _ from normPath_no_url _), habs]

theorem dbFile_parts (cwd : List Char) (O G N N' : List (List Char)) (outdir group : Option (List Char)) (hO : ∀ p ∈ O, PlainPart p)
    (hO0 : O ≠ []) (hG : ∀ p ∈ G, PlainPart p) (hN : N ≠ []) (hNp : ∀ p ∈ N, PlainPart p)
    (hN' : N' ≠ []) (hNp' : ∀ p ∈ N', PlainPart p) (he : joinSlash N ++ ".sqlite".toList = joinSlash N')
    (ho : (outdir = some ('/' :: joinSlash O)) ∨ ((outdir = none ∨ outdir = some []) ∧ dbJoinPath cwd "soil_output".toList = '/' :: joinSlash O))
    (hg : group.getD [] = joinSlash G) :
    dbFile cwd outdir group (joinSlash N) = '/' :: joinSlash ((O ++ G) ++ (N ++ N')) := by
  have happ : ∀ {A B : List (List Char)}, (∀ p ∈ A, PlainPart p) → (∀ p ∈ B, PlainPart p) → ∀ p ∈ A ++ B, PlainPart p := by
    intro A B hA hB p hp
    rcases List.mem_append.1 hp with hp | hp
    · exact hA p hp
    · exact hB p hp
  have key : dbJoinPath (dbJoinPath (dbJoinPath ('/' :: joinSlash O) (joinSlash G)) (joinSlash N)) (joinSlash N') =
      '/' :: joinSlash ((O ++ G) ++ (N ++ N')) := by
    by_cases hG0 : G = []
    · subst hG0
      have : joinSlash ([] : List (List Char)) = [] := rfl
      rw [this, joinPath_slash hO hNp hO0 hN, joinPath_abs (happ hO hNp) hNp' hN']
      simp
    · rw [joinPath_abs hO hG hG0, joinPath_abs (happ hO hG) hNp hN, joinPath_abs (happ (happ hO hG) hNp) hNp' hN']
      simp
  unfold dbFile
  rw [hg, he]
  rcases ho with rfl | ⟨rfl | rfl, ho⟩
  · simpa using key
  · simp only [ho]
    exact key
  · simp only [if_true, ho]
    exact key

/-- C167, for the default output directory and no group: `read_sql(name=…)`, called in the directory in which the simulation was run, opens the
file that the exporter has written. Directories and names are normal (no empty parts, no `.` and `..`). -/
theorem C167_default_partial (C N : List (List Char)) (hC : ∀ p ∈ C, PlainPart p) (hN : N ≠ []) (hNp : ∀ p ∈ N, PlainPart p)
    (outdir group : Option (List Char)) (ho : outdir = none ∨ outdir = some []) (hg : group = none ∨ group = some []) :
    readTarget ('/' :: joinSlash C) none (some (joinSlash N)) =
      .file (dbFile ('/' :: joinSlash C) outdir group (joinSlash N)) := by
  obtain ⟨N', h1, h2, h3⟩ := sqlite_parts N hN hNp
  have hso : ∀ p ∈ ["soil_output".toList], PlainPart p := by
    intro p hp
    rw [List.mem_singleton.1 hp]
    unfold PlainPart
    decide
  have hO : ∀ p ∈ C ++ ["soil_output".toList], PlainPart p := by
    intro p hp
    rcases List.mem_append.1 hp with hp | hp
    · exact hC p hp
    · exact hso p hp
  rw [readTarget_parts C N N' hC hN hNp h1 h2 h3,
    dbFile_parts ('/' :: joinSlash C) (C ++ ["soil_output".toList]) [] N N' outdir group hO (by simp) (by simp) hN hNp h1 h2 h3
      (Or.inr ⟨ho, joinPath_abs (B := ["soil_output".toList]) hC hso (by simp)⟩) (by rcases hg with rfl | rfl <;> rfl)]
  simp

theorem joinSlash_inj {A B : List (List Char)} (hA : ∀ p ∈ A, PlainPart p) (hB : ∀ p ∈ B, PlainPart p) (hA0 : A ≠ []) (hB0 : B ≠ [])
    (h : joinSlash A = joinSlash B) : A = B := by
  rw [← splitSlash_join A hA0 (fun p hp => (hA p hp).2.1), h, splitSlash_join B hB0 (fun p hp => (hB p hp).2.1)]

/-- C167, violated for a simulation with a group, and for every other output directory: `read_sql(name=…)` opens another file. -/
theorem C167_elsewhere_false (C N O G : List (List Char)) (hC : ∀ p ∈ C, PlainPart p) (hN : N ≠ []) (hNp : ∀ p ∈ N, PlainPart p)
    (hO : ∀ p ∈ O, PlainPart p) (hO0 : O ≠ []) (hG : ∀ p ∈ G, PlainPart p) :
    (G ≠ [] → readTarget ('/' :: joinSlash C) none (some (joinSlash N)) ≠
      .file (dbFile ('/' :: joinSlash C) none (some (joinSlash G)) (joinSlash N))) ∧
    (O ≠ C ++ ["soil_output".toList] → readTarget ('/' :: joinSlash C) none (some (joinSlash N)) ≠
      .file (dbFile ('/' :: joinSlash C) (some ('/' :: joinSlash O)) none (joinSlash N))) := by
  obtain ⟨N', h1, h2, h3⟩ := sqlite_parts N hN hNp
  have hso : ∀ p ∈ ["soil_output".toList], PlainPart p := by
    intro p hp
    rw [List.mem_singleton.1 hp]
    unfold PlainPart
    decide
  have happ : ∀ {A B : List (List Char)}, (∀ p ∈ A, PlainPart p) → (∀ p ∈ B, PlainPart p) → ∀ p ∈ A ++ B, PlainPart p := by
    intro A B hA hB p hp
    rcases List.mem_append.1 hp with hp | hp
    · exact hA p hp
    · exact hB p hp
  have hCs := happ hC hso
  rw [readTarget_parts C N N' hC hN hNp h1 h2 h3]
  refine ⟨?_, ?_⟩
  · intro hG0 he
    rw [dbFile_parts ('/' :: joinSlash C) (C ++ ["soil_output".toList]) G N N' none (some (joinSlash G)) hCs (by simp) hG hN hNp h1 h2 h3
      (Or.inr ⟨Or.inl rfl, joinPath_abs (B := ["soil_output".toList]) hC hso (by simp)⟩) rfl] at he
    simp only [Opened.file.injEq, List.cons.injEq, true_and] at he
    have := joinSlash_inj (happ hCs (happ hNp h2)) (happ (happ hCs hG) (happ hNp h2)) (by simp) (by simp) he
    have hlen := congrArg List.length this
    simp only [List.length_append, List.length_cons, List.length_nil] at hlen
    exact hG0 (List.length_eq_zero_iff.1 (by omega))
  · intro hne he
    rw [dbFile_parts ('/' :: joinSlash C) O [] N N' (some ('/' :: joinSlash O)) none hO hO0 (by simp) hN hNp h1 h2 h3 (Or.inl rfl) rfl] at he
    simp only [Opened.file.injEq, List.cons.injEq, true_and, List.append_nil] at he
    have := joinSlash_inj (happ hCs (happ hNp h2)) (happ hO (happ hNp h2)) (by simp) (by simp [hN]) he
    exact hne (List.append_cancel_right this).symm

/-! ## Examples -/

/-- Two simulations into one file: the first has two iterations and one parameter, the second another value. -/
def exSims : List DbSim :=
  let job (pid iid : String) (x : String) : DbJob := ⟨[("x", .text x)], pid, iid, ["agent_count", "time"],
    [(0, [("agent_count", .other 2), ("time", .other 0)]), (1, [("agent_count", .other 2), ("time", .other 1)])], ["happy"],
    [(0, 0, [("happy", .text x)]), (1, 0, [("happy", .other 1)])], []⟩
  [⟨"a_1", [("name", .text "a")], [job "p1" "0" "1", job "p1" "1" "1"]⟩, ⟨"b_1", [("name", .text "b")], [job "p2" "0" "7"]⟩]

/-- Write, read, and look at something. -/
def exRead {α : Type} (sims : List DbSim) (f : DbResults → α) : Option (Option ReadErr × Option α) :=
  (Database.dumpSims [] sims).map (fun db => match db.readSql with
    | .ok r => (none, some (f r))
    | .error e => (some e, none))

set_option maxRecDepth 100000 in
example : exRead exSims (fun r => (r.env.length, (r.env.filter (ofIteration "a_1" "p1" "1")).length,
    (r.pivot.bind (fun P => Dict.get? P (some (.text "0"), some (.text "p2"), some (.text "b_1"), some (.text "x")))).bind id)) =
    some (none, some (6, 2, some (.text "7"))) := by decide +kernel

set_option maxRecDepth 100000 in
/-- The same simulation twice. -/
example : exRead (exSims ++ exSims) (fun r => (r.pivot.isNone, r.params.length)) = some (none, some (true, 6)) := by decide +kernel

set_option maxRecDepth 100000 in
/-- Without parameters; without agent reporters. -/
example : exRead (exSims.map (fun s => { s with jobs := s.jobs.map (fun j => { j with params := [] }) })) (fun _ => ()) =
      some (some .noColumn, none) ∧
    exRead (exSims.map (fun s => { s with jobs := s.jobs.map (fun j => { j with areps := [] }) })) (fun _ => ()) =
      some (some .noTable, none) := by decide +kernel

set_option maxRecDepth 100000 in
/-- A reporter called `step`; a table called `env`. -/
example : (Database.dumpSims [] (exSims.map (fun s => { s with jobs := s.jobs.map (fun j => { j with reps := "step" :: j.reps }) })) = none) ∧
    (Database.dumpSims [] (exSims.map (fun s => { s with jobs := s.jobs.map (fun j => { j with
      tables := [("env", (["x"], [[("x", .other 3)]]))] }) }))).bind (fun db => (Dict.get? db "env").map (fun tb => tb.cols)) =
      some ["level_0", "simulation_id", "iteration_id", "x", "params_id"] := by
  decide +kernel

example : readTarget "/home/u".toList (some "sqlite:///x/y.sqlite".toList) none = .file "/home/u/sqlite:/x/y.sqlite".toList := by decide +kernel

example : readTarget "/home/u".toList none (some "sim".toList) = .file "/home/u/soil_output/sim/sim.sqlite".toList ∧
    dbFile "/home/u".toList none none "sim".toList = "/home/u/soil_output/sim/sim.sqlite".toList ∧
    dbFile "/home/u".toList none (some "g".toList) "sim".toList = "/home/u/soil_output/g/sim/sim.sqlite".toList ∧
    readTarget "/home/u".toList none (some []) = .typeError ∧ readTarget "/home/u".toList none none = .valueError ∧
    readTarget "/".toList (some "../a/./b//c".toList) none = .file "/a/b/c".toList := by decide +kernel

end Verif
