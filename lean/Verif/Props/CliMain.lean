import Verif.Model.CliMain
import Verif.Props.Simulation

/-!
# Properties of the flow of `main` (C228) and of the options on their way to the environments (C229)
-/

namespace Verif

variable {σ ε α : Type}

private theorem mainLoop_run (A : CliActions σ ε α) (dbg : Bool) (l l' : List σ) (res : List α)
    (hset : List.Forall₂ (fun s s' => A.set s = .ok s') l l') (hrun : List.Forall₂ (fun s' a => A.run dbg s' = .ok a) l' res) (post : List σ) :
    mainLoop A dbg false (l ++ post) =
      (l'.map .ran ++ (mainLoop A dbg false post).1, res ++ (mainLoop A dbg false post).2.1, (mainLoop A dbg false post).2.2) := by
  induction hset generalizing res with
  | nil => cases hrun; simp
  | cons h _ ih =>
    cases hrun with
    | cons h1 h2 => simp [mainLoop, h, h1, ih _ h2]

private theorem mainLoop_convert (A : CliActions σ ε α) (dbg : Bool) (l l' : List σ)
    (hset : List.Forall₂ (fun s s' => A.set s = .ok s') l l') (hy : ∀ s' ∈ l', A.yaml s' = .ok ()) (post : List σ) :
    mainLoop A dbg true (l ++ post) =
      (l'.map .shown ++ (mainLoop A dbg true post).1, (mainLoop A dbg true post).2.1, (mainLoop A dbg true post).2.2) := by
  induction hset with
  | nil => simp
  | cons h _ ih => simp [mainLoop, h, hy _ (List.mem_cons_self ..), ih (fun s hs => hy s (List.mem_cons_of_mem _ hs))]

private theorem env1_debug (b : Bool) (env : CliEnv) : (if b then { env with postmortem := true } else env : CliEnv).debug = env.debug := by
  cases b <;> rfl

/-- The debugger is asked for on the command line or by the caller of `main`. -/
def Spec.debugAsked (f : MainFlags) : Bool := f.debugArg || f.debug

/-- C228: without exceptions, each simulation of the file is run once, in order, with what `--set` says, and its results are returned in the same order;
in debug mode, the debugger is opened at the end. -/
theorem C228_runs (f : MainFlags) (A : CliActions σ ε α) (l l' : List σ) (res : List α) (env : CliEnv) (hv : f.version = false) (hc : f.convert = false)
    (hset : List.Forall₂ (fun s s' => A.set s = .ok s') l l') (hrun : List.Forall₂ (fun s' a => A.run env.debug s' = .ok a) l' res) :
    (cliMain f A none (.file (.ok l)) env).2 =
      (l'.map .ran ++ (if Spec.debugAsked f then [.setTrace] else []), .results res) := by
  have h := mainLoop_run A env.debug l l' res hset hrun []
  rw [List.append_nil] at h
  simp only [cliMain, hv, hc, env1_debug, h, mainFinish, mainLoop, Spec.debugAsked]
  by_cases hd : (f.debugArg || f.debug) = true <;> simp [hd]

/-- C228: with `--convert` each configuration is shown once, in order, and nothing is run; with `--version` nothing happens at all. -/
theorem C228_convert (f : MainFlags) (A : CliActions σ ε α) (l l' : List σ) (env : CliEnv) (hc : f.convert = true)
    (hset : List.Forall₂ (fun s s' => A.set s = .ok s') l l') (hy : ∀ s' ∈ l', A.yaml s' = .ok ()) :
    (f.version = false → (cliMain f A none (.file (.ok l)) env).2 =
      (l'.map .shown ++ (if Spec.debugAsked f then [.setTrace] else []), .results [])) ∧
    (f.version = true → cliMain f A none (.file (.ok l)) env = (env, [], .nothing)) := by
  refine ⟨fun hv => ?_, fun hv => by simp [cliMain, hv]⟩
  have h := mainLoop_convert A env.debug l l' hset hy []
  rw [List.append_nil] at h
  simp only [cliMain, hv, hc, env1_debug, h, mainFinish, mainLoop, Spec.debugAsked]
  by_cases hd : (f.debugArg || f.debug) = true <;> simp [hd]

/-- The simulation `s` fails with `e`: its parameters cannot be set (nothing is run), or it raises while it is run. -/
def Spec.FailsWith (A : CliActions σ ε α) (dbg : Bool) (s : σ) (e : ε) (evs : List (MainEv σ ε)) : Prop :=
  (A.set s = .error e ∧ evs = []) ∨ ∃ s', A.set s = .ok s' ∧ A.run dbg s' = .error e ∧ evs = [.ran s']

private theorem mainLoop_fails (A : CliActions σ ε α) (dbg : Bool) (s : σ) (e : ε) (evs : List (MainEv σ ε)) (post : List σ)
    (h : Spec.FailsWith A dbg s e evs) : mainLoop A dbg false (s :: post) = (evs, [], some e) := by
  rcases h with ⟨h, rfl⟩ | ⟨s', h1, h2, rfl⟩
  · simp [mainLoop, h]
  · simp [mainLoop, h1, h2]

/-- C228, without `--pdb`: an exception reaches the caller. If it is raised by a simulation, those before it have been run and those after it are not; if
it is raised by loading (of any of the simulations), none is run. Missing: with `--pdb`, see below. -/
theorem C228_errors_partial (f : MainFlags) (A : CliActions σ ε α) (env : CliEnv) (hv : f.version = false) (hp : f.pdb = false) (e : ε) :
    (∀ src, (cliMain f A (some e) src env).2 = ([], .raised e)) ∧
    (cliMain f A none (.file (.error e)) env).2 = ([], .raised e) ∧
    (∀ (pre pre' post : List σ) (s : σ) (res : List α) (evs : List (MainEv σ ε)), f.convert = false →
      List.Forall₂ (fun s s' => A.set s = .ok s') pre pre' → List.Forall₂ (fun s' a => A.run env.debug s' = .ok a) pre' res →
      Spec.FailsWith A env.debug s e evs →
      (cliMain f A none (.file (.ok (pre ++ s :: post))) env).2 = (pre'.map .ran ++ evs, .raised e)) := by
  refine ⟨fun src => by simp [cliMain, hv, hp, mainFinish], by simp [cliMain, hv, hp, mainFinish], ?_⟩
  intro pre pre' post s res evs hc hset hrun hf
  have h := mainLoop_run A env.debug pre pre' res hset hrun (s :: post)
  rw [mainLoop_fails A env.debug s e evs post hf] at h
  simp only [cliMain, hv, hc, env1_debug, h, mainFinish, hp]
  simp

/-- C228 is violated with `--pdb`: after the debugger has been left, `main` returns the results of the simulations before the one that failed, as if
there had been no more. -/
theorem C228_swallowed_false (f : MainFlags) (A : CliActions σ ε α) (env : CliEnv) (hv : f.version = false) (hp : f.pdb = true)
    (hd : Spec.debugAsked f = false) (hc : f.convert = false) (e : ε) (pre pre' post : List σ) (s : σ) (res : List α) (evs : List (MainEv σ ε))
    (hset : List.Forall₂ (fun s s' => A.set s = .ok s') pre pre') (hrun : List.Forall₂ (fun s' a => A.run env.debug s' = .ok a) pre' res)
    (hf : Spec.FailsWith A env.debug s e evs) :
    (cliMain f A none (.file (.ok (pre ++ s :: post))) env).2 = (pre'.map .ran ++ evs ++ [.postMortem e], .results res) ∧
    (cliMain f A none (.file (.ok pre)) env).2.2 = .results res := by
  have h := mainLoop_run A env.debug pre pre' res hset hrun (s :: post)
  rw [mainLoop_fails A env.debug s e evs post hf] at h
  unfold Spec.debugAsked at hd
  refine ⟨?_, ?_⟩
  · simp only [cliMain, hv, hc, env1_debug, h, mainFinish, hp, hd]
    simp
  · rw [C228_runs f A pre pre' res env hv hc hset hrun]

/-- C228 is violated by a file that does not exist: nothing is raised, whatever the options. (The message is only logged.) -/
theorem C228_missing_false (f : MainFlags) (A : CliActions σ ε α) (env : CliEnv) :
    (cliMain f A none .missing env).2 = ([], .nothing) := by
  unfold cliMain; split <;> rfl

private theorem mainLoop_no_pm (A : CliActions σ ε α) (dbg convert : Bool) (l : List σ) (e : ε) : .postMortem e ∉ (mainLoop A dbg convert l).1 := by
  induction l with
  | nil => simp [mainLoop]
  | cons s l ih =>
    unfold mainLoop
    split
    · simp
    · split
      · split
        · simp
        · simpa using ih
      · split
        · simp
        · simpa using ih

private theorem cliMain_no_pm (f : MainFlags) (A : CliActions σ ε α) (opts : Option ε) (src : CliSource σ ε) (env : CliEnv) (hp : f.pdb = false) (e : ε) :
    .postMortem e ∉ (cliMain f A opts src env).2.1 := by
  have key : ∀ (env : CliEnv) (evs : List (MainEv σ ε)) (res : List α) (err : Option ε), .postMortem e ∉ evs →
      .postMortem e ∉ (mainFinish f env evs res err).2.1 := by
    intro env evs res err h
    unfold mainFinish
    cases err with
    | none => simp only; split <;> simpa using h
    | some e' => simpa [hp] using h
  unfold cliMain
  split
  · simp
  · cases opts with
    | some e' => exact key _ _ _ _ (by simp)
    | none =>
      cases src with
      | missing => simp
      | object s => exact key _ _ _ _ (mainLoop_no_pm A _ _ _ e)
      | file load =>
        cases load with
        | error e' => exact key _ _ _ _ (by simp)
        | ok l => exact key _ _ _ _ (mainLoop_no_pm A _ _ _ e)

private theorem cliMain_env (f : MainFlags) (A : CliActions σ ε α) (opts : Option ε) (src : CliSource σ ε) (env : CliEnv) (hv : f.version = false) :
    (cliMain f A opts src env).1.postmortem = (env.postmortem || f.pdb || Spec.debugAsked f) ∧
    (Spec.debugAsked f = false → (cliMain f A opts src env).1.debug = env.debug) := by
  have key : ∀ (env : CliEnv) (evs : List (MainEv σ ε)) (res : List α) (err : Option ε),
      (mainFinish f env evs res err).1.postmortem = env.postmortem ∧
      (Spec.debugAsked f = false → (mainFinish f env evs res err).1.debug = env.debug) := by
    intro env evs res err
    unfold mainFinish Spec.debugAsked
    cases err with
    | none => by_cases hd : (f.debugArg || f.debug) = true <;> simp [hd]
    | some e' => by_cases hd : (f.debugArg || f.debug) = true <;> by_cases hp : f.pdb = true <;> simp [hd, hp]
  have hpm : (if f.pdb || (f.debugArg || f.debug) then { env with postmortem := true } else env : CliEnv).postmortem =
      (env.postmortem || f.pdb || Spec.debugAsked f) := by
    unfold Spec.debugAsked
    by_cases hd : (f.debugArg || f.debug) = true <;> by_cases hp : f.pdb = true <;> simp [hd, hp]
  have fin : ∀ (evs : List (MainEv σ ε)) (res : List α) (err : Option ε),
      (mainFinish f (if f.pdb || (f.debugArg || f.debug) then { env with postmortem := true } else env : CliEnv) evs res err).1.postmortem =
        (env.postmortem || f.pdb || Spec.debugAsked f) ∧
      (Spec.debugAsked f = false →
        (mainFinish f (if f.pdb || (f.debugArg || f.debug) then { env with postmortem := true } else env : CliEnv) evs res err).1.debug = env.debug) := by
    intro evs res err
    obtain ⟨h1, h2⟩ := key (if f.pdb || (f.debugArg || f.debug) then { env with postmortem := true } else env : CliEnv) evs res err
    exact ⟨h1.trans hpm, fun h => (h2 h).trans (env1_debug _ _)⟩
  unfold cliMain
  rw [if_neg (by simp [hv])]
  simp only
  cases opts with
  | some e => exact fin _ _ _
  | none =>
    cases src with
    | missing => exact ⟨hpm, fun _ => env1_debug _ _⟩
    | object s => exact fin _ _ _
    | file load =>
      cases load with
      | error e => exact fin _ _ _
      | ok l => exact fin _ _ _

/-- C228: `easy(file)` runs all simulations of the file; the result of its code is what the first has returned (the caller gets it inside of a context
manager that cannot be entered, see C197); if there is no simulation it raises. -/
theorem C228_easy (A : CliActions σ ε α) (l l' : List σ) (res : List α) (nores : ε) (env : CliEnv) (hset : List.Forall₂ (fun s s' => A.set s = .ok s') l l')
    (hrun : List.Forall₂ (fun s' a => A.run env.debug s' = .ok a) l' res) :
    (∀ a ∈ res.head?, (easyMain {} A none (.file (.ok l)) nores env).2 = (l'.map .ran, .ok a)) ∧
    (l = [] → (easyMain {} A none (.file (.ok l)) nores env).2.2 = .error nores) := by
  have h := C228_runs {} A l l' res env rfl rfl hset hrun
  simp only [Spec.debugAsked, Bool.or_self, Bool.false_eq_true, if_false, List.append_nil] at h
  unfold easyMain
  rcases hc : cliMain {} A none (.file (.ok l)) env with ⟨env1, evs, en⟩
  rw [hc] at h
  cases h
  constructor
  · intro a ha
    cases res with
    | nil => cases ha
    | cons b r => cases ha; rfl
  · rintro rfl
    cases hset
    cases hrun
    rfl

/-- C228 is violated for the argument `pdb` of `main` and `easy`: it is ignored. Whatever is run and however it fails, no debugger is opened for an
exception if this is the only thing asked for. -/
theorem C228_pdb_argument_false (A : CliActions σ ε α) (opts : Option ε) (src : CliSource σ ε) (nores : ε) (env : CliEnv) (hn : env.postmortem = false)
    (e : ε) : .postMortem e ∉ (easyMain { pdbArg := true } A opts src nores env).2.1 := by
  have h1 := cliMain_no_pm { pdbArg := true } A opts src env rfl e
  have h2 := (cliMain_env { pdbArg := true } A opts src env rfl).1
  rw [hn] at h2
  unfold easyMain
  rcases hc : cliMain { pdbArg := true } A opts src env with ⟨env1, evs, en⟩
  rw [hc] at h1 h2
  have h3 : env1.postmortem = false := h2
  split
  · rename_i h; cases h; exact h1
  · rename_i h; cases h; simpa [h3] using h1
  · rename_i h; cases h; simpa [h3] using h1

/-- C228 is violated by several uses in one process: once `--debug` or `--pdb` has been given, all later calls of `easy` open the debugger when their
simulation raises, though nobody asks for it, and in a new process the same call does not open it. -/
theorem C228_leak_false (f : MainFlags) (A A2 : CliActions σ ε α) (opts : Option ε) (src : CliSource σ ε) (env : CliEnv) (hv : f.version = false)
    (hp : f.pdb = true ∨ Spec.debugAsked f = true) (s : σ) (nores e : ε) (hf : ∀ dbg, ∃ evs, Spec.FailsWith A2 dbg s e evs) :
    .postMortem e ∈ (easyMain {} A2 none (.object s) nores (cliMain f A opts src env).1).2.1 ∧
    .postMortem e ∉ (easyMain {} A2 none (.object s) nores {}).2.1 := by
  have h1 := (cliMain_env f A opts src env hv).1
  have hpm : (cliMain f A opts src env).1.postmortem = true := by
    rw [h1]; rcases hp with h | h <;> simp [h]
  generalize (cliMain f A opts src env).1 = env1 at hpm
  obtain ⟨evs, hev⟩ := hf env1.debug
  obtain ⟨evs0, hev0⟩ := hf false
  have hm : cliMain {} A2 none (.object s) env1 = (env1, evs, .raised e) := by
    simp [cliMain, mainLoop_fails A2 env1.debug s e evs [] hev, mainFinish]
  have hm0 : cliMain {} A2 none (.object s) {} = ({}, evs0, .raised e) := by
    simp [cliMain, mainLoop_fails A2 false s e evs0 [] hev0, mainFinish]
  refine ⟨by simp [easyMain, hm, hpm], ?_⟩
  have : (MainEv.postMortem e : MainEv σ ε) ∉ evs0 := by
    rcases hev0 with ⟨_, rfl⟩ | ⟨s', _, _, rfl⟩ <;> simp
  simpa [easyMain, hm0] using this

/-- C228 is violated by several uses in one process: after a call in debug mode that did not raise, all later calls run their simulations in debug mode
(in one process, soil/utils.py:144), though nobody asks for it; before, they were run as the environment says. -/
theorem C228_debug_leak_false (f : MainFlags) (A A2 : CliActions σ ε α) (src : CliSource σ ε) (res : List α) (env : CliEnv)
    (hd : Spec.debugAsked f = true) (hres : (cliMain f A none src env).2.2 = .results res) (s s' : σ) (a b : α) (nores : ε)
    (hset : A2.set s = .ok s') (ha : A2.run true s' = .ok a) (hb : A2.run env.debug s' = .ok b) :
    (easyMain {} A2 none (.object s) nores (cliMain f A none src env).1).2.2 = .ok a ∧ (easyMain {} A2 none (.object s) nores env).2.2 = .ok b := by
  have hdb : (cliMain f A none src env).1.debug = true := by
    have hd' : (f.debugArg || f.debug) = true := hd
    have key : ∀ env1 (evs : List (MainEv σ ε)) (r : List α) (err : Option ε) (x : List α), (mainFinish f env1 evs r err).2.2 = .results x → (mainFinish f env1 evs r err).1.debug = true := by
      intro env1 evs r err x hx
      unfold mainFinish at hx ⊢
      cases err with
      | none => simp [hd']
      | some e =>
        cases hp : f.pdb with
        | true => simp [hd']
        | false => simp [hp] at hx
    unfold cliMain at hres ⊢
    cases hv : f.version with
    | true => simp [hv] at hres
    | false =>
      simp only [hv, Bool.false_eq_true, if_false] at hres ⊢
      match src with
      | .missing => cases hres
      | .file (.error e) => exact key _ _ _ _ _ hres
      | .file (.ok l) => exact key _ _ _ _ _ hres
      | .object s => exact key _ _ _ _ _ hres
  generalize (cliMain f A none src env).1 = env1 at hdb
  refine ⟨?_, ?_⟩
  · simp [easyMain, cliMain, mainLoop, hset, hdb, ha, mainFinish]
  · simp [easyMain, cliMain, mainLoop, hset, hb, mainFinish]

/-- C228: calls that ask for no debugger leave no trace in the process. -/
theorem C228_independent_partial (f : MainFlags) (A : CliActions σ ε α) (opts : Option ε) (src : CliSource σ ε) (env : CliEnv) (hp : f.pdb = false)
    (hd : Spec.debugAsked f = false) : (cliMain f A opts src env).1 = env := by
  cases hv : f.version with
  | true => simp [cliMain, hv]
  | false =>
    obtain ⟨h1, h2⟩ := cliMain_env f A opts src env hv
    rw [hp, hd] at h1
    rcases hc : (cliMain f A opts src env).1 with ⟨a, b⟩
    rw [hc] at h1 h2
    have ha : a = env.postmortem := by simpa using h1
    have hb : b = env.debug := h2 hd
    rw [ha, hb]

/-! ### C229: the options on their way to the environments -/

private theorem soil_file_results (f : MainFlags) (o : CliRunOpts) (B : Build) (sims : List Sim) (env : CliEnv) (hv : f.version = false)
    (hc : f.convert = false) (hok : ∀ s ∈ sims, ((cliSim { o.apply s with parameters := Dict.update s.parameters o.sets } o.limits).run B).failed = false) :
    (soilFile f o B sims env).2.2 =
      .results (sims.map (fun s => ((cliSim { o.apply s with parameters := Dict.update s.parameters o.sets } o.limits).run B).results)) := by
  have h := C228_runs f (o.actions B) (sims.map o.apply) (sims.map (fun s => { o.apply s with parameters := Dict.update s.parameters o.sets }))
    (sims.map (fun s => ((cliSim { o.apply s with parameters := Dict.update s.parameters o.sets } o.limits).run B).results)) env hv hc ?_ ?_
  · rw [soilFile, h]
  · clear hok
    induction sims with
    | nil => exact .nil
    | cons s l ih => exact .cons rfl ih
  · induction sims with
    | nil => exact .nil
    | cons s l ih =>
      refine .cons ?_ (ih fun x hx => hok x (List.mem_cons_of_mem _ hx))
      simp [CliRunOpts.actions, hok s (List.mem_cons_self ..)]

/-- The parameters with which a simulation is run. -/
def Spec.afterSet (o : CliRunOpts) (s : Sim) : Sim := { s with parameters := Dict.update s.parameters o.sets }

private theorem collect_eq {a b : Sim} (h1 : a.parameters = b.parameters) (h2 : a.matrix = b.matrix) : collectParams a = collectParams b := by
  simp [collectParams, h1, h2]

/-- C229, the seed and the number of iterations: if nothing raises, the results of `soil file` are one list for each simulation of the file, with one
environment for each combination (of the parameters with those of `--set`) and each of the iterations asked for, and its seed is made of the seed asked for and
the number of the iteration. -/
theorem C229_runs_partial (f : MainFlags) (o : CliRunOpts) (B : Build) (sims : List Sim) (env : CliEnv) (hv : f.version = false) (hc : f.convert = false)
    (hd : o.dryRun = false)
    (hok : ∀ s ∈ sims, ((cliSim { o.apply s with parameters := Dict.update s.parameters o.sets } o.limits).run B).failed = false) :
    ∃ res, (soilFile f o B sims env).2.2 = .results res ∧
      List.Forall₂ (fun s envs =>
        envs.map (fun a => (a.params, a.id)) = (collectParams (Spec.afterSet o s)).flatMap
          (fun p => (List.range (o.iterations.getD s.iterations)).map (stripReps p, ·)) ∧
        ∀ a ∈ envs, a.seed = iterSeed (o.seed.getD s.seed) a.id) sims res := by
  refine ⟨_, soil_file_results f o B sims env hv hc hok, ?_⟩
  induction sims with
  | nil => exact .nil
  | cons s l ih =>
    refine .cons ⟨?_, ?_⟩ (ih fun x hx => hok x (List.mem_cons_of_mem _ hx))
    · rw [(C52_results _ B (hok s (List.mem_cons_self ..))).1 hd]
      rw [collect_eq (a := cliSim { o.apply s with parameters := Dict.update s.parameters o.sets } o.limits) (b := Spec.afterSet o s) rfl rfl]
      rfl
    · exact C51_run_seeds _ B

private theorem mem_results {o : CliRunOpts} {s : Sim} {envs : List RunArgs} {a : RunArgs} (ha : a ∈ envs)
    (h : envs.map (fun a => (a.params, a.id)) = (collectParams (Spec.afterSet o s)).flatMap
      (fun p => (List.range (o.iterations.getD s.iterations)).map (stripReps p, ·))) :
    ∃ p ∈ collectParams (Spec.afterSet o s), a.params = stripReps p := by
  have : (a.params, a.id) ∈ envs.map (fun a => (a.params, a.id)) := List.mem_map.2 ⟨a, ha, rfl⟩
  rw [h] at this
  obtain ⟨p, hp, hx⟩ := List.mem_flatMap.1 this
  obtain ⟨i, _, hi⟩ := List.mem_map.1 hx
  exact ⟨p, hp, (congrArg Prod.fst hi).symm⟩

/-- C229, the parameters: if the simulation has no matrix, every environment gets the values given with `--set`, and the other parameters of the simulation.
Missing: simulations with a matrix. -/
theorem C229_set_partial (f : MainFlags) (o : CliRunOpts) (B : Build) (s : Sim) (env : CliEnv) (hv : f.version = false) (hc : f.convert = false)
    (hd : o.dryRun = false) (hm : s.matrix = []) (hs : Dict.WF o.sets) (hp : Dict.WF s.parameters) (hne : o.sets ≠ [])
    (hok : ((cliSim { o.apply s with parameters := Dict.update s.parameters o.sets } o.limits).run B).failed = false) :
    ∃ envs, (soilFile f o B [s] env).2.2 = .results [envs] ∧ envs.length = o.iterations.getD s.iterations ∧ ∀ a ∈ envs, ∀ k,
      k ≠ "agent_reporters" → k ≠ "model_reporters" → Dict.get? a.params k = (Dict.get? o.sets k).or (Dict.get? s.parameters k) := by
  obtain ⟨res, h1, h2⟩ := C229_runs_partial f o B [s] env hv hc hd (by simpa using hok)
  cases h2 with
  | @cons _ envs _ res' h h' =>
  cases h'
  have hwf : Dict.WF (Dict.update s.parameters o.sets) := hp.update _
  have hnil : Dict.update s.parameters o.sets ≠ [] := by
    intro he
    cases hos : o.sets with
    | nil => exact hne hos
    | cons kv l =>
      have hg := Dict.get?_update s.parameters o.sets hs kv.1
      rw [he, Dict.get?_of_mem hs (k := kv.1) (v := kv.2) (by rw [hos]; exact List.mem_cons_self ..)] at hg
      simp at hg
  have hcol : collectParams (Spec.afterSet o s) = [Dict.update s.parameters o.sets] := by
    simp [collectParams, Spec.afterSet, hm, hnil]
  refine ⟨envs, h1, ?_, ?_⟩
  · have := congrArg List.length h.1
    rw [hcol] at this
    simpa using this
  · intro a ha k hk1 hk2
    obtain ⟨p, hp', hpe⟩ := mem_results ha h.1
    rw [hcol] at hp'
    rw [List.mem_singleton.1 hp'] at hpe
    rw [hpe, stripReps, Dict.get?_del _ (hwf.del _), if_neg (fun e => hk2 e.symm), Dict.get?_del _ hwf, if_neg (fun e => hk1 e.symm),
      Dict.get?_update _ _ hs]

/-- C229 is violated by a simulation with a matrix (and without other parameters): with `--set`, its combinations are run as before, without the values
given, unless the matrix has them anyway; and there is one combination more, which has only the parameters given. -/
theorem C229_set_false (f : MainFlags) (o : CliRunOpts) (B : Build) (s : Sim) (env : CliEnv) (hv : f.version = false) (hc : f.convert = false)
    (hd : o.dryRun = false) (hp : s.parameters = []) (hm : s.matrix ≠ []) (hwf : Dict.WF s.matrix) (hs : Dict.WF o.sets) (hne : o.sets ≠ [])
    (hok : ((cliSim { o.apply s with parameters := Dict.update s.parameters o.sets } o.limits).run B).failed = false) :
    ∃ first rest, (soilFile f o B [s] env).2.2 = .results [first ++ rest] ∧
      first.map (fun a => (a.params, a.id)) = (List.range (o.iterations.getD s.iterations)).map (stripReps o.sets, ·) ∧
      rest.map (fun a => (a.params, a.id)) = (matrixCombos s.matrix).flatMap
        (fun p => (List.range (o.iterations.getD s.iterations)).map (stripReps p, ·)) ∧
      ∀ a ∈ rest, ∀ k, Dict.has s.matrix k = false → Dict.get? a.params k = none := by
  obtain ⟨res, h1, h2⟩ := C229_runs_partial f o B [s] env hv hc hd (by simpa using hok)
  cases h2 with
  | @cons _ envs _ res' h h' =>
  cases h'
  have hup : Dict.update s.parameters o.sets = o.sets := by
    rw [hp, Dict.update_of_disjoint (d := []) (e := o.sets) hs]; rfl
  have hcol : collectParams (Spec.afterSet o s) = o.sets :: matrixCombos s.matrix := by
    simp [collectParams, Spec.afterSet, hm, hup, hne]
  have h3 := h.1
  rw [hcol, List.flatMap_cons] at h3
  obtain ⟨first, rest, he, hf, hr⟩ := List.map_eq_append_iff.1 h3
  subst he
  refine ⟨first, rest, h1, hf, hr, ?_⟩
  intro a ha k hk
  have : (a.params, a.id) ∈ rest.map (fun a => (a.params, a.id)) := List.mem_map.2 ⟨a, ha, rfl⟩
  rw [hr] at this
  obtain ⟨p, hpm, hx⟩ := List.mem_flatMap.1 this
  obtain ⟨i, _, hi⟩ := List.mem_map.1 hx
  have hpe : a.params = stripReps p := (congrArg Prod.fst hi).symm
  have hnone := C50_missing_false s hwf k hk p hpm
  rw [hpe, Dict.get?_none_iff]
  intro hmem
  have hsub : ∀ x ∈ Dict.keys (stripReps p), x ∈ Dict.keys p := fun x hx =>
    (Dict.keys_del_sublist p _).subset ((Dict.keys_del_sublist _ _).subset hx)
  exact (Dict.get?_none_iff p k).1 hnone (hsub k hmem)

/-! ### Examples -/

/-- Simulations are numbers here; 7 cannot be configured and 9 raises; the result says whether several processes may be used. -/
def exActions : CliActions Nat String (Nat × Bool) where
  set s := if s = 7 then .error "set" else .ok (s + 10)
  yaml _ := .ok ()
  run dbg s := if s = 19 then .error "run" else .ok (s, !dbg)

example : (cliMain {} exActions none (.file (.ok [1, 2])) {}).2 = ([.ran 11, .ran 12], .results [(11, true), (12, true)]) ∧
    (cliMain { convert := true } exActions none (.file (.ok [1, 2])) {}).2 = ([.shown 11, .shown 12], .results []) ∧
    (cliMain {} exActions none (.file (.ok [1, 9, 2])) {}).2 = ([.ran 11, .ran 19], .raised "run") ∧
    (cliMain {} exActions none (.file (.ok [1, 7, 2])) {}).2 = ([.ran 11], .raised "set") ∧
    (cliMain { pdb := true } exActions none (.file (.ok [1, 9, 2])) {}).2 = ([.ran 11, .ran 19, .postMortem "run"], .results [(11, true)]) := by
  decide +kernel

/-- `easy` with a file of two simulations returns the result of the first, though both are run. -/
example : (easyMain {} exActions none (.file (.ok [1, 2])) "IndexError" {}).2.1 = [.ran 11, .ran 12] ∧
    (easyMain {} exActions none (.file (.ok [1, 2])) "IndexError" {}).2.2.toOption = some (11, true) := by
  decide +kernel

/-- In a process in which `--debug` was used once, a later call of `easy` that fails opens the debugger, and later runs use one process. -/
example : (easyMain {} exActions none (.object 9) "IndexError" {}).2.1 = [.ran 19] ∧
    (easyMain { pdbArg := true } exActions none (.object 9) "IndexError" {}).2.1 = [.ran 19] ∧
    (easyMain {} exActions none (.object 9) "IndexError" (cliMain { debug := true } exActions none (.object 1) {}).1).2.1 =
      [.ran 19, .postMortem "run"] ∧
    (easyMain {} exActions none (.object 2) "IndexError" (cliMain { debug := true } exActions none (.object 1) {}).1).2.2.toOption = some (12, false) := by
  decide +kernel

/-- A simulation with parameters and one with a matrix; `--set n=5 --iterations 2 --seed x`. -/
def exSoilRun : List (List (Params × Nat × String)) :=
  match (soilFile {} { seed := some "x", iterations := some 2, sets := [("n", .val 5)] } (fun _ _ => true)
    [{ parameters := [("n", .val 1), ("k", .val 3)] }, { matrix := [("a", [.val 1, .val 2])] }] {}).2.2 with
  | .results l => l.map (fun envs => envs.map (fun a => (a.params, a.id, a.seed)))
  | _ => []

example : exSoilRun =
    [[([("n", .val 5), ("k", .val 3)], 0, "x_iteration_0"), ([("n", .val 5), ("k", .val 3)], 1, "x_iteration_1")],
      [([("n", .val 5)], 0, "x_iteration_0"), ([("n", .val 5)], 1, "x_iteration_1"),
        ([("a", .val 1)], 0, "x_iteration_0"), ([("a", .val 1)], 1, "x_iteration_1"),
        ([("a", .val 2)], 0, "x_iteration_0"), ([("a", .val 2)], 1, "x_iteration_1")]] := by decide +kernel

end Verif
