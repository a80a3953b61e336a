import Verif.Model.Report
import Verif.Props.Data

/-!
# Properties C111, C112: reported members; logging
-/

namespace Verif

variable {S A : Type}

/-! ### C111 -/

theorem markedRegs_mem {inst : S → Dict String RVal} {members : List (String × EnvMember S)} {r : Reg S A}
    (h : r ∈ markedRegs inst members) :
    ∃ k m, (k, m) ∈ members ∧ m.marked = true ∧ r = .model k (m.read inst k) := by
  unfold markedRegs at h
  rw [List.mem_filterMap] at h
  obtain ⟨⟨k, m⟩, hm, he⟩ := h
  simp only at he
  split at he
  · rename_i hk; cases he; exact ⟨k, m, hm, hk, rfl⟩
  · cases he

theorem marked_free {members : List (String × EnvMember S)} {name : String}
    (hfree : (∀ get, (name, .prop true get) ∉ members) ∧ ∀ ident call, (name, .method true ident call) ∉ members)
    (k : String) (m : EnvMember S) (hm : (k, m) ∈ members) (hk : m.marked = true) : k ≠ name := by
  rintro rfl
  cases m with
  | prop b get =>
    have hb : b = true := hk
    subst hb
    exact hfree.1 _ hm
  | method b ident call =>
    have hb : b = true := hk
    subst hb
    exact hfree.2 _ _ hm
  | data v => cases hk

theorem marked_column (inst : S → Dict String RVal) (members : List (String × EnvMember S)) (c : Collector S A)
    (hc : Dict.WF c.modelReporters) (hnd : (members.map Prod.fst).Nodup) (k : String) (m : EnvMember S)
    (hmem : (k, m) ∈ members) (hmark : m.marked = true) :
    HasColumn ((markedRegs inst members).foldl Collector.register c) k (m.read inst k) [] := by
  induction members generalizing c with
  | nil => cases hmem
  | cons p rest ih =>
    obtain ⟨k', m'⟩ := p
    simp only [List.map_cons, List.nodup_cons] at hnd
    rcases List.mem_cons.1 hmem with h | h
    · cases h
      have e : (markedRegs inst ((k, m) :: rest) : List (Reg S A)) = .model k (m.read inst k) :: markedRegs inst rest := by
        simp [markedRegs, hmark]
      rw [e, List.foldl_cons]
      refine HasColumn.registerAll (HasColumn.new hc k _) _ ?_
      intro r hr
      obtain ⟨k2, m2, h2, _, rfl⟩ := markedRegs_mem hr
      simp only [Reg.isModel, beq_eq_false_iff_ne, ne_eq]
      rintro rfl
      exact hnd.1 (List.mem_map.2 ⟨_, h2, rfl⟩)
    · by_cases hm' : m'.marked = true
      · have e : (markedRegs inst ((k', m') :: rest) : List (Reg S A)) = .model k' (m'.read inst k') :: markedRegs inst rest := by
          simp [markedRegs, hm']
        rw [e, List.foldl_cons]
        exact ih _ (hc.set _ _) hnd.2 h
      · have e : (markedRegs inst ((k', m') :: rest) : List (Reg S A)) = markedRegs inst rest := by
          simp [markedRegs, hm']
        rw [e]
        exact ih _ hc hnd.2 h

theorem soilCollector_wf (st : Stepper S) (ob : Observed S A) (mr : Dict String (ModelRep S))
    (ar : Dict String (AgentRep S A)) (hwf : Dict.WF mr) : Dict.WF (soilCollector st ob mr ar).modelReporters := by
  by_cases h : Dict.get? mr "time" = none
  · exact ((soilCollector_columns st ob mr ar hwf).2.1 h).wf
  · obtain ⟨f, hf⟩ := Option.ne_none_iff_exists'.1 h
    exact ((soilCollector_columns st ob mr ar hwf).1 _ f hf).wf

/-- The rows of a marked member, whatever it is. -/
theorem marked_rows (st : Stepper S) (ob : Observed S A) (mr : Dict String (ModelRep S)) (ar : Dict String (AgentRep S A))
    (hmr : Dict.WF mr) (inst : S → Dict String RVal) (members : List (String × EnvMember S))
    (hnd : (members.map Prod.fst).Nodup) (regsInit : List (Reg S A)) (regs : S → List (Reg S A)) (s : S) (n : Nat)
    (k : String) (m : EnvMember S) (hmem : (k, m) ∈ members) (hmark : m.marked = true)
    (hinit : ∀ r ∈ regsInit, r.isModel k = false)
    (hregs : ∀ i < n, ∀ r ∈ regs (iterStep st i s), r.isModel k = false)
    (hnew : (DataEnv.ofClass st ob mr ar inst members regsInit s).2 = false)
    (hok : ((DataEnv.ofClass st ob mr ar inst members regsInit s).1.steps st ob regs n).2 = false) :
    ∃ rows, Dict.get? ((DataEnv.ofClass st ob mr ar inst members regsInit s).1.steps st ob regs n).1.dc.modelVars k = some rows ∧
      rows.length = n + 1 ∧ ∀ i ≤ n, rows[i]? = m.read inst k (iterStep st i s) := by
  refine C57_rows st ob _ _ regs s n k _ ?_ hnew hregs hok
  rw [List.foldl_append]
  exact HasColumn.registerAll (marked_column inst members _ (soilCollector_wf st ob mr ar hmr) hnd k m hmem hmark) _ hinit

/-- C111 (partial: marked properties; a marked method is not called, see `C111_method_false`): a property marked with
`@report`, that `init` and the steps do not define a reporter for, has `n + 1` rows after `n` steps, which are the values of
the property initially and after each step, whether or not a reporter of that name was given to the constructor. -/
theorem C111_property_partial (st : Stepper S) (ob : Observed S A) (mr : Dict String (ModelRep S))
    (ar : Dict String (AgentRep S A)) (hmr : Dict.WF mr) (inst : S → Dict String RVal) (members : List (String × EnvMember S))
    (hnd : (members.map Prod.fst).Nodup) (regsInit : List (Reg S A)) (regs : S → List (Reg S A)) (s : S) (n : Nat)
    (k : String) (val : S → RVal) (hmem : (k, .prop true (fun s => .value (val s))) ∈ members)
    (hinit : ∀ r ∈ regsInit, r.isModel k = false)
    (hregs : ∀ i < n, ∀ r ∈ regs (iterStep st i s), r.isModel k = false)
    (hnew : (DataEnv.ofClass st ob mr ar inst members regsInit s).2 = false)
    (hok : ((DataEnv.ofClass st ob mr ar inst members regsInit s).1.steps st ob regs n).2 = false) :
    ∃ rows, Dict.get? ((DataEnv.ofClass st ob mr ar inst members regsInit s).1.steps st ob regs n).1.dc.modelVars k = some rows ∧
      rows.length = n + 1 ∧ ∀ i ≤ n, rows[i]? = some (val (iterStep st i s)) :=
  marked_rows st ob mr ar hmr inst members hnd regsInit regs s n k _ hmem rfl hinit hregs hnew hok

/-- C111 is false for methods: if `@report` is applied to a method, the rows hold the bound method itself and never the value
that the method returns (unless an attribute of the instance hides the method). -/
theorem C111_method_false (st : Stepper S) (ob : Observed S A) (mr : Dict String (ModelRep S))
    (ar : Dict String (AgentRep S A)) (hmr : Dict.WF mr) (inst : S → Dict String RVal) (members : List (String × EnvMember S))
    (hnd : (members.map Prod.fst).Nodup) (regsInit : List (Reg S A)) (regs : S → List (Reg S A)) (s : S) (n : Nat)
    (k : String) (ident : Nat) (val : S → RVal) (hmem : (k, .method true ident (fun s => .value (val s))) ∈ members)
    (hother : ∀ s, val s ≠ .obj ident) (hinst : ∀ s, Dict.get? (inst s) k = none)
    (hinit : ∀ r ∈ regsInit, r.isModel k = false)
    (hregs : ∀ i < n, ∀ r ∈ regs (iterStep st i s), r.isModel k = false)
    (hnew : (DataEnv.ofClass st ob mr ar inst members regsInit s).2 = false)
    (hok : ((DataEnv.ofClass st ob mr ar inst members regsInit s).1.steps st ob regs n).2 = false) :
    ∃ rows, Dict.get? ((DataEnv.ofClass st ob mr ar inst members regsInit s).1.steps st ob regs n).1.dc.modelVars k = some rows ∧
      rows = List.replicate (n + 1) (.obj ident) ∧ ∀ i ≤ n, rows[i]? ≠ some (val (iterStep st i s)) := by
  obtain ⟨rows, h1, h2, h3⟩ := marked_rows st ob mr ar hmr inst members hnd regsInit regs s n k _ hmem rfl hinit hregs hnew hok
  have h4 : ∀ i ≤ n, rows[i]? = some (RVal.obj ident) := by
    intro i hi; rw [h3 i hi]; simp [EnvMember.read, hinst]
  refine ⟨rows, h1, ?_, fun i hi => ?_⟩
  · apply List.ext_getElem?
    intro i
    by_cases hi : i ≤ n
    · rw [h4 i hi, List.getElem?_replicate, if_pos (by omega)]
    · rw [List.getElem?_eq_none (by omega), List.getElem?_replicate, if_neg (by omega)]
  · rw [h4 i hi]; intro h; exact hother _ (Option.some.inj h).symm

/-- C111: a reporter given to the constructor under a name that no marked member has works as if nothing were marked. -/
theorem C111_others (st : Stepper S) (ob : Observed S A) (mr : Dict String (ModelRep S)) (ar : Dict String (AgentRep S A))
    (hmr : Dict.WF mr) (inst : S → Dict String RVal) (members : List (String × EnvMember S)) (regsInit : List (Reg S A))
    (regs : S → List (Reg S A)) (s : S) (n : Nat) (name : String) (f : ModelRep S) (hf : Dict.get? mr name = some f)
    (hfree : (∀ get, (name, .prop true get) ∉ members) ∧ ∀ ident call, (name, .method true ident call) ∉ members)
    (hinit : ∀ r ∈ regsInit, r.isModel name = false)
    (hregs : ∀ i < n, ∀ r ∈ regs (iterStep st i s), r.isModel name = false)
    (hnew : (DataEnv.ofClass st ob mr ar inst members regsInit s).2 = false)
    (hok : ((DataEnv.ofClass st ob mr ar inst members regsInit s).1.steps st ob regs n).2 = false) :
    ∃ rows, Dict.get? ((DataEnv.ofClass st ob mr ar inst members regsInit s).1.steps st ob regs n).1.dc.modelVars name = some rows ∧
      rows.length = n + 1 ∧ ∀ i ≤ n, rows[i]? = f (iterStep st i s) := by
  refine C57_rows st ob _ _ regs s n name _ ?_ hnew hregs hok
  rw [List.foldl_append]
  refine HasColumn.registerAll (HasColumn.registerAll ((soilCollector_columns st ob mr ar hmr).1 name f hf) _ ?_) _ hinit
  intro r hr
  obtain ⟨k, m, hm, hk, rfl⟩ := markedRegs_mem hr
  have hk' : k ≠ name := marked_free hfree k m hm hk
  simpa [Reg.isModel] using hk'

theorem collectModel_keys (s : S) (reps : List (String × ModelRep S)) (vars : Dict String (List RVal)) (name : String)
    (h1 : name ∉ reps.map Prod.fst) (h2 : Dict.get? vars name = none) :
    Dict.get? (collectModel s reps vars).1 name = none := by
  rw [collectModel_other s name reps vars h1, h2]

/-- There is neither a reporter nor a column of that name. -/
structure NoColumn (c : Collector S A) (name : String) : Prop where
  rep : Dict.get? c.modelReporters name = none
  rows : Dict.get? c.modelVars name = none

theorem NoColumn.register {c : Collector S A} {name : String} (h : NoColumn c name) (r : Reg S A)
    (hr : r.isModel name = false) : NoColumn (c.register r) name := by
  cases r with
  | model n g =>
    have hne : n ≠ name := by simpa [Reg.isModel] using hr
    exact ⟨by rw [← h.rep]; exact Dict.get?_set_ne _ _ hne, by rw [← h.rows]; exact Dict.get?_set_ne _ _ hne⟩
  | agent n g => exact ⟨h.rep, h.rows⟩

theorem NoColumn.registerAll {c : Collector S A} {name : String} (h : NoColumn c name) (rs : List (Reg S A))
    (hr : ∀ r ∈ rs, r.isModel name = false) : NoColumn (rs.foldl Collector.register c) name := by
  induction rs generalizing c with
  | nil => exact h
  | cons r rs ih => exact ih (h.register r (hr r (by simp))) (fun r' h' => hr r' (by simp [h']))

theorem NoColumn.collect {c : Collector S A} {name : String} (h : NoColumn c name) (ob : Observed S A) (s : S) :
    NoColumn (c.collect ob s).1 name := by
  have hr : Dict.get? (collectModel s c.modelReporters c.modelVars).1 name = none := by
    refine collectModel_keys s _ _ name ?_ h.rows
    have := (Dict.get?_none_iff (d := c.modelReporters) (k := name)).1 h.rep
    simpa [Dict.keys] using this
  unfold Collector.collect
  simp only
  split
  · exact ⟨h.rep, hr⟩
  · split
    · exact ⟨h.rep, hr⟩
    · split
      · exact ⟨h.rep, hr⟩
      · exact ⟨h.rep, hr⟩

theorem NoColumn.steps (st : Stepper S) (ob : Observed S A) (regs : S → List (Reg S A)) (name : String)
    (hregs : ∀ s, ∀ r ∈ regs s, r.isModel name = false) (n : Nat) (e : DataEnv S A) (h : NoColumn e.dc name) :
    NoColumn (e.steps st ob regs n).1.dc name := by
  have hstep : ∀ e : DataEnv S A, NoColumn e.dc name → NoColumn (e.step st ob regs).1.dc name := by
    intro e h
    have h1 := h.registerAll (regs e.state) (hregs _)
    unfold DataEnv.step
    simp only
    split
    · exact h1
    · exact h1.collect ob _
  induction n generalizing e with
  | zero => exact h
  | succ n ih =>
    simp only [DataEnv.steps]
    split
    · exact hstep e h
    · exact ih _ (hstep e h)

/-- C111: a member that is not marked is not reported: there is no column of its name, unless a reporter of that name is
given or defined otherwise. -/
theorem C111_unmarked (st : Stepper S) (ob : Observed S A) (mr : Dict String (ModelRep S)) (ar : Dict String (AgentRep S A))
    (inst : S → Dict String RVal) (members : List (String × EnvMember S)) (regsInit : List (Reg S A))
    (regs : S → List (Reg S A)) (s : S) (n : Nat) (name : String)
    (hmr : Dict.get? mr name = none) (h1 : name ≠ "time") (h2 : name ≠ "agent_count")
    (hfree : (∀ get, (name, .prop true get) ∉ members) ∧ ∀ ident call, (name, .method true ident call) ∉ members)
    (hinit : ∀ r ∈ regsInit, r.isModel name = false) (hregs : ∀ s, ∀ r ∈ regs s, r.isModel name = false) :
    Dict.get? ((DataEnv.ofClass st ob mr ar inst members regsInit s).1.steps st ob regs n).1.dc.modelVars name = none := by
  have base : NoColumn (soilCollector st ob mr ar) name := by
    have key : ∀ (l : List (String × ModelRep S)) (c : Collector S A), NoColumn c name → Dict.get? l name = none →
        NoColumn (l.foldl (fun c nf => c.newModelReporter nf.1 nf.2) c) name := by
      intro l
      induction l with
      | nil => intro c h _; exact h
      | cons p l ih =>
        intro c h hl
        have hp : p.1 ≠ name ∧ Dict.get? l name = none := by
          obtain ⟨a, b⟩ := p
          simp only [Dict.get?] at hl
          by_cases e : a = name
          · simp [e] at hl
          · simpa [e] using hl
        exact ih _ (h.register (.model p.1 p.2) (by simpa [Reg.isModel] using hp.1)) hp.2
    have key2 : ∀ (l : List (String × AgentRep S A)) (c : Collector S A), NoColumn c name →
        NoColumn (l.foldl (fun c nf => c.newAgentReporter nf.1 nf.2) c) name := by
      intro l
      induction l with
      | nil => intro c h; exact h
      | cons p l ih => intro c h; exact ih _ ⟨h.rep, h.rows⟩
    unfold soilCollector
    simp only
    refine key2 _ _ (key _ _ ⟨rfl, rfl⟩ ?_)
    have e1 : Dict.get? (if Dict.has mr "agent_count" then mr else Dict.set mr "agent_count" (countRep ob)) name = none := by
      split
      · exact hmr
      · rw [Dict.get?_set_ne _ _ (Ne.symm h2)]; exact hmr
    generalize (if Dict.has mr "agent_count" then mr else Dict.set mr "agent_count" (countRep ob)) = mr1 at e1 ⊢
    split
    · exact e1
    · rw [Dict.get?_set_ne _ _ (Ne.symm h1)]; exact e1
  refine (NoColumn.steps st ob regs name hregs n _ ?_).rows
  have : NoColumn ((markedRegs inst members ++ regsInit).foldl Collector.register (soilCollector st ob mr ar)) name := by
    refine base.registerAll _ ?_
    intro r hr
    rcases List.mem_append.1 hr with hr | hr
    · obtain ⟨k, m, hm, hk, rfl⟩ := markedRegs_mem hr
      have hk' : k ≠ name := marked_free hfree k m hm hk
      simpa [Reg.isModel] using hk'
    · exact hinit r hr
  exact this.collect ob s

/-- C111: a marked property whose getter raises an exception other than `AttributeError` makes the construction of the
environment fail; with `AttributeError` the row is `None`. -/
theorem C111_raising (st : Stepper S) (ob : Observed S A) (mr : Dict String (ModelRep S)) (ar : Dict String (AgentRep S A))
    (hmr : Dict.WF mr) (inst : S → Dict String RVal) (members : List (String × EnvMember S))
    (hnd : (members.map Prod.fst).Nodup) (regsInit : List (Reg S A)) (s : S) (k : String) (get : S → Got)
    (hmem : (k, .prop true get) ∈ members) (hinit : ∀ r ∈ regsInit, r.isModel k = false) :
    (get s = .raises → (DataEnv.ofClass st ob mr ar inst members regsInit s).2 = true) ∧
    (get s = .attributeError → (DataEnv.ofClass st ob mr ar inst members regsInit s).2 = false →
      Dict.get? (DataEnv.ofClass st ob mr ar inst members regsInit s).1.dc.modelVars k = some [.none]) := by
  have hcol : HasColumn ((markedRegs inst members ++ regsInit).foldl Collector.register (soilCollector st ob mr ar)) k
      ((EnvMember.prop true get).read inst k) [] := by
    rw [List.foldl_append]
    exact HasColumn.registerAll (marked_column inst members _ (soilCollector_wf st ob mr ar hmr) hnd k _ hmem rfl) _ hinit
  constructor
  · intro hg
    cases hx : (DataEnv.ofClass st ob mr ar inst members regsInit s).2 with
    | true => rfl
    | false =>
      obtain ⟨v, hv, _⟩ := hcol.collect ob s (by simpa [DataEnv.ofClass, DataEnv.new] using hx)
      simp [EnvMember.read, hg] at hv
  · intro hg hx
    obtain ⟨v, hv, h⟩ := hcol.collect ob s (by simpa [DataEnv.ofClass, DataEnv.new] using hx)
    have : v = .none := by simpa [EnvMember.read, hg] using hv.symm
    subst this
    exact h.rows

/-- Every reporter of the model gives a value. -/
def Collector.Fine (c : Collector S A) (s : S) : Prop := ∀ nf ∈ c.modelReporters, nf.2 s ≠ none

theorem Collector.Fine.set {c : Collector S A} {s : S} (h : c.Fine s) (n : String) (f : ModelRep S) (hf : f s ≠ none) :
    (c.newModelReporter n f).Fine s := by
  intro nf hnf
  simp only [Collector.newModelReporter] at hnf
  have key : ∀ (d : List (String × ModelRep S)), nf ∈ Dict.set d n f → nf.2 = f ∨ nf ∈ d := by
    intro d
    induction d with
    | nil => intro h; simp only [Dict.set, List.mem_singleton] at h; exact Or.inl (by rw [h])
    | cons p d ih =>
      intro h
      simp only [Dict.set] at h
      split at h
      · rcases List.mem_cons.1 h with rfl | h
        · exact Or.inl rfl
        · exact Or.inr (List.mem_cons_of_mem _ h)
      · rcases List.mem_cons.1 h with rfl | h
        · exact Or.inr List.mem_cons_self
        · rcases ih h with h | h
          · exact Or.inl h
          · exact Or.inr (List.mem_cons_of_mem _ h)
  rcases key _ hnf with e | e
  · rw [e]; exact hf
  · exact h nf e

theorem collectModel_fine (s : S) (reps : List (String × ModelRep S)) (vars : Dict String (List RVal))
    (h : ∀ nf ∈ reps, nf.2 s ≠ none) : (collectModel s reps vars).2 = false := by
  induction reps generalizing vars with
  | nil => rfl
  | cons p reps ih =>
    obtain ⟨n, f⟩ := p
    cases hf : f s with
    | none => exact absurd hf (h (n, f) (by simp))
    | some v =>
      simp only [collectModel, hf]
      exact ih _ (fun nf hnf => h nf (by simp [hnf]))

theorem registered_agents (l : List (Reg S A)) (hl : ∀ r ∈ l, ∃ n f, r = .model n f) (c : Collector S A) (hc : c.agentReporters = []) :
    (l.foldl Collector.register c).agentReporters = [] := by
  induction l generalizing c with
  | nil => exact hc
  | cons r l ih =>
    obtain ⟨n, f, rfl⟩ := hl r (by simp)
    exact ih (fun r hr => hl r (by simp [hr])) _ hc

theorem registered_fine (l : List (Reg S A)) (s : S) (hl : ∀ r ∈ l, ∃ n f, r = .model n f ∧ f s ≠ none) (c : Collector S A)
    (hc : c.Fine s) : (l.foldl Collector.register c).Fine s := by
  induction l generalizing c with
  | nil => exact hc
  | cons r l ih =>
    obtain ⟨n, f, rfl, hf⟩ := hl r (by simp)
    exact ih (fun r hr => hl r (by simp [hr])) _ (hc.set n f hf)

/-- C111: without further reporters, an environment can be constructed exactly if no getter of a marked property raises something
other than `AttributeError`; methods do no harm. -/
theorem C111_constructed (st : Stepper S) (ob : Observed S A) (inst : S → Dict String RVal) (members : List (String × EnvMember S))
    (hnd : (members.map Prod.fst).Nodup) (s : S) :
    (DataEnv.ofClass st ob [] [] inst members [] s).2 = false ↔ ∀ k get, (k, .prop true get) ∈ members → get s ≠ .raises := by
  constructor
  · intro h k get hm hg
    rw [(C111_raising st ob [] [] (by simp [Dict.WF, Dict.keys]) inst members hnd [] s k get hm (by simp)).1 hg] at h
    cases h
  · intro h
    have hmod : ∀ r ∈ (markedRegs inst members ++ [] : List (Reg S A)), ∃ n f, r = .model n f ∧ f s ≠ none := by
      intro r hr
      rw [List.append_nil] at hr
      obtain ⟨k, m, hm, hk, rfl⟩ := markedRegs_mem hr
      refine ⟨k, _, rfl, ?_⟩
      cases m with
      | prop b get =>
        have hb : b = true := hk
        subst hb
        have := h k get hm
        simp only [EnvMember.read]
        cases hg : get s with
        | value v => simp
        | attributeError => simp
        | raises => exact absurd hg this
      | method b ident call => simp [EnvMember.read]
      | data v => simp [EnvMember.read]
    have hf : (soilCollector st ob [] [] : Collector S A).Fine s := by
      intro nf hnf
      simp only [soilCollector, Dict.has, Dict.get?, Dict.set] at hnf
      simp [Collector.newModelReporter, Dict.set, Dict.get?] at hnf
      rcases hnf with rfl | rfl <;> simp [countRep, timeRep]
    have h1 := registered_fine _ s hmod _ hf
    have h2 := registered_agents _ (fun r hr => by obtain ⟨n, f, e, _⟩ := hmod r hr; exact ⟨n, f, e⟩) (soilCollector st ob [] []) rfl
    simp only [DataEnv.ofClass, DataEnv.new, if_true, Collector.collect, h2, List.isEmpty_nil]
    rw [collectModel_fine s _ _ h1]
    rfl

/-- C111: an attribute of the instance hides a marked method: the rows are its values. -/
theorem C111_hidden (st : Stepper S) (ob : Observed S A) (mr : Dict String (ModelRep S))
    (ar : Dict String (AgentRep S A)) (hmr : Dict.WF mr) (inst : S → Dict String RVal) (members : List (String × EnvMember S))
    (hnd : (members.map Prod.fst).Nodup) (regsInit : List (Reg S A)) (regs : S → List (Reg S A)) (s : S) (n : Nat)
    (k : String) (ident : Nat) (call : S → Got) (hmem : (k, .method true ident call) ∈ members)
    (val : S → RVal) (hinst : ∀ i ≤ n, Dict.get? (inst (iterStep st i s)) k = some (val (iterStep st i s)))
    (hinit : ∀ r ∈ regsInit, r.isModel k = false)
    (hregs : ∀ i < n, ∀ r ∈ regs (iterStep st i s), r.isModel k = false)
    (hnew : (DataEnv.ofClass st ob mr ar inst members regsInit s).2 = false)
    (hok : ((DataEnv.ofClass st ob mr ar inst members regsInit s).1.steps st ob regs n).2 = false) :
    ∃ rows, Dict.get? ((DataEnv.ofClass st ob mr ar inst members regsInit s).1.steps st ob regs n).1.dc.modelVars k = some rows ∧
      rows.length = n + 1 ∧ ∀ i ≤ n, rows[i]? = some (val (iterStep st i s)) := by
  obtain ⟨rows, h1, h2, h3⟩ := marked_rows st ob mr ar hmr inst members hnd regsInit regs s n k _ hmem rfl hinit hregs hnew hok
  exact ⟨rows, h1, h2, fun i hi => by rw [h3 i hi]; simp [EnvMember.read, hinst i hi]⟩

/-- A counter as environment: the state is the time. -/
def exRepStepper : Stepper Nat := ⟨fun n => (n + 1, false), fun n => .fin n, fun n => n, fun _ => true, fun _ => false⟩

/-- Two members as in examples/torvalds_sim.py: a property and a method, both marked, and an unmarked property. -/
def exRepMembers : List (String × EnvMember Nat) :=
  [("double", .prop true (fun n => .value (.num (.fin (2 * n))))),
   ("plain", .prop false (fun n => .value (.num (.fin n)))),
   ("triple", .method true 77 (fun n => .value (.num (.fin (3 * n)))))]

example :
    (((DataEnv.ofClass exRepStepper (⟨fun _ => [], fun n => n⟩ : Observed Nat Nat) [] [] (fun _ => []) exRepMembers [] 1).1.steps
      exRepStepper ⟨fun _ => [], fun n => n⟩ (fun _ => []) 2).1.dc.modelVars) =
    [("agent_count", [.num (.fin 0), .num (.fin 0), .num (.fin 0)]), ("time", [.num (.fin 1), .num (.fin 2), .num (.fin 3)]),
     ("double", [.num (.fin 2), .num (.fin 4), .num (.fin 6)]), ("triple", [.obj 77, .obj 77, .obj 77])] := by decide +kernel

/-! ### C112 -/

/-- The loop over keyword arguments raises as soon as there is one. -/
theorem logKwargs_iff (ks : List String) : logKwargs ks = true ↔ ks ≠ [] := by
  cases ks with
  | nil => simp [logKwargs]
  | cons k rest => simp [logKwargs, logKwargs.keyedFormat]

/-- C112 (partial: messages without keyword arguments, see `C112_kwargs_false`): code whose calls of `log` have no keyword
arguments does the same at every level. -/
theorem C112_code_partial (l1 l2 : Nat) (code : List (Stmt S)) (s : S)
    (h : ∀ st ∈ code, ∀ level kwargs, st = .log level kwargs → kwargs = []) :
    runStmts l1 code s = runStmts l2 code s := by
  induction code generalizing s with
  | nil => rfl
  | cons st rest ih =>
    have ih' := fun s => ih s (fun st' h' => h st' (by simp [h']))
    cases st with
    | act f => simp only [runStmts]; split; rfl; exact ih' _
    | log level kwargs =>
      have hk := h _ (by simp) level kwargs rfl
      subst hk
      have hz : ∀ l, logRaises l level [] = false := by intro l; simp [logRaises, logKwargs]
      simp only [runStmts, hz, Bool.false_eq_true, if_false]
      exact ih' s

/-- Code without its calls of `log`. -/
def dropLogs : List (Stmt S) → List (Stmt S)
  | [] => []
  | .act f :: rest => .act f :: dropLogs rest
  | .log _ _ :: rest => dropLogs rest

/-- C112 (partial: as above, or messages below the level of the logger): the calls of `log` make no difference. -/
theorem C112_silent_partial (l : Nat) (code : List (Stmt S)) (s : S)
    (h : ∀ st ∈ code, ∀ level kwargs, st = .log level kwargs → kwargs = [] ∨ level < l) :
    runStmts l code s = runStmts l (dropLogs code) s := by
  induction code generalizing s with
  | nil => rfl
  | cons st rest ih =>
    have ih' := fun s => ih s (fun st' h' => h st' (by simp [h']))
    cases st with
    | act f => simp only [runStmts, dropLogs]; split; rfl; exact ih' _
    | log level kwargs =>
      have hz : logRaises l level kwargs = false := by
        rcases h _ (by simp) level kwargs rfl with rfl | hl
        · simp [logRaises, logKwargs]
        · simp [logRaises, hl]
      simp only [runStmts, dropLogs, hz, Bool.false_eq_true, if_false]
      exact ih' s

/-- C112 is false: a message with a keyword argument raises when the logger is enabled for its level, and everything after it
is skipped; when it is not enabled the code goes on. -/
theorem C112_kwargs_false (l level : Nat) (kwargs : List String) (hk : kwargs ≠ []) (rest : List (Stmt S)) (s : S) :
    runStmts l (.log level kwargs :: rest) s = if l ≤ level then (s, true) else runStmts l rest s := by
  have := (logKwargs_iff kwargs).2 hk
  by_cases h : l ≤ level
  · have hz : ¬ level < l := by omega
    simp [runStmts, logRaises, hz, this, h]
  · have hz : level < l := by omega
    simp [runStmts, logRaises, hz, h]

/-- The last rows of all columns can be formatted. -/
def AllShown (fmt : Nat → Bool) (c : Collector S A) : Prop :=
  ∀ name rows, (name, rows) ∈ c.modelVars → ∃ v, rows.getLast? = some v ∧ v ≠ .none ∧ ∀ n, v = .obj n → fmt n = true

theorem printable_iff (fmt : Nat → Bool) (c : Collector S A) : c.printable fmt = true ↔ AllShown fmt c := by
  unfold Collector.printable AllShown
  rw [List.all_eq_true]
  constructor
  · intro h name rows hm
    have := h _ hm
    simp only at this
    cases hg : rows.getLast? with
    | none => rw [hg] at this; cases this
    | some v =>
      rw [hg] at this
      refine ⟨v, rfl, ?_, ?_⟩
      · rintro rfl; simp [RVal.formattable] at this
      · rintro n rfl; simpa [RVal.formattable] using this
  · rintro h ⟨name, rows⟩ hm
    obtain ⟨v, hv, hn, ho⟩ := h name rows hm
    simp only [hv]
    cases v with
    | none => exact absurd rfl hn
    | num t => rfl
    | obj n => exact ho n rfl

/-- C112 (partial: values that can be formatted, see `C112_step_false`): if after each step all columns end in a number (or
in an object that can be formatted with a width), debug logging makes no difference to the steps. -/
theorem C112_steps_partial (fmt : Nat → Bool) (st : Stepper S) (ob : Observed S A) (regs : S → List (Reg S A)) (n : Nat)
    (e : DataEnv S A) (h : ∀ i ≤ n, (e.steps st ob regs i).2 = false → 0 < i → AllShown fmt (e.steps st ob regs i).1.dc) :
    e.stepsLogged true fmt st ob regs n = e.steps st ob regs n := by
  induction n generalizing e with
  | zero => rfl
  | succ n ih =>
    simp only [DataEnv.stepsLogged, DataEnv.steps]
    by_cases hr : (e.step st ob regs).2 = true
    · have e1 : e.stepLogged true fmt st ob regs = e.step st ob regs := by simp [DataEnv.stepLogged, hr]
      rw [e1, if_pos hr, if_pos hr]
    · have hr' : (e.step st ob regs).2 = false := by simpa using hr
      have e0 : e.steps st ob regs 1 = (( e.step st ob regs).1, false) := by
        simp [DataEnv.steps, hr']
      have hp := (printable_iff fmt (e.step st ob regs).1.dc).2 (by
        have := h 1 (by omega) (by rw [e0]) (by omega)
        rw [e0] at this; exact this)
      have e1 : e.stepLogged true fmt st ob regs = e.step st ob regs := by simp [DataEnv.stepLogged, hr', hp]
      rw [e1, if_neg hr, if_neg hr]
      refine ih _ ?_
      intro i hi hok hpos
      have e2 : e.steps st ob regs (i + 1) = (e.step st ob regs).1.steps st ob regs i := by
        simp only [DataEnv.steps]; rw [if_neg hr]
      have := h (i + 1) (by omega) (by rw [e2]; exact hok) (by omega)
      rw [e2] at this
      exact this

/-- Without debug logging, steps are those of the environment. -/
theorem C112_quiet (fmt : Nat → Bool) (st : Stepper S) (ob : Observed S A) (regs : S → List (Reg S A)) (n : Nat)
    (e : DataEnv S A) : e.stepsLogged false fmt st ob regs n = e.steps st ob regs n := by
  induction n generalizing e with
  | zero => rfl
  | succ n ih =>
    have e1 : e.stepLogged false fmt st ob regs = e.step st ob regs := by
      simp [DataEnv.stepLogged]
    simp only [DataEnv.stepsLogged, DataEnv.steps, e1, ih]

/-- C112 is false for steps: if a reporter gives `None` in a step that otherwise succeeds, the step raises when the logger is
enabled for `DEBUG` and returns when it is not; in both cases the data of the step has been collected. -/
theorem C112_step_false (fmt : Nat → Bool) (st : Stepper S) (ob : Observed S A) (regs : S → List (Reg S A))
    (e : DataEnv S A) (name : String) (f : ModelRep S) (l : List RVal) (h : HasColumn e.dc name f l)
    (hregs : ∀ r ∈ regs e.state, r.isModel name = false) (hok : (e.step st ob regs).2 = false)
    (hf : f (st.step e.state).1 = some .none) :
    e.stepLogged true fmt st ob regs = ((e.step st ob regs).1, true) ∧
    e.stepLogged false fmt st ob regs = ((e.step st ob regs).1, false) := by
  have h1 := h.registerAll (regs e.state) hregs
  have hx : (st.step e.state).2 = false := by
    cases hx : (st.step e.state).2 with
    | false => rfl
    | true => unfold DataEnv.step at hok; simp [hx] at hok
  have he : e.step st ob regs = (⟨(st.step e.state).1,
      (((regs e.state).foldl Collector.register e.dc).collect ob (st.step e.state).1).1⟩,
      (((regs e.state).foldl Collector.register e.dc).collect ob (st.step e.state).1).2) := by
    unfold DataEnv.step; simp [hx]
  obtain ⟨v, hv, h2⟩ := h1.collect ob _ (by rw [he] at hok; exact hok)
  rw [hf] at hv
  have hvn : v = .none := (Option.some.inj hv).symm
  subst hvn
  have hp : (e.step st ob regs).1.dc.printable fmt = false := by
    cases hp : (e.step st ob regs).1.dc.printable fmt with
    | false => rfl
    | true =>
      have := (printable_iff fmt _).1 hp name (l ++ [.none]) (by rw [he]; exact Dict.get?_mem h2.rows)
      obtain ⟨v, hv, hn, _⟩ := this
      simp at hv
      exact absurd hv.symm hn
  constructor
  · simp [DataEnv.stepLogged, hok, hp]
  · simp only [DataEnv.stepLogged, hok, Bool.false_and, Bool.false_eq_true, if_false]
    rw [← hok]

/-- A message with `x=…` at level 20 (`INFO`), then an assignment: with the logger at 20 the assignment is not reached. -/
example : runStmts 20 [.act (fun n => (n + 1, false)), .log 20 ["x"], .act (fun n => (n * 10, false))] 1 = ((2 : Nat), true) ∧
    runStmts 30 [.act (fun n => (n + 1, false)), .log 20 ["x"], .act (fun n => (n * 10, false))] 1 = ((20 : Nat), false) := by
  decide

/-- An environment with an attribute reported by name that does not exist: with debug logging the first step raises. -/
example : ((DataEnv.new (⟨fun _ => [], fun n => n⟩ : Observed Nat Nat) (soilCollector exRepStepper ⟨fun _ => [], fun n => n⟩ [] [])
      [.model "missing" (fun _ => some .none)] true 0).1.stepsLogged true (fun _ => false) exRepStepper ⟨fun _ => [], fun n => n⟩
      (fun _ => []) 3).1.state = 1 ∧
    ((DataEnv.new (⟨fun _ => [], fun n => n⟩ : Observed Nat Nat) (soilCollector exRepStepper ⟨fun _ => [], fun n => n⟩ [] [])
      [.model "missing" (fun _ => some .none)] true 0).1.stepsLogged false (fun _ => false) exRepStepper ⟨fun _ => [], fun n => n⟩
      (fun _ => []) 3).1.state = 3 := by decide +kernel

end Verif
