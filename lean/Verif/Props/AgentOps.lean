import Verif.Props.Agents
import Verif.Props.Attrs
import Verif.Props.Recover

/-!
# Plain steps (C84), initial states (C85), adding and killing agents (C86), read-only attributes (C29)
-/

namespace Verif

variable {U L : Type}

/-! ### C84 -/

/-- What a plain step should tell the scheduler: `None` and numbers are delays, `DeadAgent` ends the agent, any other exception
or value is an error. -/
def plainMeaning (seg : Seg L) (rep : Reply) : Prop :=
  match seg with
  | .raise .dead => rep = .dead
  | .raise .other => rep = .error
  | .ret .none => rep = .ret Option.none
  | .ret (.num t) => rep = .ret (some t)
  | .ret (.delay t) => rep = .ret (some t)
  | .ret (.state _) => rep = .error
  | .ret (.pair _ _) => rep = .error
  | .ret (.tuple _) => rep = .error
  | .ret (.obj _) => rep = .error
  | .ret (.str s) => rep = .error ∨ ∃ t, rep = .ret (some t)
  | .yld _ _ => True

/-- C84: a plain step runs its function once, from the start, whatever happened in earlier steps; its operations are done; and
the scheduler is told what the function returned or raised. -/
theorem C84_plain_step (C : UserCode U L) (r : Ref) (s : Sched) (w : AWorld U L) (a : AgentRec L) (fn : Nat)
    (ha : w.agents[r]? = some a) (hk : a.kind = .plain fn) :
    plainMeaning (C.run fn Option.none r s w).1 (stepAgent C r s w).1 ∧
    (stepAgent C r s w).2.1 = (AOp.applyAll s.time (C.run fn Option.none r s w).2.1
      { w with u := (C.run fn Option.none r s w).2.2, glog := w.glog ++ [.code r fn] }).2 ∧
    (stepAgent C r s w).2.2.u = (AOp.applyAll s.time (C.run fn Option.none r s w).2.1
      { w with u := (C.run fn Option.none r s w).2.2, glog := w.glog ++ [.code r fn] }).1.u := by
  have hs : ∀ res : Seg (Nat × L) × AWorld U L × List SOp, (funStep C.pf res).2 = res.2 := by
    intro res; unfold funStep; split <;> rfl
  have e : stepAgent C r s w = ((funStep C.pf (C.segment fn Option.none r s w)).1,
      (C.segment fn Option.none r s w).2.2, (C.segment fn Option.none r s w).2.1) := by
    unfold stepAgent
    rw [ha]
    simp only [hk, hs]
  rw [e]
  refine ⟨?_, rfl, rfl⟩
  unfold UserCode.segment funStep
  simp only
  generalize (C.run fn Option.none r s w).1 = seg
  cases seg with
  | yld v l => trivial
  | raise e => cases e <;> rfl
  | ret v =>
    cases v with
    | str x =>
      simp only [plainMeaning, finishVal, Val.toFloat]
      cases h : C.pf x with
      | none => exact Or.inl rfl
      | some t => exact Or.inr ⟨t, rfl⟩
    | _ => rfl

/-- A plain step: agent 0 waits for 2, agent 1 ends, agent 2 returns an object. -/
def plainCode : UserCode Unit Unit := noShuffle fun fn _ _ _ _ =>
  (if fn = 0 then .ret (.num 2) else if fn = 1 then .raise .dead else .ret (.obj 4), [], ())

example : let w : AWorld Unit Unit := ⟨[.new (.plain 0), .new (.plain 1), .new (.plain 2)], (), []⟩
    (stepAgent plainCode 0 exSched w).1 = .ret (some 2) ∧ (stepAgent plainCode 1 exSched w).1 = .dead ∧
    (stepAgent plainCode 2 exSched w).1 = .error := by
  decide +kernel

/-! ### C85 -/

/-- C85: a new FSM agent is in the state given to the constructor, which must be declared, or else in the default state of its
class; if there is neither, the constructor raises. -/
theorem C85_initial_state (cls : FsmClass) :
    (∀ d, cls.init = some d → fsmInit cls .none = some (some d)) ∧
    (∀ k d, Dict.get? cls.states k = some d → fsmInit cls (.str k) = some (some d)) ∧
    (∀ k, Dict.get? cls.states k = none → fsmInit cls (.str k) = none) ∧
    (cls.init = none → 1 < cls.states.length → fsmInit cls .none = none) ∧
    (∀ v st, 1 < cls.states.length → fsmInit cls v = some st → st.isSome = true) := by
  refine ⟨?_, ?_, ?_, ?_, ?_⟩
  · intro d hd
    simp [fsmInit, setState, hd]
  · intro k d hd
    simp [fsmInit, setState, hd]
  · intro k hk
    simp [fsmInit, setState, hk]
  · intro hi hl
    simp [fsmInit, setState, hi, hl]
  · intro v st hl h
    unfold fsmInit at h
    cases hs : setState cls cls.init v with
    | none => rw [hs] at h; cases h
    | some st' =>
      rw [hs] at h
      simp only at h
      by_cases hn : st'.isNone = true
      · rw [if_pos (by simp [hn]; omega)] at h; cases h
      · rw [if_neg (by simp [hn])] at h
        cases h
        cases st with
        | none => simp at hn
        | some d => rfl

example : fsmInit exCls .none = some (some ⟨"aa", true, 0⟩) ∧ fsmInit exCls (.str "b") = some (some ⟨"b", false, 1⟩) ∧
    fsmInit exCls (.str "zz") = none ∧ fsmInit (mkFsm [fsmRoot 9] [⟨"b", false, 1⟩]) .none = none := by
  decide +kernel

/-! ### C86 -/

def isSpawn : AOp → Bool
  | .spawn _ => true
  | _ => false

theorem applyAll_append (now : Time) (a b : List AOp) (w : AWorld U L) :
    AOp.applyAll now (a ++ b) w = ((AOp.applyAll now b (AOp.applyAll now a w).1).1,
      (AOp.applyAll now a w).2 ++ (AOp.applyAll now b (AOp.applyAll now a w).1).2) := by
  induction a generalizing w with
  | nil => simp [AOp.applyAll]
  | cons o a ih => simp [AOp.applyAll, ih]

theorem applyAll_length (now : Time) (os : List AOp) (w : AWorld U L) :
    (AOp.applyAll now os w).1.agents.length = w.agents.length + os.countP isSpawn := by
  induction os generalizing w with
  | nil => rfl
  | cons o os ih =>
    simp only [AOp.applyAll]
    rw [ih]
    cases o with
    | spawn k =>
      rw [List.countP_cons_of_pos (by rfl)]
      simp [AOp.apply]; omega
    | kill r => simp [AOp.apply, isSpawn, AWorld.modify]
    | setState r v => simp [AOp.apply, isSpawn, AWorld.modify]
    | sched o => simp [AOp.apply, isSpawn]

/-- The operations on the scheduler: removals come from deaths or direct removals, additions of an existing agent only from
direct additions. -/
theorem applyAll_ops (now : Time) (os : List AOp) (w : AWorld U L) (r : Ref) :
    (.kill r ∉ os → .sched (.remove r) ∉ os → .remove r ∉ (AOp.applyAll now os w).2) ∧
    (r < w.agents.length → (∀ wh, .sched (.add r wh) ∉ os) → ∀ wh, .add r wh ∉ (AOp.applyAll now os w).2) := by
  induction os generalizing w with
  | nil => exact ⟨by simp [AOp.applyAll], by simp [AOp.applyAll]⟩
  | cons o os ih =>
    have hlen : w.agents.length ≤ (o.apply now w).1.agents.length := by
      have := applyAll_length now [o] w
      simp only [AOp.applyAll] at this
      omega
    obtain ⟨i1, i2⟩ := ih (o.apply now w).1
    constructor
    · intro hk hs hm
      simp only [AOp.applyAll, List.mem_append] at hm
      rcases hm with hm | hm
      · cases o with
        | kill r' =>
          simp only [AOp.apply, List.mem_singleton, SOp.remove.injEq] at hm
          subst hm
          exact hk (by simp)
        | spawn k => simp [AOp.apply] at hm
        | setState r' v => simp [AOp.apply] at hm
        | sched o =>
          simp only [AOp.apply, List.mem_singleton] at hm
          subst hm
          exact hs (by simp)
      · exact i1 (fun h => hk (List.mem_cons_of_mem _ h)) (fun h => hs (List.mem_cons_of_mem _ h)) hm
    · intro hr hs wh hm
      simp only [AOp.applyAll, List.mem_append] at hm
      rcases hm with hm | hm
      · cases o with
        | kill r' => simp [AOp.apply] at hm
        | spawn k =>
          simp only [AOp.apply, List.mem_singleton, SOp.add.injEq] at hm
          exact absurd hm.1 (ne_of_lt hr)
        | setState r' v => simp [AOp.apply] at hm
        | sched o =>
          simp only [AOp.apply, List.mem_singleton] at hm
          subst hm
          exact hs wh (by simp)
      · exact i2 (lt_of_lt_of_le hr hlen) (fun wh' h => hs wh' (List.mem_cons_of_mem _ h)) wh hm

theorem applyOps_not_mem (s : Sched) (os : List SOp) (r : Ref) (h : r ∉ s.agents) (ho : ∀ wh, .add r wh ∉ os) :
    r ∉ (s.applyOps os).agents := by
  induction os generalizing s with
  | nil => exact h
  | cons o os ih =>
    apply ih _ _ (fun wh hm => ho wh (List.mem_cons_of_mem _ hm))
    cases o with
    | stop => exact h
    | remove x => exact fun hm => h (List.mem_of_mem_erase hm)
    | add x wh =>
      intro hm
      have e : (s.applyOp (.add x wh)).agents = if x ∈ s.agents then s.agents else s.agents ++ [x] := rfl
      rw [e] at hm
      by_cases hx : x ∈ s.agents
      · rw [if_pos hx] at hm; exact h hm
      · rw [if_neg hx] at hm
        rcases List.mem_append.1 hm with hm | hm
        · exact h hm
        · simp only [List.mem_singleton] at hm
          subst hm
          exact ho wh (by simp)

/-- The record of an agent that is not killed keeps its kind and its life. -/
theorem applyAll_alive (now : Time) (os : List AOp) (w : AWorld U L) (r : Ref) (a : AgentRec L)
    (ha : w.agents[r]? = some a) (hk : .kill r ∉ os) :
    ∃ a', (AOp.applyAll now os w).1.agents[r]? = some a' ∧ a'.kind = a.kind ∧ a'.alive = a.alive := by
  induction os generalizing w a with
  | nil => exact ⟨a, ha, rfl, rfl⟩
  | cons o os ih =>
    have hone : ∃ a', (o.apply now w).1.agents[r]? = some a' ∧ a'.kind = a.kind ∧ a'.alive = a.alive := by
      cases o with
      | sched o => exact ⟨a, ha, rfl, rfl⟩
      | spawn k =>
        refine ⟨a, ?_, rfl, rfl⟩
        show (w.agents ++ [AgentRec.new k])[r]? = some a
        rw [List.getElem?_append_left (List.getElem?_eq_some_iff.1 ha).1]
        exact ha
      | kill r' =>
        have hne : r' ≠ r := by rintro rfl; exact hk (by simp)
        refine ⟨a, ?_, rfl, rfl⟩
        show (w.modify r' _).agents[r]? = some a
        rw [modify_get, if_neg hne]
        exact ha
      | setState r' v =>
        simp only [AOp.apply, modify_get]
        by_cases hr : r' = r
        · rw [if_pos hr, ha]
          refine ⟨_, rfl, ?_, ?_⟩
          all_goals
            simp only
            split
            · split <;> rfl
            · rfl
        · rw [if_neg hr]; exact ⟨a, ha, rfl, rfl⟩
    obtain ⟨a', h1, h2, h3⟩ := hone
    obtain ⟨a2, k1, k2, k3⟩ := ih (o.apply now w).1 a' h1 (fun h => hk (List.mem_cons_of_mem _ h))
    exact ⟨a2, k1, k2.trans h2, k3.trans h3⟩

/-- C86: an agent created with `model.add_agent` among the operations of a step gets the next free identity, is alive, is one
of the scheduler's agents and is pending for the current time (unless the same code kills or removes it again). -/
theorem C86_spawn (now : Time) (pre post : List AOp) (k : Kind) (s : Sched) (w : AWorld U L) (r : Ref)
    (hr : r = w.agents.length + pre.countP isSpawn) (hk : .kill r ∉ post) (hs : .sched (.remove r) ∉ post) :
    let res := AOp.applyAll now (pre ++ .spawn k :: post) w
    (∃ a, res.1.agents[r]? = some a ∧ a.kind = k ∧ a.alive = true) ∧
    r ∈ (s.applyOps res.2).agents ∧ (r, s.time) ∈ pending (s.applyOps res.2) := by
  simp only
  have hlen := applyAll_length now pre w
  rw [applyAll_append]
  generalize AOp.applyAll now pre w = p at *
  have e : AOp.applyAll now (.spawn k :: post) p.1 = ((AOp.applyAll now post (AOp.apply now (.spawn k) p.1).1).1,
      .add r Option.none :: (AOp.applyAll now post (AOp.apply now (.spawn k) p.1).1).2) := by
    simp only [AOp.applyAll, AOp.apply, List.singleton_append]
    rw [hlen, ← hr]
  rw [e]
  have hget : (AOp.apply now (.spawn k) p.1).1.agents[r]? = some (AgentRec.new k) := by
    show (p.1.agents ++ [AgentRec.new k])[r]? = _
    rw [hr, ← hlen]
    simp
  obtain ⟨a, h1, h2, h3⟩ := applyAll_alive now post _ r _ hget hk
  refine ⟨⟨a, h1, h2, h3⟩, ?_, ?_⟩
  · have hno := (applyAll_ops now post (AOp.apply now (.spawn k) p.1).1 r).1 hk hs
    simp only [Sched.applyOps, List.foldl_append, List.foldl_cons]
    apply (AgentsStep.ops _ _ r).2.1 hno
    generalize List.foldl Sched.applyOp s p.2 = s1
    show r ∈ (if r ∈ s1.agents then s1.agents else s1.agents ++ [r])
    by_cases h : r ∈ s1.agents
    · rw [if_pos h]; exact h
    · rw [if_neg h]; simp
  · simp only [Sched.applyOps, List.foldl_append, List.foldl_cons]
    apply entries_ops
    have ht : (List.foldl Sched.applyOp s p.2).time = s.time := applyOps_time s p.2
    rw [← ht]
    generalize List.foldl Sched.applyOp s p.2 = s1
    exact (mem_entries_insert _).2 (Or.inl rfl)

/-- C86: an agent on which `die` is called among the operations of a step is dead, and not one of the scheduler's agents (unless
the same code adds it again). -/
theorem C86_die (now : Time) (os : List AOp) (s : Sched) (hnd : s.agents.Nodup) (w : AWorld U L) (r : Ref)
    (hr : r < w.agents.length) (hk : .kill r ∈ os) (hs : ∀ wh, .sched (.add r wh) ∉ os) :
    let res := AOp.applyAll now os w
    (∃ a, res.1.agents[r]? = some a ∧ a.alive = false) ∧ r ∉ (s.applyOps res.2).agents := by
  simp only
  constructor
  · have keep : ∀ (os : List AOp) (w : AWorld U L), (∃ a, w.agents[r]? = some a ∧ (a.alive = false ∨ .kill r ∈ os)) →
        ∃ a, (AOp.applyAll now os w).1.agents[r]? = some a ∧ a.alive = false := by
      intro os
      induction os with
      | nil =>
        rintro w ⟨a, h1, h2 | h2⟩
        · exact ⟨a, h1, h2⟩
        · cases h2
      | cons o os ih =>
        rintro w ⟨a, h1, h2⟩
        apply ih
        cases o with
        | sched o =>
          refine ⟨a, h1, ?_⟩
          rcases h2 with h2 | h2
          · exact Or.inl h2
          · simp at h2; exact Or.inr h2
        | spawn k =>
          refine ⟨a, ?_, ?_⟩
          · show (w.agents ++ [AgentRec.new k])[r]? = some a
            rw [List.getElem?_append_left (List.getElem?_eq_some_iff.1 h1).1]
            exact h1
          · rcases h2 with h2 | h2
            · exact Or.inl h2
            · simp at h2; exact Or.inr h2
        | kill r' =>
          show ∃ a, (w.modify r' _).agents[r]? = some a ∧ _
          rw [modify_get]
          by_cases hrr : r' = r
          · rw [if_pos hrr, h1]
            exact ⟨_, rfl, Or.inl rfl⟩
          · rw [if_neg hrr]
            refine ⟨a, h1, ?_⟩
            rcases h2 with h2 | h2
            · exact Or.inl h2
            · simp only [List.mem_cons, AOp.kill.injEq] at h2
              rcases h2 with h2 | h2
              · exact absurd h2.symm hrr
              · exact Or.inr h2
        | setState r' v =>
          obtain ⟨a', k1, _, k3⟩ := applyAll_alive now [.setState r' v] w r a h1 (by simp)
          refine ⟨a', k1, ?_⟩
          rcases h2 with h2 | h2
          · exact Or.inl (k3.trans h2)
          · simp at h2; exact Or.inr h2
    exact keep os w ⟨w.agents[r], List.getElem?_eq_getElem hr, Or.inr hk⟩
  · obtain ⟨pre, post, rfl⟩ := List.append_of_mem hk
    have hlen := applyAll_length now pre w
    rw [applyAll_append]
    generalize AOp.applyAll now pre w = p at *
    have e : (AOp.applyAll now (.kill r :: post) p.1).2
        = .remove r :: (AOp.applyAll now post (AOp.apply now (.kill r) p.1).1).2 := rfl
    rw [e]
    simp only [Sched.applyOps, List.foldl_append, List.foldl_cons]
    apply applyOps_not_mem
    · have hnd' := (AgentsStep.ops s p.2 r).2.2 hnd
      show r ∉ (s.applyOps p.2).agents.erase r
      exact hnd'.not_mem_erase
    · apply (applyAll_ops now post _ r).2
      · have : (AOp.apply now (.kill r) p.1).1.agents.length = p.1.agents.length := by
          simp [AOp.apply, AWorld.modify]
        rw [this, hlen]
        exact Nat.lt_of_lt_of_le hr (Nat.le_add_right _ _)
      · intro wh hm
        exact hs wh (by simp [hm])

/-- Agent 0 creates an agent and kills agent 1. -/
example : let w : AWorld Unit Unit := ⟨[.new (.plain 0), .new (.plain 1)], (), []⟩
    let s := (exSched.addAgent 0 none).addAgent 1 none
    let res := AOp.applyAll 0 [.spawn (.plain 5), .kill 1] w
    (s.applyOps res.2).agents = [0, 2] ∧ (2, 0) ∈ pending (s.applyOps res.2) ∧ (1, 0) ∈ pending (s.applyOps res.2) ∧
    res.1.agents.map (·.alive) = [true, false, true] := by
  decide +kernel

/-! ### C29: properties without setter -/

/-- C29: passing a value for a property without setter to the constructor raises. -/
theorem C29_readonly (c : AgentCls) (model : String → Val) (inst0 kwargs : Dict String Val) (k : String)
    (hk : k ∈ Dict.keys kwargs) (hr : k ∈ c.readonly) : c.construct model inst0 kwargs = none := by
  have h3 : ∀ (d : Dict String Val) inst, k ∈ Dict.keys d → c.fromKwargs d inst = none := by
    intro d
    induction d with
    | nil => intro _ h; cases h
    | cons p d ih =>
      intro inst h
      obtain ⟨k', v⟩ := p
      simp only [AgentCls.fromKwargs, AgentCls.setattr]
      by_cases hk' : k' ∈ c.readonly
      · rw [if_pos hk']
      · rw [if_neg hk']
        simp only
        apply ih
        rcases List.mem_cons.1 h with h | h
        · simp only at h; rw [h] at hr; exact absurd hr hk'
        · exact h
  unfold AgentCls.construct
  split
  · rfl
  · split
    · rfl
    · exact h3 _ _ hk

example : (AgentCls.construct ⟨[("x", .num 1)], [("now", .num 0)], ["now"]⟩ (fun _ => .none) [] [("now", .num 3)]) = none := by
  decide +kernel

end Verif
