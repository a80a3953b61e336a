import Verif.Proofs.Agents

/-!
# Properties C24, C26, C27: declared states, death

Theorems here quantify over all user code (`UserCode`: any function of the whole model state) and over all
histories (scheduler steps interleaved with arbitrary operations of the environment).
-/

namespace Verif

variable {U L : Type}

/-! ### C24 -/

/-- The environment's own operations in a history are acceptable at the moment they are performed. -/
def OwnHist (C : UserCode U L) : List ACmd → Sched × AWorld U L → Prop
  | [], _ => True
  | .step :: h, sw => OwnHist C h (ACmd.exec C .step sw)
  | .ops os :: h, sw => OwnOps sw.1.time os sw.2 ∧ OwnHist C h (ACmd.exec C (.ops os) sw)

/-- C24 for code that only hands out `State` objects of the agent's own class: after every history every FSM
agent is in a declared state, and has one if its class has a default. Returned strings, tuples, delays,
other objects are not restricted in any way. Missing: foreign `State` objects, see `C24_foreign_state_false`. -/
theorem C24_declared_partial (C : UserCode U L) (hC : OwnCode C) (s : Sched) (u : U) (h : List ACmd)
    (hh : OwnHist C h (s, .empty u)) (r : Ref) (a : AgentRec L) (cls : FsmClass)
    (ha : (aexec C h (s, .empty u)).2.agents[r]? = some a) (hk : a.kind = .fsm cls) :
    (∀ d, a.state = some d → d.name ∈ Dict.keys cls.states) ∧ (cls.init.isSome = true → a.state.isSome = true) := by
  have key : ∀ (h : List ACmd) (sw : Sched × AWorld U L), InDeclared sw.2 → OwnHist C h sw →
      InDeclared (aexec C h sw).2 := by
    intro h
    induction h with
    | nil => intro sw h0 _; exact h0
    | cons c h ih =>
      intro sw h0 ho
      cases c with
      | step => exact ih _ ((inDeclared_keptStep C hC).sched sw.1 sw.2 h0) ho
      | ops os => exact ih _ (h0.applyAll _ os ho.1) ho.2
  exact (key h (s, .empty u) (fun r a cls ha => by simp [AWorld.empty] at ha) hh r a cls ha hk).2

/-- C24 is violated: a state function that returns a `State` object of another class (or one created on the
fly) leaves the agent in a state its class does not declare, whatever the class. -/
theorem C24_foreign_state_false (cls : FsmClass) (cur : Option StateDef) (d : StateDef)
    (hd : d.name ∉ Dict.keys cls.states) (pf : String → Option Time) :
    fsmOutcome pf cls cur (.state d) = (some d, .ret Option.none) ∧
    ¬ (∀ d', (fsmOutcome pf cls cur (.state d)).1 = some d' → d'.name ∈ Dict.keys cls.states) := by
  have h1 : fsmOutcome pf cls cur (.state d) = (some d, .ret Option.none) := by
    simp [fsmOutcome, fsmReturn, unpack2, setState, finishVal]
  exact ⟨h1, fun h => hd (h d (by rw [h1]))⟩

/-! A class with a cycle of two states, driven for several steps: its functions return a string, then a
tuple of an own state and a delay. -/

def exCls : FsmClass := mkFsm [fsmRoot 9] [⟨"aa", true, 0⟩, ⟨"b", false, 1⟩]

def noShuffle (run : Nat → Option L → Ref → Sched → AWorld U L → Seg L × List AOp × U) : UserCode U L where
  run := run
  pf := fun _ => Option.none
  shuffle := fun l w => (l, w)
  shuffle_perm := fun l _ => List.Perm.refl l
  shuffle_agents := fun _ _ => ⟨rfl, rfl⟩

def cycleCode : UserCode Unit Unit := noShuffle fun fn _ _ _ _ =>
  match fn with
  | 0 => (.ret (.str "b"), [], ())
  | _ => (.ret (.pair (.str "aa") (.num 3)), [], ())

/-- The default scheduler of the examples: no shuffling. -/
def exSched : Sched := Sched.init 1 false

example : OwnCode cycleCode := by
  refine ⟨?_, ?_⟩
  · intro fn l r s w a cls v _ _ hv
    unfold cycleCode noShuffle at hv
    simp only at hv
    split at hv <;> cases hv <;> trivial
  · intro fn l r s w
    have : (cycleCode.run fn l r s w).2.1 = [] := by
      unfold cycleCode noShuffle
      simp only
      split <;> rfl
    rw [this]; trivial

example : exCls.Good := mkFsm_good (by intro b hb; rw [List.mem_singleton] at hb; subst hb; exact mkFsm_good (by simp) _) _

example : OwnHist cycleCode [.ops [.spawn (.fsm exCls)], .step, .step, .step] (exSched, .empty ()) :=
  ⟨⟨mkFsm_good (by intro b hb; rw [List.mem_singleton] at hb; subst hb; exact mkFsm_good (by simp) _) _, trivial⟩, trivial⟩

/-- Two steps, then the agent sleeps until time 4. -/
example : let sw := aexec cycleCode [.ops [.spawn (.fsm exCls)], .step, .step] (exSched, .empty ())
    sw.2.agents.map (·.state) = [some ⟨"aa", true, 0⟩] ∧ sw.1.time = 4 ∧
    sw.2.glog = [.code 0 0, .code 0 1] := by
  decide +kernel

/-! ### C26 -/

/-- C26 for FSM agents whose state functions are ordinary functions: in every history, of any user code, no
code of the agent runs after its death, however it died (by its own hand, during its own step, killed by
another agent in the same instant while already scheduled, or by the environment between steps).
Missing: plain and generator agents, and FSM agents suspended inside a generator state. -/
theorem C26_fsm_silent_partial (C : UserCode U L) (hny : NoYield C) (s : Sched) (u : U) (h : List ACmd) (r : Ref)
    (a : AgentRec L) (ha : (aexec C h (s, .empty u)).2.agents[r]? = some a) (hk : a.kind.isFsm = true)
    (l1 l2 : List GEv) (hl : (aexec C h (s, .empty u)).2.glog = l1 ++ .died r :: l2) (fn : Nat) :
    .code r fn ∉ l2 := by
  have hq : Quiet r (aexec C h (s, .empty u)).2 := by
    refine (quiet_kept C hny r).aexec h (s, .empty u) ?_
    unfold Quiet
    simp [AWorld.empty]
  unfold Quiet at hq
  rw [ha] at hq
  intro hm
  have := (hq hk).2.2 l1 l2 hl _ hm
  simp [GEv.isCode] at this

/-- C26, generator states allowed: an FSM agent that is dead and not suspended at some moment never executes
code again, whatever happens afterwards. Missing: as above. -/
theorem C26_dead_forever_partial (C : UserCode U L) (sw : Sched × AWorld U L) (r : Ref) (a : AgentRec L)
    (ha : sw.2.agents[r]? = some a) (hk : a.kind.isFsm = true) (hd : a.alive = false) (hs : a.co.isSusp = false)
    (h : List ACmd) :
    (aexec C h sw).2.glog.filter (GEv.isCode r) = sw.2.glog.filter (GEv.isCode r) := by
  obtain ⟨_, _, _, _, _, h5⟩ := (deadSilent_kept C r _).aexec h sw ⟨a, ha, hk, hd, hs, rfl⟩
  exact h5

/-- Agents 0 and 1 both have a turn at time 1; agent 0 kills agent 1. -/
def killerCode : UserCode Unit Unit := noShuffle fun fn _ _ _ _ =>
  match fn with
  | 0 => (.ret .none, [.kill 1], ())
  | _ => (.ret .none, [], ())

/-- C26 is violated: a plain agent (`BaseAgent` with its own `step`) killed by an agent that acts before it in
the same instant still executes its `step`. -/
theorem C26_plain_killed_false :
    (aexec killerCode [.ops [.spawn (.plain 0), .spawn (.plain 1)], .step] (exSched, .empty ())).2.glog =
      [.code 0 0, .died 1, .code 1 1] := by
  decide +kernel

/-- It also keeps being scheduled: it acts once every time unit for ever. -/
example : ((aexec killerCode [.ops [.spawn (.plain 0), .spawn (.plain 1)], .step, .step, .step] (exSched, .empty ())).2.glog.filter
      (GEv.isCode 1)) = [.code 1 1, .code 1 1, .code 1 1] := by
  decide +kernel

/-- An FSM with one generator state, suspended between its two halves. -/
def sleepyCode : UserCode Unit Unit := noShuffle fun _ l _ _ _ =>
  match l with
  | Option.none => (.yld .none (), [], ())
  | some _ => (.ret .none, [], ())

def sleepyCls : FsmClass := mkFsm [fsmRoot 9] [⟨"s", true, 0⟩]

/-- C26 is violated: an FSM agent killed while suspended in a generator state executes the rest of it. -/
theorem C26_suspended_false :
    (aexec sleepyCode [.ops [.spawn (.fsm sleepyCls)], .step, .ops [.kill 0], .step] (exSched, .empty ())).2.glog =
      [.code 0 0, .died 0, .code 0 0] := by
  decide +kernel

/-- `C26_fsm_silent_partial` is not vacuous: an FSM agent killed in the instant in which it is to act. -/
example : NoYield killerCode := by
  intro fn l r s w a _ _ v l'
  unfold killerCode noShuffle
  simp only
  split <;> simp

example : let C := killerCode
    let sw := aexec C [.ops [.spawn (.plain 0), .spawn (.fsm exCls)], .step, .step] (exSched, .empty ())
    sw.2.glog = [.code 0 0, .died 1, .code 0 0] ∧ (sw.2.agents[1]?.map (fun a => (a.kind.isFsm, a.alive))) = some (true, false) := by
  decide +kernel

/-! ### C27 -/

/-- The replies to repeated calls of `agent.step()`. -/
def stepReplies (C : UserCode U L) (r : Ref) (s : Sched) : Nat → AWorld U L → List Reply
  | 0, _ => []
  | n + 1, w => (stepAgent C r s w).1 :: stepReplies C r s n (stepAgent C r s w).2.2

theorem stepReplies_dead (C : UserCode U L) (r : Ref) (s : Sched) (n : Nat) (w : AWorld U L) (a : AgentRec L)
    (cls : FsmClass) (ha : w.agents[r]? = some a) (hk : a.kind = .fsm cls) (hd : a.alive = false) :
    (a.co = .none → stepReplies C r s n w =
      (List.range n).map (fun i => if i % 2 = 0 then .dead else .ret Option.none)) ∧
    (a.co = .ended → stepReplies C r s n w =
      (List.range n).map (fun i => if i % 2 = 1 then .dead else .ret Option.none)) := by
  induction n generalizing w a with
  | zero => exact ⟨fun _ => rfl, fun _ => rfl⟩
  | succ n ih =>
    have hmod : ∀ i, (i + 1) % 2 = 0 ↔ i % 2 = 1 := by omega
    have hmod' : ∀ i, (i + 1) % 2 = 1 ↔ i % 2 = 0 := by omega
    constructor
    · intro hco
      have h1 : (stepAgent C r s w).1 = .dead := by
        simp [stepAgent, ha, hk, hco, genStep, fsmBody, hd, settle, PyErr.reply]
      have h2 : (stepAgent C r s w).2.2.agents[r]? = some { a with co := .ended } := by
        simp [stepAgent, ha, hk, hco, genStep, fsmBody, hd, settle]
      rw [stepReplies, h1, (ih _ _ h2 hk hd).2 rfl, List.range_succ_eq_map]
      simp [hmod]
    · intro hco
      have h1 : (stepAgent C r s w).1 = .ret Option.none := by
        simp [stepAgent, ha, hk, hco, genStep]
      have h2 : (stepAgent C r s w).2.2.agents[r]? = some { a with co := .none } := by
        simp [stepAgent, ha, hk, hco, genStep]
      rw [stepReplies, h1, (ih _ _ h2 hk hd).1 rfl, List.range_succ_eq_map]
      simp [hmod']

/-- C27 is violated: repeated calls of `step` on a dead FSM agent raise `DeadAgent` only every second time; the
other calls return `None` (which reschedules the agent when the caller is a scheduler). -/
theorem C27_every_second_false (C : UserCode U L) (r : Ref) (s : Sched) (n : Nat) (w : AWorld U L) (a : AgentRec L)
    (cls : FsmClass) (ha : w.agents[r]? = some a) (hk : a.kind = .fsm cls) (hd : a.alive = false)
    (hco : a.co = .none) :
    stepReplies C r s n w = (List.range n).map (fun i => if i % 2 = 0 then .dead else .ret Option.none) :=
  (stepReplies_dead C r s n w a cls ha hk hd).1 hco

/-- C27 is violated even more by plain agents: whether they are alive makes no difference to `step`. -/
theorem C27_plain_false (C : UserCode U L) (r : Ref) (s : Sched) (w : AWorld U L) (a : AgentRec L) (fn : Nat)
    (ha : w.agents[r]? = some a) (hk : a.kind = .plain fn) (v : Val) (os : List AOp) (u : U)
    (hrun : C.run fn Option.none r s w = (.ret v, os, u)) :
    (stepAgent C r s w).1 = finishVal C.pf v := by
  simp [stepAgent, ha, hk, funStep, UserCode.segment, hrun]

/-- C27, what holds: the first call after the death of an FSM agent (not suspended, not having just failed)
raises `DeadAgent`, without running any code. Missing: all later calls; plain agents. -/
theorem C27_first_call_partial (C : UserCode U L) (r : Ref) (s : Sched) (w : AWorld U L) (a : AgentRec L)
    (cls : FsmClass) (ha : w.agents[r]? = some a) (hk : a.kind = .fsm cls) (hd : a.alive = false)
    (hco : a.co = .none) :
    (stepAgent C r s w).1 = .dead ∧ (stepAgent C r s w).2.1 = [] ∧ (stepAgent C r s w).2.2.glog = w.glog := by
  simp [stepAgent, ha, hk, hco, genStep, fsmBody, hd, settle, PyErr.reply]

def deadWorld : AWorld Unit Unit := ⟨[⟨.fsm exCls, false, .none, exCls.init⟩], (), []⟩

example : stepReplies cycleCode 0 exSched 4 deadWorld = [.dead, .ret Option.none, .dead, .ret Option.none] := by
  decide +kernel

end Verif
