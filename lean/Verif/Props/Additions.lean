import Verif.Props.Env

/-!
# C89: what additions do to the set of scheduled agents
-/

namespace Verif

/-- The classes of the agents that an operation is asked to create and whose constructor succeeds, in order. -/
def Spec.created : IdOp → List Nat
  | .addAuto cls ok => if ok then [cls] else []
  | .addWithId _ cls ok => if ok then [cls] else []
  | .addOnNode cls _ ok => if ok then [cls] else []
  | .addNode cls ok => if ok then [cls] else []
  | .addAgents classes weights draws =>
    (choices classes (weights.getD (List.replicate classes.length 1)) draws).getD []
  | .die _ => []

/-- Bulk additions append the chosen classes. -/
theorem addAutos_classes (cs : List Nat) (e : IdEnv) :
    (cs.foldl (fun e c => e.addAuto c true) e).agents.map (fun a => a.cls) = e.agents.map (fun a => a.cls) ++ cs := by
  induction cs generalizing e with
  | nil => simp
  | cons c cs ih =>
    rw [List.foldl_cons, ih]
    simp [IdEnv.addAuto, IdEnv.nextId, IdEnv.addWithId]

/-- C89: every addition (with or without id, on a node, in bulk) schedules exactly the agents it was asked to create,
after those already scheduled and of the given classes; an addition whose constructor raises schedules nothing. -/
theorem C89_added_exactly (e : IdEnv) (o : IdOp) (hd : ∀ pos, o ≠ .die pos) :
    ∃ new : List IdAgent, (o.exec e).agents = e.agents ++ new ∧ new.map (fun a => a.cls) = Spec.created o := by
  cases o with
  | addAuto cls ok => cases ok <;> simp [IdOp.exec, IdEnv.addAuto, IdEnv.nextId, IdEnv.addWithId, Spec.created]
  | addWithId id cls ok => cases ok <;> simp [IdOp.exec, IdEnv.addWithId, Spec.created]
  | addOnNode cls accepts ok =>
    cases accepts <;> cases ok <;>
      simp [IdOp.exec, IdEnv.addOnNode, IdEnv.addAuto, IdEnv.nextId, IdEnv.addWithId, Spec.created]
  | addNode cls ok => cases ok <;> simp [IdOp.exec, IdEnv.addNode, IdEnv.nextId, IdEnv.addWithId, Spec.created]
  | addAgents classes weights draws =>
    have key : ∀ (cs : List Nat) (e : IdEnv), ∃ new : List IdAgent,
        (cs.foldl (fun e c => e.addAuto c true) e).agents = e.agents ++ new ∧ new.map (fun a => a.cls) = cs := by
      intro cs
      induction cs with
      | nil => intro e; exact ⟨[], by simp⟩
      | cons c cs ih =>
        intro e
        obtain ⟨new, h1, h2⟩ := ih (e.addAuto c true)
        refine ⟨⟨e.currentId + 1, c⟩ :: new, ?_, by simp [h2]⟩
        rw [List.foldl_cons, h1]
        simp [IdEnv.addAuto, IdEnv.nextId, IdEnv.addWithId]
    clear hd
    cases weights with
    | none =>
      simp only [IdOp.exec, IdEnv.addAgents, Spec.created, Option.getD_none]
      cases choices classes (List.replicate classes.length 1) draws with
      | none => exact ⟨[], by simp⟩
      | some cs => simpa using key cs e
    | some ws =>
      simp only [IdOp.exec, IdEnv.addAgents, Spec.created, Option.getD_some]
      cases choices classes ws draws with
      | none => exact ⟨[], by simp⟩
      | some cs => simpa using key cs e
  | die pos => exact absurd rfl (hd pos)

/-- C89 over histories: without deaths, the scheduled agents are exactly those created, in order of creation. -/
theorem C89_history (h : List IdOp) (hd : ∀ o ∈ h, ∀ pos, o ≠ .die pos) :
    (h.foldl IdOp.exec .init).agents.map (fun a => a.cls) = h.flatMap Spec.created := by
  have key : ∀ (h : List IdOp) (e : IdEnv), (∀ o ∈ h, ∀ pos, o ≠ .die pos) →
      (h.foldl IdOp.exec e).agents.map (fun a => a.cls) = e.agents.map (fun a => a.cls) ++ h.flatMap Spec.created := by
    intro h
    induction h with
    | nil => intro e _; simp
    | cons o h ih =>
      intro e hd
      obtain ⟨new, h1, h2⟩ := C89_added_exactly e o (hd o (by simp))
      rw [List.foldl_cons, ih _ (fun o ho => hd o (by simp [ho])), h1]
      simp [h2]
  simpa [IdEnv.init] using key h .init hd

/-- C89: an id given explicitly is the id of the agent. -/
theorem C89_explicit_id (e : IdEnv) (id : Int) (cls : Nat) :
    (e.addWithId id cls true).agents = e.agents ++ [⟨id, cls⟩] ∧ (e.addWithId id cls true).currentId = e.currentId := by
  simp [IdEnv.addWithId]

/-- A history with a failing constructor, a class without `node_id` and a bulk addition. -/
def exAdditions : List IdOp :=
  [.addAuto 1 true, .addAuto 2 false, .addWithId 40 3 true, .addOnNode 4 false true, .addNode 5 true,
   .addAgents [6, 7] (some [1, 3]) [0, 1 / 2], .addWithId 41 8 false]

example : (∀ o ∈ exAdditions, ∀ pos, o ≠ .die pos) ∧
    (exAdditions.foldl IdOp.exec .init).agents.map (fun a => (a.id, a.cls)) =
      [(0, 1), (40, 3), (3, 4), (4, 5), (5, 6), (6, 7)] ∧
    exAdditions.flatMap Spec.created = [1, 3, 4, 5, 6, 7] := by
  refine ⟨by simp [exAdditions], ?_⟩
  decide +kernel

end Verif
