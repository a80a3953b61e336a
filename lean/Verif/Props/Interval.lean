import Verif.Model.Interval
import Verif.Props.Scheduler
import Verif.Props.Identity

/-!
# C222: the default interval of a model
-/

namespace Verif

namespace Spec

/-- With a scheduler whose interval is the value `v`, an agent (added once) that returns `None` acts again exactly `d` later, whatever the
code of the agents and whatever happens. -/
def Rests (v : Val) (d : Time) : Prop :=
  ∃ iv, v = .num iv ∧ ∀ (W : Type) (H : Host W) (sh : Bool) (w0 : W) (h : List (Cmd W)) (r : Ref) (pre post : List Ev) (t u : Time) (rep : Reply),
    GoodLog (reach H iv sh w0 h).1.log → addCount r (reach H iv sh w0 h).1.log = 1 →
    (reach H iv sh w0 h).1.log.filter (·.ref = r) = pre ++ .act r t (.ret none) :: .act r u rep :: post → u = t + d

end Spec

open Spec

private theorem rests_self {iv : Time} (h : 0 < iv) : Rests (.num iv) iv :=
  ⟨iv, rfl, fun _ H sh w0 h' r _ _ _ _ _ hg h1 hlog => C02_next_activation H iv h sh w0 h' hg r h1 hlog⟩

/-- An agent that always returns `None`. -/
def restHost : Host Unit where
  step _ _ _ := (.ret none, [], ())
  shuffle l _ := (l, ())
  shuffle_perm l _ := List.Perm.refl l

private theorem rests_unique {q : Rat} (hq : 0 < q) {d : Time} (h : Rests (.num (.fin q)) d) : d = .fin q := by
  obtain ⟨iv, hiv, h⟩ := h
  obtain rfl : Time.fin q = iv := by injection hiv
  have hlog : (reach restHost (.fin q) false () [.op (.add 0 none), .step, .step]).1.log =
      [.added 0 0, .act 0 0 (.ret none), .act 0 (.fin q) (.ret none)] := by
    simp [reach, execAll, Cmd.exec, Sched.applyOp, Sched.addAgent, Sched.schedule, Sched.init, insertBucket, Time.pyOr, Sched.step,
      runOrder, runBucket, restHost, finishStep, headTime, Sched.applyOps, Sched.logAct, hq.ne']
  have := h Unit restHost false () [.op (.add 0 none), .step, .step] 0 [.added 0 0] [] 0 (.fin q) (.ret none)
    (by rw [hlog]; intro e he; simp only [List.mem_cons, List.not_mem_nil, or_false] at he; rcases he with rfl | rfl | rfl <;> simp [GoodEv, GoodReply]) (by rw [hlog]; rfl) (by rw [hlog]; rfl)
  rw [this]
  cases d <;> simp

/-- C222 (a model that does not mention `default_interval`): the interval is 1, as the documentation says, and it is part of making the
environment that never fails. -/
theorem C222_undeclared (ro : List String) (cls inst0 kwargs : Dict String Val) (hc : Dict.get? cls "default_interval" = none)
    (hi : Dict.get? inst0 "default_interval" = none) :
    (envInterval ro cls inst0 kwargs = none ↔ baseEnvConstruct ro inst0 kwargs = none) ∧
    ∀ v inst, envInterval ro cls inst0 kwargs = some (v, inst) → Rests v 1 ∧ ∀ d, Rests v d → d = 1 := by
  have h : discreteInterval cls inst0 = some (.num 1) := by simp [discreteInterval, modelAttr, hc, hi]
  simp only [envInterval, h]
  refine ⟨by simp, fun v inst hv => ?_⟩
  obtain ⟨i', _, he⟩ := Option.map_eq_some_iff.mp hv
  obtain rfl : Val.num 1 = v := (Prod.mk.inj he).1
  exact ⟨rests_self (by decide), fun d hd => rests_unique (q := 1) (by decide) hd⟩

/-- C222 (partial: if the class has the attribute `interval` as well, with the same value): agents that return `None` act again after the
interval that the class of the environment declares. -/
theorem C222_declared_partial (ro : List String) (cls inst0 kwargs : Dict String Val) (d : Time) (hd : 0 < d)
    (hc : Dict.get? cls "default_interval" = some (.num d)) (hc' : Dict.get? cls "interval" = some (.num d))
    (hi : Dict.get? inst0 "interval" = none) (v : Val) (inst : Dict String Val) (h : envInterval ro cls inst0 kwargs = some (v, inst)) :
    Rests v d := by
  have h' : discreteInterval cls inst0 = some (.num d) := by
    simp only [discreteInterval, modelAttr, hc, hc', hi]
    cases Dict.get? inst0 "default_interval" <;> rfl
  simp only [envInterval, h'] at h
  obtain ⟨i', _, he⟩ := Option.map_eq_some_iff.mp h
  obtain rfl : Val.num d = v := (Prod.mk.inj he).1
  exact rests_self hd

/-- C222 is violated by every environment whose class declares `default_interval`, but nothing called `interval`: it cannot be made at all. -/
theorem C222_raises_false (ro : List String) (cls inst0 kwargs : Dict String Val) (d : Val)
    (hc : Dict.get? cls "default_interval" = some d) (hc' : Dict.get? cls "interval" = none) (hi : Dict.get? inst0 "interval" = none) :
    envInterval ro cls inst0 kwargs = none := by
  have h' : discreteInterval cls inst0 = none := by
    simp only [discreteInterval, modelAttr, hc, hc', hi]
    cases Dict.get? inst0 "default_interval" <;> rfl
  simp only [envInterval, h']

/-- C222 is violated if the class has an attribute `interval` with another value: that one is used instead of `default_interval`. -/
theorem C222_other_false (ro : List String) (cls inst0 kwargs : Dict String Val) (d : Time) (q : Rat) (hq : 0 < q) (hne : d ≠ .fin q)
    (hc : Dict.get? cls "default_interval" = some (.num d)) (hc' : Dict.get? cls "interval" = some (.num (.fin q)))
    (hi : Dict.get? inst0 "interval" = none) (v : Val) (inst : Dict String Val) (h : envInterval ro cls inst0 kwargs = some (v, inst)) :
    Rests v (.fin q) ∧ ¬ Rests v d := by
  have h' : discreteInterval cls inst0 = some (.num (.fin q)) := by
    simp only [discreteInterval, modelAttr, hc, hc', hi]
    cases Dict.get? inst0 "default_interval" <;> rfl
  simp only [envInterval, h'] at h
  obtain ⟨i', _, he⟩ := Option.map_eq_some_iff.mp h
  obtain rfl : Val.num (.fin q) = v := (Prod.mk.inj he).1
  exact ⟨rests_self hq, fun hd => hne (rests_unique hq hd)⟩

/-- C222 is violated if `default_interval` is given as a parameter of the environment: the attribute has the given value in the end, but it is
only set when the scheduler has already been made, whose interval is 1. -/
theorem C222_param_false (cls inst0 kwargs : Dict String Val) (hk : Dict.WF kwargs) (d : Time) (hne : d ≠ 1)
    (hc : Dict.get? cls "default_interval" = none) (hi : Dict.get? inst0 "default_interval" = none)
    (hd : ("default_interval", .num d) ∈ kwargs) (ro : List String) (v : Val) (inst : Dict String Val)
    (h : envInterval ro cls inst0 kwargs = some (v, inst)) :
    Dict.get? inst "default_interval" = some (.num d) ∧ ¬ Rests v d := by
  obtain ⟨hr, hu⟩ := (C222_undeclared ro cls inst0 kwargs hc hi).2 v inst h
  refine ⟨?_, fun hd' => hne (hu d hd')⟩
  have h' : discreteInterval cls inst0 = some (.num 1) := by simp [discreteInterval, modelAttr, hc, hi]
  simp only [envInterval, h'] at h
  obtain ⟨i', hi', he⟩ := Option.map_eq_some_iff.mp h
  obtain rfl : i' = inst := (Prod.mk.inj he).2
  exact ((C115_base_partial ro inst0 kwargs hk).2 i' hi').1 _ _ hd (by decide)

/-! Examples: an environment with `interval = 5` and `default_interval = 3`, one that only declares `default_interval`, one that gets it as
a parameter. -/

example : (envInterval (envReadonly true) [("default_interval", .num 3), ("interval", .num 5)] [] [("x", .num 1)]).map (·.1) =
    some (.num 5) := by decide +kernel
example : envInterval (envReadonly true) [("default_interval", .num 3)] [] [("x", .num 1)] = none := by decide +kernel
example : envInterval (envReadonly true) [] [] [("default_interval", .num 3)] = some (.num 1, [("default_interval", .num 3)]) := by
  decide +kernel

end Verif
