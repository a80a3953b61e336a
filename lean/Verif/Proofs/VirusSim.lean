import Verif.Model.VirusSim
import Verif.Proofs.Timed
import Verif.Props.ExVirus

/-!
# Lemmas for whole simulations of the virus on a network
-/

namespace Verif

variable {W : Type}

/-- One bucket: the world afterwards, and who stays in the scheduler, in order. -/
def passes (act : Ref → W → W × Bool) : List Ref → W → W × List Ref
  | [], w => (w, [])
  | r :: l, w => ((passes act l (act r w).1).1,
      if (act r w).2 then (passes act l (act r w).1).2 else r :: (passes act l (act r w).1).2)

/-- A queue with (at most) one bucket. -/
def bucketOf (t : Time) (l : List Ref) : List (Time × List Ref) := if l = [] then [] else [(t, l)]

theorem insertBucket_bucketOf (t : Time) (r : Ref) (l : List Ref) : insertBucket t r (bucketOf t l) = bucketOf t (l ++ [r]) := by
  cases l <;> simp [bucketOf, insertBucket]

/-- The state of a scheduler whose pending agents are `l`, at instant `k`. -/
structure AtInstant (k : Nat) (l : List Ref) (s : Sched) : Prop where
  interval : s.interval = 1
  queue : s.queue = bucketOf (.fin (k : Rat)) l
  time : l ≠ [] → s.time = .fin (k : Rat)
  steps : l ≠ [] → s.steps = k

theorem leaveHost_step (act : Ref → W → W × Bool) (shuf : List Ref → W → List Ref × W) (hs : ∀ l w, (shuf l w).1.Perm l) (r : Ref) (s : Sched)
    (w : W) : (leaveHost act shuf hs).step r s w = (.ret (if (act r w).2 then some .inf else none), [], (act r w).1) := rfl

theorem runBucket_leave (act : Ref → W → W × Bool) (shuf : List Ref → W → List Ref × W) (hs : ∀ l w, (shuf l w).1.Perm l) (k : Nat) :
    ∀ (l : List Ref) (s : Sched) (w : W) (acc : List Ref), s.interval = 1 → s.queue = bucketOf (.fin ((k + 1 : Nat) : Rat)) acc →
      ∃ new, runBucket (leaveHost act shuf hs) (.fin (k : Rat)) l s w =
        ({ s with queue := bucketOf (.fin ((k + 1 : Nat) : Rat)) (acc ++ (passes act l w).2), log := s.log ++ new }, (passes act l w).1, false) ∧
        actRefs new = l ∧ ∀ e ∈ new, e.time = .fin (k : Rat) ∧ e.isAct = true
  | [], s, w, acc, _, hq => ⟨[], by cases s; simp only at hq; subst hq; simp only [runBucket, passes, List.append_nil], rfl, by simp⟩
  | r :: l, s, w, acc, hi, hq => by
    have h1 : Time.pyOr none s.interval + .fin (k : Rat) = .fin ((k + 1 : Nat) : Rat) := by
      rw [hi]
      change Time.fin (((1 : Nat) : Rat) + k) = _
      congr 1
      push_cast
      exact add_comm _ _
    have hkne : Time.fin ((k + 1 : Nat) : Rat) ≠ 0 := by
      intro h
      have : ((k + 1 : Nat) : Rat) = 0 := by injection h
      exact absurd this (by exact_mod_cast Nat.succ_ne_zero k)
    cases hf : (act r w).2 with
    | true =>
      obtain ⟨new, hr, ha, ht⟩ := runBucket_leave act shuf hs k l
        { s with log := s.log ++ [.act r (.fin (k : Rat)) (.ret (some .inf))] } (act r w).1 acc hi hq
      refine ⟨.act r (.fin (k : Rat)) (.ret (some .inf)) :: new, ?_, by simp [actRefs] at ha ⊢; exact ha, ?_⟩
      · rw [runBucket]
        simp only [leaveHost_step, hf, if_true, Sched.applyOps, List.foldl_nil, Sched.logAct]
        have hinf : Time.pyOr (some .inf) s.interval + .fin (k : Rat) = .inf := by simp [Time.pyOr]
        simp only [hinf, if_true, passes, hf]
        rw [hr]
        simp
      · simp only [List.mem_cons, forall_eq_or_imp]
        exact ⟨⟨rfl, rfl⟩, ht⟩
    | false =>
      obtain ⟨new, hr, ha, ht⟩ := runBucket_leave act shuf hs k l
        { s with log := s.log ++ [.act r (.fin (k : Rat)) (.ret none)], queue := bucketOf (.fin ((k + 1 : Nat) : Rat)) (acc ++ [r]) } (act r w).1 (acc ++ [r]) hi rfl
      refine ⟨.act r (.fin (k : Rat)) (.ret none) :: new, ?_, by simp [actRefs] at ha ⊢; exact ha, ?_⟩
      · rw [runBucket]
        simp only [leaveHost_step, hf, Bool.false_eq_true, if_false, Sched.applyOps, List.foldl_nil, Sched.logAct]
        simp only [h1, reduceCtorEq, if_false, passes, hf, Bool.false_eq_true, Sched.schedule]
        have hsch : Time.pyOr (some (.fin ((k + 1 : Nat) : Rat))) s.time = .fin ((k + 1 : Nat) : Rat) := by
          simp only [Time.pyOr, if_neg hkne]
        simp only [hsch, hq, insertBucket_bucketOf]
        rw [hr]
        simp
      · simp only [List.mem_cons, forall_eq_or_imp]
        exact ⟨⟨rfl, rfl⟩, ht⟩

/-- One step of the scheduler. -/
theorem step_leave (act : Ref → W → W × Bool) (shuf : List Ref → W → List Ref × W) (hs : ∀ l w, (shuf l w).1.Perm l) (k : Nat)
    (l : List Ref) (hl : l ≠ []) (s : Sched) (w : W) (h : AtInstant k l s) :
    let o := runOrder (leaveHost act shuf hs) s l w
    ∃ new, (s.step (leaveHost act shuf hs) w).1.log = s.log ++ new ∧ actRefs new = o.1 ∧
      (∀ e ∈ new, e.time = .fin (k : Rat) ∧ e.isAct = true) ∧
      AtInstant (k + 1) (passes act o.1 o.2).2 (s.step (leaveHost act shuf hs) w).1 ∧
      (s.step (leaveHost act shuf hs) w).2 = ((passes act o.1 o.2).1, false) ∧
      (s.step (leaveHost act shuf hs) w).1.steps = s.steps + 1 ∧ (s.step (leaveHost act shuf hs) w).1.running = s.running ∧
      (s.step (leaveHost act shuf hs) w).1.agents = s.agents ∧ (s.step (leaveHost act shuf hs) w).1.shuffle = s.shuffle := by
  intro o
  obtain ⟨new, hr, ha, ht⟩ := runBucket_leave act shuf hs k o.1 { s with queue := [] } o.2 [] h.interval (by simp [bucketOf])
  have hstep : s.step (leaveHost act shuf hs) w =
      finishStep (runBucket (leaveHost act shuf hs) (.fin (k : Rat)) o.1 { s with queue := [] } o.2) := by
    simp only [Sched.step, h.queue, bucketOf, hl, if_false, h.time hl, lt_irrefl]
    rfl
  rw [hstep, hr]
  simp only [finishStep, Bool.false_eq_true, if_false, List.nil_append]
  refine ⟨new, rfl, ha, ht, ⟨h.interval, rfl, ?_, ?_⟩, trivial, trivial, trivial, trivial, trivial⟩
  · intro hne
    simp [bucketOf, hne, headTime]
  · intro _
    rw [h.steps hl]

/-- Nothing happens any more. -/
theorem step_empty (H : Host W) (k : Nat) (s : Sched) (w : W) (h : AtInstant k [] s) : s.step H w = (s, w, false) := by
  simp [Sched.step, h.queue, bucketOf]

theorem exec_adds (H : Host W) : ∀ (l : List Ref) (acc : List Ref) (s : Sched) (w : W), s.time = 0 → s.queue = bucketOf 0 acc →
    ∃ s', execAll H (l.map (fun r => .op (.add r none))) (s, w) = (s', w) ∧ s'.queue = bucketOf 0 (acc ++ l) ∧ s'.time = 0 ∧ s'.steps = s.steps ∧
      s'.interval = s.interval ∧ s'.shuffle = s.shuffle ∧ s'.running = s.running ∧ s'.log = s.log ++ l.map (fun r => .added r 0) ∧
      ∀ r, r ∈ s'.agents ↔ r ∈ s.agents ∨ r ∈ l
  | [], acc, s, w, ht, hq => ⟨s, rfl, by simpa using hq, ht, rfl, rfl, rfl, rfl, by simp, by simp⟩
  | r :: l, acc, s, w, ht, hq => by
    obtain ⟨s', he, h1, h2, h3, h4, h5, h6, h7, h8⟩ := exec_adds H l (acc ++ [r]) (s.addAgent r none) w ht
      (by simp only [Sched.addAgent, Sched.schedule, Time.pyOr, hq, ht, insertBucket_bucketOf])
    refine ⟨s', he, by rw [h1]; simp, h2, h3, h4, h5, h6, ?_, ?_⟩
    · rw [h7]
      simp [Sched.addAgent, Sched.schedule, ht]
    · intro q
      rw [h8 q]
      simp only [Sched.addAgent, Sched.schedule, List.mem_cons]
      by_cases hr : r ∈ s.agents
      · simp only [hr, if_true]
        constructor
        · rintro (h | h)
          · exact .inl h
          · exact .inr (.inr h)
        · rintro (h | rfl | h)
          · exact .inl h
          · exact .inl hr
          · exact .inr h
      · simp only [hr, if_false, List.mem_append, List.mem_singleton]
        exact or_assoc

/-! ### The agents of `soil_step.py` -/

theorem soilCheck_resistant (P : VirusParams) (d : Nat → Rat) (k : Nat) (st : List VStat) (i : Nat) (hi : i < st.length)
    (hr : st[i]? ≠ some .resistant) :
    ((soilCheckSituation P d k st i).2 = true ↔ (soilCheckSituation P d k st i).1[i]? = some .resistant) ∧
    ∀ (j : Nat), j ≠ i → (soilCheckSituation P d k st i).1[j]? = st[j]? := by
  unfold soilCheckSituation soilRemoveInfection soilGainResistance
  split
  · split
    · split
      · split
        · simp only [List.set_set]
          refine ⟨by simp [getElem?_set', List.getElem?_eq_getElem hi], fun j hj => ?_⟩
          rw [getElem?_set', if_neg (Ne.symm hj)]
        · refine ⟨by simp [getElem?_set', List.getElem?_eq_getElem hi], fun j hj => ?_⟩
          rw [getElem?_set', if_neg (Ne.symm hj)]
      · exact ⟨by simp [hr], fun _ _ => rfl⟩
    · exact ⟨by simp [hr], fun _ _ => rfl⟩
  · exact ⟨by simp [hr], fun _ _ => rfl⟩

theorem infectLoop_resistant (P : VirusParams) (adj : Nat → List Nat) (d : Nat → Rat) (st : List VStat) (i j : Nat) :
    (infectLoop P.spread d (suscNeighbors adj st i) 0 st).1[j]? = some .resistant ↔ st[j]? = some .resistant := by
  obtain ⟨_, h2, h3⟩ := infectLoop_spec P.spread d (suscNeighbors adj st i) 0 st
  rcases h3 j with h | ⟨hm, _, h, _⟩
  · rw [h]
  · rw [h, (mem_suscNeighbors.1 hm).2]
    simp

/-- Who turns resistant in an activation: only the agent itself, and exactly if it says that it leaves. -/
theorem soilStep_resistant (P : VirusParams) (adj : Nat → List Nat) (st : List VStat) (i : Nat) (d : Nat → Rat) (hi : i < st.length)
    (hr : st[i]? ≠ some .resistant) :
    ((soilVirusStep P adj st i d).2 = true ↔ (soilVirusStep P adj st i d).1[i]? = some .resistant) ∧
    ∀ (j : Nat), j ≠ i → ((soilVirusStep P adj st i d).1[j]? = some .resistant ↔ st[j]? = some .resistant) := by
  unfold soilVirusStep
  simp only
  by_cases hinf : st[i]? = some .infected
  · rw [if_pos hinf]
    have hl := (infectLoop_spec P.spread d (suscNeighbors adj st i) 0 st).1
    have hres := infectLoop_resistant P adj d st i
    generalize infectLoop P.spread d (suscNeighbors adj st i) 0 st = q at *
    have hc := soilCheck_resistant P d q.2 q.1 i (by rw [hl]; exact hi) (by rw [ne_eq, hres]; exact hr)
    exact ⟨hc.1, fun j hj => by rw [hc.2 j hj, hres]⟩
  · rw [if_neg hinf]
    have hc := soilCheck_resistant P d 0 st i hi hr
    exact ⟨hc.1, fun j hj => by rw [hc.2 j hj]⟩

namespace Spec

/-- Whether an agent is not resistant. -/
def isLive (st : List VStat) (r : Ref) : Bool := decide (st[r]? ≠ some .resistant)

/-- The agents that are not resistant. -/
def live (st : List VStat) : List Ref := (List.range st.length).filter (isLive st)

end Spec

open Spec

theorem passes_virus (P : VirusParams) (adj : Nat → List Nat) (src : VSource) : ∀ (l : List Ref) (w : VWorld VStat), l.Nodup →
    (∀ r ∈ l, r < w.st.length ∧ w.st[r]? ≠ some .resistant) →
    let z := (passes (VWorld.act (soilVirusStep P adj) src) l w).1
    (passes (VWorld.act (soilVirusStep P adj) src) l w).2 = l.filter (isLive z.st) ∧
    (∀ j, j ∉ l → (z.st[j]? = some .resistant ↔ w.st[j]? = some .resistant)) ∧ z.st.length = w.st.length ∧
    ∃ new, z.hist = w.hist ++ new ∧ new.map (·.1) = l ∧ z.st = soilVirusRun P adj w.st new
  | [], w, _, _ => ⟨rfl, fun _ _ => Iff.rfl, rfl, [], by simp [passes], rfl, rfl⟩
  | r :: l, w, hn, hl => by
    obtain ⟨hrl, hn⟩ := List.nodup_cons.1 hn
    have hr := hl r (by simp)
    have hstep := soilStep_resistant P adj w.st r (src.draws w.acts) hr.1 hr.2
    have hlen := (soilStep_ok P adj w.st r (src.draws w.acts)).len
    obtain ⟨h1, h2, h3, new, h4, h5, h6⟩ := passes_virus P adj src l (VWorld.act (soilVirusStep P adj) src r w).1 hn (fun q hq => by
      simp only [VWorld.act, hlen]
      refine ⟨(hl q (by simp [hq])).1, ?_⟩
      rw [ne_eq, hstep.2 q (by rintro rfl; exact hrl hq)]
      exact (hl q (by simp [hq])).2)
    simp only [passes]
    have hz : (passes (VWorld.act (soilVirusStep P adj) src) l (VWorld.act (soilVirusStep P adj) src r w).1).1.st[r]? = some .resistant ↔ (VWorld.act (soilVirusStep P adj) src r w).2 = true := by
      rw [h2 r hrl]
      exact hstep.1.symm
    refine ⟨?_, ?_, h3.trans hlen, (r, src.draws w.acts) :: new, ?_, by simp [h5], ?_⟩
    · by_cases hf : (VWorld.act (soilVirusStep P adj) src r w).2 = true
      · rw [if_pos hf, List.filter_cons_of_neg (by rw [isLive, decide_eq_true_eq, not_not]; exact hz.2 hf)]
        exact h1
      · rw [if_neg hf, List.filter_cons_of_pos (by rw [isLive, decide_eq_true_eq]; exact (not_congr hz).2 hf)]
        exact congrArg _ h1
    · intro j hj
      rw [List.mem_cons, not_or] at hj
      rw [h2 j hj.2]
      exact hstep.2 j hj.1
    · rw [h4]
      simp [VWorld.act]
    · rw [h6]
      rfl

theorem live_nodup (st : List VStat) : (live st).Nodup := List.nodup_range.filter _

theorem mem_live {st : List VStat} {r : Ref} : r ∈ live st ↔ r < st.length ∧ st[r]? ≠ some .resistant := by simp [live, isLive]

/-- The state of affairs after some steps. -/
structure VirusAt (k : Nat) (l : List Ref) (x : Sched × VWorld VStat) : Prop where
  at_ : AtInstant k l x.1
  perm : l.Perm (live x.2.st)
  running : x.1.running = true
  steps : x.1.steps ≤ k
  hist : x.2.hist.map (·.1) = actRefs x.1.log

theorem runOrder_virus (P : VirusParams) (adj : Nat → List Nat) (src : VSource) (s : Sched) (l : List Ref) (w : VWorld VStat) :
    (runOrder (virusHost P adj src) s l w).1.Perm l ∧ (runOrder (virusHost P adj src) s l w).2.st = w.st ∧
    (runOrder (virusHost P adj src) s l w).2.hist = w.hist := by
  unfold runOrder
  split
  · exact ⟨src.perm_ok _ _, rfl, rfl⟩
  · exact ⟨List.Perm.refl _, rfl, rfl⟩

/-- One step when somebody is not resistant. -/
theorem VirusAt.step {P : VirusParams} {adj : Nat → List Nat} {src : VSource} {k : Nat} {l : List Ref} {x : Sched × VWorld VStat}
    (h : VirusAt k l x) (hl : l ≠ []) :
    ∃ l' new acts, VirusAt (k + 1) l' ((x.1.step (virusHost P adj src) x.2).1, (x.1.step (virusHost P adj src) x.2).2.1) ∧
      (x.1.step (virusHost P adj src) x.2).2.2 = false ∧
      (x.1.step (virusHost P adj src) x.2).1.steps = x.1.steps + 1 ∧ (x.1.step (virusHost P adj src) x.2).1.agents = x.1.agents ∧
      (x.1.step (virusHost P adj src) x.2).1.log = x.1.log ++ new ∧ (actRefs new).Perm l ∧
      (∀ e ∈ new, e.time = .fin (k : Rat) ∧ e.isAct = true) ∧
      (x.1.step (virusHost P adj src) x.2).2.1.hist = x.2.hist ++ acts ∧ acts.map (·.1) = actRefs new ∧
      (x.1.step (virusHost P adj src) x.2).2.1.st = soilVirusRun P adj x.2.st acts ∧
      (x.1.step (virusHost P adj src) x.2).2.1.st.length = x.2.st.length := by
  obtain ⟨new, g1, g2, g3, g4, g5, g6, g7, g8, _⟩ := step_leave (VWorld.act (soilVirusStep P adj) src) (VWorld.shuf src)
    (fun l w => src.perm_ok w.shuffles l) k l hl x.1 x.2 h.at_
  change (x.1.step (virusHost P adj src) x.2).1.log = _ at g1
  change actRefs new = (runOrder (virusHost P adj src) x.1 l x.2).1 at g2
  change AtInstant (k + 1) (passes _ (runOrder (virusHost P adj src) x.1 l x.2).1 (runOrder (virusHost P adj src) x.1 l x.2).2).2
    (x.1.step (virusHost P adj src) x.2).1 at g4
  change (x.1.step (virusHost P adj src) x.2).2 = ((passes _ (runOrder (virusHost P adj src) x.1 l x.2).1
    (runOrder (virusHost P adj src) x.1 l x.2).2).1, false) at g5
  change (x.1.step (virusHost P adj src) x.2).1.steps = _ at g6
  change (x.1.step (virusHost P adj src) x.2).1.running = _ at g7
  change (x.1.step (virusHost P adj src) x.2).1.agents = _ at g8
  obtain ⟨o1, o2, o3⟩ := runOrder_virus P adj src x.1 l x.2
  generalize runOrder (virusHost P adj src) x.1 l x.2 = o at *
  have hnd : o.1.Nodup := o1.nodup_iff.2 (h.perm.nodup_iff.2 (live_nodup _))
  have hmem : ∀ r, r ∈ o.1 ↔ r < x.2.st.length ∧ x.2.st[r]? ≠ some .resistant := by
    intro r
    rw [o1.mem_iff, h.perm.mem_iff, mem_live]
  obtain ⟨p1, p2, p3, acts, p4, p5, p6⟩ := passes_virus P adj src o.1 o.2 hnd (by rw [o2]; exact fun r hr => (hmem r).1 hr)
  rw [o2] at p2 p3 p6
  rw [o3] at p4
  generalize passes (VWorld.act (soilVirusStep P adj) src) o.1 o.2 = z at *
  generalize x.1.step (virusHost P adj src) x.2 = y at *
  obtain ⟨y1, y2, y3⟩ := y
  obtain ⟨rfl, rfl⟩ := Prod.mk.inj g5
  simp only at *
  refine ⟨z.2, new, acts, ⟨g4, ?_, g7.trans h.running, by rw [g6]; have := h.steps; omega, ?_⟩, trivial, g6, g8, g1, by rw [g2]; exact o1, g3, p4, by rw [p5, g2], p6, p3⟩
  · rw [p1]
    refine (List.perm_ext_iff_of_nodup (hnd.filter _) (live_nodup _)).2 ?_
    intro r
    simp only [List.mem_filter, hmem, mem_live, p3, isLive, decide_eq_true_eq]
    constructor
    · rintro ⟨⟨a, _⟩, b⟩
      exact ⟨a, b⟩
    · rintro ⟨a, b⟩
      refine ⟨⟨a, ?_⟩, b⟩
      intro hc
      exact b ((p2 r (by rw [hmem]; simp [hc])).2 hc)
  · change z.1.hist.map _ = actRefs y1.log
    rw [p4, g1, List.map_append, actRefs_append, h.hist, p5, g2]

/-! ### The agents of `soil_states.py` -/

theorem flagLoop_state (p : Rat) (d : Nat → Rat) (l : List Nat) (st : List VAgent) (j : Nat) :
    (flagLoop p d l 0 st).1[j]?.map (·.state) = st[j]?.map (·.state) := by
  rcases (flagLoop_spec p d l 0 st).2.2 j with h | ⟨q, _, hq, h, _⟩
  · rw [h]
  · rw [h, hq]
    rfl

theorem statesStep_state (P : VirusParams) (adj : Nat → List Nat) (st : List VAgent) (i : Nat) (d : Nat → Rat) :
    (statesVirusStep P adj st i d).1.length = st.length ∧
    ((statesVirusStep P adj st i d).2 = true ↔ st[i]?.map (·.state) = some .resistant) ∧
    ∀ (j : Nat), j ≠ i → (statesVirusStep P adj st i d).1[j]?.map (·.state) = st[j]?.map (·.state) := by
  unfold statesVirusStep
  cases hi : st[i]? with
  | none => simp
  | some q =>
    simp only
    cases hs : q.state with
    | resistant => simp [hs]
    | susceptible =>
      simp only
      split
      · refine ⟨by simp, by simp [hs], fun j hj => ?_⟩
        rw [getElem?_set', if_neg (Ne.symm hj)]
      · simp [hs]
    | infected =>
      simp only
      have hlen := (flagLoop_spec P.spread d (suscAgents adj st i) 0 st).1
      have hst := flagLoop_state P.spread d (suscAgents adj st i) st
      generalize flagLoop P.spread d (suscAgents adj st i) 0 st = r at *
      have hmod : ∀ (v : VStat) (j : Nat), j ≠ i → (r.1.modify i (fun q => { q with state := v }))[j]?.map (·.state) = st[j]?.map (·.state) := by
        intro v j hj
        rw [List.getElem?_modify]
        have : ¬ i = j := fun e => hj e.symm
        simp only [this, if_false, Option.map_eq_map, Option.map_id', id_eq]
        exact hst j
      split
      · split
        · split
          · exact ⟨by simp [hlen], by simp [hs], hmod _⟩
          · exact ⟨by simp [hlen], by simp [hs], hmod _⟩
        · exact ⟨by simp [hlen], by simp [hs], hmod _⟩
      · exact ⟨hlen, by simp [hs], fun j _ => hst j⟩

namespace Spec

/-- Whether an agent is not in the state `resistant`. -/
def inPlay (st : List VAgent) (r : Ref) : Bool := decide (st[r]?.map (·.state) ≠ some .resistant)

end Spec

theorem passes_states (P : VirusParams) (adj : Nat → List Nat) (src : VSource) : ∀ (l : List Ref) (w : VWorld VAgent), l.Nodup →
    let z := (passes (VWorld.act (statesVirusStep P adj) src) l w).1
    (passes (VWorld.act (statesVirusStep P adj) src) l w).2 = l.filter (inPlay w.st) ∧ z.st.length = w.st.length ∧
    ∃ new, z.hist = w.hist ++ new ∧ new.map (·.1) = l ∧ z.st = statesVirusRun P adj w.st new
  | [], w, _ => ⟨rfl, rfl, [], by simp [passes], rfl, rfl⟩
  | r :: l, w, hn => by
    obtain ⟨hrl, hn⟩ := List.nodup_cons.1 hn
    obtain ⟨s1, s2, s3⟩ := statesStep_state P adj w.st r (src.draws w.acts)
    obtain ⟨h1, h3, new, h4, h5, h6⟩ := passes_states P adj src l (VWorld.act (statesVirusStep P adj) src r w).1 hn
    refine ⟨?_, h3.trans s1, (r, src.draws w.acts) :: new, ?_, by simp [h5], ?_⟩
    · have hl : l.filter (inPlay (VWorld.act (statesVirusStep P adj) src r w).1.st) = l.filter (inPlay w.st) := by
        refine List.filter_congr ?_
        intro q hq
        have h := s3 q (by rintro rfl; exact hrl hq)
        unfold inPlay
        refine decide_eq_decide.2 (not_congr ?_)
        change (statesVirusStep P adj w.st r (src.draws w.acts)).1[q]?.map (·.state) = _ ↔ _
        rw [h]
      rw [hl] at h1
      simp only [passes]
      by_cases hf : (VWorld.act (statesVirusStep P adj) src r w).2 = true
      · rw [if_pos hf, List.filter_cons_of_neg (by rw [inPlay, decide_eq_true_eq, not_not]; exact s2.1 hf)]
        exact h1
      · rw [if_neg hf, List.filter_cons_of_pos (by rw [inPlay, decide_eq_true_eq]; exact (not_congr s2).1 hf)]
        exact congrArg _ h1
    · simp only [passes]
      rw [h4]
      simp [VWorld.act]
    · simp only [passes]
      rw [h6]
      rfl

/-- The state of affairs after some steps, with the pending agents. -/
structure StatesAt (k : Nat) (l : List Ref) (x : Sched × VWorld VAgent) : Prop where
  at_ : AtInstant k l x.1
  nodup : l.Nodup
  running : x.1.running = true
  steps : x.1.steps ≤ k
  hist : x.2.hist.map (·.1) = actRefs x.1.log

theorem runOrder_states (P : VirusParams) (adj : Nat → List Nat) (src : VSource) (s : Sched) (l : List Ref) (w : VWorld VAgent) :
    (runOrder (virusStatesHost P adj src) s l w).1.Perm l ∧ (runOrder (virusStatesHost P adj src) s l w).2.st = w.st ∧
    (runOrder (virusStatesHost P adj src) s l w).2.hist = w.hist := by
  unfold runOrder
  split
  · exact ⟨src.perm_ok _ _, rfl, rfl⟩
  · exact ⟨List.Perm.refl _, rfl, rfl⟩

/-- One step when somebody is pending. -/
theorem StatesAt.step {P : VirusParams} {adj : Nat → List Nat} {src : VSource} {k : Nat} {l : List Ref} {x : Sched × VWorld VAgent}
    (h : StatesAt k l x) (hl : l ≠ []) :
    ∃ l' new acts, StatesAt (k + 1) l' ((x.1.step (virusStatesHost P adj src) x.2).1, (x.1.step (virusStatesHost P adj src) x.2).2.1) ∧
      (∀ r, r ∈ l' ↔ r ∈ l ∧ inPlay x.2.st r = true) ∧
      (x.1.step (virusStatesHost P adj src) x.2).2.2 = false ∧
      (x.1.step (virusStatesHost P adj src) x.2).1.steps = x.1.steps + 1 ∧ (x.1.step (virusStatesHost P adj src) x.2).1.agents = x.1.agents ∧
      (x.1.step (virusStatesHost P adj src) x.2).1.log = x.1.log ++ new ∧ (actRefs new).Perm l ∧
      (∀ e ∈ new, e.time = .fin (k : Rat) ∧ e.isAct = true) ∧
      (x.1.step (virusStatesHost P adj src) x.2).2.1.hist = x.2.hist ++ acts ∧ acts.map (·.1) = actRefs new ∧
      (x.1.step (virusStatesHost P adj src) x.2).2.1.st = statesVirusRun P adj x.2.st acts ∧
      (x.1.step (virusStatesHost P adj src) x.2).2.1.st.length = x.2.st.length := by
  obtain ⟨new, g1, g2, g3, g4, g5, g6, g7, g8, _⟩ := step_leave (VWorld.act (statesVirusStep P adj) src) (VWorld.shuf src)
    (fun l w => src.perm_ok w.shuffles l) k l hl x.1 x.2 h.at_
  change (x.1.step (virusStatesHost P adj src) x.2).1.log = _ at g1
  change actRefs new = (runOrder (virusStatesHost P adj src) x.1 l x.2).1 at g2
  change AtInstant (k + 1) (passes _ (runOrder (virusStatesHost P adj src) x.1 l x.2).1 (runOrder (virusStatesHost P adj src) x.1 l x.2).2).2
    (x.1.step (virusStatesHost P adj src) x.2).1 at g4
  change (x.1.step (virusStatesHost P adj src) x.2).2 = ((passes _ (runOrder (virusStatesHost P adj src) x.1 l x.2).1
    (runOrder (virusStatesHost P adj src) x.1 l x.2).2).1, false) at g5
  change (x.1.step (virusStatesHost P adj src) x.2).1.steps = _ at g6
  change (x.1.step (virusStatesHost P adj src) x.2).1.running = _ at g7
  change (x.1.step (virusStatesHost P adj src) x.2).1.agents = _ at g8
  obtain ⟨o1, o2, o3⟩ := runOrder_states P adj src x.1 l x.2
  generalize runOrder (virusStatesHost P adj src) x.1 l x.2 = o at *
  have hnd : o.1.Nodup := o1.nodup_iff.2 h.nodup
  obtain ⟨p1, p3, acts, p4, p5, p6⟩ := passes_states P adj src o.1 o.2 hnd
  rw [o2] at p1 p3 p6
  rw [o3] at p4
  generalize passes (VWorld.act (statesVirusStep P adj) src) o.1 o.2 = z at *
  generalize x.1.step (virusStatesHost P adj src) x.2 = y at *
  obtain ⟨y1, y2, y3⟩ := y
  obtain ⟨rfl, rfl⟩ := Prod.mk.inj g5
  simp only at *
  refine ⟨z.2, new, acts, ⟨g4, by rw [p1]; exact hnd.filter _, g7.trans h.running, by rw [g6]; have := h.steps; omega, ?_⟩, ?_, trivial, g6, g8, g1,
    by rw [g2]; exact o1, g3, p4, by rw [p5, g2], p6, p3⟩
  · change z.1.hist.map _ = actRefs y1.log
    rw [p4, g1, List.map_append, actRefs_append, h.hist, p5, g2]
  · intro r
    rw [p1, List.mem_filter, o1.mem_iff]

end Verif
