import Verif.Props.RabbitsEnd
import Mathlib.Data.Multiset.DershowitzManna

/-!
# Simulations with births end (C257)

C18 is about simulations in which no, or only so many, agents are added. Here any number of agents may be added, by any agent but those that were
activated for the first time just now. There is no bound on the number of steps then; the pending activations become smaller in the order of Dershowitz and Manna.
-/

namespace Verif
open Spec

variable {W : Type}

/-- Agent `r` was activated before `t`. -/
def ActedBefore (log : List Ev) (r : Ref) (t : Time) : Prop := ∃ e ∈ actsOf r log, e.1 < t

instance (log : List Ev) (r : Ref) (t : Time) : Decidable (ActedBefore log r t) :=
  inferInstanceAs (Decidable (∃ e ∈ actsOf r log, e.1 < t))

/-- The rank of a pending activation: how often one can still wait `δ` before `T`; more for those that may add agents. -/
def wakeRank (T δ : Rat) (log : List Ev) (p : Ref × Time) : Nat := 2 * budget T δ p.2 + if ActedBefore log p.1 p.2 then 1 else 0

/-- The ranks of everything that is pending. -/
def wakeRanks (T δ : Rat) (iv : Time) (log : List Ev) : Multiset Nat := Multiset.ofList ((cal iv log).map (wakeRank T δ log))

/-- What is pending for later is for agents that were activated before. -/
def LaterActed (iv : Time) (log : List Ev) (now : Time) : Prop := ∀ p ∈ cal iv log, now < p.2 → ActedBefore log p.1 p.2

private theorem cal_adds (iv : Time) (l : List Ev) (rs : List Ref) (t : Time) :
    cal iv (l ++ rs.map (fun r => Ev.added r t)) = cal iv l ++ rs.map (fun r => (r, t)) := by
  induction rs generalizing l with
  | nil => simp
  | cons r rs ih =>
    have : l ++ (r :: rs).map (fun r => Ev.added r t) = (l ++ [.added r t]) ++ rs.map (fun r => Ev.added r t) := by simp
    rw [this, ih, cal_append_one]
    simp [calStep]

private theorem ops_log (s : Sched) (os : List SOp) :
    ∃ rs : List Ref, (s.applyOps os).log = s.log ++ rs.map (fun r => Ev.added r s.time) ∧ ∀ q ∈ rs, ∃ wh, SOp.add q wh ∈ os := by
  induction os generalizing s with
  | nil => exact ⟨[], by simp [Sched.applyOps], by simp⟩
  | cons o os ih =>
    obtain ⟨rs, h1, h2⟩ := ih (s.applyOp o)
    rw [applyOps_cons, h1]
    have ht : (s.applyOp o).time = s.time := by cases o <;> rfl
    rw [ht]
    cases o with
    | add r wh =>
      refine ⟨r :: rs, ?_, ?_⟩
      · simp [Sched.applyOp, Sched.addAgent, Sched.schedule]
      · intro q hq
        rcases List.mem_cons.1 hq with rfl | hq
        · exact ⟨wh, by simp⟩
        · obtain ⟨wh', hw⟩ := h2 q hq
          exact ⟨wh', List.mem_cons_of_mem _ hw⟩
    | remove r => exact ⟨rs, rfl, fun q hq => (h2 q hq).imp fun _ h => List.mem_cons_of_mem _ h⟩
    | stop => exact ⟨rs, rfl, fun q hq => (h2 q hq).imp fun _ h => List.mem_cons_of_mem _ h⟩

/-- One activation makes the ranks smaller. -/
private theorem ranks_act {T δ : Rat} (hδ : 0 < δ) {iv : Time} {log : List Ev} {r : Ref} {now : Time} {rep : Reply} {rs : List Ref}
    (hnow : now < .fin T) (hmem : (r, now) ∈ cal iv log) (hlater : LaterActed iv log now)
    (hnew : ∀ q ∈ rs, actsOf q log = [] ∧ ActedBefore log r now)
    (hwait : ∀ d, rep = .ret d → .fin δ ≤ effDelay iv d) :
    (wakeRanks T δ iv (log ++ rs.map (fun q => Ev.added q now) ++ [.act r now rep])).IsDershowitzMannaLT (wakeRanks T δ iv log) ∧
    LaterActed iv (log ++ rs.map (fun q => Ev.added q now) ++ [.act r now rep]) now := by
  obtain ⟨log', hlog'⟩ : ∃ l, l = log ++ rs.map (fun q => Ev.added q now) ++ [.act r now rep] := ⟨_, rfl⟩
  have hacts : ∀ q, actsOf q log' = actsOf q log ++ if q = r then [(now, rep)] else [] := by
    intro q
    rw [hlog', actsOf_append, actsOf_append, actsOf_adds, List.append_nil, actsOf_one]
  have hcal : cal iv log' = (cal iv log).erase (r, now) ++ rs.map (fun q => (q, now)) ++ ((nextWake iv now rep).map (r, ·)).toList := by
    rw [hlog', cal_append_one, cal_adds]
    simp only [calStep]
    rw [List.erase_append_left _ hmem]
  have hmono : ∀ q t, ActedBefore log q t → ActedBefore log' q t := by
    rintro q t ⟨e, he, hlt⟩
    exact ⟨e, by rw [hacts]; exact List.mem_append_left _ he, hlt⟩
  have hnext : ∀ u, nextWake iv now rep = some u → now + .fin δ ≤ u := by
    intro u hu
    cases rep with
    | ret d =>
      simp only [nextWake] at hu
      split at hu
      · cases hu
      · cases hu
        have := hwait d rfl
        revert this
        cases now <;> cases effDelay iv d <;> simp
    | dead => cases hu
    | error => cases hu
  have hnlt : ∀ u, nextWake iv now rep = some u → now < u := by
    intro u hu
    refine lt_of_lt_of_le ?_ (hnext u hu)
    cases now with
    | inf => simp at hnow
    | fin x => simp only [Time.fin_add, Time.fin_lt]; linarith
  rw [← hlog']
  constructor
  · refine ⟨Multiset.ofList (((cal iv log).erase (r, now)).map (wakeRank T δ log)),
      Multiset.ofList ((rs.map (fun q => (q, now)) ++ ((nextWake iv now rep).map (r, ·)).toList).map (wakeRank T δ log')),
      {wakeRank T δ log (r, now)}, by simp, ?_, ?_, ?_⟩
    · unfold wakeRanks
      rw [hcal, List.append_assoc, List.map_append, ← Multiset.coe_add]
      congr 2
      apply List.map_congr_left
      intro p hp
      have hp' := List.mem_of_mem_erase hp
      unfold wakeRank
      congr 1
      have : ActedBefore log' p.1 p.2 ↔ ActedBefore log p.1 p.2 := by
        constructor
        · intro h
          by_cases hlt : now < p.2
          · exact hlater p hp' hlt
          · obtain ⟨e, he, hlt'⟩ := h
            rw [hacts, List.mem_append] at he
            rcases he with he | he
            · exact ⟨e, he, hlt'⟩
            · split at he
              · rw [List.mem_singleton.1 he] at hlt'
                exact absurd hlt' hlt
              · cases he
        · exact hmono _ _
      simp only [this]
    · unfold wakeRanks
      rw [Multiset.coe_eq_coe.2 ((List.perm_cons_erase hmem).map (wakeRank T δ log)), List.map_cons, ← Multiset.cons_coe,
        ← Multiset.singleton_add, add_comm]
    · intro y hy
      refine ⟨_, Multiset.mem_singleton_self _, ?_⟩
      rw [Multiset.mem_coe, List.mem_map] at hy
      obtain ⟨p, hp, rfl⟩ := hy
      rcases List.mem_append.1 hp with hp | hp
      · obtain ⟨q, hq, rfl⟩ := List.mem_map.1 hp
        obtain ⟨h1, h2⟩ := hnew q hq
        have hqr : q ≠ r := by
          rintro rfl
          obtain ⟨e, he, _⟩ := h2
          rw [h1] at he
          cases he
        have h3 : ¬ ActedBefore log' q now := by
          rintro ⟨e, he, _⟩
          rw [hacts, h1, if_neg hqr] at he
          cases he
        simp only [wakeRank, if_neg h3, if_pos h2]
        omega
      · cases hn : nextWake iv now rep with
        | none => rw [hn] at hp; cases hp
        | some u =>
          rw [hn] at hp
          simp only [Option.map_some, Option.toList_some, List.mem_singleton] at hp
          subst hp
          have := budget_lt hδ hnow (hnext u hn)
          simp only [wakeRank]
          split <;> split <;> omega
  · intro p hp hlt
    rw [hcal, List.append_assoc, List.mem_append, List.mem_append] at hp
    rcases hp with hp | hp | hp
    · exact hmono _ _ (hlater p (List.mem_of_mem_erase hp) hlt)
    · obtain ⟨q, _, rfl⟩ := List.mem_map.1 hp
      exact absurd hlt (lt_irrefl _)
    · cases hn : nextWake iv now rep with
      | none => rw [hn] at hp; cases hp
      | some u =>
        rw [hn] at hp
        simp only [Option.map_some, Option.toList_some, List.mem_singleton] at hp
        subst hp
        exact ⟨(now, rep), by rw [hacts]; simp, hlt⟩

/-- What the theorem is about: agents wait at least `δ`, and only agents that were activated at an earlier time add agents, which were never activated. `J` is any
property of the states that all activations keep. -/
structure Fertile (H : Host W) (iv : Time) (δ : Rat) (J : Sched → W → Prop) : Prop where
  keeps : KeepsInv H iv J
  wait : ∀ r s w d, J s w → (H.step r s w).1 = .ret d → .fin δ ≤ effDelay iv d
  births : ∀ r s w, J s w → (r, s.time) ∈ cal iv s.log → ∀ q wh, SOp.add q wh ∈ (H.step r s w).2.1 →
    actsOf q s.log = [] ∧ ActedBefore s.log r s.time

private theorem good_of_wait {iv : Time} {δ : Rat} (hδ : 0 < δ) {rep : Reply} (he : rep ≠ .error) (hw : ∀ d, rep = .ret d → .fin δ ≤ effDelay iv d) :
    GoodReply rep := by
  cases rep with
  | error => exact absurd rfl he
  | dead => trivial
  | ret d =>
    cases d with
    | none => trivial
    | some x =>
      have h := hw _ rfl
      show (0 : Time) ≤ x
      simp only [effDelay] at h
      split at h
      · rename_i hx; rw [hx]
      · refine le_trans ?_ h
        simp only [Time.zero_def, Time.fin_le]; exact le_of_lt hδ

private theorem afterAct_agents' (s : Sched) (r : Ref) (now : Time) (rep : Reply) : (afterAct s r now rep).agents = s.agents := by
  cases rep with
  | ret d =>
    by_cases hh : Time.pyOr d s.interval + now = .inf <;> simp [afterAct, Sched.logAct, Sched.schedule, hh]
  | dead => rfl
  | error => rfl

private theorem bucket_ranks {H : Host W} {iv : Time} {T δ : Rat} (hδ : 0 < δ) {J : Sched → W → Prop} (hF : Fertile H iv δ J) {now : Time} (hnow : now < .fin T)
    {b l : List Ref} {s : Sched} {w : W} (hm : MidInv now b l s) (hi : s.interval = iv) (hJ : J s w) (hg : GoodLog s.log) (hl : LaterActed iv s.log now)
    (hok : (runBucket H now b s w).2.2 = false) :
    GoodLog (runBucket H now b s w).1.log ∧ LaterActed iv (runBucket H now b s w).1.log now ∧
    (b ≠ [] → (wakeRanks T δ iv (runBucket H now b s w).1.log).IsDershowitzMannaLT (wakeRanks T δ iv s.log)) := by
  induction b generalizing s w l with
  | nil => exact ⟨hg, hl, fun h => absurd rfl h⟩
  | cons r rest ih =>
    rw [runBucket_cons] at hok ⊢
    simp only at hok ⊢
    split at hok
    · cases hok
    · rename_i he
      rw [if_neg he]
      have htime : s.time = now := hm.time_eq
      have hw : ∀ d, (H.step r s w).1 = .ret d → .fin δ ≤ effDelay iv d := fun d => hF.wait r s w d hJ
      have hgr := good_of_wait hδ he hw
      have hrl : r ∈ l := hm.perm.mem_iff.2 (by simp)
      have hmem : (r, s.time) ∈ cal iv s.log := by
        rw [← hi, ← mem_dueAt, htime, hm.due]; simp [hrl]
      have h1 := hF.keeps.act r s w hi hJ hmem (by rw [← hi, htime]; exact hm.mem_le) (by rw [htime]; exact hm.past) hgr
      have h3 : J (afterAct (s.applyOps (H.step r s w).2.1) r now (H.step r s w).1) (H.step r s w).2.2 := by
        refine hF.keeps.same _ _ _ h1 ?_ ?_ ?_
        · rw [afterAct_log, htime]; rfl
        · rw [afterAct_agents']; rfl
        · rw [afterAct_time]; exact le_rfl
      obtain ⟨rs, hrs, hrs'⟩ := ops_log s (H.step r s w).2.1
      have hlog : (afterAct (s.applyOps (H.step r s w).2.1) r now (H.step r s w).1).log =
          s.log ++ rs.map (fun q => Ev.added q now) ++ [.act r now (H.step r s w).1] := by
        rw [afterAct_log, hrs, htime]
      obtain ⟨h4, h5⟩ := ranks_act (rs := rs) hδ hnow (htime ▸ hmem) hl (fun q hq => by
        obtain ⟨wh, hwh⟩ := hrs' q hq
        have := hF.births r s w hJ hmem q wh hwh
        rwa [htime] at this) hw
      have hg1 : GoodLog (afterAct (s.applyOps (H.step r s w).2.1) r now (H.step r s w).1).log := by
        rw [hlog]
        intro e hm'
        rcases List.mem_append.1 hm' with hm' | hm'
        · rcases List.mem_append.1 hm' with hm' | hm'
          · exact hg e hm'
          · obtain ⟨q, _, rfl⟩ := List.mem_map.1 hm'
            trivial
        · rw [List.mem_singleton.1 hm']
          exact hgr
      rw [← hlog] at h4 h5
      obtain ⟨i1, i2, i3⟩ := ih ((hm.ops (H.step r s w).2.1).act (H.step r s w).1 hgr)
        (by rw [afterAct_interval, applyOps_interval, hi]) h3 hg1 h5 hok
      refine ⟨i1, i2, fun _ => ?_⟩
      by_cases hb : rest = []
      · subst hb
        exact h4
      · exact (i3 hb).trans h4

private theorem loop_ends {H : Host W} {iv : Time} {T δ : Rat} (hδ : 0 < δ) {J : Sched → W → Prop} (hF : Fertile H iv δ J) (ms : Option Nat) :
    ∀ (M : Multiset Nat) (s : Sched) (w : W), wakeRanks T δ iv s.log = M → Inv s → s.interval = iv → J s w → GoodLog s.log → LaterActed iv s.log s.time → s.log ≠ [] →
      ∃ fuel, ∀ sw, runLoop (timedStepper H) (some (.fin T)) ms fuel (s, w) ≠ .running sw := by
  intro M
  have wf := Multiset.wellFounded_isDershowitzMannaLT (α := Nat)
  induction M using wf.induction with
  | _ M ih =>
    intro s w hM hs hi hJ hg hl hne
    cases hd : isDone (timedStepper H) (some (.fin T)) ms (s, w) with
    | true => exact ⟨0, fun sw => by simp [runLoop, hd]⟩
    | false =>
      cases hr : (s.step H w).2.2 with
      | true =>
        refine ⟨1, fun sw => ?_⟩
        have : ((timedStepper H).step (s, w)).2 = true := hr
        simp [runLoop, hd, this]
      | false =>
        have htime : s.time < .fin T := (isDone_time hd).1
        cases hq : s.queue with
        | nil =>
          rcases hs.empty hq with h | h
          · exact absurd h hne
          · rw [h] at htime
            simp at htime
        | cons c qs =>
          obtain ⟨t, b⟩ := c
          have hbne : b ≠ [] := hs.ne (t, b) (by rw [hq]; simp)
          have hperm := runOrder_perm H s b w
          obtain ⟨ht, hm⟩ := hs.pop hq hperm
          have heq := hs.step_eq H w hq
          have hok : (runBucket H s.time (runOrder H s b w).1 { s with queue := qs } (runOrder H s b w).2).2.2 = false := by
            rw [heq] at hr
            unfold finishStep at hr
            split at hr
            · rename_i hx; rw [hx] at hr; cases hr
            · rename_i hx; simpa using hx
          have hJ0 : J { s with queue := qs } (runOrder H s b w).2 := by
            refine hF.keeps.same s _ _ ?_ rfl rfl le_rfl
            unfold runOrder
            split
            · exact hF.keeps.shuffle _ _ _ hJ
            · exact hJ
          obtain ⟨g1, g2, g3⟩ := bucket_ranks (T := T) hδ hF htime hm hi hJ0 hg hl hok
          have hlog : (s.step H w).1.log = (runBucket H s.time (runOrder H s b w).1 { s with queue := qs } (runOrder H s b w).2).1.log := by
            rw [heq, finishStep_log]
          have hgl : GoodLog (s.step H w).1.log := by rw [hlog]; exact g1
          obtain ⟨k1, _, k3⟩ := hs.step H w hgl
          have hbo : (runOrder H s b w).1 ≠ [] := by
            intro e
            rw [e] at hperm
            exact hbne hperm.symm.eq_nil
          have hlt := g3 hbo
          rw [← hlog] at hlt g2
          have hlater : LaterActed iv (s.step H w).1.log (s.step H w).1.time := fun p hp h => g2 p hp (lt_of_le_of_lt k3 h)
          have hne' : (s.step H w).1.log ≠ [] := by
            obtain ⟨l2, h2⟩ := (Cmd.step (W := W)).exec_log H (s, w)
            intro e
            have : (s.step H w).1.log = s.log ++ l2 := h2
            rw [e] at this
            exact hne (List.append_eq_nil_iff.1 this.symm).1
          have hi' : (s.step H w).1.interval = iv := by
            have := execAll_interval H [.step] (s, w)
            exact (show (s.step H w).1.interval = s.interval from this).trans hi
          obtain ⟨fuel, hfuel⟩ := ih _ (hM ▸ hlt) _ (s.step H w).2.1 rfl k1 hi' (hF.keeps.step hs hi hJ hgl) hgl hlater hne'
          refine ⟨fuel + 1, fun sw => ?_⟩
          have e1 : (timedStepper H).step (s, w) = (((s.step H w).1, (s.step H w).2.1), (s.step H w).2.2) := rfl
          simp only [runLoop, hd, e1, hr]
          exact hfuel sw

/-- In every history: what is pending was asked for by being added at that time, or by an earlier activation. -/
private theorem pending_origin {iv : Time} (hiv : 0 < iv) {l : List Ev} (hleg : Legal iv l) (hg : GoodLog l) (p : Ref × Time) (hp : p ∈ cal iv l) :
    Ev.added p.1 p.2 ∈ l ∨ ActedBefore l p.1 p.2 := by
  induction l using List.reverseRecOn with
  | nil => cases hp
  | append_singleton m e ih =>
    have up : Ev.added p.1 p.2 ∈ m ∨ ActedBefore m p.1 p.2 → Ev.added p.1 p.2 ∈ m ++ [e] ∨ ActedBefore (m ++ [e]) p.1 p.2 := by
      rintro (h | ⟨x, hx, hlt⟩)
      · exact .inl (List.mem_append_left _ h)
      · exact .inr ⟨x, by rw [actsOf_append]; exact List.mem_append_left _ hx, hlt⟩
    rw [cal_append_one] at hp
    cases e with
    | added r t =>
      simp only [calStep, List.mem_append, List.mem_singleton] at hp
      rcases hp with hp | rfl
      · exact up (ih hleg.prefix hg.prefix hp)
      · exact .inl (by simp)
    | act r t rep =>
      simp only [calStep, List.mem_append] at hp
      rcases hp with hp | hp
      · exact up (ih hleg.prefix hg.prefix (List.mem_of_mem_erase hp))
      · cases hn : nextWake iv t rep with
        | none => rw [hn] at hp; cases hp
        | some u =>
          rw [hn] at hp
          simp only [Option.map_some, Option.toList_some, List.mem_singleton] at hp
          subst hp
          refine .inr ⟨(t, rep), by rw [actsOf_append, actsOf_one]; simp, ?_⟩
          cases rep with
          | ret d =>
            have hpos := effDelay_pos hiv (hg.reply (r := r) (t := t) (rep := .ret d) (by simp))
            simp only [nextWake] at hn
            split at hn
            · cases hn
            · rename_i hfin
              cases hn
              show t < t + effDelay iv d
              revert hpos hfin
              cases t <;> cases effDelay iv d <;> simp [Time.zero_def]
          | dead => cases hn
          | error => cases hn

/-- C257: a simulation with a `max_time`, whatever happened before it, ends (it returns or raises) if the agents always wait at least `δ > 0`, and agents are
only added that were never activated, by agents that were activated at an earlier time. The number of agents that are added need not be bounded. -/
theorem C257_terminates (H : Host W) (iv : Time) (hiv : 0 < iv) (sh : Bool) (w0 : W) (h : List (Cmd W)) (hg : GoodLog (reach H iv sh w0 h).1.log)
    (hne : (reach H iv sh w0 h).1.log ≠ []) (T δ : Rat) (hδ : 0 < δ) (ms : Option Nat) (J : Sched → W → Prop) (hF : Fertile H iv δ J)
    (hJ : J (reach H iv sh w0 h).1 (reach H iv sh w0 h).2) :
    ∃ fuel, ∀ sw, runModel (timedStepper H) (some (.fin T)) ms fuel (reach H iv sh w0 h) ≠ .running sw := by
  have hs := reach_inv hiv hg
  have hi := reach_interval H iv sh w0 h
  have hl : LaterActed iv (reach H iv sh w0 h).1.log (reach H iv sh w0 h).1.time := by
    intro p hp hlt
    have hleg := hs.legal
    rw [hi] at hleg
    rcases pending_origin hiv hleg hg p hp with h1 | h1
    · exact absurd (hs.past _ h1) (not_le.2 hlt)
    · exact h1
  obtain ⟨fuel, hf⟩ := loop_ends (T := T) hδ hF ms _ _ _ rfl hs hi hJ hg hl hne
  refine ⟨fuel, fun sw => ?_⟩
  unfold runModel
  split
  · simp
  · exact hf sw

/-- Agents that have a child whenever they are activated, even for the first time. -/
def rushedHost : Host Nat where
  step _ _ w := (.ret none, [.add w none], w + 1)
  shuffle l w := (l, w)
  shuffle_perm l _ := List.Perm.refl l

/-- C257: the condition on the newborn is needed. If agents have a child when they are activated for the first time, the clock never advances, and no
simulation with a positive `max_time` ends. -/
theorem C257_rushed (sh : Bool) (T : Rat) (hT : 0 < T) (fuel : Nat) :
    ∃ sw, runModel (timedStepper rushedHost) (some (.fin T)) none fuel (reach rushedHost 1 sh 1 [.op (.add 0 none)]) = .running sw ∧ sw.1.time = 0 ∧ sw.1.steps = fuel ∧
      sw.1.agents.length = fuel + 1 := by
  have key : ∀ (fuel n : Nat) (s : Sched), s.time = 0 → s.running = true → s.interval = 1 → s.steps = n → s.agents = List.range (n + 1) →
      s.queue = (0, [n]) :: (if n = 0 then [] else [(1, List.range n)]) →
      ∃ sw, runLoop (timedStepper rushedHost) (some (.fin T)) none fuel (s, n + 1) = .running sw ∧ sw.1.time = 0 ∧ sw.1.steps = n + fuel ∧ sw.1.agents.length = n + fuel + 1 := by
    intro fuel
    induction fuel with
    | zero =>
      intro n s h1 h2 h3 h4 h5 h6
      have hd : isDone (timedStepper rushedHost) (some (.fin T)) none (s, n + 1) = false := by
        have e1 : (timedStepper rushedHost).running (s, n + 1) = true := h2
        have e2 : (timedStepper rushedHost).time (s, n + 1) = 0 := h1
        simp only [isDone, e1, e2, Time.zero_def, Time.fin_le]
        simpa using hT
      exact ⟨(s, n + 1), by simp [runLoop, hd], h1, by simpa using h4, by simp [h5]⟩
    | succ fuel ih =>
      intro n s h1 h2 h3 h4 h5 h6
      have hd : isDone (timedStepper rushedHost) (some (.fin T)) none (s, n + 1) = false := by
        have e1 : (timedStepper rushedHost).running (s, n + 1) = true := h2
        have e2 : (timedStepper rushedHost).time (s, n + 1) = 0 := h1
        simp only [isDone, e1, e2, Time.zero_def, Time.fin_le]
        simpa using hT
      have hr : (s.step rushedHost (n + 1)).2.2 = false ∧ (s.step rushedHost (n + 1)).2.1 = n + 2 ∧ (s.step rushedHost (n + 1)).1.time = 0 ∧
          (s.step rushedHost (n + 1)).1.running = true ∧ (s.step rushedHost (n + 1)).1.interval = 1 ∧ (s.step rushedHost (n + 1)).1.steps = n + 1 ∧
          (s.step rushedHost (n + 1)).1.agents = List.range (n + 2) ∧
          (s.step rushedHost (n + 1)).1.queue = (0, [n + 1]) :: [(1, List.range (n + 1))] := by
        have ho : runOrder rushedHost s [n] (n + 1) = ([n], n + 1) := by unfold runOrder; split <;> rfl
        have h01 : ¬ ((0 : Time) = 1) := by decide +kernel
        have h1' : ¬ ((1 : Time) = 0) := by decide +kernel
        have h10 : ¬ ((1 : Time) < 0) := by decide +kernel
        have h02 : (0 : Time) < 1 := by decide +kernel
        have h11 : ¬ ((1 : Time) = .inf) := by decide +kernel
        have he1 : (1 : Time) + 0 = 1 := by decide +kernel
        have hag : n + 1 ∉ List.range (n + 1) := by simp
        obtain ⟨time, steps, queue, agents, interval, shuffle, running, log⟩ := s
        simp only at h1 h2 h3 h4 h5 h6
        subst h1 h2 h3 h4 h5 h6
        have hb : ∀ q, runBucket rushedHost 0 [steps] ⟨0, steps, q, List.range (steps + 1), 1, shuffle, true, log⟩ (steps + 1) =
            (⟨0, steps, insertBucket 1 steps (insertBucket 0 (steps + 1) q), List.range (steps + 1) ++ [steps + 1], 1, shuffle, true,
              log ++ [.added (steps + 1) 0] ++ [.act steps 0 (.ret none)]⟩, steps + 2, false) := by
          intro q
          simp only [runBucket, rushedHost, Sched.applyOps, List.foldl, Sched.applyOp, Sched.addAgent, Sched.schedule, Sched.logAct, Time.pyOr,
            he1, if_neg h11, if_neg h1']
          congr 2
          exact if_neg hag
        have hq : insertBucket 1 steps (insertBucket 0 (steps + 1) (if steps = 0 then [] else [(1, List.range steps)])) =
            (0, [steps + 1]) :: [(1, List.range (steps + 1))] := by
          by_cases hn : steps = 0
          · subst hn
            simp only [if_true, insertBucket, if_neg h01, if_neg h10]
            rfl
          · simp only [if_neg hn, insertBucket, if_neg h1', if_pos h02, if_neg h01, if_neg h10, if_true]
            rw [List.range_succ]
        have hstep : (Sched.mk 0 steps ((0, [steps]) :: if steps = 0 then [] else [(1, List.range steps)]) (List.range (steps + 1)) 1 shuffle true log).step
            rushedHost (steps + 1) = (⟨0, steps + 1, (0, [steps + 1]) :: [(1, List.range (steps + 1))], List.range (steps + 1) ++ [steps + 1], 1, shuffle, true,
              log ++ [.added (steps + 1) 0] ++ [.act steps 0 (.ret none)]⟩, steps + 2, false) := by
          unfold Sched.step
          simp only [if_neg (lt_irrefl (0 : Time)), ho, hb, hq]
          rfl
        rw [hstep]
        exact ⟨rfl, rfl, rfl, rfl, rfl, rfl, (List.range_succ (n := steps + 1)).symm, rfl⟩
      obtain ⟨r1, r2, r3, r4, r5, r6, r7, r8⟩ := hr
      have e1 : (timedStepper rushedHost).step (s, n + 1) = (((s.step rushedHost (n + 1)).1, n + 2), false) := by
        show (((s.step rushedHost (n + 1)).1, (s.step rushedHost (n + 1)).2.1), (s.step rushedHost (n + 1)).2.2) = _
        rw [r1, r2]
      obtain ⟨sw, q1, q2, q3, q4⟩ := ih (n + 1) _ r3 r4 r5 r6 r7 (by rw [r8]; simp)
      refine ⟨sw, ?_, q2, by omega, by omega⟩
      simp only [runLoop, hd, e1]
      exact q1
  obtain ⟨sw, q1, q2, q3, q4⟩ := key fuel 0 (reach rushedHost 1 sh 1 [.op (.add 0 none)]).1 rfl rfl rfl rfl rfl rfl
  exact ⟨sw, by unfold runModel; exact q1, q2, by omega, by omega⟩

/-- C257 for the improved rabbits: another way to see that their simulations end. -/
theorem C257_rabbits (C : RabCode) (hM : 0 < C.maturity) : Fertile (colonyHost C) 1 (min 1 C.maturity) (LifeInv C) where
  keeps := LifeInv.keeps C hM
  wait r s w d _ hd := by
    have h1 : (1 : Time) = .fin 1 := rfl
    rcases colonyStep_replies C r s w with h | h | h | h | h
    · rw [show ((colonyHost C).step r s w).1 = _ from h] at hd; cases hd
    · rw [show ((colonyHost C).step r s w).1 = _ from h] at hd; cases hd
    · rw [show ((colonyHost C).step r s w).1 = _ from h] at hd; cases hd
      simp only [effDelay, h1, Time.fin_le]
      exact min_le_left _ _
    · rw [show ((colonyHost C).step r s w).1 = _ from h] at hd; cases hd
      exact Time.le_inf _
    · rw [show ((colonyHost C).step r s w).1 = _ from h] at hd; cases hd
      simp only [effDelay]
      split
      · rw [h1, Time.fin_le]; exact min_le_left _ _
      · rw [Time.fin_le]; exact min_le_right _ _
  births r s w hl hmem q wh hq := by
    rcases colonyStep_ops C r s w with ⟨rs, e⟩ | ⟨bn, w', hb, ha, hst, e⟩
    · rw [show ((colonyHost C).step r s w).2.1 = _ from e] at hq
      simp at hq
    · rw [show ((colonyHost C).step r s w).2.1 = _ from e, added_eq, List.mem_map] at hq
      obtain ⟨q', hq', he⟩ := hq
      cases he
      refine ⟨hl.noacts q (mem_freshRefs.1 hq').1, ?_⟩
      have hp : s.time ∈ pendingOf (cal 1 s.log) r := mem_pendingOf.2 hmem
      obtain ⟨t0, m, _, hma, hph⟩ := hl.life r bn hb
      rw [hst, ha] at hph
      generalize hpe : pendingOf (cal 1 s.log) r = pe at hph hp
      generalize hbd : bn.birth = bd at hph
      cases hph with
      | grown j _ hs hage =>
        have hk := List.mem_singleton.1 hp
        have hmem2 : Time.fin (t0 + rabAge C.maturity (j + 1)) ∈ (actsOf r s.log).map (·.1) := by
          rw [hma]
          exact List.mem_map.2 ⟨j + 1, List.mem_range.2 (by omega), rfl⟩
        obtain ⟨e', he', hee⟩ := List.mem_map.1 hmem2
        refine ⟨e', he', ?_⟩
        rw [hee, hk, Time.fin_lt, rabAge_succ]
        linarith

/-- So C257 applies to them, whatever the random numbers are, with nine litters or with none. -/
example (sh : Bool) (draw : Nat → Rat) (sex : Nat → Bool) (T : Rat) :
    ∃ fuel, ∀ sw, runModel (timedStepper (colonyHost (smallCode true 3 6 2 0))) (some (.fin T)) none fuel (colonyRun (smallCode true 3 6 2 0) sh draw sex 0) ≠ .running sw :=
  C257_terminates (colonyHost (smallCode true 3 6 2 0)) 1 (by decide +kernel) sh (Colony.init draw sex) [.op (.add 0 none), .op (.add 1 none), .op (.add 2 none)]
    (by intro e he; simp [reach, execAll, Cmd.exec, Sched.applyOp, Sched.addAgent, Sched.schedule, Sched.init] at he; rcases he with rfl | rfl | rfl <;> trivial)
    (by simp [reach, execAll, Cmd.exec, Sched.applyOp, Sched.addAgent, Sched.schedule, Sched.init])
    T _ (lt_min (by norm_num) (by decide +kernel)) none _ (C257_rabbits _ (by decide +kernel)) (LifeInv.start _ sh draw sex)

set_option maxRecDepth 100000 in
/-- Ten activations without any progress of the clock. -/
example : (reach rushedHost 1 true 1 (.op (.add 0 none) :: List.replicate 10 .step)).1.time = 0 ∧
    (reach rushedHost 1 true 1 (.op (.add 0 none) :: List.replicate 10 .step)).1.agents.length = 11 := by
  decide +kernel

end Verif
