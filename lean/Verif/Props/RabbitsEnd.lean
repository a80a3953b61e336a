import Verif.Props.ExRabbits4
import Verif.Props.CarsRun

/-!
# Simulations of the improved rabbits end (C256)

Births happen at the time at which the mother is activated, so that there may be several steps at the same time. There are never more than two: the
newborn are activated in a step of their own, in which nobody is born.
-/

namespace Verif
open Spec

variable {C : RabCode}

/-- What an activation answers. -/
theorem colonyStep_replies (C : RabCode) (r : Ref) (s : Sched) (w : Colony) :
    (colonyStep C r s w).1 = .error ∨ (colonyStep C r s w).1 = .dead ∨ (colonyStep C r s w).1 = .ret none ∨
      (colonyStep C r s w).1 = .ret (some .inf) ∨ (colonyStep C r s w).1 = .ret (some (.fin C.maturity)) := by
  unfold colonyStep
  split
  · split
    · unfold Colony.act
      split
      · rw [sub_self, sub_zero]
        simp
      · simp
      · split
        · simp
        · split
          · simp
          · split <;> simp
      · split
        · simp
        · split
          · simp
          · split
            · simp only
              split <;> simp
            · simp
      · simp
      · simp
    · simp
  · unfold Colony.accidentStep
    split
    · simp
    · simp only
      split <;> simp
  · simp

/-- What an activation does to the schedule: it removes agents, or a pregnant rabbit adds her young. -/
theorem colonyStep_ops (C : RabCode) (r : Ref) (s : Sched) (w : Colony) :
    (∃ rs : List Ref, (colonyStep C r s w).2.1 = rs.map SOp.remove) ∨
    ∃ b w', w.bun? r = some b ∧ b.alive = true ∧ b.state = .pregnant ∧ (colonyStep C r s w).2.1 = Colony.added w w' := by
  unfold colonyStep
  split
  · rename_i now b ht hp
    split
    · rename_i ha
      have hb : w.bun? r = some b := by simp [Colony.bun?, hp]
      unfold Colony.act
      split
      · exact .inl ⟨[], rfl⟩
      · exact .inl ⟨[], rfl⟩
      · split
        · exact .inl ⟨[], rfl⟩
        · split
          · exact .inl ⟨[], rfl⟩
          · split <;> exact .inl ⟨[], rfl⟩
      · rename_i t hst hbt
        split
        · exact .inl ⟨[r], rfl⟩
        · split
          · exact .inl ⟨[], rfl⟩
          · split
            · simp only
              split
              · exact .inr ⟨b, _, hb, ha, hst, rfl⟩
              · exact .inr ⟨b, _, hb, ha, hst, rfl⟩
            · exact .inl ⟨[], rfl⟩
      · exact .inl ⟨[r], rfl⟩
      · exact .inl ⟨[], rfl⟩
    · exact .inl ⟨[], rfl⟩
  · unfold Colony.accidentStep
    split
    · exact .inl ⟨[r], rfl⟩
    · exact .inl ⟨_, rfl⟩
  · exact .inl ⟨[], rfl⟩

private theorem removes_queue (s : Sched) (rs : List Ref) : (s.applyOps (rs.map SOp.remove)).queue = s.queue := by
  induction rs generalizing s with
  | nil => rfl
  | cons r rs ih => rw [List.map_cons, applyOps_cons, ih]; rfl

private theorem adds_queue {now : Time} {rest l : List Ref} {s : Sched} (hm : MidInv now rest l s) (rs : List Ref) {q : Ref} {u : Time}
    (h : q ∈ bucketAt (s.applyOps (rs.map (fun r => SOp.add r none))).queue u) : q ∈ bucketAt s.queue u ∨ (u = now ∧ q ∈ rs) := by
  induction rs generalizing s with
  | nil => exact .inl h
  | cons r rs ih =>
    rw [List.map_cons, applyOps_cons] at h
    rcases ih (hm.op (.add r none)) h with h | ⟨h1, h2⟩
    · have e : (s.applyOp (.add r none)).queue = insertBucket now r s.queue := by
        simp [Sched.applyOp, Sched.addAgent, Sched.schedule, Time.pyOr, hm.time_eq]
      rw [e, bucketAt_insert hm.sorted, List.mem_append] at h
      rcases h with h | h
      · exact .inl h
      · split at h
        · rename_i hu
          exact .inr ⟨hu, by rw [List.mem_singleton.1 h]; exact List.mem_cons_self⟩
        · cases h
    · exact .inr ⟨h1, List.mem_cons_of_mem _ h2⟩

/-- All times are multiples of this: `1 / C.maturity.den`. -/
def RabGrid (C : RabCode) (j : Nat) : Time := .fin ((j : Rat) / C.maturity.den)

private theorem den_pos (C : RabCode) : (0 : Rat) < C.maturity.den := by
  exact_mod_cast C.maturity.den_pos

private theorem grid_lt {i j : Nat} : RabGrid C i < RabGrid C j ↔ i < j := by
  unfold RabGrid
  rw [Time.fin_lt, div_lt_div_iff_of_pos_right (den_pos C)]
  exact_mod_cast Iff.rfl

private theorem grid_inj {i j : Nat} (h : RabGrid C i = RabGrid C j) : i = j := by
  rcases lt_trichotomy i j with h1 | h1 | h1
  · exact absurd h (ne_of_lt (grid_lt.2 h1))
  · exact h1
  · exact absurd h.symm (ne_of_lt (grid_lt.2 h1))

private theorem grid_one (C : RabCode) (j : Nat) : (1 : Time) + RabGrid C j = RabGrid C (j + C.maturity.den) := by
  have := den_pos C
  unfold RabGrid
  show Time.fin (1 + (j : Rat) / C.maturity.den) = _
  congr 1
  push_cast
  field_simp
  ring

private theorem grid_mat (hM : 0 < C.maturity) (j : Nat) :
    (Time.fin C.maturity) + RabGrid C j = RabGrid C (j + C.maturity.num.toNat) := by
  have hd := den_pos C
  unfold RabGrid
  show Time.fin (C.maturity + (j : Rat) / C.maturity.den) = _
  congr 1
  have hn : ((C.maturity.num.toNat : Nat) : Rat) = (C.maturity.num : Rat) := by
    have : ((C.maturity.num.toNat : Nat) : Int) = C.maturity.num := Int.toNat_of_nonneg (Rat.num_pos.2 hM).le
    exact_mod_cast this
  push_cast
  rw [hn, add_div, Rat.num_div_den, add_comm]

/-- While the agents that are due at `now`, the `k`-th time, are activated: everything in the queue is at one of the times; what is in it for `now` is for agents that
were not activated before, and has been put there by agents that were. -/
structure MidLevel (C : RabCode) (n k : Nat) (b : List Ref) (s : Sched) : Prop where
  queue : ∀ q u, q ∈ bucketAt s.queue u → (∃ j, u = RabGrid C j) ∧
    (u = RabGrid C k → n ≤ 2 * k ∧ ∀ e ∈ actsOf q s.log, RabGrid C k ≤ e.1)
  bucket : ∀ r ∈ b, n ≤ 2 * k ∨ ∀ e ∈ actsOf r s.log, RabGrid C k ≤ e.1

private theorem MidLevel.next (hM : 0 < C.maturity) {n k : Nat} {r : Ref} {b l : List Ref} {s : Sched} {w : Colony}
    (h : MidLevel C n k (r :: b) s) (hm : MidInv (RabGrid C k) (r :: b) l s) (hi : s.interval = 1) (hl : LifeInv C s w) (he : (colonyStep C r s w).1 ≠ .error) :
    MidLevel C n k b (afterAct (s.applyOps (colonyStep C r s w).2.1) r (RabGrid C k) (colonyStep C r s w).1) := by
  have hrl : r ∈ l := hm.perm.mem_iff.2 (by simp)
  have hmem : RabGrid C k ∈ pendingOf (cal 1 s.log) r := by
    rw [mem_pendingOf, ← hi, ← mem_dueAt, hm.due]; simp [hrl]
  have hlogs : ∃ evs : List Ev, (s.applyOps (colonyStep C r s w).2.1).log = s.log ++ evs ∧ ∀ q, actsOf q evs = [] := by
    rcases colonyStep_ops C r s w with ⟨rs, e⟩ | ⟨_, w', _, _, _, e⟩
    · rw [e, applyOps_removes_log]; exact ⟨[], by simp, fun _ => rfl⟩
    · rw [e, added_eq, applyOps_adds_log]; exact ⟨_, rfl, fun q => actsOf_adds q _ _⟩
  obtain ⟨evs, hlog, hev⟩ := hlogs
  have hacts : ∀ q, actsOf q (afterAct (s.applyOps (colonyStep C r s w).2.1) r (RabGrid C k) (colonyStep C r s w).1).log =
      actsOf q s.log ++ actsOf q [.act r (RabGrid C k) (colonyStep C r s w).1] := by
    intro q
    rw [afterAct_log, hlog, actsOf_append, actsOf_append, hev, List.append_nil]
  -- an activation now changes nothing about who was activated before
  have keep : ∀ q, (∀ e ∈ actsOf q s.log, RabGrid C k ≤ e.1) →
      ∀ e ∈ actsOf q (afterAct (s.applyOps (colonyStep C r s w).2.1) r (RabGrid C k) (colonyStep C r s w).1).log, RabGrid C k ≤ e.1 := by
    intro q hq e hm'
    rw [hacts, List.mem_append] at hm'
    rcases hm' with hm' | hm'
    · exact hq e hm'
    · rw [actsOf_one] at hm'
      split at hm'
      · rw [List.mem_singleton.1 hm']
      · cases hm'
  have hiv : (s.applyOps (colonyStep C r s w).2.1).interval = 1 := by rw [applyOps_interval, hi]
  have hm2 := hm.ops (colonyStep C r s w).2.1
  -- the queue after the calls of the agent
  have hq1 : ∀ q u, q ∈ bucketAt (s.applyOps (colonyStep C r s w).2.1).queue u → (∃ j, u = RabGrid C j) ∧
      (u = RabGrid C k → n ≤ 2 * k ∧ ∀ e ∈ actsOf q s.log, RabGrid C k ≤ e.1) := by
    intro q u hq
    rcases colonyStep_ops C r s w with ⟨rs, e⟩ | ⟨bn, w', hb, ha, hst, e⟩
    · rw [e, removes_queue] at hq
      exact h.queue q u hq
    · rw [e, added_eq] at hq
      rcases adds_queue hm _ hq with hq | ⟨hu, hq⟩
      · exact h.queue q u hq
      · refine ⟨⟨k, hu⟩, fun _ => ⟨?_, ?_⟩⟩
        · -- the mother has been activated before
          rcases h.bucket r (by simp) with h1 | h1
          · exact h1
          · exfalso
            obtain ⟨t0, m, _, hma, hph⟩ := hl.life r bn hb
            rw [hst, ha] at hph
            generalize hpe : pendingOf (cal 1 s.log) r = pe at hph hmem
            generalize hbd : bn.birth = bd at hph
            cases hph with
            | grown j _ hs hage =>
              have hk := List.mem_singleton.1 hmem
              have hmem2 : Time.fin (t0 + rabAge C.maturity (j + 1)) ∈ (actsOf r s.log).map (·.1) := by
                rw [hma]
                exact List.mem_map.2 ⟨j + 1, List.mem_range.2 (by omega), rfl⟩
              obtain ⟨e', he', hee⟩ := List.mem_map.1 hmem2
              have h2 := h1 e' he'
              rw [hee, hk, Time.fin_le, rabAge_succ] at h2
              linarith
        · intro e' he'
          rw [hl.noacts q (mem_freshRefs.1 hq).1] at he'
          cases he'
  -- when the agent comes again
  have hwhen : ∀ d, (colonyStep C r s w).1 = .ret d → Time.pyOr d 1 + RabGrid C k = .inf ∨
      ∃ j, k < j ∧ Time.pyOr d 1 + RabGrid C k = RabGrid C j := by
    intro d hd
    rcases colonyStep_replies C r s w with h1 | h1 | h1 | h1 | h1
    · exact absurd h1 he
    · rw [h1] at hd; cases hd
    · rw [h1] at hd; cases hd
      exact .inr ⟨_, Nat.lt_add_of_pos_right C.maturity.den_pos, grid_one C k⟩
    · rw [h1] at hd; cases hd
      exact .inl rfl
    · rw [h1] at hd; cases hd
      have hne : Time.fin C.maturity ≠ 0 := by
        rw [Time.zero_def]; intro e; exact absurd (Time.fin.inj e) (ne_of_gt hM)
      refine .inr ⟨k + C.maturity.num.toNat, ?_, ?_⟩
      · have := Rat.num_pos.2 hM
        omega
      · rw [← grid_mat hM k, pyOr_eq_eff]
        simp only [effDelay, if_neg hne]
  refine ⟨?_, fun q hq => (h.bucket q (List.mem_cons_of_mem _ hq)).imp id (keep q)⟩
  intro q u hq
  have hq2 : q ∈ bucketAt (s.applyOps (colonyStep C r s w).2.1).queue u ∨ ∃ j, k < j ∧ u = RabGrid C j := by
    cases hrep : (colonyStep C r s w).1 with
    | error => exact absurd hrep he
    | dead => rw [hrep] at hq; exact .inl hq
    | ret d =>
      rw [hrep] at hq
      simp only [afterAct, Sched.logAct, hiv] at hq
      rcases hwhen d hrep with h1 | ⟨j, hj, h1⟩
      · rw [if_pos h1] at hq; exact .inl hq
      · have hfin : RabGrid C j ≠ .inf := by unfold RabGrid; simp
        have hz : RabGrid C j ≠ 0 := by
          have : RabGrid C 0 = 0 := by simp [RabGrid, Time.zero_def]
          rw [← this]
          intro e
          have := grid_inj e
          omega
        rw [h1, if_neg hfin] at hq
        simp only [Sched.schedule, Time.pyOr, if_neg hz] at hq
        rw [bucketAt_insert hm2.sorted, List.mem_append] at hq
        rcases hq with hq | hq
        · exact .inl hq
        · split at hq
          · rename_i hu; exact .inr ⟨j, hj, hu⟩
          · cases hq
  rcases hq2 with hq2 | ⟨j, hj, hu⟩
  · obtain ⟨h1, h2⟩ := hq1 q u hq2
    exact ⟨h1, fun hu => ⟨(h2 hu).1, keep q (h2 hu).2⟩⟩
  · refine ⟨⟨j, hu⟩, fun hu' => ?_⟩
    rw [hu] at hu'
    have := grid_inj hu'
    omega

private theorem MidLevel.run (hM : 0 < C.maturity) {n k : Nat} {b l : List Ref} {s : Sched} {w : Colony}
    (h : MidLevel C n k b s) (hm : MidInv (RabGrid C k) b l s) (hi : s.interval = 1) (hl : LifeInv C s w)
    (hg : GoodLog (runBucket (colonyHost C) (RabGrid C k) b s w).1.log) :
    MidLevel C n k [] (runBucket (colonyHost C) (RabGrid C k) b s w).1 := by
  induction b generalizing s w l with
  | nil => exact h
  | cons r rest ih =>
    rw [runBucket_cons] at hg ⊢
    simp only at hg ⊢
    have hrep : Ev.act r (RabGrid C k) ((colonyHost C).step r s w).1 ∈
        (afterAct (s.applyOps ((colonyHost C).step r s w).2.1) r (RabGrid C k) ((colonyHost C).step r s w).1).log := by
      rw [afterAct_log]; simp
    split
    · rename_i he
      rw [if_pos he] at hg
      exact absurd he (hg.not_error hrep)
    · rename_i he
      rw [if_neg he] at hg
      obtain ⟨l2, h2, _⟩ := runBucket_log (colonyHost C) (RabGrid C k) rest
        (afterAct (s.applyOps ((colonyHost C).step r s w).2.1) r (RabGrid C k) ((colonyHost C).step r s w).1) ((colonyHost C).step r s w).2.2
      have hg' := hg
      rw [h2] at hg'
      have hgr := hg'.prefix.reply hrep
      have hnow : s.time = RabGrid C k := hm.time_eq
      have hrl : r ∈ l := hm.perm.mem_iff.2 (by simp)
      have hmem : (r, s.time) ∈ cal 1 s.log := by
        rw [← hi, ← mem_dueAt, hnow, hm.due]; simp [hrl]
      have h1 := (LifeInv.keeps C hM).act r s w hi hl hmem (by rw [← hi, hnow]; exact hm.mem_le) (by rw [hnow]; exact hm.past) hgr
      have h3 : LifeInv C (afterAct (s.applyOps ((colonyHost C).step r s w).2.1) r (RabGrid C k) ((colonyHost C).step r s w).1)
          ((colonyHost C).step r s w).2.2 := by
        have hlog : (afterAct (s.applyOps ((colonyHost C).step r s w).2.1) r (RabGrid C k) ((colonyHost C).step r s w).1).log =
            ((s.applyOps ((colonyHost C).step r s w).2.1).logAct r s.time ((colonyHost C).step r s w).1).log := by
          rw [afterAct_log, hnow]; rfl
        exact ⟨by rw [hlog]; exact h1.fin, by rw [hlog]; exact h1.noacts, by rw [hlog]; exact h1.life⟩
      exact ih (h.next hM hm hi hl he) ((hm.ops ((colonyHost C).step r s w).2.1).act ((colonyHost C).step r s w).1 hgr)
        (by rw [afterAct_interval, applyOps_interval, hi]) h3 hg

/-- After `n` steps: everything in the queue is at the `j`-th time with `n ≤ 2 * j + 1`, and `n = 2 * j + 1` only for agents that were never activated before. -/
def Level (C : RabCode) (n : Nat) (s : Sched) : Prop :=
  ∀ q u, q ∈ bucketAt s.queue u → ∃ j, u = RabGrid C j ∧ (n ≤ 2 * j ∨ n ≤ 2 * j + 1 ∧ ∀ e ∈ actsOf q s.log, RabGrid C j ≤ e.1)

private theorem Level.step (hM : 0 < C.maturity) {n : Nat} {s : Sched} {w : Colony} (h : Level C n s) (hs : Inv s) (hi : s.interval = 1) (hl : LifeInv C s w)
    (hg : GoodLog (s.step (colonyHost C) w).1.log) : Level C (n + 1) (s.step (colonyHost C) w).1 := by
  cases hq : s.queue with
  | nil =>
    have : s.step (colonyHost C) w = (s, w, false) := by simp [Sched.step, hq]
    rw [this]
    intro q u hu
    rw [hq] at hu
    cases hu
  | cons c qs =>
    obtain ⟨t, b⟩ := c
    have hperm := runOrder_perm (colonyHost C) s b w
    obtain ⟨ht, hm⟩ := hs.pop hq hperm
    have hbne : b ≠ [] := hs.ne (t, b) (by rw [hq]; simp)
    obtain ⟨r0, hr0⟩ := List.exists_mem_of_ne_nil b hbne
    have hb : ∀ r ∈ b, r ∈ bucketAt s.queue s.time := by
      intro r hr; rw [hq, ← ht]; simpa [bucketAt] using hr
    obtain ⟨k, hk, hk2⟩ := h r0 s.time (hb r0 hr0)
    have hkn : n ≤ 2 * k + 1 := by rcases hk2 with h | h <;> omega
    rw [hs.step_eq (colonyHost C) w hq] at hg ⊢
    rw [finishStep_log] at hg
    obtain ⟨s0, hs0⟩ : ∃ s0 : Sched, s0 = { s with queue := qs } := ⟨_, rfl⟩
    have hq0 : s0.queue = qs := by rw [hs0]
    have hi0 : s0.interval = 1 := by rw [hs0]; exact hi
    have hlog0 : s0.log = s.log := by rw [hs0]
    rw [← hs0] at hm hg ⊢
    rw [hk] at hm hg ⊢
    have hl0 : LifeInv C s0 (runOrder (colonyHost C) s b w).2 := by
      unfold runOrder
      split <;> exact ⟨by rw [hlog0]; exact hl.fin, by rw [hlog0]; exact hl.noacts, by rw [hlog0]; exact hl.life⟩
    have h0 : MidLevel C n k (runOrder (colonyHost C) s b w).1 s0 := by
      constructor
      · intro q u hu
        rw [hq0] at hu
        have hsort := hs.sorted
        rw [hq] at hsort
        have hlt := (List.pairwise_cons.1 hsort).1
        have hne : u ≠ RabGrid C k := by
          intro e
          have : bucketAt qs u = [] := bucketAt_of_lt (by
            intro b' hb'
            rw [e, ← hk, ← ht]
            exact hlt b' hb')
          rw [this] at hu
          cases hu
        have : q ∈ bucketAt s.queue u := by
          rw [hq, bucketAt, if_neg (by rw [ht, hk]; exact hne.symm)]
          exact hu
        obtain ⟨j, hj, _⟩ := h q u this
        exact ⟨⟨j, hj⟩, fun e => absurd e hne⟩
      · intro r hr
        obtain ⟨j, hj, hj2⟩ := h r s.time (hb r (hperm.mem_iff.1 hr))
        have : j = k := grid_inj (hj.symm.trans hk)
        subst this
        rcases hj2 with hj2 | hj2
        · exact .inl hj2
        · rw [hlog0]; exact .inr hj2.2
    have h1 := h0.run hM hm hi0 hl0 hg
    obtain ⟨hm2, h2⟩ := hm.runBucket hg
    unfold finishStep
    rw [if_neg (by rw [h2]; simp)]
    intro q u hu
    obtain ⟨⟨j, hj⟩, h4⟩ := h1.queue q u hu
    refine ⟨j, hj, ?_⟩
    have hge : RabGrid C k ≤ u := by
      have : (q, u) ∈ cal (runBucket (colonyHost C) (RabGrid C k) (runOrder (colonyHost C) s b w).1 s0 (runOrder (colonyHost C) s b w).2).1.interval
          (runBucket (colonyHost C) (RabGrid C k) (runOrder (colonyHost C) s b w).1 s0 (runOrder (colonyHost C) s b w).2).1.log := by
        rw [← mem_dueAt, hm2.due]
        exact List.mem_append_right _ hu
      exact hm2.mem_le _ this
    by_cases he : j = k
    · subst he
      exact .inr ⟨by have := (h4 hj).1; omega, (h4 hj).2⟩
    · left
      rw [hj] at hge
      have : ¬ RabGrid C j < RabGrid C k := not_lt.2 hge
      rw [grid_lt] at this
      omega

private theorem level_run (hM : 0 < C.maturity) (sh : Bool) (draw : Nat → Rat) (sex : Nat → Bool) (n : Nat)
    (hg : GoodLog (colonyRun C sh draw sex n).1.log) : Level C n (colonyRun C sh draw sex n).1 := by
  induction n with
  | zero =>
    intro q u hu
    have : (colonyRun C sh draw sex 0).1.queue = [(0, [0, 1, 2])] := rfl
    rw [this] at hu
    simp only [bucketAt] at hu
    split at hu
    · rename_i e
      exact ⟨0, by rw [← e]; simp [RabGrid, Time.zero_def], .inl (by omega)⟩
    · cases hu
  | succ n ih =>
    have e : colonyRun C sh draw sex (n + 1) = Cmd.exec (colonyHost C) .step (colonyRun C sh draw sex n) := by
      rw [colonyRun_eq, colonyRun_eq, execAll_replicate_succ]
    obtain ⟨l, hl⟩ := (Cmd.step (W := Colony)).exec_log (colonyHost C) (colonyRun C sh draw sex n)
    rw [e] at hg ⊢
    have hg1 : GoodLog (colonyRun C sh draw sex n).1.log := by
      rw [hl] at hg; exact hg.prefix
    have hne : NoEscape (colonyRun C sh draw sex n).1.log := fun r t hm => (hg1 _ hm : GoodReply .error)
    have hi : (colonyRun C sh draw sex n).1.interval = 1 := by
      rw [colonyRun_eq]
      exact execAll_interval _ _ _
    exact (ih hg1).step hM (colonyRun_inv hM hne) hi (colonyRun_life hM hne) hg

/-- C256: as long as no exception escapes, the clock advances by at least one unit (`1 / d`, where `d` is the denominator of `sexual_maturity`, so 1 for whole numbers)
in two steps, whatever number of rabbits is born. -/
theorem C256_clock (C : RabCode) (hM : 0 < C.maturity) (sh : Bool) (draw : Nat → Rat) (sex : Nat → Bool) (n : Nat)
    (hne : NoEscape (colonyRun C sh draw sex n).1.log) :
    .fin (((n : Rat) - 1) / (2 * C.maturity.den)) ≤ (colonyRun C sh draw sex n).1.time := by
  have hl := level_run hM sh draw sex n (colonyRun_good hM hne)
  have hi := colonyRun_inv hM hne
  have hd := den_pos C
  cases hq : (colonyRun C sh draw sex n).1.queue with
  | nil =>
    rcases hi.empty hq with h | h
    · exfalso
      obtain ⟨l, hl'⟩ : ∃ l, (colonyRun C sh draw sex n).1.log = (colonyStart sh).log ++ l := by
        rw [colonyRun_eq]; exact execAll_log _ _ _
      rw [h, colonyStart_log] at hl'
      simp at hl'
    · rw [h]; exact Time.le_inf _
  | cons c qs =>
    obtain ⟨t, b⟩ := c
    have ht : t = (colonyRun C sh draw sex n).1.time := by
      have := hi.head (by rw [hq]; simp)
      rw [hq] at this
      exact this
    obtain ⟨r, hr⟩ := List.exists_mem_of_ne_nil b (hi.ne (t, b) (by rw [hq]; simp))
    obtain ⟨j, hj, hj2⟩ := hl r t (by rw [hq]; simpa [bucketAt] using hr)
    rw [← ht, hj]
    unfold RabGrid
    rw [Time.fin_le, div_le_div_iff₀ (by linarith) hd]
    have : n ≤ 2 * j + 1 := by rcases hj2 with h | h <;> omega
    have h2 : (n : Rat) - 1 ≤ 2 * j := by
      have : ((n : Nat) : Rat) ≤ ((2 * j + 1 : Nat) : Rat) := by exact_mod_cast this
      push_cast at this
      linarith
    nlinarith

private theorem run_iter (C : RabCode) (sh : Bool) (draw : Nat → Rat) (sex : Nat → Bool) (m : Nat) :
    iterStep (timedStepper (colonyHost C)) m (colonyRun C sh draw sex 0) = colonyRun C sh draw sex m := by
  rw [iterStep_timed, colonyRun_eq, colonyRun_eq]
  rfl

private theorem run_running (C : RabCode) (sh : Bool) (draw : Nat → Rat) (sex : Nat → Bool) (m : Nat) : (colonyRun C sh draw sex m).1.running = true := by
  induction m with
  | zero => rfl
  | succ m ih =>
    have e : (colonyRun C sh draw sex (m + 1)).1 = ((colonyRun C sh draw sex m).1.step (colonyHost C) (colonyRun C sh draw sex m).2).1 := by
      rw [colonyRun_eq, colonyRun_eq, execAll_replicate_succ]; rfl
    rw [e, step_running _ _ _, ih]
    intro r s w hm
    rcases colonyStep_ops C r s w with ⟨rs, e⟩ | ⟨_, w', _, _, _, e⟩
    · rw [show ((colonyHost C).step r s w).2.1 = _ from e] at hm
      simp at hm
    · rw [show ((colonyHost C).step r s w).2.1 = _ from e, added_eq] at hm
      simp at hm

private theorem run_noEscape (C : RabCode) (sh : Bool) (draw : Nat → Rat) (sex : Nat → Bool) (n : Nat)
    (h : ∀ m < n, ((timedStepper (colonyHost C)).step (colonyRun C sh draw sex m)).2 = false) : NoEscape (colonyRun C sh draw sex n).1.log := by
  induction n with
  | zero =>
    intro r t hm
    rw [colonyRun_eq] at hm
    simp [execAll, colonyStart_log] at hm
  | succ m ih =>
    intro r t hmem
    obtain ⟨l, hl, hl'⟩ := step_no_error (colonyHost C) _ _ (h m (by omega))
    have e : (colonyRun C sh draw sex (m + 1)).1.log = (colonyRun C sh draw sex m).1.log ++ l := by
      rw [← hl, colonyRun_eq, colonyRun_eq, execAll_replicate_succ]; rfl
    rw [e, List.mem_append] at hmem
    rcases hmem with h' | h'
    · exact ih (fun k hk => h k (by omega)) r t h'
    · exact hl' r t h'

/-- C256: a simulation with a `max_time` ends, with or without an exception, in at most `2 * d * max_time + 1` steps. -/
theorem C256_ends (C : RabCode) (hM : 0 < C.maturity) (sh : Bool) (draw : Nat → Rat) (sex : Nat → Bool) (T : Rat) (ms : Option Nat) (fuel : Nat)
    (hf : 2 * C.maturity.den * T + 1 ≤ fuel) (sw : Sched × Colony) :
    runModel (timedStepper (colonyHost C)) (some (.fin T)) ms fuel (colonyRun C sh draw sex 0) ≠ .running sw := by
  intro hrun
  unfold runModel at hrun
  split at hrun
  · cases hrun
  have hall := runLoop_still_running _ _ _ hrun
  have hne : NoEscape (colonyRun C sh draw sex fuel).1.log :=
    run_noEscape C sh draw sex fuel (fun m hm => by have := (hall m hm.le).2 hm; rwa [run_iter] at this)
  have hlast := (hall fuel le_rfl).1
  rw [run_iter] at hlast
  have hlt : (colonyRun C sh draw sex fuel).1.time < .fin T := (isDone_time hlast).1
  have hc := C256_clock C hM sh draw sex fuel hne
  have := lt_of_le_of_lt hc hlt
  have hd := den_pos C
  rw [Time.fin_lt, div_lt_iff₀ (by linarith)] at this
  linarith

/-- C256: when the clock has run out, no rabbit is alive. -/
theorem C256_extinct (C : RabCode) (hM : 0 < C.maturity) (sh : Bool) (draw : Nat → Rat) (sex : Nat → Bool) (n : Nat)
    (hne : NoEscape (colonyRun C sh draw sex n).1.log) (ht : (colonyRun C sh draw sex n).1.time = .inf) (r : Ref) (b : Bun)
    (hb : (colonyRun C sh draw sex n).2.bun? r = some b) : b.alive = false := by
  obtain ⟨t0, k, _, _, _, _, _, _, h⟩ := C208_life C hM sh draw sex n hne r b hb
  cases ha : b.alive with
  | false => rfl
  | true =>
    have := h ha
    rw [ht] at this
    exact absurd this (by simp)

/-- C256: a simulation with a `max_time` that returns was never interrupted by an exception, and it returns as soon as the clock is at `max_time` or later. -/
theorem C256_returns (C : RabCode) (sh : Bool) (draw : Nat → Rat) (sex : Nat → Bool) (T : Rat) (fuel : Nat) (sw : Sched × Colony)
    (h : runModel (timedStepper (colonyHost C)) (some (.fin T)) none fuel (colonyRun C sh draw sex 0) = .done sw) :
    ∃ n, sw = colonyRun C sh draw sex n ∧ NoEscape sw.1.log ∧ .fin T ≤ sw.1.time ∧ ∀ m < n, (colonyRun C sh draw sex m).1.time < .fin T := by
  unfold runModel at h
  split at h
  · cases h
  obtain ⟨n, h1, h2, h3⟩ := runLoop_done _ _ _ h
  rw [run_iter] at h1
  subst h1
  refine ⟨n, rfl, run_noEscape C sh draw sex n (fun m hm => by have := (h3 m hm).2; rwa [run_iter] at this), ?_, ?_⟩
  · have hr : (timedStepper (colonyHost C)).running (colonyRun C sh draw sex n) = true := run_running C sh draw sex n
    simp only [isDone, hr] at h2
    have h4 : Time.fin T ≤ (timedStepper (colonyHost C)).time (colonyRun C sh draw sex n) := by simpa using h2
    exact h4
  · intro m hm
    have := (h3 m hm).1
    rw [run_iter] at this
    exact (isDone_time this).1

/-- C256: without limits a simulation of the example never returns, not even when all rabbits have died: whatever the number of steps, it is still running
or an exception has escaped. -/
theorem C256_unlimited (C : RabCode) (sh : Bool) (draw : Nat → Rat) (sex : Nat → Bool) (fuel : Nat) (sw : Sched × Colony) :
    runModel (timedStepper (colonyHost C)) none none fuel (colonyRun C sh draw sex 0) ≠ .done sw := by
  intro h
  unfold runModel at h
  split at h
  · cases h
  obtain ⟨n, h1, h2, _⟩ := runLoop_done _ _ _ h
  rw [run_iter] at h1
  subst h1
  have hr : (timedStepper (colonyHost C)).running (colonyRun C sh draw sex n) = true := run_running C sh draw sex n
  simp [isDone, hr] at h2

set_option maxRecDepth 100000 in
/-- Eight rabbits are born at 6, and the newborn are activated in a step of their own: after 6 and after 7 steps the clock shows the same time; then it goes on. -/
example : (List.range 9).map (fun n => (colonyRun (smallCode true 3 6 2 0) false (fun _ => 0) inTurn n).1.time) = [0, 1, 2, 3, 4, 5, 6, 6, 7].map (fun x => Time.fin x) ∧
    (runModel (timedStepper (colonyHost (smallCode true 3 6 2 0))) (some (.fin 7)) none 15 (colonyRun (smallCode true 3 6 2 0) false (fun _ => 0) inTurn 0)).returned
      (fun sw => sw.1.time == .fin 7 && sw.1.steps == 8 && sw.2.nodes.length == 10) = true := by
  decide +kernel

set_option maxRecDepth 100000 in
/-- With `sexual_maturity = 5 / 2` the times are multiples of 1 / 2; without mating everybody is dead after a while, and the clock has run out. -/
example : (List.range 8).map (fun n => (colonyRun (smallCode true (5 / 2) 4 2 0) false (fun _ => 1) inTurn n).1.time) =
      [0, 1, 2, .fin (5 / 2), 3, .fin (7 / 2), 4, .fin (9 / 2)] ∧
    (colonyRun (smallCode true (5 / 2) 4 2 0) false (fun _ => 1) inTurn 30).1.time = .inf := by
  decide +kernel

end Verif
