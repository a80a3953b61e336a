import Verif.Proofs.ExRabbits2
import Verif.Proofs.RunLoop
import Mathlib.Tactic.Ring
import Mathlib.Tactic.NormNum

/-!
# The improved rabbits (C208-C211)

All runs of the example in the model of the scheduler: any random numbers, any shuffles, any class attributes.
-/

namespace Verif
open Spec

/-- No exception has escaped from the code of an agent. -/
def NoEscape (l : List Ev) : Prop := ∀ r t, Ev.act r t .error ∉ l

/-- The age of a rabbit at its activations: at the first it is born, the second is at sexual maturity, and then it is activated once
per unit of time. -/
def rabAge (M : Rat) : Nat → Rat
  | 0 => 0
  | n + 1 => M + n

theorem rabAge_succ (M : Rat) (n : Nat) : rabAge M (n + 2) = rabAge M (n + 1) + 1 := by
  simp only [rabAge]; push_cast; ring

/-- Where a rabbit that was added at `t0` and activated `n` times stands: its state, the value of `birth`, and what is pending for it. -/
inductive Phase (C : RabCode) (t0 : Rat) : Nat → List Time → Bool → RabState → Option Rat → Prop
  | newborn : Phase C t0 0 [.fin (t0 + rabAge C.maturity 0)] true .newborn none
  | young : Phase C t0 1 [.fin (t0 + rabAge C.maturity 1)] true .youngling (some t0)
  | grown (k : Nat) (st : RabState) (hs : st = .fertile ∨ st = .pregnant) (ha : rabAge C.maturity (k + 1) ≤ max C.life C.maturity) :
      Phase C t0 (k + 2) [.fin (t0 + rabAge C.maturity (k + 2))] true st (some t0)
  | dying (k : Nat) (ha : rabAge C.maturity (k + 2) ≤ max C.life C.maturity + 1) :
      Phase C t0 (k + 3) [.fin (t0 + rabAge C.maturity (k + 3))] true .dead (some t0)
  | gone (n : Nat) (st : RabState) (bt : Option Rat) (hb : bt = none ∨ bt = some t0) (ha : rabAge C.maturity n ≤ max C.life C.maturity + 3) :
      Phase C t0 n [.fin (t0 + rabAge C.maturity n)] false st bt
  | past (k : Nat) (st : RabState) (bt : Option Rat) (hb : bt = none ∨ bt = some t0) (ha : rabAge C.maturity k ≤ max C.life C.maturity + 3) :
      Phase C t0 (k + 1) [] false st bt

theorem Phase.pend {C : RabCode} {t0 : Rat} {n : Nat} {l : List Time} {a : Bool} {st : RabState} {bt : Option Rat} (h : Phase C t0 n l a st bt) :
    l = [] ∨ l = [.fin (t0 + rabAge C.maturity n)] := by
  cases h <;> simp

/-- Dying (by accident) leaves a rabbit in its place. -/
theorem Phase.kill {C : RabCode} (hM : 0 < C.maturity) {t0 : Rat} {n : Nat} {l : List Time} {a : Bool} {st : RabState} {bt : Option Rat}
    (h : Phase C t0 n l a st bt) : Phase C t0 n l false st bt := by
  have hX : C.maturity ≤ max C.life C.maturity := le_max_right _ _
  cases h with
  | newborn => exact .gone 0 _ _ (.inl rfl) (by simp only [rabAge]; linarith)
  | young => exact .gone 1 _ _ (.inr rfl) (by simp only [rabAge]; push_cast; linarith)
  | grown k st hs ha => exact .gone _ _ _ (.inr rfl) (by rw [rabAge_succ]; linarith)
  | dying k ha => exact .gone _ _ _ (.inr rfl) (by rw [rabAge_succ]; linarith)
  | gone n st bt hb ha => exact .gone n st bt hb ha
  | past k st bt hb ha => exact .past k st bt hb ha

/-- The invariant of a run: everything pending belongs to an agent, and every rabbit is in one of the phases. -/
structure LifeInv (C : RabCode) (s : Sched) (w : Colony) : Prop where
  fin : ∀ r t, t ∈ pendingOf (cal 1 s.log) r → r < w.pets.length ∧ t ≠ .inf
  noacts : ∀ r, w.pets.length ≤ r → actsOf r s.log = []
  life : ∀ q b, w.bun? q = some b → ∃ t0 n, Ev.added q (.fin t0) ∈ s.log ∧
    (actsOf q s.log).map (·.1) = (List.range n).map (fun k => Time.fin (t0 + rabAge C.maturity k)) ∧
    Phase C t0 n (pendingOf (cal 1 s.log) q) b.alive b.state b.birth

/-- The refs from `a` on, below `b`. -/
def freshRefs (a b : Nat) : List Ref := (List.range b).filter (fun r => a ≤ r)

theorem mem_freshRefs {a b q : Nat} : q ∈ freshRefs a b ↔ a ≤ q ∧ q < b := by
  simp [freshRefs, and_comm]

theorem freshRefs_filter (a b q : Nat) : (freshRefs a b).filter (· = q) = if a ≤ q ∧ q < b then [q] else [] := by
  have hn : (freshRefs a b).Nodup := List.Nodup.filter _ List.nodup_range
  split
  · rename_i h
    rw [List.filter_eq, List.count_eq_one_of_mem hn (mem_freshRefs.2 h)]
    rfl
  · rename_i h
    rw [List.filter_eq_nil_iff]
    intro x hx
    have := mem_freshRefs.1 hx
    simp only [decide_eq_true_eq]
    rintro rfl
    exact h this

theorem LifeInv.next {C : RabCode} (hM : 0 < C.maturity) {s s' : Sched} {w w' : Colony} (h : LifeInv C s w) {r : Ref} {now : Rat} {rep : Reply}
    (hdue : Time.fin now ∈ pendingOf (cal 1 s.log) r)
    (hlog : s'.log = s.log ++ (freshRefs w.pets.length w'.pets.length).map (fun q => Ev.added q (.fin now)) ++ [.act r (.fin now) rep])
    (hlen : w.pets.length ≤ w'.pets.length)
    (hothers : ∀ q b', w'.bun? q = some b' → q ≠ r →
      (∃ b, w.bun? q = some b ∧ b'.state = b.state ∧ b'.birth = b.birth ∧ (b'.alive = b.alive ∨ b'.alive = false)) ∨
      (w.pets.length ≤ q ∧ b'.state = .newborn ∧ b'.birth = none ∧ b'.alive = true))
    (hown : ∀ b', w'.bun? r = some b' → ∃ b, w.bun? r = some b ∧ ∀ t0 n, Phase C t0 n [.fin (t0 + rabAge C.maturity n)] b.alive b.state b.birth →
      now = t0 + rabAge C.maturity n → Phase C t0 (n + 1) (nextWake 1 (.fin now) rep).toList b'.alive b'.state b'.birth) :
    LifeInv C s' w' := by
  have hr := h.fin r _ hdue
  have hpend : ∀ q, pendingOf (cal 1 s'.log) q =
      if q = r then (pendingOf (cal 1 s.log) r).erase (.fin now) ++ (nextWake 1 (.fin now) rep).toList
      else pendingOf (cal 1 s.log) q ++ (if w.pets.length ≤ q ∧ q < w'.pets.length then [Time.fin now] else []) := by
    intro q
    rw [hlog, pendingOf_cal_act, pendingOf_cal_adds, pendingOf_cal_adds, freshRefs_filter, freshRefs_filter]
    by_cases hq : q = r
    · subst hq
      rw [if_pos rfl, if_pos rfl, if_neg (fun hc => absurd hr.1 (Nat.not_lt.2 hc.1))]
      simp
    · rw [if_neg hq, if_neg hq]
      congr 1
      split <;> rfl
  have hacts : ∀ q, actsOf q s'.log = actsOf q s.log ++ (if q = r then [(Time.fin now, rep)] else []) := by
    intro q
    rw [hlog, actsOf_append, actsOf_append, actsOf_adds, actsOf_one]
    simp
  have hsub : ∀ e, e ∈ s.log → e ∈ s'.log := fun e he => by rw [hlog]; simp [he]
  have hnil : ∀ q, w.pets.length ≤ q → pendingOf (cal 1 s.log) q = [] := by
    intro q hq
    apply List.eq_nil_iff_forall_not_mem.2
    intro t ht
    exact absurd (h.fin q t ht).1 (Nat.not_lt.2 hq)
  refine ⟨?_, ?_, ?_⟩
  · intro q t ht
    rw [hpend] at ht
    split at ht
    · rename_i hq
      subst hq
      rcases List.mem_append.1 ht with ht | ht
      · have := h.fin q t (List.mem_of_mem_erase ht)
        exact ⟨Nat.lt_of_lt_of_le this.1 hlen, this.2⟩
      · refine ⟨Nat.lt_of_lt_of_le hr.1 hlen, ?_⟩
        cases rep with
        | ret d =>
          simp only [nextWake] at ht
          split at ht
          · simp at ht
          · rename_i hne
            simp only [Option.toList_some, List.mem_singleton] at ht
            rw [ht]; exact hne
        | dead => simp [nextWake] at ht
        | error => simp [nextWake] at ht
    · rcases List.mem_append.1 ht with ht | ht
      · have := h.fin q t ht
        exact ⟨Nat.lt_of_lt_of_le this.1 hlen, this.2⟩
      · split at ht
        · rename_i hc
          simp only [List.mem_singleton] at ht
          exact ⟨hc.2, by rw [ht]; simp⟩
        · simp at ht
  · intro q hq
    have hqr : q ≠ r := fun e => absurd (Nat.lt_of_lt_of_le hr.1 hlen) (Nat.not_lt.2 (e ▸ hq))
    rw [hacts, if_neg hqr, h.noacts q (le_trans hlen hq)]
    rfl
  · intro q b' hb'
    by_cases hq : q = r
    · subst hq
      obtain ⟨b, hb, hstep⟩ := hown b' hb'
      obtain ⟨t0, n, h1, h2, h3⟩ := h.life q b hb
      have hp : pendingOf (cal 1 s.log) q = [.fin (t0 + rabAge C.maturity n)] := by
        rcases h3.pend with e | e
        · rw [e] at hdue; simp at hdue
        · exact e
      have hnow : now = t0 + rabAge C.maturity n := by
        rw [hp] at hdue
        simpa using hdue
      refine ⟨t0, n + 1, hsub _ h1, ?_, ?_⟩
      · rw [hacts, if_pos rfl, List.map_append, h2, List.range_succ, List.map_append, hnow]
        rfl
      · rw [hpend, if_pos rfl, hp, ← hnow]
        simp only [List.erase_cons_head, List.nil_append]
        exact hstep t0 n (by rw [hp] at h3; exact h3) hnow
    · rcases hothers q b' hb' hq with ⟨b, hb, e1, e2, e3⟩ | ⟨hge, e1, e2, e3⟩
      · obtain ⟨t0, n, h1, h2, h3⟩ := h.life q b hb
        refine ⟨t0, n, hsub _ h1, ?_, ?_⟩
        · rw [hacts, if_neg hq, List.append_nil, h2]
        · rw [hpend, if_neg hq, if_neg (fun hc => absurd (Colony.bun?_lt hb) (Nat.not_lt.2 hc.1)), List.append_nil, e1, e2]
          rcases e3 with e3 | e3
          · rw [e3]; exact h3
          · rw [e3]; exact h3.kill hM
      · have hlt := Colony.bun?_lt hb'
        refine ⟨now, 0, ?_, ?_, ?_⟩
        · rw [hlog]
          simp only [List.mem_append, List.mem_map]
          exact .inl (.inr ⟨q, mem_freshRefs.2 ⟨hge, hlt⟩, rfl⟩)
        · rw [hacts, if_neg hq, h.noacts q hge]
          rfl
        · rw [hpend, if_neg hq, if_pos ⟨hge, hlt⟩, hnil q hge, e1, e2, e3]
          have : Time.fin now = .fin (now + rabAge C.maturity 0) := by simp [rabAge]
          rw [List.nil_append, this]
          exact .newborn

theorem freshRefs_self (a : Nat) : freshRefs a a = [] := by
  apply List.eq_nil_iff_forall_not_mem.2
  intro q hq
  have := mem_freshRefs.1 hq
  omega

/-- An activation that changes at most the rabbit itself. -/
theorem LifeInv.own {C : RabCode} (hM : 0 < C.maturity) {s s' : Sched} {w w' : Colony} (h : LifeInv C s w) {r : Ref} {now : Rat} {rep : Reply}
    (hdue : Time.fin now ∈ pendingOf (cal 1 s.log) r) (hlog : s'.log = s.log ++ [.act r (.fin now) rep])
    (hlen : w'.pets.length = w.pets.length) {b : Bun} (hb : w.bun? r = some b)
    (hothers : ∀ q b', q ≠ r → w'.bun? q = some b' → ∃ b, w.bun? q = some b ∧ b'.state = b.state ∧ b'.birth = b.birth ∧ b'.alive = b.alive)
    (hown : ∀ b', w'.bun? r = some b' → ∀ t0 n, Phase C t0 n [.fin (t0 + rabAge C.maturity n)] b.alive b.state b.birth →
      now = t0 + rabAge C.maturity n → Phase C t0 (n + 1) (nextWake 1 (.fin now) rep).toList b'.alive b'.state b'.birth) :
    LifeInv C s' w' := by
  refine h.next hM (rep := rep) hdue ?_ (le_of_eq hlen.symm) ?_ ?_
  · rw [hlen, freshRefs_self, hlog]; simp
  · intro q b' hq hne
    obtain ⟨b, h1, h2, h3, h4⟩ := hothers q b' hne hq
    exact .inl ⟨b, h1, h2, h3, .inl h4⟩
  · intro b' hb'
    exact ⟨b, hb, hown b' hb'⟩

private theorem wake_none (now : Rat) : (nextWake 1 (.fin now) (.ret none)).toList = [.fin (now + 1)] := by
  have : (Time.fin now + (1 : Time)) = .fin (now + 1) := by
    show Time.fin (now + ((1 : Nat) : Rat)) = _
    norm_num
  simp [nextWake, effDelay, this]

private theorem wake_some (now d : Rat) (hd : 0 < d) : (nextWake 1 (.fin now) (.ret (some (.fin d)))).toList = [.fin (now + d)] := by
  have h0 : (Time.fin d = 0) = False := by
    simp only [Time.zero_def, Time.fin.injEq, eq_iff_iff, iff_false]
    exact ne_of_gt hd
  simp only [nextWake, effDelay, h0, if_false, Time.fin_add]
  simp

private theorem wake_inf (now : Rat) : (nextWake 1 (.fin now) (.ret (some .inf))).toList = [] := by
  simp [nextWake, effDelay]

theorem added_eq (w w' : Colony) : Colony.added w w' = (freshRefs w.pets.length w'.pets.length).map (fun r => SOp.add r none) := rfl

theorem LifeInv.keeps (C : RabCode) (hM : 0 < C.maturity) : KeepsInv (colonyHost C) 1 (LifeInv C) where
  same s s' w h hl _ _ := ⟨by rw [hl]; exact h.fin, by rw [hl]; exact h.noacts, by rw [hl]; exact h.life⟩
  shuffle s l w h := ⟨h.fin, h.noacts, h.life⟩
  act r s w hi h hmem _ _ hg := by
    have hdue : s.time ∈ pendingOf (cal 1 s.log) r := mem_pendingOf.2 hmem
    have hr := h.fin r _ hdue
    obtain ⟨now, hnow⟩ : ∃ now, s.time = .fin now := by
      cases ht : s.time with
      | fin q => exact ⟨q, rfl⟩
      | inf => exact absurd ht hr.2
    obtain ⟨p, hp⟩ : ∃ p, w.pets[r]? = some p := ⟨_, List.getElem?_eq_getElem hr.1⟩
    rw [hnow] at hdue
    show LifeInv C ((s.applyOps (colonyStep C r s w).2.1).logAct r s.time (colonyStep C r s w).1) (colonyStep C r s w).2.2
    have hg' : GoodReply (colonyStep C r s w).1 := hg
    cases p with
    | accident =>
      have e : colonyStep C r s w = w.accidentStep C r s.agents := by simp only [colonyStep, hnow, hp]
      rw [e]
      have hst := Colony.Struck.accident C w r s.agents
      have hlog : (s.applyOps (w.accidentStep C r s.agents).2.1).log = s.log := by
        unfold Colony.accidentStep
        split
        · rfl
        · exact applyOps_removes_log s _
      have hbr : w.bun? r = none := by simp [Colony.bun?, hp]
      refine h.next hM (w' := (w.accidentStep C r s.agents).2.2) hdue (rep := (w.accidentStep C r s.agents).1) ?_ (le_of_eq hst.1.symm) ?_ ?_
      · rw [hst.1, freshRefs_self]
        simp [Sched.logAct, hlog, hnow]
      · intro q b' hb' hq
        cases hq' : w.bun? q with
        | none => rw [hst.2.2.1 q hq'] at hb'; simp at hb'
        | some b =>
          rcases hst.2.2.2 q b hq' with e | e
          · rw [e] at hb'; cases hb'; exact .inl ⟨_, rfl, rfl, rfl, .inl rfl⟩
          · rw [e] at hb'; cases hb'; exact .inl ⟨_, rfl, rfl, rfl, .inr rfl⟩
      · intro b' hb'
        rw [hst.2.2.1 r hbr] at hb'
        simp at hb'
    | rabbit b =>
      have hb : w.bun? r = some b := by simp [Colony.bun?, hp]
      cases ha : b.alive with
      | false =>
        have e : colonyStep C r s w = (.dead, [], w) := by simp only [colonyStep, hnow, hp, ha]; rfl
        rw [e]
        refine h.own hM (rep := .dead) hdue (by simp [Sched.logAct, Sched.applyOps, hnow]) rfl hb (fun q b' _ hq => ⟨b', hq, rfl, rfl, rfl⟩) ?_
        intro b' hb' t0 n hph _
        rw [hb] at hb'
        cases hb'
        rw [ha] at hph ⊢
        cases hph with
        | gone n st bt hbt hage => exact .past n _ _ hbt hage
      | true =>
        have e : colonyStep C r s w = w.act C r b now s.agents := by simp only [colonyStep, hnow, hp, ha]; rfl
        rw [e] at hg' ⊢
        -- the rabbit is changed by `f`, and nothing else happens
        have upd : ∀ (f : Bun → Bun) (rep : Reply) (ops : List SOp) (w' : Colony), (s.applyOps ops).log = s.log →
            (∀ q, w'.bun? q = if q = r then (w.bun? q).map f else w.bun? q) → w'.pets.length = w.pets.length →
            (∀ t0 n, Phase C t0 n [.fin (t0 + rabAge C.maturity n)] b.alive b.state b.birth → now = t0 + rabAge C.maturity n →
              Phase C t0 (n + 1) (nextWake 1 (.fin now) rep).toList (f b).alive (f b).state (f b).birth) →
            LifeInv C ((s.applyOps ops).logAct r s.time rep) w' := by
          intro f rep ops w' hops hw' hlen hph
          refine h.own hM (rep := rep) hdue (by simp [Sched.logAct, hops, hnow]) hlen hb ?_ ?_
          · intro q b' hq hb'
            rw [hw' q, if_neg hq] at hb'
            exact ⟨b', hb', rfl, rfl, rfl⟩
          · intro b' hb'
            rw [hw' r, if_pos rfl, hb] at hb'
            cases hb'
            exact hph
        -- nothing happens to the vital attributes
        have stay : ∀ t0 n, Phase C t0 n [.fin (t0 + rabAge C.maturity n)] b.alive b.state b.birth → now = t0 + rabAge C.maturity n →
            (b.state = .fertile ∨ b.state = .pregnant) → (∀ t, b.birth = some t → ¬ C.life < now - t) → ∀ st : RabState, st = .fertile ∨ st = .pregnant →
            Phase C t0 (n + 1) (nextWake 1 (.fin now) (.ret none)).toList b.alive st b.birth := by
          intro t0 n hph hn hst hlife st hst'
          rw [ha] at hph ⊢
          generalize hsd : b.state = sd at hph hst
          generalize hbd : b.birth = bd at hph hlife
          cases hph with
          | newborn => rcases hst with h | h <;> cases h
          | young => rcases hst with h | h <;> cases h
          | dying k hage => rcases hst with h | h <;> cases h
          | grown k _ hs hage =>
            have hl := hlife t0 rfl
            have hle : rabAge C.maturity (k + 2) ≤ max C.life C.maturity := by
              refine le_trans ?_ (le_max_left _ _)
              rw [hn] at hl
              linarith
            have e : now + 1 = t0 + rabAge C.maturity (k + 1 + 2) := by
              rw [rabAge_succ C.maturity (k + 1), hn]; ring
            rw [wake_none, e]
            exact .grown (k + 1) st hst' hle
        -- an activation without effect on the rabbit, in which others may change
        cases hst : b.state with
        | newborn =>
          have e2 : w.act C r b now s.agents = (.ret (some (.fin (C.maturity - (now - now)))), [],
              w.upd r (fun b => { b with birth := some now, offspring := 0, state := .youngling })) := by
            simp only [Colony.act, hst]
          rw [e2]
          refine upd (fun b => { b with birth := some now, offspring := 0, state := .youngling }) _ [] _ rfl
            (fun q => Colony.bun?_upd w r q _) (Colony.upd_length _ _ _) ?_
          intro t0 n hph hn
          rw [ha, hst] at hph
          rw [sub_self, sub_zero, wake_some now _ hM]
          generalize hbd : b.birth = bd at hph
          cases hph with
          | newborn =>
            have e0 : now = t0 := by rw [hn]; simp [rabAge]
            have e : now + C.maturity = t0 + rabAge C.maturity 1 := by rw [e0]; simp [rabAge]
            rw [e]
            show Phase C t0 1 _ b.alive .youngling (some now)
            rw [ha, e0]
            exact .young
          | grown k _ hs _ => rcases hs with h | h <;> cases h
        | dead =>
          have e2 : w.act C r b now s.agents = (.ret none, [.remove r], w.kill r) := by simp only [Colony.act, hst]
          rw [e2]
          refine upd (fun b => { b with alive := false }) _ [.remove r] _ rfl
            (fun q => Colony.bun?_kill w r q) (Colony.kill_length _ _) ?_
          intro t0 n hph hn
          rw [ha, hst] at hph
          rw [wake_none]
          generalize hbd : b.birth = bd at hph
          cases hph with
          | dying k hage =>
            have e : now + 1 = t0 + rabAge C.maturity (k + 4) := by rw [hn, rabAge_succ C.maturity (k + 2)]; ring
            rw [e]
            show Phase C t0 (k + 4) _ false b.state (some t0)
            exact .gone _ _ _ (.inr rfl) (by rw [rabAge_succ C.maturity (k + 2), rabAge_succ C.maturity (k + 1)]; linarith)
          | grown k _ hs _ => rcases hs with h | h <;> cases h
        | youngling =>
          cases hbt : b.birth with
          | none =>
            have e2 : (w.act C r b now s.agents).1 = .error := by simp only [Colony.act, hst, hbt]
            rw [e2] at hg'
            exact hg'.elim
          | some t =>
            have e2 : w.act C r b now s.agents = (.ret none, [],
                if C.maturity ≤ now - t then w.upd r (fun b => { b with state := .fertile }) else w) := by
              simp only [Colony.act, hst, hbt]
            rw [e2]
            have hcase : ∀ t0 n, Phase C t0 n [.fin (t0 + rabAge C.maturity n)] b.alive b.state b.birth → n = 1 ∧ t = t0 := by
              intro t0 n hph
              rw [ha, hst, hbt] at hph
              cases hph with
              | young => exact ⟨rfl, rfl⟩
              | grown k _ hs _ => rcases hs with h | h <;> cases h
            obtain ⟨t0, n, _, _, hph⟩ := h.life r b hb
            have hp1 : pendingOf (cal 1 s.log) r = [.fin (t0 + rabAge C.maturity n)] := by
              rcases hph.pend with e | e
              · rw [e] at hdue; simp at hdue
              · exact e
            have hn : now = t0 + rabAge C.maturity n := by rw [hp1] at hdue; simpa using hdue
            rw [hp1] at hph
            obtain ⟨rfl, rfl⟩ := hcase t0 n hph
            have hage : C.maturity ≤ now - t := by
              rw [hn]; simp [rabAge]
            rw [if_pos hage]
            refine upd (fun b => { b with state := .fertile }) _ [] _ rfl
              (fun q => Colony.bun?_upd w r q _) (Colony.upd_length _ _ _) ?_
            intro t1 n hph1 hn1
            obtain ⟨rfl, rfl⟩ := hcase t1 n hph1
            rw [wake_none]
            have e : now + 1 = t + rabAge C.maturity (0 + 2) := by rw [hn, rabAge_succ]; ring
            rw [e]
            show Phase C t 2 _ b.alive .fertile b.birth
            rw [ha, hbt]
            exact .grown 0 _ (.inl rfl) (by simp [rabAge])
        | fertile =>
          cases hbt : b.birth with
          | none =>
            have e2 : (w.act C r b now s.agents).1 = .error := by simp only [Colony.act, hst, hbt]
            rw [e2] at hg'
            exact hg'.elim
          | some t =>
            have e2 : w.act C r b now s.agents =
                if C.life < now - t then (.ret none, [], w.upd r (fun b => { b with state := .dead }))
                else if b.male then
                  (.ret none, [], Colony.mateLoop C.mating r now ((s.agents.filter w.isFertileFemale).take C.maxFemales) w)
                else if b.conception.isSome then (.ret none, [], w.upd r (fun b => { b with state := .pregnant }))
                else (.ret none, [], w) := by simp only [Colony.act, hst, hbt]
            rw [e2]
            by_cases hlife : C.life < now - t
            · rw [if_pos hlife]
              refine upd (fun b => { b with state := .dead }) _ [] _ rfl
                (fun q => Colony.bun?_upd w r q _) (Colony.upd_length _ _ _) ?_
              intro t0 n hph hn
              rw [ha, hst, hbt] at hph
              cases hph with
              | grown k _ hs hage =>
                rw [wake_none]
                have e : now + 1 = t + rabAge C.maturity (k + 3) := by rw [hn, rabAge_succ C.maturity (k + 1)]; ring
                rw [e]
                show Phase C t (k + 3) _ b.alive .dead b.birth
                rw [ha, hbt]
                exact .dying k (by rw [rabAge_succ]; linarith)
            · rw [if_neg hlife]
              have hl : ∀ u, b.birth = some u → ¬ C.life < now - u := by
                intro u hu
                rw [hbt] at hu
                cases hu
                exact hlife
              by_cases hmale : b.male = true
              · rw [if_pos hmale]
                rcases Colony.mateLoop_spec C.mating r now ((s.agents.filter w.isFertileFemale).take C.maxFemales) w with ⟨k, hk⟩ | ⟨f, hf, k, hk⟩
                · rw [hk]
                  refine upd id _ [] _ rfl (fun q => ?_) rfl ?_
                  · have : ({ w with used := k } : Colony).bun? q = w.bun? q := rfl
                    rw [this]; split <;> simp
                  · intro t0 n hph hn
                    exact stay t0 n hph hn (.inl hst) hl b.state (.inl hst)
                · rw [hk]
                  refine h.own hM (rep := .ret none) hdue (by simp [Sched.logAct, Sched.applyOps, hnow]) (Colony.upd_length _ _ _) hb ?_ ?_
                  · intro q b' _ hq
                    rw [Colony.bun?_impregnate] at hq
                    have e : ({ w with used := k } : Colony).bun? q = w.bun? q := rfl
                    rw [e] at hq
                    split at hq
                    · cases hq' : w.bun? q with
                      | none => rw [hq'] at hq; simp at hq
                      | some d => rw [hq'] at hq; cases hq; exact ⟨_, rfl, rfl, rfl, rfl⟩
                    · exact ⟨b', hq, rfl, rfl, rfl⟩
                  · intro b' hq
                    rw [Colony.bun?_impregnate] at hq
                    have e : ({ w with used := k } : Colony).bun? r = w.bun? r := rfl
                    rw [e, hb] at hq
                    have hv : b'.alive = b.alive ∧ b'.state = b.state ∧ b'.birth = b.birth := by
                      split at hq
                      · cases hq; exact ⟨rfl, rfl, rfl⟩
                      · cases hq; exact ⟨rfl, rfl, rfl⟩
                    intro t0 n hph hn
                    rw [hv.1, hv.2.1, hv.2.2]
                    exact stay t0 n hph hn (.inl hst) hl b.state (.inl hst)
              · rw [if_neg hmale]
                by_cases hc : b.conception.isSome = true
                · rw [if_pos hc]
                  refine upd (fun b => { b with state := .pregnant }) _ [] _ rfl
                    (fun q => Colony.bun?_upd w r q _) (Colony.upd_length _ _ _) ?_
                  intro t0 n hph hn
                  exact stay t0 n hph hn (.inl hst) hl .pregnant (.inr rfl)
                · rw [if_neg hc]
                  refine upd id _ [] _ rfl (fun q => by split <;> simp) rfl ?_
                  intro t0 n hph hn
                  exact stay t0 n hph hn (.inl hst) hl b.state (.inl hst)
        | pregnant =>
          cases hbt : b.birth with
          | none =>
            have e2 : (w.act C r b now s.agents).1 = .error := by simp only [Colony.act, hst, hbt]
            rw [e2] at hg'
            exact hg'.elim
          | some t =>
            by_cases hlife : C.life < now - t
            · have e2 : w.act C r b now s.agents =
                  (.ret (some .inf), [.remove r], (w.kill r).upd r (fun b => { b with state := .dead })) := by
                simp only [Colony.act, hst, hbt, if_pos hlife]
              rw [e2]
              refine upd (fun b => { b with alive := false, state := .dead }) _ [.remove r] _ rfl (fun q => ?_)
                (by rw [Colony.upd_length, Colony.kill_length]) ?_
              · rw [Colony.bun?_upd, Colony.bun?_kill]
                split
                · rw [Option.map_map]; rfl
                · rfl
              · intro t0 n hph hn
                rw [ha, hst, hbt] at hph
                rw [wake_inf]
                cases hph with
                | grown k _ hs hage =>
                  show Phase C t (k + 3) _ false .dead b.birth
                  exact .past (k + 2) _ _ (.inr hbt) (by rw [rabAge_succ]; linarith)
            · have hl : ∀ u, b.birth = some u → ¬ C.life < now - u := by
                intro u hu
                rw [hbt] at hu
                cases hu
                exact hlife
              cases hcc : b.conception with
              | none =>
                have e2 : (w.act C r b now s.agents).1 = .error := by
                  simp only [Colony.act, hst, hbt, if_neg hlife, hcc]
                rw [e2] at hg'
                exact hg'.elim
              | some c =>
                by_cases hges : C.gestation ≤ now - c
                · have e2 : w.act C r b now s.agents =
                      let res := Colony.births r b.mate now b.babies { w with notes := w.notes ++ [.litter r now] }
                      if res.2 then (.error, Colony.added w res.1, res.1)
                      else (.ret none, Colony.added w res.1, res.1.upd r (fun b => { b with mate := none, state := .fertile })) := by
                    simp only [Colony.act, hst, hbt, if_neg hlife, hcc, if_pos hges]
                  rw [e2] at hg' ⊢
                  simp only at hg' ⊢
                  obtain ⟨b1, b2, b3, b4⟩ := Colony.births_spec r b.mate now b.babies { w with notes := w.notes ++ [.litter r now] }
                  generalize Colony.births r b.mate now b.babies { w with notes := w.notes ++ [.litter r now] } = res at hg' b1 b2 b3 b4 ⊢
                  cases hres : res.2 with
                  | true => rw [hres] at hg'; exact hg'.elim
                  | false =>
                    simp only [Bool.false_eq_true, if_false]
                    have b1' : w.pets.length ≤ res.1.pets.length := b1
                    refine h.next hM (rep := .ret none) hdue ?_ (by rw [Colony.upd_length]; exact b1) ?_ ?_
                    · rw [Colony.upd_length, added_eq]
                      simp only [Sched.logAct, applyOps_adds_log, hnow]
                    · intro q b' hq hne
                      rw [Colony.bun?_upd, if_neg hne] at hq
                      by_cases hlt : q < w.pets.length
                      · cases hq' : w.bun? q with
                        | none =>
                          have := b4 q hlt hq'
                          rw [this] at hq
                          simp at hq
                        | some d =>
                          obtain ⟨k, hk⟩ := b2 q d hq'
                          rw [hk] at hq
                          cases hq
                          exact .inl ⟨d, rfl, rfl, rfl, .inl rfl⟩
                      · have hge : w.pets.length ≤ q := Nat.le_of_not_lt hlt
                        obtain ⟨m, k, hk⟩ := b3 q hge (Colony.bun?_lt hq)
                        rw [hk] at hq
                        cases hq
                        exact .inr ⟨hge, rfl, rfl, rfl⟩
                    · intro b' hq
                      refine ⟨b, hb, ?_⟩
                      obtain ⟨k, hk⟩ := b2 r b hb
                      rw [Colony.bun?_upd, if_pos rfl, hk] at hq
                      cases hq
                      intro t0 n hph hn
                      exact stay t0 n hph hn (.inr hst) hl .fertile (.inl rfl)
                · have e2 : w.act C r b now s.agents = (.ret none, [], w) := by
                    simp only [Colony.act, hst, hbt, if_neg hlife, hcc, if_neg hges]
                  rw [e2]
                  refine upd id _ [] _ rfl (fun q => by split <;> simp) rfl ?_
                  intro t0 n hph hn
                  exact stay t0 n hph hn (.inr hst) hl b.state (.inr hst)

/-! ### Runs -/

theorem colonyStep_good (C : RabCode) (hM : 0 < C.maturity) (r : Ref) (s : Sched) (w : Colony) :
    (colonyStep C r s w).1 = .error ∨ GoodReply (colonyStep C r s w).1 := by
  have h0 : GoodReply (.ret (some (.fin C.maturity))) := by
    show (Time.fin 0) ≤ Time.fin C.maturity
    exact Time.fin_le.2 hM.le
  unfold colonyStep
  split
  · split
    · rename_i now b _ _ _
      unfold Colony.act
      split
      · right
        rw [sub_self, sub_zero]
        exact h0
      · exact .inr trivial
      · split
        · exact .inr trivial
        · split
          · exact .inr trivial
          · split <;> exact .inr trivial
      · split
        · exact .inr (Time.le_inf _)
        · split
          · exact .inl rfl
          · split
            · simp only
              split
              · exact .inl rfl
              · exact .inr trivial
            · exact .inr trivial
      · exact .inr trivial
      · exact .inl rfl
    · exact .inr trivial
  · unfold Colony.accidentStep
    split
    · exact .inr (Time.le_inf _)
    · simp only
      split
      · exact .inl rfl
      · exact .inr trivial
  · exact .inr trivial

/-- The first three agents have been added. -/
def colonyStart (sh : Bool) : Sched :=
  (((Sched.init 1 sh).applyOp (.add 0 none)).applyOp (.add 1 none)).applyOp (.add 2 none)

theorem colonyRun_eq (C : RabCode) (sh : Bool) (draw : Nat → Rat) (sex : Nat → Bool) (n : Nat) :
    colonyRun C sh draw sex n = execAll (colonyHost C) (List.replicate n .step) (colonyStart sh, Colony.init draw sex) := by
  unfold colonyRun
  rw [execAll_append]
  rfl

theorem colonyStart_log (sh : Bool) : (colonyStart sh).log = [.added 0 0, .added 1 0, .added 2 0] := rfl

theorem colonyStart_inv (sh : Bool) : Inv (colonyStart sh) :=
  (((Inv.init (by decide) sh).op _).op _).op _

theorem colonyRun_good {C : RabCode} (hM : 0 < C.maturity) {sh : Bool} {draw : Nat → Rat} {sex : Nat → Bool} {n : Nat}
    (h : NoEscape (colonyRun C sh draw sex n).1.log) : GoodLog (colonyRun C sh draw sex n).1.log := by
  intro e he
  cases e with
  | added r t => trivial
  | act r t rep =>
    rw [colonyRun_eq] at he
    rcases execAll_replies (colonyHost C) _ _ r t rep he with h1 | ⟨s, w, _, hr⟩
    · rw [colonyStart_log] at h1
      simp at h1
    · rcases colonyStep_good C hM r s w with h2 | h2
      · have : rep = .error := hr.trans h2
        subst this
        rw [← colonyRun_eq] at he
        exact absurd he (h r t)
      · show GoodReply rep
        rw [hr]
        exact h2

theorem colonyRun_inv {C : RabCode} (hM : 0 < C.maturity) {sh : Bool} {draw : Nat → Rat} {sex : Nat → Bool} {n : Nat}
    (h : NoEscape (colonyRun C sh draw sex n).1.log) : Inv (colonyRun C sh draw sex n).1 := by
  have hg := colonyRun_good hM h
  rw [colonyRun_eq] at hg ⊢
  exact (Inv.execAll (sw := (colonyStart sh, Colony.init draw sex)) (colonyStart_inv sh) _ _ hg).1

theorem LifeInv.start (C : RabCode) (sh : Bool) (draw : Nat → Rat) (sex : Nat → Bool) : LifeInv C (colonyStart sh) (Colony.init draw sex) := by
  have hlog : (colonyStart sh).log = [] ++ [0, 1, 2].map (fun r => Ev.added r 0) := rfl
  have hp : ∀ q, pendingOf (cal 1 (colonyStart sh).log) q = ([0, 1, 2].filter (· = q)).map (fun _ => (0 : Time)) := by
    intro q
    rw [hlog, pendingOf_cal_adds]
    rfl
  have hacts : ∀ q, actsOf q (colonyStart sh).log = [] := by
    intro q
    rw [colonyStart_log]
    simp [actsOf]
  refine ⟨?_, fun r _ => hacts r, ?_⟩
  · intro r t ht
    rw [hp] at ht
    simp only [List.mem_map, List.mem_filter, decide_eq_true_eq] at ht
    obtain ⟨a, ⟨ha, rfl⟩, rfl⟩ := ht
    refine ⟨?_, by decide⟩
    show a < 3
    simp only [List.mem_cons, List.not_mem_nil, or_false] at ha
    rcases ha with rfl | rfl | rfl <;> decide
  · intro q b hb
    have hlt : q < 3 := Colony.bun?_lt hb
    have h3 : q = 0 ∨ q = 1 ∨ q = 2 := by
      rcases q with _ | _ | _ | q
      · exact .inl rfl
      · exact .inr (.inl rfl)
      · exact .inr (.inr rfl)
      · exact absurd hlt (by simp)
    have e0 : (0 : Time) = .fin (0 + rabAge C.maturity 0) := by simp [rabAge, Time.zero_def]
    refine ⟨0, 0, ?_, by rw [hacts]; rfl, ?_⟩
    · rw [colonyStart_log]
      rcases h3 with rfl | rfl | rfl <;> simp [Time.zero_def]
    · rw [hp]
      rcases h3 with rfl | rfl | rfl
      · cases hb
        show Phase C 0 0 [0] _ _ _
        rw [e0]
        exact .newborn
      · cases hb
        show Phase C 0 0 [0] _ _ _
        rw [e0]
        exact .newborn
      · cases hb

theorem colonyRun_life {C : RabCode} (hM : 0 < C.maturity) {sh : Bool} {draw : Nat → Rat} {sex : Nat → Bool} {n : Nat}
    (h : NoEscape (colonyRun C sh draw sex n).1.log) : LifeInv C (colonyRun C sh draw sex n).1 (colonyRun C sh draw sex n).2 := by
  have hg := colonyRun_good hM h
  rw [colonyRun_eq] at hg ⊢
  exact (LifeInv.keeps C hM).steps (colonyStart_inv sh) rfl (LifeInv.start C sh draw sex) n hg

theorem colonyRun_pending {C : RabCode} (hM : 0 < C.maturity) {sh : Bool} {draw : Nat → Rat} {sex : Nat → Bool} {n : Nat}
    (h : NoEscape (colonyRun C sh draw sex n).1.log) {r : Ref} {t : Time}
    (hp : t ∈ pendingOf (cal 1 (colonyRun C sh draw sex n).1.log) r) : (colonyRun C sh draw sex n).1.time ≤ t := by
  have hi := colonyRun_inv hM h
  have hiv : (colonyRun C sh draw sex n).1.interval = 1 := by
    rw [colonyRun_eq]
    exact execAll_interval _ _ _
  have hperm := hi.pending_perm
  rw [hiv] at hperm
  have hm := hperm.mem_iff.2 (mem_pendingOf.1 hp)
  simp only [pending, List.mem_flatMap, List.mem_map] at hm
  obtain ⟨b, hb, q, _, he⟩ := hm
  cases he
  exact hi.ge b hb

/-- C208: as long as no exception has escaped, every rabbit that was added at `t0` is activated at the ages 0, `sexual_maturity`,
`sexual_maturity` + 1, …, and never again after the age of `max(life_expectancy, sexual_maturity) + 3`; `birth` is the time at which it was
added; it is fertile or pregnant only from its sexual maturity on, and it is dead when it is older than
`max(life_expectancy, sexual_maturity) + 2`. -/
theorem C208_life (C : RabCode) (hM : 0 < C.maturity) (sh : Bool) (draw : Nat → Rat) (sex : Nat → Bool) (n : Nat)
    (hne : NoEscape (colonyRun C sh draw sex n).1.log) (r : Ref) (b : Bun) (hb : (colonyRun C sh draw sex n).2.bun? r = some b) :
    ∃ t0 k, Ev.added r (.fin t0) ∈ (colonyRun C sh draw sex n).1.log ∧
      (actsOf r (colonyRun C sh draw sex n).1.log).map (·.1) = (List.range k).map (fun j => Time.fin (t0 + rabAge C.maturity j)) ∧
      (∀ j, j < k → rabAge C.maturity j ≤ max C.life C.maturity + 3) ∧
      (b.birth = none ∨ b.birth = some t0) ∧
      (b.alive = true → k ≠ 0 → b.birth = some t0) ∧
      (b.alive = true → (b.state = .fertile ∨ b.state = .pregnant) → Time.fin (t0 + C.maturity) ≤ (colonyRun C sh draw sex n).1.time) ∧
      (b.alive = true → (colonyRun C sh draw sex n).1.time ≤ .fin (t0 + (max C.life C.maturity + 2))) := by
  obtain ⟨t0, k, h1, h2, h3⟩ := (colonyRun_life hM hne).life r b hb
  have hX : C.maturity ≤ max C.life C.maturity := le_max_right _ _
  have mono : ∀ i j, i ≤ j → rabAge C.maturity i ≤ rabAge C.maturity j := by
    intro i j hij
    cases i with
    | zero =>
      cases j with
      | zero => exact le_rfl
      | succ j =>
        simp only [rabAge]
        have : (0 : Rat) ≤ j := Nat.cast_nonneg j
        linarith
    | succ i =>
      cases j with
      | zero => omega
      | succ j =>
        simp only [rabAge]
        have : (i : Rat) ≤ j := Nat.cast_le.2 (by omega)
        linarith
  have acted : ∀ j, j < k → Time.fin (t0 + rabAge C.maturity j) ≤ (colonyRun C sh draw sex n).1.time := by
    intro j hj
    have hm : Time.fin (t0 + rabAge C.maturity j) ∈ (actsOf r (colonyRun C sh draw sex n).1.log).map (·.1) := by
      rw [h2]
      exact List.mem_map.2 ⟨j, List.mem_range.2 hj, rfl⟩
    obtain ⟨⟨t, rep⟩, hm, ht⟩ := List.mem_map.1 hm
    simp only at ht
    subst ht
    exact (colonyRun_inv hM hne).past _ (mem_actsOf.1 hm)
  have due : ∀ t, pendingOf (cal 1 (colonyRun C sh draw sex n).1.log) r = [t] → (colonyRun C sh draw sex n).1.time ≤ t := by
    intro t ht
    exact colonyRun_pending hM hne (r := r) (by rw [ht]; simp)
  refine ⟨t0, k, h1, h2, ?_, ?_, ?_, ?_, ?_⟩
  · intro j hj
    generalize pendingOf (cal 1 (colonyRun C sh draw sex n).1.log) r = pd at h3
    generalize b.alive = ba at h3
    generalize b.state = bs at h3
    generalize b.birth = bt at h3
    cases h3 with
    | newborn => omega
    | young => exact le_trans (mono j 1 (by omega)) (by simp only [rabAge]; push_cast; linarith)
    | grown i st hs ha => exact le_trans (mono j (i + 1) (by omega)) (by linarith)
    | dying i ha => exact le_trans (mono j (i + 2) (by omega)) (by linarith)
    | gone i st bt hb ha => exact le_trans (mono j k (by omega)) ha
    | past i st bt hb ha => exact le_trans (mono j i (by omega)) ha
  · generalize pendingOf (cal 1 (colonyRun C sh draw sex n).1.log) r = pd at h3
    generalize b.alive = ba at h3
    generalize b.state = bs at h3
    generalize b.birth = bt at h3 ⊢
    cases h3 with
    | newborn => exact .inl rfl
    | young => exact .inr rfl
    | grown i st hs ha => exact .inr rfl
    | dying i ha => exact .inr rfl
    | gone i st bt hb ha => exact hb
    | past i st bt hb ha => exact hb
  · intro hal hk
    rw [hal] at h3
    generalize pendingOf (cal 1 (colonyRun C sh draw sex n).1.log) r = pd at h3
    generalize b.state = bs at h3
    generalize b.birth = bt at h3 ⊢
    cases h3 with
    | newborn => exact absurd rfl hk
    | young => rfl
    | grown i st hs ha => rfl
    | dying i ha => rfl
  · intro hal hst
    rw [hal] at h3
    have h1k : 1 < k := by
      generalize pendingOf (cal 1 (colonyRun C sh draw sex n).1.log) r = pd at h3
      generalize b.state = bs at h3 hst
      generalize b.birth = bt at h3
      cases h3 with
      | newborn => rcases hst with h | h <;> cases h
      | young => rcases hst with h | h <;> cases h
      | grown i st hs ha => omega
      | dying i ha => omega
    refine le_trans (le_of_eq ?_) (acted 1 h1k)
    simp [rabAge]
  · intro hal
    rw [hal] at h3
    have h0 : Time.fin (t0 + rabAge C.maturity k) ≤ .fin (t0 + (max C.life C.maturity + 2)) ∧
        pendingOf (cal 1 (colonyRun C sh draw sex n).1.log) r = [.fin (t0 + rabAge C.maturity k)] := by
      generalize pendingOf (cal 1 (colonyRun C sh draw sex n).1.log) r = pd at h3
      generalize b.state = bs at h3
      generalize b.birth = bt at h3
      cases h3 with
      | newborn => exact ⟨Time.fin_le.2 (by simp only [rabAge]; linarith), rfl⟩
      | young => exact ⟨Time.fin_le.2 (by simp only [rabAge]; push_cast; linarith), rfl⟩
      | grown i st hs ha => exact ⟨Time.fin_le.2 (by rw [rabAge_succ]; linarith), rfl⟩
      | dying i ha => exact ⟨Time.fin_le.2 (by rw [rabAge_succ]; linarith), rfl⟩
    exact le_trans (due _ h0.2) h0.1

end Verif
