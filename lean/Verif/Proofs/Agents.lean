import Verif.Model.Agents
import Verif.Proofs.FSM

/-!
# Invariants of worlds of agents
-/

namespace Verif

variable {U L : Type}

/-- Commands of a whole model: a scheduler step, or operations performed by the environment between steps. -/
inductive ACmd where
  | step
  | ops (os : List AOp)
deriving DecidableEq, Repr

def ACmd.exec (C : UserCode U L) : ACmd → Sched × AWorld U L → Sched × AWorld U L
  | .step, sw => ((sw.1.step (agentHost C) sw.2).1, (sw.1.step (agentHost C) sw.2).2.1)
  | .ops os, sw =>
    let r := AOp.applyAll sw.1.time os sw.2
    (sw.1.applyOps r.2, r.1)

def aexec (C : UserCode U L) (h : List ACmd) (sw : Sched × AWorld U L) : Sched × AWorld U L :=
  h.foldl (fun sw c => c.exec C sw) sw

/-- The empty model. -/
def AWorld.empty (u : U) : AWorld U L := ⟨[], u, []⟩

/-- A property of worlds kept by every agent step and by the shuffling. -/
structure KeptStep (C : UserCode U L) (P : AWorld U L → Prop) : Prop where
  step : ∀ r s w, P w → P (stepAgent C r s w).2.2
  shuffle : ∀ l w, P w → P (C.shuffle l w).2

/-- And by every operation. -/
structure Kept (C : UserCode U L) (P : AWorld U L → Prop) : Prop extends KeptStep C P where
  ops : ∀ now os w, P w → P (AOp.applyAll now os w).1

theorem KeptStep.runBucket {C : UserCode U L} {P : AWorld U L → Prop} (hk : KeptStep C P) (now : Time) (b : List Ref)
    (s : Sched) (w : AWorld U L) (h : P w) : P (runBucket (agentHost C) now b s w).2.1 := by
  induction b generalizing s w with
  | nil => exact h
  | cons r b ih =>
    simp only [Verif.runBucket]
    have h1 : P ((agentHost C).step r s w).2.2 := hk.step r s w h
    split
    · exact h1
    · exact ih _ _ h1
    · exact ih _ _ h1

theorem KeptStep.sched {C : UserCode U L} {P : AWorld U L → Prop} (hk : KeptStep C P) (s : Sched) (w : AWorld U L)
    (h : P w) : P (s.step (agentHost C) w).2.1 := by
  unfold Sched.step
  cases hq : s.queue with
  | nil => exact h
  | cons e q =>
    simp only
    split
    · exact h
    · have h1 : P (runOrder (agentHost C) s e.2 w).2 := by
        unfold runOrder
        split
        · exact hk.shuffle e.2 w h
        · exact h
      have h2 := hk.runBucket s.time (runOrder (agentHost C) s e.2 w).1 { s with queue := q } _ h1
      unfold finishStep
      split
      · exact h2
      · exact h2

theorem Kept.exec {C : UserCode U L} {P : AWorld U L → Prop} (hk : Kept C P) (c : ACmd) (sw : Sched × AWorld U L)
    (h : P sw.2) : P (c.exec C sw).2 := by
  cases c with
  | step => exact hk.sched sw.1 sw.2 h
  | ops os => exact hk.ops _ os _ h

theorem Kept.aexec {C : UserCode U L} {P : AWorld U L → Prop} (hk : Kept C P) (h : List ACmd)
    (sw : Sched × AWorld U L) (h0 : P sw.2) : P (aexec C h sw).2 := by
  induction h generalizing sw with
  | nil => exact h0
  | cons c h ih => exact ih _ (hk.exec c sw h0)

/-! ### Single operations are enough -/

theorem applyAll_kept {P : AWorld U L → Prop} (now : Time) (h1 : ∀ o w, P w → P (AOp.apply now o w).1)
    (os : List AOp) (w : AWorld U L) (h : P w) : P (AOp.applyAll now os w).1 := by
  induction os generalizing w with
  | nil => exact h
  | cons o os ih => exact ih _ (h1 o w h)

@[simp] theorem modify_get (w : AWorld U L) (r r' : Ref) (f : AgentRec L → AgentRec L) :
    (w.modify r' f).agents[r]? = if r' = r then (w.agents[r]?).map f else w.agents[r]? := by
  simp only [AWorld.modify, List.getElem?_modify]
  by_cases h : r' = r <;> simp [h]

@[simp] theorem modify_glog (w : AWorld U L) (r' : Ref) (f : AgentRec L → AgentRec L) :
    (w.modify r' f).glog = w.glog := rfl

/-! ### C26: no code after death -/

def Kind.isFsm : Kind → Bool
  | .fsm _ => true
  | _ => false

def Co.isSusp : Co L → Bool
  | .susp _ => true
  | _ => false

def GEv.ref : GEv → Ref
  | .code r _ => r
  | .died r => r

def GEv.isCode (r : Ref) : GEv → Bool
  | .code r' _ => r' == r
  | _ => false

/-- No code of agent `r` after its death. -/
def SilentAfterDeath (r : Ref) (log : List GEv) : Prop :=
  ∀ l1 l2, log = l1 ++ .died r :: l2 → ∀ e ∈ l2, e.isCode r = false

theorem SilentAfterDeath.snoc {r : Ref} {log : List GEv} (h : SilentAfterDeath r log) {e : GEv}
    (he : e.isCode r = true → .died r ∉ log) : SilentAfterDeath r (log ++ [e]) := by
  intro l1 l2 heq e' he'
  rcases List.eq_nil_or_concat l2 with rfl | ⟨l2', x, rfl⟩
  · cases he'
  · have h2 : log ++ [e] = (l1 ++ .died r :: l2') ++ [x] := by simpa using heq
    obtain ⟨h3, h4⟩ := List.append_inj' h2 rfl
    have hx : e = x := by simpa using h4
    subst hx
    rw [List.concat_eq_append] at he'
    rcases List.mem_append.1 he' with he' | he'
    · exact h l1 l2' h3 e' he'
    · have : e' = e := by simpa using he'
      subst this
      by_contra hc
      exact he (by simpa using hc) (by rw [h3]; simp)

theorem silent_of_not_mem {r : Ref} {log : List GEv} (h : .died r ∉ log) : SilentAfterDeath r log := by
  intro l1 l2 heq
  exact absurd (by rw [heq]; simp) h

/-- The invariant for agent `r`. -/
def Quiet (r : Ref) (w : AWorld U L) : Prop :=
  match w.agents[r]? with
  | Option.none => ∀ e ∈ w.glog, e.ref ≠ r
  | some a => a.kind.isFsm = true → a.co.isSusp = false ∧ (.died r ∈ w.glog → a.alive = false) ∧
      SilentAfterDeath r w.glog

theorem Quiet.modify {r r' : Ref} {w : AWorld U L} (h : Quiet r w) (f : AgentRec L → AgentRec L)
    (hf : r' = r → ∀ a, w.agents[r]? = some a → (f a).kind = a.kind ∧ (a.alive = false → (f a).alive = false) ∧
      (a.kind.isFsm = true → a.co.isSusp = false → (f a).co.isSusp = false)) : Quiet r (w.modify r' f) := by
  unfold Quiet at h ⊢
  rw [modify_get, modify_glog]
  by_cases hr : r' = r
  · rw [if_pos hr]
    cases ha : w.agents[r]? with
    | none => rw [ha] at h; simpa using h
    | some a =>
      rw [ha] at h
      obtain ⟨h1, h2, h3⟩ := hf hr a ha
      simp only [Option.map_some]
      intro hk
      rw [h1] at hk
      obtain ⟨q1, q2, q3⟩ := h hk
      exact ⟨h3 hk q1, fun hd => h2 (q2 hd), q3⟩
  · rw [if_neg hr]; exact h

theorem Quiet.apply {r : Ref} {w : AWorld U L} (h : Quiet r w) (now : Time) (o : AOp) :
    Quiet r (o.apply now w).1 := by
  cases o with
  | kill r' =>
    have h1 : Quiet r (w.modify r' (fun a => { a with alive := false })) :=
      h.modify _ (fun _ a _ => ⟨rfl, fun _ => rfl, fun _ hs => hs⟩)
    have hal : r' = r → ∀ a, (w.modify r' (fun a => { a with alive := false })).agents[r]? = some a →
        a.alive = false := by
      intro hr a ha
      rw [modify_get, if_pos hr] at ha
      cases hb : w.agents[r]? with
      | none => rw [hb] at ha; cases ha
      | some b => rw [hb] at ha; cases ha; rfl
    have hno : w.agents[r']? = Option.none → w.isAlive r' = false := by
      intro hb; rw [AWorld.isAlive, hb]
    simp only [AOp.apply]
    generalize w.isAlive r' = dying at hno
    have hnone : (w.modify r' (fun a => { a with alive := false })).agents[r]? = Option.none → r' = r →
        w.agents[r']? = Option.none := by
      intro h2 hr
      rw [modify_get, if_pos hr] at h2
      subst hr
      simpa using h2
    cases dying with
    | false => exact h1
    | true =>
      have h1' := h1
      unfold Quiet at h1 ⊢
      simp only [if_true]
      rw [modify_glog] at h1
      cases ha : (w.modify r' (fun a => { a with alive := false })).agents[r]? with
      | none =>
        rw [ha] at h1
        intro e he
        rcases List.mem_append.1 he with he | he
        · exact h1 e he
        · have : e = .died r' := by simpa using he
          subst this
          intro hr
          cases hno (hnone ha hr)
      | some a =>
        rw [ha] at h1
        intro hk
        obtain ⟨q1, q2, q3⟩ := h1 hk
        refine ⟨q1, fun hd => ?_, q3.snoc (by simp [GEv.isCode])⟩
        rcases List.mem_append.1 hd with hd | hd
        · exact q2 hd
        · have hr : r = r' := by simpa using hd
          exact hal hr.symm a ha
  | spawn k =>
    simp only [AOp.apply]
    unfold Quiet at h ⊢
    simp only
    rcases lt_trichotomy (α := Nat) r w.agents.length with hr | hr | hr
    · rw [List.getElem?_append_left hr]; exact h
    · subst hr
      rw [List.getElem?_eq_none (le_refl _)] at h
      rw [List.getElem?_append_right (le_refl _)]
      simp only [Nat.sub_self, List.getElem?_cons_zero]
      intro _
      have hd : (.died w.agents.length : GEv) ∉ w.glog := fun hm => h _ hm rfl
      exact ⟨rfl, fun hm => absurd hm hd, silent_of_not_mem hd⟩
    · rw [List.getElem?_eq_none (by simp; omega)]
      rw [List.getElem?_eq_none (by omega)] at h
      exact h
  | setState r' v =>
    refine h.modify _ (fun _ a _ => ?_)
    split
    · split
      · exact ⟨rfl, id, fun _ hs => hs⟩
      · exact ⟨rfl, id, fun _ hs => hs⟩
    · exact ⟨rfl, id, fun _ hs => hs⟩
  | sched o => exact h

theorem Quiet.applyAll {r : Ref} {w : AWorld U L} (h : Quiet r w) (now : Time) (os : List AOp) :
    Quiet r (AOp.applyAll now os w).1 :=
  applyAll_kept (P := Quiet r) now (fun o _ hw => Quiet.apply hw now o) os w h

/-- `agents` keeps its kinds and its length only grows. -/
theorem apply_kind (now : Time) (o : AOp) (w : AWorld U L) (r : Ref) (a : AgentRec L) (ha : w.agents[r]? = some a) :
    ∃ a', (o.apply now w).1.agents[r]? = some a' ∧ a'.kind = a.kind ∧ (a.alive = false → a'.alive = false) ∧
      a'.co = a.co := by
  cases o with
  | kill r' =>
    simp only [AOp.apply, modify_get]
    by_cases h : r' = r
    · exact ⟨{ a with alive := false }, by rw [if_pos h, ha]; rfl, rfl, fun _ => rfl, rfl⟩
    · exact ⟨a, by rw [if_neg h, ha], rfl, id, rfl⟩
  | spawn k =>
    refine ⟨a, ?_, rfl, id, rfl⟩
    simp only [AOp.apply]
    rw [List.getElem?_append_left (List.getElem?_eq_some_iff.1 ha).1, ha]
  | setState r' v =>
    simp only [AOp.apply, modify_get]
    by_cases h : r' = r
    · rw [if_pos h, ha]
      refine ⟨_, rfl, ?_⟩
      beta_reduce
      split
      · split <;> exact ⟨rfl, id, rfl⟩
      · exact ⟨rfl, id, rfl⟩
    · exact ⟨a, by rw [if_neg h, ha], rfl, id, rfl⟩
  | sched o => exact ⟨a, ha, rfl, id, rfl⟩

theorem applyAll_kind (now : Time) (os : List AOp) (w : AWorld U L) (r : Ref) (a : AgentRec L)
    (ha : w.agents[r]? = some a) :
    ∃ a', (AOp.applyAll now os w).1.agents[r]? = some a' ∧ a'.kind = a.kind ∧
      (a.alive = false → a'.alive = false) ∧ a'.co = a.co := by
  induction os generalizing w a with
  | nil => exact ⟨a, ha, rfl, id, rfl⟩
  | cons o os ih =>
    obtain ⟨a1, h1, h2, h3, h4⟩ := apply_kind now o w r a ha
    obtain ⟨a2, g1, g2, g3, g4⟩ := ih _ _ h1
    exact ⟨a2, g1, g2.trans h2, fun h => g3 (h3 h), g4.trans h4⟩

/-- The agent in whose name a segment runs exists, and if it is an FSM agent it is alive. -/
theorem Quiet.segment {C : UserCode U L} {r r' : Ref} {w : AWorld U L} (h : Quiet r w) (fn : Nat) (l : Option L)
    (s : Sched) (hex : ∃ a, w.agents[r']? = some a ∧ (a.kind.isFsm = true → a.alive = true)) :
    Quiet r (C.segment fn l r' s w).2.1 := by
  unfold UserCode.segment
  simp only
  apply Quiet.applyAll
  obtain ⟨a, ha, hal⟩ := hex
  unfold Quiet at h ⊢
  simp only
  by_cases hr : r' = r
  · subst hr
    rw [ha] at h ⊢
    intro hk
    obtain ⟨q1, q2, q3⟩ := h hk
    have hd : (.died r' : GEv) ∉ w.glog := fun hm => by
      have := q2 hm
      rw [hal hk] at this
      cases this
    refine ⟨q1, ?_, q3.snoc (fun _ => hd)⟩
    intro hm
    rcases List.mem_append.1 hm with hm | hm
    · exact absurd hm hd
    · simp at hm
  · cases hb : w.agents[r]? with
    | none =>
      rw [hb] at h
      intro e he
      rcases List.mem_append.1 he with he | he
      · exact h e he
      · have : e = .code r' fn := by simpa using he
        subst this; exact hr
    | some b =>
      rw [hb] at h
      intro hk
      obtain ⟨q1, q2, q3⟩ := h hk
      refine ⟨q1, ?_, q3.snoc (by simp [GEv.isCode, hr])⟩
      intro hm
      rcases List.mem_append.1 hm with hm | hm
      · exact q2 hm
      · simp at hm

theorem segment_agent (C : UserCode U L) (fn : Nat) (l : Option L) (r' : Ref) (s : Sched) (w : AWorld U L)
    (r : Ref) (a : AgentRec L) (ha : w.agents[r]? = some a) :
    ∃ a', (C.segment fn l r' s w).2.1.agents[r]? = some a' ∧ a'.kind = a.kind ∧
      (a.alive = false → a'.alive = false) ∧ a'.co = a.co :=
  applyAll_kind _ _ _ r a ha

/-- User code of FSM agents never suspends (all state functions are ordinary functions). -/
def NoYield (C : UserCode U L) : Prop :=
  ∀ fn l r s (w : AWorld U L) a, w.agents[r]? = some a → a.kind.isFsm = true →
    ∀ v l', (C.run fn l r s w).1 ≠ .yld v l'

theorem settle_isSusp {X : Type} (pf : String → Option Time) (res : Seg L × X) :
    (settle pf res).1.isSusp = true ↔ ∃ v l, res.1 = .yld v l := by
  unfold settle
  cases h : res.1 <;> simp [Co.isSusp]

theorem fsmBody_quiet {C : UserCode U L} (hny : NoYield C) {r r' : Ref} {s : Sched} {w : AWorld U L} {a : AgentRec L}
    {cls : FsmClass} (h : Quiet r w) (ha : w.agents[r']? = some a) (hk : a.kind = .fsm cls) :
    Quiet r (fsmBody C cls r' s Option.none (w, [])).2.1 ∧
    (∀ v l, (fsmBody C cls r' s Option.none (w, [])).1 ≠ .yld v l) := by
  simp only [fsmBody, ha]
  split
  · rename_i hal
    split
    · rename_i d hd
      have hseg := h.segment (C := C) d.fn Option.none s ⟨a, ha, fun _ => hal⟩
      have hns := hny d.fn Option.none r' s w a ha (by rw [hk]; rfl)
      have hseg1 : ∀ v l, (C.segment d.fn Option.none r' s w).1 ≠ .yld v l := by
        intro v l
        simp only [UserCode.segment]
        cases hc : (C.run d.fn Option.none r' s w).1 with
        | yld v l => exact absurd hc (hns v l)
        | ret v => simp
        | raise e => simp
      split
      · rename_i v hv
        refine ⟨hseg.modify _ (fun _ a _ => ⟨rfl, id, fun _ hs => hs⟩), ?_⟩
        intro v l
        simp only
        split <;> simp
      · exact ⟨hseg, hseg1⟩
    · exact ⟨h, by simp⟩
  · exact ⟨h, by simp⟩

theorem quiet_kept (C : UserCode U L) (hny : NoYield C) (r : Ref) : Kept C (Quiet r) := by
  refine ⟨⟨?_, ?_⟩, fun now os w h => h.applyAll now os⟩
  · intro r' s w h
    unfold stepAgent
    cases ha : w.agents[r']? with
    | none => exact h
    | some a =>
      simp only
      cases hk : a.kind with
      | plain fn =>
        have hs := h.segment (C := C) fn Option.none s ⟨a, ha, by simp [hk, Kind.isFsm]⟩
        simp only [funStep]
        split <;> exact hs
      | gen async fn =>
        have hq : ∀ l, Quiet r (genBody C fn r' s l (w, [])).2.1 := by
          intro l
          unfold genBody
          cases l with
          | none => exact h.segment (C := C) fn Option.none s ⟨a, ha, by simp [hk, Kind.isFsm]⟩
          | some p => exact h.segment (C := C) p.1 (some p.2) s ⟨a, ha, by simp [hk, Kind.isFsm]⟩
        have hex : ∀ l, ∃ a', (genBody C fn r' s l (w, [])).2.1.agents[r']? = some a' ∧ a'.kind = a.kind := by
          intro l
          unfold genBody
          cases l with
          | none =>
            obtain ⟨a', h1, h2, _⟩ := segment_agent C fn Option.none r' s w r' a ha
            exact ⟨a', h1, h2⟩
          | some p =>
            obtain ⟨a', h1, h2, _⟩ := segment_agent C p.1 (some p.2) r' s w r' a ha
            exact ⟨a', h1, h2⟩
        have hset : ∀ l, (settle C.pf (genBody C fn r' s l (w, []))).2.2 = (genBody C fn r' s l (w, [])).2 := by
          intro l
          unfold settle
          split <;> rfl
        have final : ∀ (c : Co (Nat × L)) (w' : AWorld U L), Quiet r w' →
            (∃ a', w'.agents[r']? = some a' ∧ a'.kind = a.kind) →
            Quiet r (w'.modify r' (fun a => { a with co := c })) := by
          intro c w' hq' ⟨a', h1, h2⟩
          refine hq'.modify _ (fun hr b hb => ⟨rfl, id, ?_⟩)
          subst hr
          rw [h1] at hb; cases hb
          intro hf
          rw [h2, hk] at hf; cases hf
        simp only [genStep]
        cases hco : a.co with
        | none =>
          simp only
          rw [hset]
          exact final _ _ (hq _) (hex _)
        | susp l =>
          simp only
          rw [hset]
          exact final _ _ (hq _) (hex _)
        | ended =>
          simp only
          split
          · exact final _ _ h ⟨a, ha, rfl⟩
          · exact final _ _ h ⟨a, ha, rfl⟩
      | fsm cls =>
        obtain ⟨hb1, hb2⟩ := fsmBody_quiet hny (s := s) h ha hk
        have hset : (settle C.pf (fsmBody C cls r' s Option.none (w, []))).2.2
            = (fsmBody C cls r' s Option.none (w, [])).2 := by
          unfold settle
          split <;> rfl
        simp only [genStep]
        cases hco : a.co with
        | none =>
          simp only
          rw [hset]
          refine hb1.modify _ (fun hr b hb => ⟨rfl, id, fun _ _ => ?_⟩)
          cases hs : (settle C.pf (fsmBody C cls r' s Option.none (w, []))).1.isSusp with
          | false => rfl
          | true =>
            obtain ⟨v, l, he⟩ := (settle_isSusp _ _).1 hs
            exact absurd he (hb2 v l)
        | susp l =>
          by_cases hr : r' = r
          · subst hr
            unfold Quiet at h
            rw [ha] at h
            have := (h (by rw [hk]; rfl)).1
            rw [hco] at this
            cases this
          · simp only
            -- resumed agents that are not `r`: their code may run, but it is not `r`'s
            have hseg : Quiet r (C.segment l.1 (some l.2) r' s w).2.1 := by
              unfold UserCode.segment
              simp only
              apply Quiet.applyAll
              unfold Quiet at h ⊢
              simp only
              cases hb : w.agents[r]? with
              | none =>
                rw [hb] at h
                intro e he
                rcases List.mem_append.1 he with he | he
                · exact h e he
                · have : e = .code r' l.1 := by simpa using he
                  subst this; exact hr
              | some b =>
                rw [hb] at h
                intro hkb
                obtain ⟨q1, q2, q3⟩ := h hkb
                refine ⟨q1, ?_, q3.snoc (by simp [GEv.isCode, hr])⟩
                intro hm
                rcases List.mem_append.1 hm with hm | hm
                · exact q2 hm
                · simp at hm
            have hset' : (settle C.pf (fsmBody C cls r' s (some l) (w, []))).2.2
                = (fsmBody C cls r' s (some l) (w, [])).2 := by
              unfold settle
              split <;> rfl
            rw [hset']
            refine Quiet.modify ?_ _ (fun hr' => absurd hr' hr)
            simp only [fsmBody]
            split
            · exact hseg.modify _ (fun hr' => absurd hr' hr)
            · exact hseg
        | ended =>
          exact h.modify _ (fun _ b _ => ⟨rfl, id, fun _ _ => rfl⟩)
  · intro l w h
    obtain ⟨h1, h2⟩ := C.shuffle_agents l w
    unfold Quiet at h ⊢
    rw [h1, h2]; exact h

/-! ### Dead agents stay silent -/

/-- Agent `r` is dead, not suspended, an FSM agent, and has executed the code `K` so far. -/
def DeadSilent (r : Ref) (K : List GEv) (w : AWorld U L) : Prop :=
  ∃ a, w.agents[r]? = some a ∧ a.kind.isFsm = true ∧ a.alive = false ∧ a.co.isSusp = false ∧
    w.glog.filter (GEv.isCode r) = K

theorem DeadSilent.apply {r : Ref} {K : List GEv} {w : AWorld U L} (h : DeadSilent r K w) (now : Time) (o : AOp) :
    DeadSilent r K (o.apply now w).1 := by
  obtain ⟨a, h1, h2, h3, h4, h5⟩ := h
  obtain ⟨a', g1, g2, g3, g4⟩ := apply_kind now o w r a h1
  refine ⟨a', g1, by rw [g2]; exact h2, g3 h3, by rw [g4]; exact h4, ?_⟩
  cases o with
  | kill r' =>
    simp only [AOp.apply]
    split
    · rw [List.filter_append, h5]; simp [GEv.isCode]
    · exact h5
  | spawn k => exact h5
  | setState r' v => exact h5
  | sched o => exact h5

theorem DeadSilent.segment {C : UserCode U L} {r r' : Ref} {K : List GEv} {w : AWorld U L} (h : DeadSilent r K w)
    (hr : r' ≠ r) (fn : Nat) (l : Option L) (s : Sched) : DeadSilent r K (C.segment fn l r' s w).2.1 := by
  unfold UserCode.segment
  simp only
  apply applyAll_kept (P := DeadSilent r K) _ (fun o w hw => hw.apply _ o)
  obtain ⟨a, h1, h2, h3, h4, h5⟩ := h
  refine ⟨a, h1, h2, h3, h4, ?_⟩
  rw [List.filter_append, h5]
  simp [GEv.isCode, hr]

theorem DeadSilent.modify {r r' : Ref} {K : List GEv} {w : AWorld U L} (h : DeadSilent r K w)
    (f : AgentRec L → AgentRec L)
    (hf : r' = r → ∀ a, (f a).kind = a.kind ∧ (f a).alive = a.alive ∧ (a.co.isSusp = false → (f a).co.isSusp = false)) :
    DeadSilent r K (w.modify r' f) := by
  obtain ⟨a, h1, h2, h3, h4, h5⟩ := h
  by_cases hr : r' = r
  · obtain ⟨f1, f2, f3⟩ := hf hr a
    exact ⟨f a, by rw [modify_get, if_pos hr, h1]; rfl, by rw [f1]; exact h2, by rw [f2]; exact h3, f3 h4, h5⟩
  · exact ⟨a, by rw [modify_get, if_neg hr]; exact h1, h2, h3, h4, h5⟩

theorem deadSilent_kept (C : UserCode U L) (r : Ref) (K : List GEv) : Kept C (DeadSilent r K) := by
  refine ⟨⟨?_, ?_⟩, fun now os w h => applyAll_kept now (fun o _ hw => hw.apply now o) os w h⟩
  · intro r' s w h
    unfold stepAgent
    cases ha : w.agents[r']? with
    | none => exact h
    | some a =>
      simp only
      by_cases hr : r' = r
      · subst hr
        have h' := h
        obtain ⟨b, h1, h2, h3, h4, h5⟩ := h'
        rw [ha] at h1; cases h1
        cases hk : a.kind with
        | plain fn => rw [hk] at h2; cases h2
        | gen async fn => rw [hk] at h2; cases h2
        | fsm cls =>
          simp only [genStep]
          cases hco : a.co with
          | susp l => rw [hco] at h4; cases h4
          | none =>
            simp only [fsmBody, ha, h3, Bool.false_eq_true, if_false, settle]
            exact h.modify _ (fun _ a => ⟨rfl, rfl, fun _ => rfl⟩)
          | ended =>
            exact h.modify _ (fun _ a => ⟨rfl, rfl, fun _ => rfl⟩)
      · have hseg : ∀ fn l, DeadSilent r K (C.segment fn l r' s w).2.1 := fun fn l => h.segment hr fn l s
        cases hk : a.kind with
        | plain fn =>
          simp only [funStep]
          split <;> exact hseg _ _
        | gen async fn =>
          refine DeadSilent.modify ?_ _ (fun hr' => absurd hr' hr)
          simp only [genStep, genBody]
          cases hco : a.co with
          | none => simp only [settle]; split <;> exact hseg _ _
          | susp l => simp only [settle]; split <;> exact hseg _ _
          | ended => simp only; split <;> exact h
        | fsm cls =>
          refine DeadSilent.modify ?_ _ (fun hr' => absurd hr' hr)
          have hbody : ∀ l, DeadSilent r K (fsmBody C cls r' s l (w, [])).2.1 := by
            intro l
            unfold fsmBody
            cases l with
            | some p =>
              simp only
              split
              · exact (hseg _ _).modify _ (fun hr' => absurd hr' hr)
              · exact hseg _ _
            | none =>
              simp only [ha]
              split
              · split
                · split
                  · exact (hseg _ _).modify _ (fun hr' => absurd hr' hr)
                  · exact hseg _ _
                · exact h
              · exact h
          simp only [genStep]
          cases hco : a.co with
          | none => simp only [settle]; split <;> exact hbody _
          | susp l => simp only [settle]; split <;> exact hbody _
          | ended => exact h
  · intro l w h
    obtain ⟨h1, h2⟩ := C.shuffle_agents l w
    unfold DeadSilent at h ⊢
    rw [h1, h2]; exact h

/-! ### C24: the states of FSM agents are declared -/

/-- `State` objects in a returned value belong to the class (by name). -/
def Val.OwnStates (cls : FsmClass) : Val → Prop
  | .state d => d.name ∈ Dict.keys cls.states
  | .pair (.state d) _ => d.name ∈ Dict.keys cls.states
  | _ => True

/-- An operation is acceptable: classes come from the metaclass, `set_state` gets only own `State` objects. -/
def AOp.Own (w : AWorld U L) : AOp → Prop
  | .spawn (.fsm cls) => cls.Good
  | .setState r v => ∀ a cls, w.agents[r]? = some a → a.kind = .fsm cls → v.OwnStates cls
  | _ => True

def OwnOps (now : Time) : List AOp → AWorld U L → Prop
  | [], _ => True
  | o :: os, w => o.Own w ∧ OwnOps now os (o.apply now w).1

/-- User code that only uses states of the right class. -/
structure OwnCode (C : UserCode U L) : Prop where
  ret : ∀ fn l r s (w : AWorld U L) a cls v, w.agents[r]? = some a → a.kind = .fsm cls →
    (C.run fn l r s w).1 = .ret v → v.OwnStates cls
  ops : ∀ fn l r s (w : AWorld U L),
    OwnOps s.time (C.run fn l r s w).2.1 { w with u := (C.run fn l r s w).2.2, glog := w.glog ++ [.code r fn] }

/-- Every FSM agent is in a declared state. -/
def InDeclared (w : AWorld U L) : Prop :=
  ∀ (r : Ref) (a : AgentRec L) (cls : FsmClass), w.agents[r]? = some a → a.kind = .fsm cls → cls.Good ∧
    (∀ d, a.state = some d → d.name ∈ Dict.keys cls.states) ∧ (cls.init.isSome = true → a.state.isSome = true)

theorem setState_declared {cls : FsmClass} (hg : cls.Good) {cur : Option StateDef} {v : Val} {c : Option StateDef}
    (hv : v.OwnStates cls) (hcur : ∀ d, cur = some d → d.name ∈ Dict.keys cls.states)
    (h : setState cls cur v = some c) :
    (∀ d, c = some d → d.name ∈ Dict.keys cls.states) ∧ (cur.isSome = true → c.isSome = true) := by
  unfold setState at h
  split at h
  · cases h; exact ⟨hcur, id⟩
  · split at h
    · cases h
    · rename_i id _ d hd
      cases h
      refine ⟨?_, fun _ => rfl⟩
      intro d' hd'
      cases hd'
      have hm := Dict.get?_mem hd
      have := hg.names _ hm
      simp only at this
      rw [this]
      exact List.mem_map_of_mem hm
  · cases h
    refine ⟨?_, fun _ => rfl⟩
    intro d' hd'
    cases hd'
    exact hv
  · cases h

theorem InDeclared.modify {w : AWorld U L} (h : InDeclared w) (r' : Ref) (f : AgentRec L → AgentRec L)
    (hf : ∀ a, w.agents[r']? = some a → (f a).kind = a.kind ∧
      (∀ cls, a.kind = .fsm cls → cls.Good → (∀ d, a.state = some d → d.name ∈ Dict.keys cls.states) →
        (∀ d, (f a).state = some d → d.name ∈ Dict.keys cls.states) ∧
          (a.state.isSome = true → (f a).state.isSome = true))) :
    InDeclared (w.modify r' f) := by
  intro r b cls hb hk
  rw [modify_get] at hb
  by_cases hr : r' = r
  · subst hr
    rw [if_pos rfl] at hb
    cases ha : w.agents[r']? with
    | none => rw [ha] at hb; cases hb
    | some a =>
      rw [ha] at hb
      cases hb
      obtain ⟨f1, f2⟩ := hf a ha
      rw [f1] at hk
      obtain ⟨q1, q2, q3⟩ := h r' a cls ha hk
      obtain ⟨f3, f4⟩ := f2 cls hk q1 q2
      exact ⟨q1, f3, fun hi => f4 (q3 hi)⟩
  · rw [if_neg hr] at hb
    exact h r b cls hb hk

theorem InDeclared.apply {w : AWorld U L} (h : InDeclared w) (now : Time) (o : AOp) (ho : o.Own w) :
    InDeclared (o.apply now w).1 := by
  cases o with
  | kill r' =>
    exact h.modify r' (fun a => { a with alive := false }) (fun a _ => ⟨rfl, fun cls _ _ hs => ⟨hs, id⟩⟩)
  | spawn k =>
    intro r a cls ha hk
    simp only [AOp.apply] at ha
    rcases lt_or_ge (α := Nat) r w.agents.length with hr | hr
    · rw [List.getElem?_append_left hr] at ha
      exact h r a cls ha hk
    · rw [List.getElem?_append_right hr] at ha
      have : a = AgentRec.new k := by
        have := List.mem_of_getElem? ha
        simpa using this
      subst this
      simp only [AgentRec.new] at hk
      subst hk
      simp only [AOp.Own] at ho
      exact ⟨ho, fun d hd => ho.init_declared d hd, id⟩
  | setState r' v =>
    refine h.modify r' _ (fun a ha => ?_)
    beta_reduce
    cases hk : a.kind with
    | plain fn => exact ⟨hk, fun cls hc => by cases hc⟩
    | gen async fn => exact ⟨hk, fun cls hc => by cases hc⟩
    | fsm cls =>
      simp only
      cases hs : setStateApi cls now a.state v with
      | none =>
        refine ⟨hk, fun cls' hc hg hd => ⟨hd, id⟩⟩
      | some st =>
        refine ⟨rfl, fun cls' hc hg hd => ?_⟩
        cases hc
        unfold setStateApi at hs
        split at hs
        · cases hs
        · exact setState_declared hg (ho a cls ha hk) hd hs
  | sched o => exact h

theorem InDeclared.applyAll {w : AWorld U L} (h : InDeclared w) (now : Time) (os : List AOp) (ho : OwnOps now os w) :
    InDeclared (AOp.applyAll now os w).1 := by
  induction os generalizing w with
  | nil => exact h
  | cons o os ih => exact ih (h.apply now o ho.1) ho.2

theorem InDeclared.segment {C : UserCode U L} (hC : OwnCode C) {w : AWorld U L} (h : InDeclared w) (fn : Nat)
    (l : Option L) (r : Ref) (s : Sched) : InDeclared (C.segment fn l r s w).2.1 := by
  unfold UserCode.segment
  simp only
  exact InDeclared.applyAll (w := { w with u := (C.run fn l r s w).2.2, glog := w.glog ++ [.code r fn] })
    (fun r a cls ha hk => h r a cls ha hk) _ _ (hC.ops fn l r s w)

theorem fsmReturn_declared {cls : FsmClass} (hg : cls.Good) {cur : Option StateDef} {v : Val}
    (hv : v.OwnStates cls) (hcur : ∀ d, cur = some d → d.name ∈ Dict.keys cls.states) :
    (∀ d, (fsmReturn cls cur v).1 = some d → d.name ∈ Dict.keys cls.states) ∧
      (cur.isSome = true → (fsmReturn cls cur v).1.isSome = true) := by
  unfold fsmReturn
  cases hu : unpack2 v with
  | some p =>
    obtain ⟨ns, wh⟩ := p
    simp only
    cases hs : setState cls cur ns with
    | none => exact ⟨hcur, id⟩
    | some c =>
      refine setState_declared hg ?_ hcur hs
      cases v with
      | pair a b =>
        simp only [unpack2] at hu
        cases hu
        cases ns <;> trivial
      | str t =>
        simp only [unpack2] at hu
        split at hu
        · cases hu; trivial
        · cases hu
      | _ => simp [unpack2] at hu
  | none =>
    simp only
    cases hs : setState cls cur v with
    | none => exact ⟨hcur, id⟩
    | some c => exact setState_declared hg hv hcur hs

theorem inDeclared_keptStep (C : UserCode U L) (hC : OwnCode C) : KeptStep C InDeclared := by
  refine ⟨?_, ?_⟩
  · intro r s w h
    have hseg : ∀ fn l, InDeclared (C.segment fn l r s w).2.1 := fun fn l => h.segment hC fn l r s
    unfold stepAgent
    cases ha : w.agents[r]? with
    | none => exact h
    | some a =>
      simp only
      cases hk : a.kind with
      | plain fn =>
        simp only [funStep]
        split <;> exact hseg _ _
      | gen async fn =>
        refine InDeclared.modify ?_ _ _ (fun a _ => ⟨rfl, fun cls _ _ hs => ⟨hs, id⟩⟩)
        simp only [genStep, genBody]
        cases hco : a.co with
        | none => simp only [settle]; split <;> exact hseg _ _
        | susp l => simp only [settle]; split <;> exact hseg _ _
        | ended => simp only; split <;> exact h
      | fsm cls =>
        refine InDeclared.modify ?_ _ _ (fun a _ => ⟨rfl, fun cls _ _ hs => ⟨hs, id⟩⟩)
        have hfin : ∀ fn l v, (C.segment fn l r s w).1 = .ret v → ∀ cur,
            (cur = match (C.segment fn l r s w).2.1.agents[r]? with
              | some a => a.state
              | Option.none => Option.none) →
            InDeclared ((C.segment fn l r s w).2.1.modify r (fun a => { a with state := (fsmReturn cls cur v).1 })) := by
          intro fn l v hv cur hcur
          refine (hseg fn l).modify _ _ (fun b hb => ⟨rfl, fun cls' hk' hg hd => ?_⟩)
          obtain ⟨b', hb1, hb2, _⟩ := segment_agent C fn l r s w r a ha
          rw [hb] at hb1; cases hb1
          rw [hb2, hk] at hk'; cases hk'
          rw [hb] at hcur
          simp only at hcur
          subst hcur
          have hv' : (C.run fn l r s w).1 = .ret v := by
            simp only [UserCode.segment] at hv
            cases hc : (C.run fn l r s w).1 with
            | yld v' l' => rw [hc] at hv; cases hv
            | ret v' => rw [hc] at hv; cases hv; rfl
            | raise e => rw [hc] at hv; cases hv
          exact fsmReturn_declared hg (hC.ret fn l r s w a cls v ha hk hv') hd
        have hbody : ∀ l, InDeclared (fsmBody C cls r s l (w, [])).2.1 := by
          intro l
          unfold fsmBody
          cases l with
          | some p =>
            simp only
            split
            · rename_i v hv
              exact hfin _ _ v hv _ rfl
            · exact hseg _ _
          | none =>
            simp only [ha]
            split
            · split
              · split
                · rename_i v hv
                  exact hfin _ _ v hv _ rfl
                · exact hseg _ _
              · exact h
            · exact h
        simp only [genStep]
        cases hco : a.co with
        | none => simp only [settle]; split <;> exact hbody _
        | susp l => simp only [settle]; split <;> exact hbody _
        | ended => exact h
  · intro l w h
    obtain ⟨h1, _⟩ := C.shuffle_agents l w
    unfold InDeclared at h ⊢
    rw [h1]; exact h

end Verif
