import Verif.Model.Frames
import Verif.Props.Data

/-!
# C95: `agent_df` labels the data of agents with the time at which it was collected
-/

namespace Verif

variable {S A : Type}

theorem collect_agentReporters (ob : Observed S A) (c : Collector S A) (s : S) :
    (c.collect ob s).1.agentReporters = c.agentReporters := by
  unfold Collector.collect
  simp only
  split
  · rfl
  · split
    · rfl
    · split <;> rfl

/-- What a sequence of collections leaves, when the step numbers increase: a column with one row and one record for each. -/
theorem collectSeq_spec (ob : Observed S A) (f : ModelRep S) (ss : List S) (c : Collector S A) (l : List RVal)
    (hcol : HasColumn c "time" f l) (hne : c.agentReporters ≠ []) (hinc : (ss.map ob.key).Pairwise (· < ·))
    (hlt : ∀ k ∈ Dict.keys c.agentRecords, ∀ s ∈ ss, k < ob.key s) (hok : (collectSeq ob c ss).2 = false) :
    ∃ (vs : List RVal) (recs : List (List (A × List RVal))),
      ss.map f = vs.map some ∧ ss.map (recordAgents ob c.agentReporters) = recs.map some ∧
      HasColumn (collectSeq ob c ss).1 "time" f (l ++ vs) ∧
      (collectSeq ob c ss).1.agentRecords = c.agentRecords ++ (ss.map ob.key).zip recs ∧
      (collectSeq ob c ss).1.agentReporters = c.agentReporters := by
  induction ss generalizing c l with
  | nil => exact ⟨[], [], rfl, rfl, by simpa [collectSeq] using hcol, by simp [collectSeq], rfl⟩
  | cons s ss ih =>
    simp only [collectSeq] at hok ⊢
    by_cases hr : (c.collect ob s).2 = true
    · rw [if_pos hr, hr] at hok; cases hok
    · rw [if_neg hr] at hok ⊢
      have hr' : (c.collect ob s).2 = false := by simpa using hr
      obtain ⟨v, hv, hcol'⟩ := hcol.collect ob s hr'
      obtain ⟨rec, h1, h2⟩ := collect_records ob c s hr' hne
      have h3 := collect_agentReporters ob c s
      have hset : (c.collect ob s).1.agentRecords = c.agentRecords ++ [(ob.key s, rec)] := by
        rw [h2, Dict.set_of_absent]
        intro hk
        exact absurd (hlt _ hk s (by simp)) (lt_irrefl _)
      rw [List.map_cons, List.pairwise_cons] at hinc
      obtain ⟨vs, recs, i1, i2, i3, i4, i5⟩ := ih (c.collect ob s).1 (l ++ [v]) hcol' (by rw [h3]; exact hne) hinc.2 (by
        intro k hk s' hs'
        rw [hset] at hk
        simp only [Dict.keys, List.map_append, List.mem_append, List.map_cons, List.map_nil, List.mem_singleton] at hk
        rcases hk with hk | rfl
        · exact hlt k hk s' (by simp [hs'])
        · exact hinc.1 _ (List.mem_map.2 ⟨s', hs', rfl⟩)) hok
      refine ⟨v :: vs, rec :: recs, by simp [hv, i1], ?_, ?_, ?_, i5.trans h3⟩
      · rw [h3] at i2; simp [h1, i2]
      · simpa using i3
      · rw [i4, hset]; simp

theorem mapM_some {α β : Type} (f : α → Option β) (g : α → β) (l : List α) (h : ∀ a ∈ l, f a = some (g a)) :
    l.mapM f = some (l.map g) := by
  induction l with
  | nil => rfl
  | cons a l ih =>
    rw [List.mapM_cons, h a (by simp), ih (fun b hb => h b (by simp [hb]))]
    rfl

/-- A collection without rows found no agents. -/
theorem recordAgents_nil (ob : Observed S A) (reps : Dict String (AgentRep S A)) (s : S) (h : recordAgents ob reps s = some []) :
    ob.agents s = [] := by
  unfold recordAgents at h
  cases ha : ob.agents s with
  | nil => rfl
  | cons a l =>
    rw [ha, List.mapM_cons] at h
    generalize (Option.map (fun vs => (a, vs)) (reps.mapM (fun (nf : String × AgentRep S A) => nf.2 s a))) = x at h
    cases x with
    | none => cases h
    | some v =>
      revert h
      generalize (l.mapM (fun a => (reps.mapM (fun (nf : String × AgentRep S A) => nf.2 s a)).map (fun vs => (a, vs)))) = y
      intro h
      cases y with
      | none => cases h
      | some ys => cases h

/-- The table in general: the `i`-th collection that found agents is labelled with the `i`-th value of the column. -/
theorem agentDf_general (c : Collector S A) (ks : List Nat) (recs : List (List (A × List RVal))) (labels : List RVal)
    (hne : c.agentReporters ≠ []) (hlen : ks.length = recs.length) (hks : ks.Pairwise (· < ·)) (hr : c.agentRecords = ks.zip recs)
    (ht : Dict.get? c.modelVars "time" = some labels) (hl : ks.length ≤ labels.length) (hnd : labels.Nodup)
    (hsome : ∃ r ∈ recs, r ≠ []) :
    agentDf c = some (((recs.filter (fun r => !r.isEmpty)).zip labels).flatMap (fun rl => rl.1.map (fun r => (rl.2, r)))) := by
  -- the levels
  have hlev : stepLevels c.agentRecords = ((ks.zip recs).filter (fun p => !p.2.isEmpty)).map Prod.fst := by
    rw [hr]
    unfold stepLevels
    refine List.Pairwise.insertionSort_eq (List.Pairwise.imp (fun h => Nat.le_of_lt h) ?_)
    refine List.Pairwise.sublist (l₂ := (ks.zip recs).map Prod.fst) (List.Sublist.map _ List.filter_sublist) ?_
    rw [List.map_fst_zip (by omega)]
    exact hks
  generalize hpairs : (ks.zip recs).filter (fun p => !p.2.isEmpty) = pairs at hlev
  have hpsub : (pairs.map Prod.fst).Pairwise (· < ·) := by
    rw [← hpairs]
    refine List.Pairwise.sublist (l₂ := (ks.zip recs).map Prod.fst) (List.Sublist.map _ List.filter_sublist) ?_
    rw [List.map_fst_zip (by omega)]
    exact hks
  have hplen : pairs.length ≤ labels.length := by
    rw [← hpairs]
    refine le_trans (List.length_filter_le _ _) ?_
    simp; omega
  have hrows : c.agentRecords.flatMap (fun p => p.2.map (fun r => (p.1, r))) =
      pairs.flatMap (fun p => p.2.map (fun r => (p.1, r))) := by
    rw [hr, ← hpairs]
    generalize ks.zip recs = z
    induction z with
    | nil => rfl
    | cons p z ih =>
      obtain ⟨k, r⟩ := p
      cases r with
      | nil => simpa using ih
      | cons x r => simp [ih]
  have hfil : recs.filter (fun r => !r.isEmpty) = pairs.map Prod.snd := by
    rw [← hpairs]
    clear hlev hpairs hpsub hplen hrows hr hsome hks hl
    induction recs generalizing ks with
    | nil => simp
    | cons r recs ih =>
      cases ks with
      | nil => simp at hlen
      | cons k ks =>
        have := ih ks (by simpa using hlen)
        cases r with
        | nil => simpa using this
        | cons x r => simp [this]
  have hpne : pairs.flatMap (fun p => p.2.map (fun r => (p.1, r))) ≠ [] := by
    obtain ⟨r, h1, h2⟩ := hsome
    have h3 : r ∈ recs.filter (fun r => !r.isEmpty) := by
      rw [List.mem_filter]; exact ⟨h1, by simpa using h2⟩
    rw [hfil] at h3
    obtain ⟨p, h4, rfl⟩ := List.mem_map.1 h3
    intro h5
    rw [List.flatMap_eq_nil_iff] at h5
    exact h2 (by simpa using h5 p h4)
  have hne' : c.agentReporters.isEmpty = false := by simpa using hne
  unfold agentDf
  rw [hne']
  simp only [Bool.false_eq_true, if_false]
  rw [hrows, if_neg (by simpa using hpne), ht]
  simp only
  rw [hlev, if_pos ⟨by simpa using hplen, hnd⟩]
  rw [hfil]
  -- lookups
  have hidx : ∀ p ∈ pairs.zipIdx, (pairs.map Prod.fst).idxOf p.1.1 = p.2 := by
    intro p hp
    obtain ⟨hi, he⟩ := List.mk_mem_zipIdx_iff_getElem?.1 hp |> List.getElem?_eq_some_iff.1
    have hnd' : (pairs.map Prod.fst).Nodup := hpsub.imp (fun h => ne_of_lt h)
    have := hnd'.idxOf_getElem p.2 (by simpa using hi)
    simpa [he] using this
  have e1 : pairs.flatMap (fun p => p.2.map (fun r => (p.1, r))) =
      pairs.zipIdx.flatMap (fun p => p.1.2.map (fun r => (p.1.1, r))) := by
    conv_lhs => rw [← List.zipIdx_map_fst 0 pairs]
    rw [List.flatMap_map]
  rw [e1]
  have e2 : (((pairs.map Prod.snd).zip labels).flatMap (fun rl => rl.1.map (fun r => (rl.2, r)))) =
      pairs.zipIdx.flatMap (fun p => p.1.2.map (fun r => ((labels[p.2]?).getD .none, r))) := by
    have : (pairs.map Prod.snd).zip labels = pairs.zipIdx.map (fun p => (p.1.2, (labels[p.2]?).getD .none)) := by
      apply List.ext_getElem?
      intro i
      by_cases hi : i < pairs.length
      · have hi' : i < labels.length := by omega
        simp [hi, hi']
      · simp [hi]
    rw [this, List.flatMap_map]
  rw [e2]
  have e3 : ∀ z : List ((Nat × List (A × List RVal)) × Nat), (∀ p ∈ z, (labels[(pairs.map Prod.fst).idxOf p.1.1]?) =
        some ((labels[p.2]?).getD .none)) →
      (z.flatMap (fun p => p.1.2.map (fun r => (p.1.1, r)))).mapM
          (fun kr => (labels[(pairs.map Prod.fst).idxOf kr.1]?).map (fun l => (l, kr.2))) =
        some (z.flatMap (fun p => p.1.2.map (fun r => ((labels[p.2]?).getD .none, r)))) := by
    intro z
    induction z with
    | nil => intro _; rfl
    | cons p z ih =>
      intro hz
      rw [List.flatMap_cons, List.mapM_append, ih (fun q hq => hz q (by simp [hq])), List.flatMap_cons]
      rw [mapM_some _ (fun kr => ((labels[p.2]?).getD .none, kr.2))]
      · simp [Function.comp_def]
      · intro kr hkr
        obtain ⟨r, _, rfl⟩ := List.mem_map.1 hkr
        simp only
        rw [hz p (by simp)]
        rfl
  apply e3
  intro p hp
  rw [hidx p hp]
  have hi : p.2 < labels.length := by
    obtain ⟨hi, _⟩ := List.mk_mem_zipIdx_iff_getElem?.1 hp |> List.getElem?_eq_some_iff.1
    omega
  rw [List.getElem?_eq_getElem hi]
  rfl

/-- What the collections of the states `ss` should give: each row with the value of `time` at the moment it was collected. -/
def Spec.labelled (vs : List RVal) (recs : List (List (A × List RVal))) : List (RVal × A × List RVal) :=
  (recs.zip vs).flatMap (fun rv => rv.1.map (fun r => (rv.2, r)))

/-- C95, what holds: if the step number increases between collections, the times are distinct and there are agents at every
collection, the table has exactly the collected rows, each with the time of its collection. Missing: the other cases, see below. -/
theorem C95_labels_partial (ob : Observed S A) (f : ModelRep S) (ss : List S) (c : Collector S A) (hcol : HasColumn c "time" f [])
    (hrec : c.agentRecords = []) (hne : c.agentReporters ≠ []) (hinc : (ss.map ob.key).Pairwise (· < ·))
    (hd : (ss.map f).Nodup) (hag : ∀ s ∈ ss, ob.agents s ≠ []) (hss : ss ≠ []) (hok : (collectSeq ob c ss).2 = false) :
    ∃ vs recs, ss.map f = vs.map some ∧ ss.map (recordAgents ob c.agentReporters) = recs.map some ∧
      agentDf (collectSeq ob c ss).1 = some (Spec.labelled vs recs) := by
  obtain ⟨vs, recs, h1, h2, h3, h4, h5⟩ := collectSeq_spec ob f ss c [] hcol hne hinc (by simp [hrec, Dict.keys]) hok
  refine ⟨vs, recs, h1, h2, ?_⟩
  have l1 : ss.length = vs.length := by simpa using congrArg List.length h1
  have l2 : ss.length = recs.length := by simpa using congrArg List.length h2
  have hnonempty : ∀ r ∈ recs, r ≠ [] := by
    intro r hr
    have : some r ∈ ss.map (recordAgents ob c.agentReporters) := by rw [h2]; exact List.mem_map.2 ⟨r, hr, rfl⟩
    obtain ⟨s, hs, he⟩ := List.mem_map.1 this
    rintro rfl
    apply hag s hs
    exact recordAgents_nil ob c.agentReporters s he
  rw [agentDf_general _ (ss.map ob.key) recs vs (by rw [h5]; exact hne) (by simpa using l2) hinc (by rw [h4, hrec]; rfl)
    (by simpa using h3.rows) (by simp; omega) ?_ ?_]
  · rw [List.filter_eq_self.2]
    · rfl
    · intro r hr; simpa using hnonempty r hr
  · rw [h1] at hd
    exact List.Nodup.of_map _ hd
  · cases recs with
    | nil => simp at l2; exact absurd l2 hss
    | cons r recs => exact ⟨r, by simp, hnonempty r (by simp)⟩

/-- C95 is violated when the first collection finds no agents (they are created later) and the later ones do: every row gets the time
of the collection before its own. -/
theorem C95_shift_false (ob : Observed S A) (f : ModelRep S) (s0 : S) (ss : List S) (c : Collector S A) (hcol : HasColumn c "time" f [])
    (hrec : c.agentRecords = []) (hne : c.agentReporters ≠ []) (hinc : ((s0 :: ss).map ob.key).Pairwise (· < ·))
    (hd : ((s0 :: ss).map f).Nodup) (h0 : ob.agents s0 = []) (hag : ∀ s ∈ ss, ob.agents s ≠ []) (hss : ss ≠ [])
    (hok : (collectSeq ob c (s0 :: ss)).2 = false) :
    ∃ v0 vs recs, f s0 = some v0 ∧ ss.map f = vs.map some ∧ ss.map (recordAgents ob c.agentReporters) = recs.map some ∧
      agentDf (collectSeq ob c (s0 :: ss)).1 = some (Spec.labelled (v0 :: vs) recs) := by
  obtain ⟨vs, recs, h1, h2, h3, h4, h5⟩ := collectSeq_spec ob f (s0 :: ss) c [] hcol hne hinc (by simp [hrec, Dict.keys]) hok
  cases vs with
  | nil => simp at h1
  | cons v0 vs =>
  cases recs with
  | nil => simp at h2
  | cons r0 recs =>
  simp only [List.map_cons, List.cons.injEq] at h1 h2
  have hr0 : r0 = [] := by
    have := h2.1
    unfold recordAgents at this
    rw [h0] at this
    simpa using this.symm
  subst hr0
  have l1 : ss.length = vs.length := by simpa using congrArg List.length h1.2
  have l2 : ss.length = recs.length := by simpa using congrArg List.length h2.2
  have hnonempty : ∀ r ∈ recs, r ≠ [] := by
    intro r hr
    have : some r ∈ ss.map (recordAgents ob c.agentReporters) := by rw [h2.2]; exact List.mem_map.2 ⟨r, hr, rfl⟩
    obtain ⟨s, hs, he⟩ := List.mem_map.1 this
    rintro rfl
    exact hag s hs (recordAgents_nil ob c.agentReporters s he)
  refine ⟨v0, vs, recs, h1.1, h1.2, h2.2, ?_⟩
  rw [agentDf_general _ ((s0 :: ss).map ob.key) ([] :: recs) (v0 :: vs) (by rw [h5]; exact hne) (by simpa using l2) hinc
    (by rw [h4, hrec]; rfl) (by simpa using h3.rows) (by simp; omega) ?_ ?_]
  · rw [List.filter_cons_of_neg (by simp), List.filter_eq_self.2]
    · rfl
    · intro r hr; simpa using hnonempty r hr
  · have e : (s0 :: ss).map f = (v0 :: vs).map some := by simp [h1.1, h1.2]
    rw [e] at hd
    exact List.Nodup.of_map _ hd
  · cases recs with
    | nil => simp at l2; exact absurd l2 hss
    | cons r recs => exact ⟨r, by simp, hnonempty r (by simp)⟩

/-- C95 is violated when data was collected twice at the same time: `agent_df()` raises, whatever else was collected. -/
theorem C95_same_time_false (ob : Observed S A) (f : ModelRep S) (ss : List S) (c : Collector S A) (hcol : HasColumn c "time" f [])
    (hne : c.agentReporters ≠ []) (hd : ¬ (ss.map f).Nodup) (hok : (collectSeq ob c ss).2 = false) :
    agentDf (collectSeq ob c ss).1 = none := by
  have key : ∀ (ss : List S) (c : Collector S A) (l : List RVal), HasColumn c "time" f l → (collectSeq ob c ss).2 = false →
      ∃ vs, ss.map f = vs.map some ∧ HasColumn (collectSeq ob c ss).1 "time" f (l ++ vs) := by
    intro ss
    induction ss with
    | nil => intro c l h _; exact ⟨[], rfl, by simpa [collectSeq] using h⟩
    | cons s ss ih =>
      intro c l h hok
      simp only [collectSeq] at hok ⊢
      by_cases hr : (c.collect ob s).2 = true
      · rw [if_pos hr, hr] at hok; cases hok
      · rw [if_neg hr] at hok ⊢
        obtain ⟨v, hv, h'⟩ := h.collect ob s (by simpa using hr)
        obtain ⟨vs, i1, i2⟩ := ih _ _ h' hok
        exact ⟨v :: vs, by simp [hv, i1], by simpa using i2⟩
  obtain ⟨vs, h1, h2⟩ := key ss c [] hcol hok
  unfold agentDf
  split
  · rfl
  · simp only
    split
    · rfl
    · rw [show Dict.get? (collectSeq ob c ss).1.modelVars "time" = some vs by simpa using h2.rows]
      simp only
      rw [if_neg]
      rintro ⟨_, h⟩
      apply hd
      rw [h1]
      exact h.map (fun a b hab => by simpa using hab)

/-- An environment with the default scheduler and a reporter of the number of the agent. -/
def exFrame (H : Host Unit) (h : List (Cmd Unit)) (n : Nat) : DataEnv (Sched × Unit) Ref × Bool :=
  (DataEnv.new timedObserved (soilCollector (timedStepper H) timedObserved []
    [("r", fun _ a => some (.obj a))]) [] true (reach H 1 true () h)).1.steps (timedStepper H) timedObserved (fun _ => []) n

/-- C95 is violated with the default scheduler by any step that creates agents (here agent 0 creates agent 9 in its first step): the
agent is due at the same instant, so there are two collections at that time, and `agent_df()` raises. -/
theorem C95_spawn_false : ∃ (H : Host Unit) (h : List (Cmd Unit)) (n : Nat), (exFrame H h n).2 = false ∧
    Dict.get? (exFrame H h n).1.dc.modelVars "time" = some [.num 0, .num 0, .num 1] ∧ agentDf (exFrame H h n).1.dc = none := by
  refine ⟨⟨fun r s _ => (.ret none, if r = 0 ∧ s.steps = 0 then [.add 9 none] else [], ()), fun l _ => (l, ()),
    fun l _ => List.Perm.refl l⟩, [.op (.add 0 none)], 2, ?_⟩
  decide +kernel

/-- An agent that waits 2, and no spawning: the table is right. -/
def exTick : Host Unit := ⟨fun r _ _ => (.ret (some (.fin (1 + r))), [], ()), fun l _ => (l, ()), fun l _ => List.Perm.refl l⟩

example : agentDf (exFrame exTick [.op (.add 0 none), .op (.add 1 none)] 2).1.dc =
    some [(.num 0, 0, [.obj 0]), (.num 0, 1, [.obj 1]), (.num 1, 0, [.obj 0]), (.num 1, 1, [.obj 1]), (.num 2, 0, [.obj 0]),
      (.num 2, 1, [.obj 1])] := by
  decide +kernel

/-- States as pairs of a step number and a number of agents; the time is twice the step number. -/
def exObs : Observed (Nat × Nat) Nat := ⟨fun s => List.range s.2, fun s => s.1⟩

def exColl : Collector (Nat × Nat) Nat :=
  ⟨[("time", fun s => some (.num (.fin (2 * s.1))))], [("time", [])], [("r", fun _ a => some (.obj a))], []⟩

example : agentDf (collectSeq exObs exColl [(0, 1), (1, 2), (4, 1)]).1 =
      some [(.num 0, 0, [.obj 0]), (.num 2, 0, [.obj 0]), (.num 2, 1, [.obj 1]), (.num 8, 0, [.obj 0])] ∧
    agentDf (collectSeq exObs exColl [(0, 0), (1, 2), (4, 1)]).1 =
      some [(.num 0, 0, [.obj 0]), (.num 0, 1, [.obj 1]), (.num 2, 0, [.obj 0])] := by
  decide +kernel

end Verif
