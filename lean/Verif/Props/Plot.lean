import Verif.Model.Plot
import Verif.Props.Frames

/-!
# Theorems about drawing (C179-C182)
-/

namespace Verif

variable {S A : Type} [DecidableEq A]

/-! ## C179: plot draws what the model reporters have collected -/

private theorem has_false_iff (d : Dict String (List RVal)) (k : String) : Dict.has d k = false ↔ k ∉ Dict.keys d := by
  rw [← Dict.get?_none_iff, Dict.has]
  cases Dict.get? d k <;> simp

private theorem modelVarsFrame_cols {c : Collector S A} {df : MFrame} (h : modelVarsFrame c = some df) : df.cols = c.modelVars := by
  unfold modelVarsFrame at h
  split at h
  · rename_i h'; obtain rfl := Option.some.inj h; exact h'.symm
  · rename_i k l vars h'
    split at h
    · obtain rfl := Option.some.inj h; exact h'.symm
    · cases h

/-- C179 (violated): `plot(env, steps=True)` raises for all models: the column `time` is not there, because it is the index. -/
theorem C179_steps_false (c : Collector S A) (hwf : Dict.WF c.modelVars) (ignore : List String) : plotEnv c true ignore = none := by
  unfold plotEnv
  cases hm : modelDf c false with
  | none => rfl
  | some df =>
    have : df.drop (ignore ++ ["time"]) = none := by
      unfold modelDf at hm
      cases hv : modelVarsFrame c with
      | none => simp [hv] at hm
      | some d =>
        have hcols := modelVarsFrame_cols hv
        simp only [hv, Bool.false_eq_true, if_false] at hm
        split at hm
        · cases hm
        · split at hm
          · cases hm
          · obtain rfl := Option.some.inj hm
            unfold MFrame.drop
            rw [if_neg]
            intro hall
            have := List.all_eq_true.1 hall "time" (by simp)
            simp only [Dict.has, Dict.get?] at this
            rw [if_neg (by decide), Dict.get?_del _ (hcols ▸ hwf), if_pos rfl] at this
            simp at this
    simp [this]

/-- C179 (violated): a model without reporters of its own cannot be drawn: after `agent_count` and `step` are dropped no column is left. -/
theorem C179_builtin_false (c : Collector S A) (hk : ∀ k ∈ Dict.keys c.modelVars, k = "agent_count" ∨ k = "time")
    (hwf : Dict.WF c.modelVars) : plotEnv c false ["agent_count"] = none := by
  unfold plotEnv
  cases hm : modelDf c false with
  | none => rfl
  | some df =>
    simp only [Bool.false_eq_true, if_false]
    cases hd : df.drop (["agent_count"] ++ ["step"]) with
    | none => rfl
    | some df' =>
      have : df'.cols = [] := by
        unfold modelDf at hm
        cases hv : modelVarsFrame c with
        | none => simp [hv] at hm
        | some d =>
          have hcols := modelVarsFrame_cols hv
          simp only [hv, Bool.false_eq_true, if_false] at hm
          split at hm
          · cases hm
          · split at hm
            · cases hm
            · obtain rfl := Option.some.inj hm
              unfold MFrame.drop at hd
              split at hd
              · obtain rfl := Option.some.inj hd
                simp only
                rw [List.filter_eq_nil_iff]
                rintro ⟨k, l⟩ hkl
                simp only [List.mem_cons] at hkl
                rcases hkl with hkl | hkl
                · obtain ⟨rfl, -⟩ := Prod.mk.inj hkl; simp
                · have hmem : k ∈ Dict.keys (Dict.del d.cols "time") := List.mem_map.2 ⟨_, hkl, rfl⟩
                  have h1 := hk k (hcols ▸ (Dict.keys_del_sublist d.cols "time").subset hmem)
                  have h2 : k ≠ "time" := by
                    rintro rfl
                    rw [Dict.mem_keys, Dict.get?_del _ (hcols ▸ hwf), if_pos rfl] at hmem
                    simp at hmem
                  rcases h1 with rfl | rfl
                  · simp
                  · exact absurd rfl h2
              · cases hd
      simp [MFrame.plot, this]

/-- C179 (violated): a model with a reporter called `step` cannot be drawn. -/
theorem C179_step_false (c : Collector S A) (h : "step" ∈ Dict.keys c.modelVars) (steps : Bool) (ignore : List String) :
    plotEnv c steps ignore = none := by
  have : modelDf c false = none := by
    unfold modelDf
    cases hv : modelVarsFrame c with
    | none => rfl
    | some d =>
      have hcols := modelVarsFrame_cols hv
      simp only [Bool.false_eq_true, if_false]
      rw [if_pos]
      rw [Dict.has, ← Dict.mem_keys, hcols]
      exact h
  simp [plotEnv, this]

/-- There are numbers in the column, and nothing but numbers and `None`. -/
def IsNumeric (l : List RVal) : Prop := (∃ q, .num q ∈ l) ∧ ∀ n, .obj n ∉ l

private theorem numericCol_iff (l : List RVal) : numericCol l = true ↔ IsNumeric l := by
  unfold numericCol IsNumeric
  rw [Bool.and_eq_true, List.any_eq_true, List.all_eq_true]
  constructor
  · rintro ⟨⟨v, hv, h1⟩, h2⟩
    refine ⟨?_, fun n hn => by simpa using h2 _ hn⟩
    cases v with
    | num q => exact ⟨q, hv⟩
    | _ => simp at h1
  · rintro ⟨⟨q, hq⟩, h2⟩
    refine ⟨⟨_, hq, rfl⟩, fun v hv => ?_⟩
    cases v with
    | obj n => exact absurd hv (h2 n)
    | _ => rfl

/-- C179 (partial): the data frame of the model has the columns of the reporters; its rows are numbered from 0, in the index or, by time, in the column `step`.
Missing: columns of different lengths. -/
theorem C179_model_df_partial (c : Collector S A) (n : Nat) (hlen : ∀ k l, (k, l) ∈ c.modelVars → l.length = n) (hne : c.modelVars ≠ [])
    (hs : "step" ∉ Dict.keys c.modelVars) (t : List RVal) (ht : Dict.get? c.modelVars "time" = some t) :
    ∃ d e, modelDf c true = some d ∧ modelDf c false = some e ∧ d.cols = c.modelVars ∧ d.index.length = n ∧
      (∀ (i : Nat), i < n → d.index[i]? = some (.num (.fin i))) ∧ e.index = t ∧ Dict.get? e.cols "step" = some d.index ∧
      (Dict.WF c.modelVars → ∀ k, k ≠ "step" → k ≠ "time" → Dict.get? e.cols k = Dict.get? c.modelVars k) := by
  have hv : ∃ df, modelVarsFrame c = some df ∧ df.index = (List.range n).map (fun i => .num (.fin i)) := by
    unfold modelVarsFrame
    split
    · next h => exact absurd h hne
    · rename_i k l vars he
      have hl : l.length = n := hlen k l (by simp [he])
      refine ⟨_, if_pos ?_, by rw [hl]⟩
      rw [List.all_eq_true]
      rintro ⟨k', l'⟩ h'
      simp [hl, hlen k' l' (by simp [he, h'])]
  obtain ⟨df, hv, hi⟩ := hv
  have hcols := modelVarsFrame_cols hv
  refine ⟨df, ⟨t, ("step", df.index) :: Dict.del df.cols "time"⟩, ?_, ?_, hcols, by simp [hi], ?_, rfl, by simp [Dict.get?], ?_⟩
  · simp [modelDf, hv]
  · unfold modelDf
    simp only [hv, hcols, Bool.false_eq_true, if_false, ht]
    rw [if_neg]
    rw [(has_false_iff _ _).2 hs]
    simp
  · intro i hlt
    simp [hi, hlt]
  · intro hwf k h1 h2
    rw [hcols]
    have : Dict.get? (("step", df.index) :: Dict.del c.modelVars "time") k = Dict.get? (Dict.del c.modelVars "time") k := by
      simp [Dict.get?, Ne.symm h1]
    rw [this, Dict.get?_del _ hwf, if_neg (Ne.symm h2)]

/-- C179 (partial): otherwise the columns drawn are exactly those of the numeric reporters of the model, except `agent_count`, by time.
Missing: `steps`, models without reporters of their own, and exceptions of `agent_df` (C95). -/
theorem C179_drawn_partial (c : Collector S A) (hwf : Dict.WF c.modelVars) (n : Nat) (hlen : ∀ k l, (k, l) ∈ c.modelVars → l.length = n)
    (ht : ∃ l, Dict.get? c.modelVars "time" = some l) (hc : "agent_count" ∈ Dict.keys c.modelVars)
    (hs : "step" ∉ Dict.keys c.modelVars) (k0 : String) (l0 : List RVal) (h0 : Dict.get? c.modelVars k0 = some l0)
    (hk0 : k0 ≠ "time" ∧ k0 ≠ "agent_count") (hn0 : IsNumeric l0) (ha : c.agentReporters = []) :
    ∃ m, plotEnv c false ["agent_count"] = some ⟨m, none⟩ ∧ Dict.get? c.modelVars "time" = some m.index ∧
      ∀ k l, (k, l) ∈ m.cols ↔ Dict.get? c.modelVars k = some l ∧ k ≠ "time" ∧ k ≠ "agent_count" ∧ IsNumeric l := by
  obtain ⟨t, ht⟩ := ht
  have hv : ∃ df, modelVarsFrame c = some df := by
    unfold modelVarsFrame
    split
    · exact ⟨_, rfl⟩
    · rename_i k l vars he
      refine ⟨_, if_pos ?_⟩
      rw [List.all_eq_true]
      rintro ⟨k', l'⟩ h'
      simp [hlen k l (by simp [he]), hlen k' l' (by simp [he, h'])]
  obtain ⟨df, hv⟩ := hv
  have hcols := modelVarsFrame_cols hv
  have hm : modelDf c false = some ⟨t, ("step", df.index) :: Dict.del c.modelVars "time"⟩ := by
    unfold modelDf
    simp only [hv, hcols, Bool.false_eq_true, if_false, ht]
    rw [if_neg]
    rw [(has_false_iff _ _).2 hs]
    simp
  have hd : (⟨t, ("step", df.index) :: Dict.del c.modelVars "time"⟩ : MFrame).drop (["agent_count"] ++ ["step"]) =
      some ⟨t, (("step", df.index) :: Dict.del c.modelVars "time").filter (fun x => decide (x.1 ∉ ["agent_count"] ++ ["step"]))⟩ := by
    unfold MFrame.drop
    rw [if_pos]
    rw [List.all_eq_true]
    intro k hk
    simp only [List.mem_append, List.mem_singleton] at hk
    rcases hk with rfl | rfl
    · rw [Dict.has, ← Dict.mem_keys]
      simp only [Dict.keys, List.map_cons, List.mem_cons]
      right
      have : "agent_count" ∈ Dict.keys (Dict.del c.modelVars "time") := by
        rw [Dict.mem_keys, Dict.get?_del _ hwf, if_neg (by decide), ← Dict.mem_keys]; exact hc
      exact this
    · simp [Dict.has, Dict.get?]
  have hmem : ∀ k l, (k, l) ∈ (("step", df.index) :: Dict.del c.modelVars "time").filter (fun x => decide (x.1 ∉ ["agent_count"] ++ ["step"])) ↔
      Dict.get? c.modelVars k = some l ∧ k ≠ "time" ∧ k ≠ "agent_count" := by
    intro k l
    have hdel : (k, l) ∈ Dict.del c.modelVars "time" ↔ Dict.get? c.modelVars k = some l ∧ k ≠ "time" := by
      have hw := hwf.del "time"
      constructor
      · intro h
        have h2 := Dict.get?_of_mem hw h
        rw [Dict.get?_del _ hwf] at h2
        split at h2
        · cases h2
        · rename_i hne; exact ⟨h2, fun e => hne e.symm⟩
      · rintro ⟨h, hne⟩
        apply Dict.get?_mem
        rw [Dict.get?_del _ hwf, if_neg (Ne.symm hne)]; exact h
    rw [List.mem_filter, List.mem_cons, hdel]
    simp only [List.mem_append, List.mem_singleton, not_or, decide_eq_true_eq]
    constructor
    · rintro ⟨h | h, h1, h2⟩
      · obtain ⟨rfl, -⟩ := Prod.mk.inj h; exact absurd rfl h2
      · exact ⟨h.1, h.2, h1⟩
    · rintro ⟨h1, h2, h3⟩
      refine ⟨.inr ⟨h1, h2⟩, h3, ?_⟩
      rintro rfl
      exact hs ((Dict.mem_keys _ _).2 (by simp [h1]))
  refine ⟨⟨t, ((("step", df.index) :: Dict.del c.modelVars "time").filter (fun x => decide (x.1 ∉ ["agent_count"] ++ ["step"]))).filter
      (fun x => numericCol x.2)⟩, ?_, ht, ?_⟩
  · unfold plotEnv
    simp only [hm, Bool.false_eq_true, if_false, hd]
    unfold MFrame.plot
    rw [if_pos]
    · simp [ha]
    · rw [List.any_eq_true]
      exact ⟨(k0, l0), (hmem k0 l0).2 ⟨h0, hk0⟩, (numericCol_iff l0).2 hn0⟩
  · intro k l
    rw [List.mem_filter, hmem]
    simp only [and_assoc, numericCol_iff]

/-- A model with a reporter of its own, and one without. -/
private def exPlot : Collector Unit Nat :=
  ⟨[], [("infected", [.num 1, .num 3]), ("label", [.obj 1, .obj 2]), ("agent_count", [.num 5, .num 5]), ("time", [.num 0, .num 2])], [], []⟩

private def exPlain : Collector Unit Nat := ⟨[], [("agent_count", [.num 5, .num 5]), ("time", [.num 0, .num 2])], [], []⟩

example : (plotEnv exPlot false ["agent_count"]).map Drawn.model = some ⟨[.num 0, .num 2], [("infected", [.num 1, .num 3])]⟩ ∧
    (plotEnv exPlot true ["agent_count"]).map Drawn.model = none ∧ (plotEnv exPlain false ["agent_count"]).map Drawn.model = none ∧
    (plotEnv exPlain false []).map Drawn.model = some ⟨[.num 0, .num 2], [("agent_count", [.num 5, .num 5])]⟩ := by
  decide +kernel

/-! ## C180: The agents drawn for a value are those that have it -/

/-- Two reporters that give the same value. -/
private def exTwo : Collector (Nat × Nat) Nat :=
  ⟨[("time", fun s => some (.num (.fin (2 * s.1))))], [("time", [])], [("p", fun _ _ => some (.obj 1)), ("q", fun _ _ => some (.obj 1))], []⟩

/-- C180 (violated): with two agent reporters the values of both are counted together: here two agents, and each counts twice. -/
theorem C180_mixed_false : ∃ (ob : Observed (Nat × Nat) Nat) (c : Collector (Nat × Nat) Nat) (s : Nat × Nat) (rows : List (RVal × Nat × List RVal)),
    agentDf (collectSeq ob c [s]).1 = some rows ∧ (ob.agents s).length = 2 ∧ valueCount rows (.num (.fin (2 * s.1))) (.obj 1) = 4 :=
  ⟨exObs, exTwo, (0, 2), [(.num 0, 0, [.obj 1, .obj 1]), (.num 0, 1, [.obj 1, .obj 1])], by decide +kernel, by decide, by decide +kernel⟩

private theorem valueCount_append (a b : List (RVal × A × List RVal)) (t v : RVal) :
    valueCount (a ++ b) t v = valueCount a t v + valueCount b t v := by
  unfold valueCount
  split
  · rfl
  · simp [List.count_append]

private theorem valueCount_other (a : List (RVal × A × List RVal)) (t v : RVal) (h : ∀ r ∈ a, r.1 ≠ t) : valueCount a t v = 0 := by
  unfold valueCount
  split
  · rfl
  · rw [List.filter_eq_nil_iff.2 (by intro r hr; simp [h r hr])]; rfl

private theorem valueCount_block (s : S) (f : AgentRep S A) (name : String) (t v : RVal) (hv : v ≠ .none) :
    ∀ (l : List A) (rec : List (A × List RVal)),
      l.mapM (fun a => (([(name, f)] : Dict String (AgentRep S A)).mapM (fun (nf : String × AgentRep S A) => nf.2 s a)).map (fun vs => (a, vs))) = some rec →
      valueCount (rec.map (fun r => (t, r))) t v = l.countP (fun a => decide (f s a = some v)) := by
  intro l
  induction l with
  | nil =>
    intro rec h
    obtain rfl : rec = [] := by simpa using h.symm
    simp [valueCount]
  | cons a l ih =>
    intro rec h
    rw [List.mapM_cons] at h
    cases hf : f s a with
    | none => simp [hf] at h
    | some w =>
      simp only [List.mapM_cons, List.mapM_nil, hf] at h
      cases hm : l.mapM (fun a => (([(name, f)] : Dict String (AgentRep S A)).mapM (fun (nf : String × AgentRep S A) => nf.2 s a)).map (fun vs => (a, vs))) with
      | none =>
        simp only [List.mapM_cons, List.mapM_nil] at hm
        rw [hm] at h
        simp at h
      | some rest =>
        have := ih rest hm
        simp only [List.mapM_cons, List.mapM_nil] at hm
        rw [hm] at h
        obtain rfl : (a, [w]) :: rest = rec := by simpa using h
        rw [List.map_cons, ← List.singleton_append, valueCount_append, this, List.countP_cons, hf]
        simp only [valueCount, if_neg hv]
        by_cases hw : w = v
        · subst hw; simp; omega
        · simp [hw]

private theorem count_labelled (ob : Observed S A) (time : ModelRep S) (name : String) (f : AgentRep S A) (v : RVal) (hv : v ≠ .none) :
    ∀ (ss : List S) (vs : List RVal) (recs : List (List (A × List RVal))), ss.map time = vs.map some →
      ss.map (recordAgents ob [(name, f)]) = recs.map some → (ss.map time).Nodup → ∀ s ∈ ss, ∀ t, time s = some t →
      valueCount (Spec.labelled vs recs) t v = (ob.agents s).countP (fun a => decide (f s a = some v)) := by
  intro ss
  induction ss with
  | nil => intro vs recs _ _ _ s hs; simp at hs
  | cons s0 ss ih =>
    intro vs recs h1 h2 hnd s hs t ht
    cases vs with
    | nil => simp at h1
    | cons v0 vs =>
    cases recs with
    | nil => simp at h2
    | cons r0 recs =>
    simp only [List.map_cons, List.cons.injEq] at h1 h2
    rw [List.map_cons, List.nodup_cons] at hnd
    have hsplit : Spec.labelled (v0 :: vs) (r0 :: recs) = r0.map (fun r => (v0, r)) ++ Spec.labelled vs recs := by
      simp [Spec.labelled]
    rw [hsplit, valueCount_append]
    by_cases htv : t = v0
    · subst htv
      have hs0 : s = s0 := by
        rcases List.mem_cons.1 hs with h | h
        · exact h
        · exact absurd (List.mem_map.2 ⟨s, h, ht.trans h1.1.symm⟩) hnd.1
      subst hs0
      have hrest : valueCount (Spec.labelled vs recs) t v = 0 := by
        apply valueCount_other
        intro r hr he
        simp only [Spec.labelled, List.mem_flatMap, List.mem_map] at hr
        obtain ⟨⟨rec, w⟩, hz, x, _, rfl⟩ := hr
        have hw : w ∈ vs := (List.of_mem_zip hz).2
        simp only at he
        apply hnd.1
        rw [h1.1, h1.2, ← he]
        exact List.mem_map.2 ⟨w, hw, rfl⟩
      rw [hrest, Nat.add_zero]
      exact valueCount_block s f name t v hv (ob.agents s) r0 h2.1
    · have hs' : s ∈ ss := by
        rcases List.mem_cons.1 hs with rfl | h
        · rw [ht] at h1; exact absurd (Option.some.inj h1.1) htv
        · exact h
      rw [valueCount_other (r0.map (fun r => (v0, r))) t v (by
        intro r hr he
        obtain ⟨x, _, rfl⟩ := List.mem_map.1 hr
        exact htv he.symm), Nat.zero_add]
      exact ih vs recs h1.2 h2.2 hnd.2 s hs' t ht

/-- C180 (partial): with one agent reporter `f`, if data was collected at distinct times with increasing step numbers, and there were agents each
time, then for each collection and each value (not `None`) the number drawn is that of the agents for which `f` gave the value; `None` is not drawn. -/
theorem C180_counts_partial (ob : Observed S A) (time : ModelRep S) (name : String) (f : AgentRep S A) (ss : List S) (c : Collector S A)
    (hcol : HasColumn c "time" time []) (hrec : c.agentRecords = []) (hne : c.agentReporters = [(name, f)])
    (hinc : (ss.map ob.key).Pairwise (· < ·)) (hd : (ss.map time).Nodup) (hag : ∀ s ∈ ss, ob.agents s ≠ []) (hss : ss ≠ [])
    (hok : (collectSeq ob c ss).2 = false) :
    ∃ rows, agentDf (collectSeq ob c ss).1 = some rows ∧
      ∀ s ∈ ss, ∀ t v, time s = some t → v ≠ .none → (valueCount rows t v = (ob.agents s).countP (fun a => decide (f s a = some v)) ∧
        valueCount rows t .none = 0) := by
  obtain ⟨vs, recs, h1, h2, h3⟩ := C95_labels_partial ob time ss c hcol hrec (by simp [hne]) hinc hd hag hss hok
  rw [hne] at h2
  exact ⟨_, h3, fun s hs t v ht hv => ⟨count_labelled ob time name f v hv ss vs recs h1 h2 hd s hs t ht, by simp [valueCount]⟩⟩

/-- States with agents that are even or odd. -/
private def exParity : Collector (Nat × Nat) Nat :=
  ⟨[("time", fun s => some (.num (.fin (2 * s.1))))], [("time", [])], [("p", fun _ a => some (.obj (a % 2)))], []⟩

example : ((agentDf (collectSeq exObs exParity [(0, 1), (1, 5), (4, 2)]).1).map
    (fun rows => [valueCount rows (.num 0) (.obj 0), valueCount rows (.num 2) (.obj 0), valueCount rows (.num 2) (.obj 1),
      valueCount rows (.num 8) (.obj 1)])) = some [1, 3, 2, 1] := by
  decide +kernel

/-! ## C181: The page shows a model with the parameters chosen -/

variable {V : Type} [DecidableEq V]

/-- The names of the parameters of the page. -/
private def PageInv (ks : List String) (p : Page V) : Prop :=
  Dict.keys p.params = ks ∧
  ∀ m, p.memo = some m → Dict.keys m.2.2 = ks ∧ m.1.1 = m.2.2.map Prod.snd ∧ p.controller = some m.2 ∧ m.2.1 < p.made

private theorem dict_ext {d e : Dict String V} (hk : Dict.keys d = Dict.keys e) (hv : d.map Prod.snd = e.map Prod.snd) : d = e := by
  induction d generalizing e with
  | nil => cases e with
    | nil => rfl
    | cons b e => simp at hv
  | cons a d ih => cases e with
    | nil => simp at hv
    | cons b e =>
      simp only [Dict.keys, List.map_cons, List.cons.injEq] at hk hv
      rw [ih (e := e) hk.2 hv.2, Prod.ext hk.1 hv.1]

private theorem render_inv {ks : List String} {p : Page V} (h : PageInv ks p) :
    PageInv ks p.render ∧ p.render.params = p.params ∧ p.render.resets = p.resets ∧
    ∃ m, p.render.memo = some m ∧ m.1 = (p.params.map Prod.snd, p.resets) := by
  unfold Page.render
  simp only
  split
  · exact ⟨⟨h.1, fun m hm => by obtain rfl := Option.some.inj hm; exact ⟨h.1, rfl, rfl, Nat.lt_succ_self _⟩⟩, rfl, rfl, _, rfl, rfl⟩
  · rename_i m hm
    split
    · rename_i he; exact ⟨h, rfl, rfl, m, hm, he⟩
    · exact ⟨⟨h.1, fun m hm => by obtain rfl := Option.some.inj hm; exact ⟨h.1, rfl, rfl, Nat.lt_succ_self _⟩⟩, rfl, rfl, _, rfl, rfl⟩

/-- The parameters that the user has chosen: the initial ones, changed one after the other. -/
def chosen (ps : Dict String (PageParam V)) (evs : List (PageEv V)) (k : String) : Option V :=
  evs.foldl (fun r e => match e with | .change n v => if n = k then some v else r | _ => r)
    (match Dict.get? ps k with | some (.fixed v) => some v | some (.user v) => some v | none => none)

/-- A page that was rendered: `g` are its parameters. -/
private def Shown (ks : List String) (g : String → Option V) (p : Page V) : Prop :=
  PageInv ks p ∧ (∃ m, p.memo = some m ∧ m.1 = (p.params.map Prod.snd, p.resets)) ∧ ∀ k, Dict.get? p.params k = g k

private theorem Shown.on {ks : List String} {g : String → Option V} {p : Page V} (h : Shown ks g p) (e : PageEv V)
    (he : ∀ n v, e = .change n v → n ∈ ks) :
    Shown ks (fun k => match e with | .change n v => if n = k then some v else g k | _ => g k) (p.on e) := by
  cases e with
  | redraw =>
    obtain ⟨h1, h2, h3, h4⟩ := render_inv h.1
    exact ⟨h1, by simp only [Page.on]; rw [h2, h3]; exact h4, fun k => by simp only [Page.on]; rw [h2]; exact h.2.2 k⟩
  | reset =>
    have hp : PageInv ks ({ p with resets := p.resets + 1 } : Page V) := h.1
    obtain ⟨h1, h2, h3, h4⟩ := render_inv hp
    exact ⟨h1, by simp only [Page.on]; rw [h2, h3]; exact h4, fun k => by simp only [Page.on]; rw [h2]; exact h.2.2 k⟩
  | change n v =>
    have hn := he n v rfl
    have hp : PageInv ks ({ p with params := Dict.set p.params n v } : Page V) := by
      refine ⟨?_, h.1.2⟩
      simp only
      rw [Dict.keys_set, if_pos (by rw [h.1.1]; exact hn), h.1.1]
    obtain ⟨h1, h2, h3, h4⟩ := render_inv hp
    refine ⟨h1, by simp only [Page.on]; rw [h2, h3]; exact h4, fun k => ?_⟩
    simp only [Page.on]
    rw [h2]
    simp only
    rw [Dict.get?_set]
    split
    · rfl
    · exact h.2.2 k

private theorem shown_run (ks : List String) : ∀ (evs : List (PageEv V)) (g : String → Option V) (p : Page V), Shown ks g p →
    (∀ n v, .change n v ∈ evs → n ∈ ks) →
    Shown ks (fun k => evs.foldl (fun r e => match e with | .change n v => if n = k then some v else r | _ => r) (g k)) (evs.foldl Page.on p) := by
  intro evs
  induction evs with
  | nil => intro g p h _; exact h
  | cons e evs ih =>
    intro g p h he
    have h1 := h.on e (fun n v hv => he n v (by simp [hv]))
    have := ih _ _ h1 (fun n v hv => he n v (by simp [hv]))
    simp only [List.foldl_cons]
    convert this using 3

private theorem get?_fixed (ps : Dict String (PageParam V)) (hwf : Dict.WF ps) (k : String) :
    Dict.get? (fixedParams ps) k = (match Dict.get? ps k with | some (.fixed v) => some v | _ => none) ∧
    Dict.get? (userParams ps) k = (match Dict.get? ps k with | some (.user v) => some v | _ => none) := by
  induction ps with
  | nil => simp [fixedParams, userParams, Dict.get?]
  | cons a ps ih =>
    obtain ⟨n, x⟩ := a
    have hw : n ∉ Dict.keys ps ∧ Dict.WF ps := by simpa [Dict.WF, Dict.keys] using hwf
    obtain ⟨ih1, ih2⟩ := ih hw.2
    have hnone : n = k → Dict.get? ps k = none := by
      rintro rfl
      rw [Dict.get?_none_iff]; exact hw.1
    cases x with
    | fixed v =>
      have e1 : fixedParams ((n, .fixed v) :: ps) = (n, v) :: fixedParams ps := rfl
      have e2 : userParams ((n, .fixed v) :: ps) = userParams ps := rfl
      rw [e1, e2]
      simp only [Dict.get?]
      by_cases hk : n = k
      · rw [if_pos hk, if_pos hk, ih2, hnone hk]; exact ⟨rfl, rfl⟩
      · rw [if_neg hk, if_neg hk]; exact ⟨ih1, ih2⟩
    | user v =>
      have e1 : fixedParams ((n, .user v) :: ps) = fixedParams ps := rfl
      have e2 : userParams ((n, .user v) :: ps) = (n, v) :: userParams ps := rfl
      rw [e1, e2]
      simp only [Dict.get?]
      by_cases hk : n = k
      · rw [if_pos hk, if_pos hk, ih1, hnone hk]; exact ⟨rfl, rfl⟩
      · rw [if_neg hk, if_neg hk]; exact ⟨ih1, ih2⟩

private theorem userParams_wf (ps : Dict String (PageParam V)) (hwf : Dict.WF ps) : Dict.WF (userParams ps) := by
  induction ps with
  | nil => exact List.nodup_nil
  | cons a ps ih =>
    obtain ⟨n, x⟩ := a
    have hw : n ∉ Dict.keys ps ∧ Dict.WF ps := by simpa [Dict.WF, Dict.keys] using hwf
    cases x with
    | fixed v => exact ih hw.2
    | user v =>
      have e2 : userParams ((n, .user v) :: ps) = (n, v) :: userParams ps := rfl
      rw [e2]
      refine List.nodup_cons.2 ⟨?_, ih hw.2⟩
      intro hm
      have hm : n ∈ Dict.keys (userParams ps) := hm
      rw [Dict.mem_keys, (get?_fixed ps hw.2 n).2, (Dict.get?_none_iff ps n).2 hw.1] at hm
      simp at hm

private theorem init_get (ps : Dict String (PageParam V)) (hwf : Dict.WF ps) (k : String) :
    Dict.get? (Dict.update (fixedParams ps) (userParams ps)) k =
      (match Dict.get? ps k with | some (.fixed v) => some v | some (.user v) => some v | none => none) := by
  rw [Dict.get?_update _ _ (userParams_wf ps hwf), (get?_fixed ps hwf k).1, (get?_fixed ps hwf k).2]
  cases Dict.get? ps k with
  | none => rfl
  | some x => cases x <;> rfl

private theorem shown_all (ps : Dict String (PageParam V)) (hwf : Dict.WF ps) (evs : List (PageEv V))
    (hev : ∀ n v, .change n v ∈ evs → ∃ v', Dict.get? ps n = some (.user v')) :
    Shown (Dict.keys (Dict.update (fixedParams ps) (userParams ps))) (chosen ps evs) (evs.foldl Page.on (pageInit ps).render) := by
  have h0 : PageInv (Dict.keys (Dict.update (fixedParams ps) (userParams ps))) (pageInit ps) :=
    ⟨rfl, fun m hm => by simp [pageInit] at hm⟩
  obtain ⟨h1, h2, h3, h4⟩ := render_inv h0
  have hs : Shown (Dict.keys (Dict.update (fixedParams ps) (userParams ps)))
      (fun k => match Dict.get? ps k with | some (.fixed v) => some v | some (.user v) => some v | none => none) (pageInit ps).render :=
    ⟨h1, by rw [h2, h3]; exact h4, fun k => by rw [h2]; exact init_get ps hwf k⟩
  refine shown_run _ evs _ _ hs (fun n v hn => ?_)
  obtain ⟨v', hv'⟩ := hev n v hn
  rw [Dict.mem_keys, init_get ps hwf, hv']
  rfl

/-- C181: after any events, if only the parameters with input elements are changed, the model of the page is the one of the controller and it was made with the
parameters that were chosen; and a reset or a change of a value has made a new model. -/
theorem C181_current (ps : Dict String (PageParam V)) (hwf : Dict.WF ps) (evs : List (PageEv V))
    (hev : ∀ n v, .change n v ∈ evs → ∃ v', Dict.get? ps n = some (.user v')) :
    ∃ deps i d, (evs.foldl Page.on (pageInit ps).render).memo = some (deps, (i, d)) ∧
      (evs.foldl Page.on (pageInit ps).render).controller = some (i, d) ∧ ∀ k, Dict.get? d k = chosen ps evs k := by
  obtain ⟨⟨hk, hm⟩, ⟨⟨deps, i, d⟩, h1, h2⟩, h3⟩ := shown_all ps hwf evs hev
  obtain ⟨m1, m2, m3, m4⟩ := hm _ h1
  refine ⟨deps, i, d, h1, m3, fun k => ?_⟩
  rw [← h3 k]
  congr 1
  simp only at m1 m2 h2
  refine dict_ext (by rw [m1, hk]) ?_
  rw [← m2, h2]

/-- The number of the model that the page shows. -/
def Page.shows (p : Page V) : Option Nat := p.memo.map (fun m => m.2.1)

private theorem set_same {d : Dict String V} {n : String} {v : V} (h : Dict.get? d n = some v) : Dict.set d n v = d := by
  induction d with
  | nil => simp at h
  | cons a d ih =>
    obtain ⟨k, w⟩ := a
    simp only [Dict.get?] at h
    simp only [Dict.set]
    split
    · rename_i hk; subst hk; simp at h; rw [h]
    · rename_i hk; rw [if_neg hk] at h; rw [ih h]

private theorem render_new {ks : List String} {p : Page V} (h : PageInv ks p) (m : (List V × Nat) × (Nat × Dict String V)) (hm : p.memo = some m)
    (hne : m.1 ≠ (p.params.map Prod.snd, p.resets)) : p.render.shows ≠ some m.2.1 := by
  have := (h.2 m hm).2.2.2
  unfold Page.render
  simp only [hm, if_neg hne, Page.shows, Option.map_some, ne_eq, Option.some.injEq]
  omega

/-- C181: a reset and a change of a value make a new model; if the page is only drawn again, or a parameter is set to the value it has, the
model stays. -/
theorem C181_new_model (ps : Dict String (PageParam V)) (hwf : Dict.WF ps) (evs : List (PageEv V))
    (hev : ∀ n v, .change n v ∈ evs → ∃ v', Dict.get? ps n = some (.user v')) (n : String) (v' v : V) (hn : Dict.get? ps n = some (.user v')) :
    let p := evs.foldl Page.on (pageInit ps).render
    (p.on .reset).shows ≠ p.shows ∧ (p.on .redraw).shows = p.shows ∧ ((p.on (.change n v)).shows = p.shows ↔ chosen ps evs n = some v) := by
  intro p
  obtain ⟨hi, ⟨m, hm, hmd⟩, hg⟩ := shown_all ps hwf evs hev
  change PageInv _ p at hi
  change p.memo = some m at hm
  change m.1 = (p.params.map Prod.snd, p.resets) at hmd
  change ∀ k, Dict.get? p.params k = chosen ps evs k at hg
  have hshows : p.shows = some m.2.1 := by simp [Page.shows, hm]
  refine ⟨?_, ?_, ?_, ?_⟩
  · rw [hshows]
    refine render_new (p := ({ p with resets := p.resets + 1 } : Page V)) hi m hm ?_
    rw [hmd]
    simp
  · simp only [Page.on, Page.render, hm, if_pos hmd]
  · intro h
    by_contra hne
    rw [hshows] at h
    have hi2 : PageInv (Dict.keys (Dict.update (fixedParams ps) (userParams ps))) ({ p with params := Dict.set p.params n v } : Page V) := by
      refine ⟨?_, hi.2⟩
      simp only
      rw [Dict.keys_set, if_pos ?_, hi.1]
      rw [hi.1, Dict.mem_keys, init_get ps hwf, hn]; rfl
    refine render_new (p := ({ p with params := Dict.set p.params n v } : Page V)) hi2 m hm ?_ h
    rw [hmd]
    intro he
    simp only [Prod.mk.injEq, and_true] at he
    have heq : p.params = Dict.set p.params n v := dict_ext (by rw [hi2.1, hi.1]) he
    apply hne
    rw [← hg n, heq, Dict.get?_set, if_pos rfl]
  · intro h
    rw [← hg n] at h
    simp only [Page.on, set_same h]
    simp only [Page.render, hm, if_pos hmd]
    rw [hshows]
    rfl

example : ((([.change "n" 7, .redraw, .reset, .change "n" 7] : List (PageEv Nat)).foldl Page.on
      (pageInit [("n", .user 5), ("p", .fixed 1)]).render).memo) = some (([1, 7], 1), (2, [("p", 1), ("n", 7)])) := by
  decide +kernel

/-! ## C182: The page draws the space and the measures -/

/-- C182 (violated): without measures, which is the default, nothing can be drawn: the page raises. -/
theorem C182_default_false {V : Type} (p : Page V) (space : SpaceDrawer) : p.draw space none = none := by
  unfold Page.draw
  split
  · rename_i h; cases h
  · rfl

/-- C182 (partial): with a list of measures, each of them is drawn, after the space unless it is switched off, and always of the model that the
controller has. -/
theorem C182_drawn_partial (ps : Dict String (PageParam V)) (hwf : Dict.WF ps) (evs : List (PageEv V))
    (hev : ∀ n v, .change n v ∈ evs → ∃ v', Dict.get? ps n = some (.user v')) (space : SpaceDrawer) (ms : List Measure) :
    let p := evs.foldl Page.on (pageInit ps).render
    ∃ i d es, p.controller = some (i, d) ∧ p.draw space (some ms) = some es ∧ es.length = ms.length + (if space = .off then 0 else 1) ∧
      (∀ n, .callable n ∈ ms → .call n i ∈ es) ∧ (∀ s, .name s ∈ ms → .plot s i ∈ es) ∧ (space = .default → .space i ∈ es) ∧
      (∀ n, space = .drawer n → .custom n i ∈ es) := by
  intro p
  obtain ⟨deps, i, d, hm, hc, -⟩ := C181_current ps hwf evs hev
  change p.memo = _ at hm
  refine ⟨i, d, _, hc, by unfold Page.draw; rw [hm], ?_, ?_, ?_, ?_, ?_⟩
  · cases space <;> simp <;> omega
  · intro n hn; exact List.mem_append_right _ (List.mem_map.2 ⟨_, hn, rfl⟩)
  · intro n hn; exact List.mem_append_right _ (List.mem_map.2 ⟨_, hn, rfl⟩)
  · rintro rfl; simp
  · rintro n rfl; simp

example : ((([.reset] : List (PageEv Nat)).foldl Page.on (pageInit [("n", .user 5)]).render).draw .default (some [.name "gini", .callable 3])) =
    some [.space 1, .plot "gini" 1, .call 3 1] := by
  decide +kernel

end Verif
