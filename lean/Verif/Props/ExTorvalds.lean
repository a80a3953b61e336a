import Verif.Model.ExTorvalds
import Verif.Props.Rounds
import Verif.Props.Builtin

/-!
# C231: the Torvalds example
-/

namespace Verif

theorem filter_one (sub : Nat → Nat → Bool) (agents : List FAgent) (k : String) (v : Val) :
    filterAgents sub agents { kwargs := [(k, .one v)] } = agents.filter (fun a => decide (a.attr k = v)) := by
  simp [filterAgents, Query.ids, Query.crits, Dict.update, Dict.set, critLoop, CritVal.wrap]

theorem viewCount_one (sub : Nat → Nat → Bool) (agents : List FAgent) (k : String) (v : Val) :
    viewCount sub agents { kwargs := [(k, .one v)] } = agents.countP (fun a => decide (a.attr k = v)) := by
  simp only [viewCount, viewCall, filter_one]
  rw [List.map_const', List.sum_replicate]
  simp [List.countP_eq_length_filter]

/-- The skill that the example gives to the developer of a node. -/
def skillOf (name : String) : String :=
  if name = "Torvalds" then "God" else if name = "balkian" then "developer" else "beginner"

/-- What `setSkill` does to a list of agents at their positions, with the nodes `names`. -/
theorem setSkill_spec (sub : Nat → Nat → Bool) (names : List String) (hnd : names.Nodup) (agents : List FAgent) (hl : agents.length = names.length)
    (hn : ∀ (j : Nat) (a : FAgent), agents[j]? = some a → a.ref = j ∧ ∃ name, names[j]? = some name ∧ Dict.get? a.attrs "node_id" = some (.str name))
    (name skill : String) :
    (name ∉ names → setSkill sub name skill agents = none) ∧
    ∀ i, names[i]? = some name → ∃ a, agents[i]? = some a ∧
      setSkill sub name skill agents = some (agents.set i { a with attrs := Dict.set a.attrs "skill_level" (.str skill) }) := by
  have key : ∀ (j : Nat) (a : FAgent), agents[j]? = some a → (a.attr "node_id" = .str name ↔ names[j]? = some name) := by
    intro j a ha
    obtain ⟨-, nm, h1, h2⟩ := hn j a ha
    rw [h1]
    simp [FAgent.attr, h2]
  constructor
  · intro hnot
    have : filterAgents sub agents { kwargs := [("node_id", .one (.str name))] } = [] := by
      rw [filter_one, List.filter_eq_nil_iff]
      intro a ha
      obtain ⟨j, hj⟩ := List.mem_iff_getElem?.1 ha
      simp only [decide_eq_true_eq]
      intro h
      exact hnot (List.mem_of_getElem? ((key j a hj).1 h))
    simp [setSkill, viewOne, this]
  · intro i hi
    have hlt : i < agents.length := by
      have := (List.getElem?_eq_some_iff.1 hi).1
      omega
    obtain ⟨a, ha⟩ : ∃ a, agents[i]? = some a := ⟨agents[i], by simp [hlt]⟩
    refine ⟨a, ha, ?_⟩
    have hf : filterAgents sub agents { kwargs := [("node_id", .one (.str name))] } ≠ [] := by
      intro h0
      have hm : a ∈ filterAgents sub agents { kwargs := [("node_id", .one (.str name))] } := by
        rw [filter_one, List.mem_filter]
        exact ⟨List.mem_of_getElem? ha, by simpa using (key i a ha).2 hi⟩
      rw [h0] at hm
      exact absurd hm (by simp)
    obtain ⟨b, rest, hb⟩ := List.exists_cons_of_ne_nil hf
    have hm : b ∈ filterAgents sub agents { kwargs := [("node_id", .one (.str name))] } := by rw [hb]; simp
    rw [filter_one, List.mem_filter] at hm
    obtain ⟨j, hj⟩ := List.mem_iff_getElem?.1 hm.1
    have hj' := (key j b hj).1 (by simpa using hm.2)
    have hij : j = i := by
      have h1 := List.getElem?_eq_some_iff.1 hj'
      have h2 := List.getElem?_eq_some_iff.1 hi
      exact (hnd.getElem_inj_iff).1 (h1.2.trans h2.2.symm)
    subst hij
    have hab : a = b := by rw [ha] at hj; exact Option.some.inj hj
    subst hab
    simp only [setSkill, viewOne, hb, List.head?_cons, (hn j a ha).1]

/-- C231: `init` raises if and only if one of the two developers is not in the network; otherwise every node has its agent, at its position,
with its counters at zero and with the skill the example says. -/
theorem C231_init (sub : Nat → Nat → Bool) (names : List String) (hnd : names.Nodup) :
    (torvaldsInit sub names = none ↔ "Torvalds" ∉ names ∨ "balkian" ∉ names) ∧
    ∀ agents, torvaldsInit sub names = some agents → agents.length = names.length ∧
      ∀ (j : Nat) (name : String), names[j]? = some name → ∃ a, agents[j]? = some a ∧ a.attr "node_id" = .str name ∧
        a.attr "skill_level" = .str (skillOf name) ∧ numAttr a.attrs "times" = some 0 := by
  have h0 : ∀ (j : Nat) (a : FAgent), (counterAgents names)[j]? = some a → a.ref = j ∧ ∃ name, names[j]? = some name ∧ a.attrs = counterAttrs name := by
    intro j a ha
    simp only [counterAgents, List.getElem?_mapIdx, Option.map_eq_some_iff] at ha
    obtain ⟨nm, h1, rfl⟩ := ha
    exact ⟨rfl, nm, h1, rfl⟩
  have hlen : (counterAgents names).length = names.length := by simp [counterAgents]
  obtain ⟨s1, s2⟩ := setSkill_spec sub names hnd (counterAgents names) hlen (fun j a ha => by
    obtain ⟨e1, nm, e2, e3⟩ := h0 j a ha
    exact ⟨e1, nm, e2, by rw [e3]; simp [counterAttrs, Dict.get?]⟩) "Torvalds" "God"
  by_cases ht : "Torvalds" ∈ names
  swap
  · have := s1 ht
    simp [torvaldsInit, this, ht]
  obtain ⟨i, hi⟩ := List.mem_iff_getElem?.1 ht
  obtain ⟨a, ha, e⟩ := s2 i hi
  obtain ⟨ar, nmi, hnmi, hai⟩ := h0 i a ha
  rw [hi] at hnmi
  obtain rfl := Option.some.inj hnmi
  generalize hag : (counterAgents names).set i { a with attrs := Dict.set a.attrs "skill_level" (.str "God") } = agents1 at e
  have hlt : i < (counterAgents names).length := (List.getElem?_eq_some_iff.1 ha).1
  have h1 : ∀ (j : Nat) (b : FAgent), agents1[j]? = some b → b.ref = j ∧ ∃ name, names[j]? = some name ∧
      b.attrs = if j = i then Dict.set (counterAttrs name) "skill_level" (.str "God") else counterAttrs name := by
    intro j b hb
    rw [← hag] at hb
    by_cases hj : j = i
    · subst hj
      rw [List.getElem?_set_self hlt] at hb
      obtain rfl := Option.some.inj hb
      exact ⟨ar, "Torvalds", hi, by rw [if_pos rfl, hai]⟩
    · rw [List.getElem?_set_ne (Ne.symm hj)] at hb
      obtain ⟨e1, nm, e2, e3⟩ := h0 j b hb
      exact ⟨e1, nm, e2, by rw [if_neg hj]; exact e3⟩
  have hlen1 : agents1.length = names.length := by rw [← hag]; simpa using hlen
  obtain ⟨t1, t2⟩ := setSkill_spec sub names hnd agents1 hlen1 (fun j b hb => by
    obtain ⟨e1, nm, e2, e3⟩ := h1 j b hb
    refine ⟨e1, nm, e2, ?_⟩
    rw [e3]
    split <;> simp [counterAttrs, Dict.get?, Dict.set]) "balkian" "developer"
  by_cases hb : "balkian" ∈ names
  swap
  · have := t1 hb
    simp [torvaldsInit, e, this, hb]
  obtain ⟨i', hi'⟩ := List.mem_iff_getElem?.1 hb
  obtain ⟨a', ha', e'⟩ := t2 i' hi'
  have hinit : torvaldsInit sub names = some (agents1.set i' { a' with attrs := Dict.set a'.attrs "skill_level" (.str "developer") }) := by
    simp [torvaldsInit, e, e']
  refine ⟨by simp [hinit, ht, hb], fun agents hagents => ?_⟩
  rw [hinit] at hagents
  obtain rfl := Option.some.inj hagents
  refine ⟨by simpa using hlen1, fun j name hj => ?_⟩
  have hne : i ≠ i' := by
    intro h
    rw [h, hi'] at hi
    exact absurd (Option.some.inj hi) (by decide)
  have hjt : j = i ↔ name = "Torvalds" := by
    constructor
    · intro h; rw [h, hi] at hj; exact (Option.some.inj hj).symm
    · intro h
      subst h
      have h1 := List.getElem?_eq_some_iff.1 hj
      have h2 := List.getElem?_eq_some_iff.1 hi
      exact (hnd.getElem_inj_iff).1 (h1.2.trans h2.2.symm)
  have hjb : j = i' ↔ name = "balkian" := by
    constructor
    · intro h; rw [h, hi'] at hj; exact (Option.some.inj hj).symm
    · intro h
      subst h
      have h1 := List.getElem?_eq_some_iff.1 hj
      have h2 := List.getElem?_eq_some_iff.1 hi'
      exact (hnd.getElem_inj_iff).1 (h1.2.trans h2.2.symm)
  by_cases hjj : j = i'
  · subst hjj
    have hlt' : j < agents1.length := (List.getElem?_eq_some_iff.1 ha').1
    refine ⟨_, List.getElem?_set_self hlt', ?_⟩
    obtain ⟨-, nm, e2, e3⟩ := h1 j a' ha'
    rw [hj] at e2
    obtain rfl := Option.some.inj e2
    have hn := hjb.1 rfl
    subst hn
    rw [if_neg (Ne.symm hne)] at e3
    refine ⟨?_, ?_, ?_⟩ <;> simp [FAgent.attr, e3, counterAttrs, Dict.get?, Dict.set, skillOf, numAttr]
  · have hltj : j < agents1.length := by
      have := (List.getElem?_eq_some_iff.1 hj).1
      omega
    refine ⟨agents1[j], ?_, ?_⟩
    · rw [List.getElem?_set_ne (Ne.symm hjj)]
      simp [hltj]
    obtain ⟨-, nm, e2, e3⟩ := h1 j agents1[j] (by simp [hltj])
    rw [hj] at e2
    obtain rfl := Option.some.inj e2
    have hnb : name ≠ "balkian" := fun h => hjj (hjb.2 h)
    by_cases hji : j = i
    · have hn := hjt.1 hji
      subst hn
      rw [if_pos hji] at e3
      refine ⟨?_, ?_, ?_⟩ <;> simp [FAgent.attr, e3, counterAttrs, Dict.get?, Dict.set, skillOf, numAttr]
    · have hnt : name ≠ "Torvalds" := fun h => hji (hjt.2 h)
      rw [if_neg hji] at e3
      refine ⟨?_, ?_, ?_⟩ <;> simp [FAgent.attr, e3, counterAttrs, Dict.get?, skillOf, numAttr, hnb, hnt]

/-! ### Whole simulations -/

/-- What one activation does. -/
def counterAct (deg : Ref → Nat) : MesaCode CWorld := fun r _ _ as w =>
  match w.agents[r]? with
  | none => w
  | some a => match counterStep (deg r) as.length a.attrs with
    | none => w
    | some d => { w with agents := w.agents.set r { a with attrs := d } }

/-- There are `n` agents and they have a counter. -/
def CountersOk (n : Nat) (w : CWorld) : Prop :=
  w.agents.length = n ∧ ∀ a ∈ w.agents, (numAttr a.attrs "times").isSome = true

theorem counterStep_some (nb tot : Nat) (d : Dict String Val) (t : Rat) (h : numAttr d "times" = some t) :
    ∃ d', counterStep nb tot d = some d' ∧ numAttr d' "times" = some (t + 1) ∧ numAttr d' "neighbors" = some (nb : Rat) ∧
      numAttr d' "total" = some (tot : Rat) ∧ ∀ k, k ≠ "times" → k ≠ "neighbors" → k ≠ "total" → Dict.get? d' k = Dict.get? d k := by
  obtain ⟨d', h1, h2, h3, h4⟩ := C80_counter [(nb, tot)] d t h
  have : counterStep nb tot d = some d' := by
    simp only [runCounter] at h1
    split at h1
    · cases h1
    · exact h1 ▸ by assumption
  have h5 := h3 (nb, tot) rfl
  exact ⟨d', this, by simpa using h2, h5.1, h5.2, h4⟩

theorem counterAct_spec (deg : Ref → Nat) (n : Nat) (r : Ref) (hr : r < n) (t : Rat) (k : Nat) (as : List Ref) (w : CWorld) (hw : CountersOk n w) :
    ∃ a d, w.agents[r]? = some a ∧ counterStep (deg r) as.length a.attrs = some d ∧
      counterAct deg r t k as w = { w with agents := w.agents.set r { a with attrs := d } } ∧
      CountersOk n (counterAct deg r t k as w) := by
  have hlt : r < w.agents.length := by rw [hw.1]; exact hr
  have ha : w.agents[r]? = some w.agents[r] := by simp [hlt]
  obtain ⟨t0, ht0⟩ := Option.isSome_iff_exists.1 (hw.2 w.agents[r] (List.getElem_mem hlt))
  obtain ⟨d, h1, h2, -⟩ := counterStep_some (deg r) as.length _ t0 ht0
  have e : counterAct deg r t k as w = { w with agents := w.agents.set r { w.agents[r] with attrs := d } } := by
    simp only [counterAct, ha, h1]
  refine ⟨_, d, ha, h1, e, ?_⟩
  rw [e]
  refine ⟨by simpa using hw.1, fun b hb => ?_⟩
  rcases List.mem_or_eq_of_mem_set hb with hb | rfl
  · exact hw.2 b hb
  · simp [h2]

theorem counter_mesa (deg : Ref → Nat) (σ : Nat → List Ref → List Ref) (hσ : ∀ n l, (σ n l).Perm l) (n : Nat) (iv : Rat) :
    MesaHost (counterHost deg σ hσ) n iv (counterAct deg) (CountersOk n) where
  step r hr s w t hI _ := by
    obtain ⟨a, d, h1, h2, h3, -⟩ := counterAct_spec deg n r hr t s.steps s.agents w hI
    rw [h3]
    simp only [counterHost, h1, h2]
  inv r hr t k as w hI := by
    obtain ⟨a, d, -, -, -, h4⟩ := counterAct_spec deg n r hr t k as w hI
    exact h4
  shuffle l w hI := hI

/-- The effect of the activations in `l` on agent `j`. -/
theorem counter_fold (deg : Ref → Nat) (n : Nat) (t : Rat) (k : Nat) (as l : List Ref) (hl : ∀ r ∈ l, r < n) (w : CWorld) (hw : CountersOk n w)
    (j : Nat) (hj : j < n) (a : FAgent) (ha : w.agents[j]? = some a) (c : Rat) (hc : numAttr a.attrs "times" = some c) :
    ∃ a', (l.foldl (fun w r => counterAct deg r t k as w) w).agents[j]? = some a' ∧ numAttr a'.attrs "times" = some (c + l.count j) ∧
      (j ∈ l → numAttr a'.attrs "neighbors" = some (deg j : Rat) ∧ numAttr a'.attrs "total" = some (as.length : Rat)) ∧
      (∀ x, x ≠ "times" → x ≠ "neighbors" → x ≠ "total" → Dict.get? a'.attrs x = Dict.get? a.attrs x) := by
  induction l using List.reverseRecOn generalizing c with
  | nil => exact ⟨a, ha, by simpa using hc, by simp, fun _ _ _ _ => rfl⟩
  | append_singleton l r ih =>
    have hok : CountersOk n (l.foldl (fun w r => counterAct deg r t k as w) w) := by
      have : ∀ (l : List Ref) (w : CWorld), (∀ r ∈ l, r < n) → CountersOk n w → CountersOk n (l.foldl (fun w r => counterAct deg r t k as w) w) := by
        intro l
        induction l with
        | nil => exact fun w _ h => h
        | cons r l ih2 =>
          intro w hl h
          obtain ⟨-, -, -, -, -, h4⟩ := counterAct_spec deg n r (hl r (by simp)) t k as w h
          exact ih2 _ (fun q hq => hl q (by simp [hq])) h4
      exact this l w (fun q hq => hl q (by simp [hq])) hw
    obtain ⟨a1, h1, h2, h3, h4⟩ := ih (fun q hq => hl q (by simp [hq])) c hc
    rw [List.foldl_append]
    simp only [List.foldl_cons, List.foldl_nil]
    generalize l.foldl (fun w r => counterAct deg r t k as w) w = w1 at *
    obtain ⟨b, d, e1, e2, e3, -⟩ := counterAct_spec deg n r (hl r (by simp)) t k as w1 hok
    rw [e3]
    by_cases hrj : r = j
    · subst hrj
      rw [h1] at e1
      obtain rfl := Option.some.inj e1
      have hlt : r < w1.agents.length := (List.getElem?_eq_some_iff.1 h1).1
      obtain ⟨d', f1, f2, f3, f4, f5⟩ := counterStep_some (deg r) as.length a1.attrs _ h2
      rw [e2] at f1
      obtain rfl := Option.some.inj f1
      refine ⟨_, List.getElem?_set_self hlt, ?_, fun _ => ⟨f3, f4⟩, fun x x1 x2 x3 => (f5 x x1 x2 x3).trans (h4 x x1 x2 x3)⟩
      rw [f2]
      simp [add_assoc]
    · refine ⟨a1, ?_, ?_, ?_, h4⟩
      · rw [List.getElem?_set_ne hrj]
        exact h1
      · simpa [List.count_append, List.count_singleton, hrj] using h2
      · intro hm
        rcases List.mem_append.1 hm with hm | hm
        · exact h3 hm
        · exact absurd (List.mem_singleton.1 hm).symm hrj

/-- C231 for any population of counters: in any network, with or without shuffling and with any interval, after `k` steps the counter of each
of the `n` agents has grown by exactly `k`, it has the number of its neighbours and the number of agents if `k > 0`, and its other attributes are
as they were. -/
theorem C231_counters (deg : Ref → Nat) (σ : Nat → List Ref → List Ref) (hσ : ∀ n l, (σ n l).Perm l) (iv : Rat) (hiv : 0 < iv) (sh : Bool)
    (agents : List FAgent) (hne : agents ≠ []) (hok : ∀ a ∈ agents, (numAttr a.attrs "times").isSome = true) (rng k : Nat)
    (j : Nat) (a : FAgent) (ha : agents[j]? = some a) (c : Rat) (hc : numAttr a.attrs "times" = some c) :
    ∃ a', (iterStep (timedStepper (counterHost deg σ hσ)) k (roundsStart agents.length iv sh ⟨agents, rng⟩)).2.agents[j]? = some a' ∧
      numAttr a'.attrs "times" = some (c + k) ∧
      (0 < k → numAttr a'.attrs "neighbors" = some (deg j : Rat) ∧ numAttr a'.attrs "total" = some (agents.length : Rat)) ∧
      (∀ x, x ≠ "times" → x ≠ "neighbors" → x ≠ "total" → Dict.get? a'.attrs x = Dict.get? a.attrs x) := by
  have hn : 0 < agents.length := List.length_pos_iff.2 hne
  have hj : j < agents.length := (List.getElem?_eq_some_iff.1 ha).1
  obtain ⟨ms, -, h2, h3⟩ := mesa_iter hn hiv (counter_mesa deg σ hσ agents.length iv) sh ⟨agents, rng⟩ ⟨rfl, hok⟩
  induction k with
  | zero => exact ⟨a, ha, by simpa using hc, by omega, fun _ _ _ _ => rfl⟩
  | succ k ih =>
    obtain ⟨a1, g1, g2, -, g4⟩ := ih
    obtain ⟨hk, hrel, -⟩ := h3 k
    rw [(h3 (k + 1)).2.1.world]
    rw [hrel.world] at g1
    have hr := h2 k
    have hex : ∃ (l : List Ref) (w1 : CWorld), l.Perm (List.range agents.length) ∧ w1.agents = (ms k).world.agents ∧ CountersOk agents.length w1 ∧
        (ms (k + 1)).world = l.foldl (fun w r => counterAct deg r (ms k).time (ms k).steps (ms k).agents w) w1 := by
      unfold MesaRound at hr
      split at hr
      · obtain ⟨l, hl, he⟩ := hr
        rw [hrel.magents] at hl
        refine ⟨_, _, (hσ (ms k).world.rng l).trans hl, ?_, ?_, by rw [he]; rfl⟩
        · rfl
        · exact hrel.inv
      · rw [hr]
        exact ⟨List.range agents.length, (ms k).world, List.Perm.refl _, rfl, hrel.inv, by rw [mesaStep]; simp only; rw [hrel.magents]⟩
    obtain ⟨l, w1, hl, hw1, hok1, he⟩ := hex
    rw [he]
    have hmem : ∀ r ∈ l, r < agents.length := fun r hr => List.mem_range.1 (hl.subset hr)
    obtain ⟨a2, f1, f2, f3, f4⟩ := counter_fold deg agents.length (ms k).time (ms k).steps (ms k).agents l hmem w1 hok1 j hj a1 (by rw [hw1]; exact g1) _ g2
    refine ⟨a2, f1, ?_, fun _ => ?_, fun x x1 x2 x3 => (f4 x x1 x2 x3).trans (g4 x x1 x2 x3)⟩
    · rw [f2, hl.count_eq, List.count_eq_one_of_mem List.nodup_range (List.mem_range.2 hj)]
      push_cast
      congr 1
      ring
    · have := f3 (hl.mem_iff.2 (List.mem_range.2 hj))
      rw [hrel.magents, List.length_range] at this
      exact this

theorem count_skill (names : List String) (hnd : names.Nodup) (agents : List FAgent) (hl : agents.length = names.length)
    (h : ∀ (j : Nat) (name : String), names[j]? = some name → ∃ a, agents[j]? = some a ∧ a.attr "skill_level" = .str (skillOf name)) :
    agents.countP (fun a => decide (a.attr "skill_level" = .str "God")) = if "Torvalds" ∈ names then 1 else 0 := by
  have hmap : agents.map (fun a => a.attr "skill_level") = names.map (fun n => Val.str (skillOf n)) := by
    apply List.ext_getElem?
    intro j
    simp only [List.getElem?_map]
    cases hj : names[j]? with
    | none =>
      have : agents[j]? = none := by
        rw [List.getElem?_eq_none_iff] at hj ⊢
        omega
      rw [this]
      rfl
    | some name =>
      obtain ⟨a, h1, h2⟩ := h j name hj
      rw [h1]
      simp [h2]
  have e1 : agents.countP (fun a => decide (a.attr "skill_level" = .str "God")) = (agents.map (fun a => a.attr "skill_level")).count (.str "God") := by
    rw [List.count, List.countP_map]
    rfl
  rw [e1, hmap]
  have e2 : (names.map (fun n => Val.str (skillOf n))).count (.str "God") = names.count "Torvalds" := by
    rw [List.count, List.countP_map, List.count]
    apply List.countP_congr
    intro n _
    simp only [Function.comp, beq_iff_eq, Val.str.injEq, skillOf]
    split
    · simp_all
    · split <;> simp_all
  rw [e2]
  split
  · exact List.count_eq_one_of_mem hnd (by assumption)
  · exact List.count_eq_zero_of_not_mem (by assumption)

/-- C231: in any network that has both developers, whatever the shuffles: the simulation returns after exactly `max_steps` steps; after every
number `k` of steps every agent has run `k` times and has its skill, and exactly one developer is a god. -/
theorem C231_run (sub : Nat → Nat → Bool) (names : List String) (hnd : names.Nodup) (agents : List FAgent) (hinit : torvaldsInit sub names = some agents)
    (deg : Ref → Nat) (σ : Nat → List Ref → List Ref) (hσ : ∀ n l, (σ n l).Perm l) (sh : Bool) (rng : Nat) (m fuel : Nat) (hf : m ≤ fuel) :
    runModel (timedStepper (counterHost deg σ hσ)) none (some m) fuel (roundsStart agents.length 1 sh ⟨agents, rng⟩) =
        .done (iterStep (timedStepper (counterHost deg σ hσ)) m (roundsStart agents.length 1 sh ⟨agents, rng⟩)) ∧
    ∀ k, let w := (iterStep (timedStepper (counterHost deg σ hσ)) k (roundsStart agents.length 1 sh ⟨agents, rng⟩)).2
      w.agents.length = names.length ∧ godDevelopers sub w.agents = 1 ∧
      ∀ (j : Nat) (name : String), names[j]? = some name → ∃ a, w.agents[j]? = some a ∧ a.attr "times" = .num (.fin k) ∧
        a.attr "skill_level" = .str (skillOf name) ∧
        (0 < k → a.attr "neighbors" = .num (.fin (deg j)) ∧ a.attr "total" = .num (.fin names.length)) := by
  obtain ⟨i1, i2⟩ := C231_init sub names hnd
  obtain ⟨hl, hall⟩ := i2 agents hinit
  have ht : "Torvalds" ∈ names := by
    by_contra h
    rw [i1.2 (Or.inl h)] at hinit
    cases hinit
  have hne : agents ≠ [] := by
    intro h
    rw [h] at hl
    have : names = [] := List.length_eq_zero_iff.1 hl.symm
    rw [this] at ht
    exact absurd ht (by simp)
  have hok : ∀ a ∈ agents, (numAttr a.attrs "times").isSome = true := by
    intro a ha
    obtain ⟨j, hj⟩ := List.mem_iff_getElem?.1 ha
    have hlt : j < names.length := by
      have := (List.getElem?_eq_some_iff.1 hj).1
      omega
    obtain ⟨b, h1, -, -, h4⟩ := hall j names[j] (by simp [hlt])
    rw [hj] at h1
    obtain rfl := Option.some.inj h1
    simp [h4]
  have hn : 0 < agents.length := List.length_pos_iff.2 hne
  refine ⟨(C230_ends_partial _ agents.length hn 1 (by norm_num) _ _ (counter_mesa deg σ hσ agents.length 1) sh ⟨agents, rng⟩ ⟨rfl, hok⟩ fuel m hf).1, ?_⟩
  intro k w
  have hwl : w.agents.length = names.length := by
    obtain ⟨ms, -, -, h3⟩ := mesa_iter hn (by norm_num : (0 : Rat) < 1) (counter_mesa deg σ hσ agents.length 1) sh ⟨agents, rng⟩ ⟨rfl, hok⟩
    show (iterStep (timedStepper (counterHost deg σ hσ)) k (roundsStart agents.length 1 sh ⟨agents, rng⟩)).2.agents.length = _
    rw [(h3 k).2.1.world, (h3 k).2.1.inv.1, hl]
  have num : ∀ (a : FAgent) (x : String) (q : Rat), numAttr a.attrs x = some q → a.attr x = .num (.fin q) := by
    intro a x q h
    unfold numAttr at h
    unfold FAgent.attr
    split at h
    · rename_i h'
      rw [h']
      simp only [Option.some.injEq] at h
      simp [h]
    · cases h
  have each : ∀ (j : Nat) (name : String), names[j]? = some name → ∃ a, w.agents[j]? = some a ∧ a.attr "times" = .num (.fin k) ∧
        a.attr "skill_level" = .str (skillOf name) ∧
        (0 < k → a.attr "neighbors" = .num (.fin (deg j)) ∧ a.attr "total" = .num (.fin names.length)) := by
    intro j name hj
    obtain ⟨a, h1, h2, h3, h4⟩ := hall j name hj
    obtain ⟨a', g1, g2, g3, g4⟩ := C231_counters deg σ hσ 1 (by norm_num) sh agents hne hok rng k j a h1 0 h4
    refine ⟨a', g1, num _ _ _ (by simpa using g2), ?_, fun hk => ⟨num _ _ _ (g3 hk).1, ?_⟩⟩
    · unfold FAgent.attr at h3 ⊢
      rw [g4 "skill_level" (by decide) (by decide) (by decide)]
      exact h3
    · rw [← hl]
      exact num _ _ _ (g3 hk).2
  refine ⟨hwl, ?_, each⟩
  unfold godDevelopers
  rw [viewCount_one, count_skill names hnd w.agents hwl (fun j name hj => by
    obtain ⟨a, h1, -, h3, -⟩ := each j name hj
    exact ⟨a, h1, h3⟩), if_pos ht]

/-- The network of `examples/torvalds.edgelist`. -/
def torvaldsNames : List String := ["balkian", "Torvalds", "anonymous"]

/-- The numbers of neighbours in it. -/
def torvaldsDeg : Ref → Nat
  | 1 => 2
  | _ => 1

/-- A shuffle: reverse the list. -/
theorem reverse_shuffle : ∀ (_ : Nat) (l : List Ref), l.reverse.Perm l := fun _ l => List.reverse_perm l

/-- What is looked at in the examples. -/
def counterView (w : CWorld) : List (Val × Val × Val × Val) :=
  w.agents.map (fun a => (a.attr "times", a.attr "neighbors", a.attr "total", a.attr "skill_level"))

set_option maxRecDepth 100000 in
/-- The example: 10 steps. -/
example : ∃ agents, torvaldsInit (fun _ _ => false) torvaldsNames = some agents ∧
    counterView (iterStep (timedStepper (counterHost torvaldsDeg (fun _ l => l.reverse) reverse_shuffle)) 10 (roundsStart 3 1 true ⟨agents, 0⟩)).2 =
      [(.num (.fin 10), .num (.fin 1), .num (.fin 3), .str "developer"), (.num (.fin 10), .num (.fin 2), .num (.fin 3), .str "God"),
       (.num (.fin 10), .num (.fin 1), .num (.fin 3), .str "beginner")] :=
  ⟨(torvaldsInit (fun _ _ => false) torvaldsNames).getD [], by decide +kernel, by decide +kernel⟩

/-- Without Torvalds, `init` raises. -/
example : torvaldsInit (fun _ _ => false) ["balkian", "anonymous"] = none := by decide +kernel

end Verif
