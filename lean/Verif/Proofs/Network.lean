import Verif.Model.Network
import Verif.Proofs.Random
import Mathlib.Logic.Relation
import Mathlib.Data.List.Nodup

/-!
# Small steps of network operations, and what they preserve
-/

namespace Verif

theorem Dict.set_same {K V : Type} [DecidableEq K] {d : Dict K V} {k : K} {v : V} (h : Dict.get? d k = some v) :
    Dict.set d k v = d := by
  induction d with
  | nil => cases h
  | cons p d ih =>
    obtain ⟨a, b⟩ := p
    simp only [Dict.get?] at h
    simp only [Dict.set]
    split
    · rename_i hk; subst hk; simp at h; rw [h]
    · rename_i hk; rw [if_neg hk] at h; rw [ih h]

theorem Dict.has_iff {K V : Type} [DecidableEq K] (d : Dict K V) (k : K) :
    Dict.has d k = true ↔ ∃ v, Dict.get? d k = some v := by
  unfold Dict.has; exact Option.isSome_iff_exists

theorem Dict.has_set {K V : Type} [DecidableEq K] (d : Dict K V) (k k' : K) (v : V) :
    Dict.has (Dict.set d k v) k' = (decide (k = k') || Dict.has d k') := by
  unfold Dict.has
  rw [Dict.get?_set]
  by_cases h : k = k' <;> simp [h]

theorem Dict.length_set {K V : Type} [DecidableEq K] (d : Dict K V) (k : K) (v : V) :
    (Dict.set d k v).length = if Dict.has d k then d.length else d.length + 1 := by
  have h1 := congrArg List.length (Dict.keys_set d k v)
  have h2 : ∀ e : Dict K V, (Dict.keys e).length = e.length := by intro e; simp [Dict.keys]
  rw [h2] at h1
  rw [h1]
  have : Dict.has d k = true ↔ k ∈ Dict.keys d := by rw [Dict.mem_keys]; rfl
  by_cases hk : k ∈ Dict.keys d
  · rw [if_pos hk, if_pos (this.2 hk), h2]
  · rw [if_neg hk, if_neg (fun h => hk (this.1 h))]; simp [h2]

/-- No living network agent is on node `n`. -/
def NWorld.Vacant (w : NWorld) (n : NId) : Prop :=
  ∀ (r : Nat) (a : NAgent), Dict.get? w.nodes n = some (some (some r)) → w.agents[r]? = some a → a.net = true →
    a.alive = false

/-- Restrictions on steps: `strict`: agents are only put on vacant nodes; `grow`: no node is removed and no integer node
above the size of the graph is added; agents before `floor` are neither put on nodes nor scheduled. -/
structure SFlags where
  strict : Bool
  grow : Bool
  floor : Nat := 0

/-- Small steps. -/
inductive NStep (fl : SFlags) : NWorld → NWorld → Prop
  | nextId (w) : NStep fl w { w with nextId := w.nextId + 1 }
  | graphNode (w : NWorld) (n : NId) (h : Dict.has w.nodes n = false)
      (hg : fl.grow = true → ∀ k, n = .int k → k ≤ w.nodes.length) :
      NStep fl w { w with nodes := Dict.set w.nodes n none }
  | newNet (w : NWorld) (uid : Nat) (n : NId) (h : Dict.has w.nodes n = true) (hok : fl.strict = true → w.Vacant n)
      (hfl : fl.floor ≤ w.agents.length) :
      NStep fl w { w with nodes := Dict.set w.nodes n (some (some w.agents.length)), agents := w.agents ++ [⟨uid, true, some n, true⟩] }
  | newPlain (w : NWorld) (uid : Nat) (node : Option NId) :
      NStep fl w { w with agents := w.agents ++ [⟨uid, false, node, true⟩] }
  | put (w : NWorld) (r : Nat) (n : NId) (a : NAgent) (ha : w.agents[r]? = some a) (hp : a.net = false)
      (hn : a.node = some n)
      (h : Dict.has w.nodes n = true) (hok : fl.strict = true → w.Vacant n) (hfl : fl.floor ≤ r) :
      NStep fl w { w with nodes := Dict.set w.nodes n (some (some r)) }
  | sched (w : NWorld) (r : Nat) (hr : r < w.agents.length) (hs : r ∉ w.sched) (a : NAgent)
      (ha : w.agents[r]? = some a) (hfl : fl.floor ≤ r) :
      NStep fl w { w with sched := w.sched ++ [r] }
  | kill (w : NWorld) (r : Nat) (a : NAgent) (ha : w.agents[r]? = some a) :
      NStep fl w { w with agents := w.agents.set r { a with alive := false }, sched := w.sched.erase r }
  | killRemove (w : NWorld) (r : Nat) (a : NAgent) (n : NId) (ha : w.agents[r]? = some a) (hnet : a.net = true)
      (hal : a.alive = true) (hn : a.node = some n) (h : Dict.has w.nodes n = true) (hg : fl.grow = false) :
      NStep fl w { w with
        nodes := Dict.del w.nodes n,
        edges := w.edges.filter (fun e => decide (e.1 ≠ n ∧ e.2 ≠ n)),
        agents := w.agents.set r { a with node := none, alive := false },
        sched := w.sched.erase r }
  | edge (w : NWorld) (n m : NId) (hn : Dict.has w.nodes n = true) (hm : Dict.has w.nodes m = true) :
      NStep fl w { w with edges := w.edges ++ [(n, m)] }
  | reserve (w : NWorld) (n : NId) (h : Dict.get? w.nodes n = some none) :
      NStep fl w { w with nodes := Dict.set w.nodes n (some none) }

abbrev NSteps (fl : SFlags) := Relation.ReflTransGen (NStep fl)

/-- What always holds. -/
structure NInv (w : NWorld) : Prop where
  wf : Dict.WF w.nodes
  onNode : ∀ n (r : Nat), Dict.get? w.nodes n = some (some (some r)) → ∃ a, w.agents[r]? = some a ∧ a.node = some n
  edges : ∀ e ∈ w.edges, Dict.has w.nodes e.1 = true ∧ Dict.has w.nodes e.2 = true
  nodup : w.sched.Nodup
  range : ∀ r ∈ w.sched, r < w.agents.length

theorem get?_append_lt {α : Type} {l : List α} {x : α} {r : Nat} {a : α} (h : l[r]? = some a) : (l ++ [x])[r]? = some a := by
  have hr : r < l.length := (List.getElem?_eq_some_iff.1 h).1
  rw [List.getElem?_append_left hr]; exact h

theorem NStep.inv {fl : SFlags} {w w' : NWorld} (h : NStep fl w w') (hI : NInv w) : NInv w' := by
  obtain ⟨hwf, hon, hed, hnd, hrg⟩ := hI
  cases h with
  | nextId => exact ⟨hwf, hon, hed, hnd, hrg⟩
  | graphNode n h hg =>
    refine ⟨hwf.set _ _, ?_, ?_, hnd, hrg⟩
    · intro m r hm
      simp only [Dict.get?_set] at hm
      split at hm
      · simp at hm
      · exact hon m r hm
    · intro e he
      simp only [Dict.has_set]
      simp [hed e he]
  | newNet uid n h hok hfloor =>
    refine ⟨hwf.set _ _, ?_, ?_, hnd, ?_⟩
    · intro m r hm
      simp only [Dict.get?_set] at hm
      split at hm
      · rename_i hnm
        simp only [Option.some.injEq] at hm
        subst hm; subst hnm
        exact ⟨⟨uid, true, some n, true⟩, by simp, rfl⟩
      · obtain ⟨a, ha, hb⟩ := hon m r hm
        exact ⟨a, get?_append_lt ha, hb⟩
    · intro e he
      simp only [Dict.has_set]
      simp [hed e he]
    · intro r hr
      have := hrg r hr
      simp; omega
  | newPlain uid node =>
    refine ⟨hwf, ?_, hed, hnd, ?_⟩
    · intro m r hm
      obtain ⟨a, ha, hb⟩ := hon m r hm
      exact ⟨a, get?_append_lt ha, hb⟩
    · intro r hr
      have := hrg r hr
      simp; omega
  | put r n a ha hp hn h hok hfloor =>
    refine ⟨hwf.set _ _, ?_, ?_, hnd, hrg⟩
    · intro m s hm
      simp only [Dict.get?_set] at hm
      split at hm
      · rename_i hnm
        simp only [Option.some.injEq] at hm
        subst hm; subst hnm
        exact ⟨a, ha, hn⟩
      · exact hon m s hm
    · intro e he
      simp only [Dict.has_set]
      simp [hed e he]
  | sched r hr hs a ha hfloor =>
    refine ⟨hwf, hon, hed, ?_, ?_⟩
    · rw [List.nodup_append]
      refine ⟨hnd, by simp, ?_⟩
      intro x hx b hb
      simp at hb; subst hb
      rintro rfl
      exact hs hx
    · intro s hs
      rw [List.mem_append] at hs
      rcases hs with hs | hs
      · exact hrg s hs
      · simp at hs; subst hs; exact hr
  | kill r a ha =>
    refine ⟨hwf, ?_, hed, hnd.erase _, ?_⟩
    · intro m s hm
      obtain ⟨b, hb, hb2⟩ := hon m s hm
      by_cases hrs : r = s
      · subst hrs
        rw [ha] at hb
        cases hb
        exact ⟨{ a with alive := false }, by rw [List.getElem?_set_self (List.getElem?_eq_some_iff.1 ha).1], hb2⟩
      · exact ⟨b, by rw [List.getElem?_set_ne hrs]; exact hb, hb2⟩
    · intro s hs
      rw [List.length_set]
      exact hrg s (List.mem_of_mem_erase hs)
  | killRemove r a n ha hnet hal hn h hg =>
    refine ⟨hwf.del _, ?_, ?_, hnd.erase _, ?_⟩
    · intro m s hm
      simp only [Dict.get?_del _ hwf] at hm
      split at hm
      · cases hm
      · rename_i hnm
        obtain ⟨b, hb, hb2⟩ := hon m s hm
        by_cases hrs : r = s
        · subst hrs
          rw [ha] at hb
          cases hb
          rw [hn] at hb2
          cases hb2
          exact absurd rfl hnm
        · exact ⟨b, by rw [List.getElem?_set_ne hrs]; exact hb, hb2⟩
    · intro e he
      rw [List.mem_filter] at he
      have h2 := hed e he.1
      have h3 : e.1 ≠ n ∧ e.2 ≠ n := by simpa using he.2
      unfold Dict.has at h2 ⊢
      rw [Dict.get?_del _ hwf, Dict.get?_del _ hwf, if_neg (Ne.symm h3.1), if_neg (Ne.symm h3.2)]
      exact h2
    · intro s hs
      rw [List.length_set]
      exact hrg s (List.mem_of_mem_erase hs)
  | edge n m hn hm =>
    refine ⟨hwf, hon, ?_, hnd, hrg⟩
    intro e he
    rw [List.mem_append] at he
    rcases he with he | he
    · exact hed e he
    · simp at he; subst he; exact ⟨hn, hm⟩
  | reserve n h =>
    refine ⟨hwf.set _ _, ?_, ?_, hnd, hrg⟩
    · intro m r hm
      simp only [Dict.get?_set] at hm
      split at hm
      · simp at hm
      · exact hon m r hm
    · intro e he
      simp only [Dict.has_set]
      simp [hed e he]

theorem NSteps.inv {fl : SFlags} {w w' : NWorld} (h : NSteps fl w w') (hI : NInv w) : NInv w' := by
  induction h with
  | refl => exact hI
  | tail _ h ih => exact h.inv ih

/-- Every living network agent is on a node of the graph whose agent it is. -/
def NWorld.Linked (w : NWorld) : Prop :=
  ∀ (r : Nat) (a : NAgent), w.agents[r]? = some a → a.net = true → a.alive = true →
    ∃ n, a.node = some n ∧ Dict.get? w.nodes n = some (some (some r))

theorem NStep.linked {fl : SFlags} (hfl : fl.strict = true) {w w' : NWorld} (h : NStep fl w w') (hI : NInv w)
    (hL : w.Linked) : w'.Linked := by
  cases h with
  | nextId => exact hL
  | graphNode n h hg =>
    intro r a ha h1 h2
    obtain ⟨m, hm, hg⟩ := hL r a ha h1 h2
    refine ⟨m, hm, ?_⟩
    simp only [Dict.get?_set]
    rw [if_neg]
    · exact hg
    · rintro rfl
      simp [Dict.has, hg] at h
  | newNet uid n h hok hfloor =>
    intro r a ha h1 h2
    by_cases hr : r = w.agents.length
    · subst hr
      simp only [List.getElem?_concat_length, Option.some.injEq] at ha
      subst ha
      exact ⟨n, rfl, by simp⟩
    · have ha' : w.agents[r]? = some a := by
        have hlt : r < (w.agents ++ [(⟨uid, true, some n, true⟩ : NAgent)]).length := (List.getElem?_eq_some_iff.1 ha).1
        simp only [List.length_append, List.length_singleton] at hlt
        rw [List.getElem?_append_left (by omega)] at ha; exact ha
      obtain ⟨m, hm, hg⟩ := hL r a ha' h1 h2
      refine ⟨m, hm, ?_⟩
      simp only [Dict.get?_set]
      rw [if_neg]
      · exact hg
      · rintro rfl
        have := hok hfl r a hg ha' h1
        rw [this] at h2; cases h2
  | newPlain uid node =>
    intro r a ha h1 h2
    by_cases hr : r = w.agents.length
    · subst hr
      simp only [List.getElem?_concat_length, Option.some.injEq] at ha
      subst ha
      cases h1
    · have ha' : w.agents[r]? = some a := by
        have hlt : r < (w.agents ++ [(⟨uid, false, node, true⟩ : NAgent)]).length := (List.getElem?_eq_some_iff.1 ha).1
        simp only [List.length_append, List.length_singleton] at hlt
        rw [List.getElem?_append_left (by omega)] at ha; exact ha
      exact hL r a ha' h1 h2
  | put r n a ha hp hn h hok hfloor =>
    intro s b hb h1 h2
    obtain ⟨m, hm, hg⟩ := hL s b hb h1 h2
    refine ⟨m, hm, ?_⟩
    simp only [Dict.get?_set]
    rw [if_neg]
    · exact hg
    · rintro rfl
      have := hok hfl s b hg hb h1
      rw [this] at h2; cases h2
  | sched r hr hs a ha hfloor => exact hL
  | kill r a ha =>
    intro s b hb h1 h2
    by_cases hrs : r = s
    · subst hrs
      simp only [List.getElem?_set_self (List.getElem?_eq_some_iff.1 ha).1, Option.some.injEq] at hb
      subst hb; cases h2
    · simp only [List.getElem?_set_ne hrs] at hb
      exact hL s b hb h1 h2
  | killRemove r a n ha hnet hal hn h hg =>
    intro s b hb h1 h2
    by_cases hrs : r = s
    · subst hrs
      simp only [List.getElem?_set_self (List.getElem?_eq_some_iff.1 ha).1, Option.some.injEq] at hb
      subst hb; cases h2
    · simp only [List.getElem?_set_ne hrs] at hb
      obtain ⟨m, hm, hg⟩ := hL s b hb h1 h2
      refine ⟨m, hm, ?_⟩
      simp only [Dict.get?_del _ hI.wf]
      rw [if_neg]
      · exact hg
      · rintro rfl
        obtain ⟨k, hk, hg2⟩ := hL r a ha hnet hal
        rw [hn] at hk
        cases hk
        rw [hg] at hg2
        simp only [Option.some.injEq] at hg2
        exact hrs hg2.symm
  | edge n m hn hm => exact hL
  | reserve n h =>
    intro r a ha h1 h2
    obtain ⟨m, hm, hg⟩ := hL r a ha h1 h2
    refine ⟨m, hm, ?_⟩
    simp only [Dict.get?_set]
    rw [if_neg]
    · exact hg
    · rintro rfl
      rw [h] at hg; simp at hg

theorem NSteps.linked {fl : SFlags} (hfl : fl.strict = true) {w w' : NWorld} (h : NSteps fl w w') (hI : NInv w)
    (hL : w.Linked) : w'.Linked := by
  induction h with
  | refl => exact hL
  | tail h1 h ih => exact h.linked hfl (NSteps.inv h1 hI) ih

/-- Integer nodes are smaller than the size of the graph. -/
def NWorld.IntBound (w : NWorld) : Prop := ∀ k, Dict.has w.nodes (.int k) = true → k < w.nodes.length

theorem NStep.intBound {fl : SFlags} (hfl : fl.grow = true) {w w' : NWorld} (h : NStep fl w w') (hB : w.IntBound) :
    w'.IntBound := by
  have hset : ∀ n v, Dict.has w.nodes n = true → ∀ k, Dict.has (Dict.set w.nodes n v) (.int k) = true →
      k < (Dict.set w.nodes n v).length := by
    intro n v h k hk
    rw [Dict.has_set] at hk
    rw [Dict.length_set, if_pos h]
    apply hB k
    rcases Bool.or_eq_true _ _ ▸ hk with hk | hk
    · have : n = .int k := by simpa using hk
      rw [← this]; exact h
    · exact hk
  cases h with
  | nextId => exact hB
  | graphNode n h hg =>
    intro k hk
    simp only [Dict.has_set] at hk
    simp only [Dict.length_set, h, Bool.false_eq_true, if_false]
    rcases Bool.or_eq_true _ _ ▸ hk with hk | hk
    · have : n = .int k := by simpa using hk
      have := hg hfl k this
      omega
    · have := hB k hk; omega
  | newNet uid n h hok hfloor => exact hset n _ h
  | newPlain uid node => exact hB
  | put r n a ha hp hn h hok hfloor => exact hset n _ h
  | sched r hr hs a ha hfloor => exact hB
  | kill r a ha => exact hB
  | killRemove r a n ha hnet hal hn h hg => rw [hfl] at hg; cases hg
  | edge n m hn hm => exact hB
  | reserve n h => exact hset n _ (by simp [Dict.has, h])

theorem NSteps.intBound {fl : SFlags} (hfl : fl.grow = true) {w w' : NWorld} (h : NSteps fl w w') (hB : w.IntBound) :
    w'.IntBound := by
  induction h with
  | refl => exact hB
  | tail _ h ih => exact h.intBound hfl ih

theorem NStep.length_le {fl : SFlags} {w w' : NWorld} (h : NStep fl w w') : w.agents.length ≤ w'.agents.length := by
  cases h <;> simp

theorem NSteps.length_le {fl : SFlags} {w w' : NWorld} (h : NSteps fl w w') : w.agents.length ≤ w'.agents.length := by
  induction h with
  | refl => exact le_rfl
  | tail _ h ih => exact ih.trans h.length_le

/-- A dead agent that nothing refers to. -/
structure NWorld.Gone (w : NWorld) (r : Nat) : Prop where
  dead : ∃ a : NAgent, w.agents[r]? = some a ∧ a.alive = false
  unscheduled : r ∉ w.sched
  offGraph : ∀ n, Dict.get? w.nodes n ≠ some (some (some r))

theorem NStep.gone {fl : SFlags} {w w' : NWorld} (h : NStep fl w w') (hI : NInv w) (r : Nat) (hr : r < fl.floor)
    (hG : w.Gone r) : w'.Gone r := by
  obtain ⟨⟨a, ha, hal⟩, hs, ho⟩ := hG
  cases h with
  | nextId => exact ⟨⟨a, ha, hal⟩, hs, ho⟩
  | graphNode n h hg =>
    refine ⟨⟨a, ha, hal⟩, hs, fun m => ?_⟩
    simp only [Dict.get?_set]
    split
    · simp
    · exact ho m
  | newNet uid n h hok hfloor =>
    refine ⟨⟨a, get?_append_lt ha, hal⟩, hs, fun m => ?_⟩
    simp only [Dict.get?_set]
    split
    · simp; omega
    · exact ho m
  | newPlain uid node => exact ⟨⟨a, get?_append_lt ha, hal⟩, hs, ho⟩
  | put r' n b hb hp hn h hok hfloor =>
    refine ⟨⟨a, ha, hal⟩, hs, fun m => ?_⟩
    simp only [Dict.get?_set]
    split
    · simp; omega
    · exact ho m
  | sched r' hr' hs' b hb hfloor =>
    refine ⟨⟨a, ha, hal⟩, ?_, ho⟩
    simp only [List.mem_append, List.mem_singleton, not_or]
    exact ⟨hs, by omega⟩
  | kill r' b hb =>
    refine ⟨?_, fun h => hs (List.mem_of_mem_erase h), ho⟩
    by_cases hrr : r' = r
    · subst hrr
      exact ⟨{ b with alive := false }, by simp [List.getElem?_set_self (List.getElem?_eq_some_iff.1 ha).1], rfl⟩
    · exact ⟨a, by simp only [List.getElem?_set_ne hrr]; exact ha, hal⟩
  | killRemove r' b n hb hnet hal' hn h hg =>
    refine ⟨?_, fun h => hs (List.mem_of_mem_erase h), fun m => ?_⟩
    · by_cases hrr : r' = r
      · subst hrr
        exact ⟨{ b with node := none, alive := false }, by simp [List.getElem?_set_self (List.getElem?_eq_some_iff.1 ha).1], rfl⟩
      · exact ⟨a, by simp only [List.getElem?_set_ne hrr]; exact ha, hal⟩
    · simp only [Dict.get?_del _ hI.wf]
      split
      · simp
      · exact ho m
  | edge n m hn hm => exact ⟨⟨a, ha, hal⟩, hs, ho⟩
  | reserve n h =>
    refine ⟨⟨a, ha, hal⟩, hs, fun m => ?_⟩
    simp only [Dict.get?_set]
    split
    · simp
    · exact ho m

theorem NSteps.gone {fl : SFlags} {w w' : NWorld} (h : NSteps fl w w') (hI : NInv w) (r : Nat) (hr : r < fl.floor)
    (hG : w.Gone r) : w'.Gone r := by
  induction h with
  | refl => exact hG
  | tail h1 h ih => exact h.gone (NSteps.inv h1 hI) r hr ih

/-! ### Operations are made of small steps -/

theorem firstFree_spec (w : NWorld) (l : List NId) (n : NId) (h : firstFree w.nodes l = some n) :
    n ∈ l ∧ ∃ a, Dict.get? w.nodes n = some a ∧ nodeFree a = true := by
  induction l with
  | nil => cases h
  | cons m l ih =>
    simp only [firstFree] at h
    cases hg : Dict.get? w.nodes m with
    | none => rw [hg] at h; obtain ⟨h1, h2⟩ := ih h; exact ⟨by simp [h1], h2⟩
    | some a =>
      rw [hg] at h
      simp only at h
      split at h
      · rename_i hf
        cases h
        exact ⟨by simp, a, hg, hf⟩
      · obtain ⟨h1, h2⟩ := ih h; exact ⟨by simp [h1], h2⟩

theorem vacant_of_free {w : NWorld} {n : NId} {x : Option (Option Nat)} (h : Dict.get? w.nodes n = some x)
    (hf : nodeFree x = true) : w.Vacant n := by
  intro r a hr
  rw [h] at hr
  cases hr
  cases hf

theorem vacant_of_absent {w : NWorld} {n : NId} (h : Dict.has w.nodes n = false) : w.Vacant n := by
  intro r a hr
  simp [Dict.has, hr] at h

/-- Condition under which an addition displaces nobody. -/
def NWorld.SafeAdd (w : NWorld) (net : Bool) (node : Option NId) (picks : Nat → Nat) : Prop :=
  match node with
  | some n => w.Vacant n
  | none => net = true → firstFree w.nodes (candidates w.nodes picks) = none → w.Vacant (.int w.nodes.length)

theorem die_steps (fl : SFlags) (w : NWorld) (r : Nat) (remove : Bool)
    (hg : fl.grow = true → remove = true → ∀ a : NAgent, w.agents[r]? = some a → a.net = false) :
    NSteps fl w (w.die r remove).1 := by
  unfold NWorld.die
  cases ha : w.agents[r]? with
  | none => exact .refl
  | some a =>
    simp only
    by_cases hnet : a.net = true
    · rw [if_pos hnet]
      by_cases hal : a.alive = true
      · rw [if_neg (by simp [hal])]
        by_cases hrm : remove = true
        · rw [if_pos hrm]
          cases hn : a.node with
          | none => exact .refl
          | some n =>
            simp only
            by_cases hh : Dict.has w.nodes n = true
            · rw [if_pos hh]
              refine .single (.killRemove w r a n ha hnet hal hn hh ?_)
              cases hgr : fl.grow with
              | false => rfl
              | true => rw [hg hgr hrm a ha] at hnet; cases hnet
            · rw [if_neg hh]
        · rw [if_neg hrm]; exact .single (.kill w r a ha)
      · rw [if_pos (by simp [hal])]
    · rw [if_neg hnet]; exact .single (.kill w r a ha)

/-- Result of a constructor. -/
theorem construct_steps (fl : SFlags) (w : NWorld) (net : Bool) (uid : Nat) (node : Option NId) (picks : Nat → Nat)
    (init : InitRes) (hI : NInv w) (hfl : fl.floor ≤ w.agents.length) (hs : fl.strict = true → w.SafeAdd net node picks)
    (hg : fl.grow = true → init = .dies → net = false) :
    NSteps fl w (w.construct net uid node picks init).1 ∧
    ((w.construct net uid node picks init).2.2 = true → ∃ a : NAgent,
      (w.construct net uid node picks init).2.1 = some w.agents.length ∧
      (w.construct net uid node picks init).1.agents[w.agents.length]? = some a ∧ a.net = net ∧
      w.agents.length ∉ (w.construct net uid node picks init).1.sched ∧
      (∀ n, node = some n → net = true →
        Dict.get? (w.construct net uid node picks init).1.nodes n = some (some (some w.agents.length)) ∨
        Dict.get? (w.construct net uid node picks init).1.nodes n = none) ∧
      (net = false → a.node = node ∧ (w.construct net uid node picks init).1.nodes = w.nodes ∧
        ∀ n, w.Vacant n → (w.construct net uid node picks init).1.Vacant n)) := by
  have hnotin : w.agents.length ∉ w.sched := fun h => by
    have := hI.range _ h; omega
  unfold NWorld.construct
  cases net with
  | false =>
    simp only [Bool.false_eq_true, if_false]
    have hvac : ∀ (w' : NWorld) (x : NAgent), w'.nodes = w.nodes →
        (∀ (r : Nat), r < w.agents.length → w'.agents[r]? = w.agents[r]?) → ∀ n, w.Vacant n → w'.Vacant n := by
      intro w' x hn ha n hv r a hr hra
      rw [hn] at hr
      obtain ⟨b, hb, _⟩ := hI.onNode n r hr
      rw [ha r (List.getElem?_eq_some_iff.1 hb).1] at hra
      exact hv r a hr hra
    have hstep : NSteps fl w { w with agents := w.agents ++ [⟨uid, false, node, true⟩] } := .single (.newPlain w uid node)
    cases init with
    | ok =>
      refine ⟨hstep, fun _ => ⟨⟨uid, false, node, true⟩, rfl, by simp, rfl, hnotin, by simp, fun _ => ⟨rfl, rfl, ?_⟩⟩⟩
      exact hvac _ ⟨uid, false, node, true⟩ rfl (fun r hr => List.getElem?_append_left hr)
    | raises => exact ⟨hstep, by simp⟩
    | dies =>
      simp only
      have hd : ({ w with agents := w.agents ++ [⟨uid, false, node, true⟩] } : NWorld).die w.agents.length true =
          ({ w with
              agents := w.agents ++ [⟨uid, false, node, false⟩],
              sched := w.sched.erase w.agents.length }, true) := by
        simp [NWorld.die]
      refine ⟨hstep.trans (die_steps fl _ _ _ ?_), fun _ => ?_⟩
      · intro _ _ a ha
        simp only [List.getElem?_concat_length, Option.some.injEq] at ha
        rw [← ha]
      · rw [hd]
        refine ⟨⟨uid, false, node, false⟩, by trivial, by simp, by trivial, ?_, by simp, fun _ => ⟨by trivial, by trivial, ?_⟩⟩
        · exact fun h => hnotin (List.mem_of_mem_erase h)
        · exact hvac _ ⟨uid, false, node, true⟩ rfl (fun r hr => List.getElem?_append_left hr)
  | true =>
    simp only [if_true]
    cases hc : w.chooseNode node picks with
    | none => exact ⟨.refl, by simp⟩
    | some wn =>
      obtain ⟨w1, n⟩ := wn
      -- the graph after the choice
      have hw1 : NSteps fl w w1 ∧ w1.agents = w.agents ∧ w1.sched = w.sched ∧ Dict.has w1.nodes n = true ∧
          (fl.strict = true → w1.Vacant n) ∧ (∀ m, node = some m → m = n ∧ w1 = w) := by
        unfold NWorld.chooseNode at hc
        cases node with
        | some m =>
          simp only at hc
          split at hc
          · rename_i hh
            cases hc
            exact ⟨.refl, by trivial, by trivial, hh, fun h => hs h, fun k hk => by cases hk; exact ⟨rfl, rfl⟩⟩
          · cases hc
        | none =>
          simp only at hc
          cases hf : firstFree w.nodes (candidates w.nodes picks) with
          | some m =>
            rw [hf] at hc
            cases hc
            obtain ⟨_, x, hx, hx2⟩ := firstFree_spec w _ _ hf
            exact ⟨.refl, rfl, rfl, by simp [Dict.has, hx], fun _ => vacant_of_free hx hx2, by simp⟩
          | none =>
            rw [hf] at hc
            simp only [Option.some.injEq, Prod.mk.injEq] at hc
            obtain ⟨rfl, rfl⟩ := hc
            unfold NWorld.addGraphNode
            cases hh : Dict.has w.nodes (.int w.nodes.length) with
            | true =>
              simp only [if_true]
              exact ⟨.refl, by trivial, by trivial, hh, fun h => hs h rfl hf, by simp⟩
            | false =>
              simp only [Bool.false_eq_true, if_false]
              refine ⟨.single (.graphNode w _ hh ?_), by trivial, by trivial, ?_, ?_, by simp⟩
              · intro _ k hk; cases hk; exact le_rfl
              · simp [Dict.has]
              · intro _
                exact vacant_of_free (x := none) (by simp) rfl
      obtain ⟨hst, hag, hsc, hhas, hvac, hnode⟩ := hw1
      simp only
      have hstep : NSteps fl w { w1 with
          nodes := Dict.set w1.nodes n (some (some w.agents.length)),
          agents := w1.agents ++ [⟨uid, true, some n, true⟩] } := by
        refine hst.tail ?_
        have := NStep.newNet (fl := fl) w1 uid n hhas hvac (by rw [hag]; exact hfl)
        rw [hag] at this ⊢
        exact this
      cases init with
      | ok =>
        refine ⟨hstep, fun _ => ⟨⟨uid, true, some n, true⟩, rfl, ?_, rfl, ?_, ?_, by simp⟩⟩
        · simp [hag]
        · simp only [hsc]; exact hnotin
        · intro m hm _
          obtain ⟨rfl, rfl⟩ := hnode m hm
          exact Or.inl (by simp)
      | raises => exact ⟨hstep, by simp⟩
      | dies =>
        simp only
        refine ⟨hstep.trans (die_steps fl _ _ _ ?_), fun _ => ?_⟩
        · intro h
          have := hg h rfl
          cases this
        · have hd : ({ w1 with
              nodes := Dict.set w1.nodes n (some (some w.agents.length)),
              agents := w1.agents ++ [⟨uid, true, some n, true⟩] } : NWorld).die w.agents.length true =
            ({ w1 with
              nodes := Dict.del (Dict.set w1.nodes n (some (some w.agents.length))) n,
              edges := w1.edges.filter (fun e => decide (e.1 ≠ n ∧ e.2 ≠ n)),
              agents := w1.agents ++ [⟨uid, true, none, false⟩],
              sched := w1.sched.erase w.agents.length }, true) := by
            have hh : Dict.has (Dict.set w1.nodes n (some (some w.agents.length))) n = true := by simp [Dict.has_set]
            simp [NWorld.die, NWorld.removeGraphNode, hag, hh]
          rw [hd]
          refine ⟨⟨uid, true, none, false⟩, by trivial, ?_, by trivial, ?_, ?_, by simp⟩
          · simp [hag]
          · simp only [hsc]
            exact fun h => hnotin (List.mem_of_mem_erase h)
          · intro m hm _
            obtain ⟨rfl, rfl⟩ := hnode m hm
            right
            simp only
            rw [Dict.get?_del _ (hI.wf.set _ _), if_pos rfl]

theorem baseAdd_steps (fl : SFlags) (w : NWorld) (net : Bool) (uid : Option Nat) (node : Option NId) (picks : Nat → Nat)
    (init : InitRes) (hI : NInv w) (hfl : fl.floor ≤ w.agents.length) (hs : fl.strict = true → w.SafeAdd net node picks)
    (hg : fl.grow = true → init = .dies → net = false) :
    NSteps fl w (w.baseAdd net uid node picks init).1 ∧
    ((w.baseAdd net uid node picks init).2.2 = true → ∃ a : NAgent,
      (w.baseAdd net uid node picks init).2.1 = some w.agents.length ∧
      (w.baseAdd net uid node picks init).1.agents[w.agents.length]? = some a ∧ a.net = net ∧
      (∀ n, node = some n → net = true →
        Dict.get? (w.baseAdd net uid node picks init).1.nodes n = some (some (some w.agents.length)) ∨
        Dict.get? (w.baseAdd net uid node picks init).1.nodes n = none) ∧
      (net = false → a.node = node ∧ (w.baseAdd net uid node picks init).1.nodes = w.nodes ∧
        ∀ n, w.Vacant n → (w.baseAdd net uid node picks init).1.Vacant n)) := by
  unfold NWorld.baseAdd
  simp only
  have hx : ∃ (w0 : NWorld) (u : Nat), w.takeId uid = (w0, u) ∧ NSteps fl w w0 ∧ NInv w0 ∧
      w0.agents = w.agents ∧ w0.nodes = w.nodes ∧ (fl.strict = true → w0.SafeAdd net node picks) ∧
      ∀ n, w.Vacant n → w0.Vacant n := by
    cases uid with
    | some u => exact ⟨w, u, rfl, .refl, hI, rfl, rfl, hs, fun _ h => h⟩
    | none => exact ⟨_, _, rfl, .single (.nextId w), (NStep.nextId (fl := fl) w).inv hI, rfl, rfl, hs, fun _ h => h⟩
  obtain ⟨w0, u, hxe, hst, hI0, hag, hno, hs0, hv0⟩ := hx
  rw [hxe]
  simp only
  obtain ⟨h1, h2⟩ := construct_steps fl w0 net u node picks init hI0 (by rw [hag]; exact hfl) hs0 hg
  generalize hres : w0.construct net u node picks init = res at h1 h2
  obtain ⟨w1, ro, b⟩ := res
  simp only at h1 h2
  cases b with
  | false =>
    cases ro <;> exact ⟨hst.trans h1, by simp⟩
  | true =>
    obtain ⟨a, hro, ha, hnet, hnin, h3, h4⟩ := h2 rfl
    subst hro
    simp only
    rw [hag] at ha hnin h3 ⊢
    refine ⟨(hst.trans h1).tail (.sched w1 _ ?_ hnin a ha hfl), fun _ => ⟨a, rfl, ha, hnet, h3, ?_⟩⟩
    · exact (List.getElem?_eq_some_iff.1 ha).1
    · intro hf
      obtain ⟨h5, h6, h7⟩ := h4 hf
      exact ⟨h5, by rw [h6, hno], fun n hv => h7 n (hv0 n hv)⟩

theorem addAgent_steps (fl : SFlags) (w : NWorld) (net : Bool) (uid : Option Nat) (node : Option NId) (picks : Nat → Nat)
    (init : InitRes) (hI : NInv w) (hfl : fl.floor ≤ w.agents.length) (hs : fl.strict = true → w.SafeAdd net node picks)
    (hg : fl.grow = true → init = .dies → net = false) :
    NSteps fl w (w.addAgent net uid node picks init).1 := by
  unfold NWorld.addAgent
  cases node with
  | none => exact (baseAdd_steps fl w net uid none picks init hI hfl hs hg).1
  | some n =>
    simp only
    obtain ⟨h1, h2⟩ := baseAdd_steps fl w net uid (some n) picks init hI hfl hs hg
    generalize hres : w.baseAdd net uid (some n) picks init = res at h1 h2
    obtain ⟨w1, ro, b⟩ := res
    simp only at h1 h2
    cases b with
    | false => cases ro <;> exact h1
    | true =>
      obtain ⟨a, hro, ha, hnet, h3, h4⟩ := h2 rfl
      subst hro
      simp only
      split
      · rename_i hh
        cases net with
        | true =>
          rcases h3 n rfl rfl with h | h
          · simp only
            rw [Dict.set_same h]
            exact h1
          · simp [Dict.has, h] at hh
        | false =>
          obtain ⟨h5, h6, h7⟩ := h4 rfl
          exact h1.tail (.put w1 _ n a ha hnet h5 hh (fun hst => h7 n (hs hst)) hfl)
      · exact h1

theorem findUnassigned_spec (l : List (NId × Option (Option Nat))) :
    (∀ n, findUnassigned l = some n → (n, none) ∈ l) ∧ (findUnassigned l = none ↔ ∀ n, (n, none) ∉ l) := by
  induction l with
  | nil => simp [findUnassigned]
  | cons x l ih =>
    obtain ⟨m, a⟩ := x
    cases a with
    | none =>
      simp only [findUnassigned]
      refine ⟨fun n h => by cases h; simp, ?_⟩
      simp only [reduceCtorEq, false_iff]
      intro h; exact h m (by simp)
    | some a =>
      simp only [findUnassigned]
      refine ⟨fun n h => List.mem_cons_of_mem _ (ih.1 n h), ?_⟩
      rw [ih.2]
      simp

/-- `add_node` for any restriction on steps. -/
theorem addNode_steps (fl : SFlags) (w : NWorld) (net : Bool) (uid : Option Nat) (node : Option NId) (sh : Shuffle)
    (picks : Nat → Nat) (init : InitRes) (hI : NInv w) (hfl : fl.floor ≤ w.agents.length)
    (hg : fl.grow = true → (init = .dies → net = false) ∧ ∀ k, node = some (.int k) → k ≤ w.nodes.length) :
    NSteps fl w (w.addNode net uid node sh picks init).1 := by
  unfold NWorld.addNode
  simp only
  have hx : ∃ (w0 : NWorld) (u : Nat), w.takeId uid = (w0, u) ∧ NSteps fl w w0 ∧ NInv w0 ∧ w0.nodes = w.nodes := by
    cases uid with
    | some u => exact ⟨w, u, rfl, .refl, hI, rfl⟩
    | none => exact ⟨_, _, rfl, .single (.nextId w), (NStep.nextId (fl := fl) w).inv hI, rfl⟩
  obtain ⟨w0, u, hxe, hst, hI0, hno⟩ := hx
  rw [hxe]
  simp only
  have hn : ∃ n, w0.nodeFor u node sh = n ∧
      (Dict.has w0.nodes n = false → fl.grow = true → ∀ k, n = .int k → k ≤ w0.nodes.length) := by
    refine ⟨_, rfl, ?_⟩
    intro hh hgr k hk
    unfold NWorld.nodeFor at hh hk
    cases node with
    | some n => rw [hno]; exact (hg hgr).2 k (by rw [← hk])
    | none =>
      simp only at hk hh
      cases hf : findUnassigned (sh.run w0.nodes) with
      | none => rw [hf] at hk; cases hk
      | some m =>
        rw [hf] at hk hh
        simp only at hk hh
        have hm := (sh.perm w0.nodes).mem_iff.1 ((findUnassigned_spec _).1 m hf)
        have := Dict.get?_of_mem hI0.wf hm
        simp [Dict.has, this] at hh
  obtain ⟨n, hne, hng⟩ := hn
  rw [hne]
  have h1 : NSteps fl w0 (w0.addGraphNode n) := by
    unfold NWorld.addGraphNode
    cases hh : Dict.has w0.nodes n with
    | true => exact .refl
    | false => exact .single (.graphNode w0 n hh (hng hh))
  have hI1 : NInv (w0.addGraphNode n) := NSteps.inv h1 hI0
  generalize w0.addGraphNode n = w1 at h1 hI1
  split
  · rename_i hget
    refine (hst.trans h1).trans (addAgent_steps fl w1 net (some u) (some n) picks init hI1
      (hfl.trans (NSteps.length_le (hst.trans h1))) ?_ (fun h => (hg h).1))
    intro _
    exact vacant_of_free hget rfl
  · exact hst.trans h1

/-- `addAgent` on a node changes the occupation of that node only. -/
theorem addAgent_other (w : NWorld) (net : Bool) (uid : Option Nat) (n : NId) (picks : Nat → Nat) (init : InitRes)
    (hI : NInv w) (m : NId) (hm : m ≠ n) :
    Dict.get? (w.addAgent net uid (some n) picks init).1.nodes m = Dict.get? w.nodes m := by
  have hbase : ∀ (w : NWorld) (u : Nat), NInv w →
      Dict.get? (w.construct net u (some n) picks init).1.nodes m = Dict.get? w.nodes m := by
    intro w u hI
    unfold NWorld.construct
    cases net with
    | false =>
      simp only [Bool.false_eq_true, if_false]
      cases init <;> simp [NWorld.die]
    | true =>
      simp only [if_true, NWorld.chooseNode]
      by_cases hh : Dict.has w.nodes n = true
      · simp only [hh, if_true]
        cases init with
        | ok => simp only; rw [Dict.get?_set_ne _ _ (Ne.symm hm)]
        | raises => simp only; rw [Dict.get?_set_ne _ _ (Ne.symm hm)]
        | dies =>
          have hh2 : Dict.has (Dict.set w.nodes n (some (some w.agents.length))) n = true := by simp [Dict.has_set]
          simp only [NWorld.die, List.getElem?_concat_length, if_true, Bool.not_true, Bool.false_eq_true, if_false, hh2,
            NWorld.removeGraphNode]
          rw [Dict.get?_del _ (hI.wf.set _ _), if_neg (Ne.symm hm), Dict.get?_set_ne _ _ (Ne.symm hm)]
      · simp [hh]
  have hb : Dict.get? (w.baseAdd net uid (some n) picks init).1.nodes m = Dict.get? w.nodes m := by
    unfold NWorld.baseAdd
    simp only
    cases uid with
    | some u =>
      simp only [NWorld.takeId]
      have := hbase w u hI
      split
      · rename_i h; rw [h] at this; exact this
      · exact this
    | none =>
      simp only [NWorld.takeId]
      have := hbase { w with nextId := w.nextId + 1 } w.nextId ⟨hI.wf, hI.onNode, hI.edges, hI.nodup, hI.range⟩
      split
      · rename_i h; rw [h] at this; exact this
      · exact this
  unfold NWorld.addAgent
  simp only
  split
  · rename_i h
    rw [h] at hb
    split
    · simp only
      rw [Dict.get?_set_ne _ _ (Ne.symm hm)]; exact hb
    · exact hb
  · exact hb

theorem reserve_spec (cs : List Bool) (nodes : Dict NId (Option (Option Nat))) :
    Dict.keys (reserve cs nodes).1 = Dict.keys nodes ∧
    ((reserve cs nodes).2.map Prod.fst).Sublist (Dict.keys nodes) ∧
    (∀ n v, (n, v) ∈ (reserve cs nodes).1 → (n, v) ∈ nodes ∨ (v = some none ∧ (n, none) ∈ nodes ∧ n ∈ (reserve cs nodes).2.map Prod.fst)) ∧
    (∀ n ∈ (reserve cs nodes).2.map Prod.fst, (n, none) ∈ nodes ∧ (n, some none) ∈ (reserve cs nodes).1) ∧
    (nodes.length ≤ cs.length → ∀ n, (n, none) ∈ nodes → n ∈ (reserve cs nodes).2.map Prod.fst) := by
  induction nodes generalizing cs with
  | nil => cases cs <;> simp [reserve, Dict.keys]
  | cons x nodes ih =>
    obtain ⟨n, a⟩ := x
    cases cs with
    | nil =>
      simp [reserve]
    | cons c cs =>
      obtain ⟨i1, i2, i3, i4, i5⟩ := ih cs
      cases a with
      | some a =>
        simp only [reserve]
        refine ⟨by simp only [Dict.keys, List.map_cons] at i1 ⊢; rw [i1], i2.cons _, ?_, ?_, ?_⟩
        · intro m v hm
          rcases List.mem_cons.1 hm with hm | hm
          · left; simp [hm]
          · rcases i3 m v hm with h | ⟨h1, h2, h3⟩
            · left; simp [h]
            · right; exact ⟨h1, by simp [h2], h3⟩
        · intro m hm
          obtain ⟨h1, h2⟩ := i4 m hm
          exact ⟨by simp [h1], by simp [h2]⟩
        · intro hl m hm
          rcases List.mem_cons.1 hm with hm | hm
          · cases hm
          · exact i5 (by simpa using hl) m hm
      | none =>
        simp only [reserve]
        refine ⟨by simp only [Dict.keys, List.map_cons] at i1 ⊢; rw [i1], i2.cons_cons _, ?_, ?_, ?_⟩
        · intro m v hm
          rcases List.mem_cons.1 hm with hm | hm
          · right
            cases hm
            simp
          · rcases i3 m v hm with h | ⟨h1, h2, h3⟩
            · left; simp [h]
            · right; exact ⟨h1, by simp [h2], List.mem_cons_of_mem _ h3⟩
        · intro m hm
          rw [List.map_cons, List.mem_cons] at hm
          rcases hm with rfl | hm
          · simp
          · obtain ⟨h1, h2⟩ := i4 m hm
            exact ⟨by simp [h1], by simp [h2]⟩
        · intro hl m hm
          rw [List.map_cons, List.mem_cons]
          rcases List.mem_cons.1 hm with hm | hm
          · cases hm; left; rfl
          · right; exact i5 (by simpa using hl) m hm

theorem reserve_steps (fl : SFlags) (cs : List Bool) (w : NWorld) (hI : NInv w) :
    NSteps fl w { w with nodes := (reserve cs w.nodes).1 } := by
  -- generalised over a part of the nodes that is already done
  have key : ∀ (nodes done : Dict NId (Option (Option Nat))) (cs : List Bool) (w : NWorld), NInv w → w.nodes = done ++ nodes →
      NSteps fl w { w with nodes := done ++ (reserve cs nodes).1 } := by
    intro nodes
    induction nodes with
    | nil =>
      intro done cs w hI hw
      have : (reserve cs []).1 = [] := by cases cs <;> rfl
      rw [this, ← hw]
    | cons x nodes ih =>
      intro done cs w hI hw
      obtain ⟨n, a⟩ := x
      cases cs with
      | nil => simp only [reserve]; rw [← hw]
      | cons c cs =>
        cases a with
        | some a =>
          simp only [reserve]
          have := ih (done ++ [(n, some a)]) cs w hI (by rw [hw]; simp)
          simpa using this
        | none =>
          simp only [reserve]
          have hget : Dict.get? w.nodes n = some none := Dict.get?_of_mem hI.wf (by rw [hw]; simp)
          have hstep := NStep.reserve (fl := fl) w n hget
          have hset : Dict.set w.nodes n (some none) = done ++ (n, some none) :: nodes := by
            rw [hw]
            have hnd : n ∉ Dict.keys done := by
              intro hm
              have := hI.wf
              rw [hw] at this
              unfold Dict.WF Dict.keys at this
              rw [List.map_append, List.nodup_append] at this
              exact this.2.2 n hm n (by simp) rfl
            clear hI hw hget hstep
            induction done with
            | nil => simp [Dict.set]
            | cons y done ihd =>
              obtain ⟨k, v⟩ := y
              have h' : ¬ n = k ∧ n ∉ Dict.keys done := by simpa [Dict.keys] using hnd
              rw [List.cons_append, Dict.set, if_neg (fun h => h'.1 h.symm), ihd h'.2, List.cons_append]
          rw [hset] at hstep
          have := ih (done ++ [(n, some none)]) cs { w with nodes := done ++ (n, some none) :: nodes } (hstep.inv hI) (by simp)
          refine Relation.ReflTransGen.trans (.single hstep) ?_
          simpa using this
  exact key w.nodes [] cs w hI rfl

theorem addAll_steps (fl : SFlags) (toadd : List (NId × Bool)) (w : NWorld) (inits : Nat → InitRes) (hI : NInv w)
    (hfl : fl.floor ≤ w.agents.length) (hnd : (toadd.map Prod.fst).Nodup) (hfree : ∀ n ∈ toadd.map Prod.fst, Dict.get? w.nodes n = some (some none))
    (hg : fl.grow = true → ∀ i, inits i ≠ .dies) :
    NSteps fl w (w.addAll toadd inits).1 := by
  induction toadd generalizing w inits with
  | nil => exact .refl
  | cons x rest ih =>
    obtain ⟨n, c⟩ := x
    rw [List.map_cons, List.nodup_cons] at hnd
    simp only [NWorld.addAll]
    have hfr := hfree n (by simp)
    have h1 := addAgent_steps fl w c none (some n) (fun _ => 0) (inits 0) hI hfl (fun _ => vacant_of_free hfr rfl)
      (fun h h2 => absurd h2 (hg h 0))
    have h2 := fun m hm => addAgent_other w c none n (fun _ => 0) (inits 0) hI m hm
    have h3 : ∀ w1 r, w.addAgent c none (some n) (fun _ => 0) (inits 0) = (w1, some r, true) →
        Dict.get? w1.nodes n = some (some (some r)) := by
      intro w1 r h
      unfold NWorld.addAgent at h
      simp only at h
      split at h
      · split at h
        · simp only [Prod.mk.injEq, Option.some.injEq] at h
          obtain ⟨rfl, rfl, _⟩ := h
          simp
        · simp at h
      · rename_i hne
        exact absurd h (by intro h; exact hne w1 r h)
    generalize hres : w.addAgent c none (some n) (fun _ => 0) (inits 0) = res at h1 h2 h3
    obtain ⟨w1, ro, b⟩ := res
    simp only at h1 h2
    have hI1 := NSteps.inv h1 hI
    match ro, b with
    | some r, true =>
      simp only
      split
      · rw [Dict.set_same (h3 w1 r rfl)]
        refine h1.trans (ih w1 (fun i => inits (i + 1)) hI1 (hfl.trans (NSteps.length_le h1)) hnd.2 ?_ (fun h i => hg h _))
        intro m hm
        rw [h2 m (fun e => hnd.1 (e ▸ hm))]
        exact hfree m (by simp [hm])
      · exact h1
    | some r, false => exact h1
    | none, true => exact h1
    | none, false => exact h1

theorem populate_steps (fl : SFlags) (w : NWorld) (classes : List Bool) (weights : Option (List Rat)) (draws : Nat → Rat)
    (inits : Nat → InitRes) (hI : NInv w) (hfl : fl.floor ≤ w.agents.length) (hg : fl.grow = true → ∀ i, inits i ≠ .dies) :
    NSteps fl w (w.populate classes weights draws inits).1 := by
  unfold NWorld.populate
  simp only
  split
  · exact .refl
  · split
    · exact .refl
    · rename_i cs _
      have h1 := reserve_steps fl cs w hI
      have hI1 := NSteps.inv h1 hI
      obtain ⟨_, r2, _, r4, _⟩ := reserve_spec cs w.nodes
      have h2 := addAll_steps fl (reserve cs w.nodes).2 { w with nodes := (reserve cs w.nodes).1 } inits hI1 hfl
        (List.Nodup.sublist r2 hI.wf) (fun n hn => Dict.get?_of_mem hI1.wf (r4 n hn).2) hg
      split <;> exact h1.trans h2

theorem addEdge_steps (fl : SFlags) (w : NWorld) (r s : Nat) : NSteps fl w (w.addEdge r s).1 := by
  unfold NWorld.addEdge
  split
  · split
    · split
      · split
        · split
          · exact .refl
          · rename_i h1 h2 _; exact .single (.edge w _ _ h1 h2)
        · exact .refl
      · exact .refl
    · exact .refl
  · exact .refl

/-- An operation displaces nobody. -/
def NOp.Safe (w : NWorld) : NOp → Prop
  | .add net _ node picks _ => w.SafeAdd net node picks
  | _ => True

/-- An operation removes no node and makes no integer node beyond the size of the graph. -/
def NOp.Grow (w : NWorld) : NOp → Prop
  | .add net _ _ _ init => init = .dies → net = false
  | .addNode net _ node _ _ init => (init = .dies → net = false) ∧ ∀ k, node = some (.int k) → k ≤ w.nodes.length
  | .populate _ _ _ inits => ∀ i, inits i ≠ .dies
  | .die r remove => remove = true → ∀ a : NAgent, w.agents[r]? = some a → a.net = false
  | .addEdge _ _ => True

theorem NOp.steps (fl : SFlags) (w : NWorld) (op : NOp) (hI : NInv w) (hfl : fl.floor ≤ w.agents.length) (hs : fl.strict = true → op.Safe w)
    (hg : fl.grow = true → op.Grow w) : NSteps fl w (op.exec w) := by
  cases op with
  | add net uid node picks init => exact addAgent_steps fl w net uid node picks init hI hfl hs hg
  | addNode net uid node sh picks init => exact addNode_steps fl w net uid node sh picks init hI hfl hg
  | populate cs ws ds is => exact populate_steps fl w cs ws ds is hI hfl hg
  | die r remove => exact die_steps fl w r remove hg
  | addEdge r s => exact addEdge_steps fl w r s

/-- Every operation of a history satisfies `P` in the state in which it is run. -/
def NWorld.All (P : NWorld → NOp → Prop) : NWorld → List NOp → Prop
  | _, [] => True
  | w, op :: ops => P w op ∧ NWorld.All P (op.exec w) ops

theorem NWorld.run_steps (fl : SFlags) (w : NWorld) (ops : List NOp) (hI : NInv w)
    (hfl : fl.floor ≤ w.agents.length) (h : w.All (fun w op => (fl.strict = true → op.Safe w) ∧ (fl.grow = true → op.Grow w)) ops) :
    NSteps fl w (w.run ops) := by
  induction ops generalizing w with
  | nil => exact .refl
  | cons op ops ih =>
    have h1 := op.steps fl w hI hfl h.1.1 h.1.2
    exact h1.trans (ih _ (NSteps.inv h1 hI) (hfl.trans (NSteps.length_le h1)) h.2)

theorem NWorld.All.imp {P Q : NWorld → NOp → Prop} (hPQ : ∀ w op, P w op → Q w op) {w : NWorld} {ops : List NOp}
    (h : w.All P ops) : w.All Q ops := by
  induction ops generalizing w with
  | nil => trivial
  | cons op ops ih => exact ⟨hPQ _ _ h.1, ih h.2⟩

theorem NWorld.run_inv (w : NWorld) (ops : List NOp) (hI : NInv w) : NInv (w.run ops) := by
  refine NSteps.inv (fl := ⟨false, false, 0⟩) (w.run_steps ⟨false, false, 0⟩ ops hI (Nat.zero_le _) ?_) hI
  clear hI
  induction ops generalizing w with
  | nil => trivial
  | cons op ops ih => exact ⟨⟨by simp, by simp⟩, ih _⟩

theorem NInv.start (nodes : Dict NId (Option (Option Nat))) (edges : List (NId × NId)) (directed : Bool)
    (hwf : Dict.WF nodes) (he : ∀ e ∈ edges, Dict.has nodes e.1 = true ∧ Dict.has nodes e.2 = true)
    (hno : ∀ n (r : Nat), Dict.get? nodes n ≠ some (some (some r))) : NInv (NWorld.start nodes edges directed) :=
  ⟨hwf, fun n r h => absurd h (hno n r), he, by simp [NWorld.start], by simp [NWorld.start]⟩

end Verif
