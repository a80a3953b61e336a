import Verif.Model.VirusStart
import Verif.Props.Filter
import Verif.Props.VirusSim

/-!
# C243: how the virus benchmark begins, and what it reports
-/

namespace Verif
open Spec

namespace Spec

/-- `random.sample`: as many nodes as asked for, all different, all in the network. -/
def FairSample (n : Nat) (sample : Nat → List Nat) : Prop := ∀ k ≤ n, (sample k).length = k ∧ (sample k).Nodup ∧ ∀ i ∈ sample k, i < n

end Spec

theorem mapIdx_countP {α β : Type} (f : Nat → α → β) (p : β → Bool) (q : α → Bool) (h : ∀ i a, p (f i a) = q a) (l : List α) : (l.mapIdx f).countP p = l.countP q := by
  induction l generalizing f with
  | nil => rfl
  | cons a l ih =>
    simp only [List.mapIdx_cons, List.countP_cons, h]
    rw [ih (fun i a => f (i + 1) a) (fun i a => h (i + 1) a)]

theorem val_inj {a b : VStat} : a.val = b.val ↔ a = b := by
  cases a <;> cases b <;> simp [VStat.val]

theorem countStatus_eq (st : List VStat) (s : VStat) : countStatus st s = numberIn s st := by
  unfold countStatus baseGetAgents numberIn virusRecs
  rw [filterAgents_eq _ _ _ rfl, ← List.countP_eq_length_filter]
  apply mapIdx_countP
  intro i a
  simp [Query.ids, critsMeaning, Query.crits, Dict.update, Dict.set, CritVal.wrap, FAgent.attr, Dict.get?, val_inj]

theorem countState_eq (st : List VAgent) (s : VStat) : countState st s = numberIn s (st.map (·.state)) := by
  unfold countState baseGetAgents numberIn virusRecs
  rw [filterAgents_eq _ _ _ rfl, ← List.countP_eq_length_filter]
  apply mapIdx_countP
  intro i a
  simp [Query.ids, critsMeaning, Query.crits, Dict.update, FAgent.get, Dict.get?, val_inj]

theorem onNodes_refs (key : String) (hk : key ≠ "node_id") (st : List VStat) (nodes : List Nat) (i : Nat) :
    i ∈ (onNodes key st nodes).map (·.ref) ↔ i < st.length ∧ i ∈ nodes := by
  unfold onNodes baseGetAgents virusRecs
  rw [filterAgents_eq _ _ _ rfl]
  simp only [List.mem_map, List.mem_filter, List.mem_mapIdx]
  constructor
  · rintro ⟨a, ⟨⟨j, hj, rfl⟩, h⟩, rfl⟩
    refine ⟨hj, ?_⟩
    simpa [Query.ids, critsMeaning, Query.crits, Dict.update, Dict.set, CritVal.wrap, FAgent.attr, Dict.get?] using h
  · rintro ⟨hi, h⟩
    refine ⟨_, ⟨⟨i, hi, rfl⟩, ?_⟩, rfl⟩
    simpa [Query.ids, critsMeaning, Query.crits, Dict.update, Dict.set, CritVal.wrap, FAgent.attr, Dict.get?] using h

theorem foldl_infect (l : List Nat) (st : List VStat) (j : Nat) :
    (l.foldl (fun st i => st.set i .infected) st)[j]? = if j ∈ l ∧ j < st.length then some .infected else st[j]? := by
  induction l generalizing st with
  | nil => simp
  | cons a l ih =>
    rw [List.foldl_cons, ih]
    simp only [List.length_set, List.mem_cons, List.getElem?_set]
    by_cases h1 : j ∈ l <;> by_cases h2 : j < st.length <;> by_cases h3 : a = j <;> simp [h1, h2, h3, eq_comm]
    exact fun h => absurd h.symm h3

theorem infect_all (n : Nat) (l ill : List Nat) (h : ∀ i < n, i ∈ l ↔ i ∈ ill) : l.foldl (fun st i => st.set i .infected) (List.replicate n VStat.susceptible) = virusInit n ill := by
  apply List.ext_getElem?
  intro j
  rw [foldl_infect]
  simp only [List.length_replicate, virusInit, List.getElem?_map, List.getElem?_replicate]
  by_cases hj : j < n
  · simp only [hj, and_true, h j hj, List.getElem?_range hj, if_true, Option.map_some]
    split <;> rfl
  · have : (List.range n)[j]? = none := by simp; omega
    simp [hj]

theorem infect_states (l : List FAgent) (st : List VAgent) :
    (l.foldl (fun st a => st.modify a.ref (fun q => { q with state := .infected })) st).map (·.state) = (l.map (·.ref)).foldl (fun st i => st.set i .infected) (st.map (·.state)) ∧
    ((∀ q ∈ st, q.just = false) → ∀ q ∈ l.foldl (fun st a => st.modify a.ref (fun q => { q with state := .infected })) st, q.just = false) := by
  induction l generalizing st with
  | nil => exact ⟨rfl, fun h => h⟩
  | cons a l ih =>
    have hm : (st.modify a.ref (fun q => { q with state := VStat.infected })).map (·.state) = (st.map (·.state)).set a.ref .infected := by
      apply List.ext_getElem?
      intro j
      simp only [List.getElem?_map, List.getElem?_modify, List.getElem?_set]
      by_cases hj : a.ref = j
      · subst hj
        by_cases hl : a.ref < st.length
        · simp [hl]
        · simp [hl]
      · simp [hj]
    refine ⟨?_, fun h => ?_⟩
    · rw [List.foldl_cons, (ih _).1, hm]
      rfl
    · rw [List.foldl_cons]
      refine (ih _).2 ?_
      intro q hq
      obtain ⟨j, hj, rfl⟩ := List.mem_iff_getElem.1 hq
      rw [List.getElem_modify]
      split
      · exact h (st[j]'(by rw [List.length_modify] at hj; exact hj)) (List.getElem_mem _)
      · exact h _ (List.getElem_mem _)

theorem virusInit_infected (n : Nat) (ill : List Nat) (hd : ill.Nodup) (hlt : ∀ i ∈ ill, i < n) : numberIn .infected (virusInit n ill) = ill.length := by
  unfold numberIn virusInit
  rw [List.countP_map]
  have e : (List.range n).countP ((fun t => decide (t = VStat.infected)) ∘ fun i => if i ∈ ill then VStat.infected else .susceptible) = ((List.range n).filter (fun i => decide (i ∈ ill))).length := by
    rw [← List.countP_eq_length_filter]
    congr 1
    funext i
    by_cases h : i ∈ ill <;> simp [h]
  rw [e]
  apply List.Perm.length_eq
  rw [List.perm_ext_iff_of_nodup (List.nodup_range.filter _) hd]
  intro i
  simp only [List.mem_filter, List.mem_range, decide_eq_true_eq]
  exact ⟨fun h => h.2, fun h => ⟨hlt i h, h⟩⟩

theorem numberIn_sum (st : List VStat) : numberIn .susceptible st + numberIn .infected st + numberIn .resistant st = st.length := by
  induction st with
  | nil => rfl
  | cons a st ih =>
    simp only [numberIn, List.countP_cons, List.length_cons] at ih ⊢
    cases a <;> simp <;> omega

/-- C243: the versions of the benchmark begin with the same agents if the same nodes are drawn: as many are infected as asked for, or all of them if that is more, nobody is
resistant, and the assertion at the end of `init` does not fail. -/
theorem C243_outbreak (n : Nat) (hn : 0 < n) (size : Nat) (sample : Nat → List Nat) (hs : FairSample n sample) :
    ∃ st, stepStart n size sample = .ok st ∧ mesaStart n size sample = .ok st ∧ statesStart n size sample = .ok (st.map (fun s => ⟨s, false⟩)) ∧ st.length = n ∧
      (∀ i < n, st[i]? = some (if i ∈ sample (min size n) then .infected else .susceptible)) ∧
      numberIn .infected st = min size n ∧ numberIn .susceptible st = n - min size n := by
  have hmin : (min (size : Int) (n : Int)) = ((min size n : Nat) : Int) := by omega
  obtain ⟨f1, f2, f3⟩ := hs (min size n) (by omega)
  have hc : numberIn .infected (virusInit n (sample (min size n))) = min size n := by rw [virusInit_infected n _ f2 f3, f1]
  have hlen : (virusInit n (sample (min size n))).length = n := by simp [virusInit]
  have hres : numberIn .resistant (virusInit n (sample (min size n))) = 0 := by
    unfold numberIn
    rw [List.countP_eq_zero]
    intro s hs
    simp only [virusInit, List.mem_map] at hs
    obtain ⟨i, -, rfl⟩ := hs
    split <;> simp
  have hn0 : n ≠ 0 := by omega
  have hneg : ¬ (((min size n : Nat) : Int) < 0) := by omega
  have hrefs : ∀ (key : String), key ≠ "node_id" → ∀ i < n, i ∈ (onNodes key (List.replicate n VStat.susceptible) (sample (min size n))).map (·.ref) ↔ i ∈ sample (min size n) := by
    intro key hk i hi
    rw [onNodes_refs key hk]
    simp [hi]
  refine ⟨virusInit n (sample (min size n)), ?_, ?_, ?_, hlen, ?_, hc, ?_⟩
  · unfold stepStart
    simp only [if_neg hn0, hmin, if_neg hneg, Int.toNat_natCast]
    have e := infect_all n _ _ (hrefs "status" (by decide))
    rw [List.foldl_map] at e
    rw [e, countStatus_eq, hc, if_pos rfl]
  · unfold mesaStart
    have : (if (size : Int) ≤ n then (size : Int) else n) = ((min size n : Nat) : Int) := by split <;> omega
    simp only [if_neg hn0, this, if_neg hneg, Int.toNat_natCast]
    rw [infect_all n _ _ (fun _ _ => Iff.rfl)]
  · unfold statesStart
    simp only [if_neg hn0, hmin, if_neg hneg, Int.toNat_natCast]
    have hrep : (List.replicate n (⟨.susceptible, false⟩ : VAgent)).map (·.state) = List.replicate n .susceptible := by simp
    rw [hrep]
    obtain ⟨h1, h2⟩ := infect_states (onNodes "state_id" (List.replicate n VStat.susceptible) (sample (min size n))) (List.replicate n ⟨.susceptible, false⟩)
    rw [hrep, infect_all n _ _ (hrefs "state_id" (by decide))] at h1
    have h3 := h2 (by intro q hq; rw [List.eq_of_mem_replicate hq])
    rw [countState_eq, h1, hc, if_pos rfl]
    congr 1
    rw [← h1, List.map_map]
    symm
    rw [List.map_congr_left (g := id)]
    · simp
    · intro q hq
      have := h3 q hq
      cases q
      simp_all
  · intro i hi
    simp only [virusInit, List.getElem?_map, List.getElem?_range hi, Option.map_some]
  · have := numberIn_sum (virusInit n (sample (min size n)))
    rw [hc, hres, hlen] at this
    omega

/-- C243: what cannot begin is rejected, by all versions in the same way. -/
theorem C243_rejected (n : Nat) (size : Int) (sample : Nat → List Nat) (h : n = 0 ∨ size < 0) :
    stepStart n size sample = (if n = 0 then .zeroDivision else .badSample) ∧ mesaStart n size sample = (if n = 0 then .zeroDivision else .badSample) ∧
      statesStart n size sample = (if n = 0 then .zeroDivision else .badSample) := by
  by_cases hn : n = 0
  · simp [stepStart, mesaStart, statesStart, hn]
  · have h' : size < 0 := by omega
    have h1 : min size (n : Int) < 0 := by omega
    have h2 : (if size ≤ (n : Int) then size else (n : Int)) < 0 := by split <;> omega
    simp only [stepStart, mesaStart, statesStart, if_neg hn, if_pos h1, if_pos h2, and_self]

/-- C243: at any time the three numbers reported are those of the agents in the states, and their sum is the number of agents (the last assertion of the benchmark); the ratio is
infinite exactly if nobody is susceptible, and otherwise it is the number `x` with `x * susceptible = resistant`. -/
theorem C243_reports (st : List VStat) (st' : List VAgent) :
    (countStatus st .susceptible + countStatus st .infected + countStatus st .resistant = st.length ∧
      countState st' .susceptible + countState st' .infected + countState st' .resistant = st'.length) ∧
    (∀ s, countStatus st s = (st.filter (fun t => decide (t = s))).length ∧ countState st' s = (st'.filter (fun t => decide (t.state = s))).length) ∧
    ∀ r s, (virusRatio r s = .inf ↔ s = 0) ∧ ∀ x : Rat, virusRatio r s = .fin x → 0 ≤ x ∧ x * s = r := by
  refine ⟨⟨?_, ?_⟩, fun s => ⟨?_, ?_⟩, fun r s => ⟨?_, ?_⟩⟩
  · simp only [countStatus_eq]
    exact numberIn_sum st
  · simp only [countState_eq]
    rw [numberIn_sum, List.length_map]
  · rw [countStatus_eq, ← List.countP_eq_length_filter]
    rfl
  · rw [countState_eq, ← List.countP_eq_length_filter]
    unfold numberIn
    rw [List.countP_map]
    rfl
  · unfold virusRatio
    split <;> simp_all
  · intro x h
    unfold virusRatio at h
    split at h
    · cases h
    · rename_i hs
      have hs' : (s : Rat) ≠ 0 := by exact_mod_cast hs
      have hx : (r : Rat) / s = x := by injection h
      rw [← hx]
      exact ⟨div_nonneg (by exact_mod_cast Nat.zero_le r) (by exact_mod_cast Nat.zero_le s), div_mul_cancel₀ _ hs'⟩

/-- C243 with C223: from the beginning to any later step, the numbers reported add up to the number of agents. -/
theorem C243_whole (P : VirusParams) (adj : Nat → List Nat) (src : VSource) (sh : Bool) (n : Nat) (hn : 0 < n) (size : Nat) (sample : Nat → List Nat) (hs : FairSample n sample)
    (k : Nat) : ∃ st, stepStart n size sample = .ok st ∧ let x := (virusAfter (virusHost P adj src) sh st k).2.st
      countStatus x .susceptible + countStatus x .infected + countStatus x .resistant = n := by
  obtain ⟨st, h1, -, -, h4, h5, -, -⟩ := C243_outbreak n hn size sample hs
  refine ⟨st, h1, ?_⟩
  have h0 : ∀ (j : Nat), st[j]? ≠ some .resistant := by
    intro j h
    have hj : j < st.length := by
      by_contra hc
      rw [List.getElem?_eq_none (by omega)] at h
      cases h
    rw [h5 j (by omega)] at h
    split at h <;> cases h
  have := (C223_total P adj src sh st h0 k).2
  simp only [countStatus_eq]
  rw [h4] at this
  exact this

/-! ### Examples -/

example : FairSample 5 List.range := fun k hk => ⟨by simp, List.nodup_range, fun i hi => by have := List.mem_range.1 hi; omega⟩

example : stepStart 5 2 (fun k => (List.range k).map (4 - ·)) = .ok [.susceptible, .susceptible, .susceptible, .infected, .infected] := by decide +kernel

example : statesStart 2 7 List.range = .ok [⟨.infected, false⟩, ⟨.infected, false⟩] := by decide +kernel

example : countStatus [.infected, .resistant, .susceptible, .resistant] .resistant = 2 ∧ virusRatio 2 1 = .fin 2 ∧ virusRatio 2 0 = .inf := by decide +kernel

end Verif
