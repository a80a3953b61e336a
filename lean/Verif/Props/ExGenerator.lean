import Verif.Model.ExGenerator
import Mathlib.Data.Finset.Card
import Mathlib.Data.List.Range
import Mathlib.Data.Finset.Prod
import Mathlib.Algebra.Order.BigOperators.Group.Finset
import Mathlib.Algebra.BigOperators.Intervals

/-!
# C135: the custom generator
-/

namespace Verif

/-- An edge between two different nodes below `n`, smaller end first. -/
def GenOk (n : Nat) (e : Nat × Nat) : Prop := e.1 < e.2 ∧ e.2 < n

theorem pyChoice_some (l : List Nat) (h : l ≠ []) (k : Nat) : ∃ x ∈ l, pyChoice l k = some x := by
  have hl : k % l.length < l.length := Nat.mod_lt _ (List.length_pos_iff.2 h)
  exact ⟨l[k % l.length], List.getElem_mem hl, List.getElem?_eq_getElem hl⟩

theorem pyChoice_mem {l : List Nat} {k x : Nat} (h : pyChoice l k = some x) : x ∈ l := List.mem_of_getElem? h

theorem pyChoice_surj {l : List Nat} {x : Nat} (h : x ∈ l) : ∃ k, pyChoice l k = some x := by
  obtain ⟨k, hk, e⟩ := List.getElem_of_mem h
  exact ⟨k, by simp [pyChoice, Nat.mod_eq_of_lt hk, hk, e]⟩

theorem genEdge_ok {n u v : Nat} (hu : u < n) (hv : v < n) (h : u ≠ v) : GenOk n (genEdge u v) := by
  unfold GenOk genEdge
  simp only
  omega

theorem mem_erase_range {n u v : Nat} : v ∈ (List.range n).erase u ↔ v ≠ u ∧ v < n := by
  rw [List.Nodup.mem_erase_iff List.nodup_range, List.mem_range]

theorem erase_range_ne {n u : Nat} (hn : 2 ≤ n) : (List.range n).erase u ≠ [] := by
  intro h
  have : (if u = 0 then 1 else 0) ∈ (List.range n).erase u := by
    rw [mem_erase_range]
    split <;> omega
  rw [h] at this
  cases this

theorem genAdd_spec (n : Nat) (E : List (Nat × Nat)) (u v : Nat) (hE : E.Nodup) (hok : ∀ e ∈ E, GenOk n e)
    (hu : u < n) (hv : v < n) (huv : u ≠ v) :
    (genAdd E u v).Nodup ∧ (∀ e ∈ genAdd E u v, GenOk n e) ∧ (genAdd E u v).length ≤ E.length + 1 ∧
      (∀ e, e ∈ genAdd E u v ↔ e ∈ E ∨ e = genEdge u v) := by
  unfold genAdd
  split
  · rename_i h
    refine ⟨hE, hok, by omega, fun e => ⟨Or.inl, ?_⟩⟩
    rintro (he | rfl)
    · exact he
    · exact h
  · rename_i h
    refine ⟨?_, ?_, by simp, fun e => by simp⟩
    · rw [List.nodup_append]
      refine ⟨hE, by simp, ?_⟩
      intro a ha b hb
      rw [List.mem_singleton.1 hb]
      rintro rfl
      exact h ha
    · intro e he
      rcases List.mem_append.1 he with he | he
      · exact hok e he
      · rw [List.mem_singleton.1 he]; exact genEdge_ok hu hv huv

theorem mygenLoop_spec (n : Nat) (hn : 2 ≤ n) (ds E : List (Nat × Nat)) (hE : E.Nodup) (hok : ∀ e ∈ E, GenOk n e) :
    ∃ E', mygenLoop n ds E = some E' ∧ E'.Nodup ∧ (∀ e ∈ E', GenOk n e) ∧ E'.length ≤ E.length + ds.length ∧ (∀ e ∈ E, e ∈ E') ∧
      (ds ≠ [] → E' ≠ []) := by
  induction ds generalizing E with
  | nil => exact ⟨E, rfl, hE, hok, by simp, fun _ h => h, by simp⟩
  | cons d ds ih =>
    obtain ⟨a, b⟩ := d
    obtain ⟨u, hu, hua⟩ := pyChoice_some (List.range n) (by simp; omega) a
    obtain ⟨v, hv, hvb⟩ := pyChoice_some ((List.range n).erase u) (erase_range_ne hn) b
    simp only [mygenLoop, hua, hvb]
    have hv' := mem_erase_range.1 hv
    obtain ⟨h1, h2, h3, h4⟩ := genAdd_spec n E u v hE hok (List.mem_range.1 hu) hv'.2 (Ne.symm hv'.1)
    obtain ⟨E', e, h5, h6, h7, h8, _⟩ := ih (genAdd E u v) h1 h2
    refine ⟨E', e, h5, h6, by simp only [List.length_cons]; omega, fun x hx => h8 x ((h4 x).2 (Or.inl hx)), ?_⟩
    intro _ h
    have := h8 (genEdge u v) ((h4 _).2 (Or.inr rfl))
    rw [h] at this
    cases this

/-- At most one edge per pair of nodes. -/
theorem genOk_card (n : Nat) (E : List (Nat × Nat)) (hE : E.Nodup) (hok : ∀ e ∈ E, GenOk n e) : E.length ≤ n * (n - 1) / 2 := by
  classical
  have hsub : E.toFinset ⊆ (Finset.range n).biUnion (fun v => (Finset.range v).image (fun u => (u, v))) := by
    intro e he
    have := hok e (List.mem_toFinset.1 he)
    rw [Finset.mem_biUnion]
    refine ⟨e.2, Finset.mem_range.2 this.2, Finset.mem_image.2 ⟨e.1, Finset.mem_range.2 this.1, rfl⟩⟩
  have hc := Finset.card_le_card hsub
  rw [List.toFinset_card_of_nodup hE] at hc
  refine le_trans hc (le_trans Finset.card_biUnion_le ?_)
  have : ∀ v ∈ Finset.range n, ((Finset.range v).image (fun u => (u, v))).card ≤ v := by
    intro v _
    exact le_trans Finset.card_image_le (by simp)
  refine le_trans (Finset.sum_le_sum this) ?_
  rw [Finset.sum_range_id]

/-- C135 (partial: at most): with two nodes or more, whatever is drawn, the generator returns a graph without loops in which every
edge joins two of the nodes `0 … n-1`, no edge is there twice, and there are at most `n_edges` edges (and at most one for each pair of
nodes), and at least one unless `n_edges` is 0. -/
theorem C135_graph_partial (n : Nat) (hn : 2 ≤ n) (draws : List (Nat × Nat)) :
    ∃ E, mygenerator n draws = some E ∧ E.Nodup ∧ (∀ e ∈ E, e.1 < e.2 ∧ e.2 < n) ∧ E.length ≤ draws.length ∧
      E.length ≤ n * (n - 1) / 2 ∧ (draws ≠ [] → E ≠ []) := by
  obtain ⟨E, e, h1, h2, h3, _, h5⟩ := mygenLoop_spec n hn draws [] (by simp) (by simp)
  exact ⟨E, e, h1, h2, by simpa using h3, genOk_card n E h1 h2, h5⟩

/-- C135: every graph with the nodes `0 … n-1` can be the result: for every list of different edges there are random numbers with
which exactly these edges are made. -/
theorem C135_every_graph (n : Nat) (E : List (Nat × Nat)) (hE : E.Nodup) (hok : ∀ e ∈ E, e.1 < e.2 ∧ e.2 < n) :
    ∃ draws : List (Nat × Nat), draws.length = E.length ∧ mygenerator n draws = some E := by
  suffices h : ∀ (E F : List (Nat × Nat)), (F ++ E).Nodup → (∀ e ∈ E, e.1 < e.2 ∧ e.2 < n) →
      ∃ draws : List (Nat × Nat), draws.length = E.length ∧ mygenLoop n draws F = some (F ++ E) by
    obtain ⟨ds, h1, h2⟩ := h E [] (by simpa using hE) hok
    exact ⟨ds, h1, h2⟩
  intro E
  induction E with
  | nil => exact fun F _ _ => ⟨[], rfl, by simp [mygenLoop]⟩
  | cons e E ih =>
    intro F hF hok
    have he := hok e (by simp)
    obtain ⟨a, ha⟩ := pyChoice_surj (List.mem_range.2 (lt_trans he.1 he.2))
    obtain ⟨b, hb⟩ := pyChoice_surj (l := (List.range n).erase e.1) (x := e.2) (mem_erase_range.2 ⟨by omega, he.2⟩)
    obtain ⟨ds, h1, h2⟩ := ih (F ++ [e]) (by simpa using hF) (fun x hx => hok x (by simp [hx]))
    refine ⟨(a, b) :: ds, by simp [h1], ?_⟩
    have hg : genEdge e.1 e.2 = e := by
      unfold genEdge
      rw [min_eq_left (le_of_lt he.1), max_eq_right (le_of_lt he.1)]
    have hnot : e ∉ F := by
      have := (List.nodup_append.1 hF).2.2
      exact fun h => this e h e (by simp) rfl
    simp only [mygenLoop, ha, hb, genAdd, hg, if_neg hnot]
    rw [h2]
    simp

/-- C135 is false as documented (`n_edges` edges): for every number of nodes and every `n_edges` of two or more, there are random
numbers with which only one edge is made. -/
theorem C135_exact_false (n m : Nat) (hn : 2 ≤ n) (hm : 2 ≤ m) :
    ∃ (draws : List (Nat × Nat)) (E : List (Nat × Nat)), draws.length = m ∧ mygenerator n draws = some E ∧ E.length = 1 ∧ E.length ≠ m := by
  have hu : pyChoice (List.range n) 0 = some 0 := by
    simp only [pyChoice, List.length_range, Nat.zero_mod]
    rw [List.getElem?_range (by omega)]
  obtain ⟨b, hb⟩ := pyChoice_surj (l := (List.range n).erase 0) (x := 1) (mem_erase_range.2 ⟨by omega, by omega⟩)
  have hloop : ∀ k, mygenLoop n (List.replicate k (0, b)) [(0, 1)] = some [(0, 1)] := by
    intro k
    induction k with
    | zero => rfl
    | succ k ih =>
      simp only [List.replicate_succ, mygenLoop, hu, hb]
      have : genAdd [(0, 1)] 0 1 = [(0, 1)] := by decide
      rw [this]
      exact ih
  refine ⟨List.replicate m (0, b), [(0, 1)], by simp, ?_, rfl, by simp; omega⟩
  obtain ⟨k, rfl⟩ : ∃ k, m = k + 1 := ⟨m - 1, by omega⟩
  simp only [mygenerator, List.replicate_succ, mygenLoop, hu, hb]
  have : genAdd [] 0 1 = [(0, 1)] := by decide
  rw [this]
  exact hloop k

/-- C135 is false for more edges than there are pairs: it never makes as many as asked for. -/
theorem C135_many_false (n : Nat) (hn : 2 ≤ n) (draws : List (Nat × Nat)) (hm : n * (n - 1) / 2 < draws.length) :
    ∀ E, mygenerator n draws = some E → E.length ≠ draws.length := by
  intro E hE
  obtain ⟨E', e, _, _, _, h, _⟩ := C135_graph_partial n hn draws
  rw [hE] at e
  cases e
  omega

/-- C135: with fewer than two nodes the generator raises (`IndexError`) exactly if an edge is asked for. -/
theorem C135_small (n : Nat) (hn : n < 2) (draws : List (Nat × Nat)) : mygenerator n draws = none ↔ draws ≠ [] := by
  cases draws with
  | nil => simp [mygenerator, mygenLoop]
  | cons d ds =>
    obtain ⟨a, b⟩ := d
    simp only [mygenerator, mygenLoop, ne_eq, reduceCtorEq, not_false_eq_true, iff_true]
    rcases (show n = 0 ∨ n = 1 by omega) with rfl | rfl
    · rfl
    · have : pyChoice (List.range 1) a = some 0 := by simp [pyChoice, Nat.mod_one]
      rw [this]
      rfl

/-- Five nodes, five rounds, one repetition. -/
example : mygenerator 5 [(0, 0), (1, 0), (4, 2), (3, 3), (7, 9)] = some [(0, 1), (2, 4), (3, 4), (1, 2)] := by decide +kernel

end Verif
