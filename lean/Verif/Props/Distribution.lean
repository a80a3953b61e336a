import Verif.Model.Distribution
import Verif.Proofs.Random
import Mathlib.Algebra.Order.Field.Rat
import Mathlib.Algebra.BigOperators.Group.List.Basic
import Mathlib.Tactic.FieldSimp
import Mathlib.Tactic.Ring
import Mathlib.Algebra.Order.BigOperators.Group.List

/-!
# Properties C65, C66, C77, C78: distributions of agents
-/

namespace Verif

/-! ### C65 -/

/-- The sum of the weights of the items without ids. -/
def openWeight (l : List DistEntry) : Rat := ((l.filter (fun v => !v.hasIds)).map DistEntry.w).sum

theorem openWeight_cons (v : DistEntry) (l : List DistEntry) :
    openWeight (v :: l) = (if v.hasIds then 0 else v.w) + openWeight l := by
  unfold openWeight
  cases h : v.hasIds <;> simp [h]

theorem thresholds_length (total acc : Rat) (l : List DistEntry) : (thresholds total acc l).length = l.length := by
  induction l generalizing acc with
  | nil => rfl
  | cons v l ih => simp only [thresholds]; split <;> simp [ih]

/-- The interval of each item begins where the weights of the items without ids before it end. -/
theorem thresholds_get (total acc : Rat) (l : List DistEntry) (i : Nat) (h : i < l.length) :
    (thresholds total acc l)[i]? = some (if l[i].hasIds then none else
      some (acc + openWeight (l.take i) / total, acc + openWeight (l.take (i + 1)) / total)) := by
  induction l generalizing acc i with
  | nil => simp at h
  | cons v l ih =>
    cases i with
    | zero =>
      simp only [thresholds, List.getElem_cons_zero]
      by_cases hv : v.hasIds = true
      · simp [hv]
      · rw [if_neg hv, if_neg hv]
        simp only [List.getElem?_cons_zero, List.take_zero, Nat.zero_add]
        have h0 : openWeight [] = 0 := rfl
        have h1 : openWeight (List.take 1 (v :: l)) = v.w := by
          simp [openWeight, hv]
        rw [h0, h1]
        simp
    | succ i =>
      have hi : i < l.length := by simpa using h
      simp only [thresholds, List.getElem_cons_succ, List.take_succ_cons, openWeight_cons]
      by_cases hv : v.hasIds = true
      · rw [if_pos hv, if_pos hv]
        simp only [List.getElem?_cons_succ, ih acc i hi, zero_add]
      · rw [if_neg hv, if_neg hv]
        simp only [List.getElem?_cons_succ, ih _ i hi]
        congr 1
        split
        · rfl
        · congr 1
          rw [Prod.mk.injEq]
          constructor <;> ring

theorem openWeight_all (l : List DistEntry) (h : ∀ v ∈ l, v.hasIds = false) :
    openWeight l = (l.map DistEntry.w).sum := by
  unfold openWeight
  rw [List.filter_eq_self.2 (by simpa using h)]

/-- The weight an item asks for; 1 if it does not say. -/
def declaredWeight (x : DistEntry) : Rat :=
  match x.weight with
  | some w => w
  | none => 1

theorem declared_eq : declaredWeight = DistEntry.w := by
  funext x
  unfold declaredWeight DistEntry.w
  cases x.weight <;> rfl

/-- C65, what holds: without items with ids and with weights that are not negative and not all 0, the intervals begin at 0,
follow each other without gap, end at 1, and their lengths are proportional to the weights. Missing: items with ids, see
below. -/
theorem C65_thresholds_partial (l : List DistEntry) (hids : ∀ v ∈ l, v.hasIds = false)
    (hpos : 0 < (l.map declaredWeight).sum) :
    ∃ ts : List (Rat × Rat), calculateDistribution l = some (ts.map some) ∧ ts.length = l.length ∧
      (ts[0]?).map Prod.fst = some 0 ∧ (ts.getLast?).map Prod.snd = some 1 ∧
      (∀ i (h : i + 1 < ts.length), ts[i].2 = ts[i + 1].1) ∧
      (∀ i (h : i < ts.length) (h' : i < l.length), (ts[i].2 - ts[i].1) * (l.map declaredWeight).sum = declaredWeight l[i]) := by
  simp only [declared_eq] at *
  have hne : l ≠ [] := by rintro rfl; simp at hpos
  generalize htot : (l.map DistEntry.w).sum = total at hpos
  have ht0 : total ≠ 0 := ne_of_gt hpos
  let ts : List (Rat × Rat) := (List.range l.length).map (fun i =>
    (openWeight (l.take i) / total, openWeight (l.take (i + 1)) / total))
  have hts : thresholds total 0 l = ts.map some := by
    apply List.ext_getElem?
    intro i
    by_cases hi : i < l.length
    · rw [thresholds_get total 0 l i hi, hids l[i] (List.getElem_mem hi)]
      simp [ts, hi]
    · rw [List.getElem?_eq_none (by rw [thresholds_length]; omega), List.getElem?_eq_none (by simp [ts]; omega)]
  have hlen : ts.length = l.length := by simp [ts]
  have hl0 : 0 < l.length := List.length_pos_iff.2 hne
  refine ⟨ts, ?_, hlen, ?_, ?_, ?_, ?_⟩
  · unfold calculateDistribution
    rw [if_neg hne]
    simp only [htot]
    rw [if_neg (fun h => ht0 h.1), hts]
  · rw [List.getElem?_eq_getElem (by omega)]
    simp [ts, openWeight]
  · rw [List.getLast?_eq_getElem?, hlen, List.getElem?_eq_getElem (by omega)]
    have h1 : l.length - 1 + 1 = l.length := by omega
    simp only [ts, List.getElem_map, List.getElem_range, Option.map_some, h1, List.take_length]
    rw [openWeight_all l hids, htot, div_self ht0]
  · intro i h
    simp [ts]
  · intro i h h'
    simp only [ts, List.getElem_map, List.getElem_range]
    have hstep : openWeight (l.take (i + 1)) = openWeight (l.take i) + l[i].w := by
      rw [List.take_succ_eq_append_getElem h']
      rw [openWeight_all _ (fun v hv => by
        rcases List.mem_append.1 hv with hv | hv
        · exact hids v (List.mem_of_mem_take hv)
        · rw [List.mem_singleton.1 hv]; exact hids _ (List.getElem_mem h')),
        openWeight_all _ (fun v hv => hids v (List.mem_of_mem_take hv))]
      rw [List.map_append, List.sum_append]
      simp
    rw [hstep]
    field_simp
    ring

/-- C65, what holds, in other words: every number drawn from [0, 1) is in exactly one interval. -/
theorem C65_partition_partial (l : List DistEntry) (hids : ∀ v ∈ l, v.hasIds = false) (hw : ∀ v ∈ l, 0 ≤ declaredWeight v)
    (hpos : 0 < (l.map declaredWeight).sum) (ts : List (Option (Rat × Rat))) (h : calculateDistribution l = some ts)
    (r : Rat) (h0 : 0 ≤ r) (h1 : r < 1) :
    ∃ i : Nat, (∃ ab : Rat × Rat, ts[i]? = some (some ab) ∧ ab.1 ≤ r ∧ r < ab.2) ∧
      ∀ (j : Nat) (ab : Rat × Rat), ts[j]? = some (some ab) → ab.1 ≤ r → r < ab.2 → j = i := by
  simp only [declared_eq] at hw hpos
  obtain ⟨us, e1, e2, e3, e4, e5, e6⟩ := C65_thresholds_partial l hids (by simpa only [declared_eq] using hpos)
  simp only [declared_eq] at e6
  rw [e1] at h
  cases h
  have hl : 0 < us.length := by
    cases us with
    | nil => simp at e3
    | cons a us => simp
  have hmono : ∀ i (hi : i < us.length), us[i].1 ≤ us[i].2 := by
    intro i hi
    have := e6 i hi (by omega)
    have hwi := hw l[i] (List.getElem_mem _)
    rw [← this] at hwi
    by_contra hlt
    have : (us[i].2 - us[i].1) * (l.map DistEntry.w).sum < 0 := mul_neg_of_neg_of_pos (by linarith) hpos
    linarith
  have hchain : ∀ d i (hi : i + 1 + d < us.length), us[i].2 ≤ us[i + 1 + d].1 := by
    intro d
    induction d with
    | zero => intro i hi; exact le_of_eq (e5 i (by omega))
    | succ d ih =>
      intro i hi
      have := ih i (by omega)
      have h2 := hmono (i + 1 + d) (by omega)
      have h3 := e5 (i + 1 + d) (by omega)
      have h4 : us[i + 1 + (d + 1)] = us[i + 1 + d + 1] := rfl
      rw [h4]; linarith
  have hexists : ∀ n, n ≤ us.length → (∀ i (hi : i < us.length), i < n → us[i].2 ≤ r) ∨
      ∃ i, ∃ hi : i < us.length, us[i].1 ≤ r ∧ r < us[i].2 := by
    intro n
    induction n with
    | zero => intro _; left; intro i hi h; omega
    | succ n ih =>
      intro hn
      rcases ih (by omega) with hall | hex
      · by_cases hlt : r < us[n].2
        · right
          refine ⟨n, by omega, ?_, hlt⟩
          cases n with
          | zero =>
            rw [List.getElem?_eq_getElem (by omega)] at e3
            simp only [Option.map_some, Option.some.injEq] at e3
            rw [e3]; exact h0
          | succ m =>
            rw [← e5 m (by omega)]
            exact hall m (by omega) (by omega)
        · left
          intro i hi hin
          by_cases hi' : i < n
          · exact hall i hi hi'
          · have : i = n := by omega
            subst this; exact not_lt.1 hlt
      · exact Or.inr hex
  have hlast : us[us.length - 1].2 = 1 := by
    rw [List.getLast?_eq_getElem?, List.getElem?_eq_getElem (by omega)] at e4
    simpa using e4
  rcases hexists us.length (le_refl _) with hall | ⟨i, hi, ha, hb⟩
  · have := hall (us.length - 1) (by omega) (by omega)
    rw [hlast] at this; linarith
  · refine ⟨i, ⟨us[i], by simp [hi], ha, hb⟩, ?_⟩
    intro j ab hj hja hjb
    have hjl : j < us.length := by
      by_contra hnl
      rw [List.getElem?_eq_none (by simp; omega)] at hj
      cases hj
    simp only [List.getElem?_map, List.getElem?_eq_getElem hjl, Option.map_some, Option.some.injEq] at hj
    subst hj
    by_contra hne
    rcases Nat.lt_or_gt_of_ne hne with hlt | hgt
    · obtain ⟨d, rfl⟩ : ∃ d, i = j + 1 + d := ⟨i - j - 1, by omega⟩
      have := hchain d j hi
      linarith
    · obtain ⟨d, rfl⟩ : ∃ d, j = i + 1 + d := ⟨j - i - 1, by omega⟩
      have := hchain d i hjl
      linarith

/-- C65 is violated when there are items with ids: their weights count in the total, so that the intervals end before 1, and
numbers above are in no interval. -/
theorem C65_ids_false (l : List DistEntry) (hw : ∀ v ∈ l, 0 ≤ declaredWeight v) (u : DistEntry) (hu : u ∈ l) (hui : u.hasIds = true)
    (hup : 0 < declaredWeight u) : ∃ ts, calculateDistribution l = some ts ∧
      ∃ r, 0 ≤ r ∧ r < 1 ∧ ∀ (i : Nat) (ab : Rat × Rat), ts[i]? = some (some ab) → ab.2 ≤ r := by
  simp only [declared_eq] at hw hup
  have hsum : ∀ l : List DistEntry, (∀ v ∈ l, 0 ≤ v.w) → 0 ≤ openWeight l ∧ openWeight l ≤ (l.map DistEntry.w).sum ∧
      (u ∈ l → openWeight l + u.w ≤ (l.map DistEntry.w).sum) := by
    intro l
    induction l with
    | nil => intro _; simp [openWeight]
    | cons v l ih =>
      intro hw
      obtain ⟨i1, i2, i3⟩ := ih (fun v hv => hw v (by simp [hv]))
      have hv := hw v (by simp)
      rw [openWeight_cons]
      simp only [List.map_cons, List.sum_cons, List.mem_cons]
      refine ⟨?_, ?_, ?_⟩
      · split <;> linarith
      · split <;> linarith
      · rintro (rfl | hm)
        · rw [hui]; simp only [if_true]; linarith
        · have := i3 hm
          split <;> linarith
  obtain ⟨s0, _, s2⟩ := hsum l hw
  have s2 := s2 hu
  have hpos : 0 < (l.map DistEntry.w).sum := by linarith
  have hne : l ≠ [] := by rintro rfl; cases hu
  generalize htot : (l.map DistEntry.w).sum = total at s2 hpos
  have ht0 : total ≠ 0 := ne_of_gt hpos
  refine ⟨thresholds total 0 l, ?_, openWeight l / total, by positivity, ?_, ?_⟩
  · unfold calculateDistribution
    rw [if_neg hne]
    simp only [htot]
    rw [if_neg (fun h => ht0 h.1)]
  · rw [div_lt_one hpos]; linarith
  · intro i ab hi
    have hil : i < l.length := by
      by_contra hnl
      rw [List.getElem?_eq_none (by rw [thresholds_length]; omega)] at hi
      cases hi
    rw [thresholds_get total 0 l i hil] at hi
    simp only [Option.some.injEq] at hi
    split at hi
    · cases hi
    · simp only [Option.some.injEq] at hi
      rw [← hi]
      simp only [zero_add]
      have hmono : openWeight (l.take (i + 1)) ≤ openWeight l := by
        have hsplit : openWeight l = openWeight (l.take (i + 1)) + openWeight (l.drop (i + 1)) := by
          unfold openWeight
          rw [← List.sum_append, ← List.map_append, ← List.filter_append, List.take_append_drop]
        have := (hsum (l.drop (i + 1)) (fun v hv => hw v (List.mem_of_mem_drop hv))).1
        linarith
      exact div_le_div_of_nonneg_right hmono (le_of_lt hpos)

example : calculateDistribution [⟨some (1/5), false⟩, ⟨none, false⟩, ⟨some (4/5), false⟩] =
      some [some (0, 1/10), some (1/10, 3/5), some (3/5, 1)] ∧
    calculateDistribution [⟨some 1, false⟩, ⟨some 3, true⟩] = some [some (0, 1/4), none] := by
  decide +kernel

/-! ### C66 -/

theorem minWeight_spec (l : List Rat) (hne : l ≠ []) (m : Rat) (hm : m ∈ l) (hle : ∀ w ∈ l, m ≤ w) :
    minWeight l = some m := by
  cases l with
  | nil => exact absurd rfl hne
  | cons w ws =>
    simp only [minWeight, Option.some.injEq]
    have key : ∀ (ws : List Rat) (w : Rat), ws.foldl min w ∈ w :: ws ∧ ∀ x ∈ w :: ws, ws.foldl min w ≤ x := by
      intro ws
      induction ws with
      | nil => intro w; simp
      | cons a ws ih =>
        intro w
        obtain ⟨i1, i2⟩ := ih (min w a)
        simp only [List.foldl_cons]
        refine ⟨?_, ?_⟩
        · rcases List.mem_cons.1 i1 with h | h
          · rw [h]
            rcases min_choice w a with h | h <;> rw [h] <;> simp
          · simp [h]
        · intro x hx
          have h0 := i2 (min w a) (by simp)
          rcases List.mem_cons.1 hx with rfl | hx
          · exact le_trans h0 (min_le_left _ _)
          · rcases List.mem_cons.1 hx with rfl | hx
            · exact le_trans h0 (min_le_right _ _)
            · exact i2 x (by simp [hx])
    obtain ⟨k1, k2⟩ := key ws w
    exact le_antisymm (k2 m hm) (hle _ k1)

theorem pyTrunc_nonneg {x : Rat} (h : 0 ≤ x) : pyTrunc x = ⌊x⌋ := by
  unfold pyTrunc
  rw [if_neg (not_lt.2 h)]

theorem chunkIndices_length (chunk : Rat) (hc : 0 ≤ chunk) (ws : List Rat) (hw : ∀ w ∈ ws, 0 ≤ w) (i : Nat) :
    ((chunkIndices chunk i ws).length : Rat) ≤ ws.sum * chunk := by
  induction ws generalizing i with
  | nil => simp [chunkIndices]
  | cons w ws ih =>
    have h0 : 0 ≤ w * chunk := mul_nonneg (hw w (by simp)) hc
    simp only [chunkIndices, List.length_append, List.length_replicate, List.sum_cons, Nat.cast_add]
    have h1 := ih (fun w hw' => hw w (by simp [hw'])) (i + 1)
    have h2 : (((pyTrunc (w * chunk)).toNat : Nat) : Rat) ≤ w * chunk := by
      rw [pyTrunc_nonneg h0]
      have : ((⌊w * chunk⌋.toNat : Nat) : Int) = ⌊w * chunk⌋ := Int.toNat_of_nonneg (Int.floor_nonneg.2 h0)
      have h3 : ((⌊w * chunk⌋.toNat : Nat) : Rat) = ((⌊w * chunk⌋ : Int) : Rat) := by
        exact_mod_cast congrArg (fun z : Int => (z : Rat)) this
      rw [h3]
      exact Int.floor_le _
    linarith

theorem chunkIndices_count (chunk : Rat) (ws : List Rat) (i k : Nat) (hk : k < ws.length) :
    (pyTrunc (ws[k] * chunk)).toNat ≤ ((chunkIndices chunk i ws).filter (fun j => j == i + k)).length := by
  induction ws generalizing i k with
  | nil => simp at hk
  | cons w ws ih =>
    simp only [chunkIndices, List.filter_append, List.length_append]
    cases k with
    | zero => simp
    | succ k =>
      have := ih (i + 1) k (by simpa using hk)
      have e : i + 1 + k = i + (k + 1) := by omega
      rw [e] at this
      simp only [List.getElem_cons_succ]
      omega

theorem chunkIndices_mem (chunk : Rat) (ws : List Rat) (i : Nat) : ∀ j ∈ chunkIndices chunk i ws, j < i + ws.length := by
  induction ws generalizing i with
  | nil => simp [chunkIndices]
  | cons w ws ih =>
    intro j hj
    simp only [chunkIndices, List.mem_append] at hj
    rcases hj with hj | hj
    · have := List.eq_of_mem_replicate hj
      simp only [List.length_cons]; omega
    · have := ih (i + 1) j hj
      simp only [List.length_cons]; omega

theorem buildSpecs_spec (distro : List Distro) (default : DistroDefault) (t : Bool) (is : List Nat)
    (h : ∀ i ∈ is, i < distro.length) :
    ∃ specs, buildSpecs distro default t is = some specs ∧
      List.Forall₂ (fun (i : Nat) (s : AgentSpec) => ∃ d, distro[i]? = some d ∧ s.cls = d.cls.getD default.cls ∧
        s.state = Dict.update d.state default.state) is specs := by
  induction is generalizing t with
  | nil => exact ⟨[], rfl, .nil⟩
  | cons i is ih =>
    have hi := h i (by simp)
    simp only [buildSpecs, List.getElem?_eq_getElem hi]
    obtain ⟨specs, e, hf⟩ := ih (distro[i].topo default t) (fun j hj => h j (by simp [hj]))
    rw [e]
    exact ⟨_, rfl, .cons ⟨_, List.getElem?_eq_getElem hi, rfl, rfl⟩ hf⟩

/-- C66, what holds: with positive weights given for all kinds, there are exactly `n` agents, each of one of the kinds, and of
every kind at least `⌊w / m * ⌊n / (sum of all w / m)⌋⌋`, where `m` is the smallest weight; for every outcome of the random
choices and of the shuffling. Missing: no `n`, a weight 0 or `None`, see below. -/
theorem C66_count_partial (distro : List Distro) (ws : List Rat) (hws : distro.map Distro.weight = ws.map some)
    (hpos : ∀ w ∈ ws, 0 < w) (m : Rat) (hm : m ∈ ws) (hmin : ∀ w ∈ ws, m ≤ w) (n : Nat) (default : DistroDefault)
    (topology : Bool) (draws : Nat → Rat) (hd : ∀ k, 0 ≤ draws k ∧ draws k < 1) (shuffle : List Nat → List Nat)
    (hsh : ∀ l, (shuffle l).Perm l) :
    ∃ specs, fromDistro distro (some n) default topology draws shuffle = some specs ∧ specs.length = n ∧
      (∀ s ∈ specs, ∃ d ∈ distro, s.cls = d.cls.getD default.cls) ∧
      ∀ k (hk : k < distro.length) (hk' : k < ws.length),
        ⌊ws[k] / m * ((⌊(n : Rat) / (ws.map (· / m)).sum⌋ : Int) : Rat)⌋ ≤
          (((specs.filter (fun s => s.cls == distro[k].cls.getD default.cls)).length : Nat) : Int) := by
  have hlen : distro.length = ws.length := by
    have := congrArg List.length hws
    simpa using this
  have hne : ws ≠ [] := by rintro rfl; cases hm
  have hgetD : distro.map (fun d => d.weight.getD 1) = ws := by
    have := congrArg (List.map (fun o : Option Rat => o.getD 1)) hws
    simpa [List.map_map, Function.comp_def] using this
  have hm0 : 0 < m := hpos m hm
  have hnorm : distro.map (fun d => d.weight.getD 1 / m) = ws.map (· / m) := by
    rw [← hgetD, List.map_map]; rfl
  generalize hN : ws.map (· / m) = norm at hnorm
  have hnp : ∀ w ∈ norm, 0 < w := by
    intro w hw
    rw [← hN] at hw
    obtain ⟨a, ha, rfl⟩ := List.mem_map.1 hw
    exact div_pos (hpos a ha) hm0
  have hnl : norm.length = ws.length := by rw [← hN]; simp
  have htot : 0 < norm.sum := List.sum_pos _ hnp (by rw [← List.length_pos_iff, hnl]; exact List.length_pos_iff.2 hne)
  have hws' : distro.mapM (fun d => d.weight) = some ws := by
    have : ∀ (l : List Distro) (ws : List Rat), l.map Distro.weight = ws.map some → l.mapM (fun d => d.weight) = some ws := by
      intro l
      induction l with
      | nil => intro ws h; cases ws with
        | nil => rfl
        | cons a b => simp at h
      | cons d l ih =>
        intro ws h
        cases ws with
        | nil => simp at h
        | cons a b =>
          simp only [List.map_cons, List.cons.injEq] at h
          rw [List.mapM_cons, h.1, ih b h.2]
          rfl
    exact this distro ws hws
  generalize hC : ((⌊(n : Rat) / norm.sum⌋ : Int) : Rat) = chunk
  have hc0 : 0 ≤ chunk := by
    rw [← hC]
    have : (0 : Int) ≤ ⌊(n : Rat) / norm.sum⌋ := Int.floor_nonneg.2 (div_nonneg (by positivity) (le_of_lt htot))
    exact_mod_cast this
  have hcn : norm.sum * chunk ≤ n := by
    have : chunk ≤ (n : Rat) / norm.sum := by rw [← hC]; exact Int.floor_le _
    calc norm.sum * chunk ≤ norm.sum * ((n : Rat) / norm.sum) := mul_le_mul_of_nonneg_left this (le_of_lt htot)
      _ = n := by field_simp
  have hbl := chunkIndices_length chunk hc0 norm (fun w hw => le_of_lt (hnp w hw)) 0
  have hbase : (chunkIndices chunk 0 norm).length ≤ n := by
    have : ((chunkIndices chunk 0 norm).length : Rat) ≤ (n : Rat) := le_trans hbl hcn
    exact_mod_cast this
  -- the indices
  have hidx : ∃ more, distroIndices distro n draws = some (chunkIndices chunk 0 norm ++ more) ∧
      (chunkIndices chunk 0 norm ++ more).length = n ∧ ∀ i ∈ more, i < distro.length := by
    unfold distroIndices
    rw [hgetD, minWeight_spec ws hne m hm hmin]
    simp only [if_neg (ne_of_gt hm0), hnorm, if_neg (ne_of_gt htot), Int.cast_natCast, hC, hws']
    by_cases hlt : (((chunkIndices chunk 0 norm).length : Nat) : Int) < (n : Int)
    · rw [if_pos hlt]
      have hdr : ∀ r ∈ (List.range ((n : Int) - ((chunkIndices chunk 0 norm).length : Nat)).toNat).map draws, IsDraw r := by
        intro r hr
        obtain ⟨k, _, rfl⟩ := List.mem_map.1 hr
        exact hd k
      have hwsp : 0 < ws.sum := List.sum_pos _ hpos hne
      obtain ⟨more, hmore⟩ := Option.isSome_iff_exists.1 (choices_isSome (List.range distro.length) ws _
        (by simp [hlen]) (fun w hw => le_of_lt (hpos w hw)) hwsp hdr)
      rw [hmore]
      obtain ⟨c1, c2⟩ := choices_spec _ ws _ more (fun w hw => le_of_lt (hpos w hw)) hdr hmore
      refine ⟨more, rfl, ?_, ?_⟩
      · rw [List.length_append, c1]
        simp only [List.length_map, List.length_range]
        omega
      · intro i hi
        obtain ⟨j, _, hj, _⟩ := c2 i hi
        have := List.mem_of_getElem? hj
        simpa using this
    · rw [if_neg hlt]
      refine ⟨[], by simp, ?_, by simp⟩
      simp only [List.append_nil]
      omega
  obtain ⟨more, hidx, hnlen, hmore⟩ := hidx
  have hall : ∀ i ∈ shuffle (chunkIndices chunk 0 norm ++ more), i < distro.length := by
    intro i hi
    rcases List.mem_append.1 ((hsh _).mem_iff.1 hi) with h | h
    · have := chunkIndices_mem chunk norm 0 i h
      omega
    · exact hmore i h
  obtain ⟨specs, hspecs, hf⟩ := buildSpecs_spec distro default topology _ hall
  refine ⟨specs, ?_, ?_, ?_, ?_⟩
  · simp only [fromDistro, hidx, hspecs]
  · rw [← hf.length_eq, (hsh _).length_eq, hnlen]
  · have : ∀ (is : List Nat) (specs : List AgentSpec), List.Forall₂ (fun (i : Nat) (s : AgentSpec) => ∃ d, distro[i]? = some d ∧
        s.cls = d.cls.getD default.cls ∧ s.state = Dict.update d.state default.state) is specs →
        ∀ s ∈ specs, ∃ d ∈ distro, s.cls = d.cls.getD default.cls := by
      intro is specs hf
      induction hf with
      | nil => simp
      | cons h _ ih =>
        intro s hs
        rcases List.mem_cons.1 hs with rfl | hs
        · obtain ⟨d, h1, h2, _⟩ := h
          exact ⟨d, List.mem_of_getElem? h1, h2⟩
        · exact ih s hs
    exact this _ _ hf
  · intro k hk hk'
    have h1 := chunkIndices_count chunk norm 0 k (by omega)
    rw [Nat.zero_add] at h1
    have hnk : norm[k] = ws[k] / m := by simp [← hN]
    rw [hnk, pyTrunc_nonneg (mul_nonneg (div_nonneg (le_of_lt (hpos _ (List.getElem_mem _))) (le_of_lt hm0)) hc0)] at h1
    have h2 : ((chunkIndices chunk 0 norm).filter (fun j => j == k)).length ≤
        ((shuffle (chunkIndices chunk 0 norm ++ more)).filter (fun j => j == k)).length := by
      rw [((hsh (chunkIndices chunk 0 norm ++ more)).filter _).length_eq, List.filter_append, List.length_append]
      omega
    have h3 : ∀ (is : List Nat) (specs : List AgentSpec), List.Forall₂ (fun (i : Nat) (s : AgentSpec) => ∃ d, distro[i]? = some d ∧
        s.cls = d.cls.getD default.cls ∧ s.state = Dict.update d.state default.state) is specs →
        (is.filter (fun j => j == k)).length ≤ (specs.filter (fun s => s.cls == distro[k].cls.getD default.cls)).length := by
      intro is specs hf
      induction hf with
      | nil => simp
      | @cons i s is specs h _ ih =>
        obtain ⟨d, e1, e2, _⟩ := h
        by_cases hik : i = k
        · subst hik
          have : d = distro[i] := by rw [List.getElem?_eq_getElem hk] at e1; exact (Option.some.inj e1).symm
          subst this
          simp only [List.filter_cons, e2, BEq.rfl, if_true, List.length_cons]
          omega
        · have hb : (i == k) = false := by simpa using hik
          simp only [List.filter_cons, hb, Bool.false_eq_true, if_false]
          split
          · simp only [List.length_cons]; omega
          · exact ih
    have h4 := h3 _ _ hf
    have h5 := Int.self_le_toNat ⌊ws[k] / m * chunk⌋
    omega

/-- C66 is violated without a total: `TypeError`, even if every kind has its number. -/
theorem C66_no_total_false (distro : List Distro) (default : DistroDefault) (topology : Bool) (draws : Nat → Rat)
    (shuffle : List Nat → List Nat) : fromDistro distro none default topology draws shuffle = none := rfl

/-- C66 is violated when the smallest weight is 0: `ZeroDivisionError`. -/
theorem C66_zero_weight_false (distro : List Distro) (h0 : ∃ d ∈ distro, d.weight = some 0)
    (hpos : ∀ d ∈ distro, 0 ≤ d.weight.getD 1) (n : Int) (default : DistroDefault) (topology : Bool) (draws : Nat → Rat)
    (shuffle : List Nat → List Nat) : fromDistro distro (some n) default topology draws shuffle = none := by
  obtain ⟨d, hd, hw⟩ := h0
  have : minWeight (distro.map (fun d => d.weight.getD 1)) = some 0 := by
    apply minWeight_spec
    · intro e
      have := List.mem_map_of_mem (f := fun d : Distro => d.weight.getD 1) hd
      rw [e] at this; cases this
    · exact List.mem_map.2 ⟨d, hd, by simp [hw]⟩
    · intro w hw
      obtain ⟨d', hd', rfl⟩ := List.mem_map.1 hw
      exact hpos d' hd'
  simp [fromDistro, distroIndices, this]

/-- C66 is violated when a kind has no weight (although a missing weight counts as 1) and the numbers do not work out exactly:
`random.choices` gets `None` among the weights. For example two kinds without weights and an odd `n`. -/
theorem C66_no_weight_false (a b : Distro) (ha : a.weight = none) (hb : b.weight = none) (k : Nat) (default : DistroDefault)
    (topology : Bool) (draws : Nat → Rat) (shuffle : List Nat → List Nat) :
    fromDistro [a, b] (some (2 * k + 1 : Nat)) default topology draws shuffle = none := by
  have h1 : minWeight ([a, b].map (fun d => d.weight.getD 1)) = some 1 := by
    simp [minWeight, ha, hb]
  have h2 : ⌊(((2 * k + 1 : Nat) : Int) : Rat) / 2⌋ = (k : Int) := by
    rw [Int.floor_eq_iff]
    push_cast
    constructor <;> linarith
  have h3 : pyTrunc ((k : Int) : Rat) = k := by
    rw [pyTrunc_nonneg (by positivity)]
    simp
  have h4 : [a, b].map (fun d => d.weight.getD 1 / 1) = [1, 1] := by simp [ha, hb]
  have h5 : ([1, 1] : List Rat).sum = 2 := by norm_num
  have h6 : (chunkIndices ((k : Int) : Rat) 0 [1, 1]).length = 2 * k := by
    simp only [chunkIndices, one_mul, h3]
    simp
    omega
  have h7 : [a, b].mapM (fun d => d.weight) = none := by simp [List.mapM_cons, ha]
  unfold fromDistro distroIndices
  rw [h1]
  simp only [one_ne_zero, if_false, h4, h5, h2, h6, h7]
  rw [if_neg (by norm_num), if_pos (by push_cast; omega)]

/-- Kinds with weights 1 and 3. -/
def exDistro : List Distro :=
  [⟨some 1, none, some 7, [("x", .num 1)], some true⟩, ⟨some 3, none, none, [("x", .num 2)], none⟩]

/-- Defaults. -/
def exDefault : DistroDefault := ⟨9, [("x", .num 5)], false⟩

example : (distroIndices exDistro 9 (fun _ => 1/2)) = some [0, 0, 1, 1, 1, 1, 1, 1, 1] := by decide +kernel

example : (fromDistro exDistro (some 9) exDefault false (fun _ => 0) List.reverse).map (fun l => l.map AgentSpec.cls) =
    some [7, 9, 9, 9, 9, 9, 9, 7, 7] := by decide +kernel

/-! ### C77 and C78 -/

/-- C77 is violated: a value of the default state replaces the value of the kind, in all agents. -/
theorem C77_default_wins_false (distro : List Distro) (default : DistroDefault) (hwf : Dict.WF default.state) (t : Bool)
    (is : List Nat) (his : ∀ i ∈ is, i < distro.length) (k : String) (v : Val) (hv : Dict.get? default.state k = some v) :
    ∃ specs, buildSpecs distro default t is = some specs ∧ specs.length = is.length ∧
      ∀ s ∈ specs, Dict.get? s.state k = some v := by
  obtain ⟨specs, h1, hf⟩ := buildSpecs_spec distro default t is his
  refine ⟨specs, h1, hf.length_eq.symm, ?_⟩
  have : ∀ (is : List Nat) (specs : List AgentSpec), List.Forall₂ (fun (i : Nat) (s : AgentSpec) => ∃ d, distro[i]? = some d ∧
      s.cls = d.cls.getD default.cls ∧ s.state = Dict.update d.state default.state) is specs →
      ∀ s ∈ specs, Dict.get? s.state k = some v := by
    intro is specs hf
    induction hf with
    | nil => simp
    | cons h _ ih =>
      intro s hs
      rcases List.mem_cons.1 hs with rfl | hs
      · obtain ⟨d, _, _, e⟩ := h
        rw [e, Dict.get?_update _ _ hwf, hv]
        rfl
      · exact ih s hs
  exact this _ _ hf

/-- C77, what holds: values that are not in the default state are those of the kind. (And for agents given one by one the
state of the item wins.) -/
theorem C77_others_partial (distro : List Distro) (default : DistroDefault) (hwf : Dict.WF default.state) (t : Bool)
    (is : List Nat) (his : ∀ i ∈ is, i < distro.length) (k : String) (hv : Dict.get? default.state k = none) :
    ∃ specs, buildSpecs distro default t is = some specs ∧ ∀ (j i : Nat) (s : AgentSpec), is[j]? = some i → specs[j]? = some s →
      ∃ d, distro[i]? = some d ∧ Dict.get? s.state k = Dict.get? d.state k := by
  obtain ⟨specs, h1, hf⟩ := buildSpecs_spec distro default t is his
  refine ⟨specs, h1, ?_⟩
  intro j i s hi hs
  have hj : j < is.length := by
    by_contra hn; rw [List.getElem?_eq_none (by omega)] at hi; cases hi
  have hj' : j < specs.length := by rw [← hf.length_eq]; exact hj
  obtain ⟨d, e1, _, e3⟩ := (List.forall₂_iff_get.1 hf).2 j hj hj'
  rw [List.getElem?_eq_getElem hj] at hi
  rw [List.getElem?_eq_getElem hj'] at hs
  cases hi
  cases hs
  simp only [List.get_eq_getElem] at e1 e3
  exact ⟨d, e1, by rw [e3, Dict.get?_update _ _ hwf, hv]; rfl⟩

theorem C77_fixed_partial (d : Distro) (default : DistroDefault) (hwf : Dict.WF d.state) (topology : Bool) (k : String) (v : Val)
    (hv : Dict.get? d.state k = some v) : Dict.get? (fixedSpec d default topology).state k = some v := by
  simp only [fixedSpec]
  rw [Dict.get?_update _ _ hwf, hv]
  rfl

/-- C78 is violated: an agent of a kind that does not say whether it is in the topology is put there if the agent before it
is, although neither the caller nor the defaults ask for it; so this depends on the shuffling. -/
theorem C78_leak_false (a b : Distro) (ha : a.topology = some true) (hb : b.topology = none) (default : DistroDefault)
    (hdef : default.topology = false) :
    (buildSpecs [a, b] default false [0, 1]).map (fun l => l.map AgentSpec.topology) = some [true, true] ∧
    (buildSpecs [a, b] default false [1, 0]).map (fun l => l.map AgentSpec.topology) = some [false, true] := by
  simp [buildSpecs, Distro.topo, ha, hb, hdef]

/-- C78, what holds: agents of kinds that say it are where they should be. -/
theorem C78_explicit_partial (distro : List Distro) (default : DistroDefault) (t : Bool) (is : List Nat)
    (his : ∀ i ∈ is, i < distro.length) :
    ∃ specs, buildSpecs distro default t is = some specs ∧ ∀ (j i : Nat) (s : AgentSpec) (d : Distro) (b : Bool),
      is[j]? = some i → specs[j]? = some s → distro[i]? = some d → d.topology = some b → s.topology = b := by
  induction is generalizing t with
  | nil => exact ⟨[], rfl, by simp⟩
  | cons i0 is ih =>
    have hi := his i0 (by simp)
    simp only [buildSpecs, List.getElem?_eq_getElem hi]
    obtain ⟨specs, e, hf⟩ := ih (distro[i0].topo default t) (fun j hj => his j (by simp [hj]))
    rw [e]
    refine ⟨_, rfl, ?_⟩
    intro j i s d b h1 h2 h3 h4
    cases j with
    | zero =>
      simp only [List.getElem?_cons_zero, Option.some.injEq] at h1 h2
      subst h1
      rw [List.getElem?_eq_getElem hi] at h3
      cases h3
      rw [← h2]
      simp [Distro.topo, h4]
    | succ j => exact hf j i s d b (by simpa using h1) (by simpa using h2) h3 h4

example : (fromDistro exDistro (some 4) exDefault false (fun _ => 0) id).map (fun l => l.map AgentSpec.topology) =
      some [true, true, true, true] ∧
    (fromDistro exDistro (some 4) exDefault false (fun _ => 0) List.reverse).map (fun l => l.map AgentSpec.topology) =
      some [false, false, false, true] ∧
    (fromDistro exDistro (some 4) exDefault false (fun _ => 0) id).map (fun l => l.map AgentSpec.state) =
      some (List.replicate 4 [("x", .num 5)]) := by decide +kernel

end Verif
