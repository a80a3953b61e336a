import Verif.Model.ParamsId
import Verif.Proofs.Literal
import Verif.Props.Simulation
import Verif.Props.Database
import Mathlib.Data.Fintype.Pigeonhole

/-!
# Identifiers of combinations of parameters (C225)
-/

namespace Verif

/-! ### The text that is hashed -/

private theorem sortItems_perm (ps : LitParams) : (sortItems ps).Perm ps := List.perm_insertionSort _ _

private theorem sortItems_sorted (ps : LitParams) : (sortItems ps).Pairwise (fun a b => a.1 ≤ b.1) :=
  List.pairwise_insertionSort (r := fun a b : String × PyLit => a.1 ≤ b.1) _

private theorem sortItems_eq {ps qs : LitParams} (hw : Dict.WF ps) (h : ps.Perm qs) : sortItems ps = sortItems qs := by
  refine List.Perm.eq_of_pairwise ?_ (sortItems_sorted ps) (sortItems_sorted qs) ((sortItems_perm ps).trans (h.trans (sortItems_perm qs).symm))
  intro a b ha hb h1 h2
  have ha' := (sortItems_perm ps).mem_iff.1 ha
  have hb' := h.mem_iff.2 ((sortItems_perm qs).mem_iff.1 hb)
  have e : a.1 = b.1 := le_antisymm h1 h2
  exact List.inj_on_of_nodup_map hw ha' hb' e

private theorem perm_of_get? {ps qs : LitParams} (hp : Dict.WF ps) (hq : Dict.WF qs) (h : ∀ k, Dict.get? ps k = Dict.get? qs k) : ps.Perm qs := by
  refine (List.perm_ext_iff_of_nodup hp.of_map hq.of_map).2 ?_
  rintro ⟨k, v⟩
  constructor
  · intro hm
    exact Dict.get?_mem (by rw [← h k]; exact Dict.get?_of_mem hp hm)
  · intro hm
    exact Dict.get?_mem (by rw [h k]; exact Dict.get?_of_mem hq hm)

private theorem get?_of_perm {ps qs : LitParams} (hp : Dict.WF ps) (h : ps.Perm qs) (k : String) : Dict.get? ps k = Dict.get? qs k := by
  have hq : Dict.WF qs := (h.map Prod.fst).nodup_iff.1 hp
  cases hk : Dict.get? ps k with
  | none =>
    symm
    rw [Dict.get?_none_iff] at hk ⊢
    intro hm
    exact hk ((h.map Prod.fst).mem_iff.2 hm)
  | some v => exact (Dict.get?_of_mem hq (h.mem_iff.1 (Dict.get?_mem hk))).symm

/-- C225: the identifier depends on the values of the parameters only, not on the order in which they are given; in particular it is the same in
every run. -/
theorem C225_order (sha : Str → Nat) (printable : Char → Bool) (ps qs : LitParams) (hp : Dict.WF ps) (hq : Dict.WF qs)
    (h : ∀ k, Dict.get? ps k = Dict.get? qs k) : paramsId sha printable ps = paramsId sha printable qs := by
  unfold paramsId paramsText
  rw [sortItems_eq hp (perm_of_get? hp hq h)]

/-- C225: the texts that are hashed are different for different parameters. -/
theorem C225_text_partial (printable : Char → Bool) (ps qs : LitParams) (hp : Dict.WF ps)
    (fp : ∀ kv ∈ ps, Finite kv.2) (fq : ∀ kv ∈ qs, Finite kv.2) (h : paramsText printable ps = paramsText printable qs) :
    ∀ k, Dict.get? ps k = Dict.get? qs k := by
  have fin : ∀ ps : LitParams, (∀ kv ∈ ps, Finite kv.2) →
      Finite (.list ((sortItems ps).map (fun kv => .tuple [.str kv.1.toList, kv.2]))) := by
    intro ps hf
    refine .list ?_
    intro v hv
    obtain ⟨kv, hm, rfl⟩ := List.mem_map.1 hv
    refine .tuple ?_
    intro w hw
    simp only [List.mem_cons, List.not_mem_nil, or_false] at hw
    rcases hw with rfl | rfl
    · exact .str _
    · exact hf kv ((sortItems_perm ps).mem_iff.1 hm)
  have h1 := literalEval_repr printable _ (fin ps fp)
  have h2 := literalEval_repr printable _ (fin qs fq)
  unfold paramsText at h
  rw [h, h2] at h1
  have h3 := (PyLit.list.inj (Option.some.inj h1))
  have h4 : sortItems qs = sortItems ps := by
    refine List.map_injective_iff.2 ?_ h3
    intro a b hab
    have := PyLit.tuple.inj hab
    simp only [List.cons.injEq, PyLit.str.injEq, and_true] at this
    exact Prod.ext (String.toList_injective this.1) this.2
  exact get?_of_perm hp ((sortItems_perm ps).symm.trans (h4 ▸ sortItems_perm qs))

/-! ### Pigeons -/

private theorem hexText_length (k n : Nat) : (hexText k n).length = k := by
  induction k generalizing n with
  | zero => rfl
  | succ k ih => simp [hexText, ih]

private theorem hexText_take (k j n : Nat) : (hexText (k + j) n).take k = hexText k (n / 16 ^ j) := by
  induction j generalizing n with
  | zero =>
    rw [Nat.add_zero, List.take_of_length_le (le_of_eq (hexText_length k n)), Nat.pow_zero, Nat.div_one]
  | succ j ih =>
    rw [← Nat.add_assoc, hexText, List.take_append_of_le_length (by rw [hexText_length]; omega), ih, Nat.div_div_eq_div_mul, Nat.pow_succ,
      Nat.mul_comm]

private theorem hexText_mod (k n : Nat) : hexText k (n % 16 ^ k) = hexText k n := by
  induction k generalizing n with
  | zero => rfl
  | succ k ih =>
    rw [hexText, hexText, ← ih (n / 16), ← ih (n % 16 ^ (k + 1) / 16)]
    have h1 : n % 16 ^ (k + 1) % 16 = n % 16 := Nat.mod_mod_of_dvd n (Dvd.intro_left (16 ^ k) (Nat.pow_succ ..).symm)
    have h2 : n % 16 ^ (k + 1) / 16 % 16 ^ k = n / 16 % 16 ^ k := by
      rw [Nat.pow_succ, Nat.mul_comm, Nat.mod_mul_right_div_self, Nat.mod_mod]
    rw [h1, h2]

private theorem paramsId_eq (sha : Str → Nat) (printable : Char → Bool) (ps : LitParams) :
    paramsId sha printable ps = String.ofList (hexText 7 (sha (paramsText printable ps) / 16 ^ 57 % 16 ^ 7)) := by
  unfold paramsId
  rw [show 64 = 7 + 57 from rfl, hexText_take, hexText_mod]

/-- C225 is violated: whatever the hash function, among more than `16 ^ 7` parameter sets there are two with the same identifier. -/
theorem C225_many_false (sha : Str → Nat) (printable : Char → Bool) (combos : List LitParams) (hn : 16 ^ 7 < combos.length) :
    ∃ (i j : Nat) (ps qs : LitParams), i < j ∧ combos[i]? = some ps ∧ combos[j]? = some qs ∧
      paramsId sha printable ps = paramsId sha printable qs := by
  let f : Fin combos.length → Fin (16 ^ 7) := fun i =>
    ⟨sha (paramsText printable combos[i]) / 16 ^ 57 % 16 ^ 7, Nat.mod_lt _ (Nat.pow_pos (by decide))⟩
  obtain ⟨i, j, hij, he⟩ := Fintype.exists_ne_map_eq_of_card_lt f (by simpa using hn)
  have he' : sha (paramsText printable combos[i]) / 16 ^ 57 % 16 ^ 7 = sha (paramsText printable combos[j]) / 16 ^ 57 % 16 ^ 7 :=
    congrArg Fin.val he
  have key : paramsId sha printable combos[i] = paramsId sha printable combos[j] := by
    rw [paramsId_eq, paramsId_eq, he']
  rcases Nat.lt_or_gt_of_ne (fun e => hij (Fin.ext e)) with h | h
  · exact ⟨i, j, _, _, h, List.getElem?_eq_getElem i.2, List.getElem?_eq_getElem j.2, key⟩
  · exact ⟨j, i, _, _, h, List.getElem?_eq_getElem j.2, List.getElem?_eq_getElem i.2, key.symm⟩

/-- ... so there are always parameters with different values and the same identifier. -/
theorem C225_collision_false (sha : Str → Nat) (printable : Char → Bool) :
    ∃ a b : Int, a ≠ b ∧ paramsId sha printable [("x", .int a)] = paramsId sha printable [("x", .int b)] := by
  obtain ⟨i, j, ps, qs, hij, h1, h2, h⟩ := C225_many_false sha printable
    ((List.range (16 ^ 7 + 1)).map (fun i => [("x", .int (Int.ofNat i))])) (by rw [List.length_map, List.length_range]; omega)
  rw [List.getElem?_map] at h1 h2
  obtain ⟨i', hi, rfl⟩ := Option.map_eq_some_iff.1 h1
  obtain ⟨j', hj, rfl⟩ := Option.map_eq_some_iff.1 h2
  rw [List.getElem?_eq_some_iff] at hi hj
  obtain ⟨_, rfl⟩ := hi
  obtain ⟨_, rfl⟩ := hj
  refine ⟨_, _, ?_, h⟩
  simp only [List.getElem_range]
  intro e
  have : i = j := Int.ofNat.inj e
  omega

/-! ### Runs -/

/-- Specification: the texts of the combinations of a run are told apart by the digits that are used. -/
def NoCollision (sha : Str → Nat) (printable : Char → Bool) (L : List LitParams) : Prop :=
  ∀ ps ∈ L, ∀ qs ∈ L, paramsId sha printable ps = paramsId sha printable qs → paramsText printable ps = paramsText printable qs

private theorem toString_nat_inj {i j : Nat} (h : toString i = toString j) : i = j :=
  (C51_seeds_distinct "" "" i j (by unfold iterSeed; rw [h])).2

private theorem litParams_wf {den : PV → PyLit} {ps : Params} (h : Dict.WF ps) : Dict.WF (litParams den ps) := by
  unfold Dict.WF Dict.keys litParams at *
  rw [List.map_map]
  exact h

private theorem litParams_get (den : PV → PyLit) (ps : Params) (k : String) : Dict.get? (litParams den ps) k = (Dict.get? ps k).map den := by
  induction ps with
  | nil => rfl
  | cons kv ps ih =>
    unfold litParams at *
    simp only [List.map_cons, Dict.get?]
    split
    · rfl
    · exact ih

/-- A combination has the keys of the matrix. -/
private theorem comb_keys {m : Dict String (List PV)} {c : Params} (h : IsCombination m c) : Dict.keys c = Dict.keys m := by
  unfold IsCombination at h
  induction h with
  | nil => rfl
  | cons h1 _ ih => simp only [Dict.keys, List.map_cons, h1.1] at *; rw [ih]

/-- Parameters with the same keys in the same order and the same values are equal. -/
private theorem params_ext {c d : Params} (hk : Dict.keys c = Dict.keys d) (hw : Dict.WF c) (h : ∀ k, Dict.get? c k = Dict.get? d k) : c = d := by
  have hd : Dict.WF d := by unfold Dict.WF at *; rwa [← hk]
  have hl : c.length = d.length := by simpa [Dict.keys] using congrArg List.length hk
  refine List.ext_getElem hl ?_
  intro i h1 h2
  have e1 : (c[i]).1 = (d[i]).1 := by
    have : (Dict.keys c)[i]? = (Dict.keys d)[i]? := by rw [hk]
    simpa [Dict.keys, h1, h2] using this
  have e2 := Dict.get?_of_mem hw (k := (c[i]).1) (v := (c[i]).2) (List.getElem_mem h1)
  have e3 := Dict.get?_of_mem hd (k := (d[i]).1) (v := (d[i]).2) (List.getElem_mem h2)
  rw [h, e1, e3] at e2
  exact Prod.ext e1 (Option.some.inj e2).symm

private theorem matrixCombos_nodup {m : Dict String (List PV)} (hm : Dict.WF m) (hnd : ∀ kl ∈ m, kl.2.Nodup) : (matrixCombos m).Nodup := by
  by_cases hne : m = []
  · subst hne
    decide
  · by_cases hvals : ∀ kl ∈ m, kl.2 ≠ []
    · have h := (C49_matrix_product { matrix := m } rfl hm).2 hne hvals
      have hl : (matrixCombos m).length ≠ 0 := by
        have h2 := h.2.1
        intro h0
        have h0' := List.length_eq_zero_iff.1 h0
        have hpos : (m.map fun kl => kl.2.length).prod ≠ 0 := by
          rw [Ne, nat_prod_eq_zero]
          intro hz
          obtain ⟨kl, hk, hz⟩ := List.mem_map.1 hz
          exact hvals kl hk (List.length_eq_zero_iff.1 hz)
        have : (matrixCombos m).length = (m.map fun kl => kl.2.length).prod := by
          rw [matrixCombos, List.length_map, product_length, List.map_map]; rfl
        exact hpos (this ▸ h0)
      have h3 := h.2.2 hnd
      have e : collectParams { matrix := m } = matrixCombos m := by
        have hc : matrixCombos m ≠ [] := fun h => hl (by rw [h]; rfl)
        simp [collectParams, hne, hc]
      rwa [e] at h3
    · have hex : ∃ kl ∈ m, kl.2 = [] := by
        by_contra hno
        exact hvals (fun kl hk he => hno ⟨kl, hk, he⟩)
      obtain ⟨kl, hk, he⟩ := hex
      have : matrixCombos m = [] := by
        apply List.length_eq_zero_iff.1
        rw [matrixCombos, List.length_map, product_length, nat_prod_eq_zero]
        exact List.mem_map.2 ⟨[], List.mem_map.2 ⟨kl, hk, he⟩, rfl⟩
      rw [this]
      exact List.nodup_nil

/-- The hypotheses on a simulation: names of parameters are not repeated, nor the values of a parameter in the matrix, and `parameters` is not one of
the combinations of the matrix. -/
structure Spec.NoRepetition (s : Sim) : Prop where
  params : Dict.WF s.parameters
  matrix : Dict.WF s.matrix
  values : ∀ kl ∈ s.matrix, kl.2.Nodup
  fresh : s.matrix ≠ [] → ∀ c, IsCombination s.matrix c → ∃ k, Dict.get? s.parameters k ≠ Dict.get? c k

theorem collect_pairwise {s : Sim} (h : Spec.NoRepetition s) :
    (∀ c ∈ collectParams s, Dict.WF c) ∧ (collectParams s).Pairwise (fun c d => ∃ k, Dict.get? c k ≠ Dict.get? d k) := by
  have hm := mem_matrixCombos h.matrix
  have hwf : ∀ c ∈ matrixCombos s.matrix, Dict.WF c := by
    intro c hc
    have := comb_keys ((hm c).1 hc)
    unfold Dict.WF
    rw [this]
    exact h.matrix
  have hpw : (matrixCombos s.matrix).Pairwise (fun c d => ∃ k, Dict.get? c k ≠ Dict.get? d k) := by
    refine List.Pairwise.imp_of_mem ?_ (matrixCombos_nodup h.matrix h.values)
    intro c d hc hd hcd
    by_contra hno
    refine hcd (params_ext ((comb_keys ((hm c).1 hc)).trans (comb_keys ((hm d).1 hd)).symm) (hwf c hc) ?_)
    intro k
    by_contra hk
    exact hno ⟨k, hk⟩
  unfold collectParams
  by_cases hp : s.parameters.isEmpty = true
  · by_cases hx : s.matrix.isEmpty = true
    · simp [hp, hx, Dict.WF, Dict.keys]
    · simp only [hp, hx, if_true, if_false, List.nil_append, Bool.false_eq_true]
      split
      · simp [Dict.WF, Dict.keys]
      · exact ⟨hwf, hpw⟩
  · have hx0 : ∀ l : List Params, ([s.parameters] ++ l).isEmpty = false := fun l => rfl
    simp only [hp, if_false, hx0, Bool.false_eq_true]
    by_cases hx : s.matrix.isEmpty = true
    · simp only [hx, if_true, List.append_nil, List.mem_singleton, forall_eq, List.pairwise_singleton, and_true]
      exact h.params
    · simp only [hx, if_false, List.singleton_append, List.mem_cons, forall_eq_or_imp, List.pairwise_cons, Bool.false_eq_true]
      refine ⟨⟨h.params, hwf⟩, ?_, hpw⟩
      intro c hc
      exact h.fresh (fun e => hx (by rw [e]; rfl)) c ((hm c).1 hc)

private theorem collect_ids {s : Sim} (h : Spec.NoRepetition s) (sha : Str → Nat) (printable : Char → Bool) (den : PV → PyLit)
    (hinj : ∀ v w, den v = den w → v = w) (hfin : ∀ v, Finite (den v))
    (hno : NoCollision sha printable ((collectParams s).map (litParams den))) :
    (collectParams s).Pairwise (fun c d => paramsId sha printable (litParams den c) ≠ paramsId sha printable (litParams den d)) := by
  obtain ⟨hwf, hpw⟩ := collect_pairwise h
  refine List.Pairwise.imp_of_mem ?_ hpw
  rintro c d hc hd ⟨k, hk⟩ he
  have hf : ∀ c : Params, ∀ kv ∈ litParams den c, Finite kv.2 := by
    intro c kv hkv
    obtain ⟨x, _, rfl⟩ := List.mem_map.1 hkv
    exact hfin _
  have ht := hno _ (List.mem_map_of_mem hc) _ (List.mem_map_of_mem hd) he
  have := C225_text_partial printable _ _ (litParams_wf (hwf c hc)) (hf c) (hf d) ht k
  rw [litParams_get, litParams_get] at this
  exact hk (Option.map_injective (fun v w => hinj v w) this)

/-- C225: if nothing is repeated in the configuration, and the seven digits tell the texts of this run apart, no two iterations of a run are written
with the same identifiers. -/
theorem C225_told_apart_partial (s : Sim) (h : Spec.NoRepetition s) (sha : Str → Nat) (printable : Char → Bool) (den : PV → PyLit)
    (hinj : ∀ v w, den v = den w → v = w) (hfin : ∀ v, Finite (den v))
    (hno : NoCollision sha printable ((collectParams s).map (litParams den))) :
    (runIds sha printable den s).Nodup := by
  unfold runIds
  rw [List.nodup_flatMap]
  refine ⟨?_, ?_⟩
  · intro c _
    refine List.Nodup.map ?_ List.nodup_range
    intro i j hij
    exact toString_nat_inj (Prod.mk.inj hij).2
  · refine (collect_ids h sha printable den hinj hfin hno).imp ?_
    intro c d hcd x hx hy
    obtain ⟨i, _, rfl⟩ := List.mem_map.1 hx
    obtain ⟨j, _, hj⟩ := List.mem_map.1 hy
    exact hcd (Prod.mk.inj hj).1.symm

/-- C225 is violated when `parameters` is also a combination of the matrix, in whatever order: the same identifiers are written twice. -/
theorem C225_repeated_false (s : Sim) (sha : Str → Nat) (printable : Char → Bool) (den : PV → PyLit) (hi : 0 < s.iterations)
    (hp : s.parameters ≠ []) (hw : Dict.WF s.parameters) (hm : Dict.WF s.matrix) (hne : s.matrix ≠ []) (c : Params)
    (hc : IsCombination s.matrix c) (he : ∀ k, Dict.get? s.parameters k = Dict.get? c k) : ¬ (runIds sha printable den s).Nodup := by
  have hcw : Dict.WF c := by
    unfold Dict.WF
    rw [comb_keys hc]
    exact hm
  have hid : paramsId sha printable (litParams den s.parameters) = paramsId sha printable (litParams den c) := by
    refine C225_order sha printable _ _ (litParams_wf hw) (litParams_wf hcw) ?_
    intro k
    rw [litParams_get, litParams_get, he]
  have hcol : collectParams s = s.parameters :: matrixCombos s.matrix := by
    simp [collectParams, hp, hne]
  unfold runIds
  rw [hcol, List.flatMap_cons, List.nodup_append]
  rintro ⟨_, _, hd⟩
  refine hd (paramsId sha printable (litParams den s.parameters), toString 0) (List.mem_map.2 ⟨0, List.mem_range.2 hi, rfl⟩) _
    (List.mem_flatMap.2 ⟨c, (mem_matrixCombos hm c).2 hc, List.mem_map.2 ⟨0, List.mem_range.2 hi, rfl⟩⟩) ?_
  rw [hid]

/-- C225, from the configuration to the results that are read: under the hypotheses of `C225_told_apart_partial` and of C169, if all the iterations
of a run could be written to a new database, then `read_sql` finds for each combination and iteration the values of the parameters
(`cell`: as they are written), and the rows that were collected in this iteration, in order. -/
theorem C225_read_back_partial (s : Sim) (h : Spec.NoRepetition s) (sha : Str → Nat) (printable : Char → Bool) (den : PV → PyLit)
    (hinj : ∀ v w, den v = den w → v = w) (hfin : ∀ v, Finite (den v))
    (hno : NoCollision sha printable ((collectParams s).map (litParams den)))
    (sid : String) (conf : DbRow) (cell : PV → DbCell) (job : Params → Nat → DbJob)
    (hjob : ∀ c i, (job c i).pid = paramsId sha printable (litParams den c) ∧ (job c i).iid = toString i ∧
      (job c i).params = c.map (fun kv => (kv.1, cell kv.2)))
    (htab : ∀ c i, ∀ t ∈ Dict.keys (job c i).tables, t ∉ ["configuration", "parameters", "env", "agents"])
    (hpar : ∀ c ∈ collectParams s, c ≠ []) (hag : ∃ c ∈ collectParams s, ∃ i < s.iterations, (job c i).areps ≠ [])
    (db : Database) (hdb : Database.dumpSims [] [⟨sid, conf, (collectParams s).flatMap (fun c => (List.range s.iterations).map (job c))⟩] = some db) :
    ∃ r P, db.readSql = .ok r ∧ r.pivot = some P ∧ ∀ c ∈ collectParams s, ∀ i < s.iterations,
      (∀ k, Dict.get? P (some (.text (toString i)), some (.text (paramsId sha printable (litParams den c))), some (.text sid), some (.text k)) =
        (Dict.get? c k).map (fun v => some (cell v))) ∧
      (∀ col, col ∉ ["step", "simulation_id", "iteration_id", "params_id"] →
        (r.env.filter (ofIteration sid (paramsId sha printable (litParams den c)) (toString i))).map
          (fun x => (Dict.get? x "step", Dict.get? x col)) = (job c i).recs.map (fun x => (some (.other x.1), Dict.get? x.2 col))) := by
  have hmem : ∀ j ∈ (collectParams s).flatMap (fun c => (List.range s.iterations).map (job c)),
      ∃ c ∈ collectParams s, ∃ i < s.iterations, j = job c i := by
    intro j hj
    obtain ⟨c, hc, hj⟩ := List.mem_flatMap.1 hj
    obtain ⟨i, hi, rfl⟩ := List.mem_map.1 hj
    exact ⟨c, hc, i, List.mem_range.1 hi, rfl⟩
  have hmem' : ∀ c ∈ collectParams s, ∀ i < s.iterations, job c i ∈ (collectParams s).flatMap (fun c => (List.range s.iterations).map (job c)) :=
    fun c hc i hi => List.mem_flatMap.2 ⟨c, hc, List.mem_map.2 ⟨i, List.mem_range.2 hi, rfl⟩⟩
  have get_cell : ∀ (c : Params) (k : String), Dict.get? (c.map (fun kv => (kv.1, cell kv.2))) k = (Dict.get? c k).map cell := by
    intro c k
    induction c with
    | nil => rfl
    | cons kv c ih =>
      simp only [List.map_cons, Dict.get?]
      split
      · rfl
      · exact ih
  obtain ⟨r, P, h1, h2, h3⟩ := C169_read_back_partial _ db hdb
    (by
      intro x hx j hj t ht
      rw [List.mem_singleton] at hx
      subst hx
      obtain ⟨c, _, i, _, rfl⟩ := hmem j hj
      exact htab c i t ht)
    (by
      intro x hx j hj
      rw [List.mem_singleton] at hx
      subst hx
      obtain ⟨c, hc, i, _, rfl⟩ := hmem j hj
      rw [(hjob c i).2.2]
      refine ⟨fun e => hpar c hc (List.map_eq_nil_iff.1 e), ?_⟩
      have := (collect_pairwise h).1 c hc
      unfold Dict.WF Dict.keys at *
      rw [List.map_map]
      exact this)
    (by
      obtain ⟨c, hc, i, hi, ha⟩ := hag
      exact ⟨_, List.mem_singleton.2 rfl, job c i, hmem' c hc i hi, ha⟩)
    (by
      rw [List.flatMap_singleton, List.map_flatMap]
      have e : ((collectParams s).flatMap fun c => ((List.range s.iterations).map (job c)).map (fun j => (sid, j.pid, j.iid))) =
          (runIds sha printable den s).map (fun x => (sid, x.1, x.2)) := by
        unfold runIds
        rw [List.map_flatMap]
        refine List.flatMap_congr ?_
        intro c _
        rw [List.map_map, List.map_map]
        refine List.map_congr_left ?_
        intro i _
        simp only [Function.comp, (hjob c i).1, (hjob c i).2.1]
      rw [e]
      refine List.Nodup.map ?_ (C225_told_apart_partial s h sha printable den hinj hfin hno)
      intro x y hxy
      simp only [Prod.mk.injEq, true_and] at hxy
      exact Prod.ext hxy.1 hxy.2)
  refine ⟨r, P, h1, h2, ?_⟩
  intro c hc i hi
  obtain ⟨a1, a2, _⟩ := h3 _ (List.mem_singleton.2 rfl) (job c i) (hmem' c hc i hi)
  rw [(hjob c i).1, (hjob c i).2.1] at a1 a2
  refine ⟨?_, a2⟩
  intro k
  rw [a1 k, (hjob c i).2.2, get_cell, Option.map_map]
  rfl

/-- C225 is violated for dictionaries as values: the order of their items changes the text, though the dictionaries are equal. -/
theorem C225_nested_false : ∃ d e : List (PyLit × PyLit), d.Perm e ∧ ∀ printable : Char → Bool,
    paramsText printable [("x", .dict d)] ≠ paramsText printable [("x", .dict e)] := by
  refine ⟨[(.int 1, .none), (.int 2, .none)], [(.int 2, .none), (.int 1, .none)], List.Perm.swap _ _ _, ?_⟩
  intro printable he
  have hf : ∀ d : List (PyLit × PyLit), (∀ kv ∈ d, Finite kv.1) → (∀ kv ∈ d, Finite kv.2) →
      ∀ kv ∈ [("x", PyLit.dict d)], Finite kv.2 := by
    intro d h1 h2 kv hkv
    rw [List.mem_singleton] at hkv
    subst hkv
    exact .dict h1 h2
  have h2 : ∀ kv ∈ [(PyLit.int 1, PyLit.none), (.int 2, .none)], Finite kv.1 ∧ Finite kv.2 := by
    intro kv hkv
    simp only [List.mem_cons, List.not_mem_nil, or_false] at hkv
    rcases hkv with rfl | rfl <;> exact ⟨.int _, .none⟩
  have h3 : ∀ kv ∈ [(PyLit.int 2, PyLit.none), (.int 1, .none)], Finite kv.1 ∧ Finite kv.2 := by
    intro kv hkv
    simp only [List.mem_cons, List.not_mem_nil, or_false] at hkv
    rcases hkv with rfl | rfl <;> exact ⟨.int _, .none⟩
  have := C225_text_partial printable _ _ (by simp [Dict.WF, Dict.keys]) (hf _ (fun kv hkv => (h2 kv hkv).1) (fun kv hkv => (h2 kv hkv).2))
    (hf _ (fun kv hkv => (h3 kv hkv).1) (fun kv hkv => (h3 kv hkv).2)) he "x"
  simp [Dict.get?] at this

/-- Opaque values as integers, reporters as lists of names. -/
def exDen : PV → PyLit
  | .val n => .int n
  | .reps d => .list (d.map (fun kv => .tuple [.str kv.1.toList, .str kv.2.toList]))

example : (∀ v w, exDen v = exDen w → v = w) ∧ (∀ v, Finite (exDen v)) := by
  refine ⟨?_, ?_⟩
  · rintro (n | d) (m | e) h
    · simp only [exDen, PyLit.int.injEq] at h
      rw [Int.ofNat.inj h]
    · exact nomatch h
    · exact nomatch h
    · simp only [exDen, PyLit.list.injEq] at h
      refine congrArg PV.reps (List.map_injective_iff.2 ?_ h)
      intro a b hab
      simp only [PyLit.tuple.injEq, List.cons.injEq, PyLit.str.injEq, and_true] at hab
      exact Prod.ext (String.toList_injective hab.1) (String.toList_injective hab.2)
  · rintro (n | d)
    · exact .int _
    · refine .list ?_
      intro v hv
      obtain ⟨kv, _, rfl⟩ := List.mem_map.1 hv
      refine .tuple ?_
      intro w hw
      simp only [List.mem_cons, List.not_mem_nil, or_false] at hw
      rcases hw with rfl | rfl <;> exact .str _

set_option maxRecDepth 100000 in
example : paramsText (fun _ => true) (litParams exDen [("p", .val 3), ("a", .val 12), ("Z", .val 0)]) =
    "[('Z', 0), ('a', 12), ('p', 3)]".toList := by decide +kernel

/-- A simple hash function, its digits put where the first ones are taken from. -/
def exSha (t : Str) : Nat := (t.foldl (fun n c => 31 * n + c.toNat) 7) * 16 ^ 57

set_option maxRecDepth 100000 in
example : (runIds exSha (fun _ => true) exDen { exSim with parameters := [("a", .val 7)] }).Nodup ∧
    (runIds exSha (fun _ => true) exDen { exSim with parameters := [("a", .val 7)] }).length = 14 ∧
    ¬ (runIds exSha (fun _ => true) exDen { exSim with parameters := [("b", .val 4), ("a", .val 1)] }).Nodup := by decide +kernel

set_option maxRecDepth 100000 in
example : NoCollision exSha (fun _ => true) ((collectParams { exSim with parameters := [("a", .val 7)] }).map (litParams exDen)) := by
  unfold NoCollision
  decide +kernel

example : Spec.NoRepetition { exSim with parameters := [("a", .val 7)] } where
  params := by decide
  matrix := by decide
  values := by decide
  fresh := by
    intro _ c hc
    refine ⟨"b", ?_⟩
    have h := comb_keys hc
    have hb : "b" ∈ Dict.keys c := by rw [h]; decide
    obtain ⟨v, hv⟩ := Option.isSome_iff_exists.1 ((Dict.mem_keys c "b").1 hb)
    rw [hv]
    exact fun e => nomatch e

end Verif
