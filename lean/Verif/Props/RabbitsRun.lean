import Verif.Model.RabbitsRun
import Verif.Props.ExRabbits
import Verif.Props.Rounds
import Verif.Props.CarsPQueue

/-!
# Whole simulations of the basic rabbits (examples/rabbits/rabbits_basic_sim.py)
-/

namespace Verif

/-- After `n` steps. -/
def rabRun (P : RabParams) (F : RabFate) (sh : Bool) (n : Nat) : Sched × RabSim × Nat :=
  iterStep (timedStepper (rabHost P F)) n (rabStart sh)

/-- The numbers that `random.random()` may give. -/
def RabFate.Draws (F : RabFate) : Prop := (∀ k j, 0 ≤ F.d k j) ∧ ∀ k, 0 ≤ F.r k

/-- A rabbit after `m` activations, if it is not dead: its age. -/
structure RabActed (P : RabParams) (m : Nat) (q : Rab) : Prop where
  alive : q.alive = true
  new : q.state = .newborn ↔ m = 0
  age : 0 < m → q.age + 1 = m
  fertile : q.state = .fertile → P.maturity ≤ q.age
  dead : q.state ≠ .dead

/-- The female, after `f` activations; `o`: if known, in which activation (counted from 0) she will give birth. -/
structure DoeOk (P : RabParams) (f : Nat) (o : Option Nat) (q : Rab) : Prop where
  range : -1 ≤ q.pregnancy
  mated : 0 ≤ q.pregnancy → (q.state = .fertile ∨ q.state = .pregnant) ∧ q.mate = some 0 ∧ 8 ≤ q.babies
  fresh : q.state = .fertile → q.pregnancy ≤ 0
  pregnant : q.state = .pregnant → 0 ≤ q.pregnancy ∧ q.pregnancy ≤ P.gestation ∧ P.maturity + 1 + q.pregnancy ≤ q.age
  litters : q.litters = 0
  due : ∀ b, o = some b → 0 ≤ q.pregnancy ∧
    ((q.state = .fertile ∧ f + P.gestation + 1 = b) ∨ (q.state = .pregnant ∧ (f : Int) + P.gestation - q.pregnancy = b))

/-- The two rabbits after `m` activations of the male and `f` of the female. -/
structure RabPair (P : RabParams) (m f : Nat) (o : Option Nat) (w : Warren) : Prop where
  nodes : w.nodes = [0, 1]
  edges : w.edges = [(0, 1)]
  both : ∃ a b, w.rabs = [a, b] ∧ a.male = true ∧ b.male = false ∧ RabActed P m a ∧ a.state ≠ .pregnant ∧ RabActed P f b ∧ DoeOk P f o b

theorem litterSize_ge {r : Rat} (hr : 0 ≤ r) : 8 ≤ litterSize r := by
  unfold litterSize
  have : (8 : Int) ≤ (8 + 4 * r).floor := by
    rw [Rat.le_floor_iff]
    push_cast
    linarith
  omega

theorem RabPair.accident {P : RabParams} {m f : Nat} {o : Option Nat} {w : Warren} (h : RabPair P m f o w) (d : Nat → Rat) (hd : ∀ k, 0 ≤ d k) :
    w.accident P d = w := C134_few P w d hd (by rw [h.nodes]; simp)

theorem RabPair.male {P : RabParams} {m f : Nat} {o : Option Nat} {w : Warren} (h : RabPair P m f o w) (hm : m < P.life) (d : Nat → Rat) (r : Rat) (hr : 0 ≤ r)
    (sex : Nat → Bool) : (w.act P 0 d r sex).2 = false ∧ RabPair P (m + 1) f o (w.act P 0 d r sex).1 := by
  obtain ⟨h1, h2, a, b, h3, h4, h5, h6, h7, h8, h9⟩ := h
  obtain ⟨rabs, nodes, edges⟩ := w
  simp only at h1 h2 h3
  subst h1 h2 h3
  obtain ⟨a1, a2, a3, a4, a5⟩ := h6
  unfold Warren.act
  simp only [List.getElem?_cons_zero, a1, Bool.not_true, Bool.false_eq_true, if_false]
  cases hs : a.state with
  | newborn =>
    refine ⟨rfl, rfl, rfl, _, b, rfl, h4, h5, ⟨a1, ?_, ?_, ?_, ?_⟩, ?_, h8, h9⟩ <;> simp
    exact a2.1 hs
  | youngling =>
    have hm0 : m ≠ 0 := fun e => by have := a2.2 e; rw [hs] at this; cases this
    have := a3 (by omega)
    simp only
    split
    · refine ⟨rfl, rfl, rfl, _, b, rfl, h4, h5, ⟨a1, ?_, ?_, ?_, ?_⟩, ?_, h8, h9⟩ <;> simp <;> omega
    · refine ⟨rfl, rfl, rfl, _, b, rfl, h4, h5, ⟨a1, ?_, ?_, ?_, ?_⟩, ?_, h8, h9⟩ <;> simp [hs] <;> omega
  | fertile =>
    have hm0 : m ≠ 0 := fun e => by have := a2.2 e; rw [hs] at this; cases this
    have := a3 (by omega)
    have hf := a4 hs
    simp only
    rw [if_neg (by omega), h4]
    simp only [if_true]
    have hA : RabActed P (m + 1) { a with age := a.age + 1 } := ⟨a1, by simp [hs], fun _ => by simpa using this, fun _ => by simp; omega, by simp [hs]⟩
    have hN : ({ a with age := a.age + 1 } : Rab).state ≠ .pregnant := by simp [hs]
    refine ⟨trivial, ?_⟩
    have hw : ∀ l : List Nat, (∀ j ∈ l, j = 1 ∧ b.state = .fertile) → ∀ k,
        RabPair P (m + 1) f o (Warren.mateLoop P.mating 0 d r l k ⟨[{ a with age := a.age + 1 }, b], [0, 1], [(0, 1)]⟩) := by
      intro l
      induction l with
      | nil => exact fun _ k => ⟨rfl, rfl, _, b, rfl, h4, h5, hA, hN, h8, h9⟩
      | cons j l ih =>
        intro hl k
        unfold Warren.mateLoop
        split
        · obtain ⟨rfl, hb⟩ := hl j (by simp)
          refine ⟨rfl, rfl, _, _, rfl, h4, h5, hA, hN, ⟨h8.alive, h8.new, h8.age, h8.fertile, h8.dead⟩, ⟨?_, ?_, ?_, ?_, h9.litters, ?_⟩⟩
          · simp
          · exact fun _ => ⟨Or.inl hb, rfl, litterSize_ge hr⟩
          · simp
          · intro hp; simp [hb] at hp
          · intro t ht
            refine ⟨by simp, ?_⟩
            have := (h9.due t ht).2
            simpa [hb] using this
        · exact ih (fun j hj => hl j (by simp [hj])) (k + 1)
    refine hw _ ?_ 0
    intro j hj
    have hj' := List.mem_of_mem_take hj
    simp only [List.mem_filter, List.mem_range, Warren.upd, List.modify_zero_cons, List.length_cons, List.length_nil] at hj'
    obtain ⟨hj1, hj2⟩ := hj'
    rcases (by omega : j = 0 ∨ j = 1) with rfl | rfl
    · simp [h4] at hj2
    · simpa [h5, h8.alive] using hj2
  | pregnant => exact absurd hs h7
  | dead => exact absurd hs a5

/-- The female gives birth: the simulation raises with the first child. -/
structure RabBirth (P : RabParams) (f : Nat) (w : Warren) : Prop where
  three : w.rabs.length = 3
  first : P.maturity + P.gestation + 2 ≤ f
  edges : w.edges = [(0, 1), (2, 1), (2, 0)]
  nodes : w.nodes = [0, 1, 2]

theorem RabPair.female {P : RabParams} {m f : Nat} {o : Option Nat} {w : Warren} (h : RabPair P m f o w) (hf : f < P.life) (d : Nat → Rat) (r : Rat)
    (sex : Nat → Bool) : ((w.act P 1 d r sex).2 = false ∧ RabPair P m (f + 1) o (w.act P 1 d r sex).1 ∧ ∀ b, o = some b → f < b) ∨
      ((w.act P 1 d r sex).2 = true ∧ RabBirth P f (w.act P 1 d r sex).1 ∧ ∀ b, o = some b → f = b) := by
  obtain ⟨h1, h2, a, b, h3, h4, h5, h8, h7, h6, h9⟩ := h
  obtain ⟨rabs, nodes, edges⟩ := w
  simp only at h1 h2 h3
  subst h1 h2 h3
  obtain ⟨a1, a2, a3, a4, a5⟩ := h6
  obtain ⟨d1, d2, d3, d4, d5, d6⟩ := h9
  unfold Warren.act
  simp only [List.getElem?_cons_zero, List.getElem?_cons_succ, a1, Bool.not_true, Bool.false_eq_true, if_false]
  cases hs : b.state with
  | newborn =>
    have hneg : ¬ 0 ≤ b.pregnancy := fun hp => by have := (d2 hp).1; simp [hs] at this
    refine Or.inl ⟨rfl, ⟨rfl, rfl, a, _, rfl, h4, h5, h8, h7, ⟨a1, ?_, ?_, ?_, ?_⟩, ⟨d1, fun hp => absurd hp hneg, ?_, ?_, d5, fun t ht => absurd (d6 t ht).1 hneg⟩⟩,
      fun t ht => absurd (d6 t ht).1 hneg⟩ <;> simp
    exact a2.1 hs
  | youngling =>
    have hneg : ¬ 0 ≤ b.pregnancy := fun hp => by have := (d2 hp).1; simp [hs] at this
    have hm0 : f ≠ 0 := fun e => by have := a2.2 e; rw [hs] at this; cases this
    have := a3 (by omega)
    simp only
    split
    · refine Or.inl ⟨rfl, ⟨rfl, rfl, a, _, rfl, h4, h5, h8, h7, ⟨a1, ?_, ?_, ?_, ?_⟩, ⟨d1, fun hp => absurd hp hneg, ?_, ?_, d5, fun t ht => absurd (d6 t ht).1 hneg⟩⟩,
        fun t ht => absurd (d6 t ht).1 hneg⟩ <;> simp <;> omega
    · refine Or.inl ⟨rfl, ⟨rfl, rfl, a, _, rfl, h4, h5, h8, h7, ⟨a1, ?_, ?_, ?_, ?_⟩, ⟨d1, fun hp => absurd hp hneg, ?_, ?_, d5, fun t ht => absurd (d6 t ht).1 hneg⟩⟩,
        fun t ht => absurd (d6 t ht).1 hneg⟩ <;> simp [hs] <;> omega
  | fertile =>
    have hm0 : f ≠ 0 := fun e => by have := a2.2 e; rw [hs] at this; cases this
    have := a3 (by omega)
    have hf' := a4 hs
    have hp0 := d3 hs
    simp only
    rw [if_neg (by omega), h5]
    simp only [Bool.false_eq_true, if_false]
    refine Or.inl ?_
    split
    · rename_i hp
      have hp1 : b.pregnancy = 0 := by omega
      obtain ⟨-, e2, e3⟩ := d2 hp
      have hdue : ∀ t, o = some t → f + P.gestation + 1 = t := by
        intro t ht
        have := (d6 t ht).2
        simpa [hs] using this
      refine ⟨rfl, ⟨rfl, rfl, a, _, rfl, h4, h5, h8, h7, ⟨a1, ?_, ?_, ?_, ?_⟩, ⟨d1, fun _ => ⟨Or.inr rfl, e2, e3⟩, ?_, ?_, d5, ?_⟩⟩, ?_⟩
      · simp
      · simpa using this
      · simp
      · simp
      · simp
      · intro _
        simp only [List.getElem_cons_succ, List.getElem_cons_zero]
        omega
      · intro t ht
        have := hdue t ht
        refine ⟨hp, Or.inr ⟨rfl, ?_⟩⟩
        show ((f + 1 : Nat) : Int) + P.gestation - b.pregnancy = t
        omega
      · intro t ht
        have := hdue t ht
        omega
    · rename_i hp
      refine ⟨rfl, ⟨rfl, rfl, a, _, rfl, h4, h5, h8, h7, ⟨a1, ?_, ?_, ?_, ?_⟩, ⟨d1, fun hp' => absurd hp' hp, ?_, ?_, d5, fun t ht => absurd (d6 t ht).1 hp⟩⟩,
        fun t ht => absurd (d6 t ht).1 hp⟩ <;> simp [hs] <;> omega
  | pregnant =>
    have hm0 : f ≠ 0 := fun e => by have := a2.2 e; rw [hs] at this; cases this
    have := a3 (by omega)
    obtain ⟨p1, p2, p3⟩ := d4 hs
    obtain ⟨-, e2, e3⟩ := d2 p1
    have hdue : ∀ t, o = some t → (f : Int) + P.gestation - b.pregnancy = t := by
      intro t ht
      have := (d6 t ht).2
      simpa [hs] using this
    simp only
    rw [if_neg (by omega)]
    split
    · rename_i hg
      refine Or.inl ⟨rfl, ⟨rfl, rfl, a, _, rfl, h4, h5, h8, h7, ⟨a1, ?_, ?_, ?_, ?_⟩, ⟨?_, fun _ => ⟨Or.inr hs, e2, e3⟩, ?_, ?_, d5, ?_⟩⟩, ?_⟩
      · simp [hs]
      · simpa using this
      · simp [hs]
      · simp [hs]
      · simp; omega
      · simp [hs]
      · intro _
        simp only
        refine ⟨by omega, by omega, ?_⟩
        push_cast
        omega
      · intro t ht
        have := hdue t ht
        refine ⟨by simp only; omega, Or.inr ⟨hs, ?_⟩⟩
        show ((f + 1 : Nat) : Int) + P.gestation - (b.pregnancy + 1) = t
        omega
      · intro t ht
        have := hdue t ht
        omega
    · rename_i hg
      refine Or.inr ?_
      obtain ⟨n, hn⟩ : ∃ n, b.babies = n + 1 := ⟨b.babies - 1, by omega⟩
      rw [e2, hn]
      refine ⟨rfl, ⟨rfl, by omega, rfl, rfl⟩, ?_⟩
      intro t ht
      have := hdue t ht
      omega
  | dead => exact absurd hs a5

theorem RabPair.changes {P : RabParams} {m f m' f' : Nat} {o o' : Option Nat} {w v : Warren} (h : RabPair P m f o w) (h' : RabPair P m' f' o' v) :
    w.changes v = [] := by
  obtain ⟨-, -, a, b, h3, -, -, h6, -, h8, -⟩ := h
  obtain ⟨-, -, a', b', g3, -, -, g6, -, g8, -⟩ := h'
  have hw0 : w.lives 0 = true := by simp [Warren.lives, h3, h6.alive]
  have hw1 : w.lives 1 = true := by simp [Warren.lives, h3, h8.alive]
  have hv0 : v.lives 0 = true := by simp [Warren.lives, g3, g6.alive]
  have hv1 : v.lives 1 = true := by simp [Warren.lives, g3, g8.alive]
  unfold Warren.changes
  rw [h3, g3]
  simp [List.range_succ, hw0, hw1, hv0, hv1]

theorem RabPair.alive {P : RabParams} {m f : Nat} {o : Option Nat} {w : Warren} (h : RabPair P m f o w) : w.lives 0 = true ∧ w.lives 1 = true := by
  obtain ⟨-, -, a, b, h3, -, -, h6, -, h8, -⟩ := h
  exact ⟨by simp [Warren.lives, h3, h6.alive], by simp [Warren.lives, h3, h8.alive]⟩

theorem RabPair.get {P : RabParams} {m f : Nat} {o : Option Nat} {w : Warren} (h : RabPair P m f o w) :
    ∃ a b, w.rabs[0]? = some a ∧ w.rabs[1]? = some b ∧ a.alive = true ∧ b.alive = true := by
  obtain ⟨-, -, a, b, h3, -, -, h6, -, h8, -⟩ := h
  exact ⟨a, b, by simp [h3], by simp [h3], h6.alive, h8.alive⟩

/-- One activation while there are two rabbits. -/
theorem rab_turn {P : RabParams} {F : RabFate} (hF : F.Draws) {m f : Nat} {o : Option Nat} {w : RabSim} (h : RabPair P m f o w.warren) (r : Nat)
    (hm : r = 0 → m < P.life) (hf : r = 1 → f < P.life) (hr : r < 3) :
    (∃ w', w.turn P F r = (.ret none, [], w') ∧ RabPair P (if r = 0 then m + 1 else m) (if r = 1 then f + 1 else f) o w'.warren ∧
      (r = 1 → ∀ b, o = some b → f < b)) ∨
    (∃ ops w', r = 1 ∧ w.turn P F r = (.error, ops, w') ∧ RabBirth P f w'.warren ∧ ∀ b, o = some b → f = b) := by
  obtain ⟨a, b, g0, g1, ga, gb⟩ := h.get
  rcases (by omega : r = 0 ∨ r = 1 ∨ r = 2) with rfl | rfl | rfl
  · obtain ⟨e1, e2⟩ := h.male (hm rfl) (F.d w.used) (F.r w.used) (hF.2 _) (F.sex w.used)
    refine Or.inl ⟨⟨(w.warren.act P 0 (F.d w.used) (F.r w.used) (F.sex w.used)).1, w.used + 1⟩, ?_, by simpa using e2, by simp⟩
    have hl := e2.alive.1
    unfold RabSim.turn
    simp only [rabOf, Nat.zero_lt_succ, if_true, g0, ga, Bool.not_true, Bool.false_eq_true, if_false, e1, hl, Bool.and_false, h.changes e2]
    simp
  · rcases h.female (hf rfl) (F.d w.used) (F.r w.used) (F.sex w.used) with ⟨e1, e2, e3⟩ | ⟨e1, e2, e3⟩
    · refine Or.inl ⟨⟨(w.warren.act P 1 (F.d w.used) (F.r w.used) (F.sex w.used)).1, w.used + 1⟩, ?_, by simpa using e2, fun _ => e3⟩
      have hl := e2.alive.2
      unfold RabSim.turn
      simp only [rabOf, Nat.one_lt_ofNat, if_true, g1, gb, Bool.not_true, Bool.false_eq_true, if_false, e1, hl, Bool.and_false, h.changes e2]
      simp
    · refine Or.inr ⟨w.warren.changes (w.warren.act P 1 (F.d w.used) (F.r w.used) (F.sex w.used)).1,
        ⟨(w.warren.act P 1 (F.d w.used) (F.r w.used) (F.sex w.used)).1, w.used + 1⟩, rfl, ?_, e2, e3⟩
      unfold RabSim.turn
      simp only [rabOf, Nat.one_lt_ofNat, if_true, g1, gb, Bool.not_true, Bool.false_eq_true, if_false, e1]
      simp
  · have e1 := h.accident (F.d w.used) (hF.1 _)
    refine Or.inl ⟨⟨w.warren, w.used + 1⟩, ?_, by simpa using h, by simp⟩
    unfold RabSim.turn
    have hn : w.warren.nodes.length = 2 := by rw [h.nodes]; rfl
    simp only [if_true, hn, e1, h.changes h]
    simp

/-- What is true before step `k` as long as nothing was raised. -/
structure RabRound (P : RabParams) (sh : Bool) (k : Nat) (o : Option Nat) (x : Sched × RabSim × Nat) : Prop where
  round : RoundState 3 1 sh k x.1
  agents : x.1.agents = [0, 1, 2]
  running : x.1.running = true
  pair : RabPair P k k o x.2.1.warren

theorem rab_bucket {P : RabParams} {F : RabFate} (hF : F.Draws) (k : Nat) (hk : k < P.life) (o : Option Nat) (l : List Ref) (hl : ∀ r ∈ l, r < 3)
    (hn : l.Nodup) (s : Sched) (w : RabSim × Nat)
    (hp : RabPair P (if 0 ∈ l then k else k + 1) (if 1 ∈ l then k else k + 1) o w.1.warren)
    (ht : s.time = .fin k) (hi : s.interval = 1) (l0 : List Ref) (hq : s.queue = oneBucket (.fin (1 + k)) l0) :
    (∃ s' w', runBucket (rabHost P F) (.fin k) l s w = (s', w', false) ∧ RabPair P (k + 1) (k + 1) o w'.1.warren ∧
      s'.queue = oneBucket (.fin (1 + k)) (l0 ++ l) ∧ s'.steps = s.steps ∧ s'.interval = s.interval ∧
      s'.shuffle = s.shuffle ∧ s'.agents = s.agents ∧ s'.running = s.running ∧ (1 ∈ l → ∀ b, o = some b → k < b)) ∨
    (∃ s' w', runBucket (rabHost P F) (.fin k) l s w = (s', w', true) ∧ RabBirth P k w'.1.warren ∧ ∀ b, o = some b → k = b) := by
  induction l generalizing s w l0 with
  | nil => exact Or.inl ⟨s, w, rfl, by simpa using hp, by simpa using hq, rfl, rfl, rfl, rfl, rfl, by simp⟩
  | cons r l ih =>
    have hnr : r ∉ l := (List.nodup_cons.1 hn).1
    have hr3 := hl r (by simp)
    have hnz : ¬ (Time.fin (1 + k) : Time) = 0 := by
      intro h
      have : (1 : Rat) + k = 0 := by simpa using h
      have : (0 : Rat) ≤ k := by positivity
      linarith
    have hne : (Time.fin (1 + k) : Time) ≠ .inf := by intro h; cases h
    rcases rab_turn hF hp r (fun e => by rw [if_pos (by simp [e])]; exact hk) (fun e => by rw [if_pos (by simp [e])]; exact hk) hr3 with
      ⟨w', e1, e2, e3⟩ | ⟨ops, w', e0, e1, e2, e3⟩
    · have hs : (rabHost P F).step r s w = (.ret none, [], (w', w.2)) := by
        show ((w.1.turn P F r).1, (w.1.turn P F r).2.1, ((w.1.turn P F r).2.2, w.2)) = _
        rw [e1]
      have hmm : RabPair P (if 0 ∈ l then k else k + 1) (if 1 ∈ l then k else k + 1) o w'.warren := by
        have a1 : (if r = 0 then (if 0 ∈ r :: l then k else k + 1) + 1 else (if 0 ∈ r :: l then k else k + 1)) = if 0 ∈ l then k else k + 1 := by
          by_cases h0 : r = 0
          · subst h0; simp [hnr]
          · simp [h0, Ne.symm h0]
        have a2 : (if r = 1 then (if 1 ∈ r :: l then k else k + 1) + 1 else (if 1 ∈ r :: l then k else k + 1)) = if 1 ∈ l then k else k + 1 := by
          by_cases h0 : r = 1
          · subst h0; simp [hnr]
          · simp [h0, Ne.symm h0]
        rw [a1, a2] at e2
        exact e2
      have hrun : runBucket (rabHost P F) (.fin k) (r :: l) s w =
          runBucket (rabHost P F) (.fin k) l (((s.applyOps []).logAct r (.fin k) (.ret none)).schedule r (some (.fin (1 + k)))) (w', w.2) := by
        simp only [runBucket, hs]
        have hiv : ((s.applyOps []).logAct r (.fin k) (.ret none)).interval = .fin 1 := hi
        rw [hiv, show Time.pyOr none (Time.fin 1) = .fin 1 from rfl, Time.fin_add, if_neg hne]
      rw [hrun]
      rcases ih (fun q hq => hl q (by simp [hq])) (List.nodup_cons.1 hn).2
        (((s.applyOps []).logAct r (.fin k) (.ret none)).schedule r (some (.fin (1 + k)))) (w', w.2) hmm ht hi (l0 ++ [r]) (by
          simp only [Sched.schedule, Sched.logAct, Sched.applyOps, List.foldl_nil, hq, Time.pyOr, if_neg hnz]
          exact insertBucket_one _ r l0) with ⟨s', w'', g1, g2, g3, g4, g5, g6, g7, g8, g9⟩ | g
      · refine Or.inl ⟨s', w'', g1, g2, by simpa using g3, g4, g5, g6, g7, g8, ?_⟩
        intro h1 b hb
        rcases List.mem_cons.1 h1 with h1 | h1
        · have := e3 h1.symm b hb
          rwa [if_pos (by simp [h1])] at this
        · exact g9 h1 b hb
      · exact Or.inr g
    · have hs : (rabHost P F).step r s w = (.error, ops, (w', w.2)) := by
        show ((w.1.turn P F r).1, (w.1.turn P F r).2.1, ((w.1.turn P F r).2.2, w.2)) = _
        rw [e1]
      have h1 : 1 ∈ r :: l := by simp [e0]
      rw [if_pos h1] at e2 e3
      refine Or.inr ⟨(runBucket (rabHost P F) (.fin k) (r :: l) s w).1, (w', w.2), ?_, e2, e3⟩
      simp only [runBucket, hs]

theorem rab_round {P : RabParams} {F : RabFate} (hF : F.Draws) {sh : Bool} {k : Nat} (hk : k < P.life) {o : Option Nat} {x : Sched × RabSim × Nat}
    (h : RabRound P sh k o x) :
    (((timedStepper (rabHost P F)).step x).2 = false ∧ RabRound P sh (k + 1) o ((timedStepper (rabHost P F)).step x).1 ∧ ∀ b, o = some b → k < b) ∨
    (((timedStepper (rabHost P F)).step x).2 = true ∧ RabBirth P k ((timedStepper (rabHost P F)).step x).1.2.1.warren ∧ ∀ b, o = some b → k = b) := by
  obtain ⟨s, w⟩ := x
  obtain ⟨hr, hag, hrun, hp⟩ := h
  obtain ⟨l, h1, h2, hq⟩ := hr.queue
  have ht : s.time = .fin k := by simpa using hr.time
  rw [mul_one] at hq
  have hord : ∃ l' w1, runOrder (rabHost P F) s l w = (l', w1) ∧ l'.Perm l ∧ (sh = false → l' = l) ∧ w1.1 = w.1 := by
    unfold runOrder
    rw [hr.shuffle]
    cases sh with
    | true => exact ⟨_, _, rfl, (rabHost P F).shuffle_perm _ _, (fun h => nomatch h), rfl⟩
    | false => exact ⟨_, _, rfl, List.Perm.refl _, fun _ => rfl, rfl⟩
  obtain ⟨l', w1, e1, e2, e3, e4⟩ := hord
  have hperm := e2.trans h1
  have hlen : ∀ r ∈ l', r < 3 := fun r hr => List.mem_range.1 (hperm.subset hr)
  have hin : ∀ r : Nat, r < 3 → r ∈ l' := fun r hr => hperm.symm.subset (List.mem_range.2 hr)
  have hstep : s.step (rabHost P F) w = finishStep (runBucket (rabHost P F) (.fin k) l' { s with queue := [] } w1) := by
    unfold Sched.step
    rw [hq]
    simp only
    rw [if_neg (by rw [ht]; exact lt_irrefl _), e1]
    simp only
    rw [ht]
  rcases rab_bucket hF k hk o l' hlen (hperm.nodup_iff.2 List.nodup_range) { s with queue := [] } w1
      (by rw [if_pos (hin 0 (by omega)), if_pos (hin 1 (by omega)), e4]; exact hp) ht hr.interval [] (by simp [oneBucket]) with
    ⟨s', w', g1, g2, g3, g4, g5, g6, g7, g8, g9⟩ | ⟨s', w', g1, g2, g3⟩
  · left
    rw [g1] at hstep
    have hl' : l' ≠ [] := range_ne (by omega) hperm
    have e : (1 : Rat) + k = ((k + 1 : Nat) : Rat) := by push_cast; ring
    have hq' : s'.queue = [(.fin ((k + 1 : Nat) : Rat), l')] := by
      rw [g3, ← e]
      simp [oneBucket, hl']
    have hst : (timedStepper (rabHost P F)).step (s, w) = (({ s' with steps := s'.steps + 1, time := headTime s'.queue }, w'), false) := by
      simp only [timedStepper]
      rw [hstep]
      rfl
    rw [hst]
    refine ⟨rfl, ⟨⟨?_, ?_, g5.trans hr.interval, g6.trans hr.shuffle, l', hperm, fun hs => ?_, ?_⟩, g7.trans hag, g8.trans hrun, g2⟩, g9 (hin 1 (by omega))⟩
    · show headTime s'.queue = _
      rw [hq', mul_one]
      rfl
    · show s'.steps + 1 = k + 1
      rw [g4]
      show s.steps + 1 = _
      rw [hr.steps]
    · rw [e3 hs, h2 hs]
    · show s'.queue = _
      rw [hq', mul_one]
  · right
    rw [g1] at hstep
    refine ⟨?_, ?_, g3⟩
    · simp only [timedStepper]
      rw [hstep]
      rfl
    · simp only [timedStepper]
      rw [hstep]
      exact g2

theorem rab_start (P : RabParams) (sh : Bool) : RabRound P sh 0 none (rabStart sh) := by
  have hn := noop_adds 3 (.fin 1) sh
  simp only at hn
  refine ⟨roundsStart_state 3 (by omega) 1 sh _, hn.2.1, hn.2.2.2.2.2, ⟨rfl, rfl, Rab.new true, Rab.new false, rfl, rfl, rfl, ⟨rfl, ?_, ?_, ?_, ?_⟩, ?_,
    ⟨rfl, ?_, ?_, ?_, ?_⟩, ⟨?_, ?_, ?_, ?_, ?_, ?_⟩⟩⟩ <;> simp [Rab.new]

/-- As long as nothing was raised. -/
theorem rab_rounds {P : RabParams} {F : RabFate} (hF : F.Draws) {sh : Bool} {k n : Nat} {o : Option Nat} {x : Sched × RabSim × Nat}
    (h : RabRound P sh k o x) (hk : k + n ≤ P.life) (hno : ∀ j < n, ((timedStepper (rabHost P F)).step (iterStep (timedStepper (rabHost P F)) j x)).2 = false) :
    RabRound P sh (k + n) o (iterStep (timedStepper (rabHost P F)) n x) := by
  induction n with
  | zero => exact h
  | succ n ih =>
    have h' := ih (by omega) (fun j hj => hno j (by omega))
    rw [iterStep_succ]
    rcases rab_round hF (by omega) h' with ⟨-, g, -⟩ | ⟨g, -⟩
    · exact g
    · rw [hno n (by omega)] at g
      cases g

theorem RabPair.know {P : RabParams} {m f : Nat} {o : Option Nat} {w : Warren} (h : RabPair P m f o w) (b : Rab) (hb : w.rabs[1]? = some b) (t : Nat)
    (h0 : 0 ≤ b.pregnancy) (ht : (b.state = .fertile ∧ f + P.gestation + 1 = t) ∨ (b.state = .pregnant ∧ (f : Int) + P.gestation - b.pregnancy = t)) :
    RabPair P m f (some t) w := by
  obtain ⟨h1, h2, a, b', h3, h4, h5, h6, h7, h8, ⟨d1, d2, d3, d4, d5, -⟩⟩ := h
  have : b' = b := by simpa [h3] using hb
  subst this
  exact ⟨h1, h2, a, b', h3, h4, h5, h6, h7, h8, ⟨d1, d2, d3, d4, d5, fun t' ht' => by cases ht'; exact ⟨h0, ht⟩⟩⟩

/-- C252: as long as no step has raised, up to the life expectancy, there are exactly the two first rabbits, a male and a female, both alive and joined by the
edge, and the accident. After `n` steps the clock says `n` and the age of both is that of the last step. -/
theorem C252_pair (P : RabParams) (F : RabFate) (hF : F.Draws) (sh : Bool) (n : Nat) (hn : n ≤ P.life)
    (hno : ∀ j < n, ((timedStepper (rabHost P F)).step (rabRun P F sh j)).2 = false) :
    let x := rabRun P F sh n
    x.1.time = .fin n ∧ x.1.steps = n ∧ x.1.agents = [0, 1, 2] ∧ x.2.1.warren.nodes = [0, 1] ∧ x.2.1.warren.edges = [(0, 1)] ∧
      ∃ a b, x.2.1.warren.rabs = [a, b] ∧ a.male = true ∧ b.male = false ∧ a.alive = true ∧ b.alive = true ∧
        (0 < n → a.age = n - 1 ∧ b.age = n - 1) ∧ b.litters = 0 := by
  have h := rab_rounds hF (rab_start P sh) (n := n) (by omega) hno
  rw [Nat.zero_add] at h
  intro x
  obtain ⟨h1, h2, a, b, h3, h4, h5, h6, h7, h8, h9⟩ := h.pair
  refine ⟨by have := h.round.time; rwa [mul_one] at this, h.round.steps, h.agents, h1, h2, a, b, h3, h4, h5, h6.alive, h8.alive, fun h0 => ?_, h9.litters⟩
  have := h6.age h0
  have := h8.age h0
  omega

/-- C252: if a step raises before the life expectancy is reached, it is not one of the first `maturity + gestation + 2`, and it leaves behind the first baby
alone, joined to its mother and its father. -/
theorem C252_raises (P : RabParams) (F : RabFate) (hF : F.Draws) (sh : Bool) (n : Nat) (hn : n < P.life)
    (hno : ∀ j < n, ((timedStepper (rabHost P F)).step (rabRun P F sh j)).2 = false)
    (hr : ((timedStepper (rabHost P F)).step (rabRun P F sh n)).2 = true) :
    let w := (rabRun P F sh (n + 1)).2.1.warren
    P.maturity + P.gestation + 2 ≤ n ∧ w.rabs.length = 3 ∧ w.nodes = [0, 1, 2] ∧ w.edges = [(0, 1), (2, 1), (2, 0)] := by
  have h := rab_rounds hF (rab_start P sh) (n := n) (by omega) hno
  rw [Nat.zero_add] at h
  intro w
  have hw : w = ((timedStepper (rabHost P F)).step (rabRun P F sh n)).1.2.1.warren := by
    show (rabRun P F sh (n + 1)).2.1.warren = _
    unfold rabRun
    rw [iterStep_succ]
  rcases rab_round hF hn h with ⟨g, -⟩ | ⟨-, g, -⟩
  · have hr' : ((timedStepper (rabHost P F)).step (iterStep (timedStepper (rabHost P F)) n (rabStart sh))).2 = true := hr
    rw [g] at hr'
    cases hr'
  · rw [hw]
    exact ⟨g.first, g.three, g.nodes, g.edges⟩

/-- C252: a female that has mated makes the simulation raise, after a time that is known: `gestation + 1` steps later if she is still fertile, as many as are missing
if she is pregnant already; not before. -/
theorem C252_due (P : RabParams) (F : RabFate) (hF : F.Draws) (sh : Bool) (n t : Nat) (ht : t < P.life)
    (hno : ∀ j < n, ((timedStepper (rabHost P F)).step (rabRun P F sh j)).2 = false) (b : Rab) (hb : (rabRun P F sh n).2.1.warren.rabs[1]? = some b)
    (h0 : 0 ≤ b.pregnancy) (hs : (b.state = .fertile ∧ t = n + P.gestation + 1) ∨ (b.state = .pregnant ∧ (t : Int) = n + P.gestation - b.pregnancy)) (hnt : n ≤ t) :
    ((timedStepper (rabHost P F)).step (rabRun P F sh t)).2 = true ∧ ∀ j < t, ((timedStepper (rabHost P F)).step (rabRun P F sh j)).2 = false := by
  have h := rab_rounds hF (rab_start P sh) (n := n) (by omega) hno
  rw [Nat.zero_add] at h
  have hk : RabRound P sh n (some t) (rabRun P F sh n) := ⟨h.round, h.agents, h.running, h.pair.know b hb t h0 (by
    rcases hs with ⟨a1, a2⟩ | ⟨a1, a2⟩
    · exact Or.inl ⟨a1, a2.symm⟩
    · exact Or.inr ⟨a1, a2.symm⟩)⟩
  have key : ∀ d, n + d ≤ t → RabRound P sh (n + d) (some t) (rabRun P F sh (n + d)) ∧
      ∀ j < n + d, ((timedStepper (rabHost P F)).step (rabRun P F sh j)).2 = false := by
    intro d
    induction d with
    | zero => exact fun _ => ⟨hk, hno⟩
    | succ d ih =>
      intro hd
      obtain ⟨e1, e2⟩ := ih (by omega)
      rcases rab_round hF (by omega) e1 with ⟨g1, g2, g3⟩ | ⟨g1, g2, g3⟩
      · refine ⟨?_, ?_⟩
        · have : rabRun P F sh (n + (d + 1)) = ((timedStepper (rabHost P F)).step (rabRun P F sh (n + d))).1 := iterStep_succ _ _ _
          rw [this]
          exact g2
        · intro j hj
          rcases (by omega : j < n + d ∨ j = n + d) with hj | rfl
          · exact e2 j hj
          · exact g1
      · have := g3 t rfl
        omega
  obtain ⟨e1, e2⟩ := key (t - n) (by omega)
  rw [Nat.add_sub_cancel' hnt] at e1 e2
  refine ⟨?_, e2⟩
  rcases rab_round hF ht e1 with ⟨g1, g2, g3⟩ | ⟨g1, g2, g3⟩
  · have := g3 t rfl
    omega
  · exact g1

private theorem rab_isDone {P : RabParams} {F : RabFate} {sh : Bool} {T k : Nat} {x : Sched × RabSim × Nat} (h : RabRound P sh k none x) :
    isDone (timedStepper (rabHost P F)) (some (.fin (T : Rat))) none x = decide (T ≤ k) := by
  have ht := h.round.time
  rw [mul_one] at ht
  simp [isDone, timedStepper, h.running, ht]

private theorem rab_loop {P : RabParams} {F : RabFate} (hF : F.Draws) {sh : Bool} {T : Nat} (hT : T ≤ P.life) (fuel k : Nat) (hk : k ≤ T) (hf : T ≤ k + fuel)
    (x : Sched × RabSim × Nat) (h : RabRound P sh k none x) :
    (∃ y, runLoop (timedStepper (rabHost P F)) (some (.fin (T : Rat))) none fuel x = .done y ∧ RabRound P sh T none y) ∨
    (∃ y t, runLoop (timedStepper (rabHost P F)) (some (.fin (T : Rat))) none fuel x = .raised y ∧ t < T ∧ RabBirth P t y.2.1.warren) := by
  induction fuel generalizing k x with
  | zero =>
    have : k = T := by omega
    subst this
    left
    refine ⟨x, ?_, h⟩
    unfold runLoop
    rw [rab_isDone h]
    simp
  | succ fuel ih =>
    unfold runLoop
    rw [rab_isDone h]
    by_cases hkT : T ≤ k
    · have : k = T := by omega
      subst this
      left
      exact ⟨x, by simp, h⟩
    · rw [if_neg (by simpa using hkT)]
      rcases rab_round hF (by omega) h with ⟨g1, g2, -⟩ | ⟨g1, g2, -⟩
      · simp only [g1, Bool.false_eq_true, if_false]
        exact ih (k + 1) (by omega) (by omega) _ g2
      · right
        refine ⟨((timedStepper (rabHost P F)).step x).1, k, ?_, by omega, g2⟩
        simp only [g1, if_true]

/-- C252 (partial: no litter is ever complete): a simulation with a time limit up to the life expectancy ends; either it reaches the limit, with the two rabbits of the beginning, or it raises
with the first baby, not before `maturity + gestation + 2`. -/
theorem C252_run_partial (P : RabParams) (F : RabFate) (hF : F.Draws) (sh : Bool) (T fuel : Nat) (hT : T ≤ P.life) (hf : T ≤ fuel) :
    (∃ s w, runModel (timedStepper (rabHost P F)) (some (.fin (T : Rat))) none fuel (rabStart sh) = .done (s, w) ∧ s.time = .fin T ∧
      w.1.warren.nodes = [0, 1] ∧ ∃ a b, w.1.warren.rabs = [a, b] ∧ a.alive = true ∧ b.alive = true ∧ b.litters = 0) ∨
    (∃ s w, runModel (timedStepper (rabHost P F)) (some (.fin (T : Rat))) none fuel (rabStart sh) = .raised (s, w) ∧
      w.1.warren.rabs.length = 3 ∧ P.maturity + P.gestation + 2 < T) := by
  have h0 := rab_start P sh
  have hna : (timedStepper (rabHost P F)).noAgents (rabStart sh) = false := by
    simp [timedStepper, h0.agents]
  unfold runModel
  rw [hna]
  simp only [Bool.false_eq_true, if_false]
  rcases rab_loop hF hT fuel 0 (by omega) (by omega) _ h0 with ⟨y, g1, g2⟩ | ⟨y, t, g1, g2, g3⟩
  · left
    obtain ⟨h1, h2, a, b, h3, h4, h5, h6, h7, h8, h9⟩ := g2.pair
    exact ⟨y.1, y.2, g1, by have := g2.round.time; rwa [mul_one] at this, h1, a, b, h3, h6.alive, h8.alive, h9.litters⟩
  · right
    have := g3.first
    exact ⟨y.1, y.2, g1, g3.three, by omega⟩

/-! ### Any time -/

/-- What every activation that does not raise and every shuffling keep is kept by a step that does not raise. -/
theorem stepKeepsOk {W : Type} (H : Host W) (Q : W → Prop) (h1 : ∀ r s w, Q w → (H.step r s w).1 ≠ .error → Q (H.step r s w).2.2)
    (h2 : ∀ l w, Q w → Q (H.shuffle l w).2) (s : Sched) (w : W) (hx : Q w) (hok : (s.step H w).2.2 = false) : Q (s.step H w).2.1 := by
  have hb : ∀ (now : Time) (b : List Ref) (s : Sched) (w : W), Q w → (runBucket H now b s w).2.2 = false → Q (runBucket H now b s w).2.1 := by
    intro now b
    induction b with
    | nil => exact fun s w h _ => h
    | cons r b ih =>
      intro s w h
      rw [runBucket_cons]
      simp only
      split
      · intro hf; cases hf
      · rename_i hne
        exact ih _ _ (h1 r s w h hne)
  have ho : ∀ b, Q (runOrder H s b w).2 := by
    intro b
    unfold runOrder
    split
    · exact h2 b w hx
    · exact hx
  unfold Sched.step at hok ⊢
  split at hok
  · exact hx
  · split at hok
    · rename_i hlt
      rw [if_pos hlt]
      exact hx
    · rename_i hlt
      rw [if_neg hlt]
      simp only [finishStep] at hok ⊢
      split at hok
      · rename_i hr
        rw [hr] at hok
        cases hok
      · rename_i hr
        rw [if_neg hr]
        exact hb _ _ _ _ (ho _) (by simpa using hr)

private theorem Warren.run_append (P : RabParams) (es : List RabEv) (e : RabEv) (w : Warren) (h : (w.run P es).2 = false) :
    w.run P (es ++ [e]) = (w.run P es).1.ev P e := by
  induction es generalizing w with
  | nil =>
    simp only [List.nil_append, Warren.run]
    split
    · rfl
    · rename_i h'
      rw [Bool.not_eq_true] at h'
      exact Prod.ext rfl h'.symm
  | cons e' es ih =>
    simp only [List.cons_append, Warren.run] at h ⊢
    split
    · rename_i h'
      rw [if_pos h'] at h
      rw [h'] at h
      cases h
    · rename_i h'
      rw [if_neg h'] at h
      exact ih _ h

private theorem getElem?_snoc {α : Type} {l : List α} {a b : α} {k : Nat} (h : (l ++ [a])[k]? = some b) : l[k]? = some b ∨ (k = l.length ∧ a = b) := by
  rcases Nat.lt_trichotomy k l.length with hk | rfl | hk
  · left
    rwa [List.getElem?_append_left hk] at h
  · right
    simpa using h
  · rw [List.getElem?_eq_none (by simp; omega)] at h
    cases h

/-- C252: whole simulations of any length are made of the events that C129 to C134 are about, with the numbers that chance gives: what is proved there for all series
of events holds after every step of a simulation that has not raised; for example, that the network consists of the living rabbits. No number is used twice: the
`k`-th event uses the `k`-th numbers. -/
theorem C252_events (P : RabParams) (F : RabFate) (sh : Bool) (n : Nat)
    (hno : ∀ j < n, ((timedStepper (rabHost P F)).step (rabRun P F sh j)).2 = false) :
    ∃ es, (rabRun P F sh n).2.1.warren = (Warren.init.run P es).1 ∧ (Warren.init.run P es).2 = false ∧
      (∀ (k : Nat) i d r sex, es[k]? = some (RabEv.act i d r sex) → d = F.d k ∧ r = F.r k ∧ sex = F.sex k) ∧
      (∀ (k : Nat) d, es[k]? = some (RabEv.accident d) → d = F.d k) := by
  suffices h : ∃ es, (rabRun P F sh n).2.1.warren = (Warren.init.run P es).1 ∧ (Warren.init.run P es).2 = false ∧
      (∀ (k : Nat) i d r sex, es[k]? = some (RabEv.act i d r sex) → d = F.d k ∧ r = F.r k ∧ sex = F.sex k) ∧
      (∀ (k : Nat) d, es[k]? = some (RabEv.accident d) → d = F.d k) ∧ es.length = (rabRun P F sh n).2.1.used by
    obtain ⟨es, h1, h2, h3, h4, -⟩ := h
    exact ⟨es, h1, h2, h3, h4⟩
  induction n with
  | zero => exact ⟨[], rfl, rfl, by simp, by simp, rfl⟩
  | succ n ih =>
    have ih := ih (fun j hj => hno j (by omega))
    have hs : rabRun P F sh (n + 1) = ((timedStepper (rabHost P F)).step (rabRun P F sh n)).1 := iterStep_succ _ _ _
    rw [hs]
    refine stepKeepsOk (rabHost P F) (fun w => ∃ es, w.1.warren = (Warren.init.run P es).1 ∧ (Warren.init.run P es).2 = false ∧
      (∀ (k : Nat) i d r sex, es[k]? = some (RabEv.act i d r sex) → d = F.d k ∧ r = F.r k ∧ sex = F.sex k) ∧
      (∀ (k : Nat) d, es[k]? = some (RabEv.accident d) → d = F.d k) ∧ es.length = w.1.used) ?_ ?_ _ _ ih
      (hno n (by omega))
    · rintro r s w ⟨es, h1, h2, h3, h4, h5⟩ hne
      have hst : (rabHost P F).step r s w = ((w.1.turn P F r).1, (w.1.turn P F r).2.1, ((w.1.turn P F r).2.2, w.2)) := rfl
      rw [hst] at hne ⊢
      simp only at hne ⊢
      unfold RabSim.turn at hne ⊢
      split
      · rename_i hr
        split
        · exact ⟨es, h1, h2, h3, h4, h5⟩
        · refine ⟨es ++ [.accident (F.d w.1.used)], ?_, ?_, ?_, ?_, by simp [h5]⟩
          · rw [Warren.run_append P es _ _ h2, ← h1]; rfl
          · rw [Warren.run_append P es _ _ h2]; rfl
          · intro k i d r sex hm
            rcases getElem?_snoc hm with hm | ⟨rfl, hm'⟩
            · exact h3 k i d r sex hm
            · cases hm'
          · intro k d hm
            rcases getElem?_snoc hm with hm | ⟨rfl, hm'⟩
            · exact h4 k d hm
            · rw [h5]
              cases hm'
              rfl
      · rename_i hr
        rw [if_neg hr] at hne
        split
        · exact ⟨es, h1, h2, h3, h4, h5⟩
        · rename_i q hq
          split
          · exact ⟨es, h1, h2, h3, h4, h5⟩
          · rename_i ha
            refine ⟨es ++ [.act (rabOf r) (F.d w.1.used) (F.r w.1.used) (F.sex w.1.used)], ?_, ?_, ?_, ?_, by simp [h5]⟩
            · rw [Warren.run_append P es _ _ h2, ← h1]; rfl
            · rw [Warren.run_append P es _ _ h2, ← h1]
              simp only [hq] at hne
              rw [if_neg ha] at hne
              simp only at hne
              show (w.1.warren.act P (rabOf r) (F.d w.1.used) (F.r w.1.used) (F.sex w.1.used)).2 = false
              by_contra hc
              rw [Bool.not_eq_false] at hc
              rw [if_pos hc] at hne
              exact hne rfl
            · intro k i d r' sex hm
              rcases getElem?_snoc hm with hm | ⟨rfl, hm'⟩
              · exact h3 k i d r' sex hm
              · rw [h5]
                cases hm'
                exact ⟨rfl, rfl, rfl⟩
            · intro k d hm
              rcases getElem?_snoc hm with hm | ⟨rfl, hm'⟩
              · exact h4 k d hm
              · cases hm'
    · exact fun l w h => h

/-- Two rabbits, of which the female is so old that she will not give birth any more. -/
def OldPair (P : RabParams) (w : Warren) : Prop :=
  ∃ a b, w.rabs = [a, b] ∧ a.male = true ∧ a.state ≠ .pregnant ∧ b.state ≠ .newborn ∧ P.life ≤ b.age + 1

private theorem OldPair.kill {P : RabParams} {w : Warren} (h : OldPair P w) (i : Nat) : OldPair P (w.kill i) := by
  obtain ⟨a, b, h1, h2, h3, h4, h5⟩ := h
  unfold Warren.kill
  split
  · exact ⟨a, b, h1, h2, h3, h4, h5⟩
  · split
    · rcases i with _ | _ | i
      · exact ⟨{ a with alive := false }, b, by simp [h1], h2, h3, h4, h5⟩
      · exact ⟨a, { b with alive := false }, by simp [h1], h2, h3, h4, h5⟩
      · exact ⟨a, b, by simp [h1], h2, h3, h4, h5⟩
    · exact ⟨a, b, h1, h2, h3, h4, h5⟩

private theorem OldPair.accident {P : RabParams} {w : Warren} (h : OldPair P w) (d : Nat → Rat) : OldPair P (w.accident P d) := by
  unfold Warren.accident
  generalize (List.range w.rabs.length).filter w.lives = l
  generalize deathChance P w.nodes.length = p
  induction l generalizing w with
  | nil => exact h
  | cons i l ih =>
    unfold Warren.accidents
    split
    · exact ih h
    · split
      · exact ih (h.kill i)
      · exact ih h

private theorem OldPair.mate {P : RabParams} {w : Warren} (h : OldPair P w) (p : Rat) (i : Nat) (d : Nat → Rat) (r : Rat) (l : List Nat) (k : Nat) :
    OldPair P (Warren.mateLoop p i d r l k w) := by
  induction l generalizing k with
  | nil => exact h
  | cons j l ih =>
    unfold Warren.mateLoop
    split
    · obtain ⟨a, b, h1, h2, h3, h4, h5⟩ := h
      obtain ⟨rabs, nodes, edges⟩ := w
      simp only at h1
      subst h1
      rcases j with _ | _ | j
      · exact ⟨_, b, rfl, h2, h3, h4, h5⟩
      · exact ⟨a, _, rfl, h2, h3, h4, h5⟩
      · exact ⟨a, b, by simp [Warren.impregnate, Warren.upd], h2, h3, h4, h5⟩
    · exact ih (k + 1)

private theorem OldPair.act {P : RabParams} {w : Warren} (h : OldPair P w) (i : Nat) (d : Nat → Rat) (r : Rat) (sex : Nat → Bool) :
    (w.act P i d r sex).2 = false ∧ OldPair P (w.act P i d r sex).1 := by
  obtain ⟨a, b, h1, h2, h3, h4, h5⟩ := id h
  obtain ⟨rabs, nodes, edges⟩ := w
  simp only at h1
  subst h1
  rcases i with _ | _ | i
  · unfold Warren.act
    simp only [List.getElem?_cons_zero]
    split
    · exact ⟨rfl, h⟩
    · cases hs : a.state with
      | newborn => exact ⟨rfl, _, b, rfl, h2, by simp, h4, h5⟩
      | youngling =>
        simp only
        split
        · exact ⟨rfl, _, b, rfl, h2, by simp, h4, h5⟩
        · exact ⟨rfl, _, b, rfl, h2, by simp [hs], h4, h5⟩
      | fertile =>
        simp only
        split
        · exact ⟨rfl, _, b, rfl, h2, by simp, h4, h5⟩
        · have ho : OldPair P ⟨[{ a with age := a.age + 1 }, b], nodes, edges⟩ := ⟨_, b, rfl, h2, by simp [hs], h4, h5⟩
          exact ⟨rfl, ho.mate _ _ _ _ _ _⟩
      | pregnant => exact absurd hs h3
      | dead => exact ⟨rfl, h.kill 0⟩
  · unfold Warren.act
    simp only [List.getElem?_cons_zero, List.getElem?_cons_succ]
    split
    · exact ⟨rfl, h⟩
    · have ho : ∀ f : Rab → Rab, (∀ q, (f q).age = q.age) → (∀ q, q.state ≠ .newborn → (f q).state ≠ .newborn) →
          OldPair P ⟨[a, f { b with age := b.age + 1 }], nodes, edges⟩ := by
        intro f hf1 hf2
        refine ⟨a, _, rfl, h2, h3, hf2 _ h4, ?_⟩
        rw [hf1]
        simp only
        omega
      cases hs : b.state with
      | newborn => exact absurd hs h4
      | youngling =>
        simp only
        split
        · exact ⟨rfl, ho (fun q => { q with state := .fertile }) (fun _ => rfl) (by simp)⟩
        · exact ⟨rfl, ho id (fun _ => rfl) (by simp)⟩
      | fertile =>
        simp only
        split
        · exact ⟨rfl, ho (fun q => { q with state := .dead }) (fun _ => rfl) (by simp)⟩
        · split
          · exact ⟨rfl, (ho id (fun _ => rfl) (by simp)).mate _ _ _ _ _ _⟩
          · split
            · exact ⟨rfl, ho (fun q => { q with state := .pregnant }) (fun _ => rfl) (by simp)⟩
            · exact ⟨rfl, ho id (fun _ => rfl) (by simp)⟩
      | pregnant =>
        simp only
        refine ⟨trivial, ?_⟩
        obtain ⟨a', b', k1, k2, k3, k4, k5⟩ := (ho id (fun _ => rfl) (by simp)).kill 1
        refine ⟨a', { b' with state := .dead }, ?_, k2, k3, by simp, k5⟩
        have k1' : (Warren.kill (Warren.upd ⟨[a, b], nodes, edges⟩ 1 (fun q => { q with age := q.age + 1 })) 1).rabs = [a', b'] := k1
        simp only [Warren.upd] at k1' ⊢
        rw [k1']
        rfl
      | dead => exact ⟨rfl, h.kill 1⟩
  · unfold Warren.act
    simp only [List.getElem?_cons_succ, List.getElem?_nil]
    exact ⟨trivial, h⟩

private theorem RabPair.old {P : RabParams} (hP : 0 < P.life) {o : Option Nat} {w : Warren} (h : RabPair P P.life P.life o w) : OldPair P w := by
  obtain ⟨h1, h2, a, b, h3, h4, h5, h6, h7, h8, h9⟩ := h
  refine ⟨a, b, h3, h4, h7, ?_, ?_⟩
  · intro hs
    have := h8.new.1 hs
    omega
  · have := h8.age hP
    omega

private theorem rab_old (P : RabParams) (F : RabFate) (x : Sched × RabSim × Nat) (h : OldPair P x.2.1.warren) :
    ((timedStepper (rabHost P F)).step x).2 = false ∧ OldPair P ((timedStepper (rabHost P F)).step x).1.2.1.warren := by
  have hturn : ∀ (r : Ref) (w : RabSim), OldPair P w.warren → (w.turn P F r).1 ≠ .error ∧ OldPair P (w.turn P F r).2.2.warren := by
    intro r w h
    unfold RabSim.turn
    split
    · split
      · exact ⟨by simp, h⟩
      · exact ⟨by simp, h.accident _⟩
    · split
      · exact ⟨by simp, h⟩
      · split
        · exact ⟨by simp, h⟩
        · obtain ⟨g1, g2⟩ := h.act (rabOf r) (F.d w.used) (F.r w.used) (F.sex w.used)
          refine ⟨?_, g2⟩
          simp only [g1, Bool.false_eq_true, if_false]
          split <;> simp
  have hb : ∀ (now : Time) (b : List Ref) (s : Sched) (w : RabSim × Nat), OldPair P w.1.warren →
      (runBucket (rabHost P F) now b s w).2.2 = false ∧ OldPair P (runBucket (rabHost P F) now b s w).2.1.1.warren := by
    intro now b
    induction b with
    | nil => exact fun s w h => ⟨rfl, h⟩
    | cons r b ih =>
      intro s w h
      obtain ⟨g1, g2⟩ := hturn r w.1 h
      rw [runBucket_cons]
      simp only
      rw [if_neg (show ¬ ((rabHost P F).step r s w).1 = .error from g1)]
      exact ih _ _ g2
  obtain ⟨s, w⟩ := x
  have ho : ∀ b, OldPair P (runOrder (rabHost P F) s b w).2.1.warren := by
    intro b
    unfold runOrder
    split
    · exact h
    · exact h
  show (s.step (rabHost P F) w).2.2 = false ∧ OldPair P (s.step (rabHost P F) w).2.1.1.warren
  unfold Sched.step
  split
  · exact ⟨rfl, h⟩
  · split
    · exact ⟨rfl, h⟩
    · rename_i l q hq hlt
      obtain ⟨g1, g2⟩ := hb s.time (runOrder (rabHost P F) s l w).1 { s with queue := q } (runOrder (rabHost P F) s l w).2 (ho l)
      simp only [finishStep, g1, Bool.false_eq_true, if_false]
      exact ⟨trivial, g2⟩

/-- C252 is violated: the population never grows. Whatever the parameters, the random numbers, the order and the number of steps, a simulation in which no step has
raised has the two rabbits it began with, dead or alive: births raise (`self.model.agents[self.mate]`, examples/rabbits/rabbits_basic_sim.py:121). After the life
expectancy no step raises any more. -/
theorem C252_grows_false (P : RabParams) (hP : 0 < P.life) (F : RabFate) (hF : F.Draws) (sh : Bool) (n : Nat)
    (hno : ∀ j < n, ((timedStepper (rabHost P F)).step (rabRun P F sh j)).2 = false) :
    (rabRun P F sh n).2.1.warren.rabs.length = 2 ∧ (P.life ≤ n → ((timedStepper (rabHost P F)).step (rabRun P F sh n)).2 = false) := by
  by_cases hn : n < P.life
  · obtain ⟨-, -, -, -, -, a, b, h, -⟩ := C252_pair P F hF sh n (by omega) hno
    exact ⟨by rw [h]; rfl, fun h' => absurd hn (by omega)⟩
  · have h := rab_rounds hF (rab_start P sh) (n := P.life) (by omega) (fun j hj => hno j (by omega))
    rw [Nat.zero_add] at h
    have hold : OldPair P (rabRun P F sh n).2.1.warren := by
      obtain ⟨d, rfl⟩ : ∃ d, n = P.life + d := ⟨n - P.life, by omega⟩
      clear hno hn
      induction d with
      | zero => exact h.pair.old hP
      | succ d ih =>
        have hs : rabRun P F sh (P.life + (d + 1)) = ((timedStepper (rabHost P F)).step (rabRun P F sh (P.life + d))).1 := iterStep_succ _ _ _
        rw [hs]
        exact (rab_old P F _ ih).2
    refine ⟨?_, fun _ => (rab_old P F _ hold).1⟩
    obtain ⟨a, b, h1, -⟩ := hold
    rw [h1]
    rfl

/-- C252 is violated, for simulations: no simulation that returns has any rabbits but the two it began with, whatever its limits. -/
theorem C252_returns_false (P : RabParams) (hP : 0 < P.life) (F : RabFate) (hF : F.Draws) (sh : Bool) (maxTime : Option Time) (maxSteps : Option Nat) (fuel : Nat)
    (s : Sched) (w : RabSim × Nat) (h : runModel (timedStepper (rabHost P F)) maxTime maxSteps fuel (rabStart sh) = .done (s, w)) :
    w.1.warren.rabs.length = 2 := by
  unfold runModel at h
  split at h
  · cases h
  · obtain ⟨n, e1, e2, e3⟩ := runLoop_done _ _ _ h
    have := (C252_grows_false P hP F hF sh n (fun j hj => (e3 j hj).2)).1
    have e : rabRun P F sh n = (s, w) := e1.symm
    rw [e] at this
    exact this

/-! ### Examples -/

/-- The first draw of every activation succeeds. -/
def easyFate : RabFate := ⟨fun _ _ => 0, fun _ => 1 / 2, fun _ _ => true, fun _ l => l, fun _ l => List.Perm.refl l⟩

/-- The hardest fate. -/
def chasteFate : RabFate := ⟨fun _ _ => 99 / 100, fun _ => 1 / 2, fun _ _ => true, fun _ l => l.reverse, fun _ l => l.reverse_perm⟩

theorem easyFate_draws : easyFate.Draws := ⟨fun _ _ => le_refl _, fun _ => by norm_num [easyFate]⟩

-- with the parameters of the example and the most fertile numbers the simulation raises in the step at the time 42 and not before
set_option maxRecDepth 100000 in
example : ((timedStepper (rabHost rabExample easyFate)).step (rabRun rabExample easyFate false 42)).2 = true ∧
    ((timedStepper (rabHost rabExample easyFate)).step (rabRun rabExample easyFate false 41)).2 = false := by decide +kernel

set_option maxRecDepth 100000 in
example : ((rabRun rabExample easyFate false 35).2.1.warren.rabs.map (fun q => (q.state, q.age, q.pregnancy))) =
    [(.fertile, 34, -1), (.pregnant, 34, 3)] := by decide +kernel

set_option maxRecDepth 100000 in
example : ((rabRun rabExample chasteFate true 100).2.1.warren.rabs.map (fun q => (q.state, q.age, q.alive))) =
    [(.fertile, 99, true), (.fertile, 99, true)] := by decide +kernel

-- later than the life expectancy the two die without having had children
set_option maxRecDepth 100000 in
example : ((rabRun ⟨2, 5, 5, 1 / 1000, 2, 0⟩ chasteFate true 9).2.1.warren = ⟨[⟨true, .dead, 6, 0, -1, none, 0, false, 0, 0⟩, ⟨false, .dead, 6, 0, -1, none, 0, false, 0, 0⟩], [], []⟩) := by
  decide +kernel

/-- C252: the numbers in the schedule: every agent is either the accident, the third to be added, or one rabbit. -/
theorem C252_numbers : (∀ i, rabOf (refOf i) = i ∧ refOf i ≠ 2) ∧ ∀ r, r ≠ 2 → refOf (rabOf r) = r := by
  have h1 : ∀ i : Nat, (if (if i < 2 then i else i + 1) < 2 then (if i < 2 then i else i + 1) else (if i < 2 then i else i + 1) - 1) = i ∧
      (if i < 2 then i else i + 1) ≠ 2 := by
    intro i
    by_cases h : i < 2 <;> simp only [h, if_true, if_false] <;> constructor <;> (try split) <;> first | omega | trivial
  have h2 : ∀ r : Nat, r ≠ 2 → (if (if r < 2 then r else r - 1) < 2 then (if r < 2 then r else r - 1) else (if r < 2 then r else r - 1) + 1) = r := by
    intro r hr
    by_cases h : r < 2 <;> simp only [h, if_true, if_false] <;> (try split) <;> omega
  exact ⟨h1, h2⟩

end Verif
