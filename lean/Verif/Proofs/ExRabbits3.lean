import Verif.Proofs.ExRabbits2
import Mathlib.Tactic.Linarith

/-!
# What one activation does in the improved rabbits
-/

namespace Verif
open Spec

/-- Everything that the activation of an agent may do when no exception escapes. -/
inductive Happens (C : RabCode) (agents : List Ref) (w : Colony) (r : Ref) (now : Rat) : List SOp → Colony → Prop
  | idle (k : Nat) : Happens C agents w r now [] { w with used := k }
  | birth (b : Bun) (hb : w.bun? r = some b) (ha : b.alive = true) (hs : b.state = .newborn) :
      Happens C agents w r now [] (w.upd r (fun b => { b with birth := some now, offspring := 0, state := .youngling }))
  | turn (b : Bun) (st : RabState) (hb : w.bun? r = some b) (ha : b.alive = true)
      (hs : b.state = .youngling ∧ st = .fertile ∨ b.state = .fertile ∧ st = .dead ∨
        b.state = .fertile ∧ st = .pregnant ∧ b.conception.isSome = true) :
      Happens C agents w r now [] (w.upd r (fun b => { b with state := st }))
  | mate (b bf : Bun) (t : Rat) (f : Ref) (k : Nat) (hb : w.bun? r = some b) (ha : b.alive = true) (hs : b.state = .fertile) (hm : b.male = true)
      (ht : b.birth = some t) (hl : now - t ≤ C.life) (hf : f ∈ agents) (hbf : w.bun? f = some bf) (hmf : bf.male = false) (hsf : bf.state = .fertile) :
      Happens C agents w r now [] (Colony.impregnate { w with used := k } f r now)
  | die (b : Bun) (hb : w.bun? r = some b) (ha : b.alive = true) : Happens C agents w r now [.remove r] (w.kill r)
  | dieCarrying (b : Bun) (hb : w.bun? r = some b) (ha : b.alive = true) (hs : b.state = .pregnant) :
      Happens C agents w r now [.remove r] ((w.kill r).upd r (fun b => { b with state := .dead }))
  | litter (b : Bun) (c : Rat) (hb : w.bun? r = some b) (ha : b.alive = true) (hs : b.state = .pregnant)
      (hc : b.conception = some c) (hg : C.gestation ≤ now - c)
      (hr : (Colony.births r b.mate now b.babies { w with notes := w.notes ++ [.litter r now] }).2 = false) :
      Happens C agents w r now (Colony.added w (Colony.births r b.mate now b.babies { w with notes := w.notes ++ [.litter r now] }).1)
        ((Colony.births r b.mate now b.babies { w with notes := w.notes ++ [.litter r now] }).1.upd r
          (fun b => { b with mate := none, state := .fertile }))
  | alone (hb : w.pets[r]? = some .accident) (hn : w.nodes = []) : Happens C agents w r now [.remove r] w
  | strikes (hb : w.pets[r]? = some .accident) (hn : w.nodes ≠ [])
      (hr : (Pool.iterFor C.frozen Colony.isRabbit none (Colony.strike (w.chance C)) ⟨agents, w⟩).raised = false) :
      Happens C agents w r now
        ((agents.filter (· ∉ (Pool.iterFor C.frozen Colony.isRabbit none (Colony.strike (w.chance C)) ⟨agents, w⟩).pool.members)).map .remove)
        (Pool.iterFor C.frozen Colony.isRabbit none (Colony.strike (w.chance C)) ⟨agents, w⟩).pool.st

theorem colonyStep_happens (C : RabCode) (r : Ref) (s : Sched) (w : Colony) (now : Rat) (hnow : s.time = .fin now)
    (hg : (colonyStep C r s w).1 ≠ .error) :
    Happens C s.agents w r now (colonyStep C r s w).2.1 (colonyStep C r s w).2.2 := by
  have idle : Happens C s.agents w r now [] w := Happens.idle w.used
  cases hp : w.pets[r]? with
  | none =>
    have e : colonyStep C r s w = (.ret none, [], w) := by simp only [colonyStep, hnow, hp]
    rw [e]
    exact idle
  | some p =>
    cases p with
    | accident =>
      have e : colonyStep C r s w = w.accidentStep C r s.agents := by simp only [colonyStep, hnow, hp]
      rw [e] at hg ⊢
      by_cases hn : w.nodes = []
      · have e2 : w.accidentStep C r s.agents = (.ret (some .inf), [.remove r], w) := by simp [Colony.accidentStep, hn]
        rw [e2]
        exact .alone hp hn
      · have hn' : ¬ w.nodes.length = 0 := fun h => hn (List.length_eq_zero_iff.1 h)
        unfold Colony.accidentStep at hg ⊢
        rw [if_neg hn'] at hg ⊢
        simp only at hg ⊢
        refine .strikes hp hn ?_
        cases hr : (Pool.iterFor C.frozen Colony.isRabbit none (Colony.strike (w.chance C)) ⟨s.agents, w⟩).raised with
        | false => rfl
        | true => rw [hr] at hg; exact absurd rfl hg
    | rabbit b =>
      have hb : w.bun? r = some b := by simp [Colony.bun?, hp]
      cases ha : b.alive with
      | false =>
        have e : colonyStep C r s w = (.dead, [], w) := by simp only [colonyStep, hnow, hp, ha]; rfl
        rw [e]
        exact idle
      | true =>
        have e : colonyStep C r s w = w.act C r b now s.agents := by simp only [colonyStep, hnow, hp, ha]; rfl
        rw [e] at hg ⊢
        unfold Colony.act at hg ⊢
        split
        · rename_i hst
          exact .birth b hb ha hst
        · rename_i t hst _
          simp only
          split
          · exact .turn b _ hb ha (.inl ⟨hst, rfl⟩)
          · exact idle
        · rename_i t hst hbt
          by_cases hl : C.life < now - t
          · rw [if_pos hl]
            exact .turn b _ hb ha (.inr (.inl ⟨hst, rfl⟩))
          · rw [if_neg hl]
            by_cases hm : b.male = true
            · rw [if_pos hm]
              rcases Colony.mateLoop_spec C.mating r now ((s.agents.filter w.isFertileFemale).take C.maxFemales) w with ⟨k, hk⟩ | ⟨f, hf, k, hk⟩
              · rw [hk]
                exact .idle k
              · rw [hk]
                have hf' := List.mem_filter.1 (List.mem_of_mem_take hf)
                have hff := hf'.2
                unfold Colony.isFertileFemale at hff
                cases hbf : w.bun? f with
                | none => rw [hbf] at hff; simp at hff
                | some bf =>
                  rw [hbf] at hff
                  simp only [Bool.and_eq_true, Bool.not_eq_true', decide_eq_true_eq] at hff
                  exact .mate b bf t f k hb ha hst hm hbt (not_lt.1 hl) hf'.1 hbf hff.1 hff.2
            · rw [if_neg hm]
              by_cases hc : b.conception.isSome = true
              · rw [if_pos hc]
                exact .turn b _ hb ha (.inr (.inr ⟨hst, rfl, hc⟩))
              · rw [if_neg hc]
                exact idle
        · rename_i t hst hbt
          simp only [hst, hbt] at hg
          by_cases hl : C.life < now - t
          · rw [if_pos hl]
            exact .dieCarrying b hb ha hst
          · rw [if_neg hl] at hg ⊢
            cases hcc : b.conception with
            | none => exact idle
            | some c =>
              simp only [hcc] at hg ⊢
              by_cases hges : C.gestation ≤ now - c
              · rw [if_pos hges] at hg ⊢
                cases hres : (Colony.births r b.mate now b.babies { w with notes := w.notes ++ [.litter r now] }).2 with
                | true => simp [hres] at hg
                | false =>
                  simp only [Bool.false_eq_true, if_false]
                  exact .litter b c hb ha hst hcc hges hres
              · rw [if_neg hges]
                exact idle
        · exact .die b hb ha
        · exact idle

namespace Colony

/-! ### The network -/

/-- The network is that of the living rabbits. -/
structure Net (w : Colony) : Prop where
  nodup : w.nodes.Nodup
  node : ∀ q, q ∈ w.nodes ↔ ∃ b, w.bun? q = some b ∧ b.alive = true
  edge : ∀ e ∈ w.edges, e.1 ∈ w.nodes ∧ e.2 ∈ w.nodes

/-- The rabbits among the agents in the schedule are the living ones. -/
structure Among (agents : List Ref) (w : Colony) : Prop where
  nodup : agents.Nodup
  lt : ∀ q ∈ agents, q < w.pets.length
  mem : ∀ q b, w.bun? q = some b → (q ∈ agents ↔ b.alive = true)

theorem upd_nodes (w : Colony) (r : Ref) (f : Bun → Bun) : (w.upd r f).nodes = w.nodes := rfl
theorem upd_edges (w : Colony) (r : Ref) (f : Bun → Bun) : (w.upd r f).edges = w.edges := rfl

theorem upd_alive (w : Colony) (r : Ref) (f : Bun → Bun) (hf : ∀ b, (f b).alive = b.alive) (q : Ref) :
    (∃ b, (w.upd r f).bun? q = some b ∧ b.alive = true) ↔ ∃ b, w.bun? q = some b ∧ b.alive = true := by
  rw [bun?_upd]
  by_cases h : q = r
  · rw [if_pos h]
    cases w.bun? q with
    | none => simp
    | some b => simp [hf]
  · rw [if_neg h]

theorem Net.upd {w : Colony} (h : w.Net) (r : Ref) (f : Bun → Bun) (hf : ∀ b, (f b).alive = b.alive) : (w.upd r f).Net where
  nodup := h.nodup
  node q := by rw [upd_nodes, h.node, upd_alive w r f hf]
  edge := h.edge

theorem Among.upd {agents : List Ref} {w : Colony} (h : Among agents w) (r : Ref) (f : Bun → Bun) (hf : ∀ b, (f b).alive = b.alive) :
    Among agents (w.upd r f) where
  nodup := h.nodup
  lt q hq := by rw [upd_length]; exact h.lt q hq
  mem q b hb := by
    rw [bun?_upd] at hb
    split at hb
    · cases hq : w.bun? q with
      | none => rw [hq] at hb; simp at hb
      | some d =>
        rw [hq] at hb
        cases hb
        rw [hf]
        exact h.mem q d hq
    · exact h.mem q b hb

theorem Net.kill {w : Colony} (h : w.Net) (r : Ref) : (w.kill r).Net := by
  unfold Colony.kill
  cases hb : w.bun? r with
  | none => exact h
  | some b =>
    simp only
    split
    · refine ⟨h.nodup.filter _, ?_, ?_⟩
      · intro q
        show q ∈ w.nodes.filter (· ≠ r) ↔ ∃ d, (w.upd r (fun b => { b with alive := false })).bun? q = some d ∧ d.alive = true
        rw [bun?_upd]
        simp only [List.mem_filter, ne_eq, decide_eq_true_eq]
        rw [h.node]
        by_cases hq : q = r
        · subst hq
          simp [hb]
        · simp [hq]
      · intro e he
        simp only [List.mem_filter, ne_eq, decide_eq_true_eq] at he ⊢
        have := h.edge e he.1
        exact ⟨⟨this.1, he.2.1⟩, this.2, he.2.2⟩
    · exact h

theorem Among.kill {agents : List Ref} {w : Colony} (h : Among agents w) (r : Ref) (hr : (w.bun? r).isSome = true) :
    Among (agents.erase r) (w.kill r) where
  nodup := h.nodup.erase r
  lt q hq := by rw [kill_length]; exact h.lt q (List.mem_of_mem_erase hq)
  mem q b hb := by
    rw [bun?_kill] at hb
    rw [h.nodup.mem_erase_iff]
    split at hb
    · rename_i hq
      cases hq' : w.bun? q with
      | none => rw [hq'] at hb; simp at hb
      | some d => rw [hq'] at hb; cases hb; simp [hq]
    · rename_i hq
      rw [h.mem q b hb]
      simp [hq]

/-! ### The accident -/

/-- The invariants of the loop of the accident. -/
structure Striking (p q : Pool Colony) : Prop where
  sub : ∀ r, r ∈ q.members → r ∈ p.members
  net : p.st.Net → q.st.Net
  among : Among p.members p.st → Among q.members q.st
  draw : q.st.draw = p.st.draw

theorem Striking.refl (p : Pool Colony) : Striking p p := ⟨fun _ h => h, fun h => h, fun h => h, rfl⟩

theorem Striking.trans {p q s : Pool Colony} (h1 : Striking p q) (h2 : Striking q s) : Striking p s :=
  ⟨fun r h => h1.sub r (h2.sub r h), fun h => h2.net (h1.net h), fun h => h2.among (h1.among h), h2.draw.trans h1.draw⟩

theorem Net.used {w : Colony} (h : w.Net) (k : Nat) : ({ w with used := k } : Colony).Net := ⟨h.nodup, h.node, h.edge⟩
theorem Among.used {agents : List Ref} {w : Colony} (h : Among agents w) (k : Nat) : Among agents { w with used := k } := ⟨h.nodup, h.lt, h.mem⟩

theorem kill_draw (w : Colony) (r : Ref) : (w.kill r).draw = w.draw := by
  unfold Colony.kill
  split
  · rfl
  · split <;> rfl

theorem Striking.one (p : Rat) (r : Ref) (pool : Pool Colony) : Striking pool (strike p r pool).1 := by
  unfold Colony.strike
  cases hb : pool.st.bun? r with
  | none => exact Striking.refl _
  | some b =>
    simp only
    split
    · exact Striking.refl _
    · split
      · refine ⟨fun q hq => List.mem_of_mem_erase hq, fun h => (h.used _).kill r, fun h => (h.used _).kill r ?_, kill_draw _ _⟩
        show (pool.st.bun? r).isSome = true
        rw [hb]
        rfl
      · exact ⟨fun _ h => h, fun h => h.used _, fun h => h.used _, rfl⟩

theorem Striking.loop (frozen : Bool) (p : Rat) (pool : Pool Colony) : Striking pool (pool.iterFor frozen isRabbit none (strike p)).pool :=
  iterLoop_rel Striking (fun _ => Striking.refl _) (fun _ _ _ => Striking.trans) _ _ _ _ (fun r q => Striking.one p r q) _ _ _ _

/-! ### Births -/

theorem Net.addChild {w : Colony} (h : w.Net) (mother : Ref) (hm : mother ∈ w.nodes) (mate : Option Ref) (now : Rat) :
    (w.addChild mother mate now).Net where
  nodup := by
    show (w.nodes ++ [w.pets.length]).Nodup
    have hn : w.pets.length ∉ w.nodes := by
      intro hc
      obtain ⟨b, hb, _⟩ := (h.node _).1 hc
      exact absurd (bun?_lt hb) (Nat.lt_irrefl _)
    exact List.Nodup.append h.nodup (by simp) (by simpa using hn)
  node q := by
    show q ∈ w.nodes ++ [w.pets.length] ↔ _
    rw [bun?_addChild, List.mem_append, List.mem_singleton, h.node]
    by_cases hq : q = w.pets.length
    · subst hq
      simp [Bun.new]
    · simp [hq]
  edge e he := by
    show e.1 ∈ w.nodes ++ [w.pets.length] ∧ e.2 ∈ w.nodes ++ [w.pets.length]
    rcases List.mem_append.1 (show e ∈ w.edges ++ [(w.pets.length, mother)] from he) with he | he
    · have := h.edge e he
      exact ⟨List.mem_append_left _ this.1, List.mem_append_left _ this.2⟩
    · rw [List.mem_singleton] at he
      rw [he]
      exact ⟨by simp, List.mem_append_left _ hm⟩

theorem births_net (mother : Ref) (mate : Option Ref) (now : Rat) (n : Nat) (w : Colony) (h : w.Net) (hm : mother ∈ w.nodes) :
    (births mother mate now n w).1.Net := by
  induction n generalizing w with
  | zero => exact h
  | succ n ih =>
    have h1 := h.addChild mother hm mate now
    have hm1 : mother ∈ (w.addChild mother mate now).nodes := List.mem_append_left _ hm
    unfold births
    cases mate with
    | none => exact ih _ (h1.upd mother (fun b => { b with offspring := b.offspring + 1 }) (fun _ => rfl)) hm1
    | some m =>
      simp only
      split
      · rename_i hmem
        have h2 : Net { w.addChild mother (some m) now with
            edges := (w.addChild mother (some m) now).edges ++ [(w.pets.length, m)] } := ⟨h1.nodup, h1.node, ?_⟩
        exact ih _ ((h2.upd m (fun b => { b with offspring := b.offspring + 1 }) (fun _ => rfl)).upd mother
          (fun b => { b with offspring := b.offspring + 1 }) (fun _ => rfl)) hm1
        intro e he
        rcases List.mem_append.1 he with he | he
        · exact h1.edge e he
        · rw [List.mem_singleton] at he
          rw [he]
          refine ⟨?_, hmem⟩
          show w.pets.length ∈ w.nodes ++ [w.pets.length]
          simp
      · exact h1

/-- What a birth without exception does to rabbits and notes. -/
theorem births_full (mother : Ref) (mate : Option Ref) (now : Rat) (n : Nat) (w : Colony) (hmo : mother < w.pets.length)
    (hma : ∀ m, mate = some m → m < w.pets.length) (hr : (births mother mate now n w).2 = false) :
    (births mother mate now n w).1.pets.length = w.pets.length + n ∧
    (births mother mate now n w).1.notes = w.notes ++ (List.range' w.pets.length n).map (fun c => .born c mother mate now) ∧
    (births mother mate now n w).1.draw = w.draw ∧
    (∀ q b, w.bun? q = some b → (births mother mate now n w).1.bun? q =
      some { b with offspring := b.offspring + (if q = mother then n else 0) + (if mate = some q then n else 0) }) ∧
    (∀ q, w.pets.length ≤ q → q < w.pets.length + n → ∃ m, (births mother mate now n w).1.bun? q = some (Bun.new m)) := by
  induction n generalizing w with
  | zero =>
    refine ⟨rfl, by simp [births], rfl, ?_, fun q h1 h2 => absurd h2 (Nat.not_lt.2 h1)⟩
    intro q b hb
    simp [births, hb]
  | succ n ih =>
    -- after one child
    have main : ∀ w2 : Colony, w2.pets.length = w.pets.length + 1 → w2.notes = w.notes ++ [.born w.pets.length mother mate now] → w2.draw = w.draw →
        (∀ q b, w.bun? q = some b → w2.bun? q =
          some { b with offspring := b.offspring + (if q = mother then 1 else 0) + (if mate = some q then 1 else 0) }) →
        (∃ m, w2.bun? w.pets.length = some (Bun.new m)) → (births mother mate now n w2).2 = false →
        (births mother mate now n w2).1.pets.length = w.pets.length + (n + 1) ∧
        (births mother mate now n w2).1.notes = w.notes ++ (List.range' w.pets.length (n + 1)).map (fun c => .born c mother mate now) ∧
        (births mother mate now n w2).1.draw = w.draw ∧
        (∀ q b, w.bun? q = some b → (births mother mate now n w2).1.bun? q =
          some { b with offspring := b.offspring + (if q = mother then n + 1 else 0) + (if mate = some q then n + 1 else 0) }) ∧
        (∀ q, w.pets.length ≤ q → q < w.pets.length + (n + 1) → ∃ m, (births mother mate now n w2).1.bun? q = some (Bun.new m)) := by
      intro w2 e1 e2 e3 e4 e5 hr2
      have hmo2 : mother < w2.pets.length := by rw [e1]; exact Nat.lt_succ_of_lt hmo
      have hma2 : ∀ m, mate = some m → m < w2.pets.length := fun m hm => by rw [e1]; exact Nat.lt_succ_of_lt (hma m hm)
      obtain ⟨i1, i2, i3, i4, i5⟩ := ih w2 hmo2 hma2 hr2
      refine ⟨by rw [i1, e1]; omega, ?_, i3.trans e3, ?_, ?_⟩
      · rw [i2, e2, e1, List.range'_succ]
        simp
      · intro q b hb
        rw [i4 q _ (e4 q b hb)]
        congr 1
        simp only [Bun.mk.injEq, true_and, and_true]
        split_ifs <;> omega
      · intro q hq1 hq2
        by_cases hq : q = w.pets.length
        · obtain ⟨m, hm⟩ := e5
          refine ⟨m, ?_⟩
          rw [hq, i4 _ _ hm]
          have n1 : ¬ w.pets.length = mother := fun e => absurd hmo (by rw [e]; exact Nat.lt_irrefl _)
          have n2 : ¬ mate = some w.pets.length := fun e => absurd (hma _ e) (Nat.lt_irrefl _)
          simp [n1, n2, Bun.new]
        · refine i5 q ?_ ?_
          · rw [e1]
            exact Nat.lt_of_le_of_ne hq1 (fun e => hq e.symm)
          · rw [e1]
            have : w.pets.length + 1 + n = w.pets.length + (n + 1) := by omega
            rw [this]
            exact hq2
    have old : ∀ q b, w.bun? q = some b → (w.addChild mother mate now).bun? q = some b := by
      intro q b hb
      rw [bun?_addChild, if_neg (Nat.ne_of_lt (bun?_lt hb)), hb]
    have new : (w.addChild mother mate now).bun? w.pets.length = some (Bun.new (w.sex w.used)) := by
      rw [bun?_addChild, if_pos rfl]
    have n1 : ¬ w.pets.length = mother := fun e => absurd hmo (by rw [e]; exact Nat.lt_irrefl _)
    unfold births at hr ⊢
    cases mate with
    | none =>
      refine main _ (by rw [upd_length, addChild_length]) rfl rfl ?_ ⟨w.sex w.used, ?_⟩ hr
      · intro q b hb
        rw [bun?_upd, old q b hb]
        by_cases h : q = mother <;> simp [h]
      · rw [bun?_upd, if_neg n1, new]
    | some m =>
      simp only at hr ⊢
      split at hr
      · rename_i hmem
        rw [if_pos hmem]
        have n2 : ¬ w.pets.length = m := fun e => absurd (hma m rfl) (by rw [e]; exact Nat.lt_irrefl _)
        have same : ∀ q, ({ w.addChild mother (some m) now with
            edges := (w.addChild mother (some m) now).edges ++ [(w.pets.length, m)] } : Colony).bun? q = (w.addChild mother (some m) now).bun? q :=
          fun _ => rfl
        refine main _ (by rw [upd_length, upd_length]; exact addChild_length w mother (some m) now) rfl rfl ?_ ⟨w.sex w.used, ?_⟩ hr
        · intro q b hb
          rw [bun?_upd, bun?_upd, same, old q b hb]
          by_cases h1 : q = mother
          · by_cases h2 : q = m
            · subst h1; subst h2; simp
            · have h2' : ¬ m = q := fun e => h2 e.symm
              have h3 : ¬ (some m = some q) := fun e => h2' (Option.some.inj e)
              rw [if_pos h1, if_neg h2, if_pos h1, if_neg h3]
              rfl
          · by_cases h2 : q = m
            · subst h2; simp [h1]
            · have h2' : ¬ m = q := fun e => h2 e.symm
              simp [h1, h2, h2']
        · rw [bun?_upd, if_neg n1, bun?_upd, if_neg n2, same, new]
      · simp at hr

end Colony

/-! ### The set of agents -/

theorem applyOps_removes_agents (s : Sched) (rs : List Ref) : (s.applyOps (rs.map SOp.remove)).agents = s.agents.diff rs := by
  induction rs generalizing s with
  | nil => rfl
  | cons r rs ih => rw [List.map_cons, applyOps_cons, ih, List.diff_cons]; rfl

theorem applyOp_add_agents (s : Sched) (r : Ref) :
    (s.applyOp (.add r none)).agents = if r ∈ s.agents then s.agents else s.agents ++ [r] := rfl

theorem applyOps_adds_agents (s : Sched) (rs : List Ref) (q : Ref) :
    q ∈ (s.applyOps (rs.map (fun r => SOp.add r none))).agents ↔ q ∈ s.agents ∨ q ∈ rs := by
  induction rs generalizing s with
  | nil => simp [Sched.applyOps]
  | cons r rs ih =>
    rw [List.map_cons, applyOps_cons, ih]
    have : q ∈ (s.applyOp (.add r none)).agents ↔ q ∈ s.agents ∨ q = r := by
      rw [applyOp_add_agents]
      by_cases h : r ∈ s.agents
      · rw [if_pos h]
        constructor
        · exact .inl
        · rintro (h' | rfl)
          · exact h'
          · exact h
      · rw [if_neg h]
        simp
    rw [this, List.mem_cons]
    tauto

theorem applyOps_adds_nodup (s : Sched) (rs : List Ref) (h : s.agents.Nodup) : (s.applyOps (rs.map (fun r => SOp.add r none))).agents.Nodup := by
  induction rs generalizing s with
  | nil => exact h
  | cons r rs ih =>
    rw [List.map_cons, applyOps_cons]
    refine ih _ ?_
    rw [applyOp_add_agents]
    by_cases hr : r ∈ s.agents
    · rw [if_pos hr]
      exact h
    · rw [if_neg hr]
      exact List.Nodup.append h (by simp) (by simpa using hr)

end Verif
