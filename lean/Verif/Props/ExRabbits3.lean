import Verif.Proofs.ExRabbits3
import Verif.Props.ExRabbits2
import Verif.Props.ExRabbits
import Verif.Props.IterAgents

/-!
# The improved rabbits: matings, litters, the network, accidents (C209-C211)
-/

namespace Verif
open Spec

/-- The mother in a note about a birth. -/
def RabNote.mother? : RabNote → Option Ref
  | .born _ m _ _ => some m
  | _ => none

/-- The father in a note about a birth. -/
def RabNote.father? : RabNote → Option Ref
  | .born _ _ f _ => f
  | _ => none

/-- The note is about a child of `m` that was born at `t`. -/
def RabNote.bornOf (m : Ref) (t : Rat) : RabNote → Bool
  | .born _ m' _ t' => decide (m' = m ∧ t' = t)
  | _ => false

/-- How often `q` became a mother or a father. -/
def childrenOf (notes : List RabNote) (q : Ref) : Nat := (notes.filterMap RabNote.mother?).count q + (notes.filterMap RabNote.father?).count q

/-- The invariant about matings and births. -/
structure NoteInv (C : RabCode) (draw : Nat → Rat) (log : List Ev) (w : Colony) : Prop where
  drawn : w.draw = draw
  conc : ∀ q b c, w.bun? q = some b → b.conception = some c →
    b.male = false ∧ (∃ m, RabNote.mated q m c ∈ w.notes) ∧ ∃ x, b.babies = litterSize (draw x)
  mate : ∀ q b m, w.bun? q = some b → b.mate = some m → ∃ c, b.conception = some c ∧ RabNote.mated q m c ∈ w.notes
  mated : ∀ f m t, RabNote.mated f m t ∈ w.notes → ∃ bf bm tf tm, w.bun? f = some bf ∧ bf.male = false ∧ bf.birth = some tf ∧
    tf + C.maturity ≤ t ∧ t ≤ tf + (max C.life C.maturity + 1) ∧ w.bun? m = some bm ∧ bm.male = true ∧ bm.birth = some tm ∧
    tm + (C.maturity + 1) ≤ t ∧ t ≤ tm + C.life
  litter : ∀ m t, RabNote.litter m t ∈ w.notes → (∃ f c, RabNote.mated m f c ∈ w.notes ∧ c + C.gestation ≤ t) ∧
    (∃ rep, Ev.act m (.fin t) rep ∈ log) ∧ ∃ x, w.notes.countP (RabNote.bornOf m t) = litterSize (draw x)
  born : ∀ ch mo fa t, RabNote.born ch mo fa t ∈ w.notes → RabNote.litter mo t ∈ w.notes ∧ Ev.added ch (.fin t) ∈ log ∧
    ∀ m, fa = some m → ∃ c, RabNote.mated mo m c ∈ w.notes ∧ c + C.gestation ≤ t
  off : ∀ q b, w.bun? q = some b → b.offspring = childrenOf w.notes q

/-- The same rabbits, which may differ in `state` and `alive`, and in `birth` if it was not set. -/
def Colony.Alike (w w' : Colony) : Prop := ∀ q, (w.bun? q = none ∧ w'.bun? q = none) ∨
  ∃ b b', w.bun? q = some b ∧ w'.bun? q = some b' ∧ b'.male = b.male ∧ b'.conception = b.conception ∧ b'.mate = b.mate ∧ b'.babies = b.babies ∧
    b'.offspring = b.offspring ∧ ∀ t, b.birth = some t → b'.birth = some t

theorem Colony.Alike.back {w w' : Colony} (h : w.Alike w') {q : Ref} {b' : Bun} (hb : w'.bun? q = some b') :
    ∃ b, w.bun? q = some b ∧ b'.male = b.male ∧ b'.conception = b.conception ∧ b'.mate = b.mate ∧ b'.babies = b.babies ∧ b'.offspring = b.offspring := by
  rcases h q with ⟨_, h2⟩ | ⟨b, b2, h1, h2, e1, e2, e3, e4, e5, _⟩
  · rw [h2] at hb; cases hb
  · rw [h2] at hb; cases hb; exact ⟨b, h1, e1, e2, e3, e4, e5⟩

theorem Colony.Alike.forth {w w' : Colony} (h : w.Alike w') {q : Ref} {b : Bun} (hb : w.bun? q = some b) :
    ∃ b', w'.bun? q = some b' ∧ b'.male = b.male ∧ ∀ t, b.birth = some t → b'.birth = some t := by
  rcases h q with ⟨h1, _⟩ | ⟨b2, b', h1, h2, e1, _, _, _, _, e6⟩
  · rw [h1] at hb; cases hb
  · rw [h1] at hb; cases hb; exact ⟨b', h2, e1, e6⟩

theorem NoteInv.alike {C : RabCode} {draw : Nat → Rat} {log log' : List Ev} {w w' : Colony} (h : NoteInv C draw log w) (ha : w.Alike w')
    (hn : w'.notes = w.notes) (hd : w'.draw = w.draw) (hl : ∀ e ∈ log, e ∈ log') : NoteInv C draw log' w' where
  drawn := hd.trans h.drawn
  conc q b c hb hc := by
    obtain ⟨b0, h1, e1, e2, _, e4, _⟩ := ha.back hb
    rw [e1, hn, e4]
    exact h.conc q b0 c h1 (by rw [← e2]; exact hc)
  mate q b m hb hm := by
    obtain ⟨b0, h1, e1, e2, e3, e4, _⟩ := ha.back hb
    rw [e2, hn]
    exact h.mate q b0 m h1 (by rw [← e3]; exact hm)
  mated f m t hm := by
    rw [hn] at hm
    obtain ⟨bf, bm, tf, tm, f1, f2, f3, f4, f5, m1, m2, m3, m4, m5⟩ := h.mated f m t hm
    obtain ⟨bf', g1, g2, g3⟩ := ha.forth f1
    obtain ⟨bm', k1, k2, k3⟩ := ha.forth m1
    exact ⟨bf', bm', tf, tm, g1, g2.trans f2, g3 tf f3, f4, f5, k1, k2.trans m2, k3 tm m3, m4, m5⟩
  litter m t hm := by
    rw [hn] at hm ⊢
    obtain ⟨h1, ⟨rep, h2⟩, h3⟩ := h.litter m t hm
    exact ⟨h1, ⟨rep, hl _ h2⟩, h3⟩
  born ch mo fa t hb := by
    rw [hn] at hb ⊢
    obtain ⟨h1, h2, h3⟩ := h.born ch mo fa t hb
    exact ⟨h1, hl _ h2, h3⟩
  off q b hb := by
    obtain ⟨b0, h1, _, _, _, _, e5⟩ := ha.back hb
    rw [e5, hn]
    exact h.off q b0 h1

theorem Colony.Alike.upd (w : Colony) (r : Ref) (f : Bun → Bun)
    (hf : ∀ b, w.bun? r = some b → (f b).male = b.male ∧ (f b).conception = b.conception ∧ (f b).mate = b.mate ∧ (f b).babies = b.babies ∧
      (f b).offspring = b.offspring ∧ ∀ t, b.birth = some t → (f b).birth = some t) : w.Alike (w.upd r f) := by
  intro q
  rw [Colony.bun?_upd]
  by_cases hq : q = r
  · rw [if_pos hq]
    cases hb : w.bun? q with
    | none => exact .inl ⟨rfl, rfl⟩
    | some b =>
      obtain ⟨e1, e2, e3, e4, e5, e6⟩ := hf b (hq ▸ hb)
      exact .inr ⟨b, f b, rfl, rfl, e1, e2, e3, e4, e5, e6⟩
  · rw [if_neg hq]
    cases hb : w.bun? q with
    | none => exact .inl ⟨rfl, rfl⟩
    | some b => exact .inr ⟨b, b, rfl, rfl, rfl, rfl, rfl, rfl, rfl, fun _ h => h⟩

theorem Colony.Struck.alike {w w' : Colony} (h : w.Struck w') : w.Alike w' := by
  intro q
  cases hb : w.bun? q with
  | none => exact .inl ⟨rfl, h.2.2.1 q hb⟩
  | some b =>
    rcases h.2.2.2 q b hb with e | e
    · exact .inr ⟨b, _, rfl, e, rfl, rfl, rfl, rfl, rfl, fun _ h => h⟩
    · exact .inr ⟨b, _, rfl, e, rfl, rfl, rfl, rfl, rfl, fun _ h => h⟩

theorem Colony.Alike.trans {a b c : Colony} (h1 : a.Alike b) (h2 : b.Alike c) : a.Alike c := by
  intro q
  rcases h1 q with ⟨e1, e2⟩ | ⟨b1, b2, e1, e2, p1, p2, p3, p4, p5, p6⟩
  · rcases h2 q with ⟨_, e3⟩ | ⟨b3, _, e3, _⟩
    · exact .inl ⟨e1, e3⟩
    · rw [e2] at e3; cases e3
  · rcases h2 q with ⟨e3, _⟩ | ⟨b3, b4, e3, e4, q1, q2, q3, q4, q5, q6⟩
    · rw [e2] at e3; cases e3
    · rw [e2] at e3; cases e3
      exact .inr ⟨b1, b4, e1, e4, q1.trans p1, q2.trans p2, q3.trans p3, q4.trans p4, q5.trans p5, fun t ht => q6 t (p6 t ht)⟩

theorem rabAge_lt {M : Rat} (hM : 0 < M) {i j : Nat} (hij : i < j) : rabAge M i < rabAge M j := by
  cases j with
  | zero => omega
  | succ j =>
    cases i with
    | zero =>
      simp only [rabAge]
      have : (0 : Rat) ≤ j := Nat.cast_nonneg j
      linarith
    | succ i =>
      simp only [rabAge]
      have : (i : Rat) < j := Nat.cast_lt.2 (by omega)
      linarith

theorem childrenOf_append (a b : List RabNote) (q : Ref) : childrenOf (a ++ b) q = childrenOf a q + childrenOf b q := by
  unfold childrenOf
  rw [List.filterMap_append, List.filterMap_append, List.count_append, List.count_append]
  omega

theorem childrenOf_litter (mother : Ref) (mate : Option Ref) (now : Rat) (l : List Nat) (q : Ref) :
    childrenOf (l.map (fun c => RabNote.born c mother mate now)) q =
      (if q = mother then l.length else 0) + (if mate = some q then l.length else 0) := by
  unfold childrenOf
  have e1 : (l.map (fun c => RabNote.born c mother mate now)).filterMap RabNote.mother? = List.replicate l.length mother := by
    induction l with
    | nil => rfl
    | cons c l ih => simp only [List.map_cons, List.filterMap_cons, RabNote.mother?, ih, List.length_cons, List.replicate_succ]
  have e2 : (l.map (fun c => RabNote.born c mother mate now)).filterMap RabNote.father? =
      mate.elim [] (fun m => List.replicate l.length m) := by
    clear e1
    induction l with
    | nil => cases mate <;> rfl
    | cons c l ih =>
      cases mate with
      | none => simpa [RabNote.father?] using ih
      | some m =>
        simp only [Option.elim] at ih ⊢
        simp only [List.map_cons, List.filterMap_cons, RabNote.father?, List.length_cons, List.replicate_succ]
        rw [← ih]
  rw [e1, e2, List.count_replicate]
  congr 1
  · by_cases h : q = mother
    · simp [h]
    · have : ¬ mother = q := fun e => h e.symm
      simp [h, this]
  · cases mate with
    | none => simp
    | some m => simp [List.count_replicate]

theorem countP_litter (mother : Ref) (mate : Option Ref) (now : Rat) (l : List Nat) (m : Ref) (t : Rat) :
    (l.map (fun c => RabNote.born c mother mate now)).countP (RabNote.bornOf m t) = if mother = m ∧ now = t then l.length else 0 := by
  induction l with
  | nil => simp
  | cons c l ih =>
    rw [List.map_cons, List.countP_cons, ih]
    by_cases h : mother = m ∧ now = t <;> simp [RabNote.bornOf, h]

/-- Everything together. -/
structure RabInv (C : RabCode) (draw : Nat → Rat) (s : Sched) (w : Colony) : Prop where
  life : LifeInv C s w
  net : w.Net
  among : Colony.Among s.agents w
  notes : NoteInv C draw s.log w

theorem RabInv.keeps (C : RabCode) (hM : 0 < C.maturity) (draw : Nat → Rat) : KeepsInv (colonyHost C) 1 (RabInv C draw) where
  same s s' w h hl ha ht := ⟨(LifeInv.keeps C hM).same s s' w h.life hl ha ht, h.net, by rw [ha]; exact h.among, by rw [hl]; exact h.notes⟩
  shuffle s l w h := ⟨(LifeInv.keeps C hM).shuffle s l w h.life, h.net.used _, h.among.used _,
    h.notes.alike (Colony.Struck.alike ⟨rfl, rfl, fun _ h => h, fun _ _ h => .inl h⟩) rfl rfl (fun _ h => h)⟩
  act r s w hi h hmem hge hpast hg := by
    have hlife := (LifeInv.keeps C hM).act r s w hi h.life hmem hge hpast hg
    have hdue : s.time ∈ pendingOf (cal 1 s.log) r := mem_pendingOf.2 hmem
    obtain ⟨now, hnow⟩ : ∃ now, s.time = .fin now := by
      cases ht : s.time with
      | fin q => exact ⟨q, rfl⟩
      | inf => exact absurd ht (h.life.fin r _ hdue).2
    have hne : (colonyStep C r s w).1 ≠ .error := by
      intro e
      have hg' : GoodReply (colonyStep C r s w).1 := hg
      rw [e] at hg'
      exact hg'
    have hap := colonyStep_happens C r s w now hnow hne
    have hrest : ∀ (rep : Reply) (ops : List SOp) (w' : Colony), Happens C s.agents w r now ops w' → (Ev.act r (.fin now) rep) ∈
          ((s.applyOps ops).logAct r s.time rep).log → (∀ e ∈ s.log, e ∈ ((s.applyOps ops).logAct r s.time rep).log) →
        w'.Net ∧ Colony.Among ((s.applyOps ops).logAct r s.time rep).agents w' ∧
          NoteInv C draw ((s.applyOps ops).logAct r s.time rep).log w' := by
      intro rep ops w' hw hact hlog
      have hN := h.notes
      have hstate : ∀ (f : Bun → Bun), (∀ b, w.bun? r = some b → (f b).male = b.male ∧ (f b).conception = b.conception ∧ (f b).mate = b.mate ∧
          (f b).babies = b.babies ∧ (f b).offspring = b.offspring ∧ ∀ t, b.birth = some t → (f b).birth = some t) →
          NoteInv C draw ((s.applyOps ops).logAct r s.time rep).log (w.upd r f) :=
        fun f hf => hN.alike (Colony.Alike.upd w r f hf) rfl rfl hlog
      cases hw with
      | idle k =>
        exact ⟨h.net.used k, h.among.used k, hN.alike (Colony.Struck.alike ⟨rfl, rfl, fun _ h => h, fun _ _ h => .inl h⟩) rfl rfl hlog⟩
      | birth b hb ha hs =>
        refine ⟨h.net.upd r _ (fun _ => rfl), h.among.upd r _ (fun _ => rfl), hstate _ ?_⟩
        intro b' hb'
        rw [hb] at hb'
        cases hb'
        have hbt : b.birth = none := by
          obtain ⟨t0, n, _, _, hph⟩ := h.life.life r b hb
          rw [ha, hs] at hph
          generalize b.birth = bt at hph ⊢
          generalize pendingOf (cal 1 s.log) r = pd at hph
          cases hph with
          | newborn => rfl
          | grown k _ hs _ => rcases hs with h | h <;> cases h
        refine ⟨rfl, rfl, rfl, rfl, ?_, fun t ht => by rw [hbt] at ht; cases ht⟩
        -- a newborn has no children
        show 0 = b.offspring
        rw [hN.off r b hb]
        have hmo : r ∉ w.notes.filterMap RabNote.mother? := by
          intro hc
          obtain ⟨nt, h1, h2⟩ := List.mem_filterMap.1 hc
          cases nt with
          | mated => cases h2
          | litter => cases h2
          | born ch mo fa t =>
            cases h2
            obtain ⟨f, c, h3, _⟩ := (hN.litter _ _ (hN.born _ _ _ _ h1).1).1
            obtain ⟨bf, _, tf, _, f1, _, f3, _⟩ := hN.mated _ _ _ h3
            rw [hb] at f1
            cases f1
            rw [hbt] at f3
            cases f3
        have hfa : r ∉ w.notes.filterMap RabNote.father? := by
          intro hc
          obtain ⟨nt, h1, h2⟩ := List.mem_filterMap.1 hc
          cases nt with
          | mated => cases h2
          | litter => cases h2
          | born ch mo fa t =>
            have h2' : fa = some r := h2
            obtain ⟨c, h3, _⟩ := (hN.born _ _ _ _ h1).2.2 r h2'
            obtain ⟨_, bm, _, tm, _, _, _, _, _, m1, _, m3, _⟩ := hN.mated _ _ _ h3
            rw [hb] at m1
            cases m1
            rw [hbt] at m3
            cases m3
        unfold childrenOf
        rw [List.count_eq_zero_of_not_mem hmo, List.count_eq_zero_of_not_mem hfa]
      | turn b st hb ha hs =>
        exact ⟨h.net.upd r _ (fun _ => rfl), h.among.upd r _ (fun _ => rfl), hstate _ (fun b' _ => ⟨rfl, rfl, rfl, rfl, rfl, fun _ h => h⟩)⟩
      | die b hb ha =>
        refine ⟨h.net.kill r, h.among.kill r (by rw [hb]; rfl), ?_⟩
        exact hN.alike (Colony.Struck.kill w r).alike (Colony.kill_notes w r) (Colony.kill_draw w r) hlog
      | dieCarrying b hb ha hs =>
        refine ⟨(h.net.kill r).upd r _ (fun _ => rfl), (h.among.kill r (by rw [hb]; rfl)).upd r _ (fun _ => rfl), ?_⟩
        refine hN.alike ((Colony.Struck.kill w r).alike.trans (Colony.Alike.upd _ r _ (fun b' _ => ⟨rfl, rfl, rfl, rfl, rfl, fun _ h => h⟩))) ?_ ?_ hlog
        · exact Colony.kill_notes w r
        · exact Colony.kill_draw w r
      | alone hb hn =>
        have hbr : w.bun? r = none := by simp [Colony.bun?, hb]
        refine ⟨h.net, ⟨h.among.nodup.erase r, fun q hq => h.among.lt q (List.mem_of_mem_erase hq), ?_⟩, ?_⟩
        · intro q b hq
          have hne : q ≠ r := by
            rintro rfl
            rw [hbr] at hq
            cases hq
          rw [← h.among.mem q b hq]
          exact List.mem_erase_of_ne hne
        · exact hN.alike (Colony.Struck.alike (Colony.Struck.refl w)) rfl rfl hlog
      | strikes hb hn hr =>
        have hst := Colony.Striking.loop C.frozen (w.chance C) ⟨s.agents, w⟩
        have hstr : w.Struck (Pool.iterFor C.frozen Colony.isRabbit none (Colony.strike (w.chance C)) ⟨s.agents, w⟩).pool.st :=
          iterLoop_rel (fun p q => p.st.Struck q.st) (fun _ => Colony.Struck.refl _) (fun _ _ _ => Colony.Struck.trans) _ _ _ _
            (fun r p => Colony.Struck.strike _ r p) _ _ _ _
        have hm : ∀ q, q ∈ (s.applyOps ((s.agents.filter (· ∉ (Pool.iterFor C.frozen Colony.isRabbit none (Colony.strike (w.chance C))
            ⟨s.agents, w⟩).pool.members)).map .remove)).agents ↔
            q ∈ (Pool.iterFor C.frozen Colony.isRabbit none (Colony.strike (w.chance C)) ⟨s.agents, w⟩).pool.members := by
          intro q
          rw [applyOps_removes_agents, h.among.nodup.mem_sdiff_iff]
          simp only [List.mem_filter, decide_eq_true_eq, not_and, not_not]
          exact ⟨fun hq => hq.2 hq.1, fun hq => ⟨hst.sub q hq, fun _ => hq⟩⟩
        have ham := hst.among h.among
        refine ⟨hst.net h.net, ⟨?_, fun q hq => ham.lt q ((hm q).1 hq), fun q b hq => (hm q).trans (ham.mem q b hq)⟩, ?_⟩
        · show (s.applyOps _).agents.Nodup
          rw [applyOps_removes_agents]
          exact h.among.nodup.diff
        · exact hN.alike hstr.alike hstr.2.1 hst.draw hlog
      | mate b bf t f k hb ha hs hm ht hl hf hbf hmf hsf =>
        have hbun : ∀ q, (Colony.impregnate { w with used := k } f r now).bun? q = if q = f then (w.bun? q).map (fun b =>
            { b with mate := some r, conception := some now, babies := litterSize (w.draw k) }) else w.bun? q :=
          fun q => Colony.bun?_impregnate { w with used := k } f r now q
        have hnotes : (Colony.impregnate { w with used := k } f r now).notes = w.notes ++ [.mated f r now] := rfl
        have forth : ∀ q d, w.bun? q = some d → ∃ d', (Colony.impregnate { w with used := k } f r now).bun? q = some d' ∧ d'.male = d.male ∧
            d'.birth = d.birth := by
          intro q d hd
          rw [hbun, hd]
          split
          · exact ⟨_, rfl, rfl, rfl⟩
          · exact ⟨_, rfl, rfl, rfl⟩
        -- the ages
        have hmale : ∃ tm, b.birth = some tm ∧ tm + (C.maturity + 1) ≤ now ∧ now ≤ tm + C.life := by
          refine ⟨t, ht, ?_, by linarith⟩
          obtain ⟨t0, n, _, _, hph⟩ := h.life.life r b hb
          rw [ha, hs, ht] at hph
          rw [hnow] at hdue
          generalize pendingOf (cal 1 s.log) r = pd at hph hdue
          cases hph with
          | grown j _ _ _ =>
            rw [List.mem_singleton] at hdue
            have := Time.fin.inj hdue
            rw [this]
            simp only [rabAge]
            push_cast
            have hj : (0 : Rat) ≤ j := Nat.cast_nonneg j
            linarith
        have hfem : ∃ tf, bf.birth = some tf ∧ tf + C.maturity ≤ now ∧ now ≤ tf + (max C.life C.maturity + 1) := by
          have hal : bf.alive = true := (h.among.mem f bf hbf).1 hf
          obtain ⟨t0, n, _, hacts, hph⟩ := h.life.life f bf hbf
          rw [hal, hsf] at hph
          have hpd : ∀ u, u ∈ pendingOf (cal 1 s.log) f → Time.fin now ≤ u := by
            intro u hu
            rw [← hnow]
            exact hge _ (mem_pendingOf.1 hu)
          have hac : ∀ j, j < n → t0 + rabAge C.maturity j ≤ now := by
            intro j hj
            have hmm : Time.fin (t0 + rabAge C.maturity j) ∈ (actsOf f s.log).map (·.1) := by
              rw [hacts]
              exact List.mem_map.2 ⟨j, List.mem_range.2 hj, rfl⟩
            obtain ⟨⟨u, rep⟩, h1, h2⟩ := List.mem_map.1 hmm
            simp only at h2
            subst h2
            have := hpast _ (mem_actsOf.1 h1)
            rw [hnow] at this
            exact Time.fin_le.1 this
          generalize bf.birth = bt at hph ⊢
          generalize pendingOf (cal 1 s.log) f = pd at hph hpd
          cases hph with
          | grown j _ _ hage =>
            refine ⟨t0, rfl, ?_, ?_⟩
            · have := hac (j + 1) (by omega)
              simp only [rabAge] at this
              have hj : (0 : Rat) ≤ j := Nat.cast_nonneg j
              linarith
            · have := Time.fin_le.1 (hpd _ (List.mem_singleton.2 rfl))
              rw [rabAge_succ] at this
              linarith
        have hn1 := (h.net.used k).upd f (fun b => { b with mate := some r, conception := some now, babies := litterSize (w.draw k) }) (fun _ => rfl)
        have ha1 := (h.among.used k).upd f (fun b => { b with mate := some r, conception := some now, babies := litterSize (w.draw k) }) (fun _ => rfl)
        refine ⟨⟨hn1.nodup, hn1.node, hn1.edge⟩, ⟨ha1.nodup, ha1.lt, ha1.mem⟩, ?_⟩
        refine ⟨hN.drawn, ?_, ?_, ?_, ?_, ?_, ?_⟩
        · intro q d c hd hc
          rw [hbun] at hd
          rw [hnotes]
          split at hd
          · rename_i hq
            subst hq
            rw [hbf] at hd
            cases hd
            cases hc
            exact ⟨hmf, ⟨r, by simp⟩, k, by rw [← hN.drawn]⟩
          · obtain ⟨h1, ⟨m, h2⟩, h3⟩ := hN.conc q d c hd hc
            exact ⟨h1, ⟨m, List.mem_append_left _ h2⟩, h3⟩
        · intro q d m hd hm'
          rw [hbun] at hd
          rw [hnotes]
          split at hd
          · rename_i hq
            subst hq
            rw [hbf] at hd
            cases hd
            cases hm'
            exact ⟨now, rfl, by simp⟩
          · obtain ⟨c, h1, h2⟩ := hN.mate q d m hd hm'
            exact ⟨c, h1, List.mem_append_left _ h2⟩
        · intro f' m' t' hmm
          rw [hnotes, List.mem_append, List.mem_singleton] at hmm
          rcases hmm with hmm | hmm
          · obtain ⟨df, dm, tf, tm, f1, f2, f3, f4, f5, m1, m2, m3, m4, m5⟩ := hN.mated f' m' t' hmm
            obtain ⟨df', g1, g2, g3⟩ := forth f' df f1
            obtain ⟨dm', k1, k2, k3⟩ := forth m' dm m1
            exact ⟨df', dm', tf, tm, g1, g2.trans f2, g3.trans f3, f4, f5, k1, k2.trans m2, k3.trans m3, m4, m5⟩
          · cases hmm
            obtain ⟨tm, m1, m2, m3⟩ := hmale
            obtain ⟨tf, f1, f2, f3⟩ := hfem
            obtain ⟨df', g1, g2, g3⟩ := forth _ bf hbf
            obtain ⟨dm', k1, k2, k3⟩ := forth _ b hb
            exact ⟨df', dm', tf, tm, g1, g2.trans hmf, g3.trans f1, f2, f3, k1, k2.trans hm, k3.trans m1, m2, m3⟩
        · intro m' t' hl'
          rw [hnotes] at hl' ⊢
          have hl2 : RabNote.litter m' t' ∈ w.notes := by simpa using hl'
          obtain ⟨⟨x, c, h1, h2⟩, ⟨rep', h3⟩, y, h4⟩ := hN.litter m' t' hl2
          refine ⟨⟨x, c, List.mem_append_left _ h1, h2⟩, ⟨rep', hlog _ h3⟩, y, ?_⟩
          rw [List.countP_append, h4]
          rfl
        · intro ch mo fa t' hb'
          rw [hnotes] at hb' ⊢
          have hb2 : RabNote.born ch mo fa t' ∈ w.notes := by simpa using hb'
          obtain ⟨h1, h2, h3⟩ := hN.born ch mo fa t' hb2
          refine ⟨List.mem_append_left _ h1, hlog _ h2, fun m' hm' => ?_⟩
          obtain ⟨c, h4, h5⟩ := h3 m' hm'
          exact ⟨c, List.mem_append_left _ h4, h5⟩
        · intro q d hd
          rw [hnotes, childrenOf_append]
          have e0 : childrenOf [RabNote.mated f r now] q = 0 := rfl
          rw [e0, Nat.add_zero]
          rw [hbun] at hd
          split at hd
          · cases hq' : w.bun? q with
            | none => rw [hq'] at hd; cases hd
            | some d0 =>
              rw [hq'] at hd
              cases hd
              exact hN.off q d0 hq'
          · exact hN.off q d hd
      | litter b c hb ha hs hc hges hr =>
        have hrl : r < w.pets.length := Colony.bun?_lt hb
        have hml : ∀ m, b.mate = some m → m < w.pets.length := by
          intro m hm
          obtain ⟨c', _, h2⟩ := hN.mate r b m hb hm
          obtain ⟨_, bm, _, _, _, _, _, _, _, m1, _⟩ := hN.mated _ _ _ h2
          exact Colony.bun?_lt m1
        obtain ⟨b1, b2, b3, b4, b5⟩ := Colony.births_full r b.mate now b.babies { w with notes := w.notes ++ [.litter r now] } hrl hml hr
        have b6 := (Colony.births_spec r b.mate now b.babies { w with notes := w.notes ++ [.litter r now] }).2.2.2
        have hnet : (Colony.births r b.mate now b.babies { w with notes := w.notes ++ [.litter r now] }).1.Net :=
          Colony.births_net r b.mate now b.babies { w with notes := w.notes ++ [.litter r now] } ⟨h.net.nodup, h.net.node, h.net.edge⟩
            ((h.net.node r).2 ⟨b, hb, ha⟩)
        generalize (Colony.births r b.mate now b.babies { w with notes := w.notes ++ [.litter r now] }).1 = w1 at b1 b2 b3 b4 b5 b6 hnet hact hlog ⊢
        have b1' : w1.pets.length = w.pets.length + b.babies := b1
        have b2' : w1.notes = w.notes ++ [.litter r now] ++ (List.range' w.pets.length b.babies).map (fun c => .born c r b.mate now) := b2
        have b4' : ∀ q d, w.bun? q = some d → w1.bun? q =
          some { d with offspring := d.offspring + (if q = r then b.babies else 0) + (if b.mate = some q then b.babies else 0) } := b4
        have b5' : ∀ q, w.pets.length ≤ q → q < w.pets.length + b.babies → ∃ m, w1.bun? q = some (Bun.new m) := b5
        have b6' : ∀ q, q < w.pets.length → w.bun? q = none → w1.bun? q = none := b6
        have b3' : w1.draw = w.draw := b3
        clear b1 b2 b3 b4 b5 b6
        -- where a rabbit comes from
        have back : ∀ q d', (w1.upd r (fun b => { b with mate := none, state := .fertile })).bun? q = some d' →
            (∃ d, w.bun? q = some d ∧ d'.male = d.male ∧ d'.conception = d.conception ∧ d'.babies = d.babies ∧ d'.alive = d.alive ∧
              (d'.mate = none ∨ d'.mate = d.mate) ∧
              d'.offspring = d.offspring + (if q = r then b.babies else 0) + (if b.mate = some q then b.babies else 0)) ∨
            (w.pets.length ≤ q ∧ q < w.pets.length + b.babies ∧ ∃ m, d' = Bun.new m) := by
          intro q d' hd'
          rw [Colony.bun?_upd] at hd'
          by_cases hlt : q < w.pets.length
          · cases hd : w.bun? q with
            | none =>
              rw [b6' q hlt hd] at hd'
              split at hd' <;> cases hd'
            | some d =>
              rw [b4' q d hd] at hd'
              split at hd'
              · rename_i hq
                cases hd'
                exact .inl ⟨d, rfl, rfl, rfl, rfl, rfl, .inl rfl, by rw [if_pos hq]⟩
              · rename_i hq
                cases hd'
                exact .inl ⟨d, rfl, rfl, rfl, rfl, rfl, .inr rfl, by rw [if_neg hq]⟩
          · have hle : w.pets.length ≤ q := Nat.le_of_not_lt hlt
            have hqr : ¬ q = r := fun e => hlt (e ▸ hrl)
            rw [if_neg hqr] at hd'
            have hq2 : q < w.pets.length + b.babies := by rw [← b1']; exact Colony.bun?_lt hd'
            obtain ⟨m, hm⟩ := b5' q hle hq2
            rw [hm] at hd'
            cases hd'
            exact .inr ⟨hle, hq2, m, rfl⟩
        have forth : ∀ q d, w.bun? q = some d → ∃ d', (w1.upd r (fun b => { b with mate := none, state := .fertile })).bun? q = some d' ∧
            d'.male = d.male ∧ d'.birth = d.birth := by
          intro q d hd
          rw [Colony.bun?_upd, b4' q d hd]
          split
          · exact ⟨_, rfl, rfl, rfl⟩
          · exact ⟨_, rfl, rfl, rfl⟩
        have hnotes : (w1.upd r (fun b => { b with mate := none, state := .fertile })).notes =
            w.notes ++ [.litter r now] ++ (List.range' w.pets.length b.babies).map (fun c => .born c r b.mate now) := b2'
        -- she had no litter at this time
        have hno : RabNote.litter r now ∉ w.notes := by
          intro hc'
          obtain ⟨_, ⟨rep', h1⟩, _⟩ := hN.litter r now hc'
          obtain ⟨t0, n, _, h2, hph⟩ := h.life.life r b hb
          have h3 : Time.fin now ∈ (actsOf r s.log).map (·.1) := List.mem_map.2 ⟨_, mem_actsOf.2 h1, rfl⟩
          rw [h2] at h3
          obtain ⟨j, hj, hj2⟩ := List.mem_map.1 h3
          rw [hnow] at hdue
          rcases hph.pend with e | e
          · rw [e] at hdue; cases hdue
          · rw [e, List.mem_singleton] at hdue
            have e1 := Time.fin.inj hdue
            have e2 := Time.fin.inj hj2
            have := rabAge_lt hM (List.mem_range.1 hj)
            linarith
        have hnoborn : ∀ ch fa, RabNote.born ch r fa now ∉ w.notes := fun ch fa hc' => hno (hN.born _ _ _ _ hc').1
        obtain ⟨hfemale, ⟨m0, hm0⟩, x0, hx0⟩ := hN.conc r b c hb hc
        have hgc : c + C.gestation ≤ now := by linarith
        have hsub : ∀ nt, nt ∈ w.notes → nt ∈ w.notes ++ [.litter r now] ++ (List.range' w.pets.length b.babies).map (fun c => RabNote.born c r b.mate now) :=
          fun nt hn => List.mem_append_left _ (List.mem_append_left _ hn)
        refine ⟨hnet.upd r _ (fun _ => rfl), ⟨?_, ?_, ?_⟩, ?_⟩
        · show (s.applyOps (Colony.added w w1)).agents.Nodup
          rw [added_eq]
          exact applyOps_adds_nodup s _ h.among.nodup
        · intro q hq
          have hq' : q ∈ (s.applyOps (Colony.added w w1)).agents := hq
          rw [added_eq, applyOps_adds_agents, mem_freshRefs] at hq'
          rw [Colony.upd_length]
          rcases hq' with hq' | hq'
          · rw [b1']
            exact Nat.lt_of_lt_of_le (h.among.lt q hq') (Nat.le_add_right _ _)
          · exact hq'.2
        · intro q d' hd'
          show q ∈ (s.applyOps (Colony.added w w1)).agents ↔ _
          rw [added_eq, applyOps_adds_agents, mem_freshRefs, b1']
          rcases back q d' hd' with ⟨d, h1, _, _, _, e4, _⟩ | ⟨h1, h2, m, rfl⟩
          · rw [e4, ← h.among.mem q d h1]
            have hlt := Colony.bun?_lt h1
            constructor
            · rintro (h' | h')
              · exact h'
              · exact absurd hlt (Nat.not_lt.2 h'.1)
            · exact .inl
          · simp only [Bun.new]
            exact ⟨fun _ => trivial, fun _ => .inr ⟨h1, h2⟩⟩
        · refine ⟨b3'.trans hN.drawn, ?_, ?_, ?_, ?_, ?_, ?_⟩
          · intro q d' c' hd' hc'
            rw [hnotes]
            rcases back q d' hd' with ⟨d, h1, e1, e2, e3, _⟩ | ⟨_, _, m, rfl⟩
            · obtain ⟨h2, ⟨m, h3⟩, h4⟩ := hN.conc q d c' h1 (by rw [← e2]; exact hc')
              exact ⟨e1.trans h2, ⟨m, hsub _ h3⟩, by rw [e3]; exact h4⟩
            · cases hc'
          · intro q d' m hd' hm
            rw [hnotes]
            rcases back q d' hd' with ⟨d, h1, e1, e2, e3, _, e5, _⟩ | ⟨_, _, m', rfl⟩
            · rcases e5 with e5 | e5
              · rw [e5] at hm; cases hm
              · obtain ⟨c', h2, h3⟩ := hN.mate q d m h1 (by rw [← e5]; exact hm)
                exact ⟨c', e2.trans h2, hsub _ h3⟩
            · cases hm
          · intro f m t hmm
            rw [hnotes] at hmm
            have hmm' : RabNote.mated f m t ∈ w.notes := by simpa using hmm
            obtain ⟨df, dm, tf, tm, f1, f2, f3, f4, f5, m1, m2, m3, m4, m5⟩ := hN.mated f m t hmm'
            obtain ⟨df', g1, g2, g3⟩ := forth f df f1
            obtain ⟨dm', k1, k2, k3⟩ := forth m dm m1
            exact ⟨df', dm', tf, tm, g1, g2.trans f2, g3.trans f3, f4, f5, k1, k2.trans m2, k3.trans m3, m4, m5⟩
          · intro m t hl
            rw [hnotes] at hl ⊢
            have hl' : RabNote.litter m t ∈ w.notes ∨ (m = r ∧ t = now) := by simpa using hl
            have hone : [RabNote.litter r now].countP (RabNote.bornOf m t) = 0 := rfl
            rw [List.countP_append, List.countP_append, countP_litter, List.length_range', hone, Nat.add_zero]
            by_cases hmt : m = r ∧ t = now
            · obtain ⟨rfl, rfl⟩ := hmt
              refine ⟨⟨m0, c, hsub _ hm0, hgc⟩, ⟨rep, hact⟩, x0, ?_⟩
              rw [if_pos ⟨rfl, rfl⟩, hx0]
              have : w.notes.countP (RabNote.bornOf m t) = 0 := by
                rw [List.countP_eq_zero]
                intro nt hnt hcc
                cases nt with
                | mated => cases hcc
                | litter => cases hcc
                | born ch mo fa u =>
                  simp only [RabNote.bornOf, decide_eq_true_eq] at hcc
                  obtain ⟨rfl, rfl⟩ := hcc
                  exact hnoborn ch fa hnt
              rw [this, Nat.zero_add]
            · rcases hl' with hl' | hl'
              · obtain ⟨⟨x, c', h1, h2⟩, ⟨rep', h3⟩, y, h4⟩ := hN.litter m t hl'
                refine ⟨⟨x, c', hsub _ h1, h2⟩, ⟨rep', hlog _ h3⟩, y, ?_⟩
                rw [if_neg (fun hc' => hmt ⟨hc'.1.symm, hc'.2.symm⟩), h4, Nat.add_zero]
              · exact absurd hl' hmt
          · intro ch mo fa t hb'
            rw [hnotes] at hb' ⊢
            have hb2 : RabNote.born ch mo fa t ∈ w.notes ∨
                ∃ q, (w.pets.length ≤ q ∧ q < w.pets.length + b.babies) ∧ q = ch ∧ r = mo ∧ b.mate = fa ∧ now = t := by
              simpa [List.mem_range'_1] using hb'
            rcases hb2 with hb2 | ⟨q, hq, rfl, rfl, rfl, rfl⟩
            · obtain ⟨h1, h2, h3⟩ := hN.born ch mo fa t hb2
              refine ⟨hsub _ h1, hlog _ h2, fun m' hm' => ?_⟩
              obtain ⟨c', h4, h5⟩ := h3 m' hm'
              exact ⟨c', hsub _ h4, h5⟩
            · refine ⟨List.mem_append_left _ (by simp), ?_, fun m' hm' => ?_⟩
              · simp only [Sched.logAct, added_eq, applyOps_adds_log, hnow]
                refine List.mem_append_left _ (List.mem_append_right _ ?_)
                exact List.mem_map.2 ⟨q, mem_freshRefs.2 ⟨hq.1, by rw [b1']; exact hq.2⟩, rfl⟩
              · obtain ⟨c', h1, h2⟩ := hN.mate r b m' hb hm'
                rw [hc] at h1
                cases h1
                exact ⟨c, hsub _ h2, hgc⟩
          · intro q d' hd'
            have e0 : childrenOf [RabNote.litter r now] q = 0 := rfl
            rw [hnotes, childrenOf_append, childrenOf_append, childrenOf_litter, e0, List.length_range', Nat.add_zero]
            rcases back q d' hd' with ⟨d, h1, _, _, _, _, _, e6⟩ | ⟨h1, h2, m, rfl⟩
            · rw [e6, hN.off q d h1]
              omega
            · have n1 : ¬ q = r := fun e => absurd hrl (Nat.not_lt.2 (e ▸ h1))
              have n2 : ¬ b.mate = some q := fun e => absurd (hml q e) (Nat.not_lt.2 h1)
              rw [if_neg n1, if_neg n2]
              have hnb : ∀ d, w.bun? q ≠ some d := fun d hd => absurd (Colony.bun?_lt hd) (Nat.not_lt.2 h1)
              have hmo : q ∉ w.notes.filterMap RabNote.mother? := by
                intro hc'
                obtain ⟨nt, h1, h2⟩ := List.mem_filterMap.1 hc'
                cases nt with
                | mated => cases h2
                | litter => cases h2
                | born ch mo fa t =>
                  cases h2
                  obtain ⟨f, c, h3, _⟩ := (hN.litter _ _ (hN.born _ _ _ _ h1).1).1
                  obtain ⟨bf, _, _, _, f1, _⟩ := hN.mated _ _ _ h3
                  exact hnb _ f1
              have hfa : q ∉ w.notes.filterMap RabNote.father? := by
                intro hc'
                obtain ⟨nt, h1, h2⟩ := List.mem_filterMap.1 hc'
                cases nt with
                | mated => cases h2
                | litter => cases h2
                | born ch mo fa t =>
                  have h2' : fa = some q := h2
                  obtain ⟨c, h3, _⟩ := (hN.born _ _ _ _ h1).2.2 q h2'
                  obtain ⟨_, bm, _, _, _, _, _, _, _, m1, _⟩ := hN.mated _ _ _ h3
                  exact hnb _ m1
              unfold childrenOf
              rw [List.count_eq_zero_of_not_mem hmo, List.count_eq_zero_of_not_mem hfa]
              rfl
    have q1 : Ev.act r (.fin now) (colonyStep C r s w).1 ∈ ((s.applyOps (colonyStep C r s w).2.1).logAct r s.time (colonyStep C r s w).1).log := by
      simp [Sched.logAct, hnow]
    have q2 : ∀ e ∈ s.log, e ∈ ((s.applyOps (colonyStep C r s w).2.1).logAct r s.time (colonyStep C r s w).1).log := by
      intro e he
      obtain ⟨l, hl, _⟩ := applyOps_log s (colonyStep C r s w).2.1
      simp [Sched.logAct, hl, he]
    obtain ⟨r1, r2, r3⟩ := hrest _ _ _ hap q1 q2
    exact ⟨hlife, r1, r2, r3⟩

theorem RabInv.start (C : RabCode) (sh : Bool) (draw : Nat → Rat) (sex : Nat → Bool) : RabInv C draw (colonyStart sh) (Colony.init draw sex) := by
  have two : ∀ q b, (Colony.init draw sex).bun? q = some b → (q = 0 ∧ b = Bun.new true) ∨ (q = 1 ∧ b = Bun.new false) := by
    intro q b hb
    have hlt : q < 3 := Colony.bun?_lt hb
    rcases q with _ | _ | _ | q
    · cases hb; exact .inl ⟨rfl, rfl⟩
    · cases hb; exact .inr ⟨rfl, rfl⟩
    · cases hb
    · exact absurd hlt (by simp)
  refine ⟨LifeInv.start C sh draw sex, ⟨(by decide : [0, 1].Nodup), ?_, ?_⟩, ⟨(by decide : [0, 1, 2].Nodup), ?_, ?_⟩, ⟨rfl, ?_, ?_, ?_, ?_, ?_, ?_⟩⟩
  · intro q
    constructor
    · intro hq
      have hq' : q = 0 ∨ q = 1 := by simpa [Colony.init] using hq
      rcases hq' with rfl | rfl
      · exact ⟨_, rfl, rfl⟩
      · exact ⟨_, rfl, rfl⟩
    · rintro ⟨b, hb, _⟩
      rcases two q b hb with ⟨rfl, _⟩ | ⟨rfl, _⟩ <;> simp [Colony.init]
  · intro e he
    have he' : e = (0, 1) := by simpa [Colony.init] using he
    subst he'
    simp [Colony.init]
  · intro q hq
    have hq' : q = 0 ∨ q = 1 ∨ q = 2 := by
      have : (colonyStart sh).agents = [0, 1, 2] := rfl
      rw [this] at hq
      simpa using hq
    show q < 3
    rcases hq' with rfl | rfl | rfl <;> decide
  · intro q b hb
    have : (colonyStart sh).agents = [0, 1, 2] := rfl
    rw [this]
    rcases two q b hb with ⟨rfl, rfl⟩ | ⟨rfl, rfl⟩ <;> simp [Bun.new]
  · intro q b c hb hc
    rcases two q b hb with ⟨_, rfl⟩ | ⟨_, rfl⟩ <;> cases hc
  · intro q b m hb hm
    rcases two q b hb with ⟨_, rfl⟩ | ⟨_, rfl⟩ <;> cases hm
  · intro f m t h; cases h
  · intro m t h; cases h
  · intro ch mo fa t h; cases h
  · intro q b hb
    rcases two q b hb with ⟨_, rfl⟩ | ⟨_, rfl⟩ <;> rfl

theorem colonyRun_rab {C : RabCode} (hM : 0 < C.maturity) {sh : Bool} {draw : Nat → Rat} {sex : Nat → Bool} {n : Nat}
    (h : NoEscape (colonyRun C sh draw sex n).1.log) : RabInv C draw (colonyRun C sh draw sex n).1 (colonyRun C sh draw sex n).2 := by
  have hg := colonyRun_good hM h
  rw [colonyRun_eq] at hg ⊢
  exact (RabInv.keeps C hM draw).steps (colonyStart_inv sh) rfl (RabInv.start C sh draw sex) n hg

/-- C209: only grown-up rabbits mate. The female was born at least `sexual_maturity` before, and no more than
`max(life_expectancy, sexual_maturity) + 1` before; the male at least `sexual_maturity + 1` and no more than `life_expectancy` before. -/
theorem C209_mating (C : RabCode) (hM : 0 < C.maturity) (sh : Bool) (draw : Nat → Rat) (sex : Nat → Bool) (n : Nat)
    (hne : NoEscape (colonyRun C sh draw sex n).1.log) (f m : Ref) (t : Rat) (h : RabNote.mated f m t ∈ (colonyRun C sh draw sex n).2.notes) :
    ∃ bf bm tf tm, (colonyRun C sh draw sex n).2.bun? f = some bf ∧ bf.male = false ∧ bf.birth = some tf ∧
      tf + C.maturity ≤ t ∧ t ≤ tf + (max C.life C.maturity + 1) ∧
      (colonyRun C sh draw sex n).2.bun? m = some bm ∧ bm.male = true ∧ bm.birth = some tm ∧
      tm + (C.maturity + 1) ≤ t ∧ t ≤ tm + C.life :=
  (colonyRun_rab hM hne).notes.mated f m t h

/-- C209: every litter is born at least `gestation` after a mating of the mother, and has 8 to 11 young. -/
theorem C209_litter (C : RabCode) (hM : 0 < C.maturity) (sh : Bool) (draw : Nat → Rat) (hd : ∀ i, 0 ≤ draw i ∧ draw i < 1) (sex : Nat → Bool) (n : Nat)
    (hne : NoEscape (colonyRun C sh draw sex n).1.log) (m : Ref) (t : Rat) (h : RabNote.litter m t ∈ (colonyRun C sh draw sex n).2.notes) :
    (∃ f c, RabNote.mated m f c ∈ (colonyRun C sh draw sex n).2.notes ∧ c + C.gestation ≤ t) ∧
    8 ≤ (colonyRun C sh draw sex n).2.notes.countP (RabNote.bornOf m t) ∧
    (colonyRun C sh draw sex n).2.notes.countP (RabNote.bornOf m t) ≤ 11 := by
  obtain ⟨h1, _, x, hx⟩ := (colonyRun_rab hM hne).notes.litter m t h
  rw [hx]
  exact ⟨h1, litterSize_bounds _ (hd x).1 (hd x).2⟩

/-- C209: every child is added to the schedule at the time of a litter of its mother; its father, if there is one, mated with her at least
`gestation` before; and `offspring` is the number of children. -/
theorem C209_children (C : RabCode) (hM : 0 < C.maturity) (sh : Bool) (draw : Nat → Rat) (sex : Nat → Bool) (n : Nat)
    (hne : NoEscape (colonyRun C sh draw sex n).1.log) :
    (∀ ch mo fa t, RabNote.born ch mo fa t ∈ (colonyRun C sh draw sex n).2.notes →
      RabNote.litter mo t ∈ (colonyRun C sh draw sex n).2.notes ∧ Ev.added ch (.fin t) ∈ (colonyRun C sh draw sex n).1.log ∧
      ∀ m, fa = some m → ∃ c, RabNote.mated mo m c ∈ (colonyRun C sh draw sex n).2.notes ∧ c + C.gestation ≤ t) ∧
    ∀ q b, (colonyRun C sh draw sex n).2.bun? q = some b → b.offspring = childrenOf (colonyRun C sh draw sex n).2.notes q :=
  ⟨(colonyRun_rab hM hne).notes.born, (colonyRun_rab hM hne).notes.off⟩

/-- C210: the nodes of the network are the living rabbits, each once, its edges are between living rabbits, and the rabbits in the
schedule are the living ones. -/
theorem C210_network (C : RabCode) (hM : 0 < C.maturity) (sh : Bool) (draw : Nat → Rat) (sex : Nat → Bool) (n : Nat)
    (hne : NoEscape (colonyRun C sh draw sex n).1.log) :
    (colonyRun C sh draw sex n).2.nodes.Nodup ∧
    (∀ q, q ∈ (colonyRun C sh draw sex n).2.nodes ↔ ∃ b, (colonyRun C sh draw sex n).2.bun? q = some b ∧ b.alive = true) ∧
    (∀ e ∈ (colonyRun C sh draw sex n).2.edges, e.1 ∈ (colonyRun C sh draw sex n).2.nodes ∧ e.2 ∈ (colonyRun C sh draw sex n).2.nodes) ∧
    (colonyRun C sh draw sex n).1.agents.Nodup ∧
    ∀ q b, (colonyRun C sh draw sex n).2.bun? q = some b → (q ∈ (colonyRun C sh draw sex n).1.agents ↔ b.alive = true) :=
  ⟨(colonyRun_rab hM hne).net.nodup, (colonyRun_rab hM hne).net.node, (colonyRun_rab hM hne).net.edge,
    (colonyRun_rab hM hne).among.nodup, (colonyRun_rab hM hne).among.mem⟩

/-! ### Accidents -/

/-- Rabbits that the accident may kill: those in the schedule that are not in the state `dead`. -/
def Colony.target (w : Colony) (q : Ref) : Bool :=
  match w.bun? q with
  | some b => decide (b.state ≠ .dead)
  | none => false

namespace Colony

theorem target_kill (w : Colony) (r q : Ref) : (w.kill r).target q = w.target q := by
  unfold target
  rw [bun?_kill]
  by_cases h : q = r
  · rw [if_pos h]
    cases w.bun? q <;> rfl
  · rw [if_neg h]

theorem isRabbit_kill (w : Colony) (r q : Ref) : (w.kill r).isRabbit q = w.isRabbit q := by
  unfold isRabbit
  rw [bun?_kill]
  split
  · cases w.bun? q <;> rfl
  · rfl

theorem kill_used (w : Colony) (r : Ref) : (w.kill r).used = w.used := by
  unfold Colony.kill
  split
  · rfl
  · split <;> rfl

theorem strike_spec (p : Rat) (r : Ref) (pool : Pool Colony) :
    strike p r pool = if pool.st.target r then
      (if pool.st.draw pool.st.used < p then (⟨pool.members.erase r, ({ pool.st with used := pool.st.used + 1 } : Colony).kill r⟩, false)
        else ({ pool with st := { pool.st with used := pool.st.used + 1 } }, false))
      else (pool, false) := by
  unfold strike target
  cases pool.st.bun? r with
  | none => rfl
  | some b =>
    simp only
    by_cases hd : b.state = .dead <;> simp [hd]

theorem strike_own (p : Rat) : LoopBody.Own isRabbit (strike p) := by
  intro r pool q _
  rw [strike_spec]
  split
  · split
    · exact isRabbit_kill _ r q
    · rfl
  · rfl

/-- The loop over a list of rabbits. -/
theorem strikes_list (p : Rat) (l vis : List Ref) (pool : Pool Colony) (hn : l.Nodup) :
    let w' := (listLoop (strike p) l vis pool).pool.st
    w'.used = pool.st.used + (l.filter pool.st.target).length ∧ w'.draw = pool.st.draw ∧
    (∀ i q, (l.filter pool.st.target)[i]? = some q → w'.bun? q =
      if pool.st.draw (pool.st.used + i) < p then (pool.st.bun? q).map (fun b => { b with alive := false }) else pool.st.bun? q) ∧
    ∀ q, q ∉ l.filter pool.st.target → w'.bun? q = pool.st.bun? q := by
  induction l generalizing vis pool with
  | nil => simp [listLoop]
  | cons r l ih =>
    have hnd := List.nodup_cons.1 hn
    have hb2 : (strike p r pool).2 = false := by
      rw [strike_spec]
      split
      · split <;> rfl
      · rfl
    have hrec : listLoop (strike p) (r :: l) vis pool = listLoop (strike p) l (vis ++ [r]) (strike p r pool).1 := by
      simp only [listLoop, hb2, Bool.false_eq_true, if_false]
    rw [hrec]
    cases ht : pool.st.target r with
    | false =>
      have e : (strike p r pool).1 = pool := by rw [strike_spec, ht]; rfl
      rw [e, List.filter_cons_of_neg (by simp [ht])]
      exact ih _ _ hnd.2
    | true =>
      rw [List.filter_cons_of_pos ht]
      -- the state after this rabbit
      have hst : (∀ q, (strike p r pool).1.st.target q = pool.st.target q) ∧ (strike p r pool).1.st.used = pool.st.used + 1 ∧
          (strike p r pool).1.st.draw = pool.st.draw ∧ (∀ q, q ≠ r → (strike p r pool).1.st.bun? q = pool.st.bun? q) ∧
          (strike p r pool).1.st.bun? r =
            if pool.st.draw pool.st.used < p then (pool.st.bun? r).map (fun b => { b with alive := false }) else pool.st.bun? r := by
        rw [strike_spec, ht]
        simp only [if_true]
        by_cases hp : pool.st.draw pool.st.used < p
        · rw [if_pos hp, if_pos hp]
          refine ⟨fun q => target_kill _ r q, kill_used _ r, kill_draw _ r, fun q hq => ?_, ?_⟩
          · rw [bun?_kill, if_neg hq]; rfl
          · rw [bun?_kill, if_pos rfl]; rfl
        · rw [if_neg hp, if_neg hp]
          exact ⟨fun _ => rfl, rfl, rfl, fun _ _ => rfl, rfl⟩
      obtain ⟨s1, s2, s3, s4, s5⟩ := hst
      obtain ⟨i1, i2, i3, i4⟩ := ih (vis ++ [r]) (strike p r pool).1 hnd.2
      have hfl : l.filter (strike p r pool).1.st.target = l.filter pool.st.target := List.filter_congr (fun q _ => s1 q)
      rw [hfl] at i1 i3 i4
      have hrl : r ∉ l.filter pool.st.target := fun hc => hnd.1 (List.mem_filter.1 hc).1
      refine ⟨?_, i2.trans s3, ?_, ?_⟩
      · rw [i1, s2, List.length_cons]
        omega
      · intro i q hq
        cases i with
        | zero =>
          have hq' : r = q := by simpa using hq
          subst hq'
          rw [i4 r hrl, s5]
          rfl
        | succ i =>
          have hq' : (l.filter pool.st.target)[i]? = some q := by simpa using hq
          have hne : q ≠ r := fun e => hrl (e ▸ List.mem_of_getElem? hq')
          rw [i3 i q hq', s2, s3, s4 q hne]
          have : pool.st.used + 1 + i = pool.st.used + (i + 1) := by omega
          rw [this]
      · intro q hq
        rw [List.mem_cons, not_or] at hq
        rw [i4 q hq.2, s4 q hq.1]

end Colony

/-- C211 (partial), if agents may be removed while they are iterated: in every activation of `RandomAccident` with living rabbits one number is
drawn for every rabbit in the schedule that is not in the state `dead`, in the order of the schedule, and exactly those whose number
is below `prob_death * floor(log10(number of nodes))` die; nothing else happens to any rabbit, and no exception escapes. -/
theorem C211_exact_partial (C : RabCode) (hf : C.frozen = false) (w : Colony) (r : Ref) (agents : List Ref) (hn : agents.Nodup) (hw : w.nodes ≠ []) :
    let T := agents.filter w.target
    let w' := (w.accidentStep C r agents).2.2
    (w.accidentStep C r agents).1 = .ret none ∧ w'.used = w.used + T.length ∧
    (∀ i q, T[i]? = some q → w'.bun? q =
      if w.draw (w.used + i) < C.death * (Nat.log 10 (max 1 w.nodes.length) : Nat) then (w.bun? q).map (fun b => { b with alive := false })
      else w.bun? q) ∧
    ∀ q, q ∉ T → w'.bun? q = w.bun? q := by
  have hn' : ¬ w.nodes.length = 0 := fun h => hw (List.length_eq_zero_iff.1 h)
  have e := C207_iter_partial C.frozen Colony.isRabbit none (Colony.strike (w.chance C)) (Colony.strike_own _)
    (by rw [hf]; intro h; cases h) ⟨agents, w⟩ hn
  have hb : LoopBody.NoBreak (Colony.strike (w.chance C)) := by
    intro q pool
    rw [Colony.strike_spec]
    split
    · split <;> rfl
    · rfl
  have hg := (C207_get_partial Colony.isRabbit none (Colony.strike (w.chance C)) hb ⟨agents, w⟩ hn).2
  have hl : (Pool.getFor Colony.isRabbit none (Colony.strike (w.chance C)) ⟨agents, w⟩) =
      listLoop (Colony.strike (w.chance C)) (agents.filter w.isRabbit) [] ⟨agents, w⟩ := by
    unfold Pool.getFor
    rw [getAgents_eq _ _ _ hn]
    rfl
  have hT : (agents.filter w.isRabbit).filter w.target = agents.filter w.target := by
    rw [List.filter_filter]
    apply List.filter_congr
    intro q _
    unfold Colony.target Colony.isRabbit
    cases w.bun? q <;> simp
  have hs := Colony.strikes_list (w.chance C) (agents.filter w.isRabbit) [] ⟨agents, w⟩ (hn.filter _)
  simp only [hT] at hs
  rw [← hl] at hs
  unfold Colony.accidentStep
  rw [if_neg hn', e]
  simp only [hg, Bool.false_eq_true, if_false]
  exact ⟨trivial, hs.1, hs.2.2.1, hs.2.2.2⟩

private theorem frozen_loop (p : Rat) (n : Nat) (todo vis : List Ref) (pool : Pool Colony) (hn : todo.Nodup)
    (hs : ∀ q ∈ todo, q ∈ pool.members) (hl : pool.members.length = n) :
    (iterLoop true Colony.isRabbit none (Colony.strike p) n todo vis pool).raised = true ↔
      ∃ i q, (todo.filter pool.st.target)[i]? = some q ∧ pool.st.draw (pool.st.used + i) < p := by
  induction todo generalizing vis pool with
  | nil => simp [iterLoop, more, hl]
  | cons r todo ih =>
    have hnd := List.nodup_cons.1 hn
    have hloop : iterLoop true Colony.isRabbit none (Colony.strike p) n (r :: todo) vis pool =
        if pool.st.isRabbit r then iterLoop true Colony.isRabbit none (Colony.strike p) n todo (vis ++ [r]) (Colony.strike p r pool).1
        else iterLoop true Colony.isRabbit none (Colony.strike p) n todo vis pool := by
      have hb2 : (Colony.strike p r pool).2 = false := by
        rw [Colony.strike_spec]
        split
        · split <;> rfl
        · rfl
      simp [iterLoop, more, hl, hb2]
    rw [hloop]
    cases ht : pool.st.target r with
    | false =>
      have e : (Colony.strike p r pool).1 = pool := by rw [Colony.strike_spec, ht]; rfl
      rw [e, List.filter_cons_of_neg (by simp [ht])]
      split
      · exact ih _ _ hnd.2 (fun q hq => hs q (List.mem_cons_of_mem _ hq)) hl
      · exact ih _ _ hnd.2 (fun q hq => hs q (List.mem_cons_of_mem _ hq)) hl
    | true =>
      have hr : pool.st.isRabbit r = true := by
        unfold Colony.target at ht
        unfold Colony.isRabbit
        cases hb : pool.st.bun? r with
        | none => rw [hb] at ht; cases ht
        | some b => rfl
      rw [if_pos hr, List.filter_cons_of_pos ht]
      by_cases hp : pool.st.draw pool.st.used < p
      · have e : (Colony.strike p r pool).1 = ⟨pool.members.erase r, ({ pool.st with used := pool.st.used + 1 } : Colony).kill r⟩ := by
          rw [Colony.strike_spec, ht, if_pos rfl, if_pos hp]
        have hlen : (Colony.strike p r pool).1.members.length ≠ n := by
          rw [e]
          show (pool.members.erase r).length ≠ n
          have hm : r ∈ pool.members := hs r (by simp)
          have h0 : 0 < pool.members.length := List.length_pos_of_mem hm
          rw [List.length_erase_of_mem hm]
          omega
        have hra : (iterLoop true Colony.isRabbit none (Colony.strike p) n todo (vis ++ [r]) (Colony.strike p r pool).1).raised = true := by
          cases todo with
          | nil => simp [iterLoop, more, hlen]
          | cons q todo => simp [iterLoop, more, hlen]
        exact ⟨fun _ => ⟨0, r, rfl, by simpa using hp⟩, fun _ => hra⟩
      · have e : (Colony.strike p r pool).1 = { pool with st := { pool.st with used := pool.st.used + 1 } } := by
          rw [Colony.strike_spec, ht, if_pos rfl, if_neg hp]
        rw [e, ih (vis ++ [r]) { pool with st := { pool.st with used := pool.st.used + 1 } } hnd.2
          (fun q hq => hs q (List.mem_cons_of_mem _ hq)) hl]
        have hfl : todo.filter ({ pool.st with used := pool.st.used + 1 } : Colony).target = todo.filter pool.st.target := rfl
        show (∃ i q, (todo.filter ({ pool.st with used := pool.st.used + 1 } : Colony).target)[i]? = some q ∧
          pool.st.draw (pool.st.used + 1 + i) < p) ↔ _
        rw [hfl]
        constructor
        · rintro ⟨i, q, h1, h2⟩
          refine ⟨i + 1, q, by simpa using h1, ?_⟩
          have : pool.st.used + (i + 1) = pool.st.used + 1 + i := by omega
          rw [this]
          exact h2
        · rintro ⟨i, q, h1, h2⟩
          cases i with
          | zero => exact absurd h2 hp
          | succ i =>
            refine ⟨i, q, by simpa using h1, ?_⟩
            have : pool.st.used + 1 + i = pool.st.used + (i + 1) := by omega
            rw [this]
            exact h2

/-- C211, violated in the versions of Python for which soil was written: as soon as one rabbit is to die by accident `RuntimeError` escapes
from the step of `RandomAccident`. -/
theorem C211_frozen_false (C : RabCode) (hf : C.frozen = true) (w : Colony) (r : Ref) (agents : List Ref) (hn : agents.Nodup) (hw : w.nodes ≠ []) :
    (w.accidentStep C r agents).1 = .error ↔
      ∃ i q, (agents.filter w.target)[i]? = some q ∧ w.draw (w.used + i) < C.death * (Nat.log 10 (max 1 w.nodes.length) : Nat) := by
  have hn' : ¬ w.nodes.length = 0 := fun h => hw (List.length_eq_zero_iff.1 h)
  have h := frozen_loop (w.chance C) agents.length agents [] ⟨agents, w⟩ hn (fun _ h => h) rfl
  unfold Colony.accidentStep
  rw [if_neg hn', hf]
  show (if (iterLoop true Colony.isRabbit none (Colony.strike (w.chance C)) agents.length agents [] ⟨agents, w⟩).raised then Reply.error
    else .ret none) = .error ↔ _
  refine Iff.trans ?_ h
  cases (iterLoop true Colony.isRabbit none (Colony.strike (w.chance C)) agents.length agents [] ⟨agents, w⟩).raised <;> simp

/-- C211: with fewer than ten rabbits nobody dies by accident. -/
theorem C211_few (C : RabCode) (w : Colony) (hd : ∀ i, 0 ≤ w.draw i) (r : Ref) (agents : List Ref) (hn : agents.Nodup) (h10 : w.nodes.length < 10)
    (q : Ref) : (w.accidentStep C r agents).2.2.bun? q = w.bun? q ∧ (w.accidentStep C r agents).1 ≠ .error := by
  have hlog : Nat.log 10 (max 1 w.nodes.length) = 0 := Nat.log_of_lt (by omega)
  have hc : w.chance C = 0 := by
    unfold Colony.chance
    rw [hlog]
    simp
  by_cases hw : w.nodes = []
  · have e2 : w.accidentStep C r agents = (.ret (some .inf), [.remove r], w) := by simp [Colony.accidentStep, hw]
    rw [e2]
    exact ⟨rfl, by simp⟩
  · constructor
    · have key := iterLoop_rel (fun p q : Pool Colony => (∀ i, 0 ≤ p.st.draw i) → (∀ x, q.st.bun? x = p.st.bun? x) ∧ q.st.draw = p.st.draw)
        (fun _ _ => ⟨fun _ => rfl, rfl⟩)
        (fun a b c h1 h2 h0 => by
          obtain ⟨a1, a2⟩ := h1 h0
          obtain ⟨b1, b2⟩ := h2 (by rw [a2]; exact h0)
          exact ⟨fun x => (b1 x).trans (a1 x), b2.trans a2⟩)
        C.frozen Colony.isRabbit none (Colony.strike 0)
        (fun x p h0 => by
          rw [Colony.strike_spec]
          split
          · rw [if_neg (not_lt.2 (h0 _))]
            exact ⟨fun _ => rfl, rfl⟩
          · exact ⟨fun _ => rfl, rfl⟩)
        agents.length agents [] ⟨agents, w⟩ hd
      have hn' : ¬ w.nodes.length = 0 := fun h => hw (List.length_eq_zero_iff.1 h)
      unfold Colony.accidentStep
      rw [if_neg hn', hc]
      exact key.1 q
    · cases hf : C.frozen with
      | false =>
        rw [(C211_exact_partial C hf w r agents hn hw).1]
        simp
      | true =>
        intro he
        obtain ⟨i, x, _, hi⟩ := (C211_frozen_false C hf w r agents hn hw).1 he
        rw [hlog] at hi
        simp only [Nat.cast_zero, mul_zero] at hi
        exact absurd hi (not_lt.2 (hd _))

end Verif
