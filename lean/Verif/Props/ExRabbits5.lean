import Verif.Props.ExRabbits4

/-!
# C210: families in the network of the improved rabbits
-/

namespace Verif
open Spec

/-- What every activation and every shuffling keep is kept by a series of steps. -/
theorem stepsKeep {W : Type} (H : Host W) (P : W → Prop) (h1 : ∀ r s w, P w → P (H.step r s w).2.2) (h2 : ∀ l w, P w → P (H.shuffle l w).2)
    (n : Nat) (x : Sched × W) (hx : P x.2) : P (execAll H (List.replicate n .step) x).2 := by
  have hb : ∀ (now : Time) (b : List Ref) (s : Sched) (w : W), P w → P (runBucket H now b s w).2.1 := by
    intro now b
    induction b with
    | nil => exact fun s w h => h
    | cons r b ih =>
      intro s w h
      rw [runBucket_cons]
      simp only
      split
      · exact h1 r s w h
      · exact ih _ _ (h1 r s w h)
  induction n generalizing x with
  | zero => exact hx
  | succ n ih =>
    obtain ⟨s, w⟩ := x
    refine ih _ ?_
    change P (s.step H w).2.1
    have ho : ∀ b, P (runOrder H s b w).2 := by
      intro b
      unfold runOrder
      split
      · exact h2 b w hx
      · exact hx
    unfold Sched.step
    split
    · exact hx
    · split
      · exact hx
      · simp only [finishStep]
        split
        · exact hb _ _ _ _ (ho _)
        · exact hb _ _ _ _ (ho _)

/-- The families: every edge of a family is there as long as both rabbits are. -/
structure FamInv (w : Colony) : Prop where
  two : 2 ≤ w.pets.length
  node : ∀ q ∈ w.nodes, q < w.pets.length
  mates : ∀ q b m, w.bun? q = some b → b.mate = some m → m < w.pets.length
  first : 0 ∈ w.nodes → 1 ∈ w.nodes → (0, 1) ∈ w.edges
  born : ∀ c m f t, RabNote.born c m f t ∈ w.notes → c < w.pets.length ∧ m < w.pets.length ∧ (c ∈ w.nodes → m ∈ w.nodes → (c, m) ∈ w.edges) ∧
    ∀ f', f = some f' → f' < w.pets.length ∧ (c ∈ w.nodes → f' ∈ w.nodes → (c, f') ∈ w.edges)

namespace FamInv

theorem used {w : Colony} (h : FamInv w) (k : Nat) : FamInv { w with used := k } := ⟨h.two, h.node, h.mates, h.first, h.born⟩

theorem upd {w : Colony} (h : FamInv w) (r : Ref) (f : Bun → Bun) (hf : ∀ b m, (f b).mate = some m → b.mate = some m ∨ m < w.pets.length) :
    FamInv (w.upd r f) where
  two := by rw [Colony.upd_length]; exact h.two
  node := fun q hq => by rw [Colony.upd_length]; exact h.node q hq
  mates := by
    intro q b m hb hm
    rw [Colony.upd_length]
    rw [Colony.bun?_upd] at hb
    split at hb
    · obtain ⟨b', hb', rfl⟩ := Option.map_eq_some_iff.1 hb
      rcases hf b' m hm with h' | h'
      · exact h.mates q b' m hb' h'
      · exact h'
    · exact h.mates q b m hb hm
  first := h.first
  born := by
    intro c m f t hn
    rw [Colony.upd_length]
    exact h.born c m f t hn

theorem note {w : Colony} (h : FamInv w) (x : RabNote) (hx : ∀ c m f t, x ≠ .born c m f t) : FamInv { w with notes := w.notes ++ [x] } :=
  ⟨h.two, h.node, h.mates, h.first, fun c m f t hn => by
    rcases List.mem_append.1 hn with hn | hn
    · exact h.born c m f t hn
    · exact absurd (List.mem_singleton.1 hn).symm (hx c m f t)⟩

theorem kill {w : Colony} (h : FamInv w) (r : Ref) : FamInv (w.kill r) := by
  unfold Colony.kill
  split
  · exact h
  · split
    · have hu := h.upd r (fun b => { b with alive := false }) (fun b m hm => .inl hm)
      have keep : ∀ e : Ref × Ref, (e.1 ∈ w.nodes → e.2 ∈ w.nodes → e ∈ w.edges) → e.1 ∈ w.nodes.filter (· ≠ r) → e.2 ∈ w.nodes.filter (· ≠ r) →
          e ∈ w.edges.filter (fun e => e.1 ≠ r ∧ e.2 ≠ r) := by
        intro e he h1 h2
        obtain ⟨h1, h1'⟩ := List.mem_filter.1 h1
        obtain ⟨h2, h2'⟩ := List.mem_filter.1 h2
        refine List.mem_filter.2 ⟨he h1 h2, ?_⟩
        simp at h1' h2' ⊢
        exact ⟨h1', h2'⟩
      refine ⟨hu.two, fun q hq => hu.node q (List.mem_filter.1 hq).1, hu.mates, keep (0, 1) h.first, fun c m f t hn => ?_⟩
      obtain ⟨b1, b2, b3, b4⟩ := hu.born c m f t hn
      exact ⟨b1, b2, keep (c, m) b3, fun f' hf' => ⟨(b4 f' hf').1, keep (c, f') (b4 f' hf').2⟩⟩
    · exact h

theorem impregnate {w : Colony} (h : FamInv w) (f male : Ref) (now : Rat) (hm : male < w.pets.length) : FamInv (w.impregnate f male now) := by
  have hu := h.upd f (fun b => { b with mate := some male, conception := some now, babies := litterSize (w.draw w.used) })
    (fun b m hm' => by cases hm'; exact .inr hm)
  exact (hu.note (.mated f male now) (fun _ _ _ _ => nofun)).used (w.used + 1)

theorem mateLoop (p : Rat) (male : Ref) (now : Rat) : ∀ (fs : List Ref) {w : Colony}, FamInv w → male < w.pets.length →
    FamInv (Colony.mateLoop p male now fs w)
  | [], _, h, _ => h
  | f :: fs, w, h, hm => by
    unfold Colony.mateLoop
    split
    · exact (h.used (w.used + 1)).impregnate f male now hm
    · exact FamInv.mateLoop p male now fs (h.used (w.used + 1)) hm

/-- A child is born, and its father still has a node (or there is none). -/
theorem child {w : Colony} (h : FamInv w) (mother : Ref) (mate : Option Ref) (now : Rat) (hmo : mother < w.pets.length)
    (hmate : ∀ m, mate = some m → m < w.pets.length) (new : List (Ref × Ref)) (hnew : ∀ m, mate = some m → m ∈ w.nodes → (w.pets.length, m) ∈ new) :
    FamInv { w.addChild mother mate now with edges := (w.addChild mother mate now).edges ++ new } := by
  have hlen : (w.addChild mother mate now).pets.length = w.pets.length + 1 := by simp [Colony.addChild]
  have old : ∀ q, q < w.pets.length → q ∈ w.nodes ++ [w.pets.length] → q ∈ w.nodes := by
    intro q hq hm
    rcases List.mem_append.1 hm with hm | hm
    · exact hm
    · rw [List.mem_singleton] at hm
      exact absurd (hm ▸ hq) (Nat.lt_irrefl _)
  have two := h.two
  refine ⟨?_, ?_, ?_, ?_, ?_⟩
  · show 2 ≤ (w.addChild mother mate now).pets.length
    omega
  · intro q hq
    show q < (w.addChild mother mate now).pets.length
    rw [hlen]
    rcases List.mem_append.1 (show q ∈ w.nodes ++ [w.pets.length] from hq) with hq | hq
    · exact Nat.lt_succ_of_lt (h.node q hq)
    · rw [List.mem_singleton] at hq
      exact hq ▸ Nat.lt_succ_self _
  · intro q b m hb hm
    show m < (w.addChild mother mate now).pets.length
    rw [hlen]
    change (w.addChild mother mate now).bun? q = some b at hb
    rw [Colony.bun?_addChild] at hb
    split at hb
    · cases hb
      cases hm
    · exact Nat.lt_succ_of_lt (h.mates q b m hb hm)
  · intro h0 h1
    have := h.first (old 0 (by omega) h0) (old 1 (by omega) h1)
    exact List.mem_append_left _ (List.mem_append_left _ this)
  · intro c m f t hn
    show c < (w.addChild mother mate now).pets.length ∧ m < (w.addChild mother mate now).pets.length ∧ _
    rw [hlen]
    rcases List.mem_append.1 (show RabNote.born c m f t ∈ w.notes ++ [.born w.pets.length mother mate now] from hn) with hn | hn
    · obtain ⟨b1, b2, b3, b4⟩ := h.born c m f t hn
      refine ⟨Nat.lt_succ_of_lt b1, Nat.lt_succ_of_lt b2, fun hc hm => ?_, fun f' hf' => ⟨?_, fun hc hm => ?_⟩⟩
      · exact List.mem_append_left _ (List.mem_append_left _ (b3 (old c b1 hc) (old m b2 hm)))
      · exact Nat.lt_succ_of_lt (b4 f' hf').1
      · exact List.mem_append_left _ (List.mem_append_left _ ((b4 f' hf').2 (old c b1 hc) (old f' (b4 f' hf').1 hm)))
    · have hn' := List.mem_singleton.1 hn
      cases hn'
      refine ⟨Nat.lt_succ_self _, Nat.lt_succ_of_lt hmo, fun _ _ => ?_, fun f' hf' => ⟨?_, fun _ hm => ?_⟩⟩
      · refine List.mem_append_left _ ?_
        simp [Colony.addChild]
      · exact Nat.lt_succ_of_lt (hmate f' hf')
      · exact List.mem_append_right _ (hnew f' hf' (old f' (hmate f' hf') hm))

theorem births (mother : Ref) (mate : Option Ref) (now : Rat) : ∀ (n : Nat) {w : Colony}, FamInv w → mother < w.pets.length →
    (∀ m, mate = some m → m < w.pets.length) → FamInv (Colony.births mother mate now n w).1
  | 0, _, h, _, _ => h
  | n + 1, w, h, hmo, hmate => by
    have hlen : (w.addChild mother mate now).pets.length = w.pets.length + 1 := by simp [Colony.addChild]
    unfold Colony.births
    simp only
    cases mate with
    | none =>
      simp only
      have h1 := (h.child mother none now hmo hmate [] (fun m hm => nomatch hm))
      rw [List.append_nil] at h1
      refine FamInv.births mother none now n (FamInv.upd (w := w.addChild mother none now) h1 mother
        (fun b => { b with offspring := b.offspring + 1 }) (fun b m hm => .inl hm)) ?_ (fun m hm => nomatch hm)
      rw [Colony.upd_length, hlen]
      exact Nat.lt_succ_of_lt hmo
    | some m =>
      simp only
      split
      · have h1 := h.child mother (some m) now hmo hmate [(w.pets.length, m)] (fun m' hm' _ => by cases hm'; exact List.mem_singleton.2 rfl)
        refine FamInv.births mother (some m) now n ((h1.upd m (fun b => { b with offspring := b.offspring + 1 }) (fun b m hm => .inl hm)).upd mother
          (fun b => { b with offspring := b.offspring + 1 }) (fun b m hm => .inl hm)) ?_ ?_
        · rw [Colony.upd_length, Colony.upd_length]
          show mother < (w.addChild mother (some m) now).pets.length
          rw [hlen]
          exact Nat.lt_succ_of_lt hmo
        · intro m' hm'
          rw [Colony.upd_length, Colony.upd_length]
          show m' < (w.addChild mother (some m) now).pets.length
          rw [hlen]
          exact Nat.lt_succ_of_lt (hmate m' hm')
      · rename_i hm
        have h1 := h.child mother (some m) now hmo hmate [] (fun m' hm' hin => by
          cases hm'
          exact absurd (List.mem_append_left _ hin) hm)
        rw [List.append_nil] at h1
        exact h1

theorem act (C : RabCode) {w : Colony} (h : FamInv w) (r : Ref) (b : Bun) (hb : w.bun? r = some b) (now : Rat) (agents : List Ref) :
    FamInv (w.act C r b now agents).2.2 := by
  have hr := Colony.bun?_lt hb
  unfold Colony.act
  split
  · exact h.upd r _ (fun b m hm => .inl hm)
  · simp only
    split
    · exact h.upd r _ (fun b m hm => .inl hm)
    · exact h
  · split
    · exact h.upd r _ (fun b m hm => .inl hm)
    · split
      · exact FamInv.mateLoop _ r now _ h hr
      · split
        · exact h.upd r _ (fun b m hm => .inl hm)
        · exact h
  · split
    · exact (h.kill r).upd r _ (fun b m hm => .inl hm)
    · split
      · exact h
      · split
        · have hres := FamInv.births r b.mate now b.babies (h.note (.litter r now) (fun _ _ _ _ => nofun)) hr (fun m hm => h.mates r b m hb hm)
          simp only
          split
          · exact hres
          · exact hres.upd r _ (fun b m hm => nomatch hm)
        · exact h
  · exact h.kill r
  · exact h

theorem accidentStep (C : RabCode) {w : Colony} (h : FamInv w) (r : Ref) (agents : List Ref) : FamInv (w.accidentStep C r agents).2.2 := by
  unfold Colony.accidentStep
  split
  · exact h
  · refine iterLoop_rel (fun p q : Pool Colony => FamInv p.st → FamInv q.st) (fun _ h => h) (fun _ _ _ h1 h2 h => h2 (h1 h)) _ _ _ _ ?_ _ _ _ _ h
    intro q p hp
    unfold Colony.strike
    split
    · exact hp
    · split
      · exact hp
      · simp only
        split
        · exact (hp.used _).kill q
        · exact hp.used _

end FamInv

/-- C210: families stay together. The two first rabbits are connected as long as both live; a child is connected with its mother, and with its
father if it has one, as long as both live. -/
theorem C210_family (C : RabCode) (hM : 0 < C.maturity) (sh : Bool) (draw : Nat → Rat) (sex : Nat → Bool) (n : Nat)
    (hne : NoEscape (colonyRun C sh draw sex n).1.log) (lives : Ref → Prop)
    (hl : ∀ q, lives q ↔ ∃ b, (colonyRun C sh draw sex n).2.bun? q = some b ∧ b.alive = true) :
    (lives 0 → lives 1 → (0, 1) ∈ (colonyRun C sh draw sex n).2.edges) ∧
    ∀ c m f t, RabNote.born c m f t ∈ (colonyRun C sh draw sex n).2.notes → lives c →
      (lives m → (c, m) ∈ (colonyRun C sh draw sex n).2.edges) ∧
      ∀ f', f = some f' → lives f' → (c, f') ∈ (colonyRun C sh draw sex n).2.edges := by
  have hnode := (C210_network C hM sh draw sex n hne).2.1
  have hin : ∀ q, lives q → q ∈ (colonyRun C sh draw sex n).2.nodes := fun q hq => (hnode q).2 ((hl q).1 hq)
  have hfam : FamInv (colonyRun C sh draw sex n).2 := by
    rw [colonyRun_eq]
    refine stepsKeep (colonyHost C) FamInv ?_ ?_ n _ ?_
    · intro r s w h
      change FamInv (colonyStep C r s w).2.2
      unfold colonyStep
      split
      · rename_i hp
        split
        · exact h.act C r _ (by unfold Colony.bun?; rw [hp]) _ _
        · exact h
      · exact h.accidentStep C r _
      · exact h
    · exact fun l w h => h.used _
    · refine ⟨(by decide : 2 ≤ 3), ?_, ?_, fun _ _ => List.mem_singleton.2 rfl, fun _ _ _ _ hn => nomatch hn⟩
      · intro q hq
        have hq' : q = 0 ∨ q = 1 := by simpa [Colony.init] using hq
        change q < 3
        rcases hq' with rfl | rfl <;> decide
      · intro q b m hb hm
        have hlt : q < 3 := Colony.bun?_lt hb
        rcases q with _ | _ | _ | q
        · cases hb; cases hm
        · cases hb; cases hm
        · cases hb
        · exact absurd hlt (by simp)
  refine ⟨fun h0 h1 => hfam.first (hin 0 h0) (hin 1 h1), fun c m f t hn hc => ?_⟩
  obtain ⟨_, _, b3, b4⟩ := hfam.born c m f t hn
  exact ⟨fun hm => b3 (hin c hc) (hin m hm), fun f' hf' hlf => (b4 f' hf').2 (hin c hc) (hin f' hlf)⟩

set_option maxRecDepth 100000 in
example : escaped (colonyRun (smallCode true 3 8 2 0) false (fun _ => 0) inTurn 9).1.log = false ∧
    (colonyRun (smallCode true 3 8 2 0) false (fun _ => 0) inTurn 9).2.nodes = [0, 1, 3, 4, 5, 6, 7, 8, 9, 10] ∧
    RabNote.born 5 1 (some 0) 6 ∈ (colonyRun (smallCode true 3 8 2 0) false (fun _ => 0) inTurn 9).2.notes ∧
    (0, 1) ∈ (colonyRun (smallCode true 3 8 2 0) false (fun _ => 0) inTurn 9).2.edges ∧
    (5, 0) ∈ (colonyRun (smallCode true 3 8 2 0) false (fun _ => 0) inTurn 9).2.edges := by
  decide +kernel

end Verif
