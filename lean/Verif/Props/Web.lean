import Verif.Model.Web

/-!
# Theorems about the web interface (C171-C177)
-/

namespace Verif

open List

/-! ## C171: The log of a simulation is shown -/

private theorem prefix_cons_self (n s : LogName) : n <+: "soil" :: n ++ s ↔ ∀ p ∈ n, p = "soil" := by
  induction n with
  | nil => simp
  | cons a n ih =>
    constructor
    · intro h
      rw [List.cons_append, List.cons_prefix_cons] at h
      obtain ⟨rfl, h⟩ := h
      have := ih.1 (by simpa using h)
      simpa using this
    · intro h
      obtain rfl : a = "soil" := h a (by simp)
      have := ih.2 (fun p hp => h p (by simp [hp]))
      rw [List.cons_append, List.cons_prefix_cons]
      exact ⟨rfl, by simpa using this⟩

/-- C171 (violated): no record of a run reaches the handler of the page, whatever logger of the run it is (`sub`), because the loggers
of a simulation are below `soil` and the handler is not; unless all parts of the name are `soil`. -/
theorem C171_lost_false (n : LogName) (h : ∃ p ∈ n, p ≠ "soil") (sub : LogName) : ¬ reaches (webLogger n) (simLogger n sub) := by
  intro hr
  obtain ⟨p, hp, hne⟩ := h
  exact hne ((prefix_cons_self n sub).1 hr p hp)

/-- C171 (partial): simulations called `soil`, `soil.soil`, … are logged. -/
theorem C171_soil_partial (n : LogName) (h : ∀ p ∈ n, p = "soil") (sub : LogName) : reaches (webLogger n) (simLogger n sub) :=
  (prefix_cons_self n sub).2 h

example : ¬ reaches (webLogger ["spread"]) (simLogger ["spread"] ["0", "agent_3"]) ∧ reaches ["soil"] (simLogger ["spread"] ["0"]) ∧
    reaches (webLogger ["soil"]) (simLogger ["soil"] ["0"]) :=
  ⟨C171_lost_false _ ⟨"spread", by simp, by decide⟩ _, ⟨["spread", "0"], rfl⟩, C171_soil_partial _ (by simp) _⟩

/-! ## C172: Lines are sent in order and at most once -/

/-- Only complete lines. -/
private def Ended (t : List Char) : Prop := t = [] ∨ ∃ u, t = u ++ ['\n']

private theorem endedLines_append (t : List Char) : ∀ cur u : List Char,
    endedLines cur (t ++ '\n' :: u) = endedLines cur (t ++ ['\n']) ++ endedLines [] u := by
  induction t with
  | nil => intro cur u; simp [endedLines]
  | cons c t ih =>
    intro cur u
    simp only [List.cons_append, endedLines]
    split
    · rw [ih]; simp
    · rw [ih]

private theorem endedLines_ended {t : List Char} (h : Ended t) (u : List Char) :
    endedLines [] (t ++ u) = endedLines [] t ++ endedLines [] u := by
  rcases h with rfl | ⟨t, rfl⟩
  · simp [endedLines]
  · have := endedLines_append t [] u
    simpa using this

private theorem Ended.append {t : List Char} (m : List Char) : Ended (t ++ (m ++ ['\n'])) := .inr ⟨t ++ m, by simp⟩

private theorem loggedLines_append (a b : List WEv) : loggedLines (a ++ b) = loggedLines a ++ loggedLines b := by
  simp [loggedLines]

private theorem loggedLines_cons (e : WEv) (b : List WEv) : loggedLines (e :: b) = loggedLines [e] ++ loggedLines b := by
  simp [loggedLines]

private theorem SIO.write_end {b : SIO} (hc : b.closed = false) (hp : b.pos = b.text.length) (s : List Char) :
    b.write s = ⟨b.text ++ s, b.text.length + s.length, false⟩ := by
  simp [SIO.write, hc, hp]

private theorem getLast?_snoc {α : Type} (l : List α) (a : α) : (l ++ [a]).getLast? = some a := by simp

private theorem getLast?_mapIdx' {α β : Type} (f : Nat → α → β) (l : List α) (a : α) (h : l.getLast? = some a) :
    (l.mapIdx f).getLast? = some (f (l.length - 1) a) := by
  rw [List.getLast?_eq_getElem?] at h ⊢
  simp [h]

/-- What holds in all executions without a write after `truncate(0)`: the buffer in use is written at its end, and has only complete lines; the
lines sent (after `P`), and those in the buffer, were logged in this order. -/
private def OrdInv (P L : List (List Char)) (w : WebLog) : Prop :=
  (w.phase = .cut → ∃ b, w.ios.getLast? = some b ∧ b.text = []) ∧
  (∀ b, w.ios.getLast? = some b → Ended b.text ∧ (w.phase ≠ .cut → b.pos = b.text.length)) ∧
  ∃ A B S, L = A ++ B ∧ S <+ A ∧
    match w.phase with
    | .loop i n => ∃ b, w.ios.getLast? = some b ∧ endedLines [] b.text <+ B ∧ n ≤ (endedLines [] b.text).length ∧ i ≤ n ∧
        w.sent = P ++ S ++ (endedLines [] b.text).take i
    | _ => w.sent = P ++ S ∧ ∀ b, w.ios.getLast? = some b → endedLines [] b.text <+ B

/-- What a message does to the buffer in use. -/
private theorem log_last {w w' : WebLog} {m : List Char} (h : w.step (.log m) = some w') :
    w'.phase = w.phase ∧ w'.sent = w.sent ∧ w'.capture = w.capture ∧ w'.timers = w.timers ∧ w'.attached = w.attached ∧
    w'.ios.length = w.ios.length ∧
    ∀ b', w'.ios.getLast? = some b' → ∃ b, w.ios.getLast? = some b ∧
      b' = if w.ios.length - 1 ∈ w.attached then b.write (m ++ ['\n']) else b := by
  simp only [WebLog.step, Option.some.injEq] at h
  subst h
  refine ⟨rfl, rfl, rfl, rfl, rfl, by simp, ?_⟩
  intro b' hb'
  simp only at hb'
  cases hl : w.ios.getLast? with
  | none =>
    rw [List.getLast?_eq_none_iff] at hl
    simp [hl] at hb'
  | some b =>
    rw [getLast?_mapIdx' _ _ _ hl] at hb'
    exact ⟨b, rfl, (Option.some.inj hb').symm⟩

private theorem log_last_some {w w' : WebLog} {m : List Char} (h : w.step (.log m) = some w') {b : SIO} (hb : w.ios.getLast? = some b) :
    ∃ b', w'.ios.getLast? = some b' ∧ b' = if w.ios.length - 1 ∈ w.attached then b.write (m ++ ['\n']) else b := by
  simp only [WebLog.step, Option.some.injEq] at h
  subst h
  exact ⟨_, getLast?_mapIdx' _ _ _ hb, rfl⟩

/-- The buffer after a message, if it was written at its end: the same, or with the message at the end. -/
private theorem write_cases (b : SIO) (hp : b.pos = b.text.length) (m : List Char) (P : Prop) [Decidable P] (b' : SIO)
    (h : b' = if P then b.write (m ++ ['\n']) else b) :
    b' = b ∨ b' = ⟨b.text ++ (m ++ ['\n']), b.text.length + (m ++ ['\n']).length, false⟩ := by
  split at h
  · cases hc : b.closed with
    | true => left; simpa [SIO.write, hc] using h
    | false => right; rw [h, SIO.write_end hc hp]
  · exact .inl h

private theorem OrdInv.step {P L : List (List Char)} {w w' : WebLog} {e : WEv} (h : OrdInv P L w) (hs : w.step e = some w')
    (hq : (∃ m, e = .log m) → w.phase ≠ .cut) : OrdInv P (L ++ loggedLines [e]) w' := by
  obtain ⟨hcut, hclean, A, B, S, hL, hSA, hph⟩ := h
  cases e with
  | log m =>
    have hq := hq ⟨m, rfl⟩
    obtain ⟨hp, hsent, -, -, -, -, hlast⟩ := log_last hs
    have hlog : loggedLines [.log m] = endedLines [] (m ++ ['\n']) := by simp [loggedLines]
    have key : ∀ b b', w.ios.getLast? = some b → b' = (if w.ios.length - 1 ∈ w.attached then b.write (m ++ ['\n']) else b) →
        Ended b'.text ∧ b'.pos = b'.text.length ∧
        (b' = b ∨ endedLines [] b'.text = endedLines [] b.text ++ endedLines [] (m ++ ['\n'])) := by
      intro b b' hb hb'
      have hb2 := hclean b hb
      rcases write_cases b (hb2.2 hq) m _ b' hb' with rfl | rfl
      · exact ⟨hb2.1, hb2.2 hq, .inl rfl⟩
      · exact ⟨Ended.append m, by simp, .inr (endedLines_ended hb2.1 _)⟩
    refine ⟨fun hc => absurd (hp ▸ hc) hq, ?_, A, B ++ loggedLines [.log m], S, by simp [hL], hSA, ?_⟩
    · intro b' hb'
      obtain ⟨b, hb, he⟩ := hlast b' hb'
      exact ⟨(key b b' hb he).1, fun _ => (key b b' hb he).2.1⟩
    · rw [hp, hlog]
      cases hw : w.phase with
      | cut => exact absurd hw hq
      | idle =>
        rw [hw] at hph
        refine ⟨by rw [hsent, hph.1], ?_⟩
        intro b' hb'
        obtain ⟨b, hb, he⟩ := hlast b' hb'
        rcases (key b b' hb he).2.2 with rfl | h3
        · exact (hph.2 _ hb).trans (List.sublist_append_left _ _)
        · rw [h3]; exact (hph.2 _ hb).append (List.Sublist.refl _)
      | due =>
        rw [hw] at hph
        refine ⟨by rw [hsent, hph.1], ?_⟩
        intro b' hb'
        obtain ⟨b, hb, he⟩ := hlast b' hb'
        rcases (key b b' hb he).2.2 with rfl | h3
        · exact (hph.2 _ hb).trans (List.sublist_append_left _ _)
        · rw [h3]; exact (hph.2 _ hb).append (List.Sublist.refl _)
      | loop i n =>
        rw [hw] at hph
        obtain ⟨b, hb, hsub, hn, hi, hse⟩ := hph
        obtain ⟨b', hb', he⟩ := log_last_some hs hb
        refine ⟨b', hb', ?_⟩
        rcases (key b b' hb he).2.2 with rfl | h3
        · exact ⟨hsub.trans (List.sublist_append_left _ _), hn, hi, by rw [hsent, hse]⟩
        · rw [h3]
          refine ⟨hsub.append (List.Sublist.refl _), by simp; omega, hi, ?_⟩
          rw [hsent, hse, List.take_append_of_le_length (by omega)]
  | begin =>
    simp only [WebLog.step] at hs
    split at hs
    · rename_i hi
      simp only [Option.some.injEq] at hs
      subst hs
      rw [hi] at hph
      refine ⟨fun h => by simp at h, ?_, L, [], S, by simp [loggedLines], ?_, ?_⟩
      · intro b hb
        simp only [getLast?_snoc, Option.some.injEq] at hb
        subst hb
        exact ⟨.inl rfl, fun _ => rfl⟩
      · rw [hL]; exact hSA.trans (List.sublist_append_left _ _)
      · refine ⟨hph.1, ?_⟩
        intro b hb
        simp only [getLast?_snoc, Option.some.injEq] at hb
        subst hb
        simp [endedLines]
    · simp at hs
  | fire =>
    simp only [WebLog.step] at hs
    split at hs
    · rename_i hi
      simp only [Option.some.injEq] at hs
      subst hs
      rw [hi.1] at hph
      refine ⟨fun h => by simp at h, ?_, A, B, S, by simp [loggedLines, hL], hSA, hph⟩
      intro b hb
      exact ⟨(hclean b hb).1, fun _ => (hclean b hb).2 (by simp [hi.1])⟩
    · simp at hs
  | check =>
    simp only [WebLog.step] at hs
    split at hs
    · rename_i hi
      rw [hi] at hph
      split at hs
      · simp at hs
      · rename_i b hb
        split at hs
        · simp only [Option.some.injEq] at hs
          subst hs
          refine ⟨fun h => by simp at h, ?_, A, B, S, by simp [loggedLines, hL], hSA, b, hb, hph.2 b hb, Nat.le_refl _, Nat.zero_le _, by simp [hph.1]⟩
          intro b hb
          exact ⟨(hclean b hb).1, fun _ => (hclean b hb).2 (by simp [hi])⟩
        · simp only [Option.some.injEq] at hs
          subst hs
          refine ⟨fun h => by simp [WebLog.endUpdate] at h, ?_, A, B, S, by simp [loggedLines, hL], hSA, hph⟩
          intro b hb
          exact ⟨(hclean b hb).1, fun _ => (hclean b hb).2 (by simp [hi])⟩
    · simp at hs
  | send =>
    simp only [WebLog.step] at hs
    split at hs
    · rename_i i n b hp hb
      split at hs
      · rename_i hin
        simp only [Option.some.injEq] at hs
        subst hs
        rw [hp] at hph
        obtain ⟨b2, hb2, hsub, hn, hi, hse⟩ := hph
        obtain rfl : b = b2 := Option.some.inj (hb.symm.trans hb2)
        refine ⟨fun h => by simp at h, ?_, A, B, S, by simp [loggedLines, hL], hSA, b, hb, hsub, hn, hin, ?_⟩
        · intro b hb
          exact ⟨(hclean b hb).1, fun _ => (hclean b hb).2 (by simp [hp])⟩
        · rw [hse, List.append_assoc, List.getElem?_eq_getElem (by omega), Option.getD_some, ← List.take_append_getElem (by omega)]
      · simp at hs
    · simp at hs
  | cut =>
    simp only [WebLog.step] at hs
    split at hs
    · rename_i i n b hp hb
      split at hs
      · simp at hs
      · simp only [Option.some.injEq] at hs
        subst hs
        rw [hp] at hph
        obtain ⟨b2, hb2, hsub, hn, hi, hse⟩ := hph
        obtain rfl : b = b2 := Option.some.inj (hb.symm.trans hb2)
        refine ⟨fun _ => ⟨_, getLast?_snoc _ _, rfl⟩, ?_, L, [], S ++ (endedLines [] b.text).take i, by simp [loggedLines], ?_,
          by simp [hse], ?_⟩
        · intro b' hb'
          simp only [getLast?_snoc, Option.some.injEq] at hb'
          subst hb'
          exact ⟨.inl rfl, fun h => absurd rfl h⟩
        · rw [hL]; exact hSA.append ((List.take_sublist _ _).trans hsub)
        · intro b' hb'
          simp only [getLast?_snoc, Option.some.injEq] at hb'
          subst hb'
          simp [endedLines]
    · simp at hs
  | seek =>
    simp only [WebLog.step] at hs
    split at hs
    · rename_i b hp hb
      simp only [Option.some.injEq] at hs
      subst hs
      rw [hp] at hph
      obtain ⟨b2, hb2, ht⟩ := hcut hp
      obtain rfl : b = b2 := Option.some.inj (hb.symm.trans hb2)
      refine ⟨fun h => by simp [WebLog.endUpdate] at h, ?_, A, B, S, by simp [loggedLines, hL], hSA, hph.1, ?_⟩
      · intro b' hb'
        simp only [WebLog.endUpdate, getLast?_snoc, Option.some.injEq] at hb'
        subst hb'
        exact ⟨.inl ht, fun _ => by simp [ht]⟩
      · intro b' hb'
        simp only [WebLog.endUpdate, getLast?_snoc, Option.some.injEq] at hb'
        subst hb'
        simp [ht, endedLines]
    · simp at hs
  | finish k =>
    simp only [WebLog.step] at hs
    split at hs
    · rename_i hi
      split at hs
      · simp at hs
      · rename_i b hb
        simp only [Option.some.injEq] at hs
        subst hs
        rw [hi.1] at hph
        refine ⟨fun h => by simp [hi.1] at h, ?_, A, B, S, by simp [loggedLines, hL], hSA, ?_⟩
        · intro b' hb'
          simp only [getLast?_snoc, Option.some.injEq] at hb'
          subst hb'
          exact ⟨(hclean b hb).1, fun _ => (hclean b hb).2 (by simp [hi.1])⟩
        · simp only [hi.1]
          refine ⟨hph.1, ?_⟩
          intro b' hb'
          simp only [getLast?_snoc, Option.some.injEq] at hb'
          subst hb'
          exact hph.2 b hb
    · simp at hs

/-- Between `truncate(0)` and `seek(0)` only messages can come. -/
private theorem ord_run (P : List (List Char)) : ∀ (es : List WEv) (L : List (List Char)) (w w' : WebLog), OrdInv P L w → w.run es = some w' →
    (w.phase = .cut → ∀ m, es.head? ≠ some (.log m)) → (∀ m, ¬ [.cut, .log m] <:+: es) → OrdInv P (L ++ loggedLines es) w' := by
  intro es
  induction es with
  | nil =>
    intro L w w' h hr _ _
    simp only [WebLog.run, Option.some.injEq] at hr
    subst hr
    simpa [loggedLines] using h
  | cons e es ih =>
    intro L w w' h hr hc hq
    simp only [WebLog.run] at hr
    cases hs : w.step e with
    | none => simp [hs] at hr
    | some v =>
      rw [hs] at hr
      have hv := h.step hs (fun hm hp => by obtain ⟨m, rfl⟩ := hm; exact hc hp m rfl)
      rw [loggedLines_cons, ← List.append_assoc]
      refine ih _ v w' hv hr ?_ (fun m hi => hq m (hi.trans (List.suffix_cons _ _).isInfix))
      intro hp m hm
      have : e = .cut := by
        cases e with
        | cut => rfl
        | log m' =>
          have := (log_last hs).1
          exact absurd rfl (hc (this ▸ hp) m')
        | begin => simp only [WebLog.step] at hs; split at hs <;> simp at hs; subst hs; simp at hp
        | fire => simp only [WebLog.step] at hs; split at hs <;> simp at hs; subst hs; simp at hp
        | check =>
          simp only [WebLog.step] at hs
          split at hs
          · split at hs
            · simp at hs
            · split at hs <;> simp only [Option.some.injEq] at hs <;> subst hs <;> simp [WebLog.endUpdate] at hp
          · simp at hs
        | send =>
          simp only [WebLog.step] at hs
          split at hs
          · split at hs <;> simp at hs; subst hs; simp at hp
          · simp at hs
        | seek =>
          simp only [WebLog.step] at hs
          split at hs
          · simp only [Option.some.injEq] at hs; subst hs; simp [WebLog.endUpdate] at hp
          · simp at hs
        | finish k =>
          simp only [WebLog.step] at hs
          split at hs
          · rename_i hi
            split at hs
            · simp at hs
            · simp only [Option.some.injEq] at hs; subst hs; simp [hi.1] at hp
          · simp at hs
      subst this
      cases es with
      | nil => simp at hm
      | cons e2 es =>
        simp only [List.head?_cons, Option.some.injEq] at hm
        subst hm
        exact hq m ⟨[], es, rfl⟩

/-- C172 (partial): if nothing is logged between `truncate(0)` and `seek(0)`, then the lines that are sent are lines that were logged, in
the same order, and none of them twice: in all executions, with any number of runs, one after the other or at the same time. -/
theorem C172_order_partial (es : List WEv) (w : WebLog) (hr : webLog0.run es = some w) (hq : ∀ m, ¬ [.cut, .log m] <:+: es) :
    w.sent <+ loggedLines es := by
  have h0 : OrdInv [] [] webLog0 := ⟨fun h => by simp [webLog0] at h, fun b hb => by simp [webLog0] at hb,
    [], [], [], rfl, List.Sublist.refl _, rfl, fun b hb => by simp [webLog0] at hb⟩
  obtain ⟨_, _, A, B, S, hL, hSA, hph⟩ := ord_run [] es [] webLog0 w h0 hr (fun h => by simp [webLog0] at h) hq
  rw [List.nil_append] at hL
  rw [hL]
  simp only [List.nil_append] at hph
  cases hp : w.phase with
  | loop i n =>
    rw [hp] at hph
    obtain ⟨b, _, hsub, _, _, hse⟩ := hph
    rw [hse]
    exact hSA.append ((List.take_sublist _ _).trans hsub)
  | idle => rw [hp] at hph; rw [hph.1]; exact hSA.trans (List.sublist_append_left _ _)
  | due => rw [hp] at hph; rw [hph.1]; exact hSA.trans (List.sublist_append_left _ _)
  | cut => rw [hp] at hph; rw [hph.1]; exact hSA.trans (List.sublist_append_left _ _)

/-- C172 (violated): a line can be sent that nobody has logged: what is written between `truncate(0)` and `seek(0)` comes after null
characters. -/
theorem C172_garbled_false : ∃ es w, webLog0.run es = some w ∧ ¬ w.sent <+ loggedLines es := by
  refine ⟨[.begin, .check, .log ['a'], .fire, .check, .send, .cut, .log ['b'], .seek, .fire, .check, .send], _, rfl, ?_⟩
  decide +kernel

/-- Two lines, then a third one. -/
private def exLog : List WEv :=
  [.begin, .check, .log ['a', '\n', 'b'], .fire, .check, .send, .log ['c'], .send, .cut, .seek, .log ['d'], .fire, .check, .send, .cut, .seek]

set_option maxRecDepth 100000 in
example : (webLog0.run exLog).map WebLog.sent = some [['a'], ['b'], ['d']] ∧ loggedLines exLog = [['a'], ['b'], ['c'], ['d']] := by
  decide +kernel

/-! ## C173: No line is lost -/

/-- What holds in an execution in which nothing is logged during an update: the lines sent, and those of the buffer that are not yet sent,
are all lines. -/
private def FullInv (T : List (List Char)) (w : WebLog) : Prop :=
  ∃ b, w.ios.getLast? = some b ∧ b.closed = false ∧ Ended b.text ∧ w.ios.length - 1 ∈ w.attached ∧
    (w.phase ≠ .cut → b.pos = b.text.length) ∧
    match w.phase with
    | .loop i n => n = (endedLines [] b.text).length ∧ i ≤ n ∧ w.sent ++ (endedLines [] b.text).drop i = T
    | .cut => b.text = [] ∧ w.sent = T
    | _ => w.sent ++ endedLines [] b.text = T

private theorem FullInv.step {T : List (List Char)} {w w' : WebLog} {e : WEv} (h : FullInv T w) (hs : w.step e = some w')
    (hq : (∃ m, e = .log m) → w.phase = .idle ∨ w.phase = .due) (hb : e ≠ .begin) (hf : ∀ k, e ≠ .finish k) :
    FullInv (T ++ loggedLines [e]) w' := by
  obtain ⟨b, hlast, hcl, hen, hat, hpos, hph⟩ := h
  cases e with
  | begin => exact absurd rfl hb
  | finish k => exact absurd rfl (hf k)
  | log m =>
    have hq := hq ⟨m, rfl⟩
    have hnc : w.phase ≠ .cut := by rcases hq with h | h <;> simp [h]
    obtain ⟨hp, hsent, -, -, hatt, hlen, -⟩ := log_last hs
    obtain ⟨b', hb', he⟩ := log_last_some hs hlast
    rw [if_pos hat, SIO.write_end hcl (hpos hnc)] at he
    subst he
    refine ⟨_, hb', rfl, Ended.append m, by rw [hlen, hatt]; exact hat, fun _ => by simp, ?_⟩
    have hlog : loggedLines [.log m] = endedLines [] (m ++ ['\n']) := by simp [loggedLines]
    have hl2 : endedLines [] (b.text ++ (m ++ ['\n'])) = endedLines [] b.text ++ endedLines [] (m ++ ['\n']) := endedLines_ended hen _
    rcases hq with h | h <;> rw [h] at hph <;> rw [hp, h, hlog, ← hph, hsent] <;> simp only [hl2, List.append_assoc]
  | fire =>
    simp only [WebLog.step] at hs
    split at hs
    · rename_i hi
      simp only [Option.some.injEq] at hs
      subst hs
      rw [hi.1] at hph
      exact ⟨b, hlast, hcl, hen, hat, fun _ => hpos (by simp [hi.1]), by simpa [loggedLines] using hph⟩
    · simp at hs
  | check =>
    simp only [WebLog.step] at hs
    split at hs
    · rename_i hi
      rw [hi] at hph
      rw [hlast] at hs
      simp only at hs
      split at hs
      · simp only [Option.some.injEq] at hs
        subst hs
        exact ⟨b, hlast, hcl, hen, hat, fun _ => hpos (by simp [hi]), rfl, Nat.zero_le _, by simpa [loggedLines] using hph⟩
      · simp only [Option.some.injEq] at hs
        subst hs
        exact ⟨b, hlast, hcl, hen, hat, fun _ => hpos (by simp [hi]), by simpa [loggedLines, WebLog.endUpdate] using hph⟩
    · simp at hs
  | send =>
    simp only [WebLog.step] at hs
    split at hs
    · rename_i i n b2 hp hb2
      obtain rfl : b = b2 := Option.some.inj (hlast.symm.trans hb2)
      split at hs
      · rename_i hin
        simp only [Option.some.injEq] at hs
        subst hs
        rw [hp] at hph
        obtain ⟨hn, hi, hse⟩ := hph
        refine ⟨b, hlast, hcl, hen, hat, fun _ => hpos (by simp [hp]), hn, hin, ?_⟩
        rw [← hse, List.getElem?_eq_getElem (by omega), Option.getD_some, List.append_assoc, List.drop_eq_getElem_cons (i := i) (by omega)]
        simp [loggedLines]
      · simp at hs
    · simp at hs
  | cut =>
    simp only [WebLog.step] at hs
    split at hs
    · rename_i i n b2 hp hb2
      obtain rfl : b = b2 := Option.some.inj (hlast.symm.trans hb2)
      split at hs
      · simp at hs
      · rename_i hin
        simp only [Option.some.injEq] at hs
        subst hs
        rw [hp] at hph
        obtain ⟨hn, hi, hse⟩ := hph
        have hne : w.ios ≠ [] := by intro h; simp [h] at hlast
        refine ⟨_, getLast?_snoc _ _, hcl, .inl rfl, ?_, fun h => absurd rfl h, rfl, ?_⟩
        · have := List.length_pos_iff.2 hne
          simp only [List.length_append, List.length_dropLast, List.length_singleton]
          rw [Nat.sub_add_cancel this]; exact hat
        · rw [← hse, List.drop_eq_nil_of_le (by omega)]; simp [loggedLines]
    · simp at hs
  | seek =>
    simp only [WebLog.step] at hs
    split at hs
    · rename_i b2 hp hb2
      obtain rfl : b = b2 := Option.some.inj (hlast.symm.trans hb2)
      simp only [Option.some.injEq] at hs
      subst hs
      rw [hp] at hph
      have hne : w.ios ≠ [] := by intro h; simp [h] at hlast
      refine ⟨_, getLast?_snoc _ _, hcl, hen, ?_, fun _ => by simp [hph.1], ?_⟩
      · have := List.length_pos_iff.2 hne
        simp only [WebLog.endUpdate, List.length_append, List.length_dropLast, List.length_singleton]
        rw [Nat.sub_add_cancel this]; exact hat
      · simp [WebLog.endUpdate, hph.1, hph.2, endedLines, loggedLines]
    · simp at hs

private theorem full_run : ∀ (es : List WEv) (T : List (List Char)) (w w' : WebLog), FullInv T w → w.run es = some w' →
    .begin ∉ es → (∀ k, .finish k ∉ es) →
    (∀ pre m post, es = pre ++ .log m :: post → ∀ v, w.run pre = some v → v.phase = .idle ∨ v.phase = .due) →
    FullInv (T ++ loggedLines es) w' := by
  intro es
  induction es with
  | nil =>
    intro T w w' h hr _ _ _
    simp only [WebLog.run, Option.some.injEq] at hr
    subst hr
    simpa [loggedLines] using h
  | cons e es ih =>
    intro T w w' h hr hb hf hq
    simp only [WebLog.run] at hr
    cases hs : w.step e with
    | none => simp [hs] at hr
    | some v =>
      rw [hs] at hr
      have hv := h.step hs (fun ⟨m, hm⟩ => hq [] m es (by simp [hm]) w rfl) (fun he => hb (by simp [he])) (fun k he => hf k (by simp [he]))
      rw [loggedLines_cons, ← List.append_assoc]
      refine ih _ v w' hv hr (fun hm => hb (by simp [hm])) (fun k hm => hf k (by simp [hm])) ?_
      intro pre m post hes u hu
      exact hq (e :: pre) m post (by simp [hes]) u (by simp [WebLog.run, hs, hu])

/-- The buffer in use is closed, and no update is going on. -/
private def Shut (S : List (List Char)) (w : WebLog) : Prop :=
  (∃ b, w.ios.getLast? = some b ∧ b.closed = true) ∧ (w.phase = .idle ∨ w.phase = .due) ∧ w.sent = S

private theorem Shut.step {S : List (List Char)} {w w' : WebLog} {e : WEv} (h : Shut S w) (hs : w.step e = some w') (hb : e ≠ .begin) :
    Shut S w' := by
  obtain ⟨⟨b, hlast, hcl⟩, hph, hS⟩ := h
  cases e with
  | begin => exact absurd rfl hb
  | log m =>
    obtain ⟨hp, hsent, -⟩ := log_last hs
    obtain ⟨b', hb', he⟩ := log_last_some hs hlast
    refine ⟨⟨b', hb', ?_⟩, by rwa [hp], by rw [hsent, hS]⟩
    rw [he]
    split
    · simp [SIO.write, hcl]
    · exact hcl
  | fire =>
    simp only [WebLog.step] at hs
    split at hs
    · simp only [Option.some.injEq] at hs
      subst hs
      exact ⟨⟨b, hlast, hcl⟩, .inr rfl, hS⟩
    · simp at hs
  | check =>
    simp only [WebLog.step] at hs
    split at hs
    · rw [hlast] at hs
      simp only [hcl] at hs
      simp at hs
      subst hs
      exact ⟨⟨b, hlast, hcl⟩, .inl rfl, hS⟩
    · simp at hs
  | send => simp only [WebLog.step] at hs; rcases hph with h | h <;> simp [h] at hs
  | cut => simp only [WebLog.step] at hs; rcases hph with h | h <;> simp [h] at hs
  | seek => simp only [WebLog.step] at hs; rcases hph with h | h <;> simp [h] at hs
  | finish k =>
    simp only [WebLog.step] at hs
    split at hs
    · rw [hlast] at hs
      simp only [Option.some.injEq] at hs
      subst hs
      exact ⟨⟨_, getLast?_snoc _ _, rfl⟩, hph, hS⟩
    · simp at hs

private theorem shut_run : ∀ (es : List WEv) (S : List (List Char)) (w w' : WebLog), Shut S w → w.run es = some w' → .begin ∉ es →
    Shut S w' := by
  intro es
  induction es with
  | nil =>
    intro S w w' h hr _
    simp only [WebLog.run, Option.some.injEq] at hr
    exact hr ▸ h
  | cons e es ih =>
    intro S w w' h hr hb
    simp only [WebLog.run] at hr
    cases hs : w.step e with
    | none => simp [hs] at hr
    | some v =>
      rw [hs] at hr
      exact ih S v w' (h.step hs (fun he => hb (by simp [he]))) hr (fun hm => hb (by simp [hm]))

private theorem finish_shut {w w' : WebLog} {k : Nat} (h : w.step (.finish k) = some w') : Shut w.sent w' := by
  simp only [WebLog.step] at h
  split at h
  · rename_i hi
    split at h
    · simp at h
    · simp only [Option.some.injEq] at h
      subst h
      exact ⟨⟨_, getLast?_snoc _ _, rfl⟩, .inl hi.1, rfl⟩
  · simp at h

private theorem run_append (a b : List WEv) : ∀ w : WebLog, w.run (a ++ b) = (w.run a).bind (fun v => v.run b) := by
  induction a with
  | nil => intro w; rfl
  | cons e a ih =>
    intro w
    simp only [List.cons_append, WebLog.run]
    cases w.step e with
    | none => rfl
    | some v => simp [ih]

private theorem run_logs (msgs : List (List Char)) : ∀ w : WebLog, w.ios ≠ [] → ∃ v, w.run (msgs.map .log) = some v ∧ v.phase = w.phase ∧
    v.sent = w.sent ∧ v.attached = w.attached ∧ v.ios ≠ [] := by
  induction msgs with
  | nil => intro w hw; exact ⟨w, rfl, rfl, rfl, rfl, hw⟩
  | cons m msgs ih =>
    intro w hw
    obtain ⟨v, hv, h1, h2, h3, h4⟩ := ih { w with ios := w.ios.mapIdx (fun k b => if k ∈ w.attached then b.write (m ++ ['\n']) else b) }
      (by simpa using hw)
    exact ⟨v, hv, h1, h2, h3, h4⟩

/-- C173 (violated): what a run logs after the last update before its end is never sent. In particular a run that is over before the first
timer fires (half a second) sends nothing at all, whatever it logs. -/
theorem C173_end_false (msgs : List (List Char)) : ∃ w, webLog0.run (.begin :: .check :: msgs.map .log ++ [.finish 0]) = some w ∧
    w.phase = .idle ∧ ∀ es w', .begin ∉ es → w.run es = some w' → w'.sent = [] := by
  have h1 : webLog0.run [.begin, .check] = some ⟨[⟨[], 0, false⟩], [0], true, 1, .idle, []⟩ := by decide +kernel
  obtain ⟨v, hv, hp, hsent, hatt, hne⟩ := run_logs msgs ⟨[⟨[], 0, false⟩], [0], true, 1, .idle, []⟩ (by simp)
  have hstep : ∃ u, v.step (.finish 0) = some u := by
    simp only [WebLog.step, hp, hatt]
    cases hl : v.ios.getLast? with
    | none => exact absurd (List.getLast?_eq_none_iff.1 hl) hne
    | some b => simp
  obtain ⟨u, hu⟩ := hstep
  have hrun : webLog0.run (.begin :: .check :: msgs.map .log ++ [.finish 0]) = some u := by
    have : (.begin :: .check :: msgs.map .log ++ [.finish 0] : List WEv) = [.begin, .check] ++ (msgs.map .log ++ [.finish 0]) := by simp
    rw [this, run_append, h1, Option.bind_some, run_append, hv, Option.bind_some]
    simp [WebLog.run, hu]
  have hsh := finish_shut hu
  rw [hsent] at hsh
  refine ⟨u, hrun, ?_, ?_⟩
  · simp only [WebLog.step] at hu
    split at hu
    · rename_i hi
      split at hu
      · simp at hu
      · simp only [Option.some.injEq] at hu; subst hu; exact hi.1
    · simp at hu
  · intro es w' hb hr
    exact (shut_run es _ u w' hsh hr hb).2.2

/-- C173 (violated): a line that is logged while `update_logging` is sending is lost, although the run goes on. -/
theorem C173_race_false : ∃ es w, webLog0.run es = some w ∧ (∀ k, .finish k ∉ es) ∧ w.phase = .idle ∧
    (∃ b, w.ios.getLast? = some b ∧ b.text = []) ∧ ['c'] ∈ loggedLines es ∧ ['c'] ∉ w.sent := by
  refine ⟨exLog, (webLog0.run exLog).getD webLog0, by decide +kernel, ?_, by decide +kernel, ⟨⟨[], 0, false⟩, by decide +kernel⟩,
    by decide +kernel, by decide +kernel⟩
  intro k h
  simp [exLog] at h

/-- C173 (partial): from the beginning of a run on, as long as no run begins or ends, and if nothing is logged during `update_logging`, then
between two updates the lines sent and those in the buffer are all lines that were logged. So nothing is missing when the buffer is
empty. -/
theorem C173_complete_partial (w w' : WebLog) (es : List WEv) (hr : w.run (.begin :: es) = some w') (hb : .begin ∉ es)
    (hf : ∀ k, .finish k ∉ es)
    (hq : ∀ pre m post, es = pre ++ .log m :: post → ∀ v, w.run (.begin :: pre) = some v → v.phase = .idle ∨ v.phase = .due)
    (hi : w'.phase = .idle) :
    ∃ b, w'.ios.getLast? = some b ∧ b.closed = false ∧ w'.sent ++ endedLines [] b.text = w.sent ++ loggedLines es := by
  simp only [WebLog.run] at hr
  cases hs : w.step .begin with
  | none => simp [hs] at hr
  | some v =>
    rw [hs] at hr
    have hv : FullInv w.sent v := by
      simp only [WebLog.step] at hs
      split at hs
      · simp only [Option.some.injEq] at hs
        subst hs
        exact ⟨_, getLast?_snoc _ _, rfl, .inl rfl, by simp, fun _ => rfl, by simp [endedLines]⟩
      · simp at hs
    obtain ⟨b, hb, hcl, -, -, -, hph⟩ := full_run es _ v w' hv hr hb hf
      (fun pre m post hes u hu => hq pre m post hes u (by simp [WebLog.run, hs, hu]))
    rw [hi] at hph
    exact ⟨b, hb, hcl, hph⟩

/-! ## C174: Runs do not disturb each other -/

/-- C174 (violated): when a run is over, nothing is sent any more until another one begins, even if other runs go on and log: their buffer is
closed, and the updates end. -/
theorem C174_overlap_false (w w' : WebLog) (k : Nat) (es : List WEv) (hr : w.run (.finish k :: es) = some w') (hb : .begin ∉ es) :
    w'.sent = w.sent := by
  simp only [WebLog.run] at hr
  cases hs : w.step (.finish k) with
  | none => simp [hs] at hr
  | some v =>
    rw [hs] at hr
    exact (shut_run es _ v w' (finish_shut hs) hr hb).2.2

/-- Two runs; the first one is over before the second one logs. -/
private def exOverlap : List WEv :=
  [.begin, .check, .begin, .check, .log ['a'], .fire, .check, .send, .cut, .seek, .finish 0, .log ['b'], .fire, .check, .log ['c'], .finish 1]

set_option maxRecDepth 100000 in
example : (webLog0.run exOverlap).map WebLog.sent = some [['a']] ∧ loggedLines exOverlap = [['a'], ['b'], ['c']] := by decide +kernel

private theorem open_step {w w' : WebLog} {e : WEv} (h : ∃ b, w.ios.getLast? = some b ∧ b.closed = false) (hs : w.step e = some w')
    (hf : ∀ k, e ≠ .finish k) : ∃ b, w'.ios.getLast? = some b ∧ b.closed = false := by
  obtain ⟨b, hlast, hcl⟩ := h
  cases e with
  | finish k => exact absurd rfl (hf k)
  | begin =>
    simp only [WebLog.step] at hs
    split at hs
    · simp only [Option.some.injEq] at hs; subst hs; exact ⟨_, getLast?_snoc _ _, rfl⟩
    · simp at hs
  | log m =>
    obtain ⟨b', hb', he⟩ := log_last_some hs hlast
    refine ⟨b', hb', ?_⟩
    rw [he]
    split
    · simp [SIO.write, hcl]
    · exact hcl
  | fire =>
    simp only [WebLog.step] at hs
    split at hs
    · simp only [Option.some.injEq] at hs; subst hs; exact ⟨b, hlast, hcl⟩
    · simp at hs
  | check =>
    simp only [WebLog.step] at hs
    split at hs
    · rw [hlast] at hs
      simp only at hs
      split at hs <;> simp only [Option.some.injEq] at hs <;> subst hs <;> exact ⟨b, hlast, hcl⟩
    · simp at hs
  | send =>
    simp only [WebLog.step] at hs
    split at hs
    · split at hs <;> simp at hs; subst hs; exact ⟨b, hlast, hcl⟩
    · simp at hs
  | cut =>
    simp only [WebLog.step] at hs
    split at hs
    · rename_i i n b2 hp hb2
      obtain rfl : b = b2 := Option.some.inj (hlast.symm.trans hb2)
      split at hs <;> simp at hs; subst hs; exact ⟨_, getLast?_snoc _ _, hcl⟩
    · simp at hs
  | seek =>
    simp only [WebLog.step] at hs
    split at hs
    · rename_i b2 hp hb2
      obtain rfl : b = b2 := Option.some.inj (hlast.symm.trans hb2)
      simp only [Option.some.injEq] at hs; subst hs; exact ⟨_, getLast?_snoc _ _, hcl⟩
    · simp at hs

private theorem open_run : ∀ (es : List WEv) (w w' : WebLog), (∃ b, w.ios.getLast? = some b ∧ b.closed = false) → w.run es = some w' →
    .begin ∉ es → (∀ k, .finish k ∉ es) → ∃ b, w'.ios.getLast? = some b ∧ b.closed = false := by
  intro es
  induction es with
  | nil =>
    intro w w' h hr _ _
    simp only [WebLog.run, Option.some.injEq] at hr
    exact hr ▸ h
  | cons e es ih =>
    intro w w' h hr hb hf
    simp only [WebLog.run] at hr
    cases hs : w.step e with
    | none => simp [hs] at hr
    | some v =>
      rw [hs] at hr
      exact ih v w' (open_step h hs (fun k he => hf k (by simp [he]))) hr (fun hm => hb (by simp [hm])) (fun k hm => hf k (by simp [hm]))

/-- C174 (partial): runs one after the other: whatever happened before a run, from its beginning until a run begins or ends, its lines are
captured in a buffer of its own that is open; nothing that was logged before is sent. -/
theorem C174_own_buffer_partial (w w' : WebLog) (es : List WEv) (hr : w.run (.begin :: es) = some w') (hb : .begin ∉ es)
    (hf : ∀ k, .finish k ∉ es) (hq : ∀ m, ¬ [.cut, .log m] <:+: es) :
    ∃ b S, w'.ios.getLast? = some b ∧ b.closed = false ∧ w'.sent = w.sent ++ S ∧ S <+ loggedLines es := by
  simp only [WebLog.run] at hr
  cases hs : w.step .begin with
  | none => simp [hs] at hr
  | some v =>
    rw [hs] at hr
    have hv : OrdInv w.sent [] v ∧ ∃ b, v.ios.getLast? = some b ∧ b.closed = false := by
      simp only [WebLog.step] at hs
      split at hs
      · simp only [Option.some.injEq] at hs
        subst hs
        refine ⟨⟨fun h => by simp at h, ?_, [], [], [], rfl, List.Sublist.refl _, by simp, ?_⟩, _, getLast?_snoc _ _, rfl⟩
        · intro b hb
          simp only [getLast?_snoc, Option.some.injEq] at hb
          subst hb
          exact ⟨.inl rfl, fun _ => rfl⟩
        · intro b hb
          simp only [getLast?_snoc, Option.some.injEq] at hb
          subst hb
          simp [endedLines]
      · simp at hs
    have hp : v.phase = .due := by
      simp only [WebLog.step] at hs
      split at hs
      · simp only [Option.some.injEq] at hs
        subst hs; rfl
      · simp at hs
    obtain ⟨b, hb1, hb2⟩ := open_run es v w' hv.2 hr hb hf
    obtain ⟨_, _, A, B, S, hL, hSA, hph⟩ := ord_run w.sent es [] v w' hv.1 hr (fun h => by simp [hp] at h) hq
    rw [List.nil_append] at hL
    rw [hL]
    cases hp : w'.phase with
    | loop i n =>
      rw [hp] at hph
      obtain ⟨b', _, hsub, _, _, hse⟩ := hph
      exact ⟨b, _, hb1, hb2, by rw [hse, List.append_assoc], hSA.append ((List.take_sublist _ _).trans hsub)⟩
    | idle => rw [hp] at hph; exact ⟨b, S, hb1, hb2, hph.1, hSA.trans (List.sublist_append_left _ _)⟩
    | due => rw [hp] at hph; exact ⟨b, S, hb1, hb2, hph.1, hSA.trans (List.sublist_append_left _ _)⟩
    | cut => rw [hp] at hph; exact ⟨b, S, hb1, hb2, hph.1, hSA.trans (List.sublist_append_left _ _)⟩

/-! ## C175: A configuration is run, and its trials can be seen -/

/-- A message with trials or with the graph of one. -/
def WebOut.result : WebOut → Bool
  | .trials _ => true
  | .graph _ => true
  | _ => false

/-- While the connection is open there are no trials, and all runs have a key that `Simulation` does not know; and no results were sent. -/
private def ConnInv (w : WebConn) : Prop :=
  (w.alive = true → w.trials = none ∧ ∀ c ∈ w.pending, "environment_params" ∈ Dict.keys c) ∧ ∀ o ∈ w.out, o.result = false

private theorem mem_keys_del {c : WebDict} {k k' : String} (h : k' ≠ k) (hk : k' ∈ Dict.keys c) : k' ∈ Dict.keys (Dict.del c k) := by
  induction c with
  | nil => simp [Dict.keys] at hk
  | cons a c ih =>
    obtain ⟨x, v⟩ := a
    simp only [Dict.keys, List.map_cons, List.mem_cons, Dict.del] at hk ih ⊢
    by_cases hx : x = k
    · subst hx
      rcases hk with rfl | hk
      · exact absurd rfl h
      · simpa using hk
    · simp only [if_neg hx, List.map_cons, List.mem_cons]
      rcases hk with rfl | hk
      · exact .inl rfl
      · exact .inr (ih hk)

private theorem mem_keys_set {c : WebDict} {k k' : String} (v : ConfVal) (hk : k' ∈ Dict.keys c) : k' ∈ Dict.keys (Dict.set c k v) := by
  rw [Dict.mem_keys] at hk ⊢
  rw [Dict.get?_set]
  split
  · simp
  · exact hk

private theorem start_pending (w : WebConn) (c : WebDict) (h : "environment_params" ∈ Dict.keys c) :
    ∀ d ∈ (w.start c).pending, d ∈ w.pending ∨ "environment_params" ∈ Dict.keys d := by
  intro d hd
  simp only [WebConn.start, List.mem_append, List.mem_singleton] at hd
  rcases hd with hd | rfl
  · exact .inl hd
  · right
    apply mem_keys_set
    apply mem_keys_set
    split
    · exact mem_keys_del (by decide) h
    · exact h

private theorem ConnInv.start {w : WebConn} (h : ConnInv w) {c : WebDict} (hc : "environment_params" ∈ Dict.keys c) : ConnInv (w.start c) := by
  refine ⟨fun ha => ⟨(h.1 ha).1, fun d hd => ?_⟩, h.2⟩
  rcases start_pending w c hc d hd with hd | hd
  · exact (h.1 ha).2 d hd
  · exact hd

private theorem ConnInv.write {w : WebConn} (h : ConnInv w) {o : WebOut} (ho : o.result = false) : ConnInv (w.write o) := by
  refine ⟨h.1, ?_⟩
  intro p hp
  simp only [WebConn.write, List.mem_append, List.mem_singleton] at hp
  rcases hp with hp | rfl
  · exact h.2 p hp
  · exact ho

private theorem ConnInv.die {w : WebConn} (h : ∀ o ∈ w.out, o.result = false) : ConnInv w.die :=
  ⟨fun ha => by simp [WebConn.die] at ha, h⟩

private theorem ConnInv.getGraph {w : WebConn} (h : ConnInv w) (ha : w.alive = true) (i : Int) : ConnInv (w.getGraph i) := by
  unfold WebConn.getGraph
  rw [(h.1 ha).1]
  exact ConnInv.die h.2

private theorem ConnInv.showParams {w : WebConn} (h : ConnInv w) (c : WebDict) : ConnInv (w.showParams c) := by
  unfold WebConn.showParams
  split
  · exact h.write rfl
  · exact h

private theorem ConnInv.receive {w : WebConn} (h : ConnInv w) (ha : w.alive = true) (m : WebIn) : ConnInv (w.receive m) := by
  cases m with
  | getTrial i => exact h.getGraph ha i
  | download i => exact h.getGraph ha i
  | unknown => exact h
  | runSimulation data =>
    simp only [WebConn.receive]
    split
    · split
      · refine ConnInv.start (h.write rfl) ?_
        rw [Dict.mem_keys, Dict.get?_set, if_pos rfl]
        rfl
      · exact ConnInv.die h.2
    · exact ConnInv.die h.2
  | configFile docs =>
    simp only [WebConn.receive]
    split
    · exact ConnInv.die h.2
    · exact ConnInv.write (w := { w with config := .list }) h rfl
    · rename_i c
      split
      · rename_i n hn
        have h1 : ConnInv ((({ w with config := .one c } : WebConn)).write (.log "INFO" n)) :=
          ConnInv.write (w := { w with config := .one c }) h rfl
        have h2 := h1.showParams c
        split
        · rename_i d hd
          exact ConnInv.write (ConnInv.start h2 (by rw [Dict.mem_keys, hd]; rfl)) rfl
        · exact ConnInv.die h2.2
      · exact ConnInv.die h.2

private theorem ConnInv.complete {w : WebConn} (h : ConnInv w) (sim : WebDict → Option (List WebTrial)) (k : Nat) :
    ConnInv (w.complete sim k) := by
  unfold WebConn.complete
  split
  · exact h
  · rename_i c hc
    have herase : ConnInv { w with pending := w.pending.eraseIdx k } :=
      ⟨fun ha => ⟨(h.1 ha).1, fun d hd => (h.1 ha).2 d (List.eraseIdx_subset hd)⟩, h.2⟩
    have hfail : ∀ v : WebConn, ConnInv v → ConnInv (if v.alive then (v.write .error).write (.log "ERROR" "") else v) := by
      intro v hv
      split
      · exact (hv.write rfl).write rfl
      · exact hv
    simp only
    split
    · rename_i hall
      have hdead : w.alive = false := by
        cases ha : w.alive with
        | false => rfl
        | true =>
          have := List.all_eq_true.1 hall _ ((h.1 ha).2 c (List.mem_of_getElem? hc))
          simp [simFields] at this
      split
      · exact hfail _ herase
      · have hv : ∀ ts, ConnInv { w with pending := w.pending.eraseIdx k, trials := some ts } := fun ts =>
          ⟨fun ha => by simp [hdead] at ha, h.2⟩
        split
        · exact hfail _ (hv _)
        · rw [if_neg (by simp [hdead])]; exact hv _
    · exact hfail _ herase

/-- C175 (violated): whatever the client sends, and whatever the simulations return, no trials and no graphs are ever sent: the
parameters must be called `environment_params` for the page, and `Simulation` does not accept these. -/
theorem C175_results_false (sim : WebDict → Option (List WebTrial)) (es : List WebEvent) :
    ∀ o ∈ (webConn0.run sim es).out, o.result = false := by
  have : ∀ (es : List WebEvent) (w : WebConn), ConnInv w → ConnInv (w.run sim es) := by
    intro es
    induction es with
    | nil => intro w h; exact h
    | cons e es ih =>
      intro w h
      refine ih _ ?_
      cases e with
      | msg m =>
        simp only [WebConn.step]
        split
        · rename_i ha; exact h.receive ha m
        · exact h
      | done k => exact h.complete sim k
  exact (this es webConn0 ⟨fun _ => ⟨rfl, fun c hc => by simp [webConn0] at hc⟩, fun o ho => by simp [webConn0] at ho⟩).2

/-- What is sent for a configuration that is accepted. -/
private theorem receive_out (w : WebConn) (c : WebDict) (n : String) (d : Dict String WebVal)
    (hn : Dict.get? c "name" = some (.text n)) (hd : Dict.get? c "environment_params" = some (.params d)) :
    (w.receive (.configFile [c])).out = w.out ++ [.log "INFO" n] ++ ((Dict.get? c "visualization_params").map WebOut.visualization).toList ++
      [.settings (d.map (fun kv => (kv.1, setType kv.2, kv.2)))] ∧
    (w.receive (.configFile [c])).alive = w.alive ∧
    (w.receive (.configFile [c])).pending = w.pending ++ [Dict.set (Dict.set (if Dict.has c "visualization_params" then
      Dict.del c "visualization_params" else c) "outdir" (.other 0)) "dump" (.other 0)] := by
  simp only [WebConn.receive, hn, hd, WebConn.start, WebConn.write, WebConn.showParams]
  cases Dict.get? c "visualization_params" <;> simp

/-- C175 (partial): a configuration with a name and `environment_params` is accepted: the page gets its visualization and its settings,
and a run of it begins. What is missing: the run fails. -/
theorem C175_accepted_partial (w : WebConn) (ha : w.alive = true) (c : WebDict) (n : String) (d : Dict String WebVal)
    (hn : Dict.get? c "name" = some (.text n)) (hd : Dict.get? c "environment_params" = some (.params d)) :
    ∃ r, (w.receive (.configFile [c])).pending = w.pending ++ [r] ∧ (∀ k v, k ∉ ["visualization_params", "outdir", "dump"] → Dict.WF c →
        (Dict.get? r k = some v ↔ Dict.get? c k = some v)) ∧
    (w.receive (.configFile [c])).alive = true ∧
    (∀ v, Dict.get? c "visualization_params" = some v → .visualization v ∈ (w.receive (.configFile [c])).out) ∧
    ∃ l, (w.receive (.configFile [c])).out.getLast? = some (.settings l) := by
  obtain ⟨ho, hal, hp⟩ := receive_out w c n d hn hd
  refine ⟨_, hp, ?_, by rw [hal, ha], ?_, ?_⟩
  · intro k v hk hwf
    simp only [List.mem_cons, List.not_mem_nil, or_false, not_or] at hk
    rw [Dict.get?_set_ne _ _ (Ne.symm hk.2.2), Dict.get?_set_ne _ _ (Ne.symm hk.2.1)]
    split
    · rw [Dict.get?_del c hwf, if_neg (Ne.symm hk.1)]
    · exact Iff.rfl
  · intro v hv
    rw [ho, hv]; simp
  · exact ⟨_, by rw [ho, getLast?_snoc]⟩

/-- The configuration of soil/web/config.yml, shortened, with booleans and a larger number. -/
private def exConf : WebDict :=
  [("name", .text "spread"), ("visualization_params", .other 7), ("max_time", .other 50),
   ("environment_params", .params [("prob", .num (1/2)), ("n", .num 100), ("flag", .bool true), ("label", .other 3)])]

/-- A simulation with two models that have names. -/
private def exSim : WebDict → Option (List WebTrial) := fun _ => some [⟨some "t0", true⟩, ⟨some "t1", true⟩]

set_option maxRecDepth 100000 in
example : (webConn0.run exSim [.msg (.configFile [exConf]), .done 0, .msg (.runSimulation (.params [])), .done 0, .msg (.getTrial 0)]).out =
    [.log "INFO" "spread", .visualization (.other 7),
     .settings [("prob", .number, .num (1/2)), ("n", .greatNumber, .num 100), ("flag", .boolean, .bool true), ("label", .undefined, .other 3)],
     .error, .log "ERROR" "", .log "INFO" "spread", .error, .log "ERROR" ""] := by decide +kernel

set_option maxRecDepth 100000 in
/-- Without `environment_params` the simulation is run, but nobody is told. -/
example : ((webConn0.run exSim [.msg (.configFile [[("name", .text "spread")]]), .done 0]).out,
      (webConn0.run exSim [.msg (.configFile [[("name", .text "spread")]]), .done 0]).trials.map List.length) =
    ([.log "INFO" "spread"], some 2) := by decide +kernel

/-! ## C176: The settings are the parameters -/

/-- C176: the settings have the parameters of the configuration, in their order, with their values. Numbers up to one are `number`, larger
ones `great_number`; booleans are not numbers. -/
theorem C176_settings (w : WebConn) (c : WebDict) (n : String) (d : Dict String WebVal)
    (hn : Dict.get? c "name" = some (.text n)) (hd : Dict.get? c "environment_params" = some (.params d)) :
    ∃ l, (w.receive (.configFile [c])).out.getLast? = some (.settings l) ∧ l.map (fun x => (x.1, x.2.2)) = d ∧
    ∀ k t v, (k, t, v) ∈ l →
      (t = .number ↔ ∃ q, v = .num q ∧ q ≤ 1) ∧ (t = .greatNumber ↔ ∃ q, v = .num q ∧ 1 < q) ∧ (t = .boolean ↔ ∃ b, v = .bool b) := by
  refine ⟨_, by rw [(receive_out w c n d hn hd).1, getLast?_snoc],
    by rw [List.map_map]; exact (List.map_congr_left (fun _ _ => rfl)).trans (List.map_id d), ?_⟩
  intro k t v hm
  simp only [List.mem_map, Prod.mk.injEq] at hm
  obtain ⟨⟨k', v'⟩, -, rfl, rfl, rfl⟩ := hm
  cases v' with
  | num q =>
    simp only [setType]
    split
    · rename_i h; simp [h]
    · rename_i h; simp [h, lt_of_not_ge h]
  | bool b => simp [setType]
  | other n => simp [setType]

/-! ## C177: A wrong message does not end the connection -/

/-- C177 (violated): these messages of a new connection close it without an answer: a file without configurations, a configuration
without a name, a run or a request for a trial before there is a configuration. -/
theorem C177_closed_false (c : WebDict) (hc : Dict.get? c "name" = none) (data : ConfVal) (i : Int) :
    ∀ m ∈ [.configFile [], .configFile [c], .runSimulation data, .getTrial i, .download i], 
      (webConn0.receive m).alive = false ∧ (webConn0.receive m).out = [] := by
  intro m hm
  simp only [List.mem_cons, List.not_mem_nil, or_false] at hm
  rcases hm with rfl | rfl | rfl | rfl | rfl <;> simp [WebConn.receive, webConn0, WebConn.die, WebConn.getGraph, hc]

/-- C177 (partial): after a file with several configurations there is an error, and the connection goes on: the next configuration is
accepted. -/
theorem C177_several_partial (w : WebConn) (ha : w.alive = true) (docs : List WebDict) (h : 2 ≤ docs.length) (c : WebDict) (n : String)
    (d : Dict String WebVal) (hn : Dict.get? c "name" = some (.text n)) (hd : Dict.get? c "environment_params" = some (.params d)) :
    (w.receive (.configFile docs)).alive = true ∧ (w.receive (.configFile docs)).out = w.out ++ [.error] ∧
    ((w.receive (.configFile docs)).receive (.configFile [c])).alive = true ∧
    ∃ l, ((w.receive (.configFile docs)).receive (.configFile [c])).out.getLast? = some (.settings l) := by
  have h1 : w.receive (.configFile docs) = { w with config := .list, out := w.out ++ [.error] } := by
    match docs, h with
    | _ :: _ :: _, _ => rfl
  have h2 := receive_out (w.receive (.configFile docs)) c n d hn hd
  refine ⟨by rw [h1, ← ha], by rw [h1], by rw [h2.2.1, h1, ← ha], ?_⟩
  exact ⟨_, by rw [h2.1, getLast?_snoc]⟩

/-! ## C178: The options of soil-web -/

/-- C178 (violated): the server listens on port 8001 if another one is given, and does not dump if told so. -/
theorem C178_ignored_false (a : WebArgs) : (∀ p, a.port = some p → p ≠ "8001" → (webMain a).port = .int 8001) ∧
    (a.dump = true → (webMain a).dump = false) :=
  ⟨fun _ _ _ => rfl, fun _ => rfl⟩

/-- C178 (violated): a name that is given is shown as a list. -/
theorem C178_name_false (a : WebArgs) (n : String) (h : a.name = some n) : (webMain a).name ≠ .text n := by
  simp [webMain, modularServer, WebServer.launch, h]

/-- C178 (partial): the options `verbose` and the defaults work. -/
theorem C178_defaults_partial (a : WebArgs) (hn : a.name = none) :
    webMain a = ⟨.int 8001, .text "SOIL", false, a.verbose⟩ := by
  simp [webMain, modularServer, WebServer.launch, hn]

example : webMain ⟨some "demo", true, some "9000", true⟩ = ⟨.int 8001, .single "demo", false, true⟩ := rfl

end Verif
