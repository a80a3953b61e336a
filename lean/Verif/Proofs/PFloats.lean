import Verif.Model.PFloats
import Verif.Props.Floats
import Verif.Props.PQueue

/-!
# Every execution of the rounded priority queue is one of the exact one
-/

namespace Verif
open Spec

/-! ### Heaps do not look at anything but the order -/

section
variable {α β : Type} {lt : α → α → Bool} {lt' : β → β → Bool} {f : α → β} (hf : ∀ a b, lt' (f a) (f b) = lt a b)
include hf

theorem siftdown_map (item : α) (heap : List α) (start pos : Nat) :
    siftdown lt' (f item) (heap.map f) start pos = (siftdown lt item heap start pos).map f := by
  induction pos using Nat.strong_induction_on generalizing heap with
  | _ pos ih =>
    rw [siftdown, siftdown]
    split
    · rename_i hlt
      rw [List.getElem?_map]
      cases heap[(pos - 1) / 2]? with
      | none => rfl
      | some p =>
        simp only [Option.map_some, hf]
        split
        · rw [← List.map_set, ih _ (by omega)]
        · rw [List.map_set]
    · rw [List.map_set]

theorem smallerChild_map (heap : List α) (c : Nat) : smallerChild lt' (heap.map f) c = smallerChild lt heap c := by
  unfold smallerChild
  rw [List.getElem?_map, List.getElem?_map]
  cases heap[c]? with
  | none => rfl
  | some a =>
    cases heap[c + 1]? with
    | none => rfl
    | some b => simp only [Option.map_some, hf]

theorem siftupLoop_map (n : Nat) (heap : List α) (pos : Nat) (hn : heap.length - pos = n) :
    siftupLoop lt' (heap.map f) pos = ((siftupLoop lt heap pos).1.map f, (siftupLoop lt heap pos).2) := by
  induction n using Nat.strong_induction_on generalizing heap pos with
  | _ n ih =>
    rw [siftupLoop, siftupLoop.eq_def lt]
    simp only [List.length_map, smallerChild_map hf]
    split
    · rename_i hlt
      rw [List.getElem?_map]
      cases hc : heap[smallerChild lt heap (2 * pos + 1)]? with
      | none => rfl
      | some c =>
        simp only [Option.map_some]
        rw [← List.map_set]
        have hgt : pos < smallerChild lt heap (2 * pos + 1) := by
          unfold smallerChild
          split
          · split <;> omega
          · omega
        exact ih _ (by rw [List.length_set]; omega) _ _ rfl
    · rfl

theorem siftup_map (item : α) (heap : List α) : siftup lt' (f item) (heap.map f) = (siftup lt item heap).map f := by
  unfold siftup
  rw [siftupLoop_map hf _ heap 0 rfl]
  exact siftdown_map hf _ _ _ _

theorem heappush_map (heap : List α) (item : α) : heappush lt' (heap.map f) (f item) = (heappush lt heap item).map f := by
  unfold heappush
  rw [← siftdown_map hf, List.map_append, List.length_map]
  rfl

theorem heappop_map (heap : List α) : heappop lt' (heap.map f) = (heappop lt heap).map f := by
  unfold heappop
  rw [List.getLast?_map]
  cases heap.getLast? with
  | none => rfl
  | some x =>
    simp only [Option.map_some]
    rw [← List.map_dropLast]
    cases heap.dropLast with
    | nil => rfl
    | cons y ys => exact siftup_map hf x (y :: ys)

theorem heapreplace_map (heap : List α) (item : α) :
    heapreplace lt' (heap.map f) (f item) = (heapreplace lt heap item).map (List.map f) := by
  unfold heapreplace
  cases heap with
  | nil => rfl
  | cons y ys =>
    simp only [List.map_cons, Option.map_some]
    rw [← List.map_cons, siftup_map hf]

end

/-! ### Images -/

variable {W : Type}

/-- The exact entry. -/
def imgE (e : NPEntry) : PEntry := ⟨e.when_.val, e.key, e.ref⟩

theorem imgE_lt (a b : NPEntry) : PEntry.lt (imgE a) (imgE b) = NPEntry.lt a b := rfl

/-- The exact scheduler. -/
def imgP (s : NPSched) : PSched :=
  { time := s.time.val, steps := s.steps, queue := s.queue.map imgE, agents := s.agents, interval := s.interval.val,
    running := s.running, log := s.log.map (imgEv s.interval) }

/-- What the agents and the random numbers did, in order. -/
inductive PItem where
  | act (rep : Reply) (ops : List SOp)
  | key (k : Rat)

def SOp.notAdd : SOp → Bool
  | .add _ _ => false
  | _ => true

/-- Does what is written in the world, but adds no agents. -/
def replayPHost : PHost (List PItem) where
  step _ _ w := match w with
    | .act rep ops :: w => (rep, ops.filter SOp.notAdd, w)
    | w => (.dead, [], w)
  key _ w := match w with
    | .key k :: w => (k, w)
    | w => (0, w)

theorem replayPHost_noAdd : NoAdd replayPHost := by
  intro r s w q wh hm
  unfold replayPHost at hm
  simp only at hm
  split at hm
  · have := (List.mem_filter.1 hm).2
    cases this
  · cases hm

/-- Agents do not add agents. -/
def NPNoAdd (H : NPHost W) : Prop := ∀ r s w q wh, SOp.add q wh ∉ (H.step r s w).2.1

def erasePCmd : Cmd W → Cmd (List PItem)
  | .step => .step
  | .op o => .op o
  | .world _ => .world id

theorem img_pschedule (H : NPHost W) (s : NPSched) (w : W) (r : Ref) (wh : Option Num) (b : Bool) :
    ∃ S, ∀ rest, (imgP s).schedule replayPHost (S ++ rest) r (wh.map Num.val) b =
      (imgP (s.schedule H w r wh b).1, rest, (s.schedule H w r wh b).2.2) := by
  refine ⟨[.key (H.key r w).1], fun rest => ?_⟩
  have he : (⟨(wh.map Num.val).getD (imgP s).time, (H.key r w).1, r⟩ : PEntry) = imgE ⟨wh.getD s.time, (H.key r w).1, r⟩ := by
    cases wh <;> rfl
  unfold PSched.schedule NPSched.schedule
  simp only [replayPHost, List.singleton_append]
  rw [he]
  cases b with
  | false =>
    simp only [Bool.false_eq_true, if_false]
    rw [show (imgP s).queue = s.queue.map imgE from rfl, heappush_map imgE_lt]
    rfl
  | true =>
    simp only [if_true]
    rw [show (imgP s).queue = s.queue.map imgE from rfl, heapreplace_map imgE_lt]
    cases heapreplace NPEntry.lt s.queue ⟨wh.getD s.time, (H.key r w).1, r⟩ with
    | none => rfl
    | some q => rfl

theorem schedule_fields (H : NPHost W) (s : NPSched) (w : W) (r : Ref) (wh : Option Num) (b : Bool) :
    (s.schedule H w r wh b).1.interval = s.interval ∧ (s.schedule H w r wh b).1.log = s.log ∧
    (s.schedule H w r wh b).1.time = s.time := by
  unfold NPSched.schedule
  simp only
  split
  · split <;> exact ⟨rfl, rfl, rfl⟩
  · exact ⟨rfl, rfl, rfl⟩

theorem img_papplyOp (H : NPHost W) (s : NPSched) (w : W) (o : SOp) :
    ∃ S, ∀ rest, (imgP s).applyOp replayPHost (S ++ rest) o = (imgP (s.applyOp H w o).1, rest, (s.applyOp H w o).2.2) := by
  cases o with
  | add r wh =>
    obtain ⟨S, hS⟩ := img_pschedule H s w r none (wh.getD s.time.val).truthy
    refine ⟨S, fun rest => ?_⟩
    have hi := (schedule_fields H s w r none (wh.getD s.time.val).truthy).1
    simp only [PSched.applyOp, NPSched.applyOp, PSched.addAgent, NPSched.addAgent]
    have := hS rest
    rw [show (imgP s).time = s.time.val from rfl]
    simp only [Option.map_none] at this
    rw [this]
    generalize s.schedule H w r none (wh.getD s.time.val).truthy = res at hi
    simp only
    split
    · rfl
    · simp only [imgP, List.map_append, hi, List.map_cons, List.map_nil, imgEv]
  | remove r => exact ⟨[], fun rest => rfl⟩
  | stop => exact ⟨[], fun rest => rfl⟩

/-- Operations without additions change the agents and `running` only. -/
theorem napplyOps_noadd (H : NPHost W) (s : NPSched) (w : W) (os : List SOp) (h : ∀ q wh, SOp.add q wh ∉ os) :
    (s.applyOps H w os).2 = (w, false) ∧ (s.applyOps H w os).1.interval = s.interval ∧ (s.applyOps H w os).1.log = s.log ∧
    (s.applyOps H w os).1.queue = s.queue ∧
    ∀ rest, (imgP s).applyOps replayPHost rest os = (imgP (s.applyOps H w os).1, rest, false) := by
  induction os generalizing s with
  | nil => exact ⟨rfl, rfl, rfl, rfl, fun _ => rfl⟩
  | cons o os ih =>
    have h' : ∀ q wh, SOp.add q wh ∉ os := fun q wh hm => h q wh (List.mem_cons_of_mem _ hm)
    cases o with
    | add q wh => exact absurd List.mem_cons_self (h q wh)
    | remove r => exact ih { s with agents := s.agents.erase r } h'
    | stop => exact ih { s with running := false } h'

theorem imgP_logAct (s : NPSched) (r : Ref) (t : Num) (rep : NReply) :
    imgP (s.logAct r t rep) = (imgP s).logAct r t.val (adjust s.interval t rep) := by
  simp [imgP, NPSched.logAct, PSched.logAct, imgEv]

theorem imgP_pop (s : NPSched) : imgP s.pop = (imgP s).pop := by
  simp only [imgP, NPSched.pop, PSched.pop, ← heappop_map imgE_lt]

theorem npLoop_props (H : NPHost W) (now : Num) (fuel : Nat) (s : NPSched) (w : W) (hna : NPNoAdd H) :
    (npLoop H now fuel s w).1.interval = s.interval ∧ ∃ l, (npLoop H now fuel s w).1.log = s.log ++ l := by
  induction fuel generalizing s w with
  | zero =>
    unfold npLoop
    cases s.queue with
    | nil => exact ⟨rfl, [], by simp⟩
    | cons e q =>
      simp only
      split <;> exact ⟨rfl, [], by simp⟩
  | succ fuel ih =>
    unfold npLoop
    cases s.queue with
    | nil => exact ⟨rfl, [], by simp⟩
    | cons e q =>
      simp only
      split
      · exact ⟨rfl, [], by simp⟩
      · obtain ⟨h1, h2, h3, h4, h5⟩ := napplyOps_noadd H s (H.step e.ref s w).2.2 (H.step e.ref s w).2.1 (hna e.ref s w)
        generalize s.applyOps H (H.step e.ref s w).2.2 (H.step e.ref s w).2.1 = ops at h1 h2 h3
        obtain ⟨s1, w1, b1⟩ := ops
        cases h1
        simp only at h2 h3
        simp only [Bool.false_eq_true, if_false]
        have step : ∀ (s2 : NPSched) (w2 : W), s2.interval = s.interval → (∃ l, s2.log = s.log ++ l) →
            (npLoop H now fuel s2 w2).1.interval = s.interval ∧ ∃ l, (npLoop H now fuel s2 w2).1.log = s.log ++ l := by
          intro s2 w2 hi ⟨l, hl⟩
          obtain ⟨a, l2, b⟩ := ih s2 w2
          exact ⟨a.trans hi, l ++ l2, by rw [b, hl, List.append_assoc]⟩
        have hlog : ∀ rep, (s1.logAct e.ref now rep).log = s.log ++ [.act e.ref now rep] := by
          intro rep
          simp [NPSched.logAct, h3]
        split
        · exact ⟨h2, _, hlog _⟩
        · exact step _ _ h2 ⟨_, hlog _⟩
        · split
          · exact step _ _ h2 ⟨_, hlog _⟩
          · split
            · exact ⟨(schedule_fields H _ _ _ _ _).1.trans h2, _, (schedule_fields H _ _ _ _ _).2.1.trans (hlog _)⟩
            · exact step _ _ ((schedule_fields H _ _ _ _ _).1.trans h2) ⟨_, (schedule_fields H _ _ _ _ _).2.1.trans (hlog _)⟩

theorem npLoop_replay (H : NPHost W) (now : Num) (fuel : Nat) (s : NPSched) (w : W) (hna : NPNoAdd H)
    (hp : ∀ e ∈ (npLoop H now fuel s w).1.log, Advances s.interval e) :
    ∃ S, ∀ rest, pLoop replayPHost now.val fuel (imgP s) (S ++ rest) =
      (imgP (npLoop H now fuel s w).1, rest, (npLoop H now fuel s w).2.2.1.val, (npLoop H now fuel s w).2.2.2) := by
  induction fuel generalizing s w with
  | zero =>
    unfold npLoop
    unfold pLoop
    rw [show (imgP s).queue = s.queue.map imgE from rfl]
    cases s.queue with
    | nil => exact ⟨[], fun rest => rfl⟩
    | cons e q =>
      simp only [List.map_cons]
      refine ⟨[], fun rest => ?_⟩
      rw [show (imgE e).when_ = e.when_.val from rfl]
      split <;> rfl
  | succ fuel ih =>
    unfold npLoop at hp ⊢
    unfold pLoop
    rw [show (imgP s).queue = s.queue.map imgE from rfl]
    cases hq : s.queue with
    | nil => exact ⟨[], fun rest => rfl⟩
    | cons e q =>
      rw [hq] at hp
      simp only [List.map_cons] at hp ⊢
      rw [show (imgE e).when_ = e.when_.val from rfl, show (imgE e).ref = e.ref from rfl]
      by_cases hlt : now.val < e.when_.val
      · rw [if_pos hlt]
        refine ⟨[], fun rest => ?_⟩
        rw [if_pos hlt]
        rfl
      · rw [if_neg hlt] at hp ⊢
        obtain ⟨h1, h2, h3, h4, h5⟩ := napplyOps_noadd H s (H.step e.ref s w).2.2 (H.step e.ref s w).2.1 (hna e.ref s w)
        have hfil : (H.step e.ref s w).2.1.filter SOp.notAdd = (H.step e.ref s w).2.1 := by
          rw [List.filter_eq_self]
          intro o ho
          cases o with
          | add q wh => exact absurd ho (hna e.ref s w q wh)
          | remove r => rfl
          | stop => rfl
        generalize hops : s.applyOps H (H.step e.ref s w).2.2 (H.step e.ref s w).2.1 = ops at h1 h2 h3 h5 hp
        obtain ⟨s1, w1, b1⟩ := ops
        cases h1
        simp only at h2 h3 h5
        simp only [Bool.false_eq_true, if_false] at hp ⊢
        -- one activation of the replaying host
        have hact : ∀ (rep : NReply) (S : List PItem) (rest : List PItem),
            (fun (res : Reply × List SOp × List PItem) =>
              let ops := (imgP s).applyOps replayPHost res.2.2 res.2.1
              (ops.1.logAct e.ref now.val (if ops.2.2 then Reply.error else res.1), ops.2.1, (if ops.2.2 then Reply.error else res.1)))
              (replayPHost.step e.ref (imgP s) (.act (adjust s.interval now rep) (H.step e.ref s w).2.1 :: S ++ rest)) =
            (imgP (s1.logAct e.ref now rep), S ++ rest, adjust s.interval now rep) := by
          intro rep S rest
          simp only [replayPHost, List.cons_append, hfil]
          have := h5 (S ++ rest)
          simp only [replayPHost] at this
          rw [this]
          simp only [Bool.false_eq_true, if_false]
          rw [imgP_logAct, h2]
        have hmem : ∀ rep s2 w2, s2.log = s1.log ++ [.act e.ref now rep] → NEv.act e.ref now rep ∈ (npLoop H now fuel s2 w2).1.log := by
          intro rep s2 w2 hl
          obtain ⟨_, l, hl2⟩ := npLoop_props H now fuel s2 w2 hna
          rw [hl2, hl]
          simp
        cases hrep : (H.step e.ref s w).1 with
        | error =>
          rw [hrep] at hp
          simp only at hp
          exact absurd (hp (.act e.ref now .error) (by simp [NPSched.logAct])) (fun h => h)
        | dead =>
          rw [hrep] at hp
          simp only at hp ⊢
          obtain ⟨S, hS⟩ := ih (s1.logAct e.ref now .dead).pop (H.step e.ref s w).2.2
            (by rw [show (s1.logAct e.ref now .dead).pop.interval = s1.interval from rfl, h2]; exact hp)
          refine ⟨.act .dead (H.step e.ref s w).2.1 :: S, fun rest => ?_⟩
          rw [if_neg hlt]
          have ha := hact .dead S rest
          simp only at ha
          obtain ⟨a1, a2⟩ := Prod.mk.inj ha
          obtain ⟨a2, a3⟩ := Prod.mk.inj a2
          rw [show (PItem.act .dead (H.step e.ref s w).2.1 :: S ++ rest) =
            .act (adjust s.interval now .dead) (H.step e.ref s w).2.1 :: S ++ rest from rfl, a1, a2, a3]
          simp only [adjust]
          rw [← imgP_pop]
          exact hS rest
        | ret d =>
          rw [hrep] at hp
          simp only at hp ⊢
          have hint : (s1.logAct e.ref now (.ret d)).interval = s.interval := h2
          have hadv : now.val = .inf ∨ now.val < ((Num.pyOr d s.interval).add now).val := by
            refine hp (.act e.ref now (.ret d)) ?_
            split
            · exact hmem (.ret d) _ _ rfl
            · split
              · rw [(schedule_fields H _ _ _ _ _).2.1]
                simp [NPSched.logAct]
              · exact hmem (.ret d) _ _ ((schedule_fields H _ _ _ _ _).2.1)
          have hwhen := adjust_when s.interval now d (imgP (s1.logAct e.ref now (.ret d))).interval hadv
          rw [hint] at hp ⊢
          by_cases hinf : ((Num.pyOr d s.interval).add now).val = .inf
          · rw [if_pos hinf] at hp ⊢
            obtain ⟨S, hS⟩ := ih (s1.logAct e.ref now (.ret d)).pop (H.step e.ref s w).2.2
              (by rw [show (s1.logAct e.ref now (.ret d)).pop.interval = s1.interval from rfl, h2]; exact hp)
            refine ⟨.act (adjust s.interval now (.ret d)) (H.step e.ref s w).2.1 :: S, fun rest => ?_⟩
            rw [if_neg hlt]
            have ha := hact (.ret d) S rest
            simp only at ha
            obtain ⟨a1, a2⟩ := Prod.mk.inj ha
            obtain ⟨a2, a3⟩ := Prod.mk.inj a2
            rw [a1, a2, a3]
            simp only [adjust]
            rw [hwhen, if_pos hinf, ← imgP_pop]
            exact hS rest
          · rw [if_neg hinf] at hp ⊢
            obtain ⟨S0, hS0⟩ := img_pschedule H (s1.logAct e.ref now (.ret d)) (H.step e.ref s w).2.2 e.ref
              (some ((Num.pyOr d s.interval).add now)) true
            have hf := schedule_fields H (s1.logAct e.ref now (.ret d)) (H.step e.ref s w).2.2 e.ref
              (some ((Num.pyOr d s.interval).add now)) true
            simp only [Option.map_some] at hS0
            generalize (s1.logAct e.ref now (.ret d)).schedule H (H.step e.ref s w).2.2 e.ref
              (some ((Num.pyOr d s.interval).add now)) true = sc at hp hS0 hf
            by_cases hsc : sc.2.2 = true
            · rw [if_pos hsc]
              refine ⟨.act (adjust s.interval now (.ret d)) (H.step e.ref s w).2.1 :: S0, fun rest => ?_⟩
              rw [if_neg hlt]
              have ha := hact (.ret d) S0 rest
              simp only at ha
              obtain ⟨a1, a2⟩ := Prod.mk.inj ha
              obtain ⟨a2, a3⟩ := Prod.mk.inj a2
              rw [a1, a2, a3]
              simp only [adjust]
              rw [hwhen, if_neg hinf, hS0 rest]
              simp only
              rw [if_pos hsc]
              rfl
            · rw [if_neg hsc] at hp ⊢
              obtain ⟨S, hS⟩ := ih sc.1 sc.2.1 (by rw [hf.1, show (s1.logAct e.ref now (.ret d)).interval = s.interval from h2]; exact hp)
              refine ⟨.act (adjust s.interval now (.ret d)) (H.step e.ref s w).2.1 :: (S0 ++ S), fun rest => ?_⟩
              rw [if_neg hlt]
              have ha := hact (.ret d) (S0 ++ S) rest
              simp only at ha
              obtain ⟨a1, a2⟩ := Prod.mk.inj ha
              obtain ⟨a2, a3⟩ := Prod.mk.inj a2
              rw [a1, a2, a3]
              simp only [adjust]
              rw [hwhen, if_neg hinf, List.append_assoc, hS0 (S ++ rest)]
              simp only
              rw [if_neg hsc]
              exact hS rest

theorem npstep_props (H : NPHost W) (fuel : Nat) (s : NPSched) (w : W) (hna : NPNoAdd H) :
    (s.step H fuel w).1.interval = s.interval ∧ ∃ l, (s.step H fuel w).1.log = s.log ++ l := by
  unfold NPSched.step
  split
  · exact ⟨rfl, [], by simp⟩
  · simp only
    split
    · exact npLoop_props H s.time fuel s w hna
    · exact npLoop_props H s.time fuel s w hna

theorem npstep_replay (H : NPHost W) (fuel : Nat) (s : NPSched) (w : W) (hna : NPNoAdd H)
    (hp : ∀ e ∈ (s.step H fuel w).1.log, Advances s.interval e) :
    ∃ S, ∀ rest, (imgP s).step replayPHost fuel (S ++ rest) = (imgP (s.step H fuel w).1, rest, (s.step H fuel w).2.2) := by
  unfold NPSched.step at hp ⊢
  unfold PSched.step
  rw [show (imgP s).time = s.time.val from rfl]
  by_cases hinf : s.time.val = .inf
  · exact ⟨[], fun rest => by simp only [if_pos hinf]; rfl⟩
  · simp only [if_neg hinf] at hp ⊢
    have hp' : ∀ e ∈ (npLoop H s.time fuel s w).1.log, Advances s.interval e := by
      intro e he
      refine hp e ?_
      split <;> exact he
    obtain ⟨S, hS⟩ := npLoop_replay H s.time fuel s w hna hp'
    refine ⟨S, fun rest => ?_⟩
    rw [hS rest]
    cases hst : (npLoop H s.time fuel s w).2.2.2 with
    | ok => rfl
    | raised => rfl
    | stuck => rfl

theorem npexec_props (H : NPHost W) (fuel : Nat) (c : Cmd W) (sw : NPSched × W) (hna : NPNoAdd H) :
    (c.npexec H fuel sw).1.interval = sw.1.interval ∧ ∃ l, (c.npexec H fuel sw).1.log = sw.1.log ++ l := by
  cases c with
  | step => exact npstep_props H fuel sw.1 sw.2 hna
  | op o =>
    cases o with
    | add r wh =>
      simp only [Cmd.npexec, NPSched.applyOp, NPSched.addAgent]
      obtain ⟨h1, h2, _⟩ := schedule_fields H sw.1 sw.2 r none (wh.getD sw.1.time.val).truthy
      split
      · exact ⟨h1, [], by rw [h2]; simp⟩
      · exact ⟨h1, [.added r sw.1.time], by simp only; rw [h2]⟩
    | remove r => exact ⟨rfl, [], by simp [Cmd.npexec, NPSched.applyOp]⟩
    | stop => exact ⟨rfl, [], by simp [Cmd.npexec, NPSched.applyOp]⟩
  | world f => exact ⟨rfl, [], by simp [Cmd.npexec]⟩

theorem npexecAll_props (H : NPHost W) (fuel : Nat) (h : List (Cmd W)) (sw : NPSched × W) (hna : NPNoAdd H) :
    (npexecAll H fuel h sw).1.interval = sw.1.interval ∧ ∃ l, (npexecAll H fuel h sw).1.log = sw.1.log ++ l := by
  induction h generalizing sw with
  | nil => exact ⟨rfl, [], by simp [npexecAll]⟩
  | cons c h ih =>
    obtain ⟨h1, l1, h2⟩ := npexec_props H fuel c sw hna
    obtain ⟨h3, l2, h4⟩ := ih (c.npexec H fuel sw)
    exact ⟨h3.trans h1, l1 ++ l2, by show (npexecAll H fuel h (c.npexec H fuel sw)).1.log = _; rw [h4, h2, List.append_assoc]⟩

theorem npexec_replay (H : NPHost W) (fuel : Nat) (c : Cmd W) (sw : NPSched × W) (hna : NPNoAdd H)
    (hp : ∀ e ∈ (c.npexec H fuel sw).1.log, Advances sw.1.interval e) :
    ∃ S, ∀ rest, (erasePCmd c).pexec replayPHost fuel (imgP sw.1, S ++ rest) = (imgP (c.npexec H fuel sw).1, rest) := by
  cases c with
  | step =>
    obtain ⟨S, hS⟩ := npstep_replay H fuel sw.1 sw.2 hna hp
    refine ⟨S, fun rest => ?_⟩
    simp only [erasePCmd, Cmd.pexec, hS rest]
    rfl
  | op o =>
    obtain ⟨S, hS⟩ := img_papplyOp H sw.1 sw.2 o
    refine ⟨S, fun rest => ?_⟩
    simp only [erasePCmd, Cmd.pexec, hS rest]
    rfl
  | world f => exact ⟨[], fun rest => rfl⟩

theorem npexecAll_replay (H : NPHost W) (fuel : Nat) (h : List (Cmd W)) (sw : NPSched × W) (hna : NPNoAdd H)
    (hp : ∀ e ∈ (npexecAll H fuel h sw).1.log, Advances sw.1.interval e) :
    ∃ S, ∀ rest, pexecAll replayPHost fuel (h.map erasePCmd) (imgP sw.1, S ++ rest) = (imgP (npexecAll H fuel h sw).1, rest) := by
  induction h generalizing sw with
  | nil => exact ⟨[], fun rest => rfl⟩
  | cons c h ih =>
    have hx : npexecAll H fuel (c :: h) sw = npexecAll H fuel h (c.npexec H fuel sw) := rfl
    rw [hx] at hp ⊢
    obtain ⟨hi, l, hl⟩ := npexec_props H fuel c sw hna
    obtain ⟨_, l2, hl2⟩ := npexecAll_props H fuel h (c.npexec H fuel sw) hna
    obtain ⟨S1, h1⟩ := npexec_replay H fuel c sw hna (fun e he => hp e (by rw [hl2]; exact List.mem_append_left _ he))
    obtain ⟨S2, h2⟩ := ih (c.npexec H fuel sw) (by rw [hi]; exact hp)
    refine ⟨S1 ++ S2, fun rest => ?_⟩
    show pexecAll replayPHost fuel (h.map erasePCmd) ((erasePCmd c).pexec replayPHost fuel (imgP sw.1, S1 ++ S2 ++ rest)) = _
    rw [List.append_assoc, h1, h2]

end Verif
