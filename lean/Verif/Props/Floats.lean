import Verif.Proofs.Floats
import Verif.Props.Scheduler

/-!
# The scheduler with the numbers of Python (C203)
-/

namespace Verif
open Spec

variable {W : Type}

/-! ## What the rounded scheduler is asked for -/

/-- When an agent that was activated at `t` and replied `rep` is to wake up next: at the sum as Python computes it. -/
def nnext (iv t : Num) : NReply → Option Time
  | .ret d => if ((Num.pyOr d iv).add t).val = .inf then none else some ((Num.pyOr d iv).add t).val
  | _ => none

/-- The effect of an event on the pending wake-ups. -/
def ncalStep (iv : Num) (c : Cal) : NEv → Cal
  | .added r t => c ++ [(r, t.val)]
  | .act r t rep => c.erase (r, t.val) ++ ((nnext iv t rep).map (r, ·)).toList

/-- The pending wake-ups after a log. -/
def ncal (iv : Num) (log : List NEv) : Cal := log.foldl (ncalStep iv) []

/-- No reply is an exception, and no delay is lost by rounding: the sum is later than the current time. -/
def Advances (iv : Num) : NEv → Prop
  | .act _ t (.ret d) => t.val = .inf ∨ t.val < ((Num.pyOr d iv).add t).val
  | .act _ _ .error => False
  | _ => True

instance (iv : Num) : DecidablePred (Advances iv)
  | .act _ t (.ret d) => inferInstanceAs (Decidable (t.val = .inf ∨ t.val < ((Num.pyOr d iv).add t).val))
  | .act _ _ .error => isFalse (fun h => h)
  | .act _ _ .dead => isTrue trivial
  | .added _ _ => isTrue trivial

/-- The time, the agent and the kind of an event. -/
def NEv.time : NEv → Num
  | .added _ t => t
  | .act _ t _ => t

def NEv.ref : NEv → Ref
  | .added r _ => r
  | .act r _ _ => r

/-- It is the addition of this agent. -/
def NEv.adds (r : Ref) : NEv → Bool
  | .added r' _ => r' == r
  | _ => false

/-- The agents activated in a piece of log. -/
def nactRefs (l : List NEv) : List Ref :=
  l.filterMap fun e => match e with
    | .act r _ _ => some r
    | _ => none

/-- The state reached from a new scheduler. -/
abbrev nreach (H : NHost W) (iv : Num) (sh : Bool) (w0 : W) (h : List (Cmd W)) : NSched × W :=
  nexecAll H h (NSched.init iv sh, w0)

/-! ## The exact scheduler that does the same -/

/-- The exact difference. -/
def gap : Time → Time → Time
  | .fin a, .fin b => .fin (a - b)
  | _, _ => .inf

/-- The reply that asks an exact scheduler for the rounded time. -/
def adjust (iv t : Num) : NReply → Reply
  | .ret d => .ret (some (gap ((Num.pyOr d iv).add t).val t.val))
  | .dead => .dead
  | .error => .error

def imgEv (iv : Num) : NEv → Ev
  | .added r t => .added r t.val
  | .act r t rep => .act r t.val (adjust iv t rep)

private def imgQ (q : List (Num × List Ref)) : List (Time × List Ref) := q.map (fun p => (p.1.val, p.2))

private def imgS (s : NSched) : Sched :=
  { time := s.time.val, steps := s.steps, queue := imgQ s.queue, agents := s.agents, interval := s.interval.val, shuffle := s.shuffle,
    running := s.running, log := s.log.map (imgEv s.interval) }

/-- What the agents and the shuffling did, in order. -/
private inductive Item where
  | act (rep : Reply) (ops : List SOp)
  | shuf (l : List Ref)

/-- Does what is written in the world. -/
private def replayHost : Host (List Item) where
  step _ _ w := match w with
    | .act rep ops :: w => (rep, ops, w)
    | w => (.dead, [], w)
  shuffle l w := match w with
    | .shuf p :: w => if p.isPerm l then (p, w) else (l, w)
    | w => (l, w)
  shuffle_perm l w := by
    split
    · split
      · next h => exact List.isPerm_iff.1 h
      · exact List.Perm.refl _
    · exact List.Perm.refl _

private def eraseCmd : Cmd W → Cmd (List Item)
  | .step => .step
  | .op o => .op o
  | .world _ => .world id

private theorem img_insert (t : Num) (r : Ref) (q : List (Num × List Ref)) : imgQ (ninsert t r q) = insertBucket t.val r (imgQ q) := by
  induction q with
  | nil => rfl
  | cons p q ih =>
    obtain ⟨u, l⟩ := p
    simp only [ninsert, imgQ, List.map_cons, insertBucket]
    split
    · rfl
    · split
      · rfl
      · simp only [List.map_cons]; rw [show List.map _ (ninsert t r q) = imgQ (ninsert t r q) from rfl, ih]; rfl

theorem img_pyOr (x : Option Num) (d : Num) : (Num.pyOr x d).val = Time.pyOr (x.map Num.val) d.val := by
  cases x with
  | none => rfl
  | some t =>
    simp only [Num.pyOr, Time.pyOr, Option.map_some]
    split <;> rfl

private theorem img_schedule (s : NSched) (r : Ref) (wh : Option Num) : imgS (s.schedule r wh) = (imgS s).schedule r (wh.map Num.val) := by
  simp only [imgS, NSched.schedule, Sched.schedule, img_insert, img_pyOr]

private theorem img_applyOp (s : NSched) (o : SOp) : imgS (s.applyOp o) = (imgS s).applyOp o := by
  cases o with
  | add r wh =>
    simp only [NSched.applyOp, Sched.applyOp, Sched.addAgent]
    rw [show (none : Option Time) = (none : Option Num).map Num.val from rfl, ← img_schedule]
    simp only [imgS, NSched.schedule, List.map_append, List.map_cons, List.map_nil, imgEv]
    first | done | rfl | (congr)
  | remove r => rfl
  | stop => rfl

private theorem img_applyOps (s : NSched) (os : List SOp) : imgS (s.applyOps os) = (imgS s).applyOps os := by
  induction os generalizing s with
  | nil => rfl
  | cons o os ih =>
    show imgS ((s.applyOp o).applyOps os) = ((imgS s).applyOp o).applyOps os
    rw [ih, img_applyOp]

private theorem img_logAct (s : NSched) (r : Ref) (t : Num) (rep : NReply) :
    imgS (s.logAct r t rep) = (imgS s).logAct r t.val (adjust s.interval t rep) := by
  simp [imgS, NSched.logAct, Sched.logAct, imgEv]

private theorem napplyOp_props (s : NSched) (o : SOp) : (s.applyOp o).interval = s.interval ∧ ∃ l, (s.applyOp o).log = s.log ++ l := by
  cases o with
  | add r wh => exact ⟨rfl, [.added r s.time], rfl⟩
  | remove r => exact ⟨rfl, [], by simp [NSched.applyOp]⟩
  | stop => exact ⟨rfl, [], by simp [NSched.applyOp]⟩

private theorem napplyOps_props (s : NSched) (os : List SOp) : (s.applyOps os).interval = s.interval ∧ ∃ l, (s.applyOps os).log = s.log ++ l := by
  induction os generalizing s with
  | nil => exact ⟨rfl, [], by simp [NSched.applyOps]⟩
  | cons o os ih =>
    obtain ⟨h1, l1, h2⟩ := napplyOp_props s o
    obtain ⟨h3, l2, h4⟩ := ih (s.applyOp o)
    exact ⟨h3.trans h1, l1 ++ l2, by show ((s.applyOp o).applyOps os).log = _; rw [h4, h2, List.append_assoc]⟩

private theorem nrunBucket_props (H : NHost W) (now : Num) (b : List Ref) (s : NSched) (w : W) :
    (nrunBucket H now b s w).1.interval = s.interval ∧ ∃ l, (nrunBucket H now b s w).1.log = s.log ++ l := by
  induction b generalizing s w with
  | nil => exact ⟨rfl, [], by simp [nrunBucket]⟩
  | cons r b ih =>
    obtain ⟨h1, l1, h2⟩ := napplyOps_props s (H.step r s w).2.1
    simp only [nrunBucket]
    cases hrep : (H.step r s w).1 with
    | error => exact ⟨h1, l1 ++ [.act r now .error], by simp [NSched.logAct, h2]⟩
    | dead =>
      obtain ⟨h3, l2, h4⟩ := ih ((s.applyOps (H.step r s w).2.1).logAct r now .dead) (H.step r s w).2.2
      exact ⟨h3.trans h1, l1 ++ [.act r now .dead] ++ l2, by rw [h4]; simp [NSched.logAct, h2]⟩
    | ret d =>
      simp only
      split
      · obtain ⟨h3, l2, h4⟩ := ih ((s.applyOps (H.step r s w).2.1).logAct r now (.ret d)) (H.step r s w).2.2
        exact ⟨h3.trans h1, l1 ++ [.act r now (.ret d)] ++ l2, by rw [h4]; simp [NSched.logAct, h2]⟩
      · obtain ⟨h3, l2, h4⟩ := ih (((s.applyOps (H.step r s w).2.1).logAct r now (.ret d)).schedule r
          (some ((Num.pyOr d ((s.applyOps (H.step r s w).2.1).logAct r now (.ret d)).interval).add now))) (H.step r s w).2.2
        exact ⟨h3.trans h1, l1 ++ [.act r now (.ret d)] ++ l2, by rw [h4]; simp [NSched.logAct, NSched.schedule, h2]⟩

private theorem add_inf (x y : Num) (h : y.val = .inf) : (x.add y).val = .inf := by
  cases y with
  | int n => cases h
  | flt q => cases h
  | inf => unfold Num.add; cases x <;> simp [Num.toFloat] <;> (try split) <;> simp_all [Num.val]

/-- The exact scheduler computes the rounded time. -/
theorem adjust_when (iv t : Num) (d : Option Num) (iv' : Time) (h : t.val = .inf ∨ t.val < ((Num.pyOr d iv).add t).val) :
    Time.pyOr (some (gap ((Num.pyOr d iv).add t).val t.val)) iv' + t.val = ((Num.pyOr d iv).add t).val := by
  rcases h with h | h
  · rw [add_inf _ _ h, h]; rfl
  · cases hb : t.val with
    | inf => rw [hb] at h; simp at h
    | fin b =>
      rw [hb] at h
      cases ha : ((Num.pyOr d iv).add t).val with
      | inf => rfl
      | fin a =>
        rw [ha] at h
        simp only [Time.fin_lt] at h
        have hne : ¬ (Time.fin (a - b) = 0) := by
          intro he; injection he with he; simp only [Nat.cast_zero, Int.cast_zero] at he; have he' : a - b = 0 := he; linarith
        rw [gap, Time.pyOr, if_neg hne]
        show Time.fin (a - b + b) = Time.fin a
        rw [sub_add_cancel]

private theorem runBucket_replay (H : NHost W) (now : Num) (b : List Ref) (s : NSched) (w : W)
    (hp : ∀ e ∈ (nrunBucket H now b s w).1.log, Advances s.interval e) :
    ∃ S, ∀ rest, runBucket replayHost now.val b (imgS s) (S ++ rest) =
      (imgS (nrunBucket H now b s w).1, rest, (nrunBucket H now b s w).2.2) := by
  induction b generalizing s w with
  | nil => exact ⟨[], fun rest => rfl⟩
  | cons r b ih =>
    obtain ⟨h1, l1, h2⟩ := napplyOps_props s (H.step r s w).2.1
    simp only [nrunBucket] at hp ⊢
    cases hrep : (H.step r s w).1 with
    | error =>
      simp only [hrep] at hp
      exact absurd (hp (.act r now .error) (by simp [NSched.logAct])) (fun h => h)
    | dead =>
      simp only [hrep] at hp ⊢
      have hint : ((s.applyOps (H.step r s w).2.1).logAct r now .dead).interval = s.interval := h1
      obtain ⟨S, hS⟩ := ih ((s.applyOps (H.step r s w).2.1).logAct r now .dead) (H.step r s w).2.2 (by rw [hint]; exact hp)
      refine ⟨.act .dead (H.step r s w).2.1 :: S, fun rest => ?_⟩
      simp only [List.cons_append, runBucket, replayHost]
      rw [← img_applyOps, show Reply.dead = adjust (s.applyOps (H.step r s w).2.1).interval now .dead from rfl, ← img_logAct]
      exact hS rest
    | ret d =>
      simp only [hrep] at hp ⊢
      generalize hs1 : (s.applyOps (H.step r s w).2.1).logAct r now (.ret d) = s1 at hp ⊢
      have hint : s1.interval = s.interval := by rw [← hs1]; exact h1
      have hlog : s1.log = s.log ++ l1 ++ [.act r now (.ret d)] := by rw [← hs1]; simp [NSched.logAct, h2]
      have hadv : now.val = .inf ∨ now.val < ((Num.pyOr d s.interval).add now).val := by
        have hmem : NEv.act r now (.ret d) ∈ s1.log := by rw [hlog]; simp
        have : ∀ s2 : NSched, s2.log = s1.log → ∀ w2, NEv.act r now (.ret d) ∈ (nrunBucket H now b s2 w2).1.log := by
          intro s2 h2 w2
          obtain ⟨_, l, hl⟩ := nrunBucket_props H now b s2 w2
          rw [hl, h2]; exact List.mem_append_left _ hmem
        refine hp (.act r now (.ret d)) ?_
        split
        · exact this s1 rfl _
        · exact this (s1.schedule r _) rfl _
      have himg : ((imgS s).applyOps (H.step r s w).2.1).logAct r now.val (adjust s.interval now (.ret d)) = imgS s1 := by
        rw [← hs1, img_logAct, img_applyOps, h1]
      have hwhen := adjust_when s.interval now d (imgS s1).interval hadv
      have hone : ∀ (S : List Item) rest, runBucket replayHost now.val (r :: b) (imgS s) ((.act (adjust s.interval now (.ret d)) (H.step r s w).2.1 :: S) ++ rest) =
          runBucket replayHost now.val b (if ((Num.pyOr d s.interval).add now).val = .inf then imgS s1
            else (imgS s1).schedule r (some ((Num.pyOr d s.interval).add now).val)) (S ++ rest) := by
        intro S rest
        show runBucket replayHost now.val b
          (if Time.pyOr (some (gap ((Num.pyOr d s.interval).add now).val now.val))
                (((imgS s).applyOps (H.step r s w).2.1).logAct r now.val (adjust s.interval now (.ret d))).interval + now.val = .inf then
              (((imgS s).applyOps (H.step r s w).2.1).logAct r now.val (adjust s.interval now (.ret d)))
            else ((((imgS s).applyOps (H.step r s w).2.1).logAct r now.val (adjust s.interval now (.ret d))).schedule r
              (some (Time.pyOr (some (gap ((Num.pyOr d s.interval).add now).val now.val))
                (((imgS s).applyOps (H.step r s w).2.1).logAct r now.val (adjust s.interval now (.ret d))).interval + now.val)))) (S ++ rest) = _
        simp only [himg, hwhen]
      rw [hint] at hp ⊢
      by_cases hinf : ((Num.pyOr d s.interval).add now).val = .inf
      · rw [if_pos hinf] at hp ⊢
        obtain ⟨S, hS⟩ := ih s1 (H.step r s w).2.2 (by rw [hint]; exact hp)
        refine ⟨.act (adjust s.interval now (.ret d)) (H.step r s w).2.1 :: S, fun rest => ?_⟩
        rw [hone, if_pos hinf]
        exact hS rest
      · rw [if_neg hinf] at hp ⊢
        obtain ⟨S, hS⟩ := ih (s1.schedule r (some ((Num.pyOr d s.interval).add now))) (H.step r s w).2.2
          (by rw [show (s1.schedule r (some ((Num.pyOr d s.interval).add now))).interval = s.interval from hint]; exact hp)
        refine ⟨.act (adjust s.interval now (.ret d)) (H.step r s w).2.1 :: S, fun rest => ?_⟩
        rw [hone, if_neg hinf]
        have := hS rest
        rw [img_schedule, Option.map_some] at this
        exact this

private theorem nstep_props (H : NHost W) (s : NSched) (w : W) :
    (s.step H w).1.interval = s.interval ∧ ∃ l, (s.step H w).1.log = s.log ++ l := by
  unfold NSched.step
  cases hq : s.queue with
  | nil => exact ⟨rfl, [], by simp⟩
  | cons p q =>
    obtain ⟨t, b⟩ := p
    simp only
    split
    · exact ⟨rfl, [], by simp⟩
    · have h := nrunBucket_props H s.time (nrunOrder H s b w).1 { s with queue := q } (nrunOrder H s b w).2
      unfold nfinishStep
      split
      · exact h
      · exact h

private theorem headTime_img (q : List (Num × List Ref)) : (nheadTime q).val = headTime (imgQ q) := by
  cases q with
  | nil => rfl
  | cons p q => rfl

private theorem step_replay (H : NHost W) (s : NSched) (w : W) (hp : ∀ e ∈ (s.step H w).1.log, Advances s.interval e) :
    ∃ S, ∀ rest, (imgS s).step replayHost (S ++ rest) = (imgS (s.step H w).1, rest, (s.step H w).2.2) := by
  unfold NSched.step at hp ⊢
  unfold Sched.step
  have hqi : (imgS s).queue = imgQ s.queue := rfl
  cases hq : s.queue with
  | nil =>
    simp only [hqi, hq]
    exact ⟨[], fun rest => rfl⟩
  | cons p q =>
    obtain ⟨t, b⟩ := p
    simp only [hqi, hq, imgQ, List.map_cons] at hp ⊢
    by_cases hlt : s.time.val < t.val
    · have hlt' : (imgS s).time < t.val := hlt
      simp only [if_pos hlt, if_pos hlt']
      refine ⟨[], fun rest => ?_⟩
      simp only [imgS, hq, imgQ, List.map_cons, List.nil_append]
    · have hlt' : ¬ (imgS s).time < t.val := hlt
      simp only [if_neg hlt, if_neg hlt'] at hp ⊢
      have hlog : (nfinishStep (nrunBucket H s.time (nrunOrder H s b w).1 { s with queue := q } (nrunOrder H s b w).2)).1.log =
          (nrunBucket H s.time (nrunOrder H s b w).1 { s with queue := q } (nrunOrder H s b w).2).1.log := by
        unfold nfinishStep; split <;> rfl
      rw [hlog] at hp
      obtain ⟨S, hS⟩ := runBucket_replay H s.time (nrunOrder H s b w).1 { s with queue := q } (nrunOrder H s b w).2 hp
      have hfin : ∀ (r : NSched × W × Bool) (rest : List Item),
          finishStep (imgS r.1, rest, r.2.2) = (imgS (nfinishStep r).1, rest, (nfinishStep r).2.2) := by
        intro r rest
        unfold finishStep nfinishStep
        cases hr : r.2.2 with
        | true => simp [hr]
        | false => simp [imgS, headTime_img]
      have himg : ({ imgS s with queue := List.map (fun p : Num × List Ref => (p.1.val, p.2)) q } : Sched) = imgS { s with queue := q } := rfl
      by_cases hsh : s.shuffle = true
      · refine ⟨.shuf (nrunOrder H s b w).1 :: S, fun rest => ?_⟩
        have hord : runOrder replayHost (imgS s) b ((.shuf (nrunOrder H s b w).1 :: S) ++ rest) = ((nrunOrder H s b w).1, S ++ rest) := by
          have hperm : (nrunOrder H s b w).1.Perm b := by
            rw [nrunOrder, if_pos hsh]; exact H.shuffle_perm b w
          rw [runOrder, if_pos (show (imgS s).shuffle = true from hsh)]
          simp only [replayHost, List.cons_append]
          rw [if_pos (List.isPerm_iff.2 hperm)]
        rw [hord, himg]
        rw [← hfin, ← hS rest]
        rfl
      · refine ⟨S, fun rest => ?_⟩
        have hord : runOrder replayHost (imgS s) b (S ++ rest) = ((nrunOrder H s b w).1, S ++ rest) := by
          rw [runOrder, if_neg (show ¬ (imgS s).shuffle = true from hsh), nrunOrder, if_neg hsh]
        rw [hord, himg]
        rw [← hfin, ← hS rest]
        rfl

private theorem nexec_props (H : NHost W) (c : Cmd W) (sw : NSched × W) :
    (c.nexec H sw).1.interval = sw.1.interval ∧ ∃ l, (c.nexec H sw).1.log = sw.1.log ++ l := by
  cases c with
  | step => exact nstep_props H sw.1 sw.2
  | op o => exact napplyOp_props sw.1 o
  | world f => exact ⟨rfl, [], by simp [Cmd.nexec]⟩

private theorem nexecAll_props (H : NHost W) (h : List (Cmd W)) (sw : NSched × W) :
    (nexecAll H h sw).1.interval = sw.1.interval ∧ ∃ l, (nexecAll H h sw).1.log = sw.1.log ++ l := by
  induction h generalizing sw with
  | nil => exact ⟨rfl, [], by simp [nexecAll]⟩
  | cons c h ih =>
    obtain ⟨h1, l1, h2⟩ := nexec_props H c sw
    obtain ⟨h3, l2, h4⟩ := ih (c.nexec H sw)
    exact ⟨h3.trans h1, l1 ++ l2, by show (nexecAll H h (c.nexec H sw)).1.log = _; rw [h4, h2, List.append_assoc]⟩

private theorem exec_replay (H : NHost W) (c : Cmd W) (sw : NSched × W) (hp : ∀ e ∈ (c.nexec H sw).1.log, Advances sw.1.interval e) :
    ∃ S, ∀ rest, (eraseCmd c).exec replayHost (imgS sw.1, S ++ rest) = (imgS (c.nexec H sw).1, rest) := by
  cases c with
  | step =>
    obtain ⟨S, hS⟩ := step_replay H sw.1 sw.2 hp
    refine ⟨S, fun rest => ?_⟩
    simp only [eraseCmd, Cmd.exec, hS rest]
    rfl
  | op o => exact ⟨[], fun rest => by simp only [eraseCmd, Cmd.exec, List.nil_append, Cmd.nexec]; rw [img_applyOp]⟩
  | world f => exact ⟨[], fun rest => rfl⟩

private theorem execAll_replay (H : NHost W) (h : List (Cmd W)) (sw : NSched × W)
    (hp : ∀ e ∈ (nexecAll H h sw).1.log, Advances sw.1.interval e) :
    ∃ S, ∀ rest, execAll replayHost (h.map eraseCmd) (imgS sw.1, S ++ rest) = (imgS (nexecAll H h sw).1, rest) := by
  induction h generalizing sw with
  | nil => exact ⟨[], fun rest => rfl⟩
  | cons c h ih =>
    have hx : nexecAll H (c :: h) sw = nexecAll H h (c.nexec H sw) := rfl
    rw [hx] at hp ⊢
    obtain ⟨hi, l, hl⟩ := nexec_props H c sw
    obtain ⟨_, l2, hl2⟩ := nexecAll_props H h (c.nexec H sw)
    obtain ⟨S1, h1⟩ := exec_replay H c sw (fun e he => hp e (by rw [hl2]; exact List.mem_append_left _ he))
    obtain ⟨S2, h2⟩ := ih (c.nexec H sw) (by rw [hi]; exact hp)
    refine ⟨S1 ++ S2, fun rest => ?_⟩
    show execAll replayHost (h.map eraseCmd) ((eraseCmd c).exec replayHost (imgS sw.1, S1 ++ S2 ++ rest)) = _
    rw [List.append_assoc, h1, h2]

/-- Every execution of the rounded scheduler is one of the exact scheduler. -/
private theorem reach_replay (H : NHost W) (iv : Num) (sh : Bool) (w0 : W) (h : List (Cmd W))
    (hp : ∀ e ∈ (nreach H iv sh w0 h).1.log, Advances iv e) :
    ∃ S, (reach replayHost iv.val sh S (h.map eraseCmd)).1 = imgS (nreach H iv sh w0 h).1 := by
  obtain ⟨S, hS⟩ := execAll_replay H h (NSched.init iv sh, w0) hp
  refine ⟨S, ?_⟩
  have := hS []
  rw [List.append_nil] at this
  rw [reach, show Sched.init iv.val sh = imgS (NSched.init iv sh) from rfl, this]

/-! ### Carrying the theorems over -/

theorem nextWake_img (iv t : Num) (rep : NReply) (h : ∀ r, Advances iv (.act r t rep)) :
    nextWake iv.val t.val (adjust iv t rep) = nnext iv t rep := by
  cases rep with
  | dead => rfl
  | error => rfl
  | ret d =>
    have hw := adjust_when iv t d iv.val (h 0)
    have hc : ∀ a b : Time, a + b = b + a := by
      intro a b
      cases a <;> cases b <;> first | rfl | (show Time.fin _ = Time.fin _; rw [add_comm])
    have he : t.val + effDelay iv.val (some (gap ((Num.pyOr d iv).add t).val t.val)) = ((Num.pyOr d iv).add t).val := by
      rw [hc]; exact hw
    simp only [adjust, nextWake, nnext, he]

theorem cal_img (iv : Num) (log : List NEv) (h : ∀ e ∈ log, Advances iv e) : cal iv.val (log.map (imgEv iv)) = ncal iv log := by
  unfold cal ncal
  generalize ([] : Cal) = c
  induction log generalizing c with
  | nil => rfl
  | cons e log ih =>
    have hs : calStep iv.val c (imgEv iv e) = ncalStep iv c e := by
      cases e with
      | added r t => rfl
      | act r t rep =>
        simp only [imgEv, calStep, ncalStep]
        rw [nextWake_img iv t rep (fun r' => by have := h _ (List.mem_cons_self ..); cases rep <;> exact this)]
    simp only [List.map_cons, List.foldl_cons, hs]
    exact ih (fun e' he' => h e' (List.mem_cons_of_mem _ he')) _

theorem good_img (iv : Num) (log : List NEv) (h : ∀ e ∈ log, Advances iv e) : GoodLog (log.map (imgEv iv)) := by
  intro e he
  obtain ⟨e', he', rfl⟩ := List.mem_map.1 he
  have ha := h e' he'
  cases e' with
  | added r t => trivial
  | act r t rep =>
    cases rep with
    | dead => trivial
    | error => exact ha
    | ret d =>
      show (0 : Time) ≤ gap ((Num.pyOr d iv).add t).val t.val
      rcases ha with ha | ha
      · rw [ha]; cases ((Num.pyOr d iv).add t).val <;> exact Time.le_inf _
      · cases hb : t.val with
        | inf => cases ((Num.pyOr d iv).add t).val <;> exact Time.le_inf _
        | fin b =>
          cases hc : ((Num.pyOr d iv).add t).val with
          | inf => exact Time.le_inf _
          | fin a =>
            rw [hb, hc, Time.fin_lt] at ha
            show Time.fin _ ≤ Time.fin _
            rw [Time.fin_le]
            show (0 : Rat) ≤ a - b
            linarith

theorem imgEv_ref (iv : Num) (e : NEv) : (imgEv iv e).ref = e.ref := by cases e <;> rfl

theorem imgEv_time (iv : Num) (e : NEv) : (imgEv iv e).time = e.time.val := by cases e <;> rfl

theorem nreach_interval (H : NHost W) (iv : Num) (sh : Bool) (w0 : W) (h : List (Cmd W)) : (nreach H iv sh w0 h).1.interval = iv :=
  (nexecAll_props H h _).1

theorem nreach_prefix (H : NHost W) (iv : Num) (sh : Bool) (w0 : W) (h1 h2 : List (Cmd W)) :
    ∃ l, (nreach H iv sh w0 (h1 ++ h2)).1.log = (nreach H iv sh w0 h1).1.log ++ l := by
  have : nreach H iv sh w0 (h1 ++ h2) = nexecAll H h2 (nreach H iv sh w0 h1) := by
    simp only [nreach, nexecAll, List.foldl_append]
  rw [this]
  exact (nexecAll_props H h2 _).2

/-- One script serves the two parts of a history. -/
private theorem reach_replay2 (H : NHost W) (iv : Num) (sh : Bool) (w0 : W) (h1 h2 : List (Cmd W))
    (hp : ∀ e ∈ (nreach H iv sh w0 (h1 ++ h2)).1.log, Advances iv e) :
    ∃ S, (reach replayHost iv.val sh S (h1.map eraseCmd)).1 = imgS (nreach H iv sh w0 h1).1 ∧
      (reach replayHost iv.val sh S (h1.map eraseCmd ++ h2.map eraseCmd)).1 = imgS (nreach H iv sh w0 (h1 ++ h2)).1 := by
  have hx : nreach H iv sh w0 (h1 ++ h2) = nexecAll H h2 (nreach H iv sh w0 h1) := by
    simp only [nreach, nexecAll, List.foldl_append]
  obtain ⟨l, hl⟩ := nreach_prefix H iv sh w0 h1 h2
  obtain ⟨S1, hS1⟩ := execAll_replay H h1 (NSched.init iv sh, w0) (fun e he => hp e (by rw [hl]; exact List.mem_append_left _ he))
  obtain ⟨S2, hS2⟩ := execAll_replay H h2 (nreach H iv sh w0 h1) (by rw [nreach_interval, ← hx]; exact hp)
  refine ⟨S1 ++ S2, ?_, ?_⟩
  · rw [reach, show Sched.init iv.val sh = imgS (NSched.init iv sh) from rfl, hS1]
  · have h3 := hS2 []
    rw [List.append_nil] at h3
    rw [reach, execAll_append, show Sched.init iv.val sh = imgS (NSched.init iv sh) from rfl, hS1, h3, hx]

/-! ## C203 -/

/-- C203: as long as no delay is lost by rounding, time never goes backwards.
Missing: delays that are lost (`C203_stall_false`, `C203_mixed_false`). -/
theorem C203_time_monotone_partial (H : NHost W) (iv : Num) (hiv : 0 < iv.val) (sh : Bool) (w0 : W) (h1 h2 : List (Cmd W))
    (hp : ∀ e ∈ (nreach H iv sh w0 (h1 ++ h2)).1.log, Advances iv e) :
    0 ≤ (nreach H iv sh w0 h1).1.time.val ∧ (nreach H iv sh w0 h1).1.time.val ≤ (nreach H iv sh w0 (h1 ++ h2)).1.time.val ∧
      (nreach H iv sh w0 (h1 ++ h2)).1.log.Pairwise (fun a b => a.time.val ≤ b.time.val) := by
  obtain ⟨S, e1, e2⟩ := reach_replay2 H iv sh w0 h1 h2 hp
  have hlog : (imgS (nreach H iv sh w0 (h1 ++ h2)).1).log = (nreach H iv sh w0 (h1 ++ h2)).1.log.map (imgEv iv) := by
    show List.map _ _ = _; rw [nreach_interval]
  obtain ⟨a, b, c⟩ := C01_time_monotone replayHost iv.val hiv sh S (h1.map eraseCmd) (h2.map eraseCmd)
    (by rw [e2, hlog]; exact good_img iv _ hp)
  rw [e1] at a b
  rw [e2] at b c
  refine ⟨a, b, ?_⟩
  rw [hlog, Chronological, List.pairwise_map] at c
  simpa only [imgEv_time] using c

/-- C203: as long as no delay is lost, an agent that was added once and asked for the delay `d` at time `t` acts next at the sum as Python computes it.
Missing: delays that are lost. -/
theorem C203_next_activation_partial (H : NHost W) (iv : Num) (hiv : 0 < iv.val) (sh : Bool) (w0 : W) (h : List (Cmd W))
    (hp : ∀ e ∈ (nreach H iv sh w0 h).1.log, Advances iv e) (r : Ref)
    (h1 : (nreach H iv sh w0 h).1.log.countP (·.adds r) = 1)
    {pre post : List NEv} {t u : Num} {d : Option Num} {rep : NReply}
    (hlog : (nreach H iv sh w0 h).1.log.filter (·.ref = r) = pre ++ .act r t (.ret d) :: .act r u rep :: post) :
    u.val = ((Num.pyOr d iv).add t).val := by
  obtain ⟨S, e1⟩ := reach_replay H iv sh w0 h hp
  have hl : (imgS (nreach H iv sh w0 h).1).log = (nreach H iv sh w0 h).1.log.map (imgEv iv) := by
    show List.map _ _ = _; rw [nreach_interval]
  have hmem : NEv.act r t (.ret d) ∈ (nreach H iv sh w0 h).1.log := by
    have : NEv.act r t (.ret d) ∈ (nreach H iv sh w0 h).1.log.filter (·.ref = r) := by rw [hlog]; simp
    exact (List.mem_filter.1 this).1
  have hnext := C02_next_activation replayHost iv.val hiv sh S (h.map eraseCmd)
    (by rw [e1, hl]; exact good_img iv _ hp) r
    (by
      rw [e1, hl, addCount, List.countP_map, ← h1]
      congr 1
      funext e
      cases e <;> simp [imgEv, Ev.isAdd, Ev.ref, NEv.adds])
    (pre := pre.map (imgEv iv)) (post := post.map (imgEv iv)) (t := t.val) (u := u.val)
    (d := some (gap ((Num.pyOr d iv).add t).val t.val)) (rep := adjust iv u rep)
    (by
      rw [e1, hl, List.filter_map]
      rw [show ((fun e : Ev => decide (e.ref = r)) ∘ imgEv iv) = (fun e : NEv => decide (e.ref = r)) from by funext e; simp [imgEv_ref]]
      rw [hlog]
      simp [imgEv, adjust])
  have hadd := adjust_when iv t d iv.val (hp _ hmem)
  have hc : ∀ a b : Time, a + b = b + a := by
    intro a b
    cases a <;> cases b <;> first | rfl | (show Time.fin _ = Time.fin _; rw [add_comm])
  rw [hnext, hc]
  exact hadd

/-- C203: as long as no delay is lost, the queue holds exactly the wake-ups that were asked for. Missing: delays that are lost. -/
theorem C203_conservation_partial (H : NHost W) (iv : Num) (hiv : 0 < iv.val) (sh : Bool) (w0 : W) (h : List (Cmd W))
    (hp : ∀ e ∈ (nreach H iv sh w0 h).1.log, Advances iv e) :
    ((nreach H iv sh w0 h).1.queue.flatMap (fun b => b.2.map (·, b.1.val))).Perm (ncal iv (nreach H iv sh w0 h).1.log) := by
  obtain ⟨S, e1⟩ := reach_replay H iv sh w0 h hp
  have hl : (imgS (nreach H iv sh w0 h).1).log = (nreach H iv sh w0 h).1.log.map (imgEv iv) := by
    show List.map _ _ = _; rw [nreach_interval]
  have := C03_conservation replayHost iv.val hiv sh S (h.map eraseCmd) (by rw [e1, hl]; exact good_img iv _ hp)
  rw [e1, hl, cal_img iv _ hp] at this
  have hq : pending (imgS (nreach H iv sh w0 h).1) = (nreach H iv sh w0 h).1.queue.flatMap (fun b => b.2.map (·, b.1.val)) := by
    simp only [pending, imgS, imgQ, List.flatMap_map]
  rwa [hq] at this

/-- C203: as long as no delay is lost, a step activates exactly the agents that are pending at the earliest time, once per wake-up.
Missing: delays that are lost. -/
theorem C203_step_runs_due_partial (H : NHost W) (iv : Num) (hiv : 0 < iv.val) (sh : Bool) (w0 : W) (h : List (Cmd W))
    (hp : ∀ e ∈ (nreach H iv sh w0 (h ++ [.step])).1.log, Advances iv e) :
    ∃ evs, (nreach H iv sh w0 (h ++ [.step])).1.log = (nreach H iv sh w0 h).1.log ++ evs ∧
      (ncal iv (nreach H iv sh w0 h).1.log = [] → evs = []) ∧
      ∀ r t, (r, t) ∈ ncal iv (nreach H iv sh w0 h).1.log → (∀ p ∈ ncal iv (nreach H iv sh w0 h).1.log, t ≤ p.2) →
        (∀ e ∈ evs, e.time.val = t) ∧ (nactRefs evs).Perm (dueAt (ncal iv (nreach H iv sh w0 h).1.log) t) := by
  obtain ⟨S, e1, e2⟩ := reach_replay2 H iv sh w0 h [.step] hp
  obtain ⟨l, hl⟩ := nreach_prefix H iv sh w0 h [.step]
  have hl1 : (imgS (nreach H iv sh w0 h).1).log = (nreach H iv sh w0 h).1.log.map (imgEv iv) := by
    show List.map _ _ = _; rw [nreach_interval]
  have hl2 : (imgS (nreach H iv sh w0 (h ++ [.step])).1).log = (nreach H iv sh w0 (h ++ [.step])).1.log.map (imgEv iv) := by
    show List.map _ _ = _; rw [nreach_interval]
  obtain ⟨evs, h1, h2, h3⟩ := C04_step_runs_due replayHost iv.val hiv sh S (h.map eraseCmd)
    (by
      have : [Cmd.step] = ([Cmd.step] : List (Cmd W)).map eraseCmd := rfl
      rw [this, e2, hl2]; exact good_img iv _ hp)
  have hst : [Cmd.step] = ([Cmd.step] : List (Cmd W)).map eraseCmd := rfl
  rw [hst, e2, e1, hl1, hl2, hl, List.map_append] at h1
  have hev : evs = l.map (imgEv iv) := (List.append_cancel_left h1).symm
  rw [e1, hl1, cal_img iv _ (fun e he => hp e (by rw [hl]; exact List.mem_append_left _ he))] at h2 h3
  refine ⟨l, hl, fun hc => ?_, fun r t hm hmin => ?_⟩
  · have := h2 hc
    rw [hev] at this
    exact List.map_eq_nil_iff.1 this
  · obtain ⟨a, b⟩ := h3 r t hm hmin
    rw [hev] at a b
    refine ⟨fun e he => ?_, ?_⟩
    · have := a (imgEv iv e) (List.mem_map_of_mem he)
      rwa [imgEv_time] at this
    · have hr : actRefs (l.map (imgEv iv)) = nactRefs l := by
        simp only [actRefs, nactRefs, List.filterMap_map]
        congr 1
        funext e
        cases e <;> rfl
      rwa [hr] at b

/-- The events of a step have the time at which it begins. -/
theorem nstep_times (H : NHost W) (iv : Num) (hiv : 0 < iv.val) (sh : Bool) (w0 : W) (h : List (Cmd W))
    (hp : ∀ e ∈ (nreach H iv sh w0 (h ++ [.step])).1.log, Advances iv e) :
    ∃ evs, (nreach H iv sh w0 (h ++ [.step])).1.log = (nreach H iv sh w0 h).1.log ++ evs ∧
      ∀ e ∈ evs, e.time.val = (nreach H iv sh w0 h).1.time.val := by
  obtain ⟨S, e1, e2⟩ := reach_replay2 H iv sh w0 h [.step] hp
  obtain ⟨l, hl⟩ := nreach_prefix H iv sh w0 h [.step]
  have hl1 : (imgS (nreach H iv sh w0 h).1).log = (nreach H iv sh w0 h).1.log.map (imgEv iv) := by
    show List.map _ _ = _; rw [nreach_interval]
  have hl2 : (imgS (nreach H iv sh w0 (h ++ [.step])).1).log = (nreach H iv sh w0 (h ++ [.step])).1.log.map (imgEv iv) := by
    show List.map _ _ = _; rw [nreach_interval]
  have hst : ([Cmd.step] : List (Cmd W)).map eraseCmd = [Cmd.step] := rfl
  rw [hst, reach_snoc] at e2
  have hg2 : GoodLog (imgS (nreach H iv sh w0 (h ++ [.step])).1).log := by rw [hl2]; exact good_img iv _ hp
  have hg1 : GoodLog (reach replayHost iv.val sh S (h.map eraseCmd)).1.log := by
    rw [e1, hl1]; exact good_img iv _ (fun e he => hp e (by rw [hl]; exact List.mem_append_left _ he))
  obtain ⟨evs, he, ht, _⟩ := (reach_inv hiv hg1).step_spec replayHost (reach replayHost iv.val sh S (h.map eraseCmd)).2
    (by
      have : ((reach replayHost iv.val sh S (h.map eraseCmd)).1.step replayHost (reach replayHost iv.val sh S (h.map eraseCmd)).2).1 =
        imgS (nreach H iv sh w0 (h ++ [.step])).1 := e2
      rw [this]; exact hg2)
  have he2 : ((reach replayHost iv.val sh S (h.map eraseCmd)).1.step replayHost (reach replayHost iv.val sh S (h.map eraseCmd)).2).1 =
      imgS (nreach H iv sh w0 (h ++ [.step])).1 := e2
  rw [he2, e1, hl1, hl2, hl, List.map_append] at he
  have hev : evs = l.map (imgEv iv) := (List.append_cancel_left he).symm
  refine ⟨l, hl, fun e hm => ?_⟩
  have := ht (imgEv iv e) (by rw [hev]; exact List.mem_map_of_mem hm)
  rw [imgEv_time, e1] at this
  exact this

/-- Nothing is pending before the current time. -/
theorem ncal_le (H : NHost W) (iv : Num) (hiv : 0 < iv.val) (sh : Bool) (w0 : W) (h : List (Cmd W))
    (hp : ∀ e ∈ (nreach H iv sh w0 h).1.log, Advances iv e) :
    ∀ p ∈ ncal iv (nreach H iv sh w0 h).1.log, (nreach H iv sh w0 h).1.time.val ≤ p.2 := by
  obtain ⟨S, e1⟩ := reach_replay H iv sh w0 h hp
  have hl : (imgS (nreach H iv sh w0 h).1).log = (nreach H iv sh w0 h).1.log.map (imgEv iv) := by
    show List.map _ _ = _; rw [nreach_interval]
  have hg : GoodLog (reach replayHost iv.val sh S (h.map eraseCmd)).1.log := by rw [e1, hl]; exact good_img iv _ hp
  have hmin := (reach_inv hiv hg).mid.mem_le
  rw [reach_interval, e1, hl, cal_img iv _ hp] at hmin
  exact hmin

/-! ### When no delay is lost -/

private theorem ninsert_times (P : Num → Prop) (t : Num) (r : Ref) (q : List (Num × List Ref)) (ht : P t) (hq : ∀ p ∈ q, P p.1) :
    ∀ p ∈ ninsert t r q, P p.1 := by
  induction q with
  | nil => intro p hp; rw [List.mem_singleton.1 hp]; exact ht
  | cons x q ih =>
    obtain ⟨u, l⟩ := x
    intro p hp
    simp only [ninsert] at hp
    split at hp
    · rcases List.mem_cons.1 hp with h | h
      · rw [h]; exact hq (u, l) (List.mem_cons_self ..)
      · exact hq p (List.mem_cons_of_mem _ h)
    · split at hp
      · rcases List.mem_cons.1 hp with h | h
        · rw [h]; exact ht
        · exact hq p h
      · rcases List.mem_cons.1 hp with h | h
        · rw [h]; exact hq (u, l) (List.mem_cons_self ..)
        · exact ih (fun p' hp' => hq p' (List.mem_cons_of_mem _ hp')) p h

private theorem hops_times (P : Num → Prop) (s : NSched) (os : List SOp)
    (hs : P s.time ∧ (∀ p ∈ s.queue, P p.1) ∧ ∀ e ∈ s.log, P e.time) :
    P (s.applyOps os).time ∧ (∀ p ∈ (s.applyOps os).queue, P p.1) ∧ ∀ e ∈ (s.applyOps os).log, P e.time := by
  induction os generalizing s with
  | nil => exact hs
  | cons o os ih =>
    refine ih (s.applyOp o) ?_
    cases o with
    | remove r => exact hs
    | stop => exact hs
    | add r wh =>
      refine ⟨hs.1, ninsert_times P _ r _ hs.1 hs.2.1, fun e he => ?_⟩
      rcases List.mem_append.1 he with he | he
      · exact hs.2.2 e he
      · rw [List.mem_singleton.1 he]; exact hs.1

/-- What holds of the sums holds of all the times. -/
private theorem ntimes_bucket (P : Num → Prop) (H : NHost W) (now : Num) (hnow : P now) (b : List Ref) (s : NSched) (w : W)
    (hs : P s.time ∧ (∀ p ∈ s.queue, P p.1) ∧ ∀ e ∈ s.log, P e.time)
    (hadd : ∀ r t d, NEv.act r t (.ret d) ∈ (nrunBucket H now b s w).1.log → P t → P ((Num.pyOr d s.interval).add t)) :
    let s' := (nrunBucket H now b s w).1
    P s'.time ∧ (∀ p ∈ s'.queue, P p.1) ∧ ∀ e ∈ s'.log, P e.time := by
  induction b generalizing s w with
  | nil => exact hs
  | cons r b ih =>
    have hops := hops_times P s (H.step r s w).2.1 hs
    obtain ⟨hint, _⟩ := napplyOps_props s (H.step r s w).2.1
    simp only [nrunBucket] at hadd ⊢
    generalize hs0 : s.applyOps (H.step r s w).2.1 = s0 at hops hint hadd ⊢
    have hlogged : ∀ rep, P (s0.logAct r now rep).time ∧ (∀ p ∈ (s0.logAct r now rep).queue, P p.1) ∧ ∀ e ∈ (s0.logAct r now rep).log, P e.time := by
      intro rep
      refine ⟨hops.1, hops.2.1, fun e he => ?_⟩
      rcases List.mem_append.1 he with he | he
      · exact hops.2.2 e he
      · rw [List.mem_singleton.1 he]; exact hnow
    cases hrep : (H.step r s w).1 with
    | error => exact hlogged _
    | dead =>
      simp only [hrep] at hadd
      refine ih _ _ (hlogged _) ?_
      rw [show (s0.logAct r now .dead).interval = s.interval from hint]
      exact hadd
    | ret d =>
      simp only [hrep] at hadd ⊢
      have hint1 : (s0.logAct r now (.ret d)).interval = s.interval := hint
      rw [hint1] at hadd ⊢
      split at hadd
      · next hinf =>
        rw [if_pos hinf]
        exact ih _ _ (hlogged _) (by rw [hint1]; exact hadd)
      · next hinf =>
        rw [if_neg hinf]
        refine ih _ _ ?_ (by rw [show ((s0.logAct r now (.ret d)).schedule r (some ((Num.pyOr d s.interval).add now))).interval = s.interval from hint]; exact hadd)
        refine ⟨(hlogged (.ret d)).1, fun p hp => ?_, (hlogged (.ret d)).2.2⟩
        refine ninsert_times P _ r _ ?_ (hlogged (.ret d)).2.1 p hp
        rw [Num.pyOr]
        split
        · exact hops.1
        · refine hadd r now d ?_ hnow
          obtain ⟨_, l, hl⟩ := nrunBucket_props H now b ((s0.logAct r now (.ret d)).schedule r (some ((Num.pyOr d s.interval).add now))) (H.step r s w).2.2
          rw [hl]
          exact List.mem_append_left _ (by simp [NSched.schedule, NSched.logAct])

private theorem ntimes_step (P : Num → Prop) (hinf : P .inf) (H : NHost W) (s : NSched) (w : W)
    (hs : P s.time ∧ (∀ p ∈ s.queue, P p.1) ∧ ∀ e ∈ s.log, P e.time)
    (hadd : ∀ r t d, NEv.act r t (.ret d) ∈ (s.step H w).1.log → P t → P ((Num.pyOr d s.interval).add t)) :
    P (s.step H w).1.time ∧ (∀ p ∈ (s.step H w).1.queue, P p.1) ∧ ∀ e ∈ (s.step H w).1.log, P e.time := by
  unfold NSched.step at hadd ⊢
  cases hq : s.queue with
  | nil => simp only; rw [hq] at hs; exact ⟨hs.1, by rw [hq]; exact hs.2.1, hs.2.2⟩
  | cons p q =>
    obtain ⟨t, b⟩ := p
    rw [hq] at hs
    simp only [hq] at hadd ⊢
    split
    · exact ⟨hs.2.1 (t, b) (List.mem_cons_self ..), by simp only [hq]; exact hs.2.1, hs.2.2⟩
    · next hlt =>
      rw [if_neg hlt] at hadd
      have h := ntimes_bucket P H s.time hs.1 (nrunOrder H s b w).1 { s with queue := q } (nrunOrder H s b w).2
        ⟨hs.1, fun p hp => hs.2.1 p (List.mem_cons_of_mem _ hp), hs.2.2⟩
        (by
          intro r t d hm
          refine hadd r t d ?_
          unfold nfinishStep; split <;> exact hm)
      unfold nfinishStep
      split
      · exact h
      · refine ⟨?_, h.2.1, h.2.2⟩
        show P (nheadTime _)
        have hh : ∀ Q : List (Num × List Ref), (∀ p ∈ Q, P p.1) → P (nheadTime Q) := by
          intro Q hQ
          cases Q with
          | nil => exact hinf
          | cons x Q => exact hQ x (List.mem_cons_self ..)
        exact hh _ h.2.1

private theorem ntimes (P : Num → Prop) (h0 : P (.int 0)) (hinf : P .inf) (H : NHost W) (iv : Num) (sh : Bool) (w0 : W) (h : List (Cmd W))
    (hadd : ∀ r t d, NEv.act r t (.ret d) ∈ (nreach H iv sh w0 h).1.log → P t → P ((Num.pyOr d iv).add t)) :
    ∀ e ∈ (nreach H iv sh w0 h).1.log, P e.time := by
  have key : ∀ (h : List (Cmd W)) (sw : NSched × W), sw.1.interval = iv →
      (P sw.1.time ∧ (∀ p ∈ sw.1.queue, P p.1) ∧ ∀ e ∈ sw.1.log, P e.time) →
      (∀ r t d, NEv.act r t (.ret d) ∈ (nexecAll H h sw).1.log → P t → P ((Num.pyOr d iv).add t)) →
      ∀ e ∈ (nexecAll H h sw).1.log, P e.time := by
    intro h
    induction h with
    | nil => intro sw _ hs _; exact hs.2.2
    | cons c h ih =>
      intro sw hi hs hadd
      have hc := nexec_props H c sw
      obtain ⟨_, l, hl⟩ := nexecAll_props H h (c.nexec H sw)
      refine ih (c.nexec H sw) (hc.1.trans hi) ?_ hadd
      cases c with
      | step =>
        refine ntimes_step P hinf H sw.1 sw.2 hs (fun r t d hm => ?_)
        rw [hi]
        refine hadd r t d ?_
        show _ ∈ (nexecAll H h (Cmd.nexec H .step sw)).1.log
        rw [hl]
        exact List.mem_append_left _ hm
      | op o => exact hops_times P sw.1 [o] hs
      | world f => exact hs
  exact key h _ rfl ⟨h0, (fun p hp => nomatch hp), (fun e he => nomatch he)⟩ hadd

/-- A number that Python has, not negative. -/
def Num.IsPy : Num → Prop
  | .int n => 0 ≤ n
  | .flt q => 0 ≤ q ∧ round53 q = q
  | .inf => True

theorem fl_isPy {q : Rat} (h : 0 ≤ q) : (Num.ofTime (fl q)).IsPy := by
  unfold fl
  split
  · trivial
  · exact ⟨round53_nonneg h, round53_idem h⟩

theorem toFloat_isPy {x : Num} (h : x.IsPy) : x.toFloat.IsPy := by
  cases x with
  | int n => exact fl_isPy (by exact_mod_cast h)
  | flt q => exact h
  | inf => trivial

theorem add_isPy {x y : Num} (hx : x.IsPy) (hy : y.IsPy) : (x.add y).IsPy := by
  have key : (match x.toFloat, y.toFloat with
      | .flt a, .flt b => Num.ofTime (fl (a + b))
      | _, _ => Num.inf).IsPy := by
    have h1 := toFloat_isPy hx
    have h2 := toFloat_isPy hy
    split
    · next a b ha hb =>
      rw [ha] at h1; rw [hb] at h2
      exact fl_isPy (add_nonneg h1.1 h2.1)
    · trivial
  unfold Num.add
  split
  · exact Int.add_nonneg hx hy
  · exact key

/-- The activation happens before `2 ** k` and asks for a delay of at least `2 ** (k - 53)`, a Python number; it is not an exception. -/
def Coarse (k : Nat) (iv : Num) : NEv → Prop
  | .act _ t (.ret d) => (t.val = .inf ∨ t.val < .fin (pow2 k)) ∧ (Num.pyOr d iv).IsPy ∧ .fin (pow2 (k - 53)) ≤ (Num.pyOr d iv).val
  | .act _ _ .error => False
  | _ => True

theorem add_advances {k : Nat} (hk : k ≤ 53) {x t : Num} (hx : x.IsPy) (ht : t.IsPy) (hd : .fin (pow2 (k - 53)) ≤ x.val)
    (htk : t.val < .fin (pow2 k)) : t.val < (x.add t).val := by
  have hpos : 0 < pow2 ((k : Int) - 53) := pow2_pos _
  -- the time as a float
  obtain ⟨a, hta, ha0, har, hak⟩ : ∃ a, t.toFloat = .flt a ∧ 0 ≤ a ∧ round53 a = a ∧ t.val = .fin a ∧ a < pow2 k := by
    cases t with
    | inf => simp [Num.val] at htk
    | flt q => exact ⟨q, rfl, ht.1, ht.2, rfl, by simpa [Num.val] using htk⟩
    | int n =>
      have hn : (n : Rat) < pow2 k := by simpa [Num.val] using htk
      have hn53 : n ≤ 2 ^ 53 := by
        have h1 : pow2 (k : Int) ≤ pow2 (53 : Nat) := pow2_le.2 (by exact_mod_cast hk)
        have h2 : (n : Rat) < ((2 ^ 53 : Nat) : Rat) := lt_of_lt_of_le hn (by rwa [pow2_nat] at h1)
        have h3 : (n : Rat) < ((2 ^ 53 : Int) : Rat) := by simpa using h2
        exact le_of_lt (by exact_mod_cast h3)
      have hr := round53_nat ht hn53
      have hnot : ¬ pow2 1024 ≤ (n : Rat) := by
        have h1 : pow2 (k : Int) ≤ pow2 1024 := pow2_le.2 (by omega)
        intro h; linarith
      refine ⟨n, ?_, by exact_mod_cast ht, hr, rfl, hn⟩
      simp only [Num.toFloat, fl, hr, if_neg hnot, Num.ofTime]
  -- the distance between floats at this time
  have hulp : pow2 (ulpExp a) ≤ pow2 ((k : Int) - 53) := by
    rw [pow2_le]
    rcases eq_or_lt_of_le ha0 with hz | hz
    · rw [← hz, ulpExp, if_pos rfl]; omega
    · rw [ulpExp_pos hz]
      have := ilog2_lt hz hak.2
      omega
  have key : ∀ y : Num, y.toFloat = x.toFloat → ∀ b, x.toFloat = .flt b → pow2 ((k : Int) - 53) ≤ b → t.val < (Num.ofTime (fl (b + a))).val := by
    intro _ _ b _ hb
    have hp := round53_progress ha0 har (le_trans hulp hb)
    rw [hak.1]
    unfold fl
    split
    · exact Time.fin_lt_inf _
    · show Time.fin a < Time.fin _
      rw [Time.fin_lt, add_comm]
      exact hp
  cases x with
  | inf =>
    have : (Num.add .inf t).val = .inf := by unfold Num.add; cases t <;> rfl
    rw [this, hak.1]; exact Time.fin_lt_inf _
  | flt q =>
    have hb : pow2 ((k : Int) - 53) ≤ q := by simpa [Num.val] using hd
    have : Num.add (.flt q) t = Num.ofTime (fl (q + a)) := by
      unfold Num.add; simp only [hta]; rfl
    rw [this]
    exact key _ rfl q rfl hb
  | int n =>
    have hb : pow2 ((k : Int) - 53) ≤ (n : Rat) := by simpa [Num.val] using hd
    have hn0 : (0 : Rat) < n := lt_of_lt_of_le hpos hb
    have hn : 1 ≤ n := by have : (0 : Int) < n := by exact_mod_cast hn0
                          omega
    cases t with
    | int m =>
      show Time.fin _ < Time.fin _
      rw [Time.fin_lt]
      push_cast
      linarith
    | inf => simp [Num.val] at htk
    | flt q =>
      by_cases hbig : pow2 1024 ≤ round53 (n : Rat)
      · have : (Num.add (.int n) (.flt q)).val = .inf := by
          unfold Num.add; simp only [Num.toFloat, fl, if_pos hbig, Num.ofTime]; rfl
        rw [this, hak.1]; exact Time.fin_lt_inf _
      · have hfl : Num.toFloat (.int n) = .flt (round53 n) := by simp only [Num.toFloat, fl, if_neg hbig, Num.ofTime]
        have : Num.add (.int n) (.flt q) = Num.ofTime (fl (round53 n + a)) := by
          unfold Num.add; simp only [hfl, hta]
        rw [this]
        refine key _ rfl _ hfl ?_
        have h1 : pow2 ((k : Int) - 53) ≤ 1 := by
          have : pow2 ((k : Int) - 53) ≤ pow2 0 := pow2_le.2 (by omega)
          simpa [pow2] using this
        have h2 : round53 ((1 : Int) : Rat) ≤ round53 (n : Rat) := round53_mono (by norm_num) (by exact_mod_cast hn)
        rw [round53_nat (by norm_num) (by norm_num)] at h2
        push_cast at h2
        linarith

/-- C203: no delay is lost as long as the time stays below `2 ** k` and delays are at least `2 ** (k - 53)`, `k <= 53`: with delays of at least one unit, up to
`2 ** 53`. Exceptions aside, the hypothesis of the theorems above then holds. Missing: later times. -/
theorem C203_no_delay_lost_partial (H : NHost W) (iv : Num) (sh : Bool) (w0 : W) (h : List (Cmd W)) (k : Nat) (hk : k ≤ 53)
    (hc : ∀ e ∈ (nreach H iv sh w0 h).1.log, Coarse k iv e) : ∀ e ∈ (nreach H iv sh w0 h).1.log, Advances iv e := by
  have ht := ntimes Num.IsPy (le_refl _) trivial H iv sh w0 h (fun r t d hm htp => add_isPy (hc _ hm).2.1 htp)
  intro e he
  have h1 := hc e he
  have h2 := ht e he
  cases e with
  | added r t => trivial
  | act r t rep =>
    cases rep with
    | dead => trivial
    | error => exact h1
    | ret d =>
      rcases h1.1 with hi | hlt
      · exact Or.inl hi
      · exact Or.inr (add_advances hk h1.2.1 h2 h1.2.2 hlt)

/-! ### When the sums are exact -/

/-- Not negative, and a multiple of `2 ** -j`. -/
def OnGrid (j : Nat) : Time → Prop
  | .fin q => 0 ≤ q ∧ ∃ m : Int, q = m * pow2 (-j)
  | .inf => True

/-- The activation asks for a positive multiple of `2 ** -j`, and the sum stays below `2 ** (53 - j)`; it is not an exception. -/
def Dyadic (j : Nat) (iv : Num) : NEv → Prop
  | .act _ t (.ret d) => 0 < (Num.pyOr d iv).val ∧ OnGrid j (Num.pyOr d iv).val ∧
      ((Num.pyOr d iv).val + t.val = .inf ∨ (Num.pyOr d iv).val + t.val < .fin (pow2 (53 - j)))
  | .act _ _ .error => False
  | _ => True

theorem grid_exact {j : Nat} (hj : j ≤ 1074) {q : Rat} {m : Int} (h0 : 0 ≤ q) (hq : q = m * pow2 (-j)) (hlt : q < pow2 (53 - j)) :
    fl q = .fin q := by
  have hr : round53 q = q := by
    refine round53_exact hq ?_
    rcases eq_or_lt_of_le h0 with hz | hz
    · rw [← hz, ulpExp, if_pos rfl]; omega
    · rw [ulpExp_pos hz]
      have := ilog2_lt hz hlt
      omega
  have hnot : ¬ pow2 1024 ≤ q := by
    have h1 : pow2 (53 - (j : Int)) ≤ pow2 1024 := pow2_le.2 (by omega)
    intro h; linarith
  rw [fl, hr, if_neg hnot]

theorem pow2_neg_int (n : Int) (j : Nat) : ∃ m : Int, (n : Rat) = m * pow2 (-j) := by
  refine ⟨n * 2 ^ j, ?_⟩
  have : pow2 (j : Int) * pow2 (-(j : Int)) = 1 := by rw [← pow2_add]; simp [pow2]
  rw [pow2_nat] at this
  push_cast at this ⊢
  rw [mul_assoc, this, mul_one]

theorem toFloat_grid {j : Nat} (hj : j ≤ 1074) {x : Num} {a : Rat} (hx : x.val = .fin a) (h0 : 0 ≤ a) (hlt : a < pow2 (53 - j)) :
    x.toFloat = .flt a := by
  cases x with
  | inf => cases hx
  | flt q => injection hx with hx; rw [hx]; rfl
  | int n =>
    injection hx with hx
    obtain ⟨m, hm⟩ := pow2_neg_int n j
    rw [← hx] at h0 hlt ⊢
    simp only [Num.toFloat, grid_exact hj h0 hm hlt, Num.ofTime]

theorem add_grid {j : Nat} (hj : j ≤ 1074) {x t : Num} (hx : OnGrid j x.val) (ht : OnGrid j t.val)
    (hlt : x.val + t.val = .inf ∨ x.val + t.val < .fin (pow2 (53 - j))) : (x.add t).val = x.val + t.val := by
  cases hxv : x.val with
  | inf =>
    cases x with
    | int n => cases hxv
    | flt q => cases hxv
    | inf => unfold Num.add; cases t <;> simp [Num.toFloat, Num.val]
  | fin b =>
    cases htv : t.val with
    | inf => rw [add_inf _ _ htv]; rfl
    | fin a =>
      rw [hxv] at hx hlt
      rw [htv] at ht hlt
      obtain ⟨hb0, mb, hb⟩ := hx
      obtain ⟨ha0, ma, ha⟩ := ht
      have hsum : b + a < pow2 (53 - j) := by
        rcases hlt with h | h
        · cases h
        · exact Time.fin_lt.1 h
      have h1 := toFloat_grid hj hxv hb0 (by linarith)
      have h2 := toFloat_grid hj htv ha0 (by linarith)
      have hfl : fl (b + a) = .fin (b + a) := grid_exact hj (add_nonneg hb0 ha0) (m := mb + ma) (by rw [hb, ha]; push_cast; ring) hsum
      have hfin : ∀ y : Num, y = Num.ofTime (fl (b + a)) → y.val = .fin b + .fin a := by
        intro y hy; rw [hy, hfl]; rfl
      unfold Num.add
      split
      · next n m =>
        injection hxv with hxv; injection htv with htv
        show Time.fin _ = Time.fin (b + a)
        rw [← hxv, ← htv]; push_cast; rfl
      · rw [h1, h2]; exact hfin _ rfl

private theorem dyadic_times (H : NHost W) (iv : Num) (sh : Bool) (w0 : W) (h : List (Cmd W)) (j : Nat) (hj : j ≤ 1074)
    (hc : ∀ e ∈ (nreach H iv sh w0 h).1.log, Dyadic j iv e) : ∀ e ∈ (nreach H iv sh w0 h).1.log, OnGrid j e.time.val := by
  refine ntimes (fun t => OnGrid j t.val) ⟨le_refl _, 0, by simp⟩ trivial H iv sh w0 h (fun r t d hm ht => ?_)
  obtain ⟨_, hd, hs⟩ := hc _ hm
  show OnGrid j _
  rw [add_grid hj hd ht hs]
  cases hx : (Num.pyOr d iv).val with
  | inf => trivial
  | fin b =>
    cases hy : t.val with
    | inf => trivial
    | fin a =>
      rw [hx] at hd
      have ht' : OnGrid j t.val := ht
      rw [hy] at ht'
      obtain ⟨hb0, mb, hb⟩ := hd
      obtain ⟨ha0, ma, ha⟩ := ht'
      exact ⟨add_nonneg hb0 ha0, mb + ma, by rw [hb, ha]; push_cast; ring⟩

/-- C203: if the delays are multiples of `2 ** -j` (integers, halves, ...) and no sum reaches `2 ** (53 - j)`, then nothing is rounded: an agent that was added
once and asked for the delay `d` at time `t` acts next at exactly `t + d`. Missing: other delays, such as 0.1 (`C203_drift_false`). -/
theorem C203_dyadic_exact_partial (H : NHost W) (iv : Num) (hiv : 0 < iv.val) (sh : Bool) (w0 : W) (h : List (Cmd W)) (j : Nat) (hj : j ≤ 1074)
    (hc : ∀ e ∈ (nreach H iv sh w0 h).1.log, Dyadic j iv e) (r : Ref) (h1 : (nreach H iv sh w0 h).1.log.countP (·.adds r) = 1)
    {pre post : List NEv} {t u : Num} {d : Option Num} {rep : NReply}
    (hlog : (nreach H iv sh w0 h).1.log.filter (·.ref = r) = pre ++ .act r t (.ret d) :: .act r u rep :: post) :
    u.val = (Num.pyOr d iv).val + t.val := by
  have ht := dyadic_times H iv sh w0 h j hj hc
  have hex : ∀ r t d, NEv.act r t (.ret d) ∈ (nreach H iv sh w0 h).1.log → ((Num.pyOr d iv).add t).val = (Num.pyOr d iv).val + t.val :=
    fun r t d hm => add_grid hj (hc _ hm).2.1 (ht _ hm) (hc _ hm).2.2
  have hp : ∀ e ∈ (nreach H iv sh w0 h).1.log, Advances iv e := by
    intro e he
    have h1 := hc e he
    cases e with
    | added r t => trivial
    | act r t rep =>
      cases rep with
      | dead => trivial
      | error => exact h1
      | ret d =>
        show t.val = .inf ∨ t.val < _
        rw [hex r t d he]
        obtain ⟨hpos, _, _⟩ := h1
        cases htv : t.val with
        | inf => exact Or.inl rfl
        | fin a =>
          right
          cases hxv : (Num.pyOr d iv).val with
          | inf => exact Time.fin_lt_inf _
          | fin b =>
            rw [hxv] at hpos
            have hb : (0 : Rat) < b := Time.fin_lt.1 hpos
            show Time.fin a < Time.fin (b + a)
            rw [Time.fin_lt]; linarith
  rw [C203_next_activation_partial H iv hiv sh w0 h hp r h1 hlog]
  refine hex r t d ?_
  have : NEv.act r t (.ret d) ∈ (nreach H iv sh w0 h).1.log.filter (·.ref = r) := by rw [hlog]; simp
  exact (List.mem_filter.1 this).1

/-! ### Witnesses -/

/-- `0.1`, `0.3`, `0.9` and `0.1 + 0.2` as floats. -/
def f01 : Num := .flt (3602879701896397 / 36028797018963968)
def f03 : Num := .flt (5404319552844595 / 18014398509481984)
def f09 : Num := .flt (8106479329266893 / 9007199254740992)

example : fl (1 / 10) = f01.val ∧ fl (3 / 10) = f03.val ∧ fl (9 / 10) = f09.val := by decide +kernel

/-- Agent 0 waits 0.1, agent 1 waits 0.3. -/
private def driftHost : NHost Unit where
  step r _ _ := (.ret (some (if r = 0 then f01 else f03)), [], ())
  shuffle l _ := (l, ())
  shuffle_perm l _ := List.Perm.refl l

private def driftHist : List (Cmd Unit) := [.op (.add 0 none), .op (.add 1 none)] ++ List.replicate 6 .step

-- The hypotheses of the theorems hold although the sums are rounded.
set_option maxRecDepth 100000 in
example : (∀ e ∈ (nreach driftHost (.int 1) false () driftHist).1.log, Advances (.int 1) e) ∧
    (nreach driftHost (.int 1) false () driftHist).1.log.countP (·.adds 0) = 1 ∧
    (nreach driftHost (.int 1) false () driftHist).1.steps = 6 := by decide +kernel

set_option maxRecDepth 100000 in
/-- C203, violation: three delays of 0.1 do not make 0.3: an agent that waits 0.1 each time and one that waits 0.3 do not meet. -/
theorem C203_drift_false : ∃ (H : NHost Unit) (h : List (Cmd Unit)) (t u : Num),
    (nreach H (.int 1) false () h).1.log.filter (·.ref = 0) =
      [.added 0 (.int 0), .act 0 (.int 0) (.ret (some f01)), .act 0 f01 (.ret (some f01)), .act 0 (f01.add f01) (.ret (some f01)), .act 0 u (.ret (some f01))] ∧
    (nreach H (.int 1) false () h).1.log.filter (·.ref = 1) = [.added 1 (.int 0), .act 1 (.int 0) (.ret (some f03)), .act 1 t (.ret (some f03))] ∧
    t.val < u.val := by
  refine ⟨driftHost, [.op (.add 0 none), .op (.add 1 none)] ++ List.replicate 5 .step, f03, f01.add (f01.add f01), ?_⟩
  decide +kernel

/-- An agent that first waits until `2 ** 53` and then one unit at a time. -/
private def stallHost : NHost Unit where
  step _ s _ := (.ret (some (if s.steps = 0 then .flt 9007199254740992 else .flt 1)), [], ())
  shuffle l _ := (l, ())
  shuffle_perm l _ := List.Perm.refl l

private def stalled (n : Nat) (log : List NEv) : NSched where
  time := .flt 9007199254740992
  steps := n + 1
  queue := [(.flt 9007199254740992, [0])]
  agents := [0]
  interval := .int 1
  shuffle := true
  running := true
  log := log

private theorem stall_step (n : Nat) (log : List NEv) :
    NSched.step stallHost (stalled n log) () =
      (stalled (n + 1) (log ++ [.act 0 (.flt 9007199254740992) (.ret (some (.flt 1)))]), (), false) := by
  have hadd : Num.add (.flt 1) (.flt 9007199254740992) = .flt 9007199254740992 := by decide +kernel
  have hor : ∀ iv, Num.pyOr (some (.flt 1)) iv = .flt 1 := by
    intro iv
    have : ¬ (Num.flt 1).val = 0 := by decide +kernel
    rw [Num.pyOr, if_neg this]
  have hor2 : ∀ iv, Num.pyOr (some (.flt 9007199254740992)) iv = .flt 9007199254740992 := by
    intro iv
    have : ¬ (Num.flt 9007199254740992).val = 0 := by decide +kernel
    rw [Num.pyOr, if_neg this]
  have hlt : ¬ (Num.flt 9007199254740992).val < (Num.flt 9007199254740992).val := by decide +kernel
  have hinf : ¬ (Num.flt 9007199254740992).val = .inf := by decide +kernel
  simp only [stalled, NSched.step, if_neg hlt, nrunOrder, if_true, stallHost, nrunBucket, NSched.applyOps, List.foldl_nil, NSched.logAct, hor, hadd,
    NSched.schedule, hor2, ninsert, nfinishStep, nheadTime, Nat.add_one_ne_zero, if_false, if_neg hinf]
  rfl

/-- C203, violation: at `2 ** 53` a delay of 1.0 is lost. The agent is activated again and again at the same time: time stands still for ever, however many
steps are made. -/
theorem C203_stall_false : ∃ H : NHost Unit, ∀ n,
    (nreach H (.int 1) true () ([.op (.add 0 none), .step] ++ List.replicate n .step)).1.time = .flt 9007199254740992 ∧
    (nreach H (.int 1) true () ([.op (.add 0 none), .step] ++ List.replicate n .step)).1.steps = n + 1 ∧
    (nreach H (.int 1) true () ([.op (.add 0 none), .step] ++ List.replicate n .step)).1.log =
      [.added 0 (.int 0), .act 0 (.int 0) (.ret (some (.flt 9007199254740992)))] ++
        List.replicate n (.act 0 (.flt 9007199254740992) (.ret (some (.flt 1)))) := by
  refine ⟨stallHost, ?_⟩
  have key : ∀ n, (nreach stallHost (.int 1) true () ([.op (.add 0 none), .step] ++ List.replicate n .step)) =
      (stalled n ([.added 0 (.int 0), .act 0 (.int 0) (.ret (some (.flt 9007199254740992)))] ++
        List.replicate n (.act 0 (.flt 9007199254740992) (.ret (some (.flt 1))))), ()) := by
    intro n
    induction n with
    | zero => decide +kernel
    | succ n ih =>
      have hx : [.op (.add 0 none), .step] ++ List.replicate (n + 1) (Cmd.step : Cmd Unit) =
          ([.op (.add 0 none), .step] ++ List.replicate n .step) ++ [.step] := by
        rw [List.append_assoc, ← List.replicate_succ']
      rw [hx, nreach, nexecAll, List.foldl_append, List.foldl_cons, List.foldl_nil]
      have ih' := ih
      rw [nreach, nexecAll] at ih'
      rw [ih']
      show ((NSched.step stallHost _ ()).1, (NSched.step stallHost _ ()).2.1) = _
      rw [stall_step, List.append_assoc, ← List.replicate_succ']
  intro n
  rw [key n]
  exact ⟨rfl, rfl, rfl⟩

/-- The first delay is the integer `2 ** 53 + 1`, the second the float 1.0. -/
private def mixedHost : NHost Unit where
  step _ s _ := (.ret (some (if s.steps = 0 then .int 9007199254740993 else .flt 1)), [], ())
  shuffle l _ := (l, ())
  shuffle_perm l _ := List.Perm.refl l

set_option maxRecDepth 100000 in
/-- C203, violation: with an integer clock beyond `2 ** 53` and a float delay, time goes backwards: the clock is rounded down before the sum. -/
theorem C203_mixed_false : ∃ (H : NHost Unit) (h1 h2 : List (Cmd Unit)),
    (∀ e ∈ (nreach H (.int 1) true () (h1 ++ h2)).1.log, ∀ r t d, e = .act r t (.ret d) → 1 ≤ (Num.pyOr d (.int 1)).val) ∧
    (nreach H (.int 1) true () (h1 ++ h2)).1.time.val < (nreach H (.int 1) true () h1).1.time.val := by
  refine ⟨mixedHost, [.op (.add 0 none), .step], [.step], ?_, by decide +kernel⟩
  have hlog : (nreach mixedHost (.int 1) true () ([.op (.add 0 none), .step] ++ [.step])).1.log =
      [.added 0 (.int 0), .act 0 (.int 0) (.ret (some (.int 9007199254740993))), .act 0 (.int 9007199254740993) (.ret (some (.flt 1)))] := by
    decide +kernel
  rw [hlog]
  intro e he r t d hed
  subst hed
  simp only [List.mem_cons, List.not_mem_nil, or_false, NEv.act.injEq, NReply.ret.injEq, reduceCtorEq, false_or] at he
  rcases he with ⟨_, _, rfl⟩ | ⟨_, _, rfl⟩ <;> decide +kernel

/-- Waits 0.3, then calls `at(0.9)`. -/
private def atHost : NHost Unit where
  step _ s _ := (.ret (some (if s.steps = 0 then f03 else f09.sub s.time)), [], ())
  shuffle l _ := (l, ())
  shuffle_perm l _ := List.Perm.refl l

set_option maxRecDepth 100000 in
/-- C203, violation: `at(t)` (soil/agents/__init__.py:296-297) is a delay of `t - now`, and the scheduler adds `now` to it; with floats that is not `t`: `at(0.9)` at
time 0.3 wakes up at 0.9000000000000001, after an agent that waits 0.9 from the start. -/
theorem C203_at_false : ∃ (H : NHost Unit) (h : List (Cmd Unit)) (u : Num),
    (nreach H (.int 1) true () h).1.log =
      [.added 0 (.int 0), .act 0 (.int 0) (.ret (some f03)), .act 0 f03 (.ret (some (f09.sub f03))), .act 0 u (.ret (some (f09.sub u)))] ∧
    f09.val < u.val := by
  refine ⟨atHost, [.op (.add 0 none), .step, .step, .step], .flt (4053239664633447 / 4503599627370496), ?_⟩
  decide +kernel

/-- Waits a half. -/
private def halfHost : NHost Unit where
  step _ _ _ := (.ret (some (.flt (1 / 2))), [], ())
  shuffle l _ := (l, ())
  shuffle_perm l _ := List.Perm.refl l

-- Halves are exact, and nothing is lost.
set_option maxRecDepth 100000 in
example : (nreach halfHost (.int 1) false () [.op (.add 0 none), .step, .step, .step]).1.log =
    [.added 0 (.int 0), .act 0 (.int 0) (.ret (some (.flt (1 / 2)))), .act 0 (.flt (1 / 2)) (.ret (some (.flt (1 / 2)))),
      .act 0 (.flt 1) (.ret (some (.flt (1 / 2))))] ∧
    (∀ e ∈ (nreach halfHost (.int 1) false () [.op (.add 0 none), .step, .step, .step]).1.log, Coarse 52 (.int 1) e ∧ Dyadic 1 (.int 1) e) := by
  have hlog : (nreach halfHost (.int 1) false () [.op (.add 0 none), .step, .step, .step]).1.log =
    [.added 0 (.int 0), .act 0 (.int 0) (.ret (some (.flt (1 / 2)))), .act 0 (.flt (1 / 2)) (.ret (some (.flt (1 / 2)))),
      .act 0 (.flt 1) (.ret (some (.flt (1 / 2))))] := by decide +kernel
  refine ⟨hlog, ?_⟩
  rw [hlog]
  have hor : Num.pyOr (some (.flt (1 / 2))) (.int 1) = .flt (1 / 2) := by decide +kernel
  have hg : OnGrid 1 (Num.flt (1 / 2)).val := ⟨by decide +kernel, 1, by decide +kernel⟩
  have hpy : (Num.flt (1 / 2)).IsPy := ⟨by decide +kernel, by decide +kernel⟩
  intro e he
  simp only [List.mem_cons, List.not_mem_nil, or_false] at he
  rcases he with rfl | rfl | rfl | rfl
  · exact ⟨trivial, trivial⟩
  all_goals
    refine ⟨⟨?_, ?_, ?_⟩, ?_, ?_, ?_⟩ <;> (try rw [hor]) <;> first | exact hg | exact hpy | decide +kernel

end Verif
