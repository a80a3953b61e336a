import Verif.Proofs.Refine

/-!
# The order of the activations of `PQueueActivation` is the one of its keys
-/

namespace Verif
open Spec

variable {W : Type}

/-- How often something is scheduled. -/
def schedCount (iv : Time) : List Ev → Nat
  | [] => 0
  | .added _ _ :: l => schedCount iv l + 1
  | .act _ t rep :: l => schedCount iv l + if nextWake iv t rep = none then 0 else 1

theorem schedCount_append (iv : Time) (l l' : List Ev) : schedCount iv (l ++ l') = schedCount iv l + schedCount iv l' := by
  induction l with
  | nil => simp [schedCount]
  | cons e l ih =>
    cases e with
    | added r t => simp only [List.cons_append, schedCount, ih]; omega
    | act r t rep => simp only [List.cons_append, schedCount, ih]; omega

/-- What a loop does when the keys of the agents due now follow the list `L`. -/
def LoopOrder (keys : Ref → Nat → Rat) (L : List Ref) (p : PSched) (c : Nat) (res : PSched × (W × Nat) × Time × PStatus) : Prop :=
  ∃ evs rest, res.1.log = p.log ++ evs ∧ L = actRefs evs ++ rest ∧ res.2.1.2 = c + schedCount p.interval evs ∧ res.2.2.2 ≠ .stuck ∧
    (res.2.2.2 = .ok → (res.1.queue.map PEntry.ref).Nodup ∧
      ∀ e ∈ res.1.queue, (e ∈ p.queue ∧ p.time < e.when_) ∨ ∃ c', c ≤ c' ∧ c' < c + schedCount p.interval evs ∧ e.key = keys e.ref c')

theorem LoopOrder.done {keys : Ref → Nat → Rat} {L : List Ref} {p : PSched} {w : W} (c : Nat) (hn : (p.queue.map PEntry.ref).Nodup) (hq : ∀ e ∈ p.queue, p.time < e.when_) (t : Time) :
    LoopOrder keys L p c (p, (w, c), t, .ok) :=
  ⟨[], L, by simp, rfl, rfl, (by intro hc; cases hc), fun _ => ⟨hn, fun e he => Or.inl ⟨he, hq e he⟩⟩⟩

theorem pLoop_follows {U : AgentCode W} (hU : U.Plain) (keys : Ref → Nat → Rat) (f : Ref → Rat)
    (fuel : Nat) (p : PSched) (w : W) (c : Nat) (L : List Ref) (h : PInv p)
    (hn : (p.queue.map PEntry.ref).Nodup) (hL : L.Pairwise (fun a b => f a < f b)) (hLp : (dueAt (ppending p) p.time).Perm L)
    (hkey : ∀ e ∈ p.queue, e.when_ = p.time → e.key = f e.ref)
    (hf : p.queue.countP (fun e => decide (e.when_ = p.time)) ≤ fuel) :
    LoopOrder keys L p c (pLoop (U.pqueue keys) p.time fuel p (w, c)) := by
  induction fuel generalizing p w c L with
  | zero =>
    unfold pLoop
    cases hq : p.queue with
    | nil => exact .done c hn (by rw [hq]; simp) _
    | cons e q =>
      simp only
      by_cases hlt : p.time < e.when_
      · rw [if_pos hlt]
        exact .done c hn (h.all_later hq hlt) _
      · exfalso
        have he : e.when_ = p.time := le_antisymm (not_lt.1 hlt) (h.ge e (by simp [hq]))
        simp [hq, he] at hf
  | succ fuel ih =>
    unfold pLoop
    cases hq : p.queue with
    | nil => exact .done c hn (by rw [hq]; simp) _
    | cons e q =>
      simp only
      by_cases hlt : p.time < e.when_
      · rw [if_pos hlt]
        exact .done c hn (h.all_later hq hlt) _
      · rw [if_neg hlt]
        have he : e.when_ = p.time := le_antisymm (not_lt.1 hlt) (h.ge e (by simp [hq]))
        have hstepP : (U.pqueue keys).step e.ref p (w, c) =
            ((U e.ref p.time p.steps p.agents w).1, (U e.ref p.time p.steps p.agents w).2.1, ((U e.ref p.time p.steps p.agents w).2.2, c)) := rfl
        have hdue0 : dueAt (ppending p) p.time = e.ref :: dueAt (q.map (fun e => (e.ref, e.when_))) p.time := by
          rw [ppending, hq, List.map_cons, dueAt_cons, if_pos he]
        -- the first of the list is the head of the heap
        obtain ⟨L', rfl⟩ : ∃ L', L = e.ref :: L' := by
          rw [hdue0] at hLp
          cases L with
          | nil => exact absurd hLp.eq_nil (by simp)
          | cons r0 L' =>
            by_cases hr : r0 = e.ref
            · exact ⟨L', by rw [hr]⟩
            · exfalso
              have hmem : r0 ∈ dueAt (ppending p) p.time := by rw [hdue0]; exact hLp.mem_iff.2 List.mem_cons_self
              obtain ⟨x, hx, hxe⟩ := List.mem_map.1 (mem_dueAt.1 hmem)
              have hxr : x.ref = r0 := congrArg Prod.fst hxe
              have hxw : x.when_ = p.time := congrArg Prod.snd hxe
              have hmin : PEntry.lt x e = false := by
                have hh := h.heap
                have hx' := hx
                rw [hq] at hh hx'
                exact hh.head_le PEntry.weakOrder x hx'
              have hle : ¬ x.key < e.key := by
                intro hc
                simp [PEntry.lt, hxw, he, hc] at hmin
              rw [hkey x hx hxw, hkey e (by rw [hq]; simp) he, hxr] at hle
              have hm : e.ref ∈ L' := by
                have : e.ref ∈ r0 :: L' := hLp.mem_iff.1 List.mem_cons_self
                rcases List.mem_cons.1 this with h1 | h1
                · exact absurd h1.symm hr
                · exact h1
              exact hle (List.rel_of_pairwise_cons hL hm)
        have hLp' : (dueAt (q.map (fun e => (e.ref, e.when_))) p.time).Perm L' := by
          rw [hdue0] at hLp
          exact (List.perm_cons _).1 hLp
        have hL' := hL.of_cons
        have hno := hU.noadd e.ref p.time p.steps p.agents w
        have hgd := hU.good e.ref p.time p.steps p.agents w
        rw [hstepP]
        generalize U e.ref p.time p.steps p.agents w = x at *
        obtain ⟨rep, os, w1⟩ := x
        simp only at hno hgd ⊢
        obtain ⟨o1, o2, o3, o4, o5, o6, o7⟩ := papplyOps_noadd (U.pqueue keys) p (w1, c) os hno
        rw [o1]
        simp only [Bool.false_eq_true, if_false]
        generalize p.applyOps (U.pqueue keys) (w1, c) os = ops at *
        have hops : PInv ops.1 := h.congr o6 o3 o4 o5
        have hqo : ops.1.queue = e :: q := o3.trans hq
        have heo : e.when_ = ops.1.time := he.trans o5.symm
        have hcount : q.countP (fun x => decide (x.when_ = p.time)) + 1 ≤ fuel + 1 := by
          rw [hq, List.countP_cons_of_pos (by simp [he])] at hf
          exact hf
        have hnq : (q.map PEntry.ref).Nodup ∧ e.ref ∉ q.map PEntry.ref := by
          rw [hq, List.map_cons, List.nodup_cons] at hn
          exact ⟨hn.2, hn.1⟩
        have hkq : ∀ x ∈ q, x.when_ = p.time → x.key = f x.ref := fun x hx => hkey x (by rw [hq]; simp [hx])
        -- the entry is removed
        have hpop : ∀ rep, PInv (ops.1.logAct e.ref p.time rep).pop → nextWake p.interval p.time rep = none →
            LoopOrder keys (e.ref :: L') p c (pLoop (U.pqueue keys) p.time fuel (ops.1.logAct e.ref p.time rep).pop (w1, c)) := by
          intro rep hi hnone
          have ht : (ops.1.logAct e.ref p.time rep).pop.time = p.time := o5
          have hqp : (ops.1.logAct e.ref p.time rep).pop.queue.Perm q := by
            simp only [PSched.pop, PSched.logAct, hqo]; exact heappop_perm e q
          have := ih _ w1 c L' hi ((hqp.map _).nodup_iff.2 hnq.1) hL' (by
              rw [ht]
              exact (((hqp.map _).filter _).map _).trans hLp') (by
              intro x hx hw
              rw [ht] at hw
              exact hkq x (hqp.mem_iff.1 hx) hw) (by rw [ht, hqp.countP_eq]; omega)
          rw [ht] at this
          obtain ⟨evs, rest, a1, a2, a3, a5, a4⟩ := this
          have hint : (ops.1.logAct e.ref p.time rep).pop.interval = p.interval := o6
          rw [hint] at a3 a4
          refine ⟨.act e.ref p.time rep :: evs, rest, ?_, ?_, ?_, a5, ?_⟩
          · rw [a1]; simp [PSched.logAct, PSched.pop, o4]
          · rw [actRefs_act, List.cons_append, ← a2]
          · rw [a3]; simp [schedCount, hnone]
          · intro hok
            obtain ⟨b1, b2⟩ := a4 hok
            refine ⟨b1, ?_⟩
            intro x hx
            rcases b2 x hx with ⟨d1, d2⟩ | ⟨c', d1, d2, d3⟩
            · rw [ht] at d2
              exact Or.inl ⟨by rw [hq]; exact List.mem_cons_of_mem _ (hqp.mem_iff.1 d1), d2⟩
            · exact Or.inr ⟨c', d1, by simpa [schedCount, hnone] using d2, d3⟩
        cases rep with
        | error =>
          refine ⟨[.act e.ref p.time .error], L', ?_, rfl, ?_, (by intro hc; cases hc), ?_⟩
          · simp [PSched.logAct, o4]
          · simp only [o2, schedCount, nextWake]; rfl
          · intro hc; cases hc
        | dead =>
          simp only
          have hi := hops.act_pop (rep := .dead) hqo heo rfl
          rw [o5] at hi
          rw [o2]
          exact hpop .dead hi rfl
        | ret d =>
          simp only
          have hg : GoodReply (.ret d) := hgd.resolve_left (by simp)
          have hiv : (ops.1.logAct e.ref p.time (.ret d)).interval = p.interval := o6
          rw [hiv, pyOr_eq_effDelay, time_add_comm]
          by_cases hinf : p.time + effDelay p.interval d = .inf
          · rw [if_pos hinf]
            have hi := hops.act_pop (rep := .ret d) hqo heo (by rw [o5, o6]; simp [nextWake, hinf])
            rw [o5] at hi
            rw [o2]
            exact hpop (.ret d) hi (by simp [nextWake, hinf])
          · rw [if_neg hinf]
            have hsch : (ops.1.logAct e.ref p.time (.ret d)).schedule (U.pqueue keys) ops.2.1 e.ref (some (p.time + effDelay p.interval d)) true
              = ({ ops.1.logAct e.ref p.time (.ret d) with
                    queue := siftup PEntry.lt ⟨p.time + effDelay p.interval d, keys e.ref c, e.ref⟩ (e :: q) }, (w1, c + 1), false) := by
              rw [o2]
              simp only [PSched.schedule, if_true, PSched.logAct, hqo, Option.getD_some, heapreplace, AgentCode.pqueue]
            rw [hsch]
            simp only [Bool.false_eq_true, if_false]
            have hw : nextWake p.interval p.time (.ret d) = some (p.time + effDelay p.interval d) := by
              simp [nextWake, hinf]
            obtain ⟨hgt, hni⟩ := nextWake_gt h.iv_pos hg hw
            have hi := hops.act_replace (rep := .ret d) hqo heo (by rw [o5, o6]; exact hw) (by rw [o5]; exact hgt) hni (keys e.ref c)
            rw [o5] at hi
            have hperm := siftup_perm (lt := PEntry.lt) ⟨p.time + effDelay p.interval d, keys e.ref c, e.ref⟩ e q
            have hne : p.time + effDelay p.interval d ≠ p.time := ne_of_gt hgt
            have ht : ({ ops.1.logAct e.ref p.time (.ret d) with
                    queue := siftup PEntry.lt ⟨p.time + effDelay p.interval d, keys e.ref c, e.ref⟩ (e :: q) } : PSched).time = p.time := o5
            have hint : ({ ops.1.logAct e.ref p.time (.ret d) with
                    queue := siftup PEntry.lt ⟨p.time + effDelay p.interval d, keys e.ref c, e.ref⟩ (e :: q) } : PSched).interval = p.interval := o6
            have := ih { ops.1.logAct e.ref p.time (.ret d) with
                    queue := siftup PEntry.lt ⟨p.time + effDelay p.interval d, keys e.ref c, e.ref⟩ (e :: q) } w1 (c + 1) L' hi (by
                refine ((hperm.map _).nodup_iff).2 ?_
                rw [List.map_cons, List.nodup_cons]
                exact ⟨hnq.2, hnq.1⟩) hL' (by
                rw [ht]
                refine List.Perm.trans ?_ hLp'
                refine (((hperm.map _).filter _).map _).trans ?_
                show (dueAt _ p.time).Perm _
                rw [List.map_cons, dueAt_cons, if_neg hne]) (by
                intro x hx hxw
                rw [ht] at hxw
                rcases List.mem_cons.1 (hperm.mem_iff.1 hx) with rfl | hx
                · exact absurd hxw hne
                · exact hkq x hx hxw) (by
                show List.countP _ (siftup PEntry.lt _ (e :: q)) ≤ fuel
                rw [ht, hperm.countP_eq, List.countP_cons_of_neg (by simp [hne])]
                omega)
            rw [ht] at this
            obtain ⟨evs, rest, a1, a2, a3, a5, a4⟩ := this
            rw [hint] at a3 a4
            have hsc : schedCount p.interval (.act e.ref p.time (.ret d) :: evs) = schedCount p.interval evs + 1 := by simp [schedCount, hw]
            refine ⟨.act e.ref p.time (.ret d) :: evs, rest, ?_, ?_, ?_, a5, ?_⟩
            · rw [a1]; simp [PSched.logAct, o4]
            · rw [actRefs_act, List.cons_append, ← a2]
            · rw [a3, hsc]; omega
            · intro hok
              obtain ⟨b1, b2⟩ := a4 hok
              refine ⟨b1, ?_⟩
              rw [hsc]
              intro x hx
              rcases b2 x hx with ⟨d1, d2⟩ | ⟨c', d1, d2, d3⟩
              · rw [ht] at d2
                rcases List.mem_cons.1 (hperm.mem_iff.1 d1) with rfl | hx
                · exact Or.inr ⟨c, Nat.le_refl _, by omega, rfl⟩
                · exact Or.inl ⟨by rw [hq]; exact List.mem_cons_of_mem _ hx, d2⟩
              · exact Or.inr ⟨c', by omega, by omega, d3⟩

end Verif
