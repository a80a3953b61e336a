import Verif.Model.IterAgents
import Mathlib.Data.List.Basic

/-!
# Loops over agents that die or change (C207)
-/

namespace Verif

variable {σ : Type}

/-- The first `limit` elements, all if there is no limit. -/
def upTo (limit : Option Nat) (l : List Ref) : List Ref := limit.elim l (fun n => l.take n)

/-- A body without `break`. -/
def LoopBody.NoBreak (body : LoopBody σ) : Prop := ∀ r p, (body r p).2 = false

/-- A body that may change for whom it is run, but not whether others satisfy the criteria. -/
def LoopBody.Own (crit : σ → Ref → Bool) (body : LoopBody σ) : Prop :=
  ∀ r p q, q ≠ r → crit (body r p).1.st q = crit p.st q

private theorem upTo_sub (limit : Option Nat) (k : Nat) (l : List Ref) (h : more limit k = false) :
    upTo (limit.map (· - k)) l = [] := by
  cases limit with
  | none => simp [more] at h
  | some n =>
    simp only [more, decide_eq_false_iff_not, not_lt] at h
    simp [upTo, Nat.sub_eq_zero_of_le h]

private theorem upTo_cons (limit : Option Nat) (k : Nat) (r : Ref) (l : List Ref) (h : more limit k = true) :
    upTo (limit.map (· - k)) (r :: l) = r :: upTo (limit.map (· - (k + 1))) l := by
  cases limit with
  | none => rfl
  | some n =>
    simp only [more, decide_eq_true_eq] at h
    obtain ⟨m, rfl⟩ := Nat.exists_eq_add_of_lt h
    have e1 : k + m + 1 - k = m + 1 := by omega
    have e2 : k + m + 1 - (k + 1) = m := by omega
    simp [upTo, e1, e2]

private theorem iterLoop_list (frozen : Bool) (crit : σ → Ref → Bool) (limit : Option Nat) (body : LoopBody σ)
    (hown : LoopBody.Own crit body) (hlen : frozen = true → ∀ r p, (body r p).1.members.length = p.members.length) (n : Nat)
    (todo vis : List Ref) (p : Pool σ) (hnd : todo.Nodup) (hp : frozen = true → p.members.length = n) :
    iterLoop frozen crit limit body n todo vis p =
      listLoop body (upTo (limit.map (· - vis.length)) (todo.filter (crit p.st))) vis p := by
  induction todo generalizing vis p with
  | nil =>
    have e : upTo (limit.map (· - vis.length)) ([] : List Ref) = [] := by cases limit <;> simp [upTo]
    rw [List.filter_nil, e]
    have hc : (more limit vis.length && frozen && p.members.length != n) = false := by
      cases frozen with
      | false => simp
      | true => simp [hp rfl]
    simp only [iterLoop, hc, listLoop]
    rfl
  | cons r todo ih =>
    have hnd' := (List.nodup_cons.1 hnd)
    unfold iterLoop
    cases hm : more limit vis.length with
    | false => rw [upTo_sub _ _ _ hm]; rfl
    | true =>
      have hc : (frozen && p.members.length != n) = false := by
        cases frozen with
        | false => simp
        | true => simp [hp rfl]
      simp only [Bool.not_true, hc, Bool.false_eq_true, if_false]
      cases hr : crit p.st r with
      | false =>
        simp only [Bool.false_eq_true, if_false]
        rw [ih vis p hnd'.2 hp, List.filter_cons_of_neg (by simp [hr])]
      | true =>
        simp only [if_true]
        rw [List.filter_cons_of_pos hr, upTo_cons _ _ _ _ hm]
        simp only [listLoop]
        split
        · rfl
        · rw [ih (vis ++ [r]) (body r p).1 hnd'.2 (fun hf => by rw [hlen hf]; exact hp hf)]
          have e : todo.filter (crit (body r p).1.st) = todo.filter (crit p.st) := by
            apply List.filter_congr
            intro q hq
            exact hown r p q (fun e => hnd'.1 (e ▸ hq))
          rw [e, List.length_append, List.length_singleton]

private theorem listLoop_id (l vis : List Ref) (p : Pool σ) : listLoop (fun _ q => (q, false)) l vis p = ⟨vis ++ l, p, false⟩ := by
  induction l generalizing vis with
  | nil => simp [listLoop]
  | cons r l ih => simp [listLoop, ih]

/-- `get_agents` gives the agents that satisfy the criteria, in the order of the schedule, up to the limit. -/
theorem getAgents_eq (crit : σ → Ref → Bool) (limit : Option Nat) (p : Pool σ) (hp : p.members.Nodup) :
    p.getAgents crit limit = upTo limit (p.members.filter (crit p.st)) := by
  have h := iterLoop_list true crit limit (fun _ q => (q, false)) (fun _ _ _ _ => rfl) (fun _ _ _ => rfl) p.members.length
    p.members [] p hp (fun _ => rfl)
  unfold Pool.getAgents Pool.iterFor
  rw [h, listLoop_id]
  cases limit <;> simp [upTo]

private theorem listLoop_visited (body : LoopBody σ) (hb : body.NoBreak) (l vis : List Ref) (p : Pool σ) :
    (listLoop body l vis p).visited = vis ++ l ∧ (listLoop body l vis p).raised = false := by
  induction l generalizing vis p with
  | nil => simp [listLoop]
  | cons r l ih =>
    simp only [listLoop, hb r p, Bool.false_eq_true, if_false]
    rw [(ih _ _).1, (ih _ _).2]
    simp

/-- C207, `get_agents`: whatever the body of the loop does — kill agents, add agents, change them — it is run once
for each agent that satisfied the criteria when the loop began, up to the limit, and the loop itself raises nothing. -/
theorem C207_get_partial (crit : σ → Ref → Bool) (limit : Option Nat) (body : LoopBody σ) (hb : body.NoBreak) (p : Pool σ)
    (hp : p.members.Nodup) :
    (p.getFor crit limit body).visited = upTo limit (p.members.filter (crit p.st)) ∧ (p.getFor crit limit body).raised = false := by
  unfold Pool.getFor
  rw [(listLoop_visited body hb _ _ _).1, (listLoop_visited body hb _ _ _).2, getAgents_eq _ _ _ hp]
  exact ⟨rfl, rfl⟩

/-- C207 (partial), `iter_agents`: if the body changes at most whether the agent at hand satisfies the criteria, and nobody
dies or is added (or the version of Python allows it), the loop does the same as the loop over `get_agents`. Missing: bodies
that kill or add agents, or change others. -/
theorem C207_iter_partial (frozen : Bool) (crit : σ → Ref → Bool) (limit : Option Nat) (body : LoopBody σ) (hown : LoopBody.Own crit body)
    (hlen : frozen = true → ∀ r p, (body r p).1.members.length = p.members.length) (p : Pool σ) (hp : p.members.Nodup) :
    p.iterFor frozen crit limit body = p.getFor crit limit body := by
  unfold Pool.getFor
  rw [getAgents_eq _ _ _ hp]
  have h := iterLoop_list frozen crit limit body hown hlen p.members.length p.members [] p hp (fun _ => rfl)
  unfold Pool.iterFor
  rw [h]
  cases limit <;> simp [upTo]

private theorem iterLoop_raises (crit : σ → Ref → Bool) (body : LoopBody σ) (hb : body.NoBreak) (n : Nat) (todo vis : List Ref) (p : Pool σ)
    (h : (iterLoop true crit none body n todo vis p).raised = false) :
    (iterLoop true crit none body n todo vis p).pool.members.length = n := by
  induction todo generalizing vis p with
  | nil =>
    simp only [iterLoop, more, Bool.and_self, Bool.true_and] at h ⊢
    split at h
    · simp at h
    · rename_i hc
      rw [if_neg hc]
      simpa using hc
  | cons r todo ih =>
    unfold iterLoop at h ⊢
    simp only [more, Bool.not_true, Bool.false_eq_true, if_false, Bool.true_and, hb r p] at h ⊢
    split at h
    · simp at h
    · rename_i hc
      rw [if_neg hc]
      split at h
      · rename_i hr
        rw [if_pos hr]
        exact ih _ _ h
      · rename_i hr
        rw [if_neg hr]
        exact ih _ _ h

/-- C207, violated: for every body without `break` and every population, if in the end there are more or fewer agents than
in the beginning, the loop over `iter_agents` has raised `RuntimeError`. -/
theorem C207_removed_false (crit : σ → Ref → Bool) (body : LoopBody σ) (hb : body.NoBreak) (p : Pool σ)
    (h : (p.iterFor true crit none body).pool.members.length ≠ p.members.length) : (p.iterFor true crit none body).raised = true := by
  by_contra hr
  exact h (iterLoop_raises crit body hb _ _ _ _ (by simpa [Pool.iterFor] using hr))

/-- C207, violated: as soon as the body has killed somebody the loop is over, and the remaining agents are not looked at. -/
theorem C207_first_false (crit : σ → Ref → Bool) (body : LoopBody σ) (p : Pool σ) (pre post : List Ref) (r : Ref)
    (hm : p.members = pre ++ r :: post) (hpre : ∀ q ∈ pre, crit p.st q = false) (hr : crit p.st r = true) (hb : (body r p).2 = false)
    (hl : (body r p).1.members.length ≠ p.members.length) :
    p.iterFor true crit none body = ⟨[r], (body r p).1, true⟩ := by
  unfold Pool.iterFor
  have key : ∀ (l : List Ref), (∀ q ∈ l, crit p.st q = false) →
      iterLoop true crit none body p.members.length (l ++ r :: post) [] p = ⟨[r], (body r p).1, true⟩ := by
    intro l hl'
    induction l with
    | nil =>
      have hne : ((body r p).1.members.length != p.members.length) = true := by simpa using hl
      cases post with
      | nil => simp [iterLoop, more, hr, hb, hl]
      | cons q post => simp [iterLoop, more, hr, hb, hl]
    | cons q l ih =>
      have hq : crit p.st q = false := hl' q (by simp)
      simp only [List.cons_append, iterLoop, more, Bool.not_true, Bool.false_eq_true, if_false, Bool.true_and, bne_self_eq_false, hq]
      exact ih (fun x hx => hl' x (by simp [hx]))
  have := key pre hpre
  rw [← hm] at this
  exact this

/-- The body of a loop in which the agent at hand dies. -/
def killBody : LoopBody Unit := fun r p => ({ p with members := p.members.erase r }, false)

/-- Three agents; those with even numbers die: the third is spared, and an exception escapes; with `get_agents` both die. -/
example : (⟨[0, 1, 2], ()⟩ : Pool Unit).iterFor true (fun _ r => r % 2 = 0) none killBody = ⟨[0], ⟨[1, 2], ()⟩, true⟩ ∧
    (⟨[0, 1, 2], ()⟩ : Pool Unit).iterFor false (fun _ r => r % 2 = 0) none killBody = ⟨[0, 2], ⟨[1], ()⟩, false⟩ ∧
    (⟨[0, 1, 2], ()⟩ : Pool Unit).getFor (fun _ r => r % 2 = 0) none killBody = ⟨[0, 2], ⟨[1], ()⟩, false⟩ ∧
    (⟨[0, 1, 2], ()⟩ : Pool Unit).iterFor true (fun _ r => r % 2 = 0) (some 1) killBody = ⟨[0], ⟨[1, 2], ()⟩, false⟩ := by
  decide +kernel

/-- The body of a loop in which the agent at hand takes the mark of everybody else. -/
def stealBody : LoopBody (List Ref) := fun r p => ({ p with st := p.st.filter (· = r) }, false)

/-- C207, violated in every version of Python: `iter_agents` looks at the criteria late, so an agent that satisfies them
when the loop begins is left out if the body has changed it before its turn; `get_agents` does not leave it out. -/
theorem C207_late_false (a b : Ref) (hab : a ≠ b) (frozen : Bool) (limit : Option Nat) (hl : more limit 1 = true) :
    b ∉ ((⟨[a, b], [a, b]⟩ : Pool (List Ref)).iterFor frozen (fun s r => decide (r ∈ s)) limit stealBody).visited ∧
    b ∈ ((⟨[a, b], [a, b]⟩ : Pool (List Ref)).getFor (fun s r => decide (r ∈ s)) limit stealBody).visited := by
  have hl0 : more limit 0 = true := by
    cases limit with
    | none => rfl
    | some n => simp only [more, decide_eq_true_eq] at hl ⊢; omega
  have hba : b ≠ a := fun e => hab e.symm
  constructor
  · have : (⟨[a, b], [a, b]⟩ : Pool (List Ref)).iterFor frozen (fun s r => decide (r ∈ s)) limit stealBody =
        ⟨[a], ⟨[a, b], [a]⟩, false⟩ := by
      simp [Pool.iterFor, iterLoop, hl0, hl, stealBody, hba]
    rw [this]
    simpa using hba
  · unfold Pool.getFor
    rw [getAgents_eq _ _ _ (by simpa using hab), (listLoop_visited stealBody (fun _ _ => rfl) _ _ _).1]
    cases limit with
    | none => simp [upTo]
    | some n =>
      simp only [more, decide_eq_true_eq] at hl
      obtain ⟨m, rfl⟩ := Nat.exists_eq_add_of_lt hl
      simp [upTo, show 1 + m + 1 = m + 2 by omega]

end Verif
