import Verif.Model.ExTimers
import Verif.Proofs.Solo
import Mathlib.Data.Nat.Fib.Basic

/-!
# The example agents that choose their own timeouts

C117 (Fibonacci), C118 (Odds), C119 (pings and pongs).
-/

namespace Verif
open Spec

variable {W : Type}

/-! ### C117 -/

/-- The times of the agent that counts: 0, 1, 2, 3, 5, 8, 13, … -/
def fibTime (k : Nat) : Time := if k = 0 then .fin 0 else .fin (Nat.fib (k + 1))

/-- Its attribute `prev` before each of them: 1, 1, 1, 2, 3, 5, 8, … -/
def fibPrev (k : Nat) : Time := if k = 0 then .fin 1 else .fin (Nat.fib k)

theorem fibBeh_counting (p now : Time) : fibBeh (some fibState, p) now =
    (.ret (some p), (some fibState, max now p)) := rfl

theorem effDelay_pos {iv d : Time} (h : 0 < d) : effDelay iv (some d) = d := by
  simp only [effDelay]
  rw [if_neg]
  rintro rfl
  exact lt_irrefl _ h

theorem nextWake_fin {iv : Time} {t d : Rat} (h : 0 < d) :
    nextWake iv (.fin t) (.ret (some (.fin d))) = some (.fin (t + d)) := by
  simp only [nextWake]
  rw [effDelay_pos (by simpa using h)]
  rfl

theorem fib_next (iv : Time) (k : Nat) :
    nextWake iv (fibTime k) (fibBeh (some fibState, fibPrev k) (fibTime k)).1 = some (fibTime (k + 1)) := by
  rw [fibBeh_counting]
  cases k with
  | zero =>
    show nextWake iv (.fin 0) (.ret (some (.fin 1))) = some (.fin (Nat.fib 2))
    rw [nextWake_fin (by norm_num)]
    norm_num
  | succ k =>
    have h : 0 < Nat.fib (k + 1) := Nat.fib_pos.2 (by omega)
    show nextWake iv (.fin (Nat.fib (k + 2))) (.ret (some (.fin (Nat.fib (k + 1))))) =
      some (.fin (Nat.fib (k + 3)))
    rw [nextWake_fin (by exact_mod_cast h), Nat.fib_add_two (n := k + 1)]
    push_cast
    rw [add_comm]

theorem fib_attrs (k : Nat) :
    (fibBeh (some fibState, fibPrev k) (fibTime k)).2 = (some fibState, fibPrev (k + 1)) := by
  rw [fibBeh_counting]
  refine Prod.ext rfl ?_
  show max (fibTime k) (fibPrev k) = fibPrev (k + 1)
  cases k with
  | zero =>
    show max (Time.fin 0) (.fin 1) = .fin (Nat.fib 1)
    simp
  | succ k =>
    show max (Time.fin (Nat.fib (k + 2))) (.fin (Nat.fib (k + 1))) = .fin (Nat.fib (k + 2))
    have : Nat.fib (k + 1) ≤ Nat.fib (k + 2) := Nat.fib_le_fib_succ
    exact max_eq_left (by rw [Time.fin_le]; exact_mod_cast this)

/-- C117: in any environment with any other agents, a `Fibonacci` agent that is added at the start is
activated at 0, 1, 2, 3, 5, 8, … — the first so many of these — and the next one is what is pending. -/
theorem C117_times (H : Host W) (iv : Time) (hiv : 0 < iv) (sh : Bool) (w0 : W) (h : List (Cmd W))
    (hg : GoodLog (reach H iv sh w0 h).1.log) (r : Ref) (P : W → Prop)
    (loc : W → Option StateDef × Time) (hI : Isolated H P r loc fibBeh) (hu : Untouched P loc h) (hP : P w0)
    (h0 : loc w0 = (fibClass.init, 1))
    (h1 : (reach H iv sh w0 h).1.log.filter (fun e => e.isAdd && e.ref == r) = [.added r 0]) :
    ∃ n, (actsOf r (reach H iv sh w0 h).1.log).map (·.1) = (List.range n).map fibTime ∧
      pendingOf (pending (reach H iv sh w0 h).1) r = [fibTime n] := by
  obtain ⟨n, ha, _, hp, _⟩ := solo_acts hiv hg hI hu hP h1
  have hs := soloRun_seq (iv := iv) (beh := fibBeh) fibTime (fun k => (some fibState, fibPrev k))
    (fib_next iv) fib_attrs n
  have e0 : loc w0 = (some fibState, fibPrev 0) := by rw [h0]; rfl
  have et : (0 : Time) = fibTime 0 := rfl
  rw [e0, et] at ha hp
  refine ⟨n, ?_, ?_⟩
  · rw [ha, hs.1, List.map_map]; rfl
  · rw [hp, hs.2.1]; rfl

/-- C117: "only executes in t_steps that are Fibonacci numbers" (examples/custom_timeouts/
custom_timeouts_sim.py:5). -/
theorem C117_only_fibonacci (H : Host W) (iv : Time) (hiv : 0 < iv) (sh : Bool) (w0 : W) (h : List (Cmd W))
    (hg : GoodLog (reach H iv sh w0 h).1.log) (r : Ref) (P : W → Prop)
    (loc : W → Option StateDef × Time) (hI : Isolated H P r loc fibBeh) (hu : Untouched P loc h) (hP : P w0)
    (h0 : loc w0 = (fibClass.init, 1))
    (h1 : (reach H iv sh w0 h).1.log.filter (fun e => e.isAdd && e.ref == r) = [.added r 0])
    {t : Time} {rep : Reply} (ht : .act r t rep ∈ (reach H iv sh w0 h).1.log) :
    ∃ m, t = .fin (Nat.fib m) := by
  obtain ⟨n, ha, _⟩ := C117_times H iv hiv sh w0 h hg r P loc hI hu hP h0 h1
  have : t ∈ (actsOf r (reach H iv sh w0 h).1.log).map (·.1) := by
    refine List.mem_map.2 ⟨(t, rep), List.mem_filterMap.2 ⟨_, ht, ?_⟩, rfl⟩
    simp
  rw [ha] at this
  obtain ⟨k, _, rfl⟩ := List.mem_map.1 this
  cases k with
  | zero => exact ⟨0, by simp [fibTime]⟩
  | succ k => exact ⟨k + 2, rfl⟩

/-- C117: and no Fibonacci number that is in the past is missed. -/
theorem C117_every_fibonacci (H : Host W) (iv : Time) (hiv : 0 < iv) (sh : Bool) (w0 : W) (h : List (Cmd W))
    (hg : GoodLog (reach H iv sh w0 h).1.log) (r : Ref) (P : W → Prop)
    (loc : W → Option StateDef × Time) (hI : Isolated H P r loc fibBeh) (hu : Untouched P loc h) (hP : P w0)
    (h0 : loc w0 = (fibClass.init, 1))
    (h1 : (reach H iv sh w0 h).1.log.filter (fun e => e.isAdd && e.ref == r) = [.added r 0])
    (m : Nat) (hm : .fin (Nat.fib m) < (reach H iv sh w0 h).1.time) :
    ∃ rep, .act r (.fin (Nat.fib m)) rep ∈ (reach H iv sh w0 h).1.log := by
  obtain ⟨n, ha, hp⟩ := C117_times H iv hiv sh w0 h hg r P loc hI hu hP h0 h1
  have hpn : (reach H iv sh w0 h).1.time ≤ fibTime n := pending_ge (r := r) hiv hg (by rw [hp]; simp)
  have hlt := lt_of_lt_of_le hm hpn
  -- the number is one of the first `n` times
  have hk : ∃ k < n, fibTime k = .fin (Nat.fib m) := by
    have hn : n ≠ 0 := by
      rintro rfl
      simp only [fibTime, if_true, Time.fin_lt] at hlt
      have : (0 : Rat) ≤ Nat.fib m := Nat.cast_nonneg _
      exact absurd hlt (not_lt.2 this)
    have hlt' : Nat.fib m < Nat.fib (n + 1) := by
      simp only [fibTime, if_neg hn, Time.fin_lt] at hlt
      exact_mod_cast hlt
    rcases Nat.lt_or_ge m 3 with hm3 | hm3
    · have hn2 : m = 0 ∨ n ≥ 2 := by
        rcases Nat.eq_zero_or_pos m with h | h
        · exact Or.inl h
        · right
          by_contra hc
          have : n = 1 := by omega
          subst this
          have h1 : 1 ≤ Nat.fib m := Nat.fib_pos.2 h
          have : Nat.fib 2 = 1 := rfl
          simp at hlt'
          omega
      rcases (show m = 0 ∨ m = 1 ∨ m = 2 by omega) with rfl | rfl | rfl
      · exact ⟨0, by omega, by simp [fibTime]⟩
      · exact ⟨1, by omega, by simp [fibTime]⟩
      · exact ⟨1, by omega, by simp [fibTime]⟩
    · refine ⟨m - 1, ?_, ?_⟩
      · by_contra hc
        have : Nat.fib (n + 1) ≤ Nat.fib m := Nat.fib_mono (by omega)
        omega
      · have : m - 1 ≠ 0 := by omega
        simp only [fibTime, if_neg this]
        rw [Nat.sub_add_cancel (by omega)]
  obtain ⟨k, hk, he⟩ := hk
  have : Time.fin (Nat.fib m) ∈ (actsOf r (reach H iv sh w0 h).1.log).map (·.1) := by
    rw [ha, ← he]
    exact List.mem_map.2 ⟨k, List.mem_range.2 hk, rfl⟩
  obtain ⟨⟨t, rep⟩, hmem, rfl⟩ := List.mem_map.1 this
  obtain ⟨e, he, hs⟩ := List.mem_filterMap.1 hmem
  cases e with
  | added => simp at hs
  | act q t' rep' =>
    simp only at hs
    split at hs
    · rename_i hq
      cases hs
      subst hq
      exact ⟨_, he⟩
    · cases hs

/-- In `TimeoutsEnv` both agents keep their state, and only the first has an attribute. -/
def TimeoutsOk (w : AWorld Time Unit) : Prop := w.agents = timeoutsWorld.agents

theorem timeouts_step (q : Ref) (s : Sched) (w : AWorld Time Unit) (h : TimeoutsOk w) :
    TimeoutsOk ((agentHost timeoutsCode).step q s w).2.2 ∧
      ((agentHost timeoutsCode).step q s w).2.2.u = (if q = 0 then max s.time w.u else w.u) ∧
      ((agentHost timeoutsCode).step q s w).2.1 = [] ∧
      ((agentHost timeoutsCode).step q s w).1 =
        if q = 0 then .ret (some w.u) else if q = 1 then .ret (some (1 + mod2 s.time)) else .error := by
  obtain ⟨ag, u, g⟩ := w
  simp only [TimeoutsOk] at h
  subst h
  match q with
  | 0 => exact ⟨rfl, rfl, rfl, rfl⟩
  | 1 => exact ⟨rfl, rfl, rfl, rfl⟩
  | _ + 2 => exact ⟨rfl, rfl, rfl, rfl⟩

theorem timeouts_fib : Isolated (agentHost timeoutsCode) TimeoutsOk 0
    (fun w => (some fibState, w.u)) fibBeh where
  reply s w h := by rw [(timeouts_step 0 s w h).2.2.2]; rfl
  attrs s w h := by rw [(timeouts_step 0 s w h).2.1]; rfl
  others q s w h hq := by rw [(timeouts_step q s w h).2.1, if_neg hq]
  shuffle _ _ _ := rfl
  keeps q s w h := (timeouts_step q s w h).1
  keepsShuffle _ _ h := h

/-- The theorems apply to the agents of the example, for any number of steps. Here 9 of them. -/
example : GoodLog (reach (agentHost timeoutsCode) 1 true timeoutsWorld (timeoutsHist 9)).1.log ∧
    Untouched TimeoutsOk (fun w => (some fibState, w.u)) (timeoutsHist 9) ∧ TimeoutsOk timeoutsWorld ∧
    (some fibState, timeoutsWorld.u) = (fibClass.init, (1 : Time)) ∧
    (reach (agentHost timeoutsCode) 1 true timeoutsWorld (timeoutsHist 9)).1.log.filter
      (fun e => e.isAdd && e.ref == 0) = [.added 0 0] ∧
    actsOf 0 (reach (agentHost timeoutsCode) 1 true timeoutsWorld (timeoutsHist 9)).1.log =
      [(0, .ret (some 1)), (1, .ret (some 1)), (2, .ret (some 1)), (3, .ret (some 2)), (5, .ret (some 3)),
        (8, .ret (some 5))] := by
  refine ⟨by decide +kernel, ?_, rfl, rfl, by decide +kernel, by decide +kernel⟩
  intro f hf
  simp [timeoutsHist] at hf

/-! ### C118 -/

theorem mod2_int (m : Int) : mod2 (.fin m) = .fin ((m % 2 : Int) : Rat) := by
  simp only [mod2]
  congr 1
  have h : ((m : Rat) / 2).floor = m / 2 := by
    have e := Int.emod_add_mul_ediv m 2
    have e2 : (m : Rat) = ((m % 2 : Int) : Rat) + 2 * ((m / 2 : Int) : Rat) := by exact_mod_cast e.symm
    have l1 : (0 : Rat) ≤ ((m % 2 : Int) : Rat) := by exact_mod_cast Int.emod_nonneg _ (by omega)
    have l2 : ((m % 2 : Int) : Rat) < 2 := by exact_mod_cast Int.emod_lt_of_pos m (by omega)
    refine le_antisymm ?_ (Rat.le_floor_iff.2 (by linarith))
    refine Int.lt_add_one_iff.1 (Rat.floor_lt_iff.2 ?_)
    push_cast
    linarith
  rw [h]
  have := Int.emod_add_mul_ediv m 2
  have h2 : (m : Rat) = ((m % 2 : Int) : Rat) + 2 * ((m / 2 : Int) : Rat) := by exact_mod_cast this.symm
  linarith

theorem oddBeh_odds (now : Time) : oddBeh (some oddState, ()) now =
    (.ret (some (1 + mod2 now)), (some oddState, ())) := rfl

/-- The times of the agent `Odds` added at the integer time `m`: `m`, then every odd number after it. -/
def oddTime (m : Int) (k : Nat) : Int := if k = 0 then m else m + m % 2 + 2 * k - 1

theorem odd_next (iv : Time) (m : Int) (k : Nat) :
    nextWake iv (.fin (oddTime m k)) (oddBeh (some oddState, ()) (.fin (oddTime m k))).1 =
      some (.fin (oddTime m (k + 1))) := by
  rw [oddBeh_odds, mod2_int]
  have h1 : (1 : Time) = .fin 1 := by show Time.fin ((1 : Nat) : Rat) = _; simp
  have h2 : (0 : Rat) ≤ ((oddTime m k % 2 : Int) : Rat) := by
    exact_mod_cast Int.emod_nonneg _ (by omega)
  rw [h1, Time.fin_add, nextWake_fin (by linarith)]
  have : oddTime m k + (1 + oddTime m k % 2) = oddTime m (k + 1) := by
    unfold oddTime
    split
    · rename_i hk; subst hk; simp; omega
    · simp; omega
  rw [← this]
  push_cast
  rfl

/-- C118 (partial: not the first activation): an `Odds` agent that is added at an integer time `m` runs at
`m` and then at every odd number after it, in order; the next of these is what is pending. -/
theorem C118_times_partial (H : Host W) (iv : Time) (hiv : 0 < iv) (sh : Bool) (w0 : W) (h : List (Cmd W))
    (hg : GoodLog (reach H iv sh w0 h).1.log) (r : Ref) (P : W → Prop)
    (loc : W → Option StateDef × Unit) (hI : Isolated H P r loc oddBeh) (hu : Untouched P loc h) (hP : P w0)
    (h0 : loc w0 = (oddClass.init, ())) (m : Int)
    (h1 : (reach H iv sh w0 h).1.log.filter (fun e => e.isAdd && e.ref == r) = [.added r (.fin m)]) :
    ∃ n, (actsOf r (reach H iv sh w0 h).1.log).map (·.1) = (List.range n).map (fun k => .fin (oddTime m k)) ∧
      pendingOf (pending (reach H iv sh w0 h).1) r = [.fin (oddTime m n)] := by
  obtain ⟨n, ha, _, hp, _⟩ := solo_acts hiv hg hI hu hP h1
  have hs := soloRun_seq (iv := iv) (beh := oddBeh) (fun k => .fin (oddTime m k))
    (fun _ => (some oddState, ())) (odd_next iv m) (fun _ => rfl) n
  have e0 : loc w0 = (some oddState, ()) := by rw [h0]; rfl
  have et : Time.fin (m : Rat) = Time.fin (oddTime m 0 : Rat) := rfl
  rw [e0, et] at ha hp
  refine ⟨n, ?_, ?_⟩
  · rw [ha, hs.1, List.map_map]; rfl
  · rw [hp, hs.2.1]; rfl

/-- C118 (partial): every activation but the first is at an odd time. -/
theorem C118_odd_partial (H : Host W) (iv : Time) (hiv : 0 < iv) (sh : Bool) (w0 : W) (h : List (Cmd W))
    (hg : GoodLog (reach H iv sh w0 h).1.log) (r : Ref) (P : W → Prop)
    (loc : W → Option StateDef × Unit) (hI : Isolated H P r loc oddBeh) (hu : Untouched P loc h) (hP : P w0)
    (h0 : loc w0 = (oddClass.init, ())) (m : Int)
    (h1 : (reach H iv sh w0 h).1.log.filter (fun e => e.isAdd && e.ref == r) = [.added r (.fin m)]) :
    ∀ t ∈ ((actsOf r (reach H iv sh w0 h).1.log).map (·.1)).tail, ∃ j : Int, t = .fin ((2 * j + 1 : Int) : Rat) := by
  obtain ⟨n, ha, _⟩ := C118_times_partial H iv hiv sh w0 h hg r P loc hI hu hP h0 m h1
  rw [ha]
  intro t ht
  cases n with
  | zero => simp at ht
  | succ n =>
    rw [List.range_succ_eq_map, List.map_cons, List.tail_cons, List.map_map] at ht
    obtain ⟨k, _, rfl⟩ := List.mem_map.1 ht
    refine ⟨m / 2 + m % 2 + k, ?_⟩
    show Time.fin _ = _
    congr 2
    simp only [oddTime, Nat.succ_eq_add_one, Nat.add_eq_zero_iff]
    rw [if_neg (by omega)]
    push_cast
    omega

theorem timeouts_odd : Isolated (agentHost timeoutsCode) TimeoutsOk 1
    (fun _ => (some oddState, ())) oddBeh where
  reply s w h := by rw [(timeouts_step 1 s w h).2.2.2]; rfl
  attrs _ _ _ := rfl
  others _ _ _ _ _ := rfl
  shuffle _ _ _ := rfl
  keeps q s w h := (timeouts_step q s w h).1
  keepsShuffle _ _ h := h

/-- C118 is violated: "Agent that only executes in odd t_steps" (examples/custom_timeouts/
custom_timeouts_sim.py:18). In the environment of the example the agent runs at time 0. -/
theorem C118_odd_false : ∃ rep,
    .act 1 (.fin 0) rep ∈ (reach (agentHost timeoutsCode) 1 true timeoutsWorld (timeoutsHist 1)).1.log :=
  ⟨.ret (some 1), by decide +kernel⟩

example : GoodLog (reach (agentHost timeoutsCode) 1 true timeoutsWorld (timeoutsHist 9)).1.log ∧
    Untouched TimeoutsOk (fun _ => (some oddState, ())) (timeoutsHist 9) ∧ TimeoutsOk timeoutsWorld ∧
    (some oddState, ()) = (oddClass.init, ()) ∧
    (reach (agentHost timeoutsCode) 1 true timeoutsWorld (timeoutsHist 9)).1.log.filter
      (fun e => e.isAdd && e.ref == 1) = [.added 1 (.fin (0 : Int))] ∧
    actsOf 1 (reach (agentHost timeoutsCode) 1 true timeoutsWorld (timeoutsHist 9)).1.log =
      [(0, .ret (some 1)), (1, .ret (some 2)), (3, .ret (some 2)), (5, .ret (some 2)), (7, .ret (some 2)),
        (9, .ret (some 2)), (11, .ret (some 2))] := by
  refine ⟨by decide +kernel, ?_, rfl, rfl, by decide +kernel, by decide +kernel⟩
  intro f hf
  simp [timeoutsHist] at hf

/-! ### C119 -/

/-- What a `MyAgent` with `max_pongs = m` has done after `k` activations. -/
def pongAfter (a : PongAttrs) (k : Nat) : Option StateDef × PongAttrs :=
  if k = 0 then (some pingState, a)
  else if (k : Int) ≤ max a.maxPongs 1 then
    (some pongState, { a with maxPongs := a.maxPongs - (k - 1), used := a.used + k, pings := a.pings + 1,
                              pongs := a.pongs + (k - 1) })
  else (some deadState, { a with maxPongs := a.maxPongs - (k - 1), used := a.used + (k - 1),
                                 pings := a.pings + 1, pongs := a.pongs + (k - 1), alive := false })

theorem pong_ping (a : PongAttrs) (now : Time) : pongBeh (some pingState, a) now =
    (.ret (some (.fin (a.draws a.used))),
      (some pongState, { a with used := a.used + 1, pings := a.pings + 1 })) := rfl

theorem pong_pong (a : PongAttrs) (now : Time) : pongBeh (some pongState, a) now =
    if a.maxPongs - 1 < 1 then
      (.ret (some .inf), (some deadState, { a with maxPongs := a.maxPongs - 1, pongs := a.pongs + 1, alive := false }))
    else (.ret (some (.fin (a.draws a.used))),
      (some pongState, { a with maxPongs := a.maxPongs - 1, pongs := a.pongs + 1, used := a.used + 1 })) := by
  unfold pongBeh fsmBeh pongCode
  simp only [pongState]
  by_cases h : a.maxPongs - 1 < 1
  · simp only [h, if_true]; rfl
  · simp only [h, if_false]; rfl

theorem nextWake_some_fin (i t d : Rat) :
    ∃ u, nextWake (.fin i) (.fin t) (.ret (some (.fin d))) = some (.fin u) := by
  have : ∃ x, effDelay (.fin i) (some (.fin d)) = .fin x := by
    simp only [effDelay]
    split
    · exact ⟨_, rfl⟩
    · exact ⟨_, rfl⟩
  obtain ⟨x, hx⟩ := this
  simp only [nextWake, hx]
  exact ⟨t + x, rfl⟩

theorem pong_solo (i t0 : Rat) (a : PongAttrs) (k : Nat) (hk : (k : Int) ≤ max a.maxPongs 1 + 1) :
    soloSt (.fin i) pongBeh k (some (.fin t0)) (some pingState, a) = pongAfter a k ∧
      if (k : Int) ≤ max a.maxPongs 1 then
        ∃ t, soloDue (.fin i) pongBeh k (some (.fin t0)) (some pingState, a) = some (.fin t)
      else soloDue (.fin i) pongBeh k (some (.fin t0)) (some pingState, a) = none := by
  induction k with
  | zero =>
    refine ⟨rfl, ?_⟩
    rw [if_pos (by simp)]
    exact ⟨t0, rfl⟩
  | succ k ih =>
    obtain ⟨h1, h2⟩ := ih (by omega)
    have hk' : (k : Int) ≤ max a.maxPongs 1 := by push_cast at hk; omega
    rw [if_pos hk'] at h2
    obtain ⟨t, h2⟩ := h2
    have hs := solo_succ (iv := .fin i) (beh := pongBeh) k (some (.fin t0)) (some pingState, a)
    rw [h2, h1] at hs
    simp only [Prod.mk.injEq] at hs
    obtain ⟨hd, hs⟩ := hs
    rw [hd, hs]
    cases k with
    | zero =>
      have : pongAfter a 0 = (some pingState, a) := rfl
      rw [this, pong_ping]
      refine ⟨?_, ?_⟩
      · simp only [pongAfter]
        rw [if_neg (by omega), if_pos (by simp)]
        simp
      · rw [if_pos (by simp)]
        exact nextWake_some_fin _ _ _
    | succ k =>
      have : pongAfter a (k + 1) = (some pongState, { a with
          maxPongs := a.maxPongs - k, used := a.used + (k + 1), pings := a.pings + 1
          pongs := a.pongs + k }) := by
        simp only [pongAfter]
        rw [if_neg (by omega), if_pos hk']
        simp
      rw [this, pong_pong]
      simp only
      by_cases hl : a.maxPongs - k - 1 < 1
      · rw [if_pos hl]
        refine ⟨?_, ?_⟩
        · simp only [pongAfter]
          rw [if_neg (by omega), if_neg (by push_cast at hk' ⊢; omega)]
          simp
          omega
        · rw [if_neg (by push_cast at hk' ⊢; omega)]
          rfl
      · rw [if_neg hl]
        refine ⟨?_, ?_⟩
        · simp only [pongAfter]
          rw [if_neg (by omega), if_pos (by push_cast; omega)]
          simp
          omega
        · rw [if_pos (by push_cast; omega)]
          exact nextWake_some_fin _ _ _

/-- C119: whatever delays are drawn, a `MyAgent` pings once, then pongs `max_pongs` times (once if that is
less than 1) and then dies: after `n` activations it has done `min n 1` pings and `n - 1` pongs, it is
activated `max_pongs + 1` times at most, it is alive and has something pending before the last of these, and
is dead, in the state `dead` of its class, with nothing pending after it. -/
theorem C119_pongs (H : Host W) (i : Rat) (hi : 0 < i) (sh : Bool) (w0 : W) (h : List (Cmd W))
    (hg : GoodLog (reach H (.fin i) sh w0 h).1.log) (r : Ref) (P : W → Prop)
    (loc : W → Option StateDef × PongAttrs) (hI : Isolated H P r loc pongBeh) (hu : Untouched P loc h)
    (hP : P w0) (a : PongAttrs) (h0 : loc w0 = (pongClass.init, a)) (hfresh : a.pings = 0 ∧ a.pongs = 0)
    (halive : a.alive = true) (t0 : Rat)
    (h1 : (reach H (.fin i) sh w0 h).1.log.filter (fun e => e.isAdd && e.ref == r) = [.added r (.fin t0)]) :
    ∃ n, (actsOf r (reach H (.fin i) sh w0 h).1.log).length = n ∧
      (n : Int) ≤ max a.maxPongs 1 + 1 ∧
      (loc (reach H (.fin i) sh w0 h).2).2.pings = min n 1 ∧
      (loc (reach H (.fin i) sh w0 h).2).2.pongs = n - 1 ∧
      ((loc (reach H (.fin i) sh w0 h).2).2.alive = false ↔ (n : Int) = max a.maxPongs 1 + 1) ∧
      ((loc (reach H (.fin i) sh w0 h).2).1 = Dict.get? pongClass.states "dead" ↔ (n : Int) = max a.maxPongs 1 + 1) ∧
      (pendingOf (pending (reach H (.fin i) sh w0 h).1) r = [] ↔ (n : Int) = max a.maxPongs 1 + 1) := by
  obtain ⟨n, ha, hn, hp, hl⟩ := solo_acts (by simpa using hi) hg hI hu hP h1
  have e0 : loc w0 = (some pingState, a) := by rw [h0]; rfl
  rw [e0] at ha hp hl
  have hle : (n : Int) ≤ max a.maxPongs 1 + 1 := by
    by_contra hc
    have hs := (pong_solo i t0 a (max a.maxPongs 1 + 1).toNat (by omega)).2
    rw [if_neg (by omega)] at hs
    exact soloDue_ne_none (by rw [← ha, hn]) (by omega) hs
  obtain ⟨s1, s2⟩ := pong_solo i t0 a n hle
  refine ⟨n, hn, hle, ?_⟩
  rw [hl, hp, s1]
  obtain ⟨f1, f2⟩ := hfresh
  by_cases hz : n = 0
  · subst hz
    rw [if_pos (by simp)] at s2
    obtain ⟨t, s2⟩ := s2
    rw [s2]
    have : pongAfter a 0 = (some pingState, a) := rfl
    rw [this]
    simp only [f1, f2, halive, Option.toList_some]
    refine ⟨by simp, by simp, ⟨by simp, fun h => by omega⟩, ⟨fun h => absurd h (by decide), fun h => by omega⟩, ⟨by simp, fun h => by omega⟩⟩
  · by_cases hm : (n : Int) ≤ max a.maxPongs 1
    · rw [if_pos hm] at s2
      obtain ⟨t, s2⟩ := s2
      rw [s2]
      simp only [pongAfter, if_neg hz, if_pos hm, f1, f2, halive, Option.toList_some]
      refine ⟨by omega, by omega, ⟨by simp, fun h => by omega⟩, ⟨fun h => absurd h (by decide), fun h => by omega⟩, ⟨by simp, fun h => by omega⟩⟩
    · rw [if_neg hm] at s2
      rw [s2]
      simp only [pongAfter, if_neg hz, if_neg hm, f1, f2, Option.toList_none]
      refine ⟨by omega, by omega, ⟨fun _ => by omega, fun _ => by simp⟩, ⟨fun _ => by omega, fun _ => by decide⟩,
        ⟨fun _ => by omega, fun _ => by simp⟩⟩

/-- An environment with one `MyAgent` (examples/random_delays/random_delays_sim.py:30-33); other agents do
nothing. -/
def pongHost : Host (Option StateDef × PongAttrs) where
  step := fun q s w => if q = 0 then ((pongBeh w s.time).1, [], (pongBeh w s.time).2) else (.ret none, [], w)
  shuffle := fun l w => (l, w)
  shuffle_perm := fun l _ => .refl l

/-- Its agent, when the generator returns 5/2, 7/2, 9/2, … -/
def pongAttrs : PongAttrs := ⟨2, fun k => k + 5 / 2, 0, true, 0, 0⟩

theorem pong_isolated : Isolated pongHost (fun _ => True) 0 (fun w => w) pongBeh where
  reply _ _ _ := rfl
  attrs _ _ _ := rfl
  others q s w _ hq := by simp [pongHost, hq]
  shuffle _ _ _ := rfl
  keeps _ _ _ _ := trivial
  keepsShuffle _ _ _ := trivial

/-- The theorem applies: `max_pongs` is 2, so there are one ping and two pongs, however long it runs. -/
example : (reach pongHost 1 true (pongClass.init, pongAttrs) (.op (.add 0 none) :: .replicate 9 .step)).1.log
    = [.added 0 0, .act 0 0 (.ret (some (.fin (5 / 2)))), .act 0 (.fin (5 / 2)) (.ret (some (.fin (7 / 2)))),
        .act 0 6 (.ret (some .inf))] := by
  decide +kernel

end Verif
