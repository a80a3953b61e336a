import Verif.Props.CrawlRun
import Verif.Props.PRounds

/-!
# C239: the pub crawl with `PQueueActivation`
-/

namespace Verif

/-- The simulation with `PQueueActivation` after `k` steps. -/
def crawlPRun (N : CrawlNet) (keys : Nat → Rat) (caps : List Nat) (ps : List (Rat × Nat)) (iv : Rat) (loop k : Nat) : PSched × Crawl :=
  iterStep (pqStepper (crawlPHost N keys) loop) k (roundsPStart (crawlPHost N keys) (ps.length + 1) iv ⟨City.init caps ps [], 0⟩)

theorem crawl_mesaP (N : CrawlNet) (keys : Nat → Rat) (n : Nat) (iv : Rat) : MesaPHost (crawlPHost N keys) n iv (fun r _ _ _ w => crawlAct N r w) (fun _ => True) where
  step _ _ _ _ _ _ _ := rfl
  inv _ _ _ _ _ _ _ := trivial
  key _ _ _ := trivial

theorem crawlP_start (N : CrawlNet) (keys : Nat → Rat) (caps : List Nat) (ps : List (Rat × Nat)) (iv : Rat) (loop : Nat) :
    (crawlPRun N keys caps ps iv loop 0).2.city = City.init caps ps [] := by
  obtain ⟨s0, w1, e0, -, hw1, -⟩ := prounds_start (crawlPHost N keys) (fun _ => True) (fun _ _ _ => trivial) (ps.length + 1) iv ⟨City.init caps ps [], 0⟩ trivial
  have : (crawlPRun N keys caps ps iv loop 0).2 = w1 := by simp [crawlPRun, iterStep, roundsPStart, e0]
  rw [this, hw1]
  have : ∀ (l : List Ref) (w : Crawl), (l.foldl (fun w r => ((crawlPHost N keys).key r w).2) w).city = w.city := by
    intro l
    induction l with
    | nil => exact fun _ => rfl
    | cons r l ih => exact fun w => ih _
  exact this _ _

/-- The turn of an agent and the number drawn for its next place in the queue. -/
def crawlPTurn (N : CrawlNet) (w : Crawl) (r : Ref) : Crawl := { crawlAct N r w with used := (crawlAct N r w).used + 1 }

/-- The beginning of a round. -/
def crawlPrefix (N : CrawlNet) (o : Nat → List Ref) (x : Nat → Crawl) (k j : Nat) : Crawl := ((o k).take j).foldl (crawlPTurn N) (x k)

/-- Where the generator of the queue stands, when that of the default scheduler has been used `u` times. -/
def crawlUsed (N : CrawlNet) (o : Nat → List Ref) (x : Nat → Crawl) (m u : Nat) : Nat :=
  let k := (u - 1) / (m + 1)
  let i := (u - 1) % (m + 1)
  (crawlPrefix N o x k (if i < (o k).idxOf 0 then i else i + 1)).used

/-- Random numbers for the default scheduler that give the same evening. -/
def crawlOther (N : CrawlNet) (o : Nat → List Ref) (x : Nat → Crawl) (m : Nat) : CrawlNet where
  shuf u := N.shuf (crawlUsed N o x m u)
  shuf_perm u l := N.shuf_perm _ l
  draw u := N.draw (crawlUsed N o x m u)
  order u l := if (o (u / (m + 1))).Perm l then o (u / (m + 1)) else l
  order_perm u l := by
    split
    · assumption
    · exact List.Perm.refl _

theorem crawl_prefix_eq (N : CrawlNet) (o : Nat → List Ref) (x : Nat → Crawl) (m k : Nat) (ho : (o k).Perm (List.range (m + 1))) (j : Nat) (hj : j ≤ m + 1) :
    ((o k).take j).foldl (fun w r => crawlAct (crawlOther N o x m) r w) ⟨(x k).city, k * (m + 1) + 1⟩ =
      ⟨(crawlPrefix N o x k j).city, k * (m + 1) + 1 + (if j ≤ (o k).idxOf 0 then j else j - 1)⟩ := by
  have hlen : (o k).length = m + 1 := by rw [ho.length_eq, List.length_range]
  have hnd : (o k).Nodup := ho.nodup_iff.2 List.nodup_range
  have h0 : 0 ∈ o k := ho.mem_iff.2 (by simp)
  have hz : (o k).idxOf 0 < (o k).length := List.idxOf_lt_length_of_mem h0
  have hz0 : (o k)[(o k).idxOf 0] = 0 := List.getElem_idxOf hz
  induction j with
  | zero => simp [crawlPrefix]
  | succ j ih =>
    have hjl : j < (o k).length := by omega
    have ht : (o k).take (j + 1) = (o k).take j ++ [(o k)[j]] := by rw [List.take_add_one, List.getElem?_eq_getElem hjl]; rfl
    have hp : crawlPrefix N o x k (j + 1) = crawlPTurn N (crawlPrefix N o x k j) (o k)[j] := by
      unfold crawlPrefix
      rw [ht, List.foldl_append]
      rfl
    rw [hp, ht, List.foldl_append, ih (by omega)]
    simp only [List.foldl_cons, List.foldl_nil]
    cases hr : (o k)[j] with
    | zero =>
      have hjz : j = (o k).idxOf 0 := (hnd.getElem_inj_iff (hi := hjl) (hj := hz)).1 (by rw [hr, hz0])
      have e1 : (if j ≤ (o k).idxOf 0 then j else j - 1) = j := if_pos (by omega)
      have e2 : (if j + 1 ≤ (o k).idxOf 0 then j + 1 else j + 1 - 1) = j := by rw [if_neg (by omega)]; omega
      rw [e1, e2]
      rfl
    | succ i =>
      have hjz : j ≠ (o k).idxOf 0 := by
        intro h
        have : (o k)[j] = 0 := by
          have := hz0
          simp only [← h] at this
          exact this
        rw [hr] at this
        cases this
      have hu : crawlUsed N o x m (k * (m + 1) + 1 + (if j ≤ (o k).idxOf 0 then j else j - 1)) = (crawlPrefix N o x k j).used := by
        have hb : (if j ≤ (o k).idxOf 0 then j else j - 1) < m + 1 := by split <;> omega
        generalize hi : (if j ≤ (o k).idxOf 0 then j else j - 1) = i' at hb
        have e1 : (k * (m + 1) + 1 + i' - 1) / (m + 1) = k := by
          rw [show k * (m + 1) + 1 + i' - 1 = i' + k * (m + 1) by omega, Nat.add_mul_div_right _ _ (by omega), Nat.div_eq_of_lt hb, Nat.zero_add]
        have e2 : (k * (m + 1) + 1 + i' - 1) % (m + 1) = i' := by
          rw [show k * (m + 1) + 1 + i' - 1 = i' + k * (m + 1) by omega, Nat.add_mul_mod_self_right, Nat.mod_eq_of_lt hb]
        simp only [crawlUsed, e1, e2]
        have : (if i' < (o k).idxOf 0 then i' else i' + 1) = j := by
          rw [← hi]
          split <;> split <;> omega
        rw [this]
      have e3 : (if j ≤ (o k).idxOf 0 then j else j - 1) + 1 = (if j + 1 ≤ (o k).idxOf 0 then j + 1 else j + 1 - 1) := by split <;> split <;> omega
      simp only [crawlAct, crawlPTurn, crawlOther, hu]
      congr 1
      omega

/-- C239: what `PQueueActivation` does, the default scheduler does as well, for some order of the agents and numbers from the same generator: whatever holds of all simulations
with the default scheduler holds with the queue. The clock is at `k` intervals, and a simulation with `max_steps` returns. -/
theorem C239_pqueue (N : CrawlNet) (keys : Nat → Rat) (caps : List Nat) (ps : List (Rat × Nat)) (iv : Rat) (hiv : 0 < iv) (loop : Nat) (hl : ps.length + 1 ≤ loop) :
    (∃ N' : CrawlNet, (∀ u, ∃ v, N'.draw u = N.draw v ∧ N'.shuf u = N.shuf v) ∧ ∀ k, (crawlPRun N keys caps ps iv loop k).2.city = crawlCity N' caps ps iv true k) ∧
    ∀ k fuel, k ≤ fuel → (crawlPRun N keys caps ps iv loop k).1.time = .fin (k * iv) ∧
      runModel (pqStepper (crawlPHost N keys) loop) none (some k) fuel (roundsPStart (crawlPHost N keys) (ps.length + 1) iv ⟨City.init caps ps [], 0⟩) =
        .done (crawlPRun N keys caps ps iv loop k) := by
  have hp := crawl_mesaP N keys (ps.length + 1) iv
  refine ⟨?_, fun k fuel hf => ⟨(C230_pqueue_partial _ _ (Nat.succ_pos _) iv hiv _ _ hp loop hl ⟨City.init caps ps [], 0⟩ trivial k).1,
    (C230_pqueue_ends_partial _ _ (Nat.succ_pos _) iv hiv _ _ hp loop hl ⟨City.init caps ps [], 0⟩ trivial fuel k hf).1⟩⟩
  have hord := fun k => (C230_pqueue_partial _ _ (Nat.succ_pos _) iv hiv _ _ hp loop hl ⟨City.init caps ps [], 0⟩ trivial k).2.2.2.2
  choose o ho hx using hord
  let x : Nat → Crawl := fun k => (crawlPRun N keys caps ps iv loop k).2
  have hx' : ∀ k, x (k + 1) = (o k).foldl (crawlPTurn N) (x k) := fun k => (hx k).1
  refine ⟨crawlOther N o x ps.length, fun u => ⟨crawlUsed N o x ps.length u, rfl, rfl⟩, ?_⟩
  obtain ⟨ms, h1, h2, h3⟩ := mesa_iter (Nat.succ_pos ps.length) hiv (crawl_mesa (crawlOther N o x ps.length) (ps.length + 1) iv) true ⟨City.init caps ps [], 0⟩ trivial
  have main : ∀ k, (ms k).world = ⟨(x k).city, k * (ps.length + 1)⟩ := by
    intro k
    induction k with
    | zero =>
      rw [h1]
      have : (x 0).city = City.init caps ps [] := crawlP_start N keys caps ps iv loop
      rw [this, Nat.zero_mul]
    | succ k ih =>
      have h := h2 k
      simp only [MesaRound, if_true] at h
      obtain ⟨l, hl, h⟩ := h
      rw [(h3 k).2.1.magents] at hl
      have hord : (crawlHost (crawlOther N o x ps.length)).shuffle l (ms k).world = (o k, ⟨(x k).city, k * (ps.length + 1) + 1⟩) := by
        rw [ih]
        simp only [crawlHost, crawlOther, Nat.mul_div_cancel k (Nat.succ_pos ps.length)]
        rw [if_pos ((ho k).trans hl.symm)]
      rw [hord] at h
      rw [h]
      simp only [mesaStep]
      have hlen : (o k).length = ps.length + 1 := by rw [(ho k).length_eq, List.length_range]
      have hz : (o k).idxOf 0 < (o k).length := List.idxOf_lt_length_of_mem ((ho k).mem_iff.2 (by simp))
      have e := crawl_prefix_eq N o x ps.length k (ho k) (ps.length + 1) (le_refl _)
      rw [← hlen, List.take_length, if_neg (by omega)] at e
      rw [hlen] at e
      rw [e, hx' k]
      have : crawlPrefix N o x k (ps.length + 1) = (o k).foldl (crawlPTurn N) (x k) := by
        unfold crawlPrefix
        rw [← hlen, List.take_length]
      rw [this]
      congr 1
      rw [Nat.succ_mul]
      omega
  intro k
  have e : (iterStep (timedStepper (crawlHost (crawlOther N o x ps.length))) k (roundsStart (ps.length + 1) iv true ⟨City.init caps ps [], 0⟩)).2 = (ms k).world :=
    (h3 k).2.1.world
  show (x k).city = (iterStep (timedStepper (crawlHost (crawlOther N o x ps.length))) k (roundsStart (ps.length + 1) iv true ⟨City.init caps ps [], 0⟩)).2.city
  rw [e, main k]

/-- C239 with `PQueueActivation`: how the evening goes if everybody is open and has at most `M` pints, see `C239_open`. -/
theorem C239_pqueue_open (N : CrawlNet) (keys : Nat → Rat) (hdraw : ∀ u j, N.draw u j < 1) (caps : List Nat) (ps : List (Rat × Nat)) (hps : ps ≠ []) (hopen : ∀ p ∈ ps, 1 ≤ p.1)
    (M : Nat) (hM : ∀ p ∈ ps, p.2 ≤ M) (iv : Rat) (hiv : 0 < iv) (loop : Nat) (hl : ps.length + 1 ≤ loop) (k : Nat) (hk : M + 6 ≤ k) :
    let c := (crawlPRun N keys caps ps iv loop k).2.city
    c.count .friends = 1 ∧ c.count .home = min (ps.length - 1) (caps.map (· / 2)).sum ∧ c.count .seekPub = ps.length - 1 - (caps.map (· / 2)).sum ∧
      c.count .sober = 0 ∧ c.count .drunkInPub = 0 := by
  obtain ⟨⟨N', h1, h2⟩, -⟩ := C239_pqueue N keys caps ps iv hiv loop hl
  have hd : ∀ u j, N'.draw u j < 1 := by
    intro u j
    obtain ⟨v, hv, -⟩ := h1 u
    rw [hv]
    exact hdraw v j
  obtain ⟨x, hx, h⟩ := C239_open N' hd caps ps hps hopen M hM iv hiv true k k hk (le_refl _)
  have hrun := (C230_ends_partial _ _ (Nat.succ_pos _) iv hiv _ _ (crawl_mesa N' (ps.length + 1) iv) true ⟨City.init caps ps [], 0⟩ trivial k k (le_refl _)).1
  have hx' : runModel (timedStepper (crawlHost N')) none (some k) k (roundsStart (ps.length + 1) iv true ⟨City.init caps ps [], 0⟩) = .done x := hx
  rw [hrun] at hx'
  have e : x = crawlRun N' caps ps iv true k := (Outcome.done.inj hx').symm
  intro c
  have hc : c = x.2.city := by rw [e]; exact h2 k
  rw [hc]
  exact h

/-- C239 is violated with `PQueueActivation` too: somebody looks for friends for ever, and at most half as many patrons as the pubs hold ever drink. -/
theorem C239_pqueue_false (N : CrawlNet) (keys : Nat → Rat) (caps : List Nat) (ps : List (Rat × Nat)) (hps : ps ≠ []) (iv : Rat) (hiv : 0 < iv) (loop : Nat)
    (hl : ps.length + 1 ≤ loop) :
    (∃ i < ps.length, ∀ k, ∃ q, (crawlPRun N keys caps ps iv loop k).2.city.patrons[i]? = some q ∧ q.state = .friends ∧ q.pints = 0) ∧
    ∀ k, (crawlPRun N keys caps ps iv loop k).2.city.been ≤ (caps.map (· / 2)).sum := by
  obtain ⟨⟨N', -, h2⟩, -⟩ := C239_pqueue N keys caps ps iv hiv loop hl
  refine ⟨?_, fun k => ?_⟩
  · obtain ⟨i, hi, h⟩ := C239_alone_false N' caps ps hps iv hiv true
    exact ⟨i, hi, fun k => by rw [h2 k]; exact h k⟩
  · rw [h2 k]
    exact C239_places_false N' caps ps iv hiv true k

/-! ### Examples -/

/-- The numbers drawn for the queue. -/
def exCrawlKeys (u : Nat) : Rat := ((u * 7 + 3) % 11 : Nat) / 11

set_option maxRecDepth 100000 in
/-- The evening of the example of C239 with the queue: three are at home, one looks for a pub and one for friends. -/
example : (crawlPRun exCrawlNet exCrawlKeys [4, 3] [(1, 1), (1, 1), (1, 0), (1, 1), (1, 1)] 1 10 7).2.city.patrons.map (·.state) =
      [.friends, .seekPub, .home, .home, .home] := by
  decide +kernel

end Verif
