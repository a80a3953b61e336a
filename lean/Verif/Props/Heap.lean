import Verif.Model.Heap
import Mathlib.Data.List.Induction
import Mathlib.Order.Defs.LinearOrder
import Mathlib.Tactic.Common

/-!
# Property C30: agents do not share mutable defaults
-/

namespace Verif

/-! ### Ownership -/

/-- In the labelling `own` of objects with owners, `v` belongs to `o`. -/
def OwnedVal (own : List Nat) (o : Nat) : HVal → Prop
  | .int _ => True
  | .ref a => own[a]? = some o

structure HeapOwned (own : List Nat) (h : Heap) : Prop where
  len : own.length = h.length
  edges : ∀ (a : Nat) (obj : List HVal) (o : Nat), h[a]? = some obj → own[a]? = some o → ∀ v ∈ obj, OwnedVal own o v

structure Owned (own : List Nat) (w : HWorld) : Prop where
  heap : HeapOwned own w.heap
  cls : ∀ v ∈ w.defaults, OwnedVal own 0 v
  agents : ∀ (i : Nat) (attrs : List HVal), w.agents[i]? = some attrs → ∀ v ∈ attrs, OwnedVal own (i + 1) v

theorem OwnedVal.append {own : List Nat} {o : Nat} {v : HVal} (h : OwnedVal own o v) (own' : List Nat) :
    OwnedVal (own ++ own') o v := by
  cases v with
  | int n => trivial
  | ref a =>
    simp only [OwnedVal] at h ⊢
    rw [List.getElem?_append_left (List.getElem?_eq_some_iff.1 h).1]; exact h

theorem HeapOwned.lt {own : List Nat} {h : Heap} (ho : HeapOwned own h) {o a : Nat} (ha : own[a]? = some o) :
    a < h.length := by
  have := (List.getElem?_eq_some_iff.1 ha).1
  rw [ho.len] at this; exact this

theorem deepcopy_owned {own : List Nat} {h : Heap} (ho : HeapOwned own h) (v : HVal) (o n : Nat)
    (hv : OwnedVal own o v) :
    HeapOwned (own ++ List.replicate h.length n) (deepcopy h v).1 ∧
    OwnedVal (own ++ List.replicate h.length n) n (deepcopy h v).2 := by
  have hval : ∀ (o : Nat) (v : HVal), OwnedVal own o v →
      OwnedVal (own ++ List.replicate h.length n) n (v.shift h.length) := by
    intro o v hv
    cases v with
    | int k => trivial
    | ref a =>
      have := ho.lt hv
      simp only [OwnedVal, HVal.shift]
      rw [List.getElem?_append_right (by rw [ho.len]; omega), ho.len]
      simp only [Nat.add_sub_cancel]
      rw [List.getElem?_replicate, if_pos this]
  refine ⟨⟨by simp [deepcopy, ho.len], ?_⟩, hval o v hv⟩
  intro a obj o' hobj ho' x hx
  simp only [deepcopy] at hobj
  rcases Nat.lt_or_ge a h.length with ha | ha
  · rw [List.getElem?_append_left ha] at hobj
    rw [List.getElem?_append_left (by rw [ho.len]; exact ha)] at ho'
    exact (ho.edges a obj o' hobj ho' x hx).append _
  · rw [List.getElem?_append_right ha] at hobj
    rw [List.getElem?_append_right (by rw [ho.len]; exact ha), ho.len, List.getElem?_replicate] at ho'
    split at ho'
    · rename_i hlt
      cases ho'
      rw [List.getElem?_map] at hobj
      cases ho0 : h[a - h.length]? with
      | none => rw [ho0] at hobj; cases hobj
      | some obj0 =>
        rw [ho0] at hobj
        simp only [Option.map_some, Option.some.injEq] at hobj
        subst hobj
        obtain ⟨x0, hx0, rfl⟩ := List.mem_map.1 hx
        have hown : ∃ oo, own[a - h.length]? = some oo :=
          ⟨own[a - h.length]'(by rw [ho.len]; exact hlt), List.getElem?_eq_getElem _⟩
        obtain ⟨oo, hoo⟩ := hown
        exact hval oo x0 (ho.edges _ obj0 oo ho0 hoo x0 hx0)
    · cases ho'

theorem copyAll_owned (vs : List HVal) (n : Nat) : ∀ {own : List Nat} {h : Heap}, HeapOwned own h →
    (∀ v ∈ vs, ∃ o, OwnedVal own o v) →
    ∃ ext, HeapOwned (own ++ ext) (copyAll h vs).1 ∧ ∀ v ∈ (copyAll h vs).2, OwnedVal (own ++ ext) n v := by
  induction vs with
  | nil => intro own h ho _; exact ⟨[], by simpa [copyAll] using ho, by simp [copyAll]⟩
  | cons v vs ih =>
    intro own h ho hvs
    obtain ⟨o, hv⟩ := hvs v (by simp)
    obtain ⟨h1, h2⟩ := deepcopy_owned ho v o n hv
    obtain ⟨ext, h3, h4⟩ := ih h1 (fun x hx => by
      obtain ⟨o', hx'⟩ := hvs x (by simp [hx])
      exact ⟨o', hx'.append _⟩)
    refine ⟨List.replicate h.length n ++ ext, ?_, ?_⟩
    · rw [← List.append_assoc]; exact h3
    · intro x hx
      rw [← List.append_assoc]
      simp only [copyAll] at hx
      rcases List.mem_cons.1 hx with rfl | hx
      · exact h2.append _
      · exact h4 x hx

theorem navigate_owned {own : List Nat} {h : Heap} (ho : HeapOwned own h) (path : List Nat) :
    ∀ {o : Nat} {v v' : HVal}, OwnedVal own o v → navigate h v path = some v' → OwnedVal own o v' := by
  induction path with
  | nil => intro o v v' hv hn; simp only [navigate, Option.some.injEq] at hn; subst hn; exact hv
  | cons p ps ih =>
    intro o v v' hv hn
    cases v with
    | int k => cases hn
    | ref a =>
      simp only [navigate] at hn
      split at hn
      · cases hn
      · rename_i obj hobj
        split at hn
        · cases hn
        · rename_i x hx
          exact ih (ho.edges a obj o hobj hv x (List.mem_of_getElem? hx)) hn

theorem Owned.read {own : List Nat} {w : HWorld} (h : Owned own w) {i k : Nat} {path : List Nat} {v : HVal}
    (hr : w.read i k path = some v) : OwnedVal own (i + 1) v := by
  unfold HWorld.read at hr
  split at hr
  · cases hr
  · rename_i attrs hat
    split at hr
    · cases hr
    · rename_i x hx
      exact navigate_owned h.heap path (h.agents i attrs hat x (List.mem_of_getElem? hx)) hr

/-- Evaluating a source gives something of the agent's own, perhaps new. -/
theorem Owned.eval {own : List Nat} {w : HWorld} (h : Owned own w) {i : Nat} {src : Src} {h' : Heap} {v : HVal}
    (he : w.eval i src = some (h', v)) :
    ∃ ext, HeapOwned (own ++ ext) h' ∧ OwnedVal (own ++ ext) (i + 1) v ∧ ∀ a : Nat, a < w.heap.length → h'[a]? = w.heap[a]? := by
  cases src with
  | int n =>
    simp only [HWorld.eval, Option.some.injEq, Prod.mk.injEq] at he
    obtain ⟨rfl, rfl⟩ := he
    exact ⟨[], by simpa using h.heap, trivial, fun _ _ => rfl⟩
  | fresh =>
    simp only [HWorld.eval, Option.some.injEq, Prod.mk.injEq] at he
    obtain ⟨rfl, rfl⟩ := he
    refine ⟨[i + 1], ⟨by simp [h.heap.len], ?_⟩, ?_, fun a ha => List.getElem?_append_left ha⟩
    · intro a obj o hobj ho x hx
      rcases Nat.lt_or_ge a w.heap.length with ha | ha
      · rw [List.getElem?_append_left ha] at hobj
        rw [List.getElem?_append_left (by rw [h.heap.len]; exact ha)] at ho
        exact (h.heap.edges a obj o hobj ho x hx).append _
      · rw [List.getElem?_append_right ha] at hobj
        have : obj = [] := by simpa using List.mem_of_getElem? hobj
        subst this; cases hx
    · simp only [OwnedVal]
      rw [List.getElem?_append_right (Nat.le_of_eq h.heap.len), h.heap.len]
      simp
  | own k path =>
    simp only [HWorld.eval] at he
    cases hr : w.read i k path with
    | none => rw [hr] at he; cases he
    | some x =>
      rw [hr] at he
      simp only [Option.some.injEq, Prod.mk.injEq] at he
      obtain ⟨rfl, rfl⟩ := he
      exact ⟨[], by simpa using h.heap, by simpa using h.read hr, fun _ _ => rfl⟩

theorem HeapOwned.modify {own : List Nat} {h : Heap} (ho : HeapOwned own h) {a o : Nat} (ha : own[a]? = some o)
    (f : List HVal → List HVal) (hf : ∀ obj, (∀ v ∈ obj, OwnedVal own o v) → ∀ v ∈ f obj, OwnedVal own o v) :
    HeapOwned own (h.modify a f) := by
  refine ⟨by simp [ho.len], ?_⟩
  intro b obj o' hobj ho' x hx
  rw [List.getElem?_modify] at hobj
  by_cases hab : a = b
  · subst hab
    rw [ha] at ho'
    cases ho'
    cases hob : h[a]? with
    | none => rw [hob] at hobj; simp at hobj
    | some obj0 =>
      rw [hob] at hobj
      simp only [if_true] at hobj
      cases hobj
      exact hf obj0 (fun v hv => ho.edges a obj0 o hob ha v hv) x hx
  · simp only [hab, if_false] at hobj
    exact ho.edges b obj o' (by simpa using hobj) ho' x hx

/-- Every operation keeps an ownership, touching no object of another owner. -/
theorem Owned.exec {own : List Nat} {w : HWorld} (h : Owned own w) (op : HOp) :
    ∃ ext, Owned (own ++ ext) (op.exec w) ∧
      ∀ (a o : Nat), own[a]? = some o → (∀ i, op.actor = some i → o ≠ i + 1) → (op.exec w).heap[a]? = w.heap[a]? := by
  have triv : ∃ ext, Owned (own ++ ext) w ∧
      ∀ (a o : Nat), own[a]? = some o → (∀ i, op.actor = some i → o ≠ i + 1) → w.heap[a]? = w.heap[a]? :=
    ⟨[], by simpa using h, fun _ _ _ _ => rfl⟩
  have mod : ∀ (i : Nat) (a : Nat) (src : Src) (h' : Heap) (v : HVal) (f : List HVal → List HVal),
      op.actor = some i → own[a]? = some (i + 1) → w.eval i src = some (h', v) →
      (∀ (ow : List Nat) obj, (∀ x ∈ obj, OwnedVal ow (i + 1) x) → OwnedVal ow (i + 1) v →
        ∀ x ∈ f obj, OwnedVal ow (i + 1) x) →
      ∃ ext, Owned (own ++ ext) { w with heap := h'.modify a f } ∧
        ∀ (b o : Nat), own[b]? = some o → (∀ i, op.actor = some i → o ≠ i + 1) → (h'.modify a f)[b]? = w.heap[b]? := by
    intro i a src h' v f hac ha he hf
    obtain ⟨ext, e1, e2, e3⟩ := h.eval he
    have ha' : (own ++ ext)[a]? = some (i + 1) := by
      rw [List.getElem?_append_left (List.getElem?_eq_some_iff.1 ha).1]; exact ha
    refine ⟨ext, ⟨e1.modify ha' f (fun obj hobj => hf _ obj hobj e2), fun x hx => (h.cls x hx).append _,
      fun j attrs hj x hx => (h.agents j attrs hj x hx).append _⟩, ?_⟩
    intro b o hb hne
    have hab : a ≠ b := by
      intro hab
      subst hab
      rw [ha] at hb
      cases hb
      exact hne i hac rfl
    rw [List.getElem?_modify]
    simp only [hab, if_false]
    rw [← e3 b (h.heap.lt hb)]
    simp
  cases op with
  | create =>
    obtain ⟨ext, e1, e2⟩ := copyAll_owned w.defaults (w.agents.length + 1) h.heap (fun v hv => ⟨0, h.cls v hv⟩)
    have hpre : ∀ (vs : List HVal) (hp : Heap) (a : Nat), a < hp.length → (copyAll hp vs).1[a]? = hp[a]? := by
      intro vs
      induction vs with
      | nil => intro hp a _; rfl
      | cons v vs ih =>
        intro hp a ha
        simp only [copyAll]
        rw [ih _ a (by simp [deepcopy]; omega)]
        simp only [deepcopy]
        rw [List.getElem?_append_left ha]
    refine ⟨ext, ⟨e1, fun x hx => (h.cls x hx).append _, ?_⟩, fun a o ha _ => hpre _ _ a (h.heap.lt ha)⟩
    intro j attrs hj x hx
    simp only [HOp.exec] at hj
    rcases Nat.lt_or_ge j w.agents.length with hlt | hge
    · rw [List.getElem?_append_left hlt] at hj
      exact (h.agents j attrs hj x hx).append _
    · rw [List.getElem?_append_right hge] at hj
      have hj0 : j = w.agents.length := by
        by_contra hne
        rw [List.getElem?_eq_none (by simp; omega)] at hj
        cases hj
      subst hj0
      simp only [Nat.sub_self, List.getElem?_cons_zero, Option.some.injEq] at hj
      subst hj
      exact e2 x hx
  | write i k path pos src =>
    simp only [HOp.exec]
    split
    · rename_i a h' v hr he
      refine mod i a src h' v _ rfl (h.read hr) he ?_
      intro ow obj hobj hv x hx
      rcases List.mem_or_eq_of_mem_set hx with hx | rfl
      · exact hobj x hx
      · exact hv
    · exact triv
  | append i k path src =>
    simp only [HOp.exec]
    split
    · rename_i a h' v hr he
      refine mod i a src h' v _ rfl (h.read hr) he ?_
      intro ow obj hobj hv x hx
      rcases List.mem_append.1 hx with hx | hx
      · exact hobj x hx
      · have : x = v := by simpa using hx
        subst this; exact hv
    · exact triv
  | assign i k src =>
    simp only [HOp.exec]
    split
    · rename_i attrs h' v hat he
      obtain ⟨ext, e1, e2, e3⟩ := h.eval he
      refine ⟨ext, ⟨e1, fun x hx => (h.cls x hx).append _, ?_⟩, fun a o ha _ => e3 a (h.heap.lt ha)⟩
      intro j attrs' hj x hx
      rw [List.getElem?_set] at hj
      by_cases hij : i = j
      · subst hij
        rw [if_pos rfl] at hj
        split at hj
        · cases hj
          rcases List.mem_or_eq_of_mem_set hx with hx | rfl
          · exact (h.agents i attrs hat x hx).append _
          · exact e2
        · cases hj
      · rw [if_neg hij] at hj
        exact (h.agents j attrs' hj x hx).append _
    · exact triv

/-- A class whose defaults are well formed, without agents yet. -/
def HWorld.start (h : Heap) (defaults : List HVal) : HWorld := ⟨h, defaults, []⟩

/-- No dangling references. -/
def HeapClosed (h : Heap) (defaults : List HVal) : Prop :=
  (∀ obj ∈ h, ∀ a, .ref a ∈ obj → a < h.length) ∧ ∀ a, .ref a ∈ defaults → a < h.length

theorem start_owned {h : Heap} {defaults : List HVal} (hc : HeapClosed h defaults) :
    Owned (List.replicate h.length 0) (.start h defaults) := by
  refine ⟨⟨by simp [HWorld.start], ?_⟩, ?_, ?_⟩
  · intro a obj o hobj ho v hv
    rw [List.getElem?_replicate] at ho
    split at ho
    · cases ho
      cases v with
      | int k => trivial
      | ref b =>
        simp only [OwnedVal]
        rw [List.getElem?_replicate, if_pos (hc.1 obj (List.mem_of_getElem? hobj) b hv)]
    · cases ho
  · intro v hv
    cases v with
    | int k => trivial
    | ref b =>
      simp only [OwnedVal]
      rw [List.getElem?_replicate, if_pos (hc.2 b hv)]
  · intro i attrs hi
    simp [HWorld.start] at hi

theorem Owned.hexec (os : List HOp) : ∀ {own : List Nat} {w : HWorld}, Owned own w → ∃ own', Owned own' (hexec os w) := by
  induction os with
  | nil => intro own w h; exact ⟨own, h⟩
  | cons op os ih =>
    intro own w h
    obtain ⟨ext, h1, _⟩ := h.exec op
    exact ih h1

/-! ### C30 -/

/-- C30: after any history of creations and mutations, two different agents have no mutable object in common, as
deep as one may look into their attributes. -/
theorem C30_disjoint (h : Heap) (defaults : List HVal) (hc : HeapClosed h defaults) (os : List HOp)
    (i j k l : Nat) (hij : i ≠ j) (p q : List Nat) (a b : Nat)
    (h1 : (hexec os (.start h defaults)).read i k p = some (.ref a))
    (h2 : (hexec os (.start h defaults)).read j l q = some (.ref b)) : a ≠ b := by
  obtain ⟨own, ho⟩ := Owned.hexec os (start_owned hc)
  have e1 := ho.read h1
  have e2 := ho.read h2
  simp only [OwnedVal] at e1 e2
  intro hab
  subst hab
  rw [e1] at e2
  cases e2
  exact hij rfl

theorem view_congr {own : List Nat} {h h' : Heap} (ho : HeapOwned own h) {o : Nat}
    (hh : ∀ a : Nat, own[a]? = some o → h'[a]? = h[a]?) (n : Nat) :
    ∀ v, OwnedVal own o v → view h' n v = view h n v := by
  induction n with
  | zero => intro v _; rfl
  | succ n ih =>
    intro v hv
    cases v with
    | int k => rfl
    | ref a =>
      simp only [view]
      rw [hh a hv]
      cases hobj : h[a]? with
      | none => rfl
      | some obj =>
        simp only [Tree.node.injEq]
        exact List.map_congr_left (fun x hx => ih x (ho.edges a obj o hobj hv x hx))

/-- C30: whatever agent `i` does to its attributes, every attribute of every other agent keeps its value, to any
depth; and so do the class defaults. -/
theorem C30_isolation (h : Heap) (defaults : List HVal) (hc : HeapClosed h defaults) (os : List HOp) (op : HOp)
    (n : Nat) :
    let w := hexec os (.start h defaults)
    (∀ (j : Nat) (attrs : List HVal), op.actor ≠ some j → w.agents[j]? = some attrs →
      (op.exec w).agents[j]? = some attrs ∧ ∀ v ∈ attrs, view (op.exec w).heap n v = view w.heap n v) ∧
    (op.exec w).defaults = w.defaults ∧ ∀ v ∈ w.defaults, view (op.exec w).heap n v = view w.heap n v := by
  intro w
  obtain ⟨own, ho⟩ := Owned.hexec os (start_owned hc)
  obtain ⟨ext, _, h2⟩ := ho.exec op
  refine ⟨?_, ?_, ?_⟩
  · intro j attrs hj hat
    refine ⟨?_, ?_⟩
    · cases op with
      | create =>
        simp only [HOp.exec]
        rw [List.getElem?_append_left (List.getElem?_eq_some_iff.1 hat).1]; exact hat
      | write i k path pos src => simp only [HOp.exec]; split <;> exact hat
      | append i k path src => simp only [HOp.exec]; split <;> exact hat
      | assign i k src =>
        simp only [HOp.exec]
        split
        · simp only
          rw [List.getElem?_set, if_neg (fun hij => hj (by rw [← hij]; rfl))]; exact hat
        · exact hat
    · intro v hv
      refine view_congr ho.heap (fun a ha => h2 a _ ha ?_) n v (ho.agents j attrs hat v hv)
      intro i hi hji
      have : i = j := by omega
      subst this
      exact hj hi
  · cases op with
    | create => rfl
    | write i k path pos src => simp only [HOp.exec]; split <;> rfl
    | append i k path src => simp only [HOp.exec]; split <;> rfl
    | assign i k src => simp only [HOp.exec]; split <;> rfl
  · intro v hv
    exact view_congr ho.heap (fun a ha => h2 a _ ha (fun i _ => by omega)) n v (ho.cls v hv)

theorem view_defaults_stable (h : Heap) (defaults : List HVal) (hc : HeapClosed h defaults) (os : List HOp) (n : Nat) :
    (hexec os (.start h defaults)).defaults = defaults ∧
    ∀ v ∈ defaults, view (hexec os (.start h defaults)).heap n v = view h n v := by
  induction os using List.reverseRecOn with
  | nil => exact ⟨rfl, fun _ _ => rfl⟩
  | append_singleton os op ih =>
    obtain ⟨_, g1, g2⟩ := C30_isolation h defaults hc os op n
    have he : hexec (os ++ [op]) (.start h defaults) = op.exec (hexec os (.start h defaults)) := by
      simp [hexec, List.foldl_append]
    rw [he, g1]
    refine ⟨ih.1, fun v hv => ?_⟩
    rw [g2 v (by rw [ih.1]; exact hv)]
    exact ih.2 v hv

theorem view_shift {own : List Nat} {h : Heap} (ho : HeapOwned own h) (v0 : HVal) (n : Nat) :
    ∀ (v : HVal) (o : Nat), OwnedVal own o v → view (deepcopy h v0).1 n (v.shift h.length) = view h n v := by
  induction n with
  | zero => intro v _ _; rfl
  | succ n ih =>
    intro v o hv
    cases v with
    | int k => rfl
    | ref a =>
      have ha := ho.lt hv
      have h1 : (deepcopy h v0).1[a + h.length]? = some ((h[a]).map (HVal.shift h.length)) := by
        simp only [deepcopy]
        rw [List.getElem?_append_right (by omega), Nat.add_sub_cancel, List.getElem?_map,
          List.getElem?_eq_getElem ha]
        rfl
      have h2 : h[a]? = some h[a] := List.getElem?_eq_getElem ha
      simp only [HVal.shift, view, h1, h2, Tree.node.injEq, List.map_map]
      exact List.map_congr_left (fun x hx => ih x o (ho.edges a _ o h2 hv x hx))

theorem copyAll_view (vs : List HVal) (n : Nat) : ∀ {own : List Nat} {h : Heap}, HeapOwned own h →
    (∀ v ∈ vs, ∃ o, OwnedVal own o v) →
    (copyAll h vs).2.map (view (copyAll h vs).1 n) = vs.map (view h n) := by
  induction vs with
  | nil => intro _ _ _ _; rfl
  | cons v vs ih =>
    intro own h ho hvs
    obtain ⟨o, hv⟩ := hvs v (by simp)
    obtain ⟨h1, h2⟩ := deepcopy_owned ho v o 0 hv
    have hvs' : ∀ x ∈ vs, ∃ o, OwnedVal (own ++ List.replicate h.length 0) o x := fun x hx => by
      obtain ⟨o', hx'⟩ := hvs x (by simp [hx])
      exact ⟨o', hx'.append _⟩
    have hpre : ∀ (vs : List HVal) (hp : Heap) (a : Nat), a < hp.length → (copyAll hp vs).1[a]? = hp[a]? := by
      intro vs
      induction vs with
      | nil => intro hp a _; rfl
      | cons v vs ih =>
        intro hp a ha
        simp only [copyAll]
        rw [ih _ a (by simp [deepcopy]; omega)]
        simp only [deepcopy]
        rw [List.getElem?_append_left ha]
    simp only [copyAll, List.map_cons]
    congr 1
    · rw [view_congr h1 (fun a ha => hpre vs _ a (h1.lt ha)) n _ h2]
      exact view_shift ho v n v o hv
    · rw [ih h1 hvs']
      refine List.map_congr_left (fun x hx => ?_)
      obtain ⟨o', hx'⟩ := hvs x (by simp [hx])
      refine view_congr ho (fun a ha => ?_) n x hx'
      simp only [deepcopy]
      rw [List.getElem?_append_left (ho.lt ha)]

/-- C30: whatever earlier agents have done to their attributes, a new agent starts with the values written in the
class body. -/
theorem C30_fresh_values (h : Heap) (defaults : List HVal) (hc : HeapClosed h defaults) (os : List HOp) (n : Nat) :
    let w := HOp.create.exec (hexec os (.start h defaults))
    ∃ attrs, w.agents.getLast? = some attrs ∧ attrs.map (view w.heap n) = defaults.map (view h n) := by
  intro w
  obtain ⟨own, ho⟩ := Owned.hexec os (start_owned hc)
  obtain ⟨hd1, hd2⟩ := view_defaults_stable h defaults hc os n
  refine ⟨(copyAll (hexec os (.start h defaults)).heap (hexec os (.start h defaults)).defaults).2, ?_, ?_⟩
  · simp [w, HOp.exec]
  · have := copyAll_view (hexec os (.start h defaults)).defaults n ho.heap (fun v hv => ⟨0, ho.cls v hv⟩)
    simp only [w, HOp.exec]
    rw [this, hd1]
    exact List.map_congr_left hd2

/-- A class with `friends = [[1], 2]` and `log = []`; agent 0 mutates the nested list. -/
def exHeap : HWorld := hexec [.create, .create, .append 0 0 [0] (.int 5), .write 1 0 [] 1 .fresh, .create]
  (HWorld.start [[.int 1], [.ref 0, .int 2], []] [.ref 1, .ref 2])

example : exHeap.agents.map (fun attrs => attrs.map (view exHeap.heap 3)) =
    [[.node [.node [.int 1, .int 5], .int 2], .node []], [.node [.node [.int 1], .node []], .node []],
     [.node [.node [.int 1], .int 2], .node []]] := rfl

example : HeapClosed [[.int 1], [.ref 0, .int 2], []] [.ref 1, .ref 2] := by
  constructor
  · intro obj hobj a ha
    simp at hobj
    rcases hobj with rfl | rfl | rfl <;> simp at ha <;> subst ha <;> simp
  · intro a ha
    simp at ha
    rcases ha with rfl | rfl <;> simp

end Verif
