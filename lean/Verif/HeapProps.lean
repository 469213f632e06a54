import Verif.Heap
import Verif.PdqSortProps

/-! Heap helpers (C09). -/
namespace Verif.Heap

open Verif.PdqSort (R rd wr iterSwap g rd_ok wr_ok bind_ok pure_ok swapped iterSwap_ok swapped_perm
  g_swapped g_set g_set_self g_set_ne StrictWeak g_mem HeapContract set_perm' set_g)

variable {α : Type}

/-- The heap order `heapq` users expect, and `ShiftDown` maintains: no element is below its
parent. -/
def MinHeap (lt : α → α → Bool) (v : List α) : Prop :=
  ∀ i x y, 0 < i → v[(i - 1) / 2]? = some x → v[i]? = some y → lt y x = false

/-- What `std::make_heap` with `lt` establishes: no element is above its parent. -/
def MaxHeap (lt : α → α → Bool) (v : List α) : Prop :=
  ∀ i x y, 0 < i → v[(i - 1) / 2]? = some x → v[i]? = some y → lt x y = false

/-- Contract of `std::make_heap`. -/
def MakeHeapContract (lt : α → α → Bool) (mh : List α → List α) : Prop :=
  ∀ l, (mh l).Perm l ∧ MaxHeap lt (mh l)

section
variable [Inhabited α]

theorem minHeap_iff {lt : α → α → Bool} {v : List α} :
    MinHeap lt v ↔ ∀ i, 0 < i → i < v.length → lt (g v i) (g v ((i - 1) / 2)) = false := by
  constructor
  · intro h i h0 h1
    exact h i _ _ h0 (by simp [g, show (i - 1) / 2 < v.length by omega])
      (by simp [g, h1])
  · intro h i x y h0 hx hy
    have h1 : i < v.length := (List.getElem?_eq_some_iff.1 hy).1
    have := h i h0 h1
    simp only [g, List.getD_eq_getElem?_getD, hx, hy, Option.getD_some] at this
    exact this

theorem pickMin_spec {lt : α → α → Bool} (S : StrictWeak lt) {v : List α} {c m : Nat}
    (hm : m < v.length) :
    ∃ r, pickMin lt v c m = .ok r ∧ r < v.length ∧ (r = c ∨ r = m) ∧
      lt (g v m) (g v r) = false ∧ (c < v.length → lt (g v c) (g v r) = false) := by
  have irr : ∀ x, lt x x = false := by
    intro x
    cases h : lt x x with
    | false => rfl
    | true => rw [S.asymm x x h] at h; cases h
  unfold pickMin
  by_cases hc : c < v.length
  · rw [if_pos hc, rd_ok hc, bind_ok, rd_ok hm, bind_ok]
    cases h : lt (g v c) (g v m) with
    | true => exact ⟨c, rfl, hc, Or.inl rfl, S.asymm _ _ h, fun _ => irr _⟩
    | false => exact ⟨m, rfl, hm, Or.inr rfl, irr _, fun _ => h⟩
  · rw [if_neg hc]
    exact ⟨m, rfl, hm, Or.inr rfl, irr _, fun h => absurd h hc⟩

/-- Heap order everywhere except between `i` and its children. -/
def HeapExcept (lt : α → α → Bool) (i : Nat) (v : List α) : Prop :=
  (∀ k, 0 < k → k < v.length → (k - 1) / 2 ≠ i → lt (g v k) (g v ((k - 1) / 2)) = false) ∧
  (∀ k, 0 < k → k < v.length → (k - 1) / 2 = i → 0 < i →
    lt (g v k) (g v ((i - 1) / 2)) = false)

theorem shiftDown_spec {lt : α → α → Bool} (S : StrictWeak lt) :
    ∀ (n : Nat) (v : List α) (i : Nat), i < v.length → v.length - i < n → HeapExcept lt i v →
      ∃ v', shiftDown lt n v i = .ok v' ∧ v'.Perm v ∧ MinHeap lt v' := by
  intro n
  induction n with
  | zero => intro v i _ h; omega
  | succ n ih =>
    intro v i hi hn ⟨hA, hB⟩
    unfold shiftDown
    obtain ⟨m1, e1, l1, c1, o1, p1⟩ := pickMin_spec S (c := 2 * i + 1) hi
    obtain ⟨m, e2, l2, c2, o2, p2⟩ := pickMin_spec S (c := 2 * i + 2) l1
    rw [e1, bind_ok, e2, bind_ok]
    -- `m` holds the least of the three
    have hmi : lt (g v i) (g v m) = false := S.neg _ _ _ o1 o2
    have hml : 2 * i + 1 < v.length → lt (g v (2 * i + 1)) (g v m) = false :=
      fun h => S.neg _ _ _ (p1 h) o2
    have hmr : 2 * i + 2 < v.length → lt (g v (2 * i + 2)) (g v m) = false := p2
    have hch : ∀ k, 0 < k → k < v.length → (k - 1) / 2 = i → lt (g v k) (g v m) = false := by
      intro k h0 h1 h2
      have : k = 2 * i + 1 ∨ k = 2 * i + 2 := by omega
      rcases this with h | h
      · rw [h]; exact hml (by omega)
      · rw [h]; exact hmr (by omega)
    by_cases hm : m = i
    · rw [if_pos hm]
      refine ⟨v, rfl, .refl _, minHeap_iff.2 ?_⟩
      intro k h0 h1
      by_cases hk : (k - 1) / 2 = i
      · rw [hk, ← hm]; exact hch k h0 h1 hk
      · exact hA k h0 h1 hk
    · rw [if_neg hm, iterSwap_ok hi l2, bind_ok]
      have hpm : (m - 1) / 2 = i ∧ i < m := by
        rcases c2 with h | h
        · omega
        · rcases c1 with h' | h' <;> omega
      have hperm := swapped_perm hi l2
      have hg := g_swapped hi l2
      have hlen := hperm.length_eq
      obtain ⟨v', f1, f2, f3⟩ := ih (swapped v i m) m (by omega) (by omega) (by
        refine ⟨?_, ?_⟩
        · intro k h0 h1 hk
          rw [hg k, hg ((k - 1) / 2)]
          rw [if_neg hk]
          by_cases k1 : k = m
          · rw [if_pos k1, if_pos (by rw [k1]; exact hpm.1)]; exact hmi
          · rw [if_neg k1]
            by_cases k2 : k = i
            · rw [if_pos k2, if_neg (by omega), k2]
              exact hB m (by omega) (by omega) hpm.1 (by omega)
            · rw [if_neg k2]
              by_cases k3 : (k - 1) / 2 = i
              · rw [if_pos k3]; exact hch k h0 (by omega) k3
              · rw [if_neg k3]; exact hA k h0 (by omega) k3
        · intro k h0 h1 hk _
          rw [hg k, hg ((m - 1) / 2), if_neg (by omega), if_neg (by omega), if_neg (by omega),
            if_pos hpm.1, ← hk]
          exact hA k h0 (by omega) (by omega))
      exact ⟨v', f1, f2.trans hperm, f3⟩

end

/-- Replacing the root and shifting down restores the heap. -/
theorem replace_root {lt : α → α → Bool} (S : StrictWeak lt) {x : α} {r : List α}
    (h : MinHeap lt (x :: r)) (item : α) :
    ∃ v', shiftDown lt ((item :: r).length + 1) (item :: r) 0 = .ok v' ∧ v'.Perm (item :: r) ∧
      MinHeap lt v' := by
  haveI : Inhabited α := ⟨x⟩
  have h' := minHeap_iff.1 h
  refine shiftDown_spec S _ _ _ (by simp) (by omega) ⟨?_, by omega⟩
  intro k h0 h1 hk
  have := h' k h0 (by simpa using h1)
  have e : ∀ j, 0 < j → g (item :: r) j = g (x :: r) j := by
    intro j hj
    obtain ⟨j, rfl⟩ : ∃ i, j = i + 1 := ⟨j - 1, by omega⟩
    simp [g]
  rw [e k h0, e _ (by omega)]; exact this

/-- C09: `heap_replace` on a heap keeps the heap and exchanges its root for the item. -/
theorem heap_replace_keeps {lt : α → α → Bool} (S : StrictWeak lt) {x : α} {r : List α}
    (h : MinHeap lt (x :: r)) (item : α) :
    ∃ v', heapReplace lt (x :: r) item = .ok (some v') ∧ v'.Perm (item :: r) ∧ MinHeap lt v' := by
  obtain ⟨v', e1, e2, e3⟩ := replace_root S h item
  refine ⟨v', ?_, e2, e3⟩
  unfold heapReplace
  rw [if_neg (by simp), wr_ok (by simp), bind_ok]
  rw [show (x :: r).set 0 item = item :: r from rfl, e1]
  rfl

/-- The root of a heap is not above any element. -/
theorem root_min {lt : α → α → Bool} (S : StrictWeak lt) {x : α} {r : List α}
    (h : MinHeap lt (x :: r)) : ∀ y ∈ x :: r, lt y x = false := by
  haveI : Inhabited α := ⟨x⟩
  have irr : lt x x = false := by
    cases hh : lt x x with
    | false => rfl
    | true => rw [S.asymm x x hh] at hh; cases hh
  have h' := minHeap_iff.1 h
  have : ∀ n k, k ≤ n → k < (x :: r).length → lt (g (x :: r) k) x = false := by
    intro n
    induction n with
    | zero => intro k hk _; rw [show k = 0 by omega]; exact irr
    | succ n ih =>
      intro k hk hl
      by_cases h0 : k = 0
      · rw [h0]; exact irr
      · exact S.neg _ _ _ (h' k (by omega) hl) (ih ((k - 1) / 2) (by omega) (by omega))
  intro y hy
  obtain ⟨k, hk, rfl⟩ := List.mem_iff_getElem.1 hy
  have := this k k (Nat.le_refl _) hk
  rwa [show g (x :: r) k = (x :: r)[k] by
    simp only [g, List.getD_eq_getElem?_getD, List.getElem?_eq_getElem hk, Option.getD_some]] at this

/-- C09: `heap_pushpop` on a heap returns a least element of heap and item together, keeps the heap
order, and loses nothing. -/
theorem heap_pushpop_min {lt : α → α → Bool} (S : StrictWeak lt) {v : List α} (hv : v ≠ [])
    (h : MinHeap lt v) (item : α) :
    ∃ r v', heapPushPop lt v item = .ok (some (r, v')) ∧ (r :: v').Perm (item :: v) ∧
      MinHeap lt v' ∧ ∀ y ∈ item :: v, lt y r = false := by
  cases v with
  | nil => exact absurd rfl hv
  | cons x l =>
    have irr : ∀ z, lt z z = false := by
      intro z
      cases hh : lt z z with
      | false => rfl
      | true => rw [S.asymm z z hh] at hh; cases hh
    have hmin := root_min S h
    haveI : Inhabited α := ⟨x⟩
    unfold heapPushPop
    rw [if_neg (by simp), rd_ok (by simp), bind_ok, show g (x :: l) 0 = x from rfl]
    cases hc : lt x item with
    | false =>
      rw [if_pos (by simp)]
      refine ⟨item, x :: l, rfl, .refl _, h, ?_⟩
      intro y hy
      rcases List.mem_cons.1 hy with rfl | hy
      · exact irr _
      · exact S.neg _ _ _ (hmin y hy) hc
    | true =>
      rw [if_neg (by simp), wr_ok (by simp), bind_ok,
        show (x :: l).set 0 item = item :: l from rfl]
      obtain ⟨v', e1, e2, e3⟩ := replace_root S h item
      rw [e1, bind_ok, pure_ok]
      refine ⟨x, v', rfl, (e2.cons x).trans (.swap _ _ _), e3, ?_⟩
      intro y hy
      rcases List.mem_cons.1 hy with rfl | hy
      · exact S.asymm _ _ hc
      · exact hmin y hy

/-- Both calls on an empty list raise, and heapifying one leaves it empty. -/
theorem heap_empty_raises (lt : α → α → Bool) (mh : List α → List α) (item : α) :
    heapReplace lt [] item = .ok none ∧ heapPushPop lt [] item = .ok none ∧
      heapify mh [] = [] ∧ heapifyBy mh [] = [] := ⟨rfl, rfl, rfl, rfl⟩

/-- A heap call. -/
inductive Call (α : Type)
  | replace (item : α)
  | pushpop (item : α)

/-- Run the calls: the values the calls removed, in order, and the final list. -/
def runCalls (lt : α → α → Bool) : List (Call α) → List α → R (Option (List α × List α))
  | [], v => pure (some ([], v))
  | .replace x :: cs, v => do
    let some v' ← heapReplace lt v x | pure none
    let some (out, v'') ← runCalls lt cs v' | pure none
    pure (some (v.take 1 ++ out, v''))
  | .pushpop x :: cs, v => do
    let some (r, v') ← heapPushPop lt v x | pure none
    let some (out, v'') ← runCalls lt cs v' | pure none
    pure (some (r :: out, v''))

def Call.item : Call α → α
  | .replace x => x
  | .pushpop x => x

/-- C09 over histories: after any sequence of calls on a non-empty heap, the list is a heap, and it
holds exactly what was there plus the items put in minus the values taken out. -/
theorem heap_history {lt : α → α → Bool} (S : StrictWeak lt) :
    ∀ (cs : List (Call α)) (v : List α), v ≠ [] → MinHeap lt v →
      ∃ out v', runCalls lt cs v = .ok (some (out, v')) ∧ MinHeap lt v' ∧
        v'.length = v.length ∧ out.length = cs.length ∧
        (out ++ v').Perm (cs.map Call.item ++ v) := by
  intro cs
  induction cs with
  | nil => intro v _ h; exact ⟨[], v, rfl, h, rfl, rfl, .refl _⟩
  | cons c cs ih =>
    intro v hv h
    cases c with
    | replace x =>
      cases v with
      | nil => exact absurd rfl hv
      | cons y l =>
        obtain ⟨v1, e1, e2, e3⟩ := heap_replace_keeps S h x
        have hl := e2.length_eq
        obtain ⟨out, v2, f1, f2, f3, f4, f5⟩ := ih v1 (by intro hh; rw [hh] at hl; simp at hl) e3
        refine ⟨y :: out, v2, ?_, f2, ?_, by simp [f4], ?_⟩
        · unfold runCalls
          rw [e1, bind_ok]
          dsimp only
          rw [f1, bind_ok]
          rfl
        · rw [f3, hl]; rfl
        · have h1 : (out ++ v2).Perm (cs.map Call.item ++ (x :: l)) :=
            f5.trans (e2.append_left _)
          have h2 : (y :: (out ++ v2)).Perm (y :: (cs.map Call.item ++ (x :: l))) := h1.cons y
          refine h2.trans ?_
          simp only [List.map_cons, Call.item, List.cons_append]
          have h3 : (y :: (cs.map Call.item ++ x :: l)).Perm (y :: x :: (cs.map Call.item ++ l)) :=
            List.Perm.cons y List.perm_middle
          refine h3.trans ((List.Perm.swap _ _ _).trans (List.Perm.cons x ?_))
          exact List.perm_middle.symm
    | pushpop x =>
      obtain ⟨r, v1, e1, e2, e3, e4⟩ := heap_pushpop_min S hv h x
      have hl : v1.length = v.length := by simpa using e2.length_eq
      obtain ⟨out, v2, f1, f2, f3, f4, f5⟩ := ih v1
        (by intro hh; rw [hh] at hl; exact hv (List.length_eq_zero_iff.1 hl.symm)) e3
      refine ⟨r :: out, v2, ?_, f2, by omega, by simp [f4], ?_⟩
      · unfold runCalls
        rw [e1, bind_ok]
        dsimp only
        rw [f1, bind_ok]
        rfl
      · simp only [List.map_cons, Call.item, List.cons_append]
        refine (f5.cons r).trans ?_
        have h3 : (r :: (cs.map Call.item ++ v1)).Perm (cs.map Call.item ++ (r :: v1)) :=
          List.perm_middle.symm
        refine h3.trans ((e2.append_left _).trans List.perm_middle)

/-- A sorted list is a heap. -/
theorem sorted_minHeap {lt : α → α → Bool} {v : List α}
    (h : v.Pairwise (fun x y => lt y x = false)) : MinHeap lt v := by
  intro i x y h0 hx hy
  obtain ⟨hi, rfl⟩ := List.getElem?_eq_some_iff.1 hx
  obtain ⟨hj, rfl⟩ := List.getElem?_eq_some_iff.1 hy
  exact List.pairwise_iff_getElem.1 h _ _ hi hj (by omega)

/-- C09 with a user comparator: `heapify(h, comp)` followed by any calls. -/
theorem heapify_by_history_partial {lt : α → α → Bool} (S : StrictWeak lt)
    {stdSort : List α → List α} (H : HeapContract lt stdSort) (v : List α) (hv : v ≠ [])
    (cs : List (Call α)) :
    MinHeap lt (heapifyBy stdSort v) ∧ (heapifyBy stdSort v).Perm v ∧
    ∃ out v', runCalls lt cs (heapifyBy stdSort v) = .ok (some (out, v')) ∧ MinHeap lt v' ∧
      (out ++ v').Perm (cs.map Call.item ++ v) := by
  have e : heapifyBy stdSort v = stdSort v := by
    unfold heapifyBy
    rw [if_neg (by intro h; exact hv (List.length_eq_zero_iff.1 h))]
  rw [e]
  obtain ⟨hp, ho⟩ := H v
  have hm := sorted_minHeap ho
  refine ⟨hm, hp, ?_⟩
  obtain ⟨out, v', f1, f2, _, _, f5⟩ := heap_history S cs (stdSort v)
    (by intro h; rw [h] at hp; exact hv (List.nil_perm.1 hp)) hm
  exact ⟨out, v', f1, f2, f5.trans (hp.append_left _)⟩

/-- C09 fails for `heapify(h)` without a comparator: it builds the opposite heap.  Whatever
`std::make_heap` does within its contract, the root of `heapify([1, 2])` is 2, and
`heap_pushpop` with 3 then returns 2 although 1 is in the heap. -/
theorem heapify_order_refuted (mh : List Nat → List Nat)
    (H : MakeHeapContract (fun x y => decide (x < y)) mh) :
    heapify mh [1, 2] = [2, 1] ∧ ¬ MinHeap (fun x y => decide (x < y)) (heapify mh [1, 2]) ∧
      heapPushPop (fun x y => decide (x < y)) (heapify mh [1, 2]) 3 = .ok (some (2, [1, 3])) := by
  obtain ⟨hp, hh⟩ := H [1, 2]
  have e : heapify mh [1, 2] = mh [1, 2] := rfl
  have hl : mh [1, 2] = [2, 1] := by
    have hlen := hp.length_eq
    match hm : mh [1, 2], hlen with
    | [a, b], _ =>
      rw [hm] at hp hh
      have h1 : 1 ∈ [a, b] := hp.mem_iff.2 (by simp)
      have h2 : 2 ∈ [a, b] := hp.mem_iff.2 (by simp)
      have h3 := hh 1 a b (by omega) rfl rfl
      simp only [List.mem_cons, List.not_mem_nil, or_false, decide_eq_false_iff_not] at h1 h2 h3
      have : a = 2 ∧ b = 1 := by omega
      rw [this.1, this.2]
  rw [e, hl]
  refine ⟨rfl, ?_, rfl⟩
  intro h
  have := h 1 2 1 (by omega) rfl rfl
  simp at this

/-- Any list with two elements of different size loses: the root of `heapify(h)` is the largest
element, never the smallest. -/
theorem heapify_root_max_refuted {lt : α → α → Bool} (S : StrictWeak lt) {mh : List α → List α}
    (H : MakeHeapContract lt mh) {v : List α} {x y : α} (hx : x ∈ v) (hy : y ∈ v)
    (hlt : lt x y = true) : ¬ MinHeap lt (heapify mh v) := by
  intro hmin
  have hv : v.length ≠ 0 := by
    intro h; rw [List.length_eq_zero_iff.1 h] at hx; simp at hx
  have e : heapify mh v = mh v := by unfold heapify; rw [if_neg hv]
  obtain ⟨hp, hmax⟩ := H v
  rw [e] at hmin
  cases hm : mh v with
  | nil => rw [hm] at hp; rw [List.nil_perm.1 hp] at hx; simp at hx
  | cons r l =>
    rw [hm] at hmin hmax hp
    -- reversing the comparator turns one heap into the other
    have S' : StrictWeak (fun a b => lt b a) :=
      ⟨fun a b h => S.asymm _ _ h, fun a b c h1 h2 => S.neg _ _ _ h2 h1⟩
    have h1 := root_min S hmin x (hp.mem_iff.2 hx)
    have h2 := root_min S' (x := r) (r := l) hmax y (hp.mem_iff.2 hy)
    have := S.neg x r y h1 h2
    rw [hlt] at this; cases this

/-- A heap of six and a few calls. -/
example : runCalls (fun x y : Nat => decide (x < y)) [.pushpop 7, .replace 5, .pushpop 0]
    [1, 3, 2, 4, 8, 6] = .ok (some ([1, 2, 0], [3, 4, 6, 5, 8, 7])) := by decide +kernel

example : MinHeap (fun x y : Nat => decide (x < y)) [1, 3, 2, 4, 8, 6] := by
  rw [minHeap_iff]
  intro i h0 h1
  have : ∀ i < 6, 0 < i → decide (g [1, 3, 2, 4, 8, 6] i < g [1, 3, 2, 4, 8, 6] ((i - 1) / 2)) = false := by
    decide
  exact this i h1 h0

end Verif.Heap
