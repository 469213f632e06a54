import Verif.PdqSortTies

/-! Whether `list.sort` keeps the order of elements that compare equal (C47). -/
namespace Verif.PdqSort

variable {α : Type}

/-- Neither is below the other. -/
def tied (comp : α → α → Bool) (x y : α) : Bool := !comp x y && !comp y x

/-- Elements that compare equal appear in the same order in both lists. -/
def SameTies (comp : α → α → Bool) (a a' : List α) : Prop :=
  ∀ z, a'.filter (tied comp z) = a.filter (tied comp z)

theorem SameTies.trans {comp : α → α → Bool} {a b c : List α} (h : SameTies comp a b)
    (h' : SameTies comp b c) : SameTies comp a c := fun z => (h' z).trans (h z)

variable [Inhabited α]

theorem split_two {a : List α} {s : Nat} (h : s + 1 < a.length) :
    a = a.take s ++ g a s :: g a (s + 1) :: a.drop (s + 2) := by
  conv_lhs => rw [← List.take_append_drop s a, drop_g (by omega), drop_g h]

theorem swapped_two {a : List α} {s : Nat} (h : s + 1 < a.length) :
    swapped a s (s + 1) = a.take s ++ g a (s + 1) :: g a s :: a.drop (s + 2) := by
  have hl : (swapped a s (s + 1)).length = a.length :=
    (swapped_perm (by omega) h).length_eq
  have := split_two (a := swapped a s (s + 1)) (s := s) (by omega)
  rw [this]
  have seg : Seg s (s + 2) a (swapped a s (s + 1)) :=
    swapped_seg (by omega) (by omega) (by omega) (by omega) (by omega)
  rw [seg.pre, seg.post, g_swapped (by omega) h, g_swapped (by omega) h]
  simp

/-- Exchanging neighbours of which one is strictly below the other does not reorder ties. -/
theorem swap_ties {comp : α → α → Bool} (S : StrictWeak comp) {a : List α} {s : Nat}
    (h : s + 1 < a.length) (hc : comp (g a (s + 1)) (g a s) = true) :
    SameTies comp a (swapped a s (s + 1)) := by
  intro z
  rw [swapped_two h]
  conv_rhs => rw [split_two h]
  generalize g a (s + 1) = x at hc
  generalize g a s = y at hc
  simp only [List.filter_append, List.filter_cons]
  -- `z` cannot be tied with both
  have : ¬ (tied comp z x = true ∧ tied comp z y = true) := by
    rintro ⟨h1, h2⟩
    simp only [tied, Bool.and_eq_true, Bool.not_eq_true'] at h1 h2
    have := S.neg x z y h1.2 h2.1
    rw [hc] at this; cases this
  cases h1 : tied comp z x <;> cases h2 : tied comp z y <;> simp_all

theorem siftDown_ties {comp : α → α → Bool} (S : StrictWeak comp) {guard : Option Nat} {tmp : α} :
    ∀ (s : Nat) (a a' : List α) (s' : Nat), s + 1 < a.length → comp tmp (g a s) = true →
      siftDown comp guard tmp a (s + 1) = .ok (a', s') → SameTies comp (a.set (s + 1) tmp) a' := by
  intro s
  induction s with
  | zero =>
    intro a a' s' h hc he
    have h0 : 0 < a.length := by omega
    have step := swap_ties S (a := a.set (0 + 1) tmp) (s := 0) (by simpa using h)
      (by rw [g_set_self h, g_set_ne (by omega)]; exact hc)
    rw [← sift_swap h] at step
    unfold siftDown at he
    rw [rd_ok h0, bind_ok, wr_ok h, bind_ok] at he
    split at he
    · rw [wr_ok (by simpa using h0), bind_ok, pure_ok] at he
      cases he; exact step
    · cases he
  | succ s ih =>
    intro a a' s' h hc he
    have h0 : s + 1 < a.length := by omega
    have h1 : s < (a.set (s + 1 + 1) (g a (s + 1))).length := by simp; omega
    have step := swap_ties S (a := a.set (s + 1 + 1) tmp) (s := s + 1) (by simpa using h)
      (by rw [g_set_self h, g_set_ne (by omega)]; exact hc)
    rw [← sift_swap h] at step
    unfold siftDown at he
    rw [rd_ok h0, bind_ok, wr_ok h, bind_ok] at he
    split at he
    · rw [wr_ok (by simpa using h0), bind_ok, pure_ok] at he
      cases he; exact step
    · dsimp only at he
      rw [rd_ok h1, bind_ok] at he
      split at he
      · rename_i hcmp
        exact step.trans (ih _ _ _ (by simp; omega) hcmp he)
      · rw [wr_ok (by simpa using h0), bind_ok, pure_ok] at he
        cases he; exact step

theorem insertAt_ties {comp : α → α → Bool} (S : StrictWeak comp) {guard : Option Nat}
    {a a' : List α} {cur d : Nat} (h0 : 0 < cur) (h : cur < a.length)
    (he : insertAt comp guard a cur = .ok (a', d)) : SameTies comp a a' := by
  unfold insertAt at he
  rw [rd_ok h, bind_ok, rd_ok (by omega), bind_ok] at he
  split at he
  · rename_i hc
    obtain ⟨s, rfl⟩ : ∃ s, cur = s + 1 := ⟨cur - 1, by omega⟩
    cases hs : siftDown comp guard (g a (s + 1)) a (s + 1) with
    | error e => rw [hs] at he; cases he
    | ok r =>
      obtain ⟨b, s'⟩ := r
      rw [hs, bind_ok] at he
      dsimp only at he
      rw [pure_ok] at he
      cases he
      have := siftDown_ties S s a _ s' h hc hs
      rwa [set_g] at this
  · rw [pure_ok] at he; cases he; exact fun _ => rfl

theorem insertLoop_ties {comp : α → α → Bool} (S : StrictWeak comp) {b : Nat} :
    ∀ (n cur : Nat) (a a' : List α), b < cur → cur + n ≤ a.length →
      Sorted (fun x y => comp y x = false) b cur a →
      insertLoop comp (some b) n a cur = .ok a' → SameTies comp a a' := by
  intro n
  induction n with
  | zero => intro cur a a' _ _ _ h; cases h; exact fun _ => rfl
  | succ n ih =>
    intro cur a a' hb hc hso he
    obtain ⟨a1, d, e1, e2, e3⟩ := insertAt_spec S.fits (Or.inl rfl : some b = some b ∨ _) hb
      (by omega) (by simp) hso
    unfold insertLoop at he
    rw [e1, bind_ok] at he
    exact (insertAt_ties S (by omega) (by omega) e1).trans
      (ih (cur + 1) a1 a' (by omega) (by rw [e2.length]; omega) e3 he)

omit [Inhabited α] in
/-- C47 for short lists: under 24 elements `xs.sort()` is a stable sort. -/
theorem sort_stable_short_partial {lt ge : α → α → Bool} (S : StrictWeak lt)
    {hs : List α → List α} (H : HeapContract lt hs) (a : List α) (hn : a.length < 24) :
    ∃ a', listSort hs lt ge false a = .ok a' ∧ a'.Pairwise (fun x y => lt y x = false) ∧
      SameTies lt a a' := by
  obtain ⟨a', e1, e2, e3⟩ := list_sort_correct (ge := ge) S H a
  refine ⟨a', e1, e3, ?_⟩
  cases a with
  | nil => cases e1; exact fun _ => rfl
  | cons x r =>
    haveI : Inhabited α := ⟨x⟩
    simp only [listSort, Bool.false_eq_true, if_false, pdqsort] at e1
    rw [if_neg (by simp)] at e1
    unfold pdqLoop at e1
    rw [if_pos (by omega), if_pos rfl] at e1
    unfold insertionSort at e1
    rw [if_neg (by simp)] at e1
    exact insertLoop_ties S _ _ _ _ (by omega) (by simp; omega) (by intro i j; omega) e1

/-- C47 fails for longer lists: 24 records sorted by key, of which all but the first have key 0;
the last record comes out first. -/
theorem sort_stable_refuted :
    ∃ (a a' : List (Nat × Nat)),
      (∀ hs : List (Nat × Nat) → List (Nat × Nat),
        listSortKey hs Prod.fst (fun x y => decide (x < y)) (fun x y => decide (x ≥ y)) false a =
          .ok a') ∧
      a.filter (fun r => r.1 == 0) = (List.range 23).map (fun i => (0, i + 1)) ∧
      a'.filter (fun r => r.1 == 0) = (0, 23) :: (List.range 22).map (fun i => (0, i + 1)) := by
  refine ⟨(1, 0) :: (List.range 23).map (fun i => (0, i + 1)),
    (0, 23) :: (List.range 22).map (fun i => (0, i + 1)) ++ [(1, 0)], ?_, by decide, by decide⟩
  intro hs
  have hl : log2 ((1, 0) :: (List.range 23).map (fun i => (0, i + 1))).length = 4 := by
    decide +kernel
  unfold listSortKey listSort pdqsort
  rw [hl]
  rfl

/-- The reverse sort already reorders two equal elements. -/
theorem reverse_sort_stable_refuted (hs : List (Nat × Nat) → List (Nat × Nat)) :
    listSortKey hs Prod.fst (fun x y => decide (x < y)) (fun x y => decide (x ≥ y)) true
      [(5, 0), (5, 1)] = .ok [(5, 1), (5, 0)] := rfl

/-- A short list with ties: the records keep their order within each key. -/
example : listSortKey id Prod.fst (fun x y : Nat => decide (x < y)) (fun x y => decide (x ≥ y))
    false [(2, 0), (1, 1), (2, 2), (1, 3), (0, 4), (1, 5)] =
    .ok [(0, 4), (1, 1), (1, 3), (1, 5), (2, 0), (2, 2)] := rfl

end Verif.PdqSort
