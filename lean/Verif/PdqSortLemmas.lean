import Verif.PdqSort
import Mathlib.Data.List.Perm.Subperm
import Mathlib.Tactic.Ring

/-! Invariants for the pdqsort model: ranges, frames and the specification of each helper. -/
namespace Verif.PdqSort

variable {α : Type} [Inhabited α]

/-- The value at an index. -/
def g (a : List α) (i : Nat) : α := a.getD i default

theorem rd_ok {a : List α} {i : Nat} (h : i < a.length) : rd a i = .ok (g a i) := by
  simp [rd, g, List.getElem?_eq_getElem h]

omit [Inhabited α] in
theorem wr_ok {a : List α} {i : Nat} (h : i < a.length) (x : α) : wr a i x = .ok (a.set i x) := by
  simp [wr, h]

omit [Inhabited α] in
theorem bind_ok {β γ : Type} (x : β) (f : β → R γ) : (Except.ok x >>= f) = f x := rfl

omit [Inhabited α] in
theorem pure_ok {β : Type} (x : β) : (pure x : R β) = .ok x := rfl

theorem g_set {a : List α} {i : Nat} (h : i < a.length) (x : α) (j : Nat) :
    g (a.set i x) j = if i = j then x else g a j := by
  unfold g
  by_cases e : i = j
  · subst e; simp [h]
  · simp [List.getD_eq_getElem?_getD, List.getElem?_set, e]

theorem g_set_self {a : List α} {i : Nat} (h : i < a.length) (x : α) : g (a.set i x) i = x := by
  simp [g_set h]

theorem g_set_ne {a : List α} {i j : Nat} (h : i ≠ j) (x : α) : g (a.set i x) j = g a j := by
  unfold g; simp [List.getD_eq_getElem?_getD, List.getElem?_set, h]

theorem g_mem {a : List α} {i : Nat} (h : i < a.length) : g a i ∈ a := by
  have : g a i = a[i] := by simp [g, h]
  rw [this]; exact List.getElem_mem h

theorem set_g {a : List α} {i : Nat} : a.set i (g a i) = a := by
  apply List.ext_getElem (by simp)
  intro n h1 h2
  rw [List.getElem_set]
  split
  · rename_i e; subst e; simp [g, h2]
  · rfl

/-- The list with two slots exchanged. -/
def swapped (a : List α) (i j : Nat) : List α := (a.set i (g a j)).set j (g a i)

theorem iterSwap_ok {a : List α} {i j : Nat} (hi : i < a.length) (hj : j < a.length) :
    iterSwap a i j = .ok (swapped a i j) := by
  simp [iterSwap, rd_ok hi, rd_ok hj, wr_ok hi, bind_ok, wr_ok (a := a.set i (g a j)) (i := j)
    (by simpa using hj), swapped]

omit [Inhabited α] in
theorem set_perm' (a : List α) (i : Nat) (h : i < a.length) (x : α) :
    (a.set i x).Perm (x :: a.eraseIdx i) := List.set_perm_cons_eraseIdx h x

theorem swapped_perm {a : List α} {i j : Nat} (hi : i < a.length) (hj : j < a.length) :
    (swapped a i j).Perm a := by
  classical
  rw [List.perm_iff_count]
  intro z
  have key : ∀ (l : List α) (k : Nat) (hk : k < l.length) (x : α),
      (l.set k x).count z + (if g l k = z then 1 else 0) = l.count z + (if x = z then 1 else 0) := by
    intro l k hk x
    have h1 := (set_perm' l k hk x).count_eq z
    have h2 := (set_perm' l k hk (g l k)).count_eq z
    rw [set_g] at h2
    rw [List.count_cons] at h1 h2
    simp only [beq_iff_eq] at h1 h2
    omega
  have k1 := key a i hi (g a j)
  have k2 := key (a.set i (g a j)) j (by simpa using hj) (g a i)
  rw [g_set hi] at k2
  unfold swapped
  by_cases e : i = j
  · subst e; simp only [if_true] at k2; omega
  · simp only [e, if_false] at k2; omega

/-- `a'` is `a` with the elements of `[b, e)` permuted and nothing else touched. -/
structure Seg (b e : Nat) (a a' : List α) : Prop where
  perm : a'.Perm a
  pre : a'.take b = a.take b
  post : a'.drop e = a.drop e

omit [Inhabited α] in
theorem Seg.refl (b e : Nat) (a : List α) : Seg b e a a := ⟨.refl _, rfl, rfl⟩

omit [Inhabited α] in
theorem Seg.trans {b e : Nat} {a a' a'' : List α} (h : Seg b e a a') (h' : Seg b e a' a'') :
    Seg b e a a'' :=
  ⟨h'.perm.trans h.perm, h'.pre.trans h.pre, h'.post.trans h.post⟩

omit [Inhabited α] in
theorem Seg.length {b e : Nat} {a a' : List α} (h : Seg b e a a') : a'.length = a.length :=
  h.perm.length_eq

omit [Inhabited α] in
theorem Seg.mono {b e b' e' : Nat} {a a' : List α} (h : Seg b e a a') (hb : b' ≤ b) (he : e ≤ e') :
    Seg b' e' a a' := by
  refine ⟨h.perm, ?_, ?_⟩
  · have := congrArg (List.take b') h.pre
    simpa [List.take_take, Nat.min_eq_left hb] using this
  · have := congrArg (List.drop (e' - e)) h.post
    simpa [List.drop_drop, Nat.add_sub_cancel' he] using this

theorem Seg.left {b e i : Nat} {a a' : List α} (h : Seg b e a a') (hi : i < b) : g a' i = g a i := by
  have := congrArg (fun l => l[i]?) h.pre
  simp only [List.getElem?_take, hi, if_true] at this
  simp [g, List.getD_eq_getElem?_getD, this]

theorem Seg.right {b e i : Nat} {a a' : List α} (h : Seg b e a a') (hi : e ≤ i) :
    g a' i = g a i := by
  have := congrArg (fun l => l[i - e]?) h.post
  simp only [List.getElem?_drop, Nat.add_sub_cancel' hi] at this
  simp [g, List.getD_eq_getElem?_getD, this]

omit [Inhabited α] in
theorem Seg.slice {b e : Nat} {a a' : List α} (h : Seg b e a a') (hbe : b ≤ e) :
    ((a'.take e).drop b).Perm ((a.take e).drop b) := by
  have split : ∀ l : List α, l = l.take b ++ ((l.take e).drop b ++ l.drop e) := by
    intro l
    have h1 : l.take b = (l.take e).take b := by simp [List.take_take, Nat.min_eq_left hbe]
    rw [h1, ← List.append_assoc, List.take_append_drop, List.take_append_drop]
  have hp := h.perm
  rw [split a', split a, h.pre, h.post] at hp
  exact (List.perm_append_right_iff _).1 ((List.perm_append_left_iff _).1 hp)

theorem mem_slice {b e : Nat} {a : List α} (he : e ≤ a.length) {x : α} :
    x ∈ (a.take e).drop b ↔ ∃ i, b ≤ i ∧ i < e ∧ g a i = x := by
  constructor
  · intro h
    obtain ⟨i, hi, rfl⟩ := List.mem_iff_getElem.1 h
    simp only [List.length_drop, List.length_take] at hi
    refine ⟨b + i, by omega, by omega, ?_⟩
    have : b + i < a.length := by omega
    simp [g, this]
  · rintro ⟨i, h1, h2, rfl⟩
    have : i < a.length := by omega
    apply List.mem_iff_getElem.2
    refine ⟨i - b, by simp; omega, ?_⟩
    simp [g, this, Nat.add_sub_cancel' h1]

/-- A property of all elements of the range survives a permutation of the range. -/
theorem Seg.all {b e : Nat} {a a' : List α} (h : Seg b e a a') (hbe : b ≤ e) (he : e ≤ a.length)
    {P : α → Prop} (hp : ∀ i, b ≤ i → i < e → P (g a i)) : ∀ i, b ≤ i → i < e → P (g a' i) := by
  intro i h1 h2
  have hm : g a' i ∈ (a'.take e).drop b :=
    (mem_slice (by rw [h.length]; exact he)).2 ⟨i, h1, h2, rfl⟩
  obtain ⟨j, h3, h4, h5⟩ := (mem_slice he).1 ((h.slice hbe).mem_iff.1 hm)
  rw [← h5]; exact hp j h3 h4

theorem swapped_seg {b e : Nat} {a : List α} {i j : Nat} (hi : b ≤ i) (hi' : i < e) (hj : b ≤ j)
    (hj' : j < e) (he : e ≤ a.length) : Seg b e a (swapped a i j) := by
  refine ⟨swapped_perm (by omega) (by omega), ?_, ?_⟩
  · unfold swapped
    rw [List.take_set_of_le hj, List.take_set_of_le hi]
  · unfold swapped
    rw [List.drop_set_of_lt hj', List.drop_set_of_lt hi']

theorem g_swapped {a : List α} {i j : Nat} (hi : i < a.length) (hj : j < a.length) (k : Nat) :
    g (swapped a i j) k = if k = j then g a i else if k = i then g a j else g a k := by
  unfold swapped
  rw [g_set (by simpa using hj), g_set hi]
  simp only [eq_comm (a := j), eq_comm (a := i)]

/-- `[b, e)` is in order. -/
def Sorted (le : α → α → Prop) (b e : Nat) (a : List α) : Prop :=
  ∀ i j, b ≤ i → i < j → j < e → le (g a i) (g a j)

/-- What insertion sort needs of a comparator with respect to the order it sorts by. -/
structure Fits (comp : α → α → Bool) (le : α → α → Prop) : Prop where
  trans : ∀ x y z, le x y → le y z → le x z
  yes : ∀ x y, comp x y = true → le x y
  no : ∀ x y, comp x y = false → le y x

/-! ### Insertion sorts -/

theorem sift_swap {a : List α} {s : Nat} (h : s + 1 < a.length) (tmp : α) :
    (a.set (s + 1) (g a s)).set s tmp = swapped (a.set (s + 1) tmp) s (s + 1) := by
  unfold swapped
  rw [g_set_self (by omega), g_set_ne (by omega)]
  rw [List.set_comm _ _ (by omega : s ≠ s + 1), List.set_set]

/-- One shift keeps the order of all pairs except those below the hole. -/
theorem sift_order {comp : α → α → Bool} {le : α → α → Prop} (F : Fits comp le) {b cur s : Nat}
    {a : List α} {tmp : α} (hb : b ≤ s) (hs : s + 1 ≤ cur) (hc : cur < a.length)
    (hso : ∀ i j, b ≤ i → i < j → j ≤ cur → j ≠ s + 1 →
        le (g (a.set (s + 1) tmp) i) (g (a.set (s + 1) tmp) j))
    (hle : le tmp (g a s)) :
    ∀ i j, b ≤ i → i < j → j ≤ cur → j ≠ s →
      le (g ((a.set (s + 1) (g a s)).set s tmp) i) (g ((a.set (s + 1) (g a s)).set s tmp) j) := by
  intro i j h1 h2 h3 h4
  have l1 : s + 1 < a.length := by omega
  have l2 : s < (a.set (s + 1) (g a s)).length := by simp; omega
  rw [g_set l2, g_set l2, g_set l1, g_set l1]
  have e := hso
  simp only [g_set l1] at e
  by_cases j1 : s + 1 = j
  · subst j1
    by_cases i1 : s = i
    · subst i1; simpa using hle
    · have := e i s h1 (by omega) (by omega) (by omega)
      simpa [i1, show ¬ (s + 1 = i) by omega] using this
  · by_cases i1 : s = i
    · subst i1
      have := e (s + 1) j (by omega) (by omega) h3 (by omega)
      simpa [j1, show ¬ (s = j) by omega] using this
    · by_cases i2 : s + 1 = i
      · subst i2
        have := e s j (by omega) (by omega) h3 (by omega)
        simpa [j1, show ¬ (s = j) by omega] using this
      · have := e i j h1 h2 h3 (by omega)
        simpa [j1, i1, i2, show ¬ (s = j) by omega] using this

theorem siftDown_spec {comp : α → α → Bool} {le : α → α → Prop} (F : Fits comp le)
    {guard : Option Nat} {b cur : Nat} (tmp : α)
    (hg : guard = some b ∨ (guard = none ∧ 0 < b)) :
    ∀ (s : Nat) (a : List α), b ≤ s → s + 1 ≤ cur → cur < a.length →
      (guard = none → comp tmp (g a (b - 1)) = false) →
      (∀ i j, b ≤ i → i < j → j ≤ cur → j ≠ s + 1 →
        le (g (a.set (s + 1) tmp) i) (g (a.set (s + 1) tmp) j)) →
      le tmp (g a s) →
      ∃ a' s', siftDown comp guard tmp a (s + 1) = .ok (a', s') ∧ b ≤ s' ∧ s' ≤ s ∧
        Seg b (cur + 1) (a.set (s + 1) tmp) a' ∧ Sorted le b (cur + 1) a' := by
  intro s
  induction s with
  | zero =>
    intro a hb hs hc hst hso hle
    have hb0 : b = 0 := by omega
    subst hb0
    have hg' : guard = some 0 := by
      rcases hg with h | ⟨_, h⟩
      · exact h
      · omega
    subst hg'
    refine ⟨(a.set 1 (g a 0)).set 0 tmp, 0, ?_, by omega, by omega, ?_, ?_⟩
    · have h0 : 0 < a.length := by omega
      have h1 : 0 + 1 < a.length := by omega
      unfold siftDown
      rw [rd_ok h0, bind_ok, wr_ok h1, bind_ok, if_pos rfl,
        wr_ok (by simpa using h0), bind_ok, pure_ok]
    · rw [sift_swap (s := 0) (by omega)]
      exact swapped_seg (by omega) (by omega) (by omega) (by omega) (by simp; omega)
    · intro i j h1 h2 h3
      exact sift_order F hb hs hc hso hle i j h1 h2 (by omega) (by omega)
  | succ s ih =>
    intro a hb hs hc hst hso hle
    have h0 : s + 1 < a.length := by omega
    have h1 : s + 1 + 1 < a.length := by omega
    have hseg : Seg b (cur + 1) (a.set (s + 1 + 1) tmp)
        ((a.set (s + 1 + 1) (g a (s + 1))).set (s + 1) tmp) := by
      rw [sift_swap h1]
      exact swapped_seg (by omega) (by omega) (by omega) (by omega) (by simp; omega)
    have hord := sift_order F hb hs hc hso hle
    unfold siftDown
    rw [rd_ok h0, bind_ok, wr_ok h1, bind_ok]
    by_cases hgd : guard = some (s + 1)
    · rw [if_pos hgd, wr_ok (by simpa using h0), bind_ok, pure_ok]
      have hb' : b = s + 1 := by
        rcases hg with h | ⟨h, _⟩
        · rw [h] at hgd; simpa using hgd
        · rw [h] at hgd; simp at hgd
      refine ⟨_, _, rfl, hb, by omega, hseg, ?_⟩
      intro i j h2 h3 h4
      exact hord i j h2 h3 (by omega) (by omega)
    · rw [if_neg hgd]
      dsimp only
      have hl : s < (a.set (s + 1 + 1) (g a (s + 1))).length := by simp; omega
      rw [rd_ok hl, bind_ok, g_set_ne (by omega)]
      cases hcmp : comp tmp (g a s) with
      | true =>
        have hbs : b ≤ s := by
          rcases hg with h | ⟨h, hpos⟩
          · rw [h] at hgd
            have : b ≠ s + 1 := by simpa using hgd
            omega
          · by_contra hn
            have hb1 : b - 1 = s := by omega
            have := hst h
            rw [hb1, hcmp] at this
            cases this
        obtain ⟨a', s', e1, e2, e3, e4, e5⟩ := ih (a.set (s + 1 + 1) (g a (s + 1))) hbs (by omega)
          (by simpa using hc) (by intro h; rw [g_set_ne (by omega)]; exact hst h)
          (fun i j p q r t => hord i j p q r t) (by rw [g_set_ne (by omega)]; exact F.yes _ _ hcmp)
        exact ⟨a', s', by simpa using e1, e2, by omega, hseg.trans e4, e5⟩
      | false =>
        rw [if_neg (by simp), wr_ok (by simpa using h0), bind_ok, pure_ok]
        refine ⟨_, _, rfl, hb, by omega, hseg, ?_⟩
        intro i j h2 h3 h4
        by_cases hj : j = s + 1
        · subst hj
          have l2 : s + 1 < (a.set (s + 1 + 1) (g a (s + 1))).length := by simp; omega
          rw [g_set_self l2, g_set_ne (by omega), g_set_ne (by omega)]
          have hn := F.no _ _ hcmp
          by_cases hi : i = s
          · subst hi; exact hn
          · have := hord i s h2 (by omega) (by omega) (by omega)
            rw [g_set_ne (by omega), g_set_ne (by omega), g_set_ne (by omega),
              g_set_ne (by omega)] at this
            exact F.trans _ _ _ this hn
        · exact hord i j h2 h3 (by omega) hj

theorem insertAt_spec {comp : α → α → Bool} {le : α → α → Prop} (F : Fits comp le)
    {guard : Option Nat} {b cur : Nat} {a : List α}
    (hg : guard = some b ∨ (guard = none ∧ 0 < b)) (hb : b < cur) (hc : cur < a.length)
    (hst : guard = none → comp (g a cur) (g a (b - 1)) = false)
    (hso : Sorted le b cur a) :
    ∃ a' d, insertAt comp guard a cur = .ok (a', d) ∧ Seg b (cur + 1) a a' ∧
      Sorted le b (cur + 1) a' := by
  unfold insertAt
  rw [rd_ok hc, bind_ok, rd_ok (by omega), bind_ok]
  cases hcmp : comp (g a cur) (g a (cur - 1)) with
  | true =>
    obtain ⟨s, rfl⟩ : ∃ s, cur = s + 1 := ⟨cur - 1, by omega⟩
    obtain ⟨a', s', e1, e2, e3, e4, e5⟩ := siftDown_spec F (g a (s + 1)) hg s a (by omega)
      (Nat.le_refl _) hc hst (by
        intro i j h1 h2 h3 h4
        rw [set_g]
        exact hso i j h1 h2 (by omega)) (F.yes _ _ (by simpa using hcmp))
    rw [set_g] at e4
    rw [if_pos rfl, e1, bind_ok]
    exact ⟨a', _, rfl, e4, e5⟩
  | false =>
    rw [if_neg (by simp)]
    refine ⟨a, 0, rfl, Seg.refl _ _ _, ?_⟩
    intro i j h1 h2 h3
    by_cases hj : j = cur
    · subst hj
      have hn := F.no _ _ hcmp
      by_cases hi : i = j - 1
      · subst hi; exact hn
      · exact F.trans _ _ _ (hso i (j - 1) h1 (by omega) (by omega)) hn
    · exact hso i j h1 h2 (by omega)

theorem insertLoop_spec {comp : α → α → Bool} {le : α → α → Prop} (F : Fits comp le)
    {guard : Option Nat} {b : Nat} (hg : guard = some b ∨ (guard = none ∧ 0 < b)) :
    ∀ (n cur : Nat) (a : List α), b < cur → cur + n ≤ a.length →
      (guard = none → ∀ i, b ≤ i → i < cur + n → comp (g a i) (g a (b - 1)) = false) →
      Sorted le b cur a →
      ∃ a', insertLoop comp guard n a cur = .ok a' ∧ Seg b (cur + n) a a' ∧
        Sorted le b (cur + n) a' := by
  intro n
  induction n with
  | zero => intro cur a _ _ _ hso; exact ⟨a, rfl, Seg.refl _ _ _, hso⟩
  | succ n ih =>
    intro cur a hb hc hst hso
    obtain ⟨a1, d, e1, e2, e3⟩ := insertAt_spec F hg hb (by omega)
      (fun h => hst h cur (by omega) (by omega)) hso
    have s1 : Seg b (cur + 1 + n) a a1 := e2.mono (Nat.le_refl _) (by omega)
    obtain ⟨a2, f1, f2, f3⟩ := ih (cur + 1) a1 (by omega) (by rw [e2.length]; omega) (by
      intro h
      have hb0 : 0 < b := by
        rcases hg with hg | hg
        · rw [hg] at h; cases h
        · exact hg.2
      rw [e2.left (by omega : b - 1 < b)]
      exact s1.all (P := fun x => comp x (g a (b - 1)) = false) (by omega) (by omega)
        (fun i p q => hst h i p (by omega))) e3
    refine ⟨a2, ?_, ?_, ?_⟩
    · unfold insertLoop; rw [e1, bind_ok]; exact f1
    · have : cur + (n + 1) = cur + 1 + n := by omega
      rw [this]; exact s1.trans f2
    · have : cur + (n + 1) = cur + 1 + n := by omega
      rw [this]; exact f3

theorem insertionSort_spec {comp : α → α → Bool} {le : α → α → Prop} (F : Fits comp le)
    {b e : Nat} {a : List α} (hbe : b ≤ e) (he : e ≤ a.length) :
    ∃ a', insertionSort comp a b e = .ok a' ∧ Seg b e a a' ∧ Sorted le b e a' := by
  unfold insertionSort
  by_cases h : b = e
  · rw [if_pos h]; exact ⟨a, rfl, Seg.refl _ _ _, by intro i j; omega⟩
  · rw [if_neg h]
    have := insertLoop_spec F (Or.inl rfl : some b = some b ∨ _) (e - (b + 1)) (b + 1) a (by omega)
      (by omega) (by simp) (by intro i j; omega)
    rwa [show b + 1 + (e - (b + 1)) = e by omega] at this

theorem unguarded_spec {comp : α → α → Bool} {le : α → α → Prop} (F : Fits comp le)
    {b e : Nat} {a : List α} (hbe : b ≤ e) (he : e ≤ a.length) (hb : 0 < b)
    (hst : ∀ i, b ≤ i → i < e → comp (g a i) (g a (b - 1)) = false) :
    ∃ a', unguardedInsertionSort comp a b e = .ok a' ∧ Seg b e a a' ∧ Sorted le b e a' := by
  unfold unguardedInsertionSort
  by_cases h : b = e
  · rw [if_pos h]; exact ⟨a, rfl, Seg.refl _ _ _, by intro i j; omega⟩
  · rw [if_neg h]
    have := insertLoop_spec F (Or.inr ⟨rfl, hb⟩ : none = some b ∨ _) (e - (b + 1)) (b + 1) a
      (by omega) (by omega) (fun _ i p q => hst i p (by omega)) (by intro i j; omega)
    rwa [show b + 1 + (e - (b + 1)) = e by omega] at this

theorem partialLoop_spec {comp : α → α → Bool} {le : α → α → Prop} (F : Fits comp le) {b : Nat} :
    ∀ (n cur : Nat) (a : List α) (limit : Nat), b < cur → cur + n ≤ a.length → Sorted le b cur a →
      ∃ a' ok, partialLoop comp b n a cur limit = .ok (a', ok) ∧ Seg b (cur + n) a a' ∧
        (ok = true → Sorted le b (cur + n) a') := by
  intro n
  induction n with
  | zero => intro cur a _ _ _ hso; exact ⟨a, true, rfl, Seg.refl _ _ _, fun _ => hso⟩
  | succ n ih =>
    intro cur a limit hb hc hso
    obtain ⟨a1, d, e1, e2, e3⟩ := insertAt_spec (guard := some b) F (Or.inl rfl) hb (by omega)
      (by simp) hso
    have s1 : Seg b (cur + (n + 1)) a a1 := e2.mono (Nat.le_refl _) (by omega)
    unfold partialLoop
    rw [e1, bind_ok]
    dsimp only
    by_cases hl : limit + d > 8
    · rw [if_pos hl]; exact ⟨a1, false, rfl, s1, by simp⟩
    · rw [if_neg hl]
      obtain ⟨a2, ok, f1, f2, f3⟩ := ih (cur + 1) a1 (limit + d) (by omega)
        (by rw [e2.length]; omega) e3
      rw [show cur + 1 + n = cur + (n + 1) by omega] at f2 f3
      exact ⟨a2, ok, f1, s1.trans f2, f3⟩

theorem partialInsertionSort_spec {comp : α → α → Bool} {le : α → α → Prop} (F : Fits comp le)
    {b e : Nat} {a : List α} (hbe : b ≤ e) (he : e ≤ a.length) :
    ∃ a' ok, partialInsertionSort comp a b e = .ok (a', ok) ∧ Seg b e a a' ∧
      (ok = true → Sorted le b e a') := by
  unfold partialInsertionSort
  by_cases h : b = e
  · rw [if_pos h]; exact ⟨a, true, rfl, Seg.refl _ _ _, by intro _ i j; omega⟩
  · rw [if_neg h]
    have := partialLoop_spec F (b := b) (e - (b + 1)) (b + 1) a 0 (by omega) (by omega)
      (by intro i j; omega)
    rwa [show b + 1 + (e - (b + 1)) = e by omega] at this

/-! ### Pivot choice -/

theorem sort2_spec {comp : α → α → Bool} {le : α → α → Prop} (F : Fits comp le) {b e : Nat}
    {a : List α} {i j : Nat} (hi : b ≤ i) (hi' : i < e) (hj : b ≤ j) (hj' : j < e)
    (he : e ≤ a.length) (hne : i ≠ j) :
    ∃ a', sort2 comp a i j = .ok a' ∧ Seg b e a a' ∧ le (g a' i) (g a' j) ∧
      (∀ k, k ≠ i → k ≠ j → g a' k = g a k) ∧
      ((g a' i = g a i ∧ g a' j = g a j) ∨ (g a' i = g a j ∧ g a' j = g a i)) := by
  unfold sort2
  rw [rd_ok (by omega), bind_ok, rd_ok (by omega), bind_ok]
  cases hcmp : comp (g a j) (g a i) with
  | true =>
    rw [if_pos rfl, iterSwap_ok (by omega) (by omega)]
    refine ⟨_, rfl, swapped_seg hi hi' hj hj' he, ?_, ?_, ?_⟩
    · rw [g_swapped (by omega) (by omega), g_swapped (by omega) (by omega)]
      simpa [hne] using F.yes _ _ hcmp
    · intro k h1 h2
      rw [g_swapped (by omega) (by omega)]; simp [h1, h2]
    · right
      rw [g_swapped (by omega) (by omega), g_swapped (by omega) (by omega)]
      simp [hne]
  | false =>
    rw [if_neg (by simp)]
    exact ⟨a, rfl, Seg.refl _ _ _, F.no _ _ hcmp, fun _ _ _ => rfl, Or.inl ⟨rfl, rfl⟩⟩

theorem sort3_spec {comp : α → α → Bool} {le : α → α → Prop} (F : Fits comp le) {b e : Nat}
    {a : List α} {i j k : Nat} (hi : b ≤ i) (hi' : i < e) (hj : b ≤ j) (hj' : j < e)
    (hk : b ≤ k) (hk' : k < e) (he : e ≤ a.length) (hij : i ≠ j) (hjk : j ≠ k) (hik : i ≠ k) :
    ∃ a', sort3 comp a i j k = .ok a' ∧ Seg b e a a' ∧ le (g a' i) (g a' j) ∧
      le (g a' j) (g a' k) := by
  obtain ⟨a1, e1, s1, o1, f1, c1⟩ := sort2_spec F hi hi' hj hj' he hij
  obtain ⟨a2, e2, s2, o2, f2, c2⟩ := sort2_spec F hj hj' hk hk' (a := a1) (by rw [s1.length]; omega)
    hjk
  obtain ⟨a3, e3, s3, o3, f3, c3⟩ := sort2_spec F hi hi' hj hj' (a := a2)
    (by rw [s2.length, s1.length]; omega) hij
  refine ⟨a3, ?_, (s1.trans s2).trans s3, o3, ?_⟩
  · unfold sort3; rw [e1, bind_ok, e2, bind_ok, e3]
  · rw [f3 k (by omega) (by omega)]
    rcases c3 with ⟨_, h⟩ | ⟨_, h⟩
    · rw [h]; exact o2
    · rw [h, f2 i hij hik]
      -- the old first element is below the old second, which went to one of the last two slots
      rcases c2 with ⟨h1, h2⟩ | ⟨h1, h2⟩
      · rw [h2]; rw [h1, h2] at o2; exact F.trans _ _ _ o1 o2
      · rw [h2]; exact o1

/-! ### Scans -/

theorem drop_g {a : List α} {i : Nat} (h : i < a.length) : a.drop i = g a i :: a.drop (i + 1) := by
  rw [List.drop_eq_getElem_cons h]; simp [g, h]

theorem scanUp_spec {p : α → Bool} {a : List α} {k : Nat} (hk : k < a.length)
    (hp : p (g a k) = false) :
    ∀ (d i : Nat), k - i = d → i ≤ k →
      ∃ m, scanUp p (a.drop i) i = .ok m ∧ i ≤ m ∧ m ≤ k ∧ p (g a m) = false ∧
        ∀ j, i ≤ j → j < m → p (g a j) = true := by
  intro d
  induction d with
  | zero =>
    intro i h1 h2
    have : i = k := by omega
    subst this
    refine ⟨i, ?_, by omega, by omega, hp, by omega⟩
    rw [drop_g hk]; simp [scanUp, hp]
  | succ d ih =>
    intro i h1 h2
    rw [drop_g (by omega)]
    cases hq : p (g a i) with
    | false => exact ⟨i, by simp [scanUp, hq], by omega, h2, hq, by omega⟩
    | true =>
      obtain ⟨m, e1, e2, e3, e4, e5⟩ := ih (i + 1) (by omega) (by omega)
      refine ⟨m, by simp [scanUp, hq, e1], by omega, e3, e4, ?_⟩
      intro j h3 h4
      by_cases hj : j = i
      · rw [hj]; exact hq
      · exact e5 j (by omega) h4

theorem scanDown_spec {p : α → Bool} {a : List α} {hole k : Nat} (hk : hole < k)
    (hp : p (g a k) = false) :
    ∀ n, k < n → n ≤ a.length →
      ∃ m, scanDown p hole a n = .ok m ∧ k ≤ m ∧ m < n ∧ p (g a m) = false ∧
        ∀ j, m < j → j < n → p (g a j) = true := by
  intro n
  induction n with
  | zero => intro h; omega
  | succ n ih =>
    intro h1 h2
    unfold scanDown
    rw [if_neg (by omega), rd_ok (by omega), bind_ok]
    cases hq : p (g a n) with
    | false => exact ⟨n, by simp, by omega, by omega, hq, by omega⟩
    | true =>
      have : k ≠ n := by intro h; subst h; rw [hp] at hq; cases hq
      obtain ⟨m, e1, e2, e3, e4, e5⟩ := ih (by omega) (by omega)
      refine ⟨m, by simp [e1], e2, by omega, e4, ?_⟩
      intro j h3 h4
      by_cases hj : j = n
      · rw [hj]; exact hq
      · exact e5 j h3 (by omega)

theorem scanDownG_spec {p : α → Bool} {a : List α} {hole first : Nat} (hf : hole < first) :
    ∀ n, first ≤ n → n ≤ a.length →
      ∃ m, scanDownG p hole first a n = .ok m ∧ first ≤ m ∧ m ≤ n ∧
        (first < m → p (g a m) = false ∧ m < n) ∧ ∀ j, m < j → j < n → p (g a j) = true := by
  intro n
  induction n with
  | zero => intro h; omega
  | succ n ih =>
    intro h1 h2
    unfold scanDownG
    by_cases hlt : first < n + 1
    · rw [if_pos hlt, if_neg (by omega), rd_ok (by omega), bind_ok]
      cases hq : p (g a n) with
      | false => exact ⟨n, by simp, by omega, by omega, fun _ => ⟨hq, by omega⟩, by omega⟩
      | true =>
        obtain ⟨m, e1, e2, e3, e4, e5⟩ := ih (by omega) (by omega)
        refine ⟨m, by simp [e1], e2, by omega, fun h => ⟨(e4 h).1, by omega⟩, ?_⟩
        intro j h3 h4
        by_cases hj : j = n
        · rw [hj]; exact hq
        · exact e5 j h3 (by omega)
    · rw [if_neg hlt]
      exact ⟨n + 1, rfl, by omega, by omega, by omega, by omega⟩

theorem scanUpG_spec {p : α → Bool} {a : List α} {last : Nat} (hl : last < a.length) :
    ∀ (d first : Nat), last - first = d → first ≤ last →
      ∃ m, scanUpG p last (a.drop (first + 1)) first = .ok m ∧ first ≤ m ∧ m ≤ last ∧
        (m < last → p (g a m) = false ∧ first < m) ∧
        ∀ j, first < j → j < m → p (g a j) = true := by
  intro d
  induction d with
  | zero =>
    intro first h1 h2
    refine ⟨first, ?_, by omega, by omega, by omega, by omega⟩
    cases h : a.drop (first + 1) <;> simp [scanUpG, show ¬ first < last by omega]
  | succ d ih =>
    intro first h1 h2
    rw [drop_g (by omega)]
    unfold scanUpG
    rw [if_pos (by omega)]
    cases hq : p (g a (first + 1)) with
    | false =>
      exact ⟨first + 1, by simp, by omega, by omega, fun _ => ⟨hq, by omega⟩, by omega⟩
    | true =>
      obtain ⟨m, e1, e2, e3, e4, e5⟩ := ih (first + 1) (by omega) (by omega)
      refine ⟨m, by simp [e1], by omega, e3, fun h => ⟨(e4 h).1, by omega⟩, ?_⟩
      intro j h3 h4
      by_cases hj : j = first + 1
      · rw [hj]; exact hq
      · exact e5 j (by omega) h4

/-! ### Partitions -/

theorem holeSwap_ok {a : List α} {b i j : Nat} (hi : b < i) (hj : b < j) (hi' : i < a.length)
    (hj' : j < a.length) : holeSwap b a i j = .ok (swapped a i j) := by
  unfold holeSwap
  rw [if_neg (by omega), iterSwap_ok hi' hj']

theorem placePivot_ok {a : List α} {b pp : Nat} (hb : b < a.length) (hp : pp < a.length) :
    placePivot a b pp (g a b) = .ok (swapped a b pp) := by
  unfold placePivot
  rw [rd_ok hp, bind_ok, wr_ok hb, bind_ok, wr_ok (by simpa using hp)]
  rfl

theorem rightLoop_spec {comp : α → α → Bool} {pivot : α} {b e : Nat} :
    ∀ (n : Nat) (a : List α) (first last : Nat), last < n → b < first → first < e → last ≤ e →
      e ≤ a.length → first ≤ last + 1 →
      (∀ i, b < i → i < first → comp (g a i) pivot = true) →
      comp (g a first) pivot = false →
      (∀ i, last < i → i < e → comp (g a i) pivot = false) →
      (first < last → comp (g a last) pivot = true ∧ last < e) →
      ∃ a' f, rightLoop comp pivot b n a first last = .ok (a', f) ∧ Seg (b + 1) e a a' ∧
        first ≤ f ∧ f < e ∧
        (∀ i, b < i → i < f → comp (g a' i) pivot = true) ∧
        (∀ i, f ≤ i → i < e → comp (g a' i) pivot = false) := by
  intro n
  induction n with
  | zero => intro a f l h; omega
  | succ n ih =>
    intro a first last hn hb hf hl he hfl lo at1 hi atl
    unfold rightLoop
    by_cases hlt : first < last
    · rw [if_pos hlt]
      obtain ⟨hcl, hle⟩ := atl hlt
      rw [holeSwap_ok hb (by omega) (by omega) (by omega), bind_ok]
      have hg := g_swapped (a := a) (i := first) (j := last) (by omega) (by omega)
      have seg : Seg (b + 1) e a (swapped a first last) :=
        swapped_seg (by omega) hf (by omega) hle he
      have hlen := seg.length
      generalize swapped a first last = a1 at hg seg hlen ⊢
      have g1 : g a1 last = g a first := by rw [hg]; simp
      have g2 : g a1 first = g a last := by rw [hg]; simp [show first ≠ last by omega]
      have g3 : ∀ k, k ≠ first → k ≠ last → g a1 k = g a k := by
        intro k h1 h2; rw [hg]; simp [h1, h2]
      obtain ⟨f', u1, u2, u3, u4, u5⟩ := scanUp_spec (p := fun x => comp x pivot) (a := a1)
        (k := last) (by omega) (by simpa [g1] using at1) (last - (first + 1)) (first + 1) rfl
        (by omega)
      rw [u1, bind_ok]
      obtain ⟨l', d1, d2, d3, d4, d5⟩ := scanDown_spec (p := fun x => !comp x pivot) (a := a1)
        (hole := b) (k := first) hb (by simpa [g2] using hcl) last hlt (by omega)
      rw [d1, bind_ok]
      obtain ⟨a', f, r1, r2, r3, r4, r5, r6⟩ := ih a1 f' l' (by omega) (by omega) (by omega)
        (by omega) (by omega) (by
          -- everything from `first` up to `f'` is smaller, everything after `l'` is not
          by_contra hc
          have := u5 (l' + 1) (by omega) (by omega)
          by_cases h : l' + 1 = last
          · rw [h, g1, at1] at this; cases this
          · have h' := d5 (l' + 1) (by omega) (by omega)
            simp only [Bool.not_eq_true'] at h'
            rw [h'] at this; cases this) (by
          intro i h1 h2
          by_cases hi1 : i < first
          · rw [g3 i (by omega) (by omega)]; exact lo i h1 hi1
          · by_cases hi2 : i = first
            · rw [hi2, g2]; exact hcl
            · exact u5 i (by omega) h2) u4 (by
          intro i h1 h2
          by_cases hi1 : i < last
          · simpa using d5 i h1 hi1
          · by_cases hi2 : i = last
            · rw [hi2, g1]; exact at1
            · rw [g3 i (by omega) (by omega)]; exact hi i (by omega) h2) (by
          intro _; exact ⟨by simpa using d4, by omega⟩)
      exact ⟨a', f, r1, seg.trans r2, by omega, r4, r5, r6⟩
    · rw [if_neg hlt]
      refine ⟨a, first, rfl, Seg.refl _ _ _, Nat.le_refl _, hf, lo, ?_⟩
      intro i h1 h2
      by_cases h : i = first
      · rw [h]; exact at1
      · exact hi i (by omega) h2

/-- What the loop needs of a partition function. -/
def PartOK (comp : α → α → Bool) (part : List α → Nat → Nat → R (List α × Nat × Bool)) : Prop :=
  ∀ (a : List α) (b e : Nat), b + 24 ≤ e → e ≤ a.length →
    (∃ k, b < k ∧ k < e ∧ comp (g a k) (g a b) = false) →
    ∃ a' pp already, part a b e = .ok (a', pp, already) ∧ Seg b e a a' ∧ b ≤ pp ∧ pp < e ∧
      g a' pp = g a b ∧
      (∀ i, b ≤ i → i < pp → comp (g a' i) (g a b) = true) ∧
      (∀ i, pp < i → i < e → comp (g a' i) (g a b) = false)

theorem partitionRight_spec {comp : α → α → Bool} {a : List α} {b e : Nat} (he : e ≤ a.length)
    (hk : ∃ k, b < k ∧ k < e ∧ comp (g a k) (g a b) = false) :
    ∃ a' pp already, partitionRight comp a b e = .ok (a', pp, already) ∧ Seg b e a a' ∧ b ≤ pp ∧
      pp < e ∧ g a' pp = g a b ∧
      (∀ i, b ≤ i → i < pp → comp (g a' i) (g a b) = true) ∧
      (∀ i, pp < i → i < e → comp (g a' i) (g a b) = false) := by
  obtain ⟨k, k1, k2, k3⟩ := hk
  unfold partitionRight
  rw [rd_ok (by omega), bind_ok]
  obtain ⟨f, u1, u2, u3, u4, u5⟩ := scanUp_spec (p := fun x => comp x (g a b)) (a := a) (k := k)
    (by omega) k3 (k - (b + 1)) (b + 1) rfl (by omega)
  rw [u1, bind_ok]
  have hlast : ∃ l, firstDown comp (g a b) a b e f = .ok l ∧ l ≤ e ∧ f ≤ l + 1 ∧
      (f < l → comp (g a l) (g a b) = true ∧ l < e) ∧
      (∀ i, l < i → i < e → comp (g a i) (g a b) = false) := by
    unfold firstDown
    by_cases hfb : f - 1 = b
    · rw [if_pos hfb]
      obtain ⟨m, e1, e2, e3, e4, e5⟩ := scanDownG_spec (p := fun x => !comp x (g a b)) (a := a)
        (hole := b) (first := f) (by omega) e (by omega) he
      exact ⟨m, e1, e3, by omega, fun h => ⟨by simpa using (e4 h).1, (e4 h).2⟩,
        fun i p q => by simpa using e5 i p q⟩
    · rw [if_neg hfb]
      obtain ⟨m, e1, e2, e3, e4, e5⟩ := scanDown_spec (p := fun x => !comp x (g a b)) (a := a)
        (hole := b) (k := f - 1) (by omega) (by simpa using u5 (f - 1) (by omega) (by omega)) e
        (by omega) he
      exact ⟨m, e1, by omega, by omega, fun h => ⟨by simpa using e4, e3⟩,
        fun i p q => by simpa using e5 i p q⟩
  obtain ⟨l, h1, h2, h3, h4, h5⟩ := hlast
  rw [h1, bind_ok]
  obtain ⟨a', f', r1, r2, r3, r4, r5, r6⟩ := rightLoop_spec (comp := comp) (pivot := g a b) (b := b)
    (e := e) (l + 1) a f l (by omega) (by omega) (by omega) h2 he h3
    (fun i p q => u5 i (by omega) q) u4 h5 h4
  rw [r1, bind_ok]
  dsimp only
  have hgb : g a b = g a' b := (r2.left (by omega)).symm
  have hlen := r2.length
  rw [hgb] at r5 r6 ⊢
  rw [placePivot_ok (by omega) (by omega), bind_ok, pure_ok]
  have hg := g_swapped (a := a') (i := b) (j := f' - 1) (by omega) (by omega)
  have seg : Seg b e a' (swapped a' b (f' - 1)) :=
    swapped_seg (by omega) (by omega) (by omega) (by omega) (by omega)
  refine ⟨_, _, _, rfl, (r2.mono (by omega) (Nat.le_refl _)).trans seg, by omega, by omega, ?_, ?_,
    ?_⟩
  · rw [hg]; simp
  · intro i p q
    rw [hg, if_neg (by omega)]
    by_cases hi : i = b
    · rw [if_pos hi]; exact r5 _ (by omega) (by omega)
    · rw [if_neg hi]; exact r5 _ (by omega) (by omega)
  · intro i p q
    rw [hg, if_neg (by omega), if_neg (by omega)]
    exact r6 _ (by omega) q

theorem leftLoop_spec {comp : α → α → Bool} {pivot : α} {b e : Nat} :
    ∀ (n : Nat) (a : List α) (first last : Nat), last < n → b < last → b ≤ first → last < e →
      e ≤ a.length → first ≤ last + 1 → first < e →
      (∀ i, last < i → i < e → comp pivot (g a i) = true) →
      comp pivot (g a last) = false →
      (∀ i, b < i → i < first → comp pivot (g a i) = false) →
      (first < last → comp pivot (g a first) = true ∧ b < first) →
      ∃ a' l, leftLoop comp pivot b n a first last = .ok (a', l) ∧ Seg (b + 1) e a a' ∧
        b < l ∧ l < e ∧
        (∀ i, b < i → i ≤ l → comp pivot (g a' i) = false) ∧
        (∀ i, l < i → i < e → comp pivot (g a' i) = true) := by
  intro n
  induction n with
  | zero => intro a f l h; omega
  | succ n ih =>
    intro a first last hn hb hf hl he hfl hfe hi atl lo atf
    unfold leftLoop
    by_cases hlt : first < last
    · rw [if_pos hlt]
      obtain ⟨hcf, hbf⟩ := atf hlt
      rw [holeSwap_ok hbf hb (by omega) (by omega), bind_ok]
      have hg := g_swapped (a := a) (i := first) (j := last) (by omega) (by omega)
      have seg : Seg (b + 1) e a (swapped a first last) :=
        swapped_seg (by omega) hfe (by omega) hl he
      have hlen := seg.length
      generalize swapped a first last = a1 at hg seg hlen ⊢
      have g1 : g a1 last = g a first := by rw [hg]; simp
      have g2 : g a1 first = g a last := by rw [hg]; simp [show first ≠ last by omega]
      have g3 : ∀ k, k ≠ first → k ≠ last → g a1 k = g a k := by
        intro k h1 h2; rw [hg]; simp [h1, h2]
      obtain ⟨l', d1, d2, d3, d4, d5⟩ := scanDown_spec (p := fun x => comp pivot x) (a := a1)
        (hole := b) (k := first) hbf (by simpa [g2] using atl) last hlt (by omega)
      rw [d1, bind_ok]
      obtain ⟨f', u1, u2, u3, u4, u5⟩ := scanUp_spec (p := fun x => !comp pivot x) (a := a1)
        (k := last) (by omega) (by simpa [g1] using hcf) (last - (first + 1)) (first + 1) rfl
        (by omega)
      rw [u1, bind_ok]
      obtain ⟨a', l, r1, r2, r3, r4, r5, r6⟩ := ih a1 f' l' (by omega) (by omega) (by omega)
        (by omega) (by omega) (by
          by_contra hc
          have := u5 (l' + 1) (by omega) (by omega)
          by_cases h : l' + 1 = last
          · rw [h, g1, hcf] at this; cases this
          · have h' := d5 (l' + 1) (by omega) (by omega)
            rw [h'] at this; cases this) (by omega) (by
          intro i h1 h2
          by_cases hi1 : i < last
          · exact d5 i h1 hi1
          · by_cases hi2 : i = last
            · rw [hi2, g1]; exact hcf
            · rw [g3 i (by omega) (by omega)]; exact hi i (by omega) h2) d4 (by
          intro i h1 h2
          by_cases hi1 : i < first
          · rw [g3 i (by omega) (by omega)]; exact lo i h1 hi1
          · by_cases hi2 : i = first
            · rw [hi2, g2]; exact atl
            · simpa using u5 i (by omega) h2) (by
          intro _; exact ⟨by simpa using u4, by omega⟩)
      exact ⟨a', l, r1, seg.trans r2, by omega, r4, r5, r6⟩
    · rw [if_neg hlt]
      refine ⟨a, last, rfl, Seg.refl _ _ _, hb, hl, ?_, hi⟩
      intro i h1 h2
      by_cases h : i = last
      · rw [h]; exact atl
      · exact lo i h1 (by omega)

theorem partitionLeft_spec {comp : α → α → Bool} {a : List α} {b e : Nat} (he : e ≤ a.length)
    (hk : ∃ k, b < k ∧ k < e ∧ comp (g a b) (g a k) = false) :
    ∃ a' pp, partitionLeft comp a b e = .ok (a', pp) ∧ Seg b e a a' ∧ b ≤ pp ∧
      pp < e ∧ g a' pp = g a b ∧
      (∀ i, b ≤ i → i < pp → comp (g a b) (g a' i) = false) ∧
      (∀ i, pp < i → i < e → comp (g a b) (g a' i) = true) := by
  obtain ⟨k, k1, k2, k3⟩ := hk
  unfold partitionLeft
  rw [rd_ok (by omega), bind_ok]
  obtain ⟨l, d1, d2, d3, d4, d5⟩ := scanDown_spec (p := fun x => comp (g a b) x) (a := a)
    (hole := b) (k := k) k1 k3 e k2 he
  rw [d1, bind_ok]
  have hfirst : ∃ f, firstUp comp (g a b) a b e l = .ok f ∧ b ≤ f ∧
      f ≤ l + 1 ∧ f < e ∧
      (f < l → comp (g a b) (g a f) = true ∧ b < f) ∧
      (∀ i, b < i → i < f → comp (g a b) (g a i) = false) := by
    unfold firstUp
    by_cases hle : l + 1 = e
    · rw [if_pos hle]
      obtain ⟨m, e1, e2, e3, e4, e5⟩ := scanUpG_spec (p := fun x => !comp (g a b) x) (a := a)
        (last := l) (by omega) (l - b) b rfl (by omega)
      exact ⟨m, e1, e2, by omega, by omega, fun h => ⟨by simpa using (e4 h).1, (e4 h).2⟩,
        fun i p q => by simpa using e5 i p q⟩
    · rw [if_neg hle]
      obtain ⟨m, e1, e2, e3, e4, e5⟩ := scanUp_spec (p := fun x => !comp (g a b) x) (a := a)
        (k := l + 1) (by omega) (by simpa using d5 (l + 1) (by omega) (by omega)) (l + 1 - (b + 1))
        (b + 1) rfl (by omega)
      exact ⟨m, e1, by omega, by omega, by omega, fun h => ⟨by simpa using e4, by omega⟩,
        fun i p q => by simpa using e5 i (by omega) q⟩
  obtain ⟨f, h1, h2, h3, h4, h5, h6⟩ := hfirst
  rw [h1, bind_ok]
  obtain ⟨a', l', r1, r2, r3, r4, r5, r6⟩ := leftLoop_spec (comp := comp) (pivot := g a b) (b := b)
    (e := e) (l + 1) a f l (by omega) (by omega) h2 d3 he h3 h4 d5 d4 h6 h5
  rw [r1, bind_ok]
  dsimp only
  have hgb : g a b = g a' b := (r2.left (by omega)).symm
  have hlen := r2.length
  rw [hgb] at r5 r6 ⊢
  rw [placePivot_ok (by omega) (by omega), bind_ok, pure_ok]
  have hg := g_swapped (a := a') (i := b) (j := l') (by omega) (by omega)
  have seg : Seg b e a' (swapped a' b l') :=
    swapped_seg (by omega) (by omega) (by omega) (by omega) (by omega)
  refine ⟨_, _, rfl, (r2.mono (by omega) (Nat.le_refl _)).trans seg, by omega, by omega, ?_, ?_,
    ?_⟩
  · rw [hg]; simp
  · intro i p q
    rw [hg, if_neg (by omega)]
    by_cases hi : i = b
    · rw [if_pos hi]; exact r5 _ (by omega) (by omega)
    · rw [if_neg hi]; exact r5 _ (by omega) (by omega)
  · intro i p q
    rw [hg, if_neg (by omega), if_neg (by omega)]
    exact r6 _ (by omega) q

end Verif.PdqSort
