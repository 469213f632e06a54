import Verif.PdqSortProps

/-!
Reverse sorting without ties (C08).  `pdqsort` only ever compares elements at different positions,
so on a list without ties a non-strict comparator runs exactly like the strict one.
-/
namespace Verif.PdqSort

variable {α : Type} [Inhabited α]

omit [Inhabited α] in
theorem bind_err {β γ : Type} (e : Err) (f : β → R γ) : (Except.error e >>= f) = .error e := rfl

/-- Two comparators agree on every pair of different positions. -/
def Agree (C D : α → α → Bool) (a : List α) : Prop :=
  ∀ i j, i < a.length → j < a.length → i ≠ j → C (g a i) (g a j) = D (g a i) (g a j)

theorem agree_iff {C D : α → α → Bool} {a : List α} :
    Agree C D a ↔ a.Pairwise (fun x y => C x y = D x y ∧ C y x = D y x) := by
  rw [List.pairwise_iff_getElem]
  constructor
  · intro h i j hi hj hij
    have h1 := h i j hi hj (by omega)
    have h2 := h j i hj hi (by omega)
    simp only [g, List.getD_eq_getElem?_getD, hi, hj, List.getElem?_eq_getElem,
      Option.getD_some] at h1 h2
    exact ⟨h1, h2⟩
  · intro h i j hi hj hij
    simp only [g, List.getD_eq_getElem?_getD, hi, hj, List.getElem?_eq_getElem, Option.getD_some]
    rcases Nat.lt_or_gt_of_ne hij with h' | h'
    · exact (h i j hi hj h').1
    · exact (h j i hj hi h').2

theorem Agree.perm {C D : α → α → Bool} {a a' : List α} (h : Agree C D a) (hp : a'.Perm a) :
    Agree C D a' := by
  rw [agree_iff] at h ⊢
  exact (hp.pairwise_iff (fun h => ⟨h.2, h.1⟩)).2 h

theorem siftDown_congr {C D : α → α → Bool} {guard : Option Nat} {tmp : α} :
    ∀ (s : Nat) (a : List α), s + 1 < a.length → Agree C D (a.set (s + 1) tmp) →
      siftDown C guard tmp a (s + 1) = siftDown D guard tmp a (s + 1) := by
  intro s
  induction s with
  | zero =>
    intro a h _
    have h0 : 0 < a.length := by omega
    unfold siftDown
    rfl
  | succ s ih =>
    intro a h hA
    have h0 : s + 1 < a.length := by omega
    have h1 : s < (a.set (s + 1 + 1) (g a (s + 1))).length := by simp; omega
    unfold siftDown
    rw [rd_ok h0, bind_ok, bind_ok, wr_ok h, bind_ok, bind_ok]
    split
    · rfl
    · dsimp only
      rw [rd_ok h1, bind_ok, bind_ok, g_set_ne (by omega)]
      have hc : C tmp (g a s) = D tmp (g a s) := by
        have := hA (s + 1 + 1) s (by simp; omega) (by simp; omega) (by omega)
        rwa [g_set_self h, g_set_ne (by omega)] at this
      rw [hc]
      have := ih (a.set (s + 1 + 1) (g a (s + 1))) (by simp; omega) (by
        rw [sift_swap h]
        exact hA.perm (swapped_perm (by simp; omega) (by simp; omega)))
      rw [this]

theorem insertAt_congr {C D : α → α → Bool} {guard : Option Nat} {a : List α} {cur : Nat}
    (h0 : 0 < cur) (h : cur < a.length) (hA : Agree C D a) :
    insertAt C guard a cur = insertAt D guard a cur := by
  unfold insertAt
  rw [rd_ok h, bind_ok, rd_ok (by omega), bind_ok, bind_ok, bind_ok,
    hA cur (cur - 1) h (by omega) (by omega)]
  obtain ⟨s, rfl⟩ : ∃ s, cur = s + 1 := ⟨cur - 1, by omega⟩
  rw [siftDown_congr s a h (by rw [set_g]; exact hA)]

theorem insertLoop_congr {C D : α → α → Bool} {le : α → α → Prop} (F : Fits D le)
    {guard : Option Nat} {b : Nat} (hg : guard = some b ∨ (guard = none ∧ 0 < b)) :
    ∀ (n cur : Nat) (a : List α), b < cur → cur + n ≤ a.length →
      (guard = none → ∀ i, b ≤ i → i < cur + n → D (g a i) (g a (b - 1)) = false) →
      Sorted le b cur a → Agree C D a →
      insertLoop C guard n a cur = insertLoop D guard n a cur := by
  intro n
  induction n with
  | zero => intros; rfl
  | succ n ih =>
    intro cur a hb hc hst hso hA
    obtain ⟨a1, d, e1, e2, e3⟩ := insertAt_spec F hg hb (by omega)
      (fun h => hst h cur (by omega) (by omega)) hso
    have s1 : Seg b (cur + 1 + n) a a1 := e2.mono (Nat.le_refl _) (by omega)
    unfold insertLoop
    rw [insertAt_congr (by omega) (by omega) hA, e1, bind_ok, bind_ok]
    refine ih (cur + 1) a1 (by omega) (by rw [e2.length]; omega) ?_ e3 (hA.perm e2.perm)
    intro h
    have hb0 : 0 < b := by
      rcases hg with hg | hg
      · rw [hg] at h; cases h
      · exact hg.2
    rw [e2.left (by omega : b - 1 < b)]
    exact s1.all (P := fun x => D x (g a (b - 1)) = false) (by omega) (by omega)
      (fun i p q => hst h i p (by omega))

theorem partialLoop_congr {C D : α → α → Bool} {le : α → α → Prop} (F : Fits D le) {b : Nat} :
    ∀ (n cur : Nat) (a : List α) (limit : Nat), b < cur → cur + n ≤ a.length → Sorted le b cur a →
      Agree C D a → partialLoop C b n a cur limit = partialLoop D b n a cur limit := by
  intro n
  induction n with
  | zero => intros; rfl
  | succ n ih =>
    intro cur a limit hb hc hso hA
    obtain ⟨a1, d, e1, e2, e3⟩ := insertAt_spec (guard := some b) F (Or.inl rfl) hb (by omega)
      (by simp) hso
    unfold partialLoop
    rw [insertAt_congr (by omega) (by omega) hA, e1, bind_ok, bind_ok]
    dsimp only
    rw [ih (cur + 1) a1 (limit + d) (by omega) (by rw [e2.length]; omega) e3 (hA.perm e2.perm)]

theorem insertionSort_congr {C D : α → α → Bool} {le : α → α → Prop} (F : Fits D le) {b e : Nat}
    {a : List α} (hbe : b ≤ e) (he : e ≤ a.length) (hA : Agree C D a) :
    insertionSort C a b e = insertionSort D a b e := by
  unfold insertionSort
  split
  · rfl
  · exact insertLoop_congr F (Or.inl rfl : some b = some b ∨ _) _ _ _ (by omega) (by omega)
      (by simp) (by intro i j; omega) hA

theorem unguarded_congr {C D : α → α → Bool} {le : α → α → Prop} (F : Fits D le) {b e : Nat}
    {a : List α} (hbe : b ≤ e) (he : e ≤ a.length) (hb : 0 < b)
    (hst : ∀ i, b ≤ i → i < e → D (g a i) (g a (b - 1)) = false) (hA : Agree C D a) :
    unguardedInsertionSort C a b e = unguardedInsertionSort D a b e := by
  unfold unguardedInsertionSort
  split
  · rfl
  · exact insertLoop_congr F (Or.inr ⟨rfl, hb⟩ : none = some b ∨ _) _ _ _ (by omega) (by omega)
      (fun _ i p q => hst i p (by omega)) (by intro i j; omega) hA

theorem partialInsertionSort_congr {C D : α → α → Bool} {le : α → α → Prop} (F : Fits D le)
    {b e : Nat} {a : List α} (hbe : b ≤ e) (he : e ≤ a.length) (hA : Agree C D a) :
    partialInsertionSort C a b e = partialInsertionSort D a b e := by
  unfold partialInsertionSort
  split
  · rfl
  · exact partialLoop_congr F _ _ _ _ (by omega) (by omega) (by intro i j; omega) hA

theorem sort2_congr {C D : α → α → Bool} {a : List α} {i j : Nat} (hi : i < a.length)
    (hj : j < a.length) (hne : i ≠ j) (hA : Agree C D a) : sort2 C a i j = sort2 D a i j := by
  unfold sort2
  rw [rd_ok hj, bind_ok, rd_ok hi, bind_ok, bind_ok, bind_ok, hA j i hj hi (by omega)]

theorem sort3_congr {C D : α → α → Bool} {le : α → α → Prop} (F : Fits D le) {a : List α}
    {i j k : Nat} (hi : i < a.length) (hj : j < a.length) (hk : k < a.length) (hij : i ≠ j)
    (hjk : j ≠ k) (hA : Agree C D a) : sort3 C a i j k = sort3 D a i j k := by
  obtain ⟨a1, e1, s1, -⟩ := sort2_spec F (b := 0) (e := a.length) (a := a) (i := i) (j := j)
    (by omega) hi (by omega) hj (Nat.le_refl _) hij
  obtain ⟨a2, e2, s2, -⟩ := sort2_spec F (b := 0) (e := a.length) (a := a1) (i := j) (j := k)
    (by omega) hj (by omega) hk (by rw [s1.length]) hjk
  have l1 := s1.length
  have l2 := s2.length
  unfold sort3
  rw [sort2_congr hi hj hij hA, e1, bind_ok, bind_ok,
    sort2_congr (by omega) (by omega) hjk (hA.perm s1.perm), e2, bind_ok, bind_ok,
    sort2_congr (by omega) (by omega) hij (hA.perm (s2.perm.trans s1.perm))]

theorem choosePivot_congr {C D : α → α → Bool} {le : α → α → Prop} (F : Fits D le) {b e : Nat}
    {a : List α} (hs : b + 24 ≤ e) (he : e ≤ a.length) (hA : Agree C D a) :
    choosePivot C a b e = choosePivot D a b e := by
  unfold choosePivot
  dsimp only
  by_cases hn : e - b > 128
  · rw [if_pos hn, if_pos hn]
    obtain ⟨a1, e1, s1, _⟩ := sort3_spec F (b := b) (e := e) (a := a) (i := b)
      (j := b + (e - b) / 2) (k := e - 1) (by omega) (by omega) (by omega) (by omega) (by omega)
      (by omega) he (by omega) (by omega) (by omega)
    obtain ⟨a2, e2, s2, _⟩ := sort3_spec F (b := b) (e := e) (a := a1) (i := b + 1)
      (j := b + ((e - b) / 2 - 1)) (k := e - 2) (by omega) (by omega) (by omega) (by omega)
      (by omega) (by omega) (by rw [s1.length]; exact he) (by omega) (by omega) (by omega)
    obtain ⟨a3, e3, s3, _⟩ := sort3_spec F (b := b) (e := e) (a := a2) (i := b + 2)
      (j := b + ((e - b) / 2 + 1)) (k := e - 3) (by omega) (by omega) (by omega) (by omega)
      (by omega) (by omega) (by rw [s2.length, s1.length]; exact he) (by omega) (by omega)
      (by omega)
    have l1 := s1.length
    have l2 := s2.length
    have l3 := s3.length
    have p1 := hA.perm s1.perm
    have p2 := p1.perm s2.perm
    have p3 := p2.perm s3.perm
    rw [sort3_congr F (by omega) (by omega) (by omega) (by omega) (by omega) hA, e1, bind_ok,
      bind_ok, sort3_congr F (by omega) (by omega) (by omega) (by omega) (by omega) p1, e2, bind_ok,
      bind_ok, sort3_congr F (by omega) (by omega) (by omega) (by omega) (by omega) p2, e3, bind_ok,
      bind_ok, sort3_congr F (by omega) (by omega) (by omega) (by omega) (by omega) p3]
  · rw [if_neg hn, if_neg hn]
    exact sort3_congr F (by omega) (by omega) (by omega) (by omega) (by omega) hA

/-! ### Partitions -/

theorem scanUp_congr {p q : α → Bool} {a : List α} :
    ∀ (d i : Nat), a.length - i = d → (∀ k, i ≤ k → k < a.length → p (g a k) = q (g a k)) →
      scanUp p (a.drop i) i = scanUp q (a.drop i) i := by
  intro d
  induction d with
  | zero =>
    intro i h _
    rw [List.drop_of_length_le (by omega)]; rfl
  | succ d ih =>
    intro i h hpq
    rw [drop_g (by omega)]
    unfold scanUp
    rw [hpq i (Nat.le_refl _) (by omega),
      ih (i + 1) (by omega) (fun k h1 h2 => hpq k (by omega) h2)]

theorem scanUpG_congr {p q : α → Bool} {a : List α} {last : Nat} :
    ∀ (d i : Nat), a.length - i = d → (∀ k, i < k → k < a.length → p (g a k) = q (g a k)) →
      scanUpG p last (a.drop (i + 1)) i = scanUpG q last (a.drop (i + 1)) i := by
  intro d
  induction d with
  | zero =>
    intro i h _
    rw [List.drop_of_length_le (by omega)]; rfl
  | succ d ih =>
    intro i h hpq
    by_cases hl : i + 1 < a.length
    · rw [drop_g hl]
      unfold scanUpG
      rw [hpq (i + 1) (by omega) hl, ih (i + 1) (by omega) (fun k h1 h2 => hpq k (by omega) h2)]
    · rw [List.drop_of_length_le (by omega)]; rfl

theorem scanDown_congr {p q : α → Bool} {a : List α} {hole : Nat} :
    ∀ n, n ≤ a.length → (∀ k, k < n → k ≠ hole → p (g a k) = q (g a k)) →
      scanDown p hole a n = scanDown q hole a n := by
  intro n
  induction n with
  | zero => intros; rfl
  | succ n ih =>
    intro h hpq
    unfold scanDown
    split
    · rfl
    · rename_i hne
      rw [rd_ok (by omega), bind_ok, bind_ok, hpq n (by omega) hne,
        ih (by omega) (fun k h1 h2 => hpq k (by omega) h2)]

theorem scanDownG_congr {p q : α → Bool} {a : List α} {hole first : Nat} :
    ∀ n, n ≤ a.length → (∀ k, k < n → k ≠ hole → p (g a k) = q (g a k)) →
      scanDownG p hole first a n = scanDownG q hole first a n := by
  intro n
  induction n with
  | zero => intros; rfl
  | succ n ih =>
    intro h hpq
    unfold scanDownG
    split
    · split
      · rfl
      · rename_i hne
        rw [rd_ok (by omega), bind_ok, bind_ok, hpq n (by omega) hne,
          ih (by omega) (fun k h1 h2 => hpq k (by omega) h2)]
    · rfl

theorem holeSwap_inv {a a1 : List α} {b i j : Nat} (h : holeSwap b a i j = .ok a1) :
    i ≠ b ∧ j ≠ b ∧ i < a.length ∧ j < a.length ∧ a1 = swapped a i j := by
  unfold holeSwap at h
  split at h
  · cases h
  · rename_i hn
    by_cases hi : i < a.length
    · by_cases hj : j < a.length
      · rw [iterSwap_ok hi hj] at h
        cases h
        exact ⟨by omega, by omega, hi, hj, rfl⟩
      · unfold iterSwap at h
        rw [rd_ok hi, bind_ok] at h
        have : rd a j = .error .oob := by simp [rd, List.getElem?_eq_none (by omega : a.length ≤ j)]
        rw [this] at h; cases h
    · unfold iterSwap at h
      have : rd a i = .error .oob := by simp [rd, List.getElem?_eq_none (by omega : a.length ≤ i)]
      rw [this] at h; cases h

theorem swap_keeps {P : α → Prop} {a : List α} {b i j : Nat} (hi : i < a.length) (hj : j < a.length)
    (hib : i ≠ b) (hjb : j ≠ b) (h : ∀ k, k < a.length → k ≠ b → P (g a k)) :
    ∀ k, k < (swapped a i j).length → k ≠ b → P (g (swapped a i j) k) := by
  intro k h1 h2
  rw [(swapped_perm hi hj).length_eq] at h1
  rw [g_swapped hi hj]
  split
  · exact h i hi hib
  · split
    · exact h j hj hjb
    · exact h k h1 h2

/-- `scanDown` never goes up. -/
theorem scanDown_lt {p : α → Bool} {a : List α} {hole m : Nat} :
    ∀ n, scanDown p hole a n = .ok m → m < n := by
  intro n
  induction n with
  | zero => intro h; cases h
  | succ n ih =>
    intro h
    unfold scanDown at h
    split at h
    · cases h
    · cases hr : rd a n with
      | error e => rw [hr] at h; cases h
      | ok x =>
        rw [hr, bind_ok] at h
        split at h
        · have := ih h; omega
        · cases h; omega

theorem rightLoop_congr {C D : α → α → Bool} {pivot : α} {b : Nat} :
    ∀ (n : Nat) (a : List α) (first last : Nat), last ≤ a.length → b < first →
      (∀ k, k < a.length → k ≠ b → C (g a k) pivot = D (g a k) pivot) →
      rightLoop C pivot b n a first last = rightLoop D pivot b n a first last := by
  intro n
  induction n with
  | zero => intros; rfl
  | succ n ih =>
    intro a first last hl hf hA
    unfold rightLoop
    split
    · cases hsw : holeSwap b a first last with
      | error e => rfl
      | ok a1 =>
        obtain ⟨h1, h2, h3, h4, rfl⟩ := holeSwap_inv hsw
        rw [bind_ok, bind_ok]
        have hlen := (swapped_perm h3 h4).length_eq
        have hA1 := swap_keeps (P := fun x => C x pivot = D x pivot) h3 h4 h1 h2 hA
        rw [scanUp_congr (p := fun x => C x pivot) (q := fun x => D x pivot) _ (first + 1) rfl
          (fun k p q => hA1 k q (by omega)),
          scanDown_congr (p := fun x => !C x pivot) (q := fun x => !D x pivot) last (by omega)
          (fun k p q => by rw [hA1 k (by omega) q])]
        cases hu : scanUp (fun x => D x pivot) ((swapped a first last).drop (first + 1))
            (first + 1) with
        | error e => rfl
        | ok f' =>
          rw [bind_ok, bind_ok]
          cases hd : scanDown (fun x => !D x pivot) b (swapped a first last) last with
          | error e => rfl
          | ok l' =>
            rw [bind_ok, bind_ok]
            have := scanDown_lt _ hd
            refine ih _ _ _ (by omega) ?_ hA1
            -- the scan starts above `first`
            have up : ∀ (l : List α) (i m : Nat), scanUp (fun x => D x pivot) l i = .ok m → i ≤ m := by
              intro l
              induction l with
              | nil => intro i m h; cases h
              | cons x r ih' =>
                intro i m h
                unfold scanUp at h
                split at h
                · have := ih' _ _ h; omega
                · cases h; omega
            have := up _ _ _ hu
            omega
    · rfl

theorem leftLoop_congr {C D : α → α → Bool} {pivot : α} {b : Nat} :
    ∀ (n : Nat) (a : List α) (first last : Nat), last ≤ a.length → b ≤ first →
      (∀ k, k < a.length → k ≠ b → C pivot (g a k) = D pivot (g a k)) →
      leftLoop C pivot b n a first last = leftLoop D pivot b n a first last := by
  intro n
  induction n with
  | zero => intros; rfl
  | succ n ih =>
    intro a first last hl hf hA
    unfold leftLoop
    split
    · cases hsw : holeSwap b a first last with
      | error e => rfl
      | ok a1 =>
        obtain ⟨h1, h2, h3, h4, rfl⟩ := holeSwap_inv hsw
        rw [bind_ok, bind_ok]
        have hlen := (swapped_perm h3 h4).length_eq
        have hA1 := swap_keeps (P := fun x => C pivot x = D pivot x) h3 h4 h1 h2 hA
        rw [scanUp_congr (p := fun x => !C pivot x) (q := fun x => !D pivot x) _ (first + 1) rfl
          (fun k p q => by rw [hA1 k q (by omega)]),
          scanDown_congr (p := fun x => C pivot x) (q := fun x => D pivot x) last (by omega)
          (fun k p q => hA1 k (by omega) q)]
        cases hd : scanDown (fun x => D pivot x) b (swapped a first last) last with
        | error e => rfl
        | ok l' =>
          rw [bind_ok, bind_ok]
          cases hu : scanUp (fun x => !D pivot x) ((swapped a first last).drop (first + 1))
              (first + 1) with
          | error e => rfl
          | ok f' =>
            rw [bind_ok, bind_ok]
            have := scanDown_lt _ hd
            refine ih _ _ _ (by omega) ?_ hA1
            have up : ∀ (l : List α) (i m : Nat), scanUp (fun x => !D pivot x) l i = .ok m → i ≤ m := by
              intro l
              induction l with
              | nil => intro i m h; cases h
              | cons x r ih' =>
                intro i m h
                unfold scanUp at h
                split at h
                · have := ih' _ _ h; omega
                · cases h; omega
            have := up _ _ _ hu
            omega
    · rfl

theorem partitionRight_congr {C D : α → α → Bool} {a : List α} {b e : Nat} (hb : b < e)
    (he : e ≤ a.length) (hA : Agree C D a)
    (hk : ∃ k, b < k ∧ k < e ∧ D (g a k) (g a b) = false) :
    partitionRight C a b e = partitionRight D a b e := by
  obtain ⟨k, k1, k2, k3⟩ := hk
  have hA' : ∀ k, k < a.length → k ≠ b → C (g a k) (g a b) = D (g a k) (g a b) :=
    fun k h1 h2 => hA k b h1 (by omega) h2
  unfold partitionRight
  rw [rd_ok (by omega), bind_ok, bind_ok,
    scanUp_congr (p := fun x => C x (g a b)) (q := fun x => D x (g a b)) _ (b + 1) rfl
      (fun k p q => hA' k q (by omega))]
  obtain ⟨f, u1, u2, u3, u4, u5⟩ := scanUp_spec (p := fun x => D x (g a b)) (a := a) (k := k)
    (by omega) k3 (k - (b + 1)) (b + 1) rfl (by omega)
  rw [u1, bind_ok, bind_ok]
  have hfd : firstDown C (g a b) a b e f = firstDown D (g a b) a b e f := by
    unfold firstDown
    rw [scanDownG_congr (p := fun x => !C x (g a b)) (q := fun x => !D x (g a b)) e he
      (fun k p q => by rw [hA' k (by omega) q]),
      scanDown_congr (p := fun x => !C x (g a b)) (q := fun x => !D x (g a b)) e he
      (fun k p q => by rw [hA' k (by omega) q])]
  rw [hfd]
  have hle : ∀ l, firstDown D (g a b) a b e f = .ok l → l ≤ e := by
    intro l h
    unfold firstDown at h
    split at h
    · obtain ⟨m, e1, _, e3, _⟩ := scanDownG_spec (p := fun x => !D x (g a b)) (a := a)
        (hole := b) (first := f) (by omega) e (by omega) he
      rw [e1] at h; cases h; exact e3
    · exact Nat.le_of_lt (scanDown_lt _ h)
  cases hd : firstDown D (g a b) a b e f with
  | error e => rfl
  | ok l =>
    have := hle l hd
    rw [bind_ok, bind_ok, rightLoop_congr _ _ _ _ (by omega) (by omega) hA']

theorem partitionLeft_congr {C D : α → α → Bool} {a : List α} {b e : Nat} (hb : b < e)
    (he : e ≤ a.length) (hA : Agree C D a)
    (hk : ∃ k, b < k ∧ k < e ∧ D (g a b) (g a k) = false) :
    partitionLeft C a b e = partitionLeft D a b e := by
  obtain ⟨k, k1, k2, k3⟩ := hk
  have hA' : ∀ k, k < a.length → k ≠ b → C (g a b) (g a k) = D (g a b) (g a k) :=
    fun k h1 h2 => hA b k (by omega) h1 (by omega)
  unfold partitionLeft
  rw [rd_ok (by omega), bind_ok, bind_ok,
    scanDown_congr (p := fun x => C (g a b) x) (q := fun x => D (g a b) x) e he
      (fun k p q => hA' k (by omega) q)]
  obtain ⟨l, d1, d2, d3, d4, d5⟩ := scanDown_spec (p := fun x => D (g a b) x) (a := a)
    (hole := b) (k := k) k1 k3 e k2 he
  rw [d1, bind_ok, bind_ok]
  have hfu : firstUp C (g a b) a b e l = firstUp D (g a b) a b e l := by
    unfold firstUp
    rw [scanUpG_congr (p := fun x => !C (g a b) x) (q := fun x => !D (g a b) x) _ b rfl
      (fun k p q => by rw [hA' k q (by omega)]),
      scanUp_congr (p := fun x => !C (g a b) x) (q := fun x => !D (g a b) x) _ (b + 1) rfl
      (fun k p q => by rw [hA' k q (by omega)])]
  rw [hfu]
  have hge : ∀ f, firstUp D (g a b) a b e l = .ok f → b ≤ f := by
    intro f h
    unfold firstUp at h
    split at h
    · obtain ⟨m, e1, e2, _⟩ := scanUpG_spec (p := fun x => !D (g a b) x) (a := a)
        (last := l) (by omega) (l - b) b rfl (by omega)
      rw [e1] at h; cases h; exact e2
    · obtain ⟨m, e1, e2, _⟩ := scanUp_spec (p := fun x => !D (g a b) x) (a := a)
        (k := l + 1) (by omega) (by simpa using d5 (l + 1) (by omega) (by omega)) (l + 1 - (b + 1))
        (b + 1) rfl (by omega)
      rw [e1] at h; cases h; omega
  cases hd : firstUp D (g a b) a b e l with
  | error e => rfl
  | ok f =>
    have := hge f hd
    rw [bind_ok, bind_ok, leftLoop_congr _ _ _ _ (by omega) this hA']

theorem trySorted_congr {C D : α → α → Bool} {le : α → α → Prop} (F : Fits D le) {b pp e : Nat}
    {a : List α} (already : Bool) (h1 : b ≤ pp) (h2 : pp < e) (he : e ≤ a.length)
    (hA : Agree C D a) : trySorted C already a b pp e = trySorted D already a b pp e := by
  unfold trySorted
  cases already with
  | false => rfl
  | true =>
    obtain ⟨a1, ok, e1, s1, o1⟩ := partialInsertionSort_spec F (a := a) h1 (by omega)
    rw [if_pos rfl, if_pos rfl, partialInsertionSort_congr F h1 (by omega) hA, e1, bind_ok, bind_ok]
    dsimp only
    rw [partialInsertionSort_congr F (by omega) (by rw [s1.length]; exact he) (hA.perm s1.perm)]

/-- The whole loop runs the same with both comparators. -/
theorem pdqLoop_congr {C D : α → α → Bool} (S : StrictWeak D) {hs : List α → List α}
    (H : HeapContract D hs) :
    ∀ (n : Nat) (a : List α) (b e : Nat) (bad : Int) (leftmost : Bool), e - b < n → b ≤ e →
      e ≤ a.length →
      (leftmost = false → 0 < b ∧ ∀ i, b ≤ i → i < e → D (g a i) (g a (b - 1)) = false) →
      Agree C D a →
      pdqLoop hs C (partitionRight C) n a b e bad leftmost =
        pdqLoop hs D (partitionRight D) n a b e bad leftmost := by
  have F := S.fits
  have spec := pdqLoop_spec S H (partitionRight_ok D)
  intro n
  induction n with
  | zero => intros; rfl
  | succ n ih =>
    intro a b e bad leftmost hn hbe he hlm hA
    unfold pdqLoop
    by_cases hsm : e - b < 24
    · rw [if_pos hsm, if_pos hsm]
      cases leftmost with
      | true => exact insertionSort_congr F hbe he hA
      | false => exact unguarded_congr F hbe he (hlm rfl).1 (hlm rfl).2 hA
    rw [if_neg hsm, if_neg hsm]
    obtain ⟨a1, e1, s1, ⟨k1, k1b, k1e, k1o⟩, ⟨k2, k2b, k2e, k2o⟩⟩ :=
      choosePivot_spec F (b := b) (e := e) (a := a) (by omega) he
    rw [choosePivot_congr F (by omega) he hA, e1, bind_ok, bind_ok]
    have hlen1 := s1.length
    have A1 := hA.perm s1.perm
    have hlm1 : leftmost = false →
        0 < b ∧ ∀ i, b ≤ i → i < e → D (g a1 i) (g a1 (b - 1)) = false := by
      intro h
      obtain ⟨h0, h1⟩ := hlm h
      refine ⟨h0, ?_⟩
      rw [s1.left (by omega : b - 1 < b)]
      exact s1.all (P := fun x => D x (g a (b - 1)) = false) hbe he h1
    have halves : ∀ (a2 : List α) (pp : Nat) (p : α) (bad' : Int), b ≤ pp → pp < e →
        Seg b e a1 a2 → g a2 pp = p →
        (∀ i, pp < i → i < e → D (g a2 i) p = false) →
        (pdqLoop hs C (partitionRight C) n a2 b pp bad' leftmost >>= fun a =>
            pdqLoop hs C (partitionRight C) n a (pp + 1) e bad' false) =
        (pdqLoop hs D (partitionRight D) n a2 b pp bad' leftmost >>= fun a =>
            pdqLoop hs D (partitionRight D) n a (pp + 1) e bad' false) := by
      intro a2 pp p bad' hb hpe sg hp hi
      have hlen2 := sg.length
      have pre : leftmost = false →
          0 < b ∧ ∀ i, b ≤ i → i < pp → D (g a2 i) (g a2 (b - 1)) = false := by
        intro h
        obtain ⟨h0, h1⟩ := hlm1 h
        refine ⟨h0, ?_⟩
        rw [sg.left (by omega : b - 1 < b)]
        have := sg.all (P := fun x => D x (g a1 (b - 1)) = false) hbe (by omega) h1
        exact fun i p q => this i p (by omega)
      obtain ⟨a3, e3, s3, o3⟩ := spec n a2 b pp bad' leftmost (by omega) hb (by omega) pre
      have hlen3 := s3.length
      rw [ih a2 b pp bad' leftmost (by omega) hb (by omega) pre (A1.perm sg.perm), e3, bind_ok,
        bind_ok]
      refine ih a3 (pp + 1) e bad' false (by omega) (by omega) (by omega) ?_
        ((A1.perm sg.perm).perm s3.perm)
      intro _
      refine ⟨by omega, ?_⟩
      intro i h1 h2
      rw [show pp + 1 - 1 = pp by omega, s3.right (Nat.le_refl _), hp, s3.right (by omega)]
      exact hi i (by omega) h2
    have hpr : pivotRepeats C leftmost a1 b = pivotRepeats D leftmost a1 b := by
      unfold pivotRepeats
      cases leftmost with
      | true => rfl
      | false =>
        obtain ⟨h0, _⟩ := hlm1 rfl
        have hb0 : b ≠ 0 := by omega
        have l1 : b - 1 < a1.length := by omega
        have l2 : b < a1.length := by omega
        simp only [Bool.false_eq_true, if_false, hb0, rd_ok l1, rd_ok l2, bind_ok,
          A1 (b - 1) b l1 l2 (by omega)]
    rw [hpr]
    cases hrep : pivotRepeats D leftmost a1 b with
    | error _ => rw [bind_err, bind_err]
    | ok again =>
      rw [bind_ok, bind_ok]
      cases again with
      | true =>
        rw [if_pos rfl, if_pos rfl, partitionLeft_congr (by omega) (by omega) A1
          ⟨k2, k2b, k2e, k2o⟩]
        obtain ⟨a2, pp, e2, s2, hb, hpe, hp, lo, hi⟩ := partitionLeft_spec (comp := D) (a := a1)
          (b := b) (e := e) (by omega) ⟨k2, k2b, k2e, k2o⟩
        have hlen2 := s2.length
        rw [e2, bind_ok, bind_ok]
        dsimp only
        have hlmf : leftmost = false := by
          cases leftmost with
          | true => exact absurd hrep (by simp [pivotRepeats, pure_ok])
          | false => rfl
        rw [hlmf]
        refine ih a2 (pp + 1) e bad false (by omega) (by omega) (by omega) ?_ (A1.perm s2.perm)
        intro _
        refine ⟨by omega, ?_⟩
        intro i p q
        rw [show pp + 1 - 1 = pp by omega, hp]
        exact S.asymm _ _ (hi i (by omega) q)
      | false =>
        rw [if_neg (by simp), if_neg (by simp), partitionRight_congr (by omega) (by omega) A1
          ⟨k1, k1b, k1e, k1o⟩]
        obtain ⟨a2, pp, al, e2, s2, hb, hpe, hp, lo, hi⟩ := partitionRight_ok D a1 b e (by omega)
          (by omega) ⟨k1, k1b, k1e, k1o⟩
        have hlen2 := s2.length
        rw [e2, bind_ok, bind_ok]
        dsimp only
        by_cases hun : pp - b < (e - b) / 8 ∨ e - (pp + 1) < (e - b) / 8
        · rw [if_pos hun, if_pos hun]
          by_cases hbad : bad - 1 = 0
          · rw [if_pos hbad, if_pos hbad]
          · rw [if_neg hbad, if_neg hbad]
            obtain ⟨a3, e3, s3⟩ := shuffleLeft_spec (b := b) (pp := pp) (a := a2) (by omega)
            have hlen3 := s3.length
            obtain ⟨a4, e4, s4⟩ := shuffleRight_spec (pp := pp) (e := e) (a := a3) (by omega)
            rw [e3, bind_ok, bind_ok, e4, bind_ok, bind_ok]
            refine halves a4 pp (g a1 b) (bad - 1) hb hpe ?_ ?_ ?_
            · exact s2.trans ((s3.mono (Nat.le_refl _) (by omega)).trans
                (s4.mono (by omega) (Nat.le_refl _)))
            · rw [s4.left (by omega), s3.right (Nat.le_refl _)]; exact hp
            · exact s4.all (P := fun x => D x (g a1 b) = false) (by omega) (by omega)
                (fun i h1 h2 => by rw [s3.right (by omega)]; exact hi i (by omega) h2)
        · rw [if_neg hun, if_neg hun]
          rw [trySorted_congr F al hb hpe (by omega) (A1.perm s2.perm)]
          obtain ⟨a4, ok, a3, e4, s3, s4, o4⟩ := trySorted_spec F al hb hpe (a := a2) (by omega)
          have hlen3 := s3.length
          rw [e4, bind_ok, bind_ok]
          dsimp only
          cases ok with
          | true => rw [if_pos rfl, if_pos rfl]
          | false =>
            rw [if_neg (by simp), if_neg (by simp)]
            refine halves a4 pp (g a1 b) bad hb hpe ?_ ?_ ?_
            · exact s2.trans ((s3.mono (Nat.le_refl _) (by omega)).trans
                (s4.mono (by omega) (Nat.le_refl _)))
            · rw [s4.left (by omega), s3.right (Nat.le_refl _)]; exact hp
            · exact s4.all (P := fun x => D x (g a1 b) = false) (by omega) (by omega)
                (fun i h1 h2 => by rw [s3.right (by omega)]; exact hi i (by omega) h2)

omit [Inhabited α] in
/-- C08 without ties: on a list of any length in which no two elements compare equal, the reverse
sort is memory safe and leaves a descending permutation. -/
theorem reverse_sort_distinct_partial {lt ge : α → α → Bool}
    (trans : ∀ x y z, ge x y = true → ge y z = true → ge x z = true)
    (total : ∀ x y, ge x y = true ∨ ge y x = true) {hs : List α → List α}
    (H : HeapContract (fun x y => !ge y x) hs) (a : List α)
    (hd : a.Pairwise (fun x y => ¬ (ge x y = true ∧ ge y x = true))) :
    ∃ a', listSort hs lt ge true a = .ok a' ∧ a'.Perm a ∧
      a'.Pairwise (fun x y => ge x y = true) := by
  have S : StrictWeak (fun x y => !ge y x) := by
    refine ⟨?_, ?_⟩
    · intro x y h
      simp only [Bool.not_eq_true', Bool.not_eq_false'] at h ⊢
      rcases total x y with h' | h'
      · exact h'
      · rw [h] at h'; cases h'
    · intro x y z h1 h2
      simp only [Bool.not_eq_false'] at h1 h2 ⊢
      exact trans _ _ _ h2 h1
  obtain ⟨a', e1, e2, e3⟩ := pdqsort_correct S H a
  refine ⟨a', ?_, e2, e3.imp (by intro x y h; simpa using h)⟩
  rw [← e1]
  unfold listSort
  rw [if_pos rfl]
  cases a with
  | nil => rfl
  | cons x r =>
    haveI : Inhabited α := ⟨x⟩
    unfold pdqsort
    rw [if_neg (by simp), if_neg (by simp)]
    refine pdqLoop_congr S H _ _ _ _ _ _ (by omega) (by omega) (Nat.le_refl _) (by simp) ?_
    rw [agree_iff]
    refine hd.imp ?_
    intro x y h
    have t := total x y
    cases h1 : ge x y <;> cases h2 : ge y x <;> simp_all

/-- Fifty distinct numbers in a shuffled order, sorted in reverse. -/
example : listSort (fun l => l.mergeSort (fun x y => decide (x ≥ y)))
    (fun x y : Nat => decide (x < y)) (fun x y => decide (x ≥ y)) true
    ((List.range 50).map (fun i => i * 17 % 50)) = .ok (List.range 50).reverse := by decide +kernel

end Verif.PdqSort
