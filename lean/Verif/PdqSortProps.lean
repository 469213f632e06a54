import Verif.PdqSortLemmas

/-! `list.sort`: correctness for strict weak orders (C07) and the reverse sort (C08). -/
namespace Verif.PdqSort

variable {α : Type}

/-- A strict weak order. -/
structure StrictWeak (comp : α → α → Bool) : Prop where
  asymm : ∀ x y, comp x y = true → comp y x = false
  neg : ∀ x y z, comp x y = false → comp y z = false → comp x z = false

theorem StrictWeak.fits {comp : α → α → Bool} (S : StrictWeak comp) :
    Fits comp (fun x y => comp y x = false) :=
  ⟨fun x y z h1 h2 => S.neg z y x h2 h1, fun x y h => S.asymm x y h, fun x y h => h⟩

/-- The contract of `std::make_heap` followed by `std::sort_heap`. -/
def HeapContract (comp : α → α → Bool) (hs : List α → List α) : Prop :=
  ∀ l, (hs l).Perm l ∧ (hs l).Pairwise (fun x y => comp y x = false)

variable [Inhabited α]

theorem choosePivot_spec {comp : α → α → Bool} {le : α → α → Prop} (F : Fits comp le) {b e : Nat}
    {a : List α} (hs : b + 24 ≤ e) (he : e ≤ a.length) :
    ∃ a', choosePivot comp a b e = .ok a' ∧ Seg b e a a' ∧
      (∃ k, b < k ∧ k < e ∧ le (g a' b) (g a' k)) ∧ (∃ k, b < k ∧ k < e ∧ le (g a' k) (g a' b)) := by
  unfold choosePivot
  dsimp only
  by_cases hn : e - b > 128
  · rw [if_pos hn]
    obtain ⟨a1, e1, s1, _⟩ := sort3_spec F (b := b) (e := e) (a := a) (i := b)
      (j := b + (e - b) / 2) (k := e - 1) (by omega) (by omega) (by omega) (by omega) (by omega)
      (by omega) he (by omega) (by omega) (by omega)
    obtain ⟨a2, e2, s2, _⟩ := sort3_spec F (b := b) (e := e) (a := a1) (i := b + 1)
      (j := b + ((e - b) / 2 - 1)) (k := e - 2) (by omega) (by omega) (by omega) (by omega)
      (by omega) (by omega) (by rw [s1.length]; exact he) (by omega) (by omega) (by omega)
    obtain ⟨a3, e3, s3, _⟩ := sort3_spec F (b := b) (e := e) (a := a2) (i := b + 2)
      (j := b + ((e - b) / 2 + 1)) (k := e - 3) (by omega) (by omega) (by omega) (by omega)
      (by omega) (by omega) (by rw [s2.length, s1.length]; exact he) (by omega) (by omega)
      (by omega)
    obtain ⟨a4, e4, s4, o1, o2⟩ := sort3_spec F (b := b) (e := e) (a := a3)
      (i := b + ((e - b) / 2 - 1)) (j := b + (e - b) / 2) (k := b + ((e - b) / 2 + 1)) (by omega)
      (by omega) (by omega) (by omega) (by omega) (by omega)
      (by rw [s3.length, s2.length, s1.length]; exact he) (by omega) (by omega) (by omega)
    have seg := ((s1.trans s2).trans s3).trans s4
    have hlen := seg.length
    rw [e1, bind_ok, e2, bind_ok, e3, bind_ok, e4, bind_ok, iterSwap_ok (by omega) (by omega)]
    have hg := g_swapped (a := a4) (i := b) (j := b + (e - b) / 2) (by omega) (by omega)
    have s5 : Seg b e a4 (swapped a4 b (b + (e - b) / 2)) :=
      swapped_seg (by omega) (by omega) (by omega) (by omega) (by omega)
    refine ⟨_, rfl, seg.trans s5, ⟨b + ((e - b) / 2 + 1), by omega, by omega, ?_⟩,
      ⟨b + ((e - b) / 2 - 1), by omega, by omega, ?_⟩⟩
    · rw [hg, hg, if_neg (by omega), if_pos rfl, if_neg (by omega), if_neg (by omega)]; exact o2
    · rw [hg, hg, if_neg (by omega), if_neg (by omega), if_neg (by omega), if_pos rfl]; exact o1
  · rw [if_neg hn]
    obtain ⟨a1, e1, s1, o1, o2⟩ := sort3_spec F (b := b) (e := e) (a := a) (i := b + (e - b) / 2)
      (j := b) (k := e - 1) (by omega) (by omega) (by omega) (by omega) (by omega) (by omega) he
      (by omega) (by omega) (by omega)
    exact ⟨a1, e1, s1, ⟨e - 1, by omega, by omega, o2⟩, ⟨b + (e - b) / 2, by omega, by omega, o1⟩⟩

theorem iterSwap_seg {b e : Nat} {a : List α} {i j : Nat} (hi : b ≤ i) (hi' : i < e) (hj : b ≤ j)
    (hj' : j < e) (he : e ≤ a.length) : ∃ a', iterSwap a i j = .ok a' ∧ Seg b e a a' :=
  ⟨_, iterSwap_ok (by omega) (by omega), swapped_seg hi hi' hj hj' he⟩

theorem shuffleLeft_spec {b pp : Nat} {a : List α} (h : pp ≤ a.length) :
    ∃ a', shuffleLeft a b pp = .ok a' ∧ Seg b pp a a' := by
  unfold shuffleLeft
  dsimp only
  by_cases h1 : pp - b ≥ 24
  · rw [if_pos h1]
    obtain ⟨a1, e1, s1⟩ := iterSwap_seg (b := b) (e := pp) (a := a) (i := b)
      (j := b + (pp - b) / 4) (by omega) (by omega) (by omega) (by omega) h
    obtain ⟨a2, e2, s2⟩ := iterSwap_seg (b := b) (e := pp) (a := a1) (i := pp - 1)
      (j := pp - (pp - b) / 4) (by omega) (by omega) (by omega) (by omega) (by rw [s1.length]; exact h)
    rw [e1, bind_ok, e2, bind_ok]
    have s12 := s1.trans s2
    by_cases h2 : pp - b > 128
    · rw [if_pos h2]
      obtain ⟨a3, e3, s3⟩ := iterSwap_seg (b := b) (e := pp) (a := a2) (i := b + 1)
        (j := b + ((pp - b) / 4 + 1)) (by omega) (by omega) (by omega) (by omega)
        (by rw [s12.length]; exact h)
      have s13 := s12.trans s3
      obtain ⟨a4, e4, s4⟩ := iterSwap_seg (b := b) (e := pp) (a := a3) (i := b + 2)
        (j := b + ((pp - b) / 4 + 2)) (by omega) (by omega) (by omega) (by omega)
        (by rw [s13.length]; exact h)
      have s14 := s13.trans s4
      obtain ⟨a5, e5, s5⟩ := iterSwap_seg (b := b) (e := pp) (a := a4) (i := pp - 2)
        (j := pp - ((pp - b) / 4 + 1)) (by omega) (by omega) (by omega) (by omega)
        (by rw [s14.length]; exact h)
      have s15 := s14.trans s5
      obtain ⟨a6, e6, s6⟩ := iterSwap_seg (b := b) (e := pp) (a := a5) (i := pp - 3)
        (j := pp - ((pp - b) / 4 + 2)) (by omega) (by omega) (by omega) (by omega)
        (by rw [s15.length]; exact h)
      rw [e3, bind_ok, e4, bind_ok, e5, bind_ok, e6]
      exact ⟨a6, rfl, s15.trans s6⟩
    · rw [if_neg h2]; exact ⟨a2, rfl, s12⟩
  · rw [if_neg h1]; exact ⟨a, rfl, Seg.refl _ _ _⟩

theorem shuffleRight_spec {pp e : Nat} {a : List α} (h : e ≤ a.length) :
    ∃ a', shuffleRight a pp e = .ok a' ∧ Seg (pp + 1) e a a' := by
  unfold shuffleRight
  dsimp only
  by_cases h1 : e - (pp + 1) ≥ 24
  · rw [if_pos h1]
    obtain ⟨a1, e1, s1⟩ := iterSwap_seg (b := pp + 1) (e := e) (a := a) (i := pp + 1)
      (j := pp + (1 + (e - (pp + 1)) / 4)) (by omega) (by omega) (by omega) (by omega) h
    obtain ⟨a2, e2, s2⟩ := iterSwap_seg (b := pp + 1) (e := e) (a := a1) (i := e - 1)
      (j := e - (e - (pp + 1)) / 4) (by omega) (by omega) (by omega) (by omega)
      (by rw [s1.length]; exact h)
    rw [e1, bind_ok, e2, bind_ok]
    have s12 := s1.trans s2
    by_cases h2 : e - (pp + 1) > 128
    · rw [if_pos h2]
      obtain ⟨a3, e3, s3⟩ := iterSwap_seg (b := pp + 1) (e := e) (a := a2) (i := pp + 2)
        (j := pp + (2 + (e - (pp + 1)) / 4)) (by omega) (by omega) (by omega) (by omega)
        (by rw [s12.length]; exact h)
      have s13 := s12.trans s3
      obtain ⟨a4, e4, s4⟩ := iterSwap_seg (b := pp + 1) (e := e) (a := a3) (i := pp + 3)
        (j := pp + (3 + (e - (pp + 1)) / 4)) (by omega) (by omega) (by omega) (by omega)
        (by rw [s13.length]; exact h)
      have s14 := s13.trans s4
      obtain ⟨a5, e5, s5⟩ := iterSwap_seg (b := pp + 1) (e := e) (a := a4) (i := e - 2)
        (j := e - (1 + (e - (pp + 1)) / 4)) (by omega) (by omega) (by omega) (by omega)
        (by rw [s14.length]; exact h)
      have s15 := s14.trans s5
      obtain ⟨a6, e6, s6⟩ := iterSwap_seg (b := pp + 1) (e := e) (a := a5) (i := e - 3)
        (j := e - (2 + (e - (pp + 1)) / 4)) (by omega) (by omega) (by omega) (by omega)
        (by rw [s15.length]; exact h)
      rw [e3, bind_ok, e4, bind_ok, e5, bind_ok, e6]
      exact ⟨a6, rfl, s15.trans s6⟩
    · rw [if_neg h2]; exact ⟨a2, rfl, s12⟩
  · rw [if_neg h1]; exact ⟨a, rfl, Seg.refl _ _ _⟩

theorem heapSortRange_spec {comp : α → α → Bool} {hs : List α → List α} (H : HeapContract comp hs)
    {b e : Nat} {a : List α} (hbe : b ≤ e) (he : e ≤ a.length) :
    Seg b e a (heapSortRange hs a b e) ∧
      Sorted (fun x y => comp y x = false) b e (heapSortRange hs a b e) := by
  obtain ⟨hp, hso⟩ := H ((a.take e).drop b)
  have hlen : (hs ((a.take e).drop b)).length = e - b := by
    rw [hp.length_eq]; simp; omega
  have split : a = a.take b ++ (a.take e).drop b ++ a.drop e := by
    have h1 : a.take b = (a.take e).take b := by simp [List.take_take, Nat.min_eq_left hbe]
    rw [h1, List.take_append_drop, List.take_append_drop]
  have hb : (a.take b).length = b := by simp; omega
  unfold heapSortRange
  refine ⟨⟨?_, ?_, ?_⟩, ?_⟩
  · conv_rhs => rw [split]
    exact ((hp.append_left _).append_right _)
  · rw [List.append_assoc, List.take_append_of_le_length (by omega), List.take_of_length_le (by omega)]
  · rw [List.drop_append, List.drop_of_length_le (by simp [hlen]; omega)]
    simp [hlen]
    rw [show e - (min b a.length + (e - b)) = 0 by omega]; rfl
  · intro i j h1 h2 h3
    have gi : ∀ k, b ≤ k → k < e →
        g (a.take b ++ hs ((a.take e).drop b) ++ a.drop e) k = g (hs ((a.take e).drop b)) (k - b) := by
      intro k p q
      unfold g
      rw [List.append_assoc, List.getD_eq_getElem?_getD, List.getElem?_append_right (by omega), hb,
        List.getElem?_append_left (by omega), List.getD_eq_getElem?_getD]
    rw [gi i h1 (by omega), gi j (by omega) h3]
    have := List.pairwise_iff_getElem.1 hso (i - b) (j - b) (by omega) (by omega) (by omega)
    simpa [g, show i - b < (hs ((a.take e).drop b)).length by omega,
      show j - b < (hs ((a.take e).drop b)).length by omega] using this

theorem trySorted_spec {comp : α → α → Bool} {le : α → α → Prop} (F : Fits comp le) {b pp e : Nat}
    {a : List α} (already : Bool) (h1 : b ≤ pp) (h2 : pp < e) (he : e ≤ a.length) :
    ∃ a' ok a1, trySorted comp already a b pp e = .ok (a', ok) ∧ Seg b pp a a1 ∧
      Seg (pp + 1) e a1 a' ∧ (ok = true → Sorted le b pp a' ∧ Sorted le (pp + 1) e a') := by
  unfold trySorted
  cases already with
  | false => exact ⟨a, false, a, rfl, Seg.refl _ _ _, Seg.refl _ _ _, by simp⟩
  | true =>
    obtain ⟨a1, ok, e1, s1, o1⟩ := partialInsertionSort_spec F (a := a) h1 (by omega)
    rw [if_pos rfl, e1, bind_ok]
    dsimp only
    cases ok with
    | false => exact ⟨a1, false, a1, rfl, s1, Seg.refl _ _ _, by simp⟩
    | true =>
      obtain ⟨a2, ok2, e2, s2, o2⟩ := partialInsertionSort_spec F (a := a1) (b := pp + 1) (e := e)
        (by omega) (by rw [s1.length]; exact he)
      rw [if_pos rfl, e2]
      refine ⟨a2, ok2, a1, rfl, s1, s2, fun h => ⟨?_, o2 h⟩⟩
      intro i j p q r
      rw [s2.left (by omega), s2.left (by omega)]
      exact o1 rfl i j p q r

/-- Both sides of a pivot in order, and the pivot between them. -/
theorem sorted_join {comp : α → α → Bool} (S : StrictWeak comp) {b pp e : Nat} {a : List α} {p : α}
    (hpp : g a pp = p)
    (hl : Sorted (fun x y => comp y x = false) b pp a)
    (hr : Sorted (fun x y => comp y x = false) (pp + 1) e a)
    (lo : ∀ i, b ≤ i → i < pp → comp p (g a i) = false)
    (hi : ∀ i, pp < i → i < e → comp (g a i) p = false) :
    Sorted (fun x y => comp y x = false) b e a := by
  intro i j h1 h2 h3
  rcases Nat.lt_trichotomy j pp with h | h | h
  · exact hl i j h1 h2 h
  · subst h; simp only [hpp]; exact lo i h1 h2
  · rcases Nat.lt_trichotomy i pp with h' | h' | h'
    · exact S.neg _ _ _ (hi j h h3) (lo i h1 h')
    · subst h'; simp only [hpp]; exact hi j h h3
    · exact hr i j h' h2 h3

/-- `pdqsort_loop` sorts its range and touches nothing else. -/
theorem pdqLoop_spec {comp : α → α → Bool} (S : StrictWeak comp) {hs : List α → List α}
    (H : HeapContract comp hs) {part : List α → Nat → Nat → R (List α × Nat × Bool)}
    (P : PartOK comp part) :
    ∀ (n : Nat) (a : List α) (b e : Nat) (bad : Int) (leftmost : Bool), e - b < n → b ≤ e →
      e ≤ a.length →
      (leftmost = false → 0 < b ∧ ∀ i, b ≤ i → i < e → comp (g a i) (g a (b - 1)) = false) →
      ∃ a', pdqLoop hs comp part n a b e bad leftmost = .ok a' ∧ Seg b e a a' ∧
        Sorted (fun x y => comp y x = false) b e a' := by
  have F := S.fits
  intro n
  induction n with
  | zero => intro a b e bad leftmost h; omega
  | succ n ih =>
    intro a b e bad leftmost hn hbe he hlm
    unfold pdqLoop
    by_cases hsm : e - b < 24
    · rw [if_pos hsm]
      cases leftmost with
      | true => exact insertionSort_spec F hbe he
      | false => exact unguarded_spec F hbe he (hlm rfl).1 (hlm rfl).2
    rw [if_neg hsm]
    obtain ⟨a1, e1, s1, ⟨k1, k1b, k1e, k1o⟩, ⟨k2, k2b, k2e, k2o⟩⟩ :=
      choosePivot_spec F (b := b) (e := e) (a := a) (by omega) he
    rw [e1, bind_ok]
    have hlen1 := s1.length
    have hlm1 : leftmost = false →
        0 < b ∧ ∀ i, b ≤ i → i < e → comp (g a1 i) (g a1 (b - 1)) = false := by
      intro h
      obtain ⟨h0, h1⟩ := hlm h
      refine ⟨h0, ?_⟩
      rw [s1.left (by omega : b - 1 < b)]
      exact s1.all (P := fun x => comp x (g a (b - 1)) = false) hbe he h1
    -- two halves sorted recursively, after the pivot is in place
    have halves : ∀ (a2 : List α) (pp : Nat) (p : α) (bad' : Int), b ≤ pp → pp < e →
        Seg b e a1 a2 → g a2 pp = p →
        (∀ i, b ≤ i → i < pp → comp (g a2 i) p = true) →
        (∀ i, pp < i → i < e → comp (g a2 i) p = false) →
        ∃ a', (pdqLoop hs comp part n a2 b pp bad' leftmost >>= fun a =>
            pdqLoop hs comp part n a (pp + 1) e bad' false) = .ok a' ∧ Seg b e a a' ∧
          Sorted (fun x y => comp y x = false) b e a' := by
      intro a2 pp p bad' hb hpe sg hp lo hi
      have hlen2 := sg.length
      obtain ⟨a3, e3, s3, o3⟩ := ih a2 b pp bad' leftmost (by omega) hb (by omega) (by
        intro h
        obtain ⟨h0, h1⟩ := hlm1 h
        refine ⟨h0, ?_⟩
        rw [sg.left (by omega : b - 1 < b)]
        have := sg.all (P := fun x => comp x (g a1 (b - 1)) = false) hbe (by omega) h1
        exact fun i p q => this i p (by omega))
      have hlen3 := s3.length
      have hp3 : g a3 pp = p := by rw [s3.right (Nat.le_refl _)]; exact hp
      have hi3 : ∀ i, pp < i → i < e → comp (g a3 i) p = false := by
        intro i h1 h2; rw [s3.right (by omega)]; exact hi i h1 h2
      obtain ⟨a4, e4, s4, o4⟩ := ih a3 (pp + 1) e bad' false (by omega) (by omega) (by omega) (by
        intro _
        refine ⟨by omega, ?_⟩
        intro i h1 h2
        rw [show pp + 1 - 1 = pp by omega, hp3]
        exact hi3 i (by omega) h2)
      refine ⟨a4, ?_, ?_, ?_⟩
      · rw [e3, bind_ok, e4]
      · exact (s1.trans sg).trans ((s3.mono (Nat.le_refl _) (by omega)).trans
          (s4.mono (by omega) (Nat.le_refl _)))
      · refine sorted_join S (pp := pp) (p := p) ?_ ?_ o4 ?_ ?_
        · rw [s4.left (by omega)]; exact hp3
        · intro i j h1 h2 h3
          rw [s4.left (by omega), s4.left (by omega)]; exact o3 i j h1 h2 h3
        · intro i h1 h2
          rw [s4.left (by omega)]
          exact S.asymm _ _ (s3.all (P := fun x => comp x p = true) hb (by omega) lo i h1 h2)
        · exact s4.all (P := fun x => comp x p = false) (by omega) (by omega)
            (fun i h1 h2 => hi3 i (by omega) h2)
    -- the ordinary step
    have right : ∃ a', (part a1 b e >>= fun x => match x with
        | (a, pp, already) =>
          if pp - b < (e - b) / 8 ∨ e - (pp + 1) < (e - b) / 8 then
            if bad - 1 = 0 then pure (heapSortRange hs a b e)
            else do
              let a ← shuffleLeft a b pp
              let a ← shuffleRight a pp e
              let a ← pdqLoop hs comp part n a b pp (bad - 1) leftmost
              pdqLoop hs comp part n a (pp + 1) e (bad - 1) false
          else do
            let (a, done) ← trySorted comp already a b pp e
            if done then pure a
            else do
              let a ← pdqLoop hs comp part n a b pp bad leftmost
              pdqLoop hs comp part n a (pp + 1) e bad false) = .ok a' ∧ Seg b e a a' ∧
        Sorted (fun x y => comp y x = false) b e a' := by
      obtain ⟨a2, pp, al, e2, s2, hb, hpe, hp, lo, hi⟩ := P a1 b e (by omega) (by omega)
        ⟨k1, k1b, k1e, k1o⟩
      have hlen2 := s2.length
      rw [e2, bind_ok]
      dsimp only
      by_cases hun : pp - b < (e - b) / 8 ∨ e - (pp + 1) < (e - b) / 8
      · rw [if_pos hun]
        by_cases hbad : bad - 1 = 0
        · rw [if_pos hbad]
          obtain ⟨q1, q2⟩ := heapSortRange_spec H hbe (a := a2) (by omega)
          exact ⟨_, rfl, (s1.trans s2).trans q1, q2⟩
        · rw [if_neg hbad]
          obtain ⟨a3, e3, s3⟩ := shuffleLeft_spec (b := b) (pp := pp) (a := a2) (by omega)
          have hlen3 := s3.length
          obtain ⟨a4, e4, s4⟩ := shuffleRight_spec (pp := pp) (e := e) (a := a3) (by omega)
          rw [e3, bind_ok, e4, bind_ok]
          refine halves a4 pp (g a1 b) (bad - 1) hb hpe ?_ ?_ ?_ ?_
          · exact s2.trans ((s3.mono (Nat.le_refl _) (by omega)).trans
              (s4.mono (by omega) (Nat.le_refl _)))
          · rw [s4.left (by omega), s3.right (Nat.le_refl _)]; exact hp
          · intro i h1 h2
            rw [s4.left (by omega)]
            exact s3.all (P := fun x => comp x (g a1 b) = true) hb (by omega) lo i h1 h2
          · exact s4.all (P := fun x => comp x (g a1 b) = false) (by omega) (by omega)
              (fun i h1 h2 => by rw [s3.right (by omega)]; exact hi i (by omega) h2)
      · rw [if_neg hun]
        obtain ⟨a4, ok, a3, e4, s3, s4, o4⟩ := trySorted_spec F al hb hpe (a := a2) (by omega)
        have hlen3 := s3.length
        rw [e4, bind_ok]
        dsimp only
        have sg : Seg b e a1 a4 := s2.trans ((s3.mono (Nat.le_refl _) (by omega)).trans
              (s4.mono (by omega) (Nat.le_refl _)))
        have hp4 : g a4 pp = g a1 b := by
          rw [s4.left (by omega), s3.right (Nat.le_refl _)]; exact hp
        have lo4 : ∀ i, b ≤ i → i < pp → comp (g a4 i) (g a1 b) = true := by
          intro i h1 h2
          rw [s4.left (by omega)]
          exact s3.all (P := fun x => comp x (g a1 b) = true) hb (by omega) lo i h1 h2
        have hi4 : ∀ i, pp < i → i < e → comp (g a4 i) (g a1 b) = false :=
          s4.all (P := fun x => comp x (g a1 b) = false) (by omega) (by omega)
              (fun i h1 h2 => by rw [s3.right (by omega)]; exact hi i (by omega) h2)
        cases ok with
        | true =>
          rw [if_pos rfl]
          exact ⟨a4, rfl, s1.trans sg, sorted_join S hp4 (o4 rfl).1 (o4 rfl).2
            (fun i h1 h2 => S.asymm _ _ (lo4 i h1 h2)) hi4⟩
        | false =>
          rw [if_neg (by simp)]
          exact halves a4 pp (g a1 b) bad hb hpe sg hp4 lo4 hi4
    cases leftmost with
    | true =>
      rw [show pivotRepeats comp true a1 b = .ok false from rfl, bind_ok, if_neg (by simp)]
      exact right
    | false =>
      obtain ⟨h0, h1⟩ := hlm1 rfl
      have hpr : pivotRepeats comp false a1 b = .ok (!comp (g a1 (b - 1)) (g a1 b)) := by
        unfold pivotRepeats
        rw [if_neg (by simp), if_neg (by omega), rd_ok (by omega), bind_ok, rd_ok (by omega),
          bind_ok, pure_ok]
      rw [hpr, bind_ok]
      cases hc : comp (g a1 (b - 1)) (g a1 b) with
      | true => rw [if_neg (by simp)]; exact right
      | false =>
        rw [if_pos (by simp)]
        obtain ⟨a2, pp, e2, s2, hb, hpe, hp, lo, hi⟩ := partitionLeft_spec (comp := comp) (a := a1)
          (b := b) (e := e) (by omega) ⟨k2, k2b, k2e, k2o⟩
        have hlen2 := s2.length
        rw [e2, bind_ok]
        dsimp only
        have hi2 : ∀ i, pp < i → i < e → comp (g a2 i) (g a1 b) = false :=
          fun i p q => S.asymm _ _ (hi i p q)
        obtain ⟨a3, e3, s3, o3⟩ := ih a2 (pp + 1) e bad false (by omega) (by omega) (by omega) (by
          intro _
          refine ⟨by omega, ?_⟩
          intro i p q
          rw [show pp + 1 - 1 = pp by omega, hp]
          exact hi2 i (by omega) q)
        refine ⟨a3, e3, (s1.trans s2).trans (s3.mono (by omega) (Nat.le_refl _)), ?_⟩
        have lo2 : ∀ i, b ≤ i → i < pp → comp (g a1 b) (g a2 i) = false := lo
        -- nothing in the range is below the element before it, nor is the pivot above that
        have all2 : ∀ i, b ≤ i → i < e → comp (g a2 i) (g a1 b) = false := by
          have := s2.all (P := fun x => comp x (g a1 (b - 1)) = false) hbe (by omega) h1
          intro i p q
          exact S.neg _ _ _ (this i p q) hc
        refine sorted_join S (pp := pp) (p := g a1 b) ?_ ?_ o3 ?_ ?_
        · rw [s3.left (by omega)]; exact hp
        · intro i j p q r
          rw [s3.left (by omega), s3.left (by omega)]
          exact S.neg _ _ _ (all2 j (by omega) (by omega)) (lo2 i p (by omega))
        · intro i p q
          rw [s3.left (by omega)]; exact lo2 i p q
        · exact s3.all (P := fun x => comp x (g a1 b) = false) (by omega) (by omega)
            (fun i p q => hi2 i (by omega) q)

theorem partitionRight_ok (comp : α → α → Bool) : PartOK comp (partitionRight comp) :=
  fun _ _ _ _ he hk => partitionRight_spec he hk

theorem sorted_pairwise {le : α → α → Prop} {a : List α} (h : Sorted le 0 a.length a) :
    a.Pairwise le := by
  rw [List.pairwise_iff_getElem]
  intro i j hi hj hij
  have := h i j (Nat.zero_le _) hij hj
  simpa [g, hi, hj] using this

omit [Inhabited α] in
/-- C07, the algorithm: for every strict weak order and every list, `pdqsort` returns without
touching memory outside the list or a moved-from slot, and leaves a sorted permutation. -/
theorem pdqsort_correct {comp : α → α → Bool} (S : StrictWeak comp) {hs : List α → List α}
    (H : HeapContract comp hs) (a : List α) :
    ∃ a', pdqsort hs comp a = .ok a' ∧ a'.Perm a ∧ a'.Pairwise (fun x y => comp y x = false) := by
  cases a with
  | nil => exact ⟨[], rfl, .refl _, .nil⟩
  | cons x r =>
    haveI : Inhabited α := ⟨x⟩
    unfold pdqsort
    rw [if_neg (by simp)]
    obtain ⟨a', e1, s1, o1⟩ := pdqLoop_spec S H (partitionRight_ok comp) ((x :: r).length + 1)
      (x :: r) 0 (x :: r).length (log2 (x :: r).length) true (by omega) (by omega) (Nat.le_refl _)
      (by simp)
    refine ⟨a', e1, s1.perm, ?_⟩
    rw [← s1.length] at o1
    exact sorted_pairwise o1

omit [Inhabited α] in
/-- C07: `xs.sort()`. -/
theorem list_sort_correct {lt ge : α → α → Bool} (S : StrictWeak lt) {hs : List α → List α}
    (H : HeapContract lt hs) (a : List α) :
    ∃ a', listSort hs lt ge false a = .ok a' ∧ a'.Perm a ∧
      a'.Pairwise (fun x y => lt y x = false) := by
  simpa [listSort] using pdqsort_correct S H a

omit [Inhabited α] in
/-- C07: `xs.sort(key=f)` for every key function. -/
theorem list_sort_key_correct {κ : Type} (key : α → κ) {lt ge : κ → κ → Bool} (S : StrictWeak lt)
    {hs : List α → List α} (H : HeapContract (fun x y => lt (key x) (key y)) hs) (a : List α) :
    ∃ a', listSortKey hs key lt ge false a = .ok a' ∧ a'.Perm a ∧
      (a'.map key).Pairwise (fun x y => lt y x = false) := by
  obtain ⟨a', e1, e2, e3⟩ := list_sort_correct (ge := fun x y => ge (key x) (key y))
    (⟨fun x y => S.asymm _ _, fun x y z => S.neg _ _ _⟩ :
      StrictWeak (fun x y : α => lt (key x) (key y))) H a
  exact ⟨a', e1, e2, List.pairwise_map.2 e3⟩

/-! ### Reverse sort -/

theorem swapped_replicate {n : Nat} {x : α} {i j : Nat} (hi : i < n) (hj : j < n) :
    swapped (List.replicate n x) i j = List.replicate n x := by
  have hg : ∀ k, k < n → g (List.replicate n x) k = x := by
    intro k hk; simp [g, hk]
  have hset : ∀ k, (List.replicate n x).set k x = List.replicate n x := by
    intro k
    apply List.ext_getElem (by simp)
    intro m h1 h2
    rw [List.getElem_set]; split <;> simp
  unfold swapped
  rw [hg i hi, hg j hj, hset, hset]

theorem iterSwap_replicate {n : Nat} {x : α} {i j : Nat} (hi : i < n) (hj : j < n) :
    iterSwap (List.replicate n x) i j = .ok (List.replicate n x) := by
  rw [iterSwap_ok (by simpa using hi) (by simpa using hj), swapped_replicate hi hj]

theorem sort3_replicate {comp : α → α → Bool} {n : Nat} {x : α} {i j k : Nat} (hi : i < n)
    (hj : j < n) (hk : k < n) : sort3 comp (List.replicate n x) i j k = .ok (List.replicate n x) := by
  have h2 : ∀ i j, i < n → j < n →
      sort2 comp (List.replicate n x) i j = .ok (List.replicate n x) := by
    intro i j hi hj
    unfold sort2
    rw [rd_ok (by simpa using hj), bind_ok, rd_ok (by simpa using hi), bind_ok]
    split
    · exact iterSwap_replicate hi hj
    · rfl
  unfold sort3
  rw [h2 i j hi hj, bind_ok, h2 j k hj hk, bind_ok, h2 i j hi hj]

theorem choosePivot_replicate {comp : α → α → Bool} {n : Nat} {x : α} (hn : 24 ≤ n) :
    choosePivot comp (List.replicate n x) 0 n = .ok (List.replicate n x) := by
  unfold choosePivot
  dsimp only
  split
  · rw [sort3_replicate (by omega) (by omega) (by omega), bind_ok,
      sort3_replicate (by omega) (by omega) (by omega), bind_ok,
      sort3_replicate (by omega) (by omega) (by omega), bind_ok,
      sort3_replicate (by omega) (by omega) (by omega), bind_ok,
      iterSwap_replicate (by omega) (by omega)]
  · exact sort3_replicate (by omega) (by omega) (by omega)

omit [Inhabited α] in
theorem scanUp_runs_off {p : α → Bool} : ∀ (l : List α) (i : Nat), (∀ x ∈ l, p x = true) →
    scanUp p l i = .error .oob := by
  intro l
  induction l with
  | nil => intro i _; rfl
  | cons x r ih =>
    intro i h
    unfold scanUp
    rw [if_pos (h x (by simp))]
    exact ih _ (fun y hy => h y (by simp [hy]))

omit [Inhabited α] in
/-- C08 fails: `xs.sort(reverse=True)` on any list of 24 or more equal elements reads past the end
of the list. -/
theorem reverse_sort_safe_refuted (hs : List α → List α) (lt ge : α → α → Bool) (x : α)
    (hx : ge x x = true) (n : Nat) (hn : 24 ≤ n) :
    listSort hs lt ge true (List.replicate n x) = .error .oob := by
  haveI : Inhabited α := ⟨x⟩
  unfold listSort
  rw [if_pos rfl]
  unfold pdqsort
  rw [if_neg (by simp; omega)]
  simp only [List.length_replicate]
  unfold pdqLoop
  rw [if_neg (by omega), choosePivot_replicate hn, bind_ok,
    show pivotRepeats ge true (List.replicate n x) 0 = .ok false from rfl, bind_ok,
    if_neg (by simp)]
  unfold partitionRight
  have hg : g (List.replicate n x) 0 = x := by simp [g, show 0 < n by omega]
  rw [rd_ok (by simp; omega), bind_ok, hg, scanUp_runs_off]
  · rfl
  · intro y hy
    have := List.mem_of_mem_drop hy
    rw [(List.mem_replicate.1 this).2]; exact hx

omit [Inhabited α] in
/-- C08 for short lists: under 24 elements the reverse sort is safe and descending for every total
preorder, ties included. -/
theorem reverse_sort_short_partial {lt ge : α → α → Bool}
    (trans : ∀ x y z, ge x y = true → ge y z = true → ge x z = true)
    (total : ∀ x y, ge x y = true ∨ ge y x = true) (hs : List α → List α) (a : List α)
    (hn : a.length < 24) :
    ∃ a', listSort hs lt ge true a = .ok a' ∧ a'.Perm a ∧
      a'.Pairwise (fun x y => ge x y = true) := by
  cases a with
  | nil => exact ⟨[], rfl, .refl _, .nil⟩
  | cons x r =>
    haveI : Inhabited α := ⟨x⟩
    have F : Fits ge (fun x y => ge x y = true) := by
      refine ⟨trans, fun _ _ h => h, fun x y h => ?_⟩
      rcases total x y with h' | h'
      · rw [h] at h'; cases h'
      · exact h'
    unfold listSort
    rw [if_pos rfl]
    unfold pdqsort
    rw [if_neg (by simp)]
    unfold pdqLoop
    rw [if_pos (by omega), if_pos rfl]
    obtain ⟨a', e1, s1, o1⟩ := insertionSort_spec F (b := 0) (e := (x :: r).length) (a := x :: r)
      (by omega) (Nat.le_refl _)
    rw [← s1.length] at o1
    exact ⟨a', e1, s1.perm, sorted_pairwise o1⟩

/-! ### Concrete runs -/

/-- A heap sort that meets the contract on naturals, for running the model. -/
def natHs (l : List Nat) : List Nat := l.mergeSort (fun x y => x ≤ y)

theorem natHs_contract : HeapContract (fun x y : Nat => decide (x < y)) natHs := by
  intro l
  refine ⟨List.mergeSort_perm _ _, ?_⟩
  have := List.pairwise_mergeSort (le := fun x y : Nat => decide (x ≤ y))
    (by intro a b c h1 h2; simp at *; omega) (by intro a b; simp; omega) l
  exact this.imp (by intro a b h; simp at *; omega)

theorem natLt_strict : StrictWeak (fun x y : Nat => decide (x < y)) :=
  ⟨by intro x y h; simp at *; omega, by intro x y z h1 h2; simp at *; omega⟩

example (a : List Nat) :
    ∃ a', listSort natHs (fun x y => decide (x < y)) (fun x y => decide (x ≥ y)) false a = .ok a' ∧
      a'.Perm a ∧ a'.Pairwise (fun x y => decide (y < x) = false) :=
  list_sort_correct natLt_strict natHs_contract a

/-- Forty elements: the quicksort path, with a partition. -/
example : (pdqsort natHs (fun x y => decide (x < y))
    ((List.range 40).map (fun i => i * 17 % 40))) = .ok (List.range 40) := by decide +kernel

/-- Twenty-four zeros in reverse read out of bounds; twenty-three do not. -/
example : listSort natHs (fun x y => decide (x < y)) (fun x y => decide (x ≥ y)) true
    (List.replicate 24 0) = .error .oob := by decide +kernel

example : listSort natHs (fun x y => decide (x < y)) (fun x y => decide (x ≥ y)) true
    (List.replicate 23 0) = .ok (List.replicate 23 0) := by decide +kernel

end Verif.PdqSort
