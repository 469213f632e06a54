import Verif.Slice

/-! # C05: slices and indices -/

namespace Verif.Slice

variable {α : Type}

/-- C05.  A list slice with positive step is exactly the elements at the positions Python selects,
in order, for all lengths, all (negative, huge) bounds and all positive steps; no position outside
the list is read and no error is raised. -/
theorem listGetSlice_correct (s : List α) (b e step : Int) (h : 0 < step) :
    listGetSlice s b e step = .ok ((pySlicePositions s.length b e step).filterMap (s[·]?)) := by
  have hb := clamp_range b s.length
  have he := clamp_range e s.length
  have key : pySlicePositions s.length b e step =
      positions (pyClamp b s.length).toNat (pyClamp e s.length).toNat step.toNat (by omega) := by
    rw [positions_eq s.length _ _ _ _ (by omega)]
    unfold pySlicePositions
    apply List.filter_congr
    intro j _
    rw [decide_eq_decide, Int.toNat_of_nonneg hb.1, Int.toNat_of_nonneg (by omega : 0 ≤ step)]
    constructor
    · rintro ⟨h1, h2, h3⟩; exact ⟨by omega, by omega, h3⟩
    · rintro ⟨h1, h2, h3⟩; exact ⟨by omega, by omega, h3⟩
  unfold listGetSlice
  rw [dif_pos (by omega), key]
  simp only [sliceIndexCorrection_eq]
  by_cases hle : pyClamp e s.length ≤ pyClamp b s.length
  · rw [if_pos hle, positions, if_neg (by omega)]; rfl
  · rw [if_neg hle]
    by_cases h1 : step = 1
    · subst h1
      rw [if_pos rfl]
      have := positions_step_one (pyClamp b s.length).toNat (pyClamp e s.length).toNat
      rw [drop_take_eq _ _ _ (by omega), ← this]
      rfl
    · rw [if_neg h1, copyLoop_eq _ _ _ _ _ (by omega)]

/-- A step that is not positive is rejected for every sequence type. -/
theorem getSlice_step_not_positive (s : List α) (b e step : Int) (h : step ≤ 0) :
    listGetSlice s b e step = .error .stepNotPositive ∧
    strGetSlice s b e step = .error .stepNotPositive := by
  unfold listGetSlice strGetSlice
  rw [dif_neg (by omega), dif_neg (by omega)]
  exact ⟨rfl, rfl⟩

/-- The number of elements in a slice, in closed form. -/
theorem listGetSlice_length (s : List α) (b e step : Int) (h : 0 < step) :
    ∃ r, listGetSlice s b e step = .ok r ∧
      (r.length : Int) =
        (max 0 (pyClamp e s.length - pyClamp b s.length) + step - 1) / step := by
  have hb := clamp_range b s.length
  have he := clamp_range e s.length
  unfold listGetSlice
  rw [dif_pos (by omega)]
  simp only [sliceIndexCorrection_eq]
  by_cases hle : pyClamp e s.length ≤ pyClamp b s.length
  · rw [if_pos hle]
    refine ⟨_, rfl, ?_⟩
    rw [max_eq_left (by omega), List.length_nil]
    exact (Int.ediv_eq_zero_of_lt (by omega) (by omega)).symm
  · rw [if_neg hle, max_eq_right (by omega)]
    by_cases h1 : step = 1
    · subst h1
      rw [if_pos rfl]
      refine ⟨_, rfl, ?_⟩
      simp only [List.length_take, List.length_drop, Int.ediv_one]
      omega
    · rw [if_neg h1, copyLoop_eq _ _ _ _ _ (by omega)]
      refine ⟨_, rfl, ?_⟩
      have : ((positions (pyClamp b s.length).toNat (pyClamp e s.length).toNat step.toNat
          (by omega)).filterMap (s[·]?)).length = (positions (pyClamp b s.length).toNat
          (pyClamp e s.length).toNat step.toNat (by omega)).length := by
        rw [List.length_filterMap_eq_countP]
        rw [List.countP_eq_length]
        intro a ha
        rw [positions_eq s.length _ _ _ _ (by omega)] at ha
        have := (List.mem_filter.mp ha).1
        simpa using this
      rw [this, positions_length]
      push_cast
      rw [Int.toNat_of_nonneg (by omega : 0 ≤ step)]
      congr 1
      omega

/-- C05, str and bytes: the result is the same as the list slice whenever the size computation
`e - b + step - 1` stays inside 64 bits.  Missing from the full statement: huge steps, see
`strGetSlice_refuted`. -/
theorem strGetSlice_correct_partial (s : List α) (b e step : Int) (h : 0 < step)
    (hno : (s.length : Int) + step ≤ 9223372036854775807) :
    strGetSlice s b e step = listGetSlice s b e step := by
  have hb := clamp_range b s.length
  have he := clamp_range e s.length
  unfold strGetSlice listGetSlice
  rw [dif_pos (by omega), dif_pos (by omega)]
  simp only [sliceIndexCorrection_eq]
  by_cases hle : pyClamp e s.length ≤ pyClamp b s.length
  · rw [if_pos hle, if_pos hle]
  · rw [if_neg hle, if_neg hle]
    by_cases h1 : step = 1
    · rw [if_pos h1, if_pos h1]
    · rw [if_neg h1, if_neg h1]
      obtain ⟨r, hr, hlen⟩ := listGetSlice_length s b e step h
      unfold listGetSlice at hr
      rw [dif_pos (by omega)] at hr
      simp only [sliceIndexCorrection_eq] at hr
      rw [if_neg hle, if_neg h1] at hr
      rw [max_eq_right (by omega)] at hlen
      revert hr
      cases hc : copyLoop s (pyClamp b s.length).toNat (pyClamp e s.length).toNat step.toNat
        (by omega) with
      | none => intro hr; simp
      | some r' =>
        intro hr
        simp only [Except.ok.injEq] at hr
        subst hr
        simp only
        rw [if_pos]
        rw [hlen]
        have hw : wrapI64 (pyClamp e s.length - pyClamp b s.length + step - 1) =
            pyClamp e s.length - pyClamp b s.length + step - 1 := by
          unfold wrapI64; omega
        rw [hw, Int.tdiv_eq_ediv_of_nonneg (by omega)]

/-- FINDING (C05 refuted for str/bytes): a step near `INT64_MAX` overflows the size computation, so
the output buffer has the wrong size (the list slice of the same data is fine). -/
theorem strGetSlice_refuted :
    listGetSlice [1, 2, 3] 0 3 9223372036854775807 = .ok [1] ∧
    strGetSlice [1, 2, 3] 0 3 9223372036854775807 = .error .badBuffer := by
  constructor
  · rw [listGetSlice_correct _ _ _ _ (by decide)]; decide +kernel
  · unfold strGetSlice
    rw [dif_pos (by decide)]
    simp only [sliceIndexCorrection, List.length_cons, List.length_nil]
    norm_num
    rw [copyLoop_eq _ _ _ _ _ (by decide)]
    rw [positions, if_pos (by decide), positions, if_neg (by decide)]
    decide +kernel

/-- Every index that Python accepts reads the element Python reads; every other index raises. -/
theorem getItem_correct (s : List α) (i : Int) :
    (∀ x, getItem s i = .ok x ↔
      ((0 ≤ i ∧ s[i.toNat]? = some x) ∨ (i < 0 ∧ -(s.length : Int) ≤ i ∧
        s[(s.length + i).toNat]? = some x))) ∧
    (getItem s i = .error .indexOverflow ↔ i ≥ s.length ∨ i < -(s.length : Int)) := by
  unfold getItem
  simp only [sliceIndexCorrection_eq]
  by_cases hr : (i ≥ 0 ∧ i < (s.length : Int)) ∨ (i < 0 ∧ i ≥ -(s.length : Int))
  · rw [if_pos hr]
    have hc : pyClamp i s.length = if i < 0 then i + s.length else i := by
      unfold pyClamp; split <;> omega
    rcases hr with ⟨h1, h2⟩ | ⟨h1, h2⟩
    · rw [hc, if_neg (by omega)]
      have hlt : i.toNat < s.length := by omega
      rw [List.getElem?_eq_getElem hlt]
      constructor
      · intro x
        simp only [Except.ok.injEq, Option.some.injEq]
        constructor
        · intro h; exact .inl ⟨h1, h⟩
        · rintro (h | h)
          · exact h.2
          · omega
      · simp; omega
    · rw [hc, if_pos h1]
      have hlt : (i + s.length).toNat < s.length := by omega
      have hcomm : ((s.length : Int) + i).toNat = (i + s.length).toNat := by omega
      rw [hcomm, List.getElem?_eq_getElem hlt]
      constructor
      · intro x
        simp only [Except.ok.injEq, Option.some.injEq]
        constructor
        · intro h; exact .inr ⟨h1, h2, h⟩
        · rintro (h | h)
          · omega
          · exact h.2.2
      · simp; omega
  · rw [if_neg hr]
    constructor
    · intro x
      simp only [reduceCtorEq, false_iff, not_or, not_and]
      refine ⟨fun h1 h2 => ?_, fun h1 h2 => by omega⟩
      have := (List.getElem?_eq_some_iff.mp h2).1
      omega
    · simp; omega

/-- FINDING: indexing bytes returns the signed byte, so a byte of 128 or more comes out negative,
where Python gives 0..255. -/
theorem bytesGetItem_refuted :
    bytesGetItem [0xff#8] 0 = .ok (-1) := by decide

/-- For ASCII bytes the indexed value is the byte value. -/
theorem bytesGetItem_partial (s : List (BitVec 8)) (i : Int) (x : BitVec 8)
    (h : getItem s i = .ok x) (hx : x.toNat < 128) : bytesGetItem s i = .ok (x.toNat : Int) := by
  unfold bytesGetItem
  rw [h]
  show Except.ok x.toInt = _
  rw [BitVec.toInt_eq_toNat_cond, if_pos (by omega)]

/-- Assignment to an index changes that element only and raises for the indices reading raises. -/
theorem setItem_correct (s : List α) (i : Int) (x : α) :
    (∀ s', setItem s i x = .ok s' →
      s'.length = s.length ∧ getItem s' i = .ok x ∧
      ∀ j : Nat, (j : Int) ≠ i → (j : Int) ≠ i + s.length → s'[j]? = s[j]?) ∧
    (setItem s i x = .error .indexOverflow ↔ getItem s i = .error .indexOverflow) ∧
    (setItem s i x = .error .indexOverflow ∨ ∃ s', setItem s i x = .ok s') := by
  rw [(getItem_correct s i).2]
  unfold setItem
  simp only
  by_cases h0 : i < 0
  · rw [if_pos h0]
    by_cases hr : i + (s.length : Int) ≥ 0 ∧ i + (s.length : Int) < s.length
    · rw [if_pos hr]
      refine ⟨?_, by simp; omega, by simp⟩
      intro s' hs'
      simp only [Except.ok.injEq] at hs'
      subst hs'
      refine ⟨by simp, ?_, ?_⟩
      · rw [(getItem_correct _ i).1]
        right
        rw [List.length_set]
        refine ⟨h0, by omega, ?_⟩
        have : ((s.length : Int) + i).toNat = (i + s.length).toNat := by omega
        rw [this, List.getElem?_set_self (by omega)]
      · intro j h1 h2
        rw [List.getElem?_set_ne (by omega)]
    · rw [if_neg hr]
      refine ⟨by simp, by simp; omega, by simp⟩
  · rw [if_neg h0]
    by_cases hr : i ≥ 0 ∧ i < (s.length : Int)
    · rw [if_pos hr]
      refine ⟨?_, by simp; omega, by simp⟩
      intro s' hs'
      simp only [Except.ok.injEq] at hs'
      subst hs'
      refine ⟨by simp, ?_, ?_⟩
      · rw [(getItem_correct _ i).1]
        left
        exact ⟨hr.1, by rw [List.getElem?_set_self (by omega)]⟩
      · intro j h1 h2
        rw [List.getElem?_set_ne (by omega)]
    · rw [if_neg hr]
      refine ⟨by simp, by simp; omega, by simp⟩

/-! ### Non-vacuity -/

example : pySlicePositions 7 (-6) 100 2 = [1, 3, 5] := by decide
example : listGetSlice [10, 11, 12, 13, 14, 15, 16] (-6) 100 2 = .ok [11, 13, 15] := by
  rw [listGetSlice_correct _ _ _ _ (by decide)]; decide
example : strGetSlice "abcdefg".toList (-6) 100 2 = .ok "bdf".toList := by
  rw [strGetSlice_correct_partial _ _ _ _ (by decide) (by decide),
    listGetSlice_correct _ _ _ _ (by decide)]; decide
example : getItem [1, 2, 3] (-3) = .ok 1 := by decide
example : getItem [1, 2, 3] (-4) = .error .indexOverflow := by decide
example : bytesGetItem [0x41#8] (-1) = .ok 65 := bytesGetItem_partial _ _ 0x41#8 (by decide) (by decide)
example : setItem [1, 2, 3] (-1) 9 = .ok [1, 2, 9] := by decide

end Verif.Slice
