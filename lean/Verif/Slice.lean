import Mathlib.Tactic.Linarith
import Mathlib.Tactic.Ring

/-!
# Slices and indices of list / str / bytes

Models `include/matxscript/runtime/container/container_slice_helper.h`, the `GetItem`/`GetSlice`
functions of `src/runtime/container/string_helper.cc` and `unicode_helper.cc` and
`List::get_item`, `List::get_slice`, `List::set_item` of `src/runtime/container/list_ref.cc`.
A sequence is a Lean list.  `int64_t` arguments are integers.
-/

namespace Verif.Slice

variable {α : Type}

/-- Errors the modelled functions raise. -/
inductive Err
  | stepNotPositive     -- `MXCHECK_GT(step, 0)`
  | indexOverflow       -- `MXCHECK(...) << "ValueError: index overflow"`
  | badSlice            -- `MXCHECK(start >= 0 && end >= 0 && start <= end)`
  | badBuffer           -- output buffer of the wrong size: undefined behaviour
deriving DecidableEq, Repr

/-- `container_slice_helper.h:27-30`. -/
def sliceIndexCorrection (slice len : Int) : Int :=
  if slice < 0 then (if slice < -len then 0 else slice + len)
  else (if slice > len then len else slice)

/-- `container_slice_helper.h:32-34`. -/
def indexCorrection (index len : Int) : Int := if index < 0 then index + len else index

/-- The copy loop `for (itr = begin + b; itr < itr_end; itr += step) out.push_back(*itr)`
(`list_ref.cc:298-300`, `string_helper.cc:126-128`, `unicode_helper.cc:139-141`), on indices.
`none` marks a read outside the sequence. -/
def copyLoop (s : List α) (i e step : Nat) (hstep : 0 < step) : Option (List α) :=
  if i < e then
    match s[i]? with
    | none => none
    | some x => (copyLoop s (i + step) e step hstep).map (x :: ·)
  else some []
termination_by e - i

/-- `list_ref.cc:284-304` `List::get_slice`. -/
def listGetSlice (s : List α) (b e step : Int) : Except Err (List α) :=
  if hs : step > 0 then
    let len : Int := s.length
    let b := sliceIndexCorrection b len
    let e := sliceIndexCorrection e len
    if e ≤ b then .ok []
    else if step = 1 then .ok ((s.drop b.toNat).take (e.toNat - b.toNat))
    else
      match copyLoop s b.toNat e.toNat step.toNat (by omega) with
      | some r => .ok r
      | none => .error .badBuffer
  else .error .stepNotPositive

/-- Wrap to `int64_t`. -/
def wrapI64 (x : Int) : Int := (x + 9223372036854775808) % 18446744073709551616 - 9223372036854775808

/-- `string_helper.cc:109-132` `StringHelper::GetSlice` and `unicode_helper.cc:123-145`
`UnicodeHelper::GetSlice`.  The output buffer is allocated with the computed size
`(e - b + step - 1) / step` (64-bit arithmetic, modelled with wrap-around) and then filled;
`badBuffer` is the result when the number of elements written differs from the size allocated. -/
def strGetSlice (s : List α) (b e step : Int) : Except Err (List α) :=
  if hs : step > 0 then
    let len : Int := s.length
    let b := sliceIndexCorrection b len
    let e := sliceIndexCorrection e len
    if e ≤ b then .ok []
    else if step = 1 then .ok ((s.drop b.toNat).take (e.toNat - b.toNat))
    else
      let newSize := (wrapI64 (e - b + step - 1)).tdiv step
      match copyLoop s b.toNat e.toNat step.toNat (by omega) with
      | some r => if (r.length : Int) = newSize then .ok r else .error .badBuffer
      | none => .error .badBuffer
  else .error .stepNotPositive

/-- `list_ref.cc:262-268` `List::get_item`, `unicode_helper.cc:116-121` `GetItem`. -/
def getItem (s : List α) (i : Int) : Except Err α :=
  let len : Int := s.length
  if (i ≥ 0 ∧ i < len) ∨ (i < 0 ∧ i ≥ -len) then
    match s[(sliceIndexCorrection i len).toNat]? with
    | some x => .ok x
    | none => .error .badBuffer
  else .error .indexOverflow

/-- `string_helper.cc:102-107` `StringHelper::GetItem` on bytes: the element is a plain `char`
(signed on the x86-64 Linux targets), widened by `int64_t{sv[pos]}`. -/
def bytesGetItem (s : List (BitVec 8)) (i : Int) : Except Err Int :=
  (getItem s i).map BitVec.toInt

/-- `list_ref.cc:270-278` `List::set_item`. -/
def setItem (s : List α) (i : Int) (x : α) : Except Err (List α) :=
  let len : Int := s.length
  let i := if i < 0 then i + len else i
  if i ≥ 0 ∧ i < len then .ok (s.set i.toNat x) else .error .indexOverflow

/-! ## Specification -/

/-- Python's index adjustment for a positive step (language reference: negative indices count
from the end, out-of-range indices are clamped). -/
def pyClamp (i len : Int) : Int := max 0 (min len (if i < 0 then i + len else i))

/-- The positions a Python slice selects, in increasing order. -/
def pySlicePositions (len : Nat) (b e step : Int) : List Nat :=
  (List.range len).filter fun i =>
    decide (pyClamp b len ≤ i ∧ i < pyClamp e len ∧ step ∣ (i - pyClamp b len))

/-! ## Lemmas -/

theorem sliceIndexCorrection_eq (i : Int) (len : Nat) :
    sliceIndexCorrection i len = pyClamp i len := by
  unfold sliceIndexCorrection pyClamp
  split <;> split <;> omega

theorem clamp_range (i : Int) (len : Nat) : 0 ≤ pyClamp i len ∧ pyClamp i len ≤ len := by
  unfold pyClamp
  split <;> omega

/-- positions `i, i+step, ... < e` -/
def positions (i e step : Nat) (h : 0 < step) : List Nat :=
  if i < e then i :: positions (i + step) e step h else []
termination_by e - i

theorem filter_range_from (n : Nat) (p : Nat → Bool) (i : Nat) (hi : i < n) (hpi : p i = true)
    (hlt : ∀ j < i, p j = false) :
    (List.range n).filter p = i :: ((List.range n).filter fun j => decide (i < j) && p j) := by
  have hr : List.range n = List.range i ++ i :: (List.range' (i + 1) (n - (i + 1))) := by
    rw [List.range_eq_range', List.range_eq_range']
    have h1 : List.range' 0 n = List.range' 0 i ++ List.range' (0 + 1 * i) (n - i) := by
      rw [List.range'_append]; congr 1; omega
    rw [h1]
    have h2 : n - i = (n - (i + 1)) + 1 := by omega
    rw [h2, List.range'_succ]
    simp
  rw [hr, List.filter_append, List.filter_append, List.filter_cons, List.filter_cons]
  have e1 : (List.range i).filter p = [] := by
    rw [List.filter_eq_nil_iff]; intro a ha; rw [hlt a (List.mem_range.mp ha)]; simp
  have e2 : (List.range i).filter (fun j => decide (i < j) && p j) = [] := by
    rw [List.filter_eq_nil_iff]; intro a ha
    have := List.mem_range.mp ha
    simp; omega
  rw [e1, e2, hpi]
  simp
  apply List.filter_congr
  intro x hx
  have := List.mem_range'.mp hx
  simp; omega

theorem positions_eq (n : Nat) (i e step : Nat) (h : 0 < step) (he : e ≤ n) :
    positions i e step h =
      (List.range n).filter fun j => decide (i ≤ j ∧ j < e ∧ (step : Int) ∣ ((j : Int) - i)) := by
  fun_induction positions i e step h with
  | case1 i hi ih =>
    rw [filter_range_from n _ i (by omega) (by simp; omega) (by intro j hj; simp; omega), ih]
    congr 1
    apply List.filter_congr
    intro j _
    rw [← Bool.decide_and, decide_eq_decide]
    constructor
    · rintro ⟨h1, h2, h3⟩
      refine ⟨by omega, by omega, h2, ?_⟩
      have : (j : Int) - i = ((j : Int) - ((i + step : Nat) : Int)) + step := by push_cast; ring
      rw [this]
      exact Int.dvd_add h3 (Int.dvd_refl _)
    · rintro ⟨h1, h2, h3, h4⟩
      have h5 : (step : Int) ≤ (j : Int) - i := Int.le_of_dvd (by omega) h4
      refine ⟨by omega, h3, ?_⟩
      have : ((j : Int) - ((i + step : Nat) : Int)) = (j : Int) - i - step := by push_cast; ring
      rw [this]
      exact Int.dvd_sub h4 (Int.dvd_refl _)
  | case2 i hi =>
    symm
    rw [List.filter_eq_nil_iff]
    intro a _
    simp; omega

theorem copyLoop_eq (s : List α) (i e step : Nat) (h : 0 < step) (he : e ≤ s.length) :
    copyLoop s i e step h = some ((positions i e step h).filterMap (s[·]?)) := by
  fun_induction copyLoop s i e step h with
  | case1 i hi hnone => simp at hnone; omega
  | case2 i hi x hx ih =>
    conv => rhs; rw [positions, if_pos hi]
    rw [ih]
    simp [hx]
  | case3 i hi => rw [positions, if_neg hi]; rfl

theorem positions_length (i e step : Nat) (h : 0 < step) :
    (positions i e step h).length = (e - i + step - 1) / step := by
  fun_induction positions i e step h with
  | case1 i hi ih =>
    simp only [List.length_cons, ih]
    by_cases hle : i + step ≤ e
    · have : e - i + step - 1 = (e - (i + step) + step - 1) + step := by omega
      rw [this, Nat.add_div_right _ h]
    · have h1 : e - (i + step) + step - 1 = step - 1 := by omega
      have h2 : e - i + step - 1 = (e - i - 1) + step := by omega
      rw [h1, h2, Nat.add_div_right _ h, Nat.div_eq_of_lt (by omega), Nat.div_eq_of_lt (by omega)]
  | case2 i hi =>
    rw [List.length_nil, eq_comm]
    exact Nat.div_eq_of_lt (by omega)

theorem positions_step_one (i e : Nat) : positions i e 1 (by omega) = List.range' i (e - i) := by
  have : ∀ n i e, n = e - i → positions i e 1 (by omega) = List.range' i (e - i) := by
    intro n
    induction n with
    | zero => intro i e h; rw [positions, if_neg (by omega)]; rw [← h]; rfl
    | succ n ih =>
      intro i e h
      rw [positions, if_pos (by omega), ih (i + 1) e (by omega)]
      rw [show e - i = (e - (i + 1)) + 1 by omega, List.range'_succ]
  exact this _ i e rfl

theorem drop_take_eq (s : List α) (b e : Nat) (he : e ≤ s.length) :
    (s.drop b).take (e - b) = (List.range' b (e - b)).filterMap (s[·]?) := by
  have : ∀ n b, n = e - b → (s.drop b).take n = (List.range' b n).filterMap (s[·]?) := by
    intro n
    induction n with
    | zero => intro b _; simp
    | succ n ih =>
      intro b h
      have hb : b < s.length := by omega
      rw [List.range'_succ, List.drop_eq_getElem_cons hb, List.take_succ_cons, ih (b + 1) (by omega)]
      simp [hb]
  exact this _ b rfl

end Verif.Slice
