import Verif.DTypeStr

/-!
# Properties of data type names (C23)
-/

namespace Verif.DTypeStr

theorem isDigit_digit : ∀ d < 10, isDigit (digit d) = true ∧ (digit d).toNat - 48 = d := by
  decide +kernel

/-- A suffix at which `strtoul` stops. -/
def stops : List Char → Prop
  | [] => True
  | c :: _ => isDigit c = false

theorem loop_append_digit (s : List Char) (hs : ∀ c ∈ s, isDigit c = true) (r : List Char) :
    ∀ acc, strtoulLoop (s ++ r) acc = strtoulLoop r (strtoulLoop s acc).1 := by
  induction s with
  | nil => intro acc; rfl
  | cons c s ih =>
    intro acc
    have hc := hs c (by simp)
    simp only [List.cons_append, strtoulLoop, hc, if_true]
    exact ih (fun x hx => hs x (by simp [hx])) _

theorem digits_all (n : Nat) : ∀ c ∈ digits n, isDigit c = true := by
  fun_induction digits n with
  | case1 n h => intro c hc; simp at hc; subst hc; exact (isDigit_digit n h).1
  | case2 n h ih =>
    intro c hc
    rcases List.mem_append.mp hc with hc | hc
    · exact ih c hc
    · simp at hc; subst hc; exact (isDigit_digit _ (by omega)).1

theorem digits_value (n : Nat) : (strtoulLoop (digits n) 0).1 = n := by
  fun_induction digits n with
  | case1 n h => simp [strtoulLoop, isDigit_digit n h]
  | case2 n h ih =>
    rw [loop_append_digit _ (digits_all _), ih]
    have := isDigit_digit (n % 10) (by omega)
    simp only [strtoulLoop, this.1, if_true, this.2]
    omega

theorem strtoul_digits (n : Nat) (h : n < 2 ^ 64) (r : List Char) (hr : stops r) :
    strtoul (digits n ++ r) = (n, r) := by
  unfold strtoul
  rw [loop_append_digit _ (digits_all _), digits_value]
  have : strtoulLoop r n = (n, r) := by
    cases r with
    | nil => rfl
    | cons c r => simp only [stops] at hr; simp [strtoulLoop, hr]
  rw [this]
  simp only
  congr 1
  omega

theorem parseTail_print (code dflt bits lanes : Nat) (hb : 0 < bits) (hb2 : bits < 256)
    (hl : lanes < 65536) :
    parseTail code dflt (if lanes ≠ 1 then digits bits ++ 'x' :: digits lanes else digits bits) =
      some ⟨code, bits, lanes⟩ := by
  have hbm : bits % 256 = bits := Nat.mod_eq_of_lt hb2
  split
  · unfold parseTail
    rw [strtoul_digits bits (by simp only [Nat.reducePow]; omega) _ (by rfl)]
    simp only [hbm]
    have := strtoul_digits lanes (by simp only [Nat.reducePow]; omega) [] trivial
    rw [List.append_nil] at this
    rw [this]
    simp only [if_true, Nat.mod_eq_of_lt hl]
    rw [if_pos (by omega)]
  · rename_i h1
    have h1 : lanes = 1 := by simpa using h1
    unfold parseTail
    have := strtoul_digits bits (by simp only [Nat.reducePow]; omega) [] trivial
    rw [List.append_nil] at this
    rw [this]
    simp only [hbm]
    rw [if_pos (by omega), h1]

theorem toStr_num (t : DT) (p : List Char) (hb : 0 < t.bits) (hp : codeStr t.code = some p)
    (hh : t.code ≠ kHandle) (hnb : ¬ (t.bits = 1 ∧ t.lanes = 1 ∧ t.code = kUInt)) :
    toStr t = some (p ++ (if t.lanes ≠ 1 then digits t.bits ++ 'x' :: digits t.lanes
      else digits t.bits)) := by
  unfold toStr print
  rw [if_neg (by omega), if_neg hnb, if_neg (fun h => hh h.1), hp]
  simp only
  rw [if_neg hh]
  split <;> simp

/-- **C23.**  Every numeric type - any of the codes int, uint, float, bfloat, any bit width from 1
to 255, any number of lanes from 0 to 65535, `bool` included - is recovered from its name. -/
theorem numeric_round_trip (t : DT) (h : t.wf) (hb : 0 < t.bits)
    (hc : t.code = kInt ∨ t.code = kUInt ∨ t.code = kFloat ∨ t.code = kBfloat) :
    ∃ s, toStr t = some s ∧ parse s = some t := by
  obtain ⟨_, hb2, hl⟩ := h
  obtain ⟨code, bits, lanes⟩ := t
  simp only at hb hc hb2 hl
  by_cases hbool : bits = 1 ∧ lanes = 1 ∧ code = kUInt
  · obtain ⟨rfl, rfl, rfl⟩ := hbool
    exact ⟨['b', 'o', 'o', 'l'], by decide, by decide⟩
  · rcases hc with rfl | rfl | rfl | rfl
    · refine ⟨_, toStr_num _ _ hb rfl (by simp [kInt, kUInt, kFloat, kBfloat, kHandle]) hbool, ?_⟩
      simp only [parse, List.cons_append, List.nil_append, List.cons_ne_nil, if_false,
        List.take_succ_cons, List.take_zero, if_true, List.drop_succ_cons, List.drop_zero]
      exact parseTail_print _ _ _ _ hb hb2 hl
    · refine ⟨_, toStr_num _ _ hb rfl (by simp [kInt, kUInt, kFloat, kBfloat, kHandle]) hbool, ?_⟩
      simp only [parse, List.cons_append, List.nil_append, List.cons_ne_nil, if_false,
        List.take_succ_cons, List.take_zero, if_true, List.drop_succ_cons, List.drop_zero]
      rw [if_neg (by decide)]
      exact parseTail_print _ _ _ _ hb hb2 hl
    · refine ⟨_, toStr_num _ _ hb rfl (by simp [kInt, kUInt, kFloat, kBfloat, kHandle]) hbool, ?_⟩
      simp only [parse, List.cons_append, List.nil_append, List.cons_ne_nil, if_false,
        List.take_succ_cons, List.take_zero, if_true, List.drop_succ_cons, List.drop_zero]
      rw [if_neg (by decide), if_neg (by decide)]
      exact parseTail_print _ _ _ _ hb hb2 hl
    · refine ⟨_, toStr_num _ _ hb rfl (by simp [kInt, kUInt, kFloat, kBfloat, kHandle]) hbool, ?_⟩
      simp only [parse, List.cons_append, List.nil_append, List.cons_ne_nil, if_false,
        List.take_succ_cons, List.take_zero, if_true, List.drop_succ_cons, List.drop_zero]
      rw [if_neg (by decide), if_neg (by decide), if_neg (by decide), if_neg (by decide), if_neg (by
        intro h; injection h with _ h; injection h with h _; exact absurd h (by decide))]
      exact parseTail_print _ _ _ _ hb hb2 hl

/-- `void` and the ordinary handle type are recovered. -/
theorem void_handle_round_trip :
    (toStr ⟨kHandle, 0, 0⟩).bind parse = some ⟨kHandle, 0, 0⟩ ∧
    (toStr ⟨kHandle, 64, 1⟩).bind parse = some ⟨kHandle, 64, 1⟩ := by decide +kernel

/-- Names identify numeric types. -/
theorem toStr_injective (t u : DT) (ht : t.wf) (hu : u.wf) (hbt : 0 < t.bits) (hbu : 0 < u.bits)
    (hct : t.code = kInt ∨ t.code = kUInt ∨ t.code = kFloat ∨ t.code = kBfloat)
    (hcu : u.code = kInt ∨ u.code = kUInt ∨ u.code = kFloat ∨ u.code = kBfloat)
    (h : toStr t = toStr u) : t = u := by
  obtain ⟨s, h1, h2⟩ := numeric_round_trip t ht hbt hct
  obtain ⟨s', h3, h4⟩ := numeric_round_trip u hu hbu hcu
  rw [h, h3] at h1; injection h1 with h1; subst h1
  rw [h4] at h2; injection h2 with h2; exact h2.symm

/-- The property fails for vectors of handles (`handle`, 64 bits, 4 lanes): the lanes are not
printed. -/
theorem handle_lanes_refuted :
    (toStr ⟨kHandle, 64, 4⟩).bind parse = some ⟨kHandle, 64, 1⟩ := by decide +kernel

/-- ... and for types of zero bits, which are printed as the empty name of `void`. -/
theorem zero_bits_refuted : (toStr ⟨kInt, 0, 1⟩).bind parse = some ⟨kHandle, 0, 0⟩ := by
  decide +kernel

/-- The stream operator prints `void`, which the parser rejects. -/
theorem void_stream_refuted : (print ⟨kHandle, 0, 0⟩).bind parse = none := by decide +kernel

/-- Sizes out of range are accepted modulo 256: `int288` is `int32`. -/
theorem bits_wrap_refuted :
    parse ['i', 'n', 't', '2', '8', '8'] = some ⟨kInt, 32, 1⟩ := by decide +kernel

example : toStr ⟨kUInt, 8, 16⟩ = some ['u', 'i', 'n', 't', '8', 'x', '1', '6'] ∧
    parse ['u', 'i', 'n', 't', '8', 'x', '1', '6'] = some ⟨kUInt, 8, 16⟩ := by decide +kernel

end Verif.DTypeStr
