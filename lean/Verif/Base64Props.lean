import Verif.Base64

/-!
# Properties of base64 (C20)
-/

namespace Verif.Base64

/-! ### Bit operations as arithmetic (complete case analysis over the 256 byte values) -/

theorem and_fc : ∀ a < 256, (a &&& 0xfc) >>> 2 = a / 4 := by decide +kernel
theorem and_03 : ∀ a < 256, (a &&& 0x03) <<< 4 = a % 4 * 16 := by decide +kernel
theorem and_f0 : ∀ a < 256, (a &&& 0xf0) >>> 4 = a / 16 := by decide +kernel
theorem and_0f : ∀ a < 256, (a &&& 0x0f) <<< 2 = a % 16 * 4 := by decide +kernel
theorem and_c0 : ∀ a < 256, (a &&& 0xc0) >>> 6 = a / 64 := by decide +kernel
theorem and_3f : ∀ a < 256, a &&& 0x3f = a % 64 := by decide +kernel
theorem shl_2 : ∀ a < 64, a <<< 2 = a * 4 := by decide +kernel
theorem and_30 : ∀ a < 64, (a &&& 0x30) >>> 4 = a / 16 := by decide +kernel
theorem and_f : ∀ a < 64, (a &&& 0xf) <<< 4 = a % 16 * 16 := by decide +kernel
theorem and_3c : ∀ a < 64, (a &&& 0x3c) >>> 2 = a / 4 := by decide +kernel
theorem and_3 : ∀ a < 64, (a &&& 0x3) <<< 6 = a % 4 * 64 := by decide +kernel

theorem findChr_chr : ∀ k < 64, findChr (chr k).toNat = k := by decide +kernel
theorem isBase64_chr : ∀ k < 64, isBase64 (chr k) = true := by decide +kernel
theorem chr_ne_pad : ∀ k < 64, chr k ≠ UInt8.ofNat 61 := by decide +kernel

theorem enc4_eq (a b c : UInt8) :
    enc4 a.toNat b.toNat c.toNat =
      [a.toNat / 4, a.toNat % 4 * 16 + b.toNat / 16, b.toNat % 16 * 4 + c.toNat / 64,
       c.toNat % 64] := by
  have ha := a.toNat_lt
  have hb := b.toNat_lt
  have hc := c.toNat_lt
  simp only [Nat.reducePow] at ha hb hc
  unfold enc4
  rw [and_fc _ ha, and_03 _ ha, and_f0 _ hb, and_0f _ hb, and_c0 _ hc, and_3f _ hc]
  rw [Nat.mod_eq_of_lt (by omega : a.toNat / 4 < 256),
    Nat.mod_eq_of_lt (by omega : a.toNat % 4 * 16 + b.toNat / 16 < 256),
    Nat.mod_eq_of_lt (by omega : b.toNat % 16 * 4 + c.toNat / 64 < 256),
    Nat.mod_eq_of_lt (by omega : c.toNat % 64 < 256)]

theorem encLoop_spec : ∀ (s ret : List UInt8), encLoop s [] ret = ret ++ spec s
  | [], ret => by simp [encLoop, encTail, spec]
  | [a], ret => by
    have h := enc4_eq a 0 0
    have ha := a.toNat_lt
    simp only [Nat.reducePow] at ha
    simp only [UInt8.toNat_zero] at h
    simp [encLoop, encTail, spec, h]
    constructor
    · congr 1; omega
    · congr 1; omega
  | [a, b], ret => by
    have h := enc4_eq a b 0
    have ha := a.toNat_lt
    have hb := b.toNat_lt
    simp only [Nat.reducePow] at ha hb
    simp only [UInt8.toNat_zero] at h
    simp [encLoop, encTail, spec, h]
    refine ⟨?_, ?_, ?_⟩ <;> congr 1 <;> omega
  | a :: b :: c :: r, ret => by
    have h := enc4_eq a b c
    have ha := a.toNat_lt
    have hb := b.toNat_lt
    have hc := c.toNat_lt
    simp only [Nat.reducePow] at ha hb hc
    have ih := encLoop_spec r
    simp [encLoop, spec, h, ih]
    refine ⟨?_, ?_, ?_, ?_⟩ <;> congr 1 <;> omega

/-- **C20, encoder.**  For every byte string shorter than 4 GiB the encoder produces the RFC 4648
encoding. -/
theorem encode_spec (s : List UInt8) (h : s.length < 2 ^ 32) : encode s = spec s := by
  unfold encode
  rw [Nat.mod_eq_of_lt h, List.take_length, encLoop_spec]
  rfl

theorem spec_length : ∀ s : List UInt8, (spec s).length = 4 * ((s.length + 2) / 3)
  | [] => rfl
  | [_] => by simp [spec]
  | [_, _] => by simp [spec]
  | a :: b :: c :: r => by
    have := spec_length r
    simp only [spec, List.length_append, List.length_cons, List.length_nil, this]
    omega

/-- **C20, form of the encoded text.**  Alphabet characters followed by 0, 1 or 2 `=`, and the length is
`4 * ceil(n / 3)`. -/
theorem encode_form (s : List UInt8) (h : s.length < 2 ^ 32) :
    (encode s).length = 4 * ((s.length + 2) / 3) ∧
    ∃ body, encode s = body ++ List.replicate ((3 - s.length % 3) % 3) (UInt8.ofNat 61) ∧
      ∀ c ∈ body, isBase64 c = true ∧ c ≠ UInt8.ofNat 61 := by
  rw [encode_spec s h]
  refine ⟨spec_length s, ?_⟩
  clear h
  have good : ∀ k, k < 64 → isBase64 (chr k) = true ∧ chr k ≠ UInt8.ofNat 61 :=
    fun k hk => ⟨isBase64_chr k hk, chr_ne_pad k hk⟩
  induction s using spec.induct with
  | case1 a b c r ih =>
    have ha := a.toNat_lt
    have hb := b.toNat_lt
    have hc := c.toNat_lt
    simp only [Nat.reducePow] at ha hb hc
    obtain ⟨body, h1, h2⟩ := ih
    generalize hn : a.toNat * 65536 + b.toNat * 256 + c.toNat = n at *
    refine ⟨[chr (n / 262144), chr (n / 4096 % 64), chr (n / 64 % 64), chr (n % 64)] ++ body, ?_, ?_⟩
    · simp only [spec, h1, List.length_cons, List.append_assoc]
      rw [hn, show (r.length + 1 + 1 + 1) % 3 = r.length % 3 by omega]
    · intro c hc
      rw [List.mem_append] at hc
      rcases hc with hc | hc
      · simp only [List.mem_cons, List.not_mem_nil, or_false] at hc
        rcases hc with rfl | rfl | rfl | rfl <;> apply good <;> omega
      · exact h2 c hc
  | case2 a b =>
    have ha := a.toNat_lt
    have hb := b.toNat_lt
    simp only [Nat.reducePow] at ha hb
    refine ⟨[chr ((a.toNat * 256 + b.toNat) * 4 / 4096), chr ((a.toNat * 256 + b.toNat) * 4 / 64 % 64),
      chr ((a.toNat * 256 + b.toNat) * 4 % 64)], by simp [spec], ?_⟩
    intro c hc
    simp only [List.mem_cons, List.not_mem_nil, or_false] at hc
    rcases hc with rfl | rfl | rfl <;> apply good <;> omega
  | case3 a =>
    have ha := a.toNat_lt
    simp only [Nat.reducePow] at ha
    refine ⟨[chr (a.toNat * 16 / 64), chr (a.toNat * 16 % 64)], rfl, ?_⟩
    intro c hc
    simp only [List.mem_cons, List.not_mem_nil, or_false] at hc
    rcases hc with rfl | rfl <;> apply good <;> omega
  | case4 => exact ⟨[], rfl, by simp⟩

/-! ### Decoder -/

theorem decLoop_step (k : Nat) (hk : k < 64) (xs : List UInt8) (rem : Int) (hr : rem ≠ 0)
    (buf ret : List UInt8) (hb : buf.length < 3) :
    decLoop (chr k :: xs) rem buf ret = decLoop xs (rem - 1) (buf ++ [chr k]) ret := by
  conv => lhs; unfold decLoop
  rw [if_neg hr]
  have h1 := isBase64_chr k hk
  have h2 := chr_ne_pad k hk
  simp only [h1, h2, decide_false, Bool.not_true, Bool.or_self, Bool.false_eq_true, if_false]
  rw [if_neg (by simp; omega)]

theorem decLoop_four (k0 k1 k2 k3 : Nat) (h0 : k0 < 64) (h1 : k1 < 64) (h2 : k2 < 64) (h3 : k3 < 64)
    (xs : List UInt8) (rem : Int) (hr : rem < 0 ∨ 4 ≤ rem) (ret : List UInt8) :
    decLoop (chr k0 :: chr k1 :: chr k2 :: chr k3 :: xs) rem [] ret =
      decLoop xs (rem - 4) [] (ret ++ (dec3 k0 k1 k2 k3).map UInt8.ofNat) := by
  rw [decLoop_step k0 h0 _ _ (by omega) _ _ (by simp),
    decLoop_step k1 h1 _ _ (by omega) _ _ (by simp),
    decLoop_step k2 h2 _ _ (by omega) _ _ (by simp)]
  conv => lhs; unfold decLoop
  rw [if_neg (by omega)]
  have h4 := isBase64_chr k3 h3
  have h5 := chr_ne_pad k3 h3
  simp only [h4, h5, decide_false, Bool.not_true, Bool.or_self, Bool.false_eq_true, if_false]
  rw [if_pos (by simp)]
  simp only [List.nil_append, List.cons_append, List.getD_cons_zero, List.getD_cons_succ,
    findChr_chr _ h0, findChr_chr _ h1, findChr_chr _ h2, findChr_chr _ h3]
  congr 1
  omega

theorem decLoop_pad (xs : List UInt8) (rem : Int) (hr : rem ≠ 0) (buf ret : List UInt8) :
    decLoop (UInt8.ofNat 61 :: xs) rem buf ret = some (decTail buf ret) := by
  unfold decLoop
  rw [if_neg hr]
  simp

theorem dec3_eq (a b c d : Nat) (ha : a < 64) (hb : b < 64) (hc : c < 64) (hd : d < 64) :
    dec3 a b c d = [a * 4 + b / 16, b % 16 * 16 + c / 4, c % 4 * 64 + d] := by
  unfold dec3
  rw [shl_2 _ ha, and_30 _ hb, and_f _ hb, and_3c _ hc, and_3 _ hc]
  rw [Nat.mod_eq_of_lt (by omega : a * 4 + b / 16 < 256),
    Nat.mod_eq_of_lt (by omega : b % 16 * 16 + c / 4 < 256),
    Nat.mod_eq_of_lt (by omega : c % 4 * 64 + d < 256)]

theorem ofNat_toNat_eq (a : UInt8) (n : Nat) (h : n = a.toNat) : UInt8.ofNat n = a := by
  subst h; exact UInt8.ofNat_toNat

/-- The decoder on the RFC encoding, for any counter that does not run out. -/
theorem decLoop_spec : ∀ (s ret : List UInt8) (rem : Int),
    (rem = (spec s).length ∨ (rem < 0 ∧ s.length % 3 ≠ 0)) →
    decLoop (spec s) rem [] ret = some (ret ++ s)
  | [], ret, rem, h => by
    have : rem = 0 := by
      rcases h with h | h
      · simpa [spec] using h
      · simp at h
    subst this
    unfold decLoop
    simp [decTail]
  | [a], ret, rem, h => by
    have ha := a.toNat_lt
    simp only [Nat.reducePow] at ha
    have hr : rem < 0 ∨ 4 ≤ rem := by
      rcases h with h | h
      · right; rw [spec_length] at h; simp at h; omega
      · left; exact h.1
    simp only [spec]
    rw [decLoop_step _ (by omega) _ _ (by omega) _ _ (by simp),
      decLoop_step _ (by omega) _ _ (by omega) _ _ (by simp),
      decLoop_pad _ _ (by omega)]
    simp only [decTail, List.nil_append, List.cons_append, List.length_cons, List.length_nil,
      List.getD_cons_zero, List.getD_cons_succ]
    rw [findChr_chr _ (by omega), findChr_chr _ (by omega), if_neg (by omega)]
    simp only [dec3]
    rw [shl_2 _ (by omega), and_30 _ (by omega)]
    simp only [Nat.add_one_sub_one, List.take_succ_cons, List.take_zero, List.map_cons, List.map_nil]
    rw [ofNat_toNat_eq a _ (by omega)]
  | [a, b], ret, rem, h => by
    have ha := a.toNat_lt
    have hb := b.toNat_lt
    simp only [Nat.reducePow] at ha hb
    have hr : rem < 0 ∨ 4 ≤ rem := by
      rcases h with h | h
      · right; rw [spec_length] at h; simp at h; omega
      · left; exact h.1
    simp only [spec]
    rw [decLoop_step _ (by omega) _ _ (by omega) _ _ (by simp),
      decLoop_step _ (by omega) _ _ (by omega) _ _ (by simp),
      decLoop_step _ (by omega) _ _ (by omega) _ _ (by simp),
      decLoop_pad _ _ (by omega)]
    simp only [decTail, List.nil_append, List.cons_append, List.length_cons, List.length_nil,
      List.getD_cons_zero, List.getD_cons_succ]
    rw [findChr_chr _ (by omega), findChr_chr _ (by omega), findChr_chr _ (by omega),
      if_neg (by omega)]
    simp only [dec3]
    rw [shl_2 _ (by omega), and_30 _ (by omega), and_f _ (by omega), and_3c _ (by omega)]
    simp only [Nat.add_one_sub_one, List.take_succ_cons, List.take_zero, List.map_cons, List.map_nil]
    rw [ofNat_toNat_eq a _ (by omega), ofNat_toNat_eq b _ (by omega)]
  | a :: b :: c :: r, ret, rem, h => by
    have ha := a.toNat_lt
    have hb := b.toNat_lt
    have hc := c.toNat_lt
    simp only [Nat.reducePow] at ha hb hc
    have hr : rem < 0 ∨ 4 ≤ rem := by
      rcases h with h | h
      · right; rw [spec_length] at h; simp at h; omega
      · left; exact h.1
    simp only [spec, List.cons_append, List.nil_append]
    rw [decLoop_four _ _ _ _ (by omega) (by omega) (by omega) (by omega) _ _ hr,
      dec3_eq _ _ _ _ (by omega) (by omega) (by omega) (by omega)]
    simp only [List.map_cons, List.map_nil]
    rw [ofNat_toNat_eq a _ (by omega), ofNat_toNat_eq b _ (by omega), ofNat_toNat_eq c _ (by omega)]
    rw [decLoop_spec r _ _ ?_]
    · simp
    · rcases h with h | ⟨h, h'⟩
      · left
        rw [spec_length] at h ⊢
        simp only [List.length_cons] at h
        omega
      · right
        simp only [List.length_cons] at h'
        omega

/-- **C20, round trip.**  Decoding inverts encoding for every byte string whose encoded text is
shorter than 2^31 characters (up to 1 610 612 733 bytes), with no read outside the text. -/
theorem decode_encode_partial (s : List UInt8) (h : s.length ≤ 3 * (2 ^ 29 - 1)) :
    decode (encode s) = some s := by
  simp only [Nat.reducePow] at h
  rw [encode_spec s (by simp only [Nat.reducePow]; omega)]
  unfold decode
  rw [decLoop_spec s [] _ ?_]
  · simp
  · left
    have hl := spec_length s
    unfold toInt32
    simp only [Nat.reducePow]
    rw [Nat.mod_eq_of_lt (by omega), if_pos (by omega)]

/-- The encoder keeps 32 bits of the length: 4 GiB of input are encoded as the empty text. -/
theorem encode_4GiB_refuted (s : List UInt8) (h : s.length = 2 ^ 32) : encode s = [] := by
  unfold encode
  rw [h, Nat.mod_self, List.take_zero]
  rfl

theorem decLoop_spec_overrun : ∀ (s ret : List UInt8) (rem : Int), rem < 0 → s.length % 3 = 0 →
    decLoop (spec s) rem [] ret = none
  | [], ret, rem, h, _ => by
    unfold decLoop
    simp [spec]; omega
  | [_], _, _, _, h => by simp at h
  | [_, _], _, _, _, h => by simp at h
  | a :: b :: c :: r, ret, rem, h, h' => by
    have ha := a.toNat_lt
    have hb := b.toNat_lt
    have hc := c.toNat_lt
    simp only [Nat.reducePow] at ha hb hc
    simp only [spec, List.cons_append, List.nil_append]
    rw [decLoop_four _ _ _ _ (by omega) (by omega) (by omega) (by omega) _ _ (by omega)]
    exact decLoop_spec_overrun r _ _ (by omega) (by simp only [List.length_cons] at h'; omega)

/-- The decoder converts the length to `int`: on a text of 2^31 characters without padding it reads
past the end. -/
theorem decode_2GiB_refuted (s : List UInt8) (h : s.length = 3 * 2 ^ 29) :
    decode (encode s) = none := by
  simp only [Nat.reducePow] at h
  rw [encode_spec s (by simp only [Nat.reducePow]; omega)]
  unfold decode
  apply decLoop_spec_overrun
  · have hl := spec_length s
    unfold toInt32
    simp only [Nat.reducePow]
    rw [Nat.mod_eq_of_lt (by omega), if_neg (by omega)]
    omega
  · omega

/-! ### Decoding arbitrary text -/

theorem decLoop_prefix : ∀ (s buf ret : List UInt8),
    decLoop s s.length buf ret =
      decLoop (s.takeWhile isBase64) (s.takeWhile isBase64).length buf ret
  | [], buf, ret => rfl
  | x :: xs, buf, ret => by
    have e : ((x :: xs).length : Int) - 1 = xs.length := by simp
    by_cases hx : isBase64 x = true
    · have hne : x ≠ UInt8.ofNat 61 := by
        intro h; subst h; exact absurd hx (by decide)
      have e' : ((x :: xs.takeWhile isBase64).length : Int) - 1 = (xs.takeWhile isBase64).length := by
        simp
      rw [List.takeWhile_cons_of_pos hx]
      conv => lhs; unfold decLoop
      conv => rhs; unfold decLoop
      rw [if_neg (by simp; omega), if_neg (by simp; omega)]
      simp only [hx, hne, decide_false, Bool.not_true, Bool.or_self, Bool.false_eq_true, if_false]
      rw [e, e', decLoop_prefix xs, decLoop_prefix xs]
    · rw [List.takeWhile_cons_of_neg hx]
      conv => lhs; unfold decLoop
      conv => rhs; unfold decLoop
      rw [if_neg (by simp; omega)]
      simp [hx]

theorem chr_of_isBase64 (c : UInt8) (h : isBase64 c = true) : ∃ k, k < 64 ∧ chr k = c := by
  have key : ∀ n < 256, isBase64 (UInt8.ofNat n) = true →
      findChr n < 64 ∧ chr (findChr n) = UInt8.ofNat n := by decide +kernel
  have hc := c.toNat_lt
  simp only [Nat.reducePow] at hc
  have := key c.toNat hc (by rw [UInt8.ofNat_toNat]; exact h)
  rw [UInt8.ofNat_toNat] at this
  exact ⟨_, this⟩

theorem map_chr_of_all : ∀ (t : List UInt8), (∀ c ∈ t, isBase64 c = true) →
    ∃ ks : List Nat, (∀ k ∈ ks, k < 64) ∧ ks.map chr = t
  | [], _ => ⟨[], by simp, rfl⟩
  | c :: t, h => by
    obtain ⟨k, hk, hkc⟩ := chr_of_isBase64 c (h c (by simp))
    obtain ⟨ks, h1, h2⟩ := map_chr_of_all t (fun x hx => h x (by simp [hx]))
    refine ⟨k :: ks, ?_, by simp [hkc, h2]⟩
    intro x hx
    rcases List.mem_cons.mp hx with rfl | hx
    · exact hk
    · exact h1 x hx

theorem decLoop_nil (buf ret : List UInt8) : decLoop [] 0 buf ret = some (decTail buf ret) := by
  unfold decLoop; simp

theorem decLoop_digits : ∀ (ks : List Nat) (ret : List UInt8), (∀ k ∈ ks, k < 64) →
    decLoop (ks.map chr) ks.length [] ret = some (ret ++ (specDec ks).map UInt8.ofNat)
  | [], ret, _ => by simp [decLoop_nil, decTail, specDec]
  | [a], ret, h => by
    have ha := h a (by simp)
    simp only [List.map_cons, List.map_nil, List.length_cons, List.length_nil]
    rw [decLoop_step a ha _ _ (by omega) _ _ (by simp)]
    simp [decLoop_nil, decTail, specDec]
  | [a, b], ret, h => by
    have ha := h a (by simp)
    have hb := h b (by simp)
    simp only [List.map_cons, List.map_nil, List.length_cons, List.length_nil]
    rw [decLoop_step a ha _ _ (by omega) _ _ (by simp),
      decLoop_step b hb _ _ (by omega) _ _ (by simp)]
    rw [show ((0 + 1 + 1 : Nat) : Int) - 1 - 1 = 0 by rfl]
    simp only [decLoop_nil, decTail, specDec, List.nil_append, List.cons_append, List.length_cons, List.length_nil,
      List.getD_cons_zero, List.getD_cons_succ, findChr_chr a ha, findChr_chr b hb, dec3]
    rw [shl_2 _ ha, and_30 _ hb, if_neg (by omega)]
    simp only [Nat.add_one_sub_one, List.take_succ_cons, List.take_zero, List.map_cons, List.map_nil]
    congr 3
    congr 1
    omega
  | [a, b, c], ret, h => by
    have ha := h a (by simp)
    have hb := h b (by simp)
    have hc := h c (by simp)
    simp only [List.map_cons, List.map_nil, List.length_cons, List.length_nil]
    rw [decLoop_step a ha _ _ (by omega) _ _ (by simp),
      decLoop_step b hb _ _ (by omega) _ _ (by simp),
      decLoop_step c hc _ _ (by omega) _ _ (by simp)]
    rw [show ((0 + 1 + 1 + 1 : Nat) : Int) - 1 - 1 - 1 = 0 by rfl]
    simp only [decLoop_nil, decTail, specDec, List.nil_append, List.cons_append, List.length_cons, List.length_nil,
      List.getD_cons_zero, List.getD_cons_succ, findChr_chr a ha, findChr_chr b hb,
      findChr_chr c hc, dec3]
    rw [shl_2 _ ha, and_30 _ hb, and_f _ hb, and_3c _ hc, if_neg (by omega)]
    simp only [Nat.add_one_sub_one, List.take_succ_cons, List.take_zero, List.map_cons, List.map_nil]
    congr 3
    · congr 1; omega
    · congr 2; omega
  | a :: b :: c :: d :: r, ret, h => by
    have ha := h a (by simp)
    have hb := h b (by simp)
    have hc := h c (by simp)
    have hd := h d (by simp)
    simp only [List.map_cons, List.length_cons]
    rw [decLoop_four a b c d ha hb hc hd _ _ (by omega)]
    rw [show ((r.length + 1 + 1 + 1 + 1 : Nat) : Int) - 4 = r.length by omega]
    rw [decLoop_digits r _ (fun k hk => h k (by simp [hk])), dec3_eq a b c d ha hb hc hd]
    simp only [specDec, List.map_append, List.map_cons, List.map_nil, List.append_assoc,
      List.cons_append, List.nil_append]
    congr 3
    · congr 1; omega
    · congr 2
      · omega
      · congr 2; omega

/-- **C20, decoder on any text.**  For every text shorter than 2^31 characters the decoder stays
inside the text and returns the bytes denoted by the digits before the first character outside the
alphabet. -/
theorem decode_any (s : List UInt8) (h : s.length < 2 ^ 31) :
    ∃ ks : List Nat, (∀ k ∈ ks, k < 64) ∧ ks.map chr = s.takeWhile isBase64 ∧
      decode s = some ((specDec ks).map UInt8.ofNat) := by
  obtain ⟨ks, h1, h2⟩ := map_chr_of_all (s.takeWhile isBase64)
    (fun c hc => by
      have := List.all_takeWhile (p := isBase64) (l := s)
      rw [List.all_eq_true] at this
      exact this c hc)
  refine ⟨ks, h1, h2, ?_⟩
  have e : toInt32 s.length = s.length := by
    unfold toInt32
    simp only [Nat.reducePow] at h ⊢
    rw [Nat.mod_eq_of_lt (by omega), if_pos h]
  unfold decode
  rw [e, decLoop_prefix, ← h2, List.length_map, decLoop_digits ks [] h1]
  rfl

/-- Distinct byte strings have distinct encodings. -/
theorem encode_injective (s t : List UInt8) (hs : s.length ≤ 3 * (2 ^ 29 - 1))
    (ht : t.length ≤ 3 * (2 ^ 29 - 1)) (h : encode s = encode t) : s = t := by
  have h1 := decode_encode_partial s hs
  rw [h, decode_encode_partial t ht] at h1
  injection h1 with h1
  exact h1.symm

/-- `b64encode(b"Many") == b"TWFueQ=="` and back. -/
example : encode [77, 97, 110, 121] = [84, 87, 70, 117, 101, 81, 61, 61] ∧
    decode [84, 87, 70, 117, 101, 81, 61, 61] = some [77, 97, 110, 121] := by decide +kernel

/-- Characters outside the alphabet stop the decoder (Python would skip the newline). -/
example : decode [84, 87, 70, 117, 10, 101, 81, 61, 61] = some [77, 97, 110] := by decide +kernel

end Verif.Base64
