import Verif.MsgpackProps

/-!
# msgpack: decoding inverts encoding (C21)
-/

namespace Verif.Msgpack

/-! ## Headers -/

theorem drop_last (l rest : List UInt8) (k : Nat) (h : l.length = k) (hk : 1 ≤ k) :
    ∃ c, (l ++ rest).drop (k - 1) = c :: rest := by
  have hne : l ≠ [] := by intro h'; subst h'; simp at h; omega
  refine ⟨l.getLast hne, ?_⟩
  conv => lhs; rw [← List.dropLast_concat_getLast hne]
  rw [List.append_assoc, List.drop_append_of_le_length (by simp; omega)]
  have : l.dropLast.drop (k - 1) = [] := by apply List.drop_eq_nil_of_le; simp; omega
  rw [this]; rfl

theorem fixedTrail_num (E : Env) (cs k n : Nat) (f : Nat → Val) (rest : List UInt8)
    (ha : action E cs = .num k f) (hk : 1 ≤ k) (hn : n < 256 ^ k) :
    fixedTrail E cs k (be k n ++ rest) = .push (f n) rest := by
  obtain ⟨c, hc⟩ := drop_last (be k n) rest k (be_length k n) hk
  unfold fixedTrail
  rw [if_neg (by simp [be_length]), ha]
  dsimp only
  rw [if_neg (by simp [be_length]), hc, List.take_append_of_le_length (by simp [be_length])]
  rw [show (be k n).take k = be k n from List.take_of_length_le (by simp [be_length]), loadBE_be k n hn]
  rfl

theorem fixedTrail_cont (E : Env) (cs k n : Nat) (m : Bool) (rest : List UInt8)
    (ha : action E cs = .cont m k) (hk : 1 ≤ k) (hn : n < 256 ^ k) :
    fixedTrail E cs k (be k n ++ rest) = .start m n rest := by
  obtain ⟨c, hc⟩ := drop_last (be k n) rest k (be_length k n) hk
  unfold fixedTrail
  rw [if_neg (by simp [be_length]), ha]
  dsimp only
  rw [if_neg (by simp [be_length]), hc, List.take_append_of_le_length (by simp [be_length])]
  rw [show (be k n).take k = be k n from List.take_of_length_le (by simp [be_length]), loadBE_be k n hn]
  rfl

theorem fixedTrail_len (E : Env) (cs k acs : Nat) (b rest : List UInt8)
    (ha : action E cs = .lenOf acs k) (hk : 1 ≤ k) (hn : b.length < 256 ^ k)
    (hacs : acs = acsBin ∨ acs = acsRaw) :
    fixedTrail E cs k (be k b.length ++ (b ++ rest)) =
      if acs = acsBin then .push (.bytes b) rest else rawVal b rest := by
  obtain ⟨c, hc⟩ := drop_last (be k b.length) (b ++ rest) k (be_length _ _) hk
  unfold fixedTrail
  rw [if_neg (by simp [be_length]), ha]
  dsimp only
  rw [if_neg (by simp [be_length]), hc, List.take_append_of_le_length (by simp [be_length])]
  rw [show (be k b.length).take k = be k b.length from List.take_of_length_le (by simp [be_length]),
    loadBE_be k _ hn]
  have ht : trailOf acs b.length = b.length := by
    unfold trailOf; rw [if_neg]; rcases hacs with rfl | rfl <;> decide
  rw [ht]
  unfold again
  by_cases hz : b.length = 0
  · rw [if_pos hz]
    have hb : b = [] := List.eq_nil_of_length_eq_zero hz
    subst hb
    unfold value region
    rcases hacs with rfl | rfl
    · rw [if_pos rfl, if_pos rfl, if_neg (by omega)]; rfl
    · rw [if_neg (by decide), if_pos rfl, if_neg (by omega), if_neg (by decide)]; rfl
  · rw [if_neg hz]
    dsimp only
    rw [if_neg (by simp)]
    obtain ⟨d, hd⟩ := drop_last b rest b.length rfl (by omega)
    rw [hd]
    unfold value region
    have h1 : (b ++ rest).take b.length = b := by simp
    rcases hacs with rfl | rfl
    · rw [if_pos rfl, if_pos rfl, if_neg (by simp), h1]; rfl
    · rw [if_neg (by decide), if_pos rfl, if_neg (by simp), if_neg (by decide), h1]; rfl

theorem fixedTrail_lenExt (E : Env) (cs k : Nat) (tc : UInt8) (b rest : List UInt8)
    (ha : action E cs = .lenOf acsExt k) (hk : 1 ≤ k) (hn : b.length < 256 ^ k)
    (hl : b.length < 4294967295) :
    fixedTrail E cs k (be k b.length ++ (tc :: (b ++ rest))) = .ext tc (b ++ rest) b.length rest := by
  obtain ⟨c, hc⟩ := drop_last (be k b.length) (tc :: (b ++ rest)) k (be_length _ _) hk
  unfold fixedTrail
  rw [if_neg (by simp [be_length]), ha]
  dsimp only
  rw [if_neg (by simp [be_length]), hc, List.take_append_of_le_length (by simp [be_length])]
  rw [show (be k b.length).take k = be k b.length from List.take_of_length_le (by simp [be_length]),
    loadBE_be k _ hn]
  have ht : trailOf acsExt b.length = b.length + 1 := by
    unfold trailOf; rw [if_pos rfl]; omega
  rw [ht]
  unfold again
  rw [if_neg (by omega)]
  dsimp only
  rw [if_neg (by simp)]
  obtain ⟨d, hd⟩ := drop_last (tc :: b) rest (b.length + 1) rfl (by omega)
  rw [List.cons_append] at hd
  rw [hd]
  have hlen : (b.length + 1 + 4294967295) % 4294967296 = b.length := by omega
  unfold value next
  rw [if_neg (by decide), if_neg (by decide)]
  dsimp only
  rw [hlen]

theorem fixedTrail_ext (E : Env) (t : Nat) (tc : UInt8) (b rest : List UInt8)
    (ht : t = b.length + 1) (hl : b.length < 4294967295) :
    fixedTrail E acsExt t (tc :: (b ++ rest)) = .ext tc (b ++ rest) b.length rest := by
  subst ht
  obtain ⟨d, hd⟩ := drop_last (tc :: b) rest (b.length + 1) rfl (by omega)
  rw [List.cons_append] at hd
  unfold fixedTrail
  rw [if_neg (by simp)]
  have ha : action E acsExt = .val acsExt := rfl
  rw [ha]
  dsimp only
  rw [hd]
  have hlen : (b.length + 1 + 4294967295) % 4294967296 = b.length := by omega
  unfold value next
  rw [if_neg (by decide), if_neg (by decide)]
  dsimp only
  rw [hlen]

theorem fixedTrail_raw (E : Env) (b rest : List UInt8) (h : 1 ≤ b.length) :
    fixedTrail E acsRaw b.length (b ++ rest) = rawVal b rest := by
  obtain ⟨d, hd⟩ := drop_last b rest b.length rfl h
  unfold fixedTrail
  rw [if_neg (by simp)]
  have ha : action E acsRaw = .val acsRaw := rfl
  rw [ha]
  dsimp only
  rw [hd]
  unfold value region
  rw [if_neg (by decide), if_pos rfl, if_neg (by simp), List.take_left]
  rfl

theorem decode_trail (E : Env) (b : UInt8) (cs t : Nat) (r : List UInt8)
    (h : header b.toNat = .trail cs t) : decode E (b :: r) = fixedTrail E cs t r := by
  unfold decode; dsimp only; rw [h]

theorem decode_push (E : Env) (b : UInt8) (v : Val) (r : List UInt8)
    (h : header b.toNat = .push v) : decode E (b :: r) = .push v r := by
  unfold decode; dsimp only; rw [h]

theorem decode_start (E : Env) (b : UInt8) (m : Bool) (n : Nat) (r : List UInt8)
    (h : header b.toNat = .start m n) : decode E (b :: r) = .start m n r := by
  unfold decode; dsimp only; rw [h]

/-- Every 64-bit integer, in every size class. -/
theorem decode_packInt (E : Env) (i : Int) (h1 : -2 ^ 63 ≤ i) (h2 : i < 2 ^ 63) (rest : List UInt8) :
    decode E (packInt i ++ rest) = .push (.int i) rest := by
  have num : ∀ (b : UInt8) (cs k : Nat) (f : Nat → Val) (n : Nat), header b.toNat = .trail cs k →
      action E cs = .num k f → 1 ≤ k → n < 256 ^ k → f n = .int i →
      decode E (b :: be k n ++ rest) = .push (.int i) rest := by
    intro b cs k f n hb ha hk hn hf
    rw [List.cons_append, decode_trail E b cs k _ hb, fixedTrail_num E cs k n f rest ha hk hn, hf]
  have one : ∀ n : Nat, n < 256 → [UInt8.ofNat n] = be 1 n := by intro n _; simp [be]
  unfold packInt
  split
  · split
    · split
      · refine num 0xd3 19 8 (fun x => .int (toS 64 x)) _ rfl rfl (by omega) ?_ ?_
        · unfold toU; omega
        · unfold toS toU; simp; omega
      · refine num 0xd2 18 4 (fun x => .int (toS 32 x)) _ rfl rfl (by omega) ?_ ?_
        · unfold toU; omega
        · unfold toS toU; simp; omega
    · split
      · refine num 0xd1 17 2 (fun x => .int (toS 16 x)) _ rfl rfl (by omega) ?_ ?_
        · unfold toU; omega
        · unfold toS toU; simp; omega
      · rw [one _ (by unfold toU; omega)]
        refine num 0xd0 16 1 (fun x => .int (toS 8 x)) _ rfl rfl (by omega) ?_ ?_
        · unfold toU; omega
        · unfold toS toU; simp; omega
  · split
    · rw [List.cons_append, List.nil_append]
      have hu : toU 8 i < 256 := by unfold toU; omega
      apply decode_push
      rw [Utf8.toNat_ofNat _ hu]
      unfold header
      by_cases hi : 0 ≤ i
      · have : toU 8 i = i.toNat := by unfold toU; omega
        rw [if_pos (by omega), this]
        congr 2; omega
      · have : toU 8 i = (i + 256).toNat := by unfold toU; omega
        rw [if_neg (by omega), if_pos (by omega), this]
        unfold toS
        rw [if_neg (by omega)]
        congr 2; omega
    · split
      · split
        · rw [one _ (by unfold toU; omega)]
          refine num 0xcc 12 1 (fun x => .int x) _ rfl rfl (by omega) ?_ ?_
          · unfold toU; omega
          · unfold toU; simp; omega
        · refine num 0xcd 13 2 (fun x => .int x) _ rfl rfl (by omega) ?_ ?_
          · unfold toU; omega
          · unfold toU; simp; omega
      · split
        · refine num 0xce 14 4 (fun x => .int x) _ rfl rfl (by omega) ?_ ?_
          · unfold toU; omega
          · unfold toU; simp; omega
        · refine num 0xcf 15 8 (fun x => .int (toS 64 x)) _ rfl rfl (by omega) ?_ ?_
          · unfold toU; omega
          · unfold toS toU; simp; omega

theorem decode_float (E : Env) (b : Nat) (h : b < 2 ^ 64) (rest : List UInt8) :
    decode E (0xcb :: be 8 b ++ rest) = .push (.float b) rest := by
  rw [List.cons_append, decode_trail E 0xcb 11 8 _ rfl]
  exact fixedTrail_num E 11 8 b (fun x => .float x) rest rfl (by omega) (by omega)

theorem or_90 : ∀ n < 16, 0x90 ||| n = 144 + n ∧ (144 + n) &&& 0x0f = n := by decide +kernel
theorem or_80' : ∀ n < 16, 0x80 ||| n = 128 + n ∧ (128 + n) &&& 0x0f = n := by decide +kernel
theorem or_a0 : ∀ n < 32, 0xa0 ||| n = 160 + n ∧ (160 + n) &&& 0x1f = n := by decide +kernel

/-- Every array size, in every size class. -/
theorem decode_packArrayHdr (E : Env) (n : Nat) (h : n ≤ itemLimit) (rest : List UInt8) :
    decode E (packArrayHdr n ++ rest) = .start false n rest := by
  unfold itemLimit at h
  unfold packArrayHdr
  split
  · rename_i hn
    obtain ⟨h1, h2⟩ := or_90 n hn
    apply decode_start
    rw [h1, Utf8.toNat_ofNat _ (by omega)]
    unfold header
    rw [if_neg (by omega), if_neg (by omega), if_neg (by omega), if_neg (by omega), if_pos (by omega), h2]
  · split
    · rw [List.cons_append, decode_trail E 0xdc 28 2 _ rfl]
      exact fixedTrail_cont E 28 2 n false rest rfl (by omega) (by omega)
    · rw [List.cons_append, decode_trail E 0xdd 29 4 _ rfl]
      exact fixedTrail_cont E 29 4 n false rest rfl (by omega) (by omega)

/-- Every map size, in every size class. -/
theorem decode_packMapHdr (E : Env) (n : Nat) (h : n ≤ itemLimit) (rest : List UInt8) :
    decode E (packMapHdr n ++ rest) = .start true n rest := by
  unfold itemLimit at h
  unfold packMapHdr
  split
  · rename_i hn
    obtain ⟨h1, h2⟩ := or_80' n hn
    apply decode_start
    rw [h1, Utf8.toNat_ofNat _ (by omega)]
    unfold header
    rw [if_neg (by omega), if_neg (by omega), if_neg (by omega), if_neg (by omega), if_neg (by omega), h2]
  · split
    · rw [List.cons_append, decode_trail E 0xde 30 2 _ rfl]
      exact fixedTrail_cont E 30 2 n true rest rfl (by omega) (by omega)
    · rw [List.cons_append, decode_trail E 0xdf 31 4 _ rfl]
      exact fixedTrail_cont E 31 4 n true rest rfl (by omega) (by omega)

/-- Every `bytes`, in every size class. -/
theorem decode_bin (E : Env) (b : List UInt8) (h : b.length ≤ itemLimit) (rest : List UInt8) :
    decode E (packBinHdr b.length ++ b ++ rest) = .push (.bytes b) rest := by
  unfold itemLimit at h
  unfold packBinHdr
  have one : [0xc4, UInt8.ofNat b.length] = 0xc4 :: be 1 b.length := by simp [be]
  split
  · rw [one, List.append_assoc, List.cons_append, decode_trail E 0xc4 4 1 _ rfl]
    exact fixedTrail_len E 4 1 acsBin b rest rfl (by omega) (by omega) (.inl rfl)
  · split
    · rw [List.append_assoc, List.cons_append, decode_trail E 0xc5 5 2 _ rfl]
      exact fixedTrail_len E 5 2 acsBin b rest rfl (by omega) (by omega) (.inl rfl)
    · rw [List.append_assoc, List.cons_append, decode_trail E 0xc6 6 4 _ rfl]
      exact fixedTrail_len E 6 4 acsBin b rest rfl (by omega) (by omega) (.inl rfl)

/-- Every raw string, in every size class. -/
theorem decode_raw (E : Env) (b : List UInt8) (h : b.length ≤ itemLimit) (rest : List UInt8) :
    decode E (packRawHdr b.length ++ b ++ rest) = rawVal b rest := by
  unfold itemLimit at h
  unfold packRawHdr
  have one : [0xd9, UInt8.ofNat b.length] = 0xd9 :: be 1 b.length := by simp [be]
  split
  · rename_i hn
    obtain ⟨h1, h2⟩ := or_a0 b.length hn
    rw [h1, List.append_assoc, List.cons_append, List.nil_append]
    have hh : header (UInt8.ofNat (160 + b.length)).toNat =
        if b.length = 0 then .rawZero else .trail acsRaw b.length := by
      rw [Utf8.toNat_ofNat _ (by omega)]
      unfold header
      rw [if_neg (by omega), if_neg (by omega), if_neg (by omega), if_pos (by omega), h2]
    by_cases hz : b.length = 0
    · rw [if_pos hz] at hh
      have hb : b = [] := List.eq_nil_of_length_eq_zero hz
      subst hb
      unfold decode; dsimp only; rw [hh]; rfl
    · rw [if_neg hz] at hh
      rw [decode_trail E _ _ _ _ hh]
      exact fixedTrail_raw E b rest (by omega)
  · split
    · rw [one, List.append_assoc, List.cons_append, decode_trail E 0xd9 25 1 _ rfl]
      exact fixedTrail_len E 25 1 acsRaw b rest rfl (by omega) (by omega) (.inr rfl)
    · split
      · rw [List.append_assoc, List.cons_append, decode_trail E 0xda 26 2 _ rfl]
        exact fixedTrail_len E 26 2 acsRaw b rest rfl (by omega) (by omega) (.inr rfl)
      · rw [List.append_assoc, List.cons_append, decode_trail E 0xdb 27 4 _ rfl]
        exact fixedTrail_len E 27 4 acsRaw b rest rfl (by omega) (by omega) (.inr rfl)

/-- Every `str`. -/
theorem decode_str (E : Env) (s : List Nat) (hs : ∀ x ∈ s, x ≤ 0x10FFFF)
    (h : (Utf8.encode s).length ≤ itemLimit) (rest : List UInt8) :
    decode E (packRawHdr (Utf8.encode s).length ++ Utf8.encode s ++ rest) = .push (.str s) rest := by
  rw [decode_raw E _ h, rawVal, Utf8.decode_encode s hs]

/-- Every extension whose payload is shorter than 4 GiB. -/
theorem decode_ext (E : Env) (tc : UInt8) (b : List UInt8) (h : b.length < 4294967295)
    (rest : List UInt8) :
    decode E (packExtHdr tc b.length ++ b ++ rest) = .ext tc (b ++ rest) b.length rest := by
  have fix : ∀ (c : UInt8) (n : Nat), b.length = n → header c.toNat = .trail acsExt (n + 1) →
      decode E ([c, tc] ++ b ++ rest) = .ext tc (b ++ rest) b.length rest := by
    intro c n hn hc
    rw [List.append_assoc, List.cons_append, List.cons_append, List.nil_append, decode_trail E c _ _ _ hc]
    exact fixedTrail_ext E _ tc b rest (by omega) h
  unfold packExtHdr
  by_cases h1 : b.length = 1
  · rw [if_pos h1]; exact fix _ 1 h1 rfl
  rw [if_neg h1]
  by_cases h2 : b.length = 2
  · rw [if_pos h2]; exact fix _ 2 h2 rfl
  rw [if_neg h2]
  by_cases h4 : b.length = 4
  · rw [if_pos h4]; exact fix _ 4 h4 rfl
  rw [if_neg h4]
  by_cases h8 : b.length = 8
  · rw [if_pos h8]; exact fix _ 8 h8 rfl
  rw [if_neg h8]
  by_cases h16 : b.length = 16
  · rw [if_pos h16]; exact fix _ 16 h16 rfl
  rw [if_neg h16]
  have one : [UInt8.ofNat b.length] = be 1 b.length := by simp [be]
  split
  · have := fixedTrail_lenExt E 7 1 tc b rest rfl (by omega) (by omega) h
    rw [← one] at this
    exact this
  · split
    · have := fixedTrail_lenExt E 8 2 tc b rest rfl (by omega) (by omega) h
      rw [List.append_assoc, List.append_assoc, List.cons_append, decode_trail E 0xc8 8 2 _ rfl, ← this]
      rfl
    · have := fixedTrail_lenExt E 9 4 tc b rest rfl (by omega) (by omega) h
      rw [Nat.mod_eq_of_lt (by omega), List.append_assoc, List.append_assoc, List.cons_append,
        decode_trail E 0xc9 9 4 _ rfl, ← this]
      rfl

/-! ## Arrays of numbers -/

theorem le_length (k n : Nat) : (le k n).length = k := by
  induction k generalizing n with
  | zero => rfl
  | succ k ih => simp [le, ih]

theorem loadLE_le (k n : Nat) : loadLE (le k n) = n % 256 ^ k := by
  induction k generalizing n with
  | zero => simp [le, loadLE, Nat.mod_one]
  | succ k ih =>
    rw [le, loadLE, ih, Nat.or_comm]
    have hb : (UInt8.ofNat n).toNat < 2 ^ 8 := (UInt8.ofNat n).toNat_lt
    rw [← Nat.shiftLeft_add_eq_or_of_lt hb, Nat.shiftLeft_eq, Nat.shiftRight_eq_div_pow,
      UInt8.toNat_ofNat']
    have h : n % 256 ^ (k + 1) = n % 256 + 256 * (n / 256 % 256 ^ k) := by
      rw [Nat.pow_succ, Nat.mul_comm (256 ^ k), Nat.mod_mul]
    rw [h, show (2 : Nat) ^ 8 = 256 from rfl]
    omega

theorem toS_toU (i : Int) (h1 : -2 ^ 63 ≤ i) (h2 : i < 2 ^ 63) : toS 64 (toU 64 i) = i := by
  unfold toS toU; omega

theorem loadShape_flatMap (shape : List Int) (data : List UInt8)
    (h : ∀ d ∈ shape, -2 ^ 63 ≤ d ∧ d < 2 ^ 63) :
    loadShape shape.length (shape.flatMap (fun d => le 8 (toU 64 d)) ++ data) = (shape, data) := by
  induction shape with
  | nil => rfl
  | cons d r ih =>
    have h1 : (le 8 (toU 64 d) ++ (r.flatMap (fun d => le 8 (toU 64 d)) ++ data)).drop 8 =
        r.flatMap (fun d => le 8 (toU 64 d)) ++ data := by
      rw [List.drop_append_of_le_length (by simp [le_length]),
        List.drop_eq_nil_of_le (by simp [le_length])]; rfl
    have h2 : (le 8 (toU 64 d) ++ (r.flatMap (fun d => le 8 (toU 64 d)) ++ data)).take 8 =
        le 8 (toU 64 d) := by
      rw [List.take_append_of_le_length (by simp [le_length]), List.take_of_length_le (by simp [le_length])]
    simp only [List.flatMap_cons, List.append_assoc, List.length_cons, loadShape]
    rw [h1, h2, ih (fun x hx => h x (by simp [hx])), loadLE_le]
    have h3 : toU 64 d % 256 ^ 8 = toU 64 d := Nat.mod_eq_of_lt (by unfold toU; omega)
    have hd := h d (by simp)
    rw [h3, toS_toU d hd.1 hd.2]

/-- An array as the runtime keeps it: valid dtype, dimensions in range, data of the right size. -/
def NdOk (code bits lanes : Nat) (shape : List Int) (data : List UInt8) : Prop :=
  code < 256 ∧ bits < 256 ∧ lanes < 65536 ∧ verifyDType code bits lanes = true ∧
  shape.length < 2 ^ 31 ∧ (∀ d ∈ shape, -2 ^ 63 ≤ d ∧ d < 2 ^ 63) ∧
  data.length = dataSize bits lanes shape

theorem flatMap_le8 (shape : List Int) :
    (shape.flatMap (fun d => le 8 (toU 64 d))).length = shape.length * 8 := by
  induction shape with
  | nil => rfl
  | cons d r ih => simp [ih, le_length]; omega

/-- NDArrays round-trip. -/
theorem unpackNd_packNd (code bits lanes : Nat) (shape : List Int) (data : List UInt8)
    (h : NdOk code bits lanes shape data) (hl : (packNd code bits lanes shape data).length < 2 ^ 32) :
    unpackNd (packNd code bits lanes shape data) = some (.ndarray code bits lanes shape data) := by
  obtain ⟨h1, h2, h3, h4, h5, h6, h7⟩ := h
  have hlen : (packNd code bits lanes shape data).length = 8 + shape.length * 8 + data.length := by
    simp only [packNd, List.length_append, le_length, flatMap_le8, List.length_cons, List.length_nil]
  have e2 : le 2 lanes = [UInt8.ofNat lanes, UInt8.ofNat (lanes >>> 8)] := rfl
  have e4 : ∀ n, le 4 n = [UInt8.ofNat n, UInt8.ofNat (n >>> 8), UInt8.ofNat (n >>> 8 >>> 8),
    UInt8.ofNat (n >>> 8 >>> 8 >>> 8)] := fun _ => rfl
  have hp : packNd code bits lanes shape data = [UInt8.ofNat code, UInt8.ofNat bits] ++
      (le 2 lanes ++ (le 4 shape.length ++ (shape.flatMap (fun d => le 8 (toU 64 d)) ++ data))) := by
    simp [packNd]
  have d1 : loadLE ((packNd code bits lanes shape data).take 1) = code := by
    rw [hp]; simp [loadLE, UInt8.toNat_ofNat']; omega
  have d2 : loadLE (((packNd code bits lanes shape data).drop 1).take 1) = bits := by
    rw [hp]; simp [loadLE, UInt8.toNat_ofNat']; omega
  have d3 : loadLE (((packNd code bits lanes shape data).drop 2).take 2) = lanes := by
    have : ((packNd code bits lanes shape data).drop 2).take 2 = le 2 lanes := by rw [hp, e2]; simp
    rw [this, loadLE_le, Nat.mod_eq_of_lt (by omega)]
  have d4 : loadLE (((packNd code bits lanes shape data).drop 4).take 4) = shape.length := by
    have : ((packNd code bits lanes shape data).drop 4).take 4 = le 4 shape.length := by
      rw [hp, e2, e4]; simp
    rw [this, loadLE_le, Nat.mod_eq_of_lt (by omega)]
  have d5 : (packNd code bits lanes shape data).drop 8 =
      shape.flatMap (fun d => le 8 (toU 64 d)) ++ data := by
    rw [hp, e2, e4]; simp
  have hs : toS 32 shape.length = (shape.length : Int) := by unfold toS; rw [if_pos (by omega)]
  unfold unpackNd
  simp only [d1, d2, d3, d4, d5, hs, Int.toNat_natCast, loadShape_flatMap shape data h6, h4, hlen]
  rw [if_neg (by omega), if_neg (by omega), if_neg (by omega), if_neg]
  · rfl
  · rw [← h7]; omega

/-! ## Values -/

mutual
/-- What comes back: arrays become lists, or tuples inside a set. -/
def norm (ul : Bool) : Val → Val
  | .list xs => mkArr ul (normList ul xs)
  | .tuple xs => mkArr ul (normList ul xs)
  | .dict xs => .dict (normPairs ul xs)
  | .set xs => .set (normList false xs)
  | .nil => .nil
  | .int i => .int i
  | .float b => .float b
  | .bytes b => .bytes b
  | .str s => .str s
  | .ndarray c b l s d => .ndarray c b l s d
def normList (ul : Bool) : List Val → List Val
  | [] => []
  | x :: r => norm ul x :: normList ul r
def normPairs (ul : Bool) : List (Val × Val) → List (Val × Val)
  | [] => []
  | (k, v) :: r => (norm ul k, norm ul v) :: normPairs ul r
end

/-- Keys of a table: each can be hashed and no two are taken for the same. -/
def KeysOk (E : Env) (ks : List Val) : Prop :=
  (∀ k ∈ ks, hashable k = true) ∧ ks.Pairwise fun a b => E.same a b = false

mutual
/-- Values as the runtime keeps them: 64-bit integers and floats, code points up to 0x10FFFF, sizes up to
2^32 - 1, distinct hashable keys (after the conversion of arrays that decoding makes), valid arrays. -/
def Ok (E : Env) (ul : Bool) : Val → Prop
  | .nil => True
  | .int i => -2 ^ 63 ≤ i ∧ i < 2 ^ 63
  | .float b => b < 2 ^ 64
  | .bytes b => b.length ≤ itemLimit
  | .str s => (∀ x ∈ s, x ≤ 0x10FFFF) ∧ (Utf8.encode s).length ≤ itemLimit
  | .list xs => xs.length ≤ itemLimit ∧ OkList E ul xs
  | .tuple xs => xs.length ≤ itemLimit ∧ OkList E ul xs
  | .dict xs => xs.length ≤ itemLimit ∧ OkPairs E ul xs ∧ KeysOk E ((normPairs ul xs).map Prod.fst)
  | .set xs => xs.length ≤ itemLimit ∧ OkList E false xs ∧ KeysOk E (normList false xs)
  | .ndarray c b l s d => NdOk c b l s d
def OkList (E : Env) (ul : Bool) : List Val → Prop
  | [] => True
  | x :: r => Ok E ul x ∧ OkList E ul r
def OkPairs (E : Env) (ul : Bool) : List (Val × Val) → Prop
  | [] => True
  | (k, v) :: r => Ok E ul k ∧ Ok E ul v ∧ OkPairs E ul r
end

mutual
/-- The value holds a set or an NDArray, which are packed as extensions. -/
def hasExt : Val → Bool
  | .list xs => hasExtList xs
  | .tuple xs => hasExtList xs
  | .dict xs => hasExtPairs xs
  | .set _ => true
  | .ndarray _ _ _ _ _ => true
  | _ => false
def hasExtList : List Val → Bool
  | [] => false
  | x :: r => hasExt x || hasExtList r
def hasExtPairs : List (Val × Val) → Bool
  | [] => false
  | (k, v) :: r => hasExt k || hasExt v || hasExtPairs r
end

theorem normList_length (ul : Bool) : ∀ xs, (normList ul xs).length = xs.length
  | [] => rfl
  | x :: r => by simp [normList, normList_length ul r]

theorem normPairs_length (ul : Bool) : ∀ xs, (normPairs ul xs).length = xs.length
  | [] => rfl
  | (k, v) :: r => by simp [normPairs, normPairs_length ul r]

/-- Building a set from distinct keys keeps them all. -/
theorem mkSet_distinct (E : Env) : ∀ (xs acc : List Val), KeysOk E (acc ++ xs) →
    mkSet E acc xs = some (acc ++ xs)
  | [], acc, _ => by simp [mkSet]
  | x :: r, acc, h => by
    have hh : hashable x = true := h.1 x (by simp)
    have hd : acc.any (fun e => E.same e x) = false := by
      rw [List.any_eq_false]
      intro a ha
      have := (List.pairwise_append.mp h.2).2.2 a ha x (by simp)
      simp [this]
    have ih := mkSet_distinct E r (acc ++ [x]) (by simpa using h)
    simp only [mkSet, setEmplace, hh, hd, if_true, Option.bind_some, Bool.false_eq_true, if_false, ih]
    simp

theorem cont_arr (E : Env) (ul : Bool) (n : Nat) (items : List Val) (st : List Frame) (v : Val)
    (rest : List UInt8) (h : items.length + 1 = n) :
    cont E ul (.arr n items :: st) v rest = cont E ul st (mkArr ul (items ++ [v])) rest := by
  unfold cont
  rw [push]
  simp [h]

theorem cont_arr_more (E : Env) (ul : Bool) (n : Nat) (items : List Val) (st : List Frame) (v : Val)
    (rest : List UInt8) (h : items.length + 1 < n) :
    cont E ul (.arr n items :: st) v rest = run E ul (.arr n (items ++ [v]) :: st) v rest := by
  unfold cont
  rw [push]
  simp [show items.length + 1 ≠ n by omega]

theorem cont_key (E : Env) (ul : Bool) (n c : Nat) (d : List (Val × Val)) (st : List Frame) (v : Val)
    (rest : List UInt8) :
    cont E ul (.map n c d none :: st) v rest = run E ul (.map n c d (some v) :: st) v rest := by
  unfold cont
  rw [push]

theorem cont_val (E : Env) (ul : Bool) (n c : Nat) (d : List (Val × Val)) (k v : Val) (st : List Frame)
    (rest : List UInt8) (hk : hashable k = true) (hd : ∀ e ∈ d, E.same e.1 k = false) :
    cont E ul (.map n c d (some k) :: st) v rest =
      if c + 1 = n then cont E ul st (.dict (d ++ [(k, v)])) rest
      else run E ul (.map n (c + 1) (d ++ [(k, v)]) none :: st) v rest := by
  have : d.any (fun e => E.same e.1 k) = false := by
    rw [List.any_eq_false]; intro e he; simp [hd e he]
  unfold cont
  rw [push]
  simp only [dictEmplace, hk, this, if_true, Bool.false_eq_true, if_false]
  by_cases h : c + 1 = n
  · rw [if_pos h, if_pos h]
  · rw [if_neg h, if_neg h]

theorem extSet_of (E : Env) (p : List UInt8) (xs : List Val) (k : Val → Res) (hk : KeysOk E xs)
    (h : run E false [] .nil p = .done (.tuple xs) []) : extSet E p k = k (.set xs) := by
  unfold extSet
  rw [h]
  dsimp only
  rw [mkSet_distinct E _ [] (by simpa using hk)]
  rfl

mutual
/-- Decoding the encoding of a value, in any context, is the same as pushing the value. -/
theorem run_pack (E : Env) (ul : Bool) (nest : Int) (v : Val) (bs : List UInt8)
    (hp : pack nest v = some bs) (hok : Ok E ul v)
    (hx : hasExt v = false ∨ bs.length < 4294967295) (st : List Frame) (obj : Val) (rest : List UInt8)
    (hst : st.length + nest ≤ 1023) :
    run E ul st obj (bs ++ rest) = cont E ul st (norm ul v) rest := by
  have hn : ¬ nest < 0 := by
    intro hn
    cases v <;> simp [pack, hn] at hp
  cases v with
  | nil =>
    simp [pack, hn] at hp; subst hp
    rw [run_eq]; rfl
  | int i =>
    simp [pack, hn] at hp; subst hp
    rw [Ok] at hok
    rw [run_eq, decode_packInt E i hok.1 hok.2]; rfl
  | float b =>
    simp [pack, hn] at hp; subst hp
    rw [Ok] at hok
    rw [run_eq, decode_float E b hok]; rfl
  | bytes b =>
    rw [Ok] at hok
    simp [pack, hn, Nat.not_lt.mpr hok] at hp; subst hp
    rw [run_eq, decode_bin E b hok]; rfl
  | str s =>
    rw [Ok] at hok
    simp [pack, hn, Nat.not_lt.mpr hok.2] at hp; subst hp
    rw [run_eq, decode_str E s hok.1 hok.2]; rfl
  | list xs =>
    rw [Ok] at hok
    simp only [pack, hn, if_false, gt_iff_lt, Nat.not_lt.mpr hok.1, Option.map_eq_some_iff] at hp
    obtain ⟨b, hb, rfl⟩ := hp
    rw [List.append_assoc, run_eq, decode_packArrayHdr E _ hok.1]
    dsimp only
    rw [if_neg (by omega)]
    cases xs with
    | nil =>
      simp [packList] at hb; subst hb
      rfl
    | cons x r =>
      rw [if_neg (by simp), if_neg (by simp)]
      rw [norm]
      exact run_packList E ul (nest - 1) x r b hb hok.2 (hx.imp (fun h => by simpa [hasExt] using h)
        (fun h => by simp at h; omega)) st obj rest (by omega) [] _ (by simp)
  | tuple xs =>
    rw [Ok] at hok
    simp only [pack, hn, if_false, gt_iff_lt, Nat.not_lt.mpr hok.1, Option.map_eq_some_iff] at hp
    obtain ⟨b, hb, rfl⟩ := hp
    rw [List.append_assoc, run_eq, decode_packArrayHdr E _ hok.1]
    dsimp only
    rw [if_neg (by omega)]
    cases xs with
    | nil =>
      simp [packList] at hb; subst hb
      rfl
    | cons x r =>
      rw [if_neg (by simp), if_neg (by simp)]
      rw [norm]
      exact run_packList E ul (nest - 1) x r b hb hok.2 (hx.imp (fun h => by simpa [hasExt] using h)
        (fun h => by simp at h; omega)) st obj rest (by omega) [] _ (by simp)
  | dict xs =>
    rw [Ok] at hok
    simp only [pack, hn, if_false, gt_iff_lt, Nat.not_lt.mpr hok.1, Option.map_eq_some_iff] at hp
    obtain ⟨b, hb, rfl⟩ := hp
    rw [List.append_assoc, run_eq, decode_packMapHdr E _ hok.1]
    dsimp only
    rw [if_neg (by omega)]
    cases xs with
    | nil =>
      simp [packPairs] at hb; subst hb
      rfl
    | cons x r =>
      rcases hxe : x with ⟨k, w⟩
      subst hxe
      rw [if_neg (by simp), if_pos rfl]
      rw [norm]
      exact run_packPairs E ul (nest - 1) k w r b hb hok.2.1 (hx.imp (fun h => by simpa [hasExt] using h)
        (fun h => by simp at h; omega)) st obj rest (by omega) [] 0 _ (by simp) (by simpa using hok.2.2)
  | set xs =>
    rw [Ok] at hok
    simp only [pack, hn, if_false, gt_iff_lt, Nat.not_lt.mpr hok.1, Option.map_eq_some_iff] at hp
    obtain ⟨b, hb, rfl⟩ := hp
    have hlen : (packArrayHdr xs.length ++ b).length < 4294967295 := by
      rcases hx with hx | hx
      · simp [hasExt] at hx
      · simp at hx ⊢; omega
    rw [run_eq, decode_ext E 9 _ hlen]
    dsimp only
    unfold extRes
    rw [if_neg (by decide), if_pos rfl, if_neg (by simp), List.take_left]
    rw [norm]
    cases xs with
    | nil =>
      apply extSet_of E _ _ _ (by simpa using hok.2.2)
      rw [run_eq, decode_packArrayHdr E _ hok.1]
      dsimp only
      rw [if_neg (by simp)]
      simp [packList] at hb; subst hb
      rfl
    | cons x r =>
      have h := run_packList E false (nest - 1) x r b hb hok.2.1
        (.inr (by simp at hlen; omega)) [] .nil [] (by simp; omega) [] _ rfl
      rw [List.append_nil] at h
      apply extSet_of E _ _ _ (by simpa using hok.2.2)
      rw [run_eq, decode_packArrayHdr E _ hok.1]
      dsimp only
      rw [if_neg (by simp), if_neg (by simp), if_neg (by simp)]
      rw [show (x :: r).length = [].length + (r.length + 1) by simp, h]
      rfl
  | ndarray c b l s d =>
    rw [Ok] at hok
    simp only [pack, hn, if_false, Option.some.injEq] at hp
    subst hp
    have hlen : (packNd c b l s d).length < 4294967295 := by
      rcases hx with hx | hx
      · simp [hasExt] at hx
      · simp at hx ⊢; omega
    rw [run_eq, decode_ext E 2 _ hlen]
    dsimp only
    unfold extRes
    rw [if_neg (by decide), if_neg (by decide), if_pos rfl, if_neg (by simp), List.take_left,
      unpackNd_packNd c b l s d hok (by omega)]
    rfl
termination_by sizeOf v
decreasing_by all_goals (subst_vars; simp; try omega)

theorem run_packList (E : Env) (ul : Bool) (nest : Int) (x : Val) (xs : List Val) (bs : List UInt8)
    (hp : packList nest (x :: xs) = some bs) (hok : OkList E ul (x :: xs))
    (hx : hasExtList (x :: xs) = false ∨ bs.length < 4294967295) (st : List Frame) (obj : Val)
    (rest : List UInt8) (hst : st.length + 1 + nest ≤ 1023) (items : List Val) (n : Nat)
    (hnum : items.length + (xs.length + 1) = n) :
    run E ul (.arr n items :: st) obj (bs ++ rest) =
      cont E ul st (mkArr ul (items ++ normList ul (x :: xs))) rest := by
  rw [packList] at hp
  simp only [Option.bind_eq_bind, Option.bind_eq_some_iff, Option.pure_def, Option.some.injEq] at hp
  obtain ⟨a, ha, b, hb, rfl⟩ := hp
  rw [OkList] at hok
  rw [hasExtList, Bool.or_eq_false_iff] at hx
  have h1 := run_pack E ul nest x a ha hok.1 (hx.imp (fun h => h.1) (fun h => by simp at h; omega))
    (.arr n items :: st) obj (b ++ rest) (by simp; omega)
  rw [List.append_assoc, h1]
  cases xs with
  | nil =>
    simp [packList] at hb; subst hb
    rw [cont_arr E ul n items st _ _ (by simpa using hnum)]
    rfl
  | cons y r =>
    rw [cont_arr_more E ul n items st _ _ (by simp at hnum; omega)]
    rw [run_packList E ul nest y r b hb hok.2 (hx.imp (fun h => h.2) (fun h => by simp at h; omega)) st _
      rest hst (items ++ [norm ul x]) n (by simp at hnum ⊢; omega)]
    simp [normList]
termination_by sizeOf (x :: xs)

theorem run_packPairs (E : Env) (ul : Bool) (nest : Int) (k w : Val) (xs : List (Val × Val))
    (bs : List UInt8)
    (hp : packPairs nest ((k, w) :: xs) = some bs) (hok : OkPairs E ul ((k, w) :: xs))
    (hx : hasExtPairs ((k, w) :: xs) = false ∨ bs.length < 4294967295) (st : List Frame) (obj : Val)
    (rest : List UInt8) (hst : st.length + 1 + nest ≤ 1023) (d : List (Val × Val)) (c n : Nat)
    (hnum : c + (xs.length + 1) = n)
    (hkeys : KeysOk E ((d ++ normPairs ul ((k, w) :: xs)).map Prod.fst)) :
    run E ul (.map n c d none :: st) obj (bs ++ rest) =
      cont E ul st (.dict (d ++ normPairs ul ((k, w) :: xs))) rest := by
  rw [packPairs] at hp
  simp only [Option.bind_eq_bind, Option.bind_eq_some_iff, Option.pure_def, Option.some.injEq] at hp
  obtain ⟨a, ha, b, hb, e, he, rfl⟩ := hp
  rw [OkPairs] at hok
  rw [hasExtPairs, Bool.or_eq_false_iff, Bool.or_eq_false_iff] at hx
  have h1 := run_pack E ul nest k a ha hok.1 (hx.imp (fun h => h.1.1) (fun h => by simp at h; omega))
    (.map n c d none :: st) obj (b ++ (e ++ rest)) (by simp; omega)
  rw [List.append_assoc, List.append_assoc, h1, cont_key]
  have h2 := run_pack E ul nest w b hb hok.2.1 (hx.imp (fun h => h.1.2) (fun h => by simp at h; omega))
    (.map n c d (some (norm ul k)) :: st) (norm ul k) (e ++ rest) (by simp; omega)
  have hk : hashable (norm ul k) = true := hkeys.1 _ (by simp [normPairs])
  have hd : ∀ p ∈ d, E.same p.1 (norm ul k) = false := by
    intro p hp
    have := hkeys.2
    rw [List.map_append, List.pairwise_append] at this
    exact this.2.2 p.1 (List.mem_map_of_mem hp) _ (by simp [normPairs])
  rw [h2, cont_val E ul n c d _ _ st _ hk hd]
  cases xs with
  | nil =>
    simp [packPairs] at he; subst he
    rw [if_pos (by simpa using hnum)]
    rfl
  | cons y r =>
    rcases hye : y with ⟨k2, w2⟩
    subst hye
    rw [if_neg (by simp at hnum; omega)]
    rw [run_packPairs E ul nest k2 w2 r e he hok.2.2 (hx.imp (fun h => h.2) (fun h => by simp at h; omega))
      st _ rest hst (d ++ [(norm ul k, norm ul w)]) (c + 1) n (by simp at hnum ⊢; omega)
      (by simpa [normPairs] using hkeys)]
    simp [normPairs]
termination_by sizeOf ((k, w) :: xs)
decreasing_by all_goals (subst_vars; simp; try omega)
end

/-! ## C21 -/

/-- **C21, all serialisable values.**  Loading the dump of a value gives the value with tuples turned into
lists (arrays into tuples inside a set), provided the dump of a value with sets or NDArrays is shorter than
2^32 - 1 bytes. -/
theorem loads_dumps (E : Env) (v : Val) (bs : List UInt8) (hp : dumps v = some bs) (hok : Ok E true v)
    (hx : hasExt v = false ∨ bs.length < 4294967295) : loads E bs = .ok (norm true v) := by
  have h := run_pack E true 511 v bs hp hok hx [] .nil [] (by simp)
  rw [List.append_nil] at h
  unfold loads
  rw [h]
  rfl

mutual
/-- Nesting depth; an empty container is no deeper than a scalar. -/
def depth : Val → Nat
  | .list xs => depthList xs
  | .tuple xs => depthList xs
  | .dict xs => depthPairs xs
  | .set xs => depthList xs
  | _ => 0
def depthList : List Val → Nat
  | [] => 0
  | x :: r => max (depth x + 1) (depthList r)
def depthPairs : List (Val × Val) → Nat
  | [] => 0
  | (k, v) :: r => max (max (depth k + 1) (depth v + 1)) (depthPairs r)
end

mutual
/-- Packing succeeds exactly when the value is nested no deeper than the limit. -/
theorem pack_isSome (E : Env) (ul : Bool) (nest : Int) (v : Val) (hok : Ok E ul v) :
    (pack nest v).isSome = decide ((depth v : Int) ≤ nest) := by
  by_cases hn : nest < 0
  · have : pack nest v = none := by cases v <;> simp [pack, hn]
    rw [this]; simp; omega
  have hn' := Int.not_lt.mp hn
  cases v with
  | nil => simp [pack, hn, hn', depth]
  | int i => simp [pack, hn, hn', depth]
  | float b => simp [pack, hn, hn', depth]
  | bytes b => rw [Ok] at hok; simp [pack, hn, depth, Nat.not_lt.mpr hok, hn']
  | str s => rw [Ok] at hok; simp [pack, hn, depth, Nat.not_lt.mpr hok.2, hn']
  | list xs =>
    rw [Ok] at hok
    have := packList_isSome E ul (nest - 1) xs hok.2 (by omega)
    simp only [pack, hn, if_false, gt_iff_lt, Nat.not_lt.mpr hok.1, Option.isSome_map, depth, this]
    congr 1; simp
  | tuple xs =>
    rw [Ok] at hok
    have := packList_isSome E ul (nest - 1) xs hok.2 (by omega)
    simp only [pack, hn, if_false, gt_iff_lt, Nat.not_lt.mpr hok.1, Option.isSome_map, depth, this]
    congr 1; simp
  | dict xs =>
    rw [Ok] at hok
    have := packPairs_isSome E ul (nest - 1) xs hok.2.1 (by omega)
    simp only [pack, hn, if_false, gt_iff_lt, Nat.not_lt.mpr hok.1, Option.isSome_map, depth, this]
    congr 1; simp
  | set xs =>
    rw [Ok] at hok
    have := packList_isSome E false (nest - 1) xs hok.2.1 (by omega)
    simp only [pack, hn, if_false, gt_iff_lt, Nat.not_lt.mpr hok.1, Option.isSome_map, depth, this]
    congr 1; simp
  | ndarray c b l s d => simp [pack, hn, hn', depth]
theorem packList_isSome (E : Env) (ul : Bool) (nest : Int) (xs : List Val) (hok : OkList E ul xs)
    (hn : 0 ≤ nest + 1) :
    (packList nest xs).isSome = decide ((depthList xs : Int) ≤ nest + 1) := by
  cases xs with
  | nil => simp [packList, depthList, hn]
  | cons x r =>
    rw [OkList] at hok
    have h1 := pack_isSome E ul nest x hok.1
    have h2 := packList_isSome E ul nest r hok.2 hn
    rw [packList, depthList]
    cases ha : pack nest x with
    | none =>
      rw [ha] at h1
      simp at h1 ⊢; omega
    | some a =>
      rw [ha] at h1
      simp at h1
      cases hb : packList nest r with
      | none => rw [hb] at h2; simp at h2 ⊢; omega
      | some b => rw [hb] at h2; simp at h2 ⊢; omega
theorem packPairs_isSome (E : Env) (ul : Bool) (nest : Int) (xs : List (Val × Val))
    (hok : OkPairs E ul xs) (hn : 0 ≤ nest + 1) :
    (packPairs nest xs).isSome = decide ((depthPairs xs : Int) ≤ nest + 1) := by
  match xs, hok with
  | [], _ => simp [packPairs, depthPairs, hn]
  | (k, v) :: r, hok =>
    rw [OkPairs] at hok
    have h1 := pack_isSome E ul nest k hok.1
    have h2 := pack_isSome E ul nest v hok.2.1
    have h3 := packPairs_isSome E ul nest r hok.2.2 hn
    rw [packPairs, depthPairs]
    cases ha : pack nest k with
    | none =>
      rw [ha] at h1
      simp at h1 ⊢; omega
    | some a =>
      rw [ha] at h1
      simp at h1
      cases hb : pack nest v with
      | none => rw [hb] at h2; simp at h2 ⊢; omega
      | some b =>
        rw [hb] at h2
        simp at h2
        cases hc : packPairs nest r with
        | none => rw [hc] at h3; simp at h3 ⊢; omega
        | some b => rw [hc] at h3; simp at h3 ⊢; omega
end

mutual
/-- Values built from None, 64-bit ints, floats, bytes, str, lists and dicts, as the runtime keeps them. -/
def Plain (E : Env) : Val → Prop
  | .nil => True
  | .int i => -2 ^ 63 ≤ i ∧ i < 2 ^ 63
  | .float b => b < 2 ^ 64
  | .bytes b => b.length < 2 ^ 32
  | .str s => (∀ x ∈ s, x ≤ 0x10FFFF) ∧ (Utf8.encode s).length < 2 ^ 32
  | .list xs => xs.length < 2 ^ 32 ∧ PlainList E xs
  | .dict xs => xs.length < 2 ^ 32 ∧ PlainPairs E xs ∧ (∀ p ∈ xs, hashable p.1 = true) ∧
      xs.Pairwise fun a b => E.same a.1 b.1 = false
  | _ => False
def PlainList (E : Env) : List Val → Prop
  | [] => True
  | x :: r => Plain E x ∧ PlainList E r
def PlainPairs (E : Env) : List (Val × Val) → Prop
  | [] => True
  | (k, v) :: r => Plain E k ∧ Plain E v ∧ PlainPairs E r
end

mutual
theorem plain_ok (E : Env) (v : Val) (h : Plain E v) :
    Ok E true v ∧ norm true v = v ∧ hasExt v = false := by
  match v, h with
  | .nil, h => simp [Ok, norm, hasExt]
  | .int i, h => rw [Plain] at h; exact ⟨by rw [Ok]; exact h, by rw [norm], by rw [hasExt] <;> simp⟩
  | .float b, h => rw [Plain] at h; exact ⟨by rw [Ok]; exact h, by rw [norm], by rw [hasExt] <;> simp⟩
  | .bytes b, h =>
    rw [Plain] at h
    exact ⟨by rw [Ok]; unfold itemLimit; omega, by rw [norm], by rw [hasExt] <;> simp⟩
  | .str s, h =>
    rw [Plain] at h
    exact ⟨by rw [Ok]; unfold itemLimit; exact ⟨h.1, by omega⟩, by rw [norm], by rw [hasExt] <;> simp⟩
  | .list xs, h =>
    rw [Plain] at h
    obtain ⟨h1, h2, h3⟩ := plain_ok_list E xs h.2
    exact ⟨by rw [Ok]; unfold itemLimit; exact ⟨by omega, h1⟩, by rw [norm, h2]; rfl, by rw [hasExt, h3]⟩
  | .dict xs, h =>
    rw [Plain] at h
    obtain ⟨h1, h2, h3⟩ := plain_ok_pairs E xs h.2.1
    refine ⟨?_, by rw [norm, h2], by rw [hasExt, h3]⟩
    rw [Ok, h2]
    refine ⟨by unfold itemLimit; omega, h1, ?_, ?_⟩
    · intro k hk
      obtain ⟨p, hp, rfl⟩ := List.mem_map.mp hk
      exact h.2.2.1 p hp
    · rw [List.pairwise_map]; exact h.2.2.2
theorem plain_ok_list (E : Env) (xs : List Val) (h : PlainList E xs) :
    OkList E true xs ∧ normList true xs = xs ∧ hasExtList xs = false := by
  match xs, h with
  | [], _ => simp [OkList, normList, hasExtList]
  | x :: r, h =>
    rw [PlainList] at h
    obtain ⟨h1, h2, h3⟩ := plain_ok E x h.1
    obtain ⟨g1, g2, g3⟩ := plain_ok_list E r h.2
    simp [OkList, normList, hasExtList, *]
theorem plain_ok_pairs (E : Env) (xs : List (Val × Val)) (h : PlainPairs E xs) :
    OkPairs E true xs ∧ normPairs true xs = xs ∧ hasExtPairs xs = false := by
  match xs, h with
  | [], _ => simp [OkPairs, normPairs, hasExtPairs]
  | (k, v) :: r, h =>
    rw [PlainPairs] at h
    obtain ⟨h1, h2, h3⟩ := plain_ok E k h.1
    obtain ⟨e1, e2, e3⟩ := plain_ok E v h.2.1
    obtain ⟨g1, g2, g3⟩ := plain_ok_pairs E r h.2.2
    simp [OkPairs, normPairs, hasExtPairs, *]
end

/-- **C21.**  A value built from None, ints, floats, bytes, str, lists and dicts that is nested at most 511
deep is serialised, and loading the result gives back the same value. -/
theorem loads_dumps_plain (E : Env) (v : Val) (h : Plain E v) (hd : depth v ≤ 511) :
    ∃ bs, dumps v = some bs ∧ loads E bs = .ok v := by
  obtain ⟨h1, h2, h3⟩ := plain_ok E v h
  have hs := pack_isSome E true 511 v h1
  rw [decide_eq_true (by omega), Option.isSome_iff_exists] at hs
  obtain ⟨bs, hbs⟩ := hs
  refine ⟨bs, hbs, ?_⟩
  rw [loads_dumps E v bs hbs h1 (.inl h3), h2]

/-- **C21.**  Deeper values raise. -/
theorem dumps_deep (E : Env) (v : Val) (h : Plain E v) (hd : 511 < depth v) : dumps v = none := by
  have hs := pack_isSome E true 511 v (plain_ok E v h).1
  rw [decide_eq_false (by omega)] at hs
  unfold dumps
  simpa using hs

/-- **C21.**  Two values with the same serialised form are the same value. -/
theorem dumps_inj (E : Env) (v w : Val) (hv : Plain E v) (hw : Plain E w) (bs : List UInt8)
    (h1 : dumps v = some bs) (h2 : dumps w = some bs) : v = w := by
  obtain ⟨a1, a2, a3⟩ := plain_ok E v hv
  obtain ⟨b1, b2, b3⟩ := plain_ok E w hw
  have e1 := loads_dumps E v bs h1 a1 (.inl a3)
  have e2 := loads_dumps E w bs h2 b1 (.inl b3)
  rw [e1, a2, b2] at e2
  injection e2

/-- An environment for the example: int and str keys. -/
def env1 : Env := ⟨id, fun s _ => s.toNat, fun
  | .int a, .int b => a == b
  | .str a, .str b => a == b
  | _, _ => false⟩

/-- A dict with int and str keys, a nested list, and sizes on both sides of the fixint limit. -/
def sampleVal : Val := .dict [(.int 127, .list [.int 128, .nil]), (.str [0xe9], .bytes [1, 2])]

example : dumps sampleVal =
    some [0x82, 0x7f, 0x92, 0xcc, 0x80, 0xc0, 0xa2, 0xc3, 0xa9, 0xc4, 2, 1, 2] := by decide +kernel

example : loads env1 [0x82, 0x7f, 0x92, 0xcc, 0x80, 0xc0, 0xa2, 0xc3, 0xa9, 0xc4, 2, 1, 2] = .ok sampleVal := by
  have h : Plain env1 sampleVal := by
    simp [sampleVal, Plain, PlainPairs, PlainList, hashable, env1]
    decide +kernel
  obtain ⟨bs, h1, h2⟩ := loads_dumps_plain env1 sampleVal h (by decide)
  have e : dumps sampleVal =
    some [0x82, 0x7f, 0x92, 0xcc, 0x80, 0xc0, 0xa2, 0xc3, 0xa9, 0xc4, 2, 1, 2] := by decide +kernel
  rw [e] at h1
  injection h1 with h1
  rw [h1]; exact h2

/-! ## What does not round-trip -/

/-- A tuple comes back as a list. -/
theorem loads_dumps_tuple_refuted (E : Env) :
    ∃ bs, dumps (.tuple [.int 1]) = some bs ∧ loads E bs = .ok (.list [.int 1]) := by
  refine ⟨[0x91, 1], by decide +kernel, ?_⟩
  exact loads_dumps E (.tuple [.int 1]) [0x91, 1] (by decide +kernel) (by simp [Ok, OkList, itemLimit])
    (.inl rfl)

/-- A dict keyed by a tuple is serialised, but loading it raises: the key comes back as a list. -/
theorem loads_dumps_tuple_key_refuted (E : Env) :
    ∃ bs, dumps (.dict [(.tuple [.int 1], .nil)]) = some bs ∧ loads E bs = .raise .hook := by
  refine ⟨[0x81, 0x91, 1, 0xc0], by decide +kernel, ?_⟩
  have h1 : decode E [0x81, 0x91, 1, 0xc0] = .start true 1 [0x91, 1, 0xc0] := rfl
  have h2 : decode E [0x91, 1, 0xc0] = .start false 1 [1, 0xc0] := rfl
  have h3 : decode E [1, 0xc0] = .push (.int 1) [0xc0] := rfl
  have h4 : decode E [0xc0] = .push .nil [] := rfl
  unfold loads
  simp [run_eq, h1, h2, h3, h4, cont, push, mkArr, dictEmplace, hashable]

/-- A 64-bit unsigned integer from another writer comes back negative. -/
theorem loads_uint64_wraps_refuted (E : Env) :
    loads E [0xcf, 255, 255, 255, 255, 255, 255, 255, 255] = .ok (.int (-1)) := by
  have h1 : decode E [0xcf, 255, 255, 255, 255, 255, 255, 255, 255] = .push (.int (-1)) [] := rfl
  unfold loads
  simp [run_eq, h1, cont, push]

/-- Of two entries with the same key the first wins, against the last in Python. -/
theorem loads_dup_first_refuted (E : Env) (hE : E.same (.int 1) (.int 1) = true) :
    loads E [0x82, 1, 2, 1, 3] = .ok (.dict [(.int 1, .int 2)]) := by
  have h1 : decode E [0x82, 1, 2, 1, 3] = .start true 2 [1, 2, 1, 3] := rfl
  have h2 : ∀ r, decode E (1 :: r) = .push (.int 1) r := fun _ => rfl
  have h3 : ∀ r, decode E (2 :: r) = .push (.int 2) r := fun _ => rfl
  have h4 : ∀ r, decode E (3 :: r) = .push (.int 3) r := fun _ => rfl
  unfold loads
  simp [run_eq, h1, h2, h3, h4, cont, push, dictEmplace, hashable, hE]

/-- The length of an extension is cut to 32 bits without an error, so the header of a set or NDArray of
2^32 + 3 bytes is one of a 3-byte payload. -/
theorem packExtHdr_truncates_refuted (tc : UInt8) :
    packExtHdr tc 4294967299 = [0xc9, 0, 0, 0, 3, tc] := by rfl

/-- The number of elements is computed modulo 2^64, so an NDArray of shape `[2^62, 4]` without data is
accepted. -/
theorem unpackNd_shape_overflow_refuted :
    unpackNd (packNd 0 8 1 [2 ^ 62, 4] []) = some (.ndarray 0 8 1 [2 ^ 62, 4] []) :=
  unpackNd_packNd 0 8 1 [2 ^ 62, 4] [] (by unfold NdOk; decide +kernel) (by decide +kernel)

end Verif.Msgpack
