/-
What `random` promises: reproducible sequences, numbers in range, states that can be restored.
-/
import Verif.RandomSeed
import Mathlib.Order.Interval.Finset.Nat
import Mathlib.Data.Finset.Prod

namespace Verif.Random

/-! ## Seeding -/

theorem seedInt_eq {g : Gen} (h : Good g) (n : Int) : seedInt g n = some (seededGen (seedKey n)) :=
  initByArray_eq h.size (seedKey_ne n) (Nat.le_trans (seedKey_le n) (by decide))

/-- **A seed fixes the sequence**: whatever was drawn before, seeding succeeds without an access
outside the array and leads to one state, and to the same one for a seed and its negative. -/
theorem seed_reproducible (n : Int) : ∃ g, Good g ∧ g.index = N ∧
    ∀ g0, Good g0 → seedInt g0 n = some g ∧ seedInt g0 (-n) = some g := by
  refine ⟨seededGen (seedKey n), seededGen_good _, rfl, fun g0 h => ⟨seedInt_eq h n, ?_⟩⟩
  rw [seedInt_eq h, show seedKey (-n) = seedKey n by simp only [seedKey, Int.natAbs_neg]]

theorem temper_zero : temper 0#32 = 0#32 := by decide

/-- **A seeded generator does not run dry**: after any number of draws, the next 624 words are not
all zero. -/
theorem seeded_not_stuck {g g1 g2 g3 : Gen} {n : Int} {m : Nat} {ws vs : List W} (hg : Good g)
    (h1 : seedInt g n = some g1) (h2 : words m g1 = some (ws, g2)) (h3 : words N g2 = some (vs, g3)) :
    ∃ v ∈ vs, v ≠ 0#32 := by
  rw [seedInt_eq hg] at h1
  obtain rfl := Option.some.inj h1
  generalize hk : seedKey n = key at *
  have hx := extend_rec (seededGen key).mt
  obtain ⟨g2', a1, a2⟩ := words_at hx m N _ (good_at (seededGen_good key))
  have e2 := (Prod.mk.inj (Option.some.inj (h2.symm.trans a1))).2
  rw [← e2] at a2
  obtain ⟨g3', b1, -⟩ := words_at hx N (N + m) _ a2
  have e3 := (Prod.mk.inj (Option.some.inj (h3.symm.trans b1))).1
  have h0 : ¬ SameState (extend (seededGen key).mt) (fun _ => 0#32) 0 := by
    intro h
    have e := extend_of_lt (seededGen_good key).size (show 0 < N by decide)
    rw [seededGen_word _ (by decide)] at e
    have := h.1
    rw [← Option.some.inj e] at this
    exact absurd this (by simp only [seeded, if_true]; decide)
  obtain ⟨k, hkN, hne⟩ := never_zero hx h0 (N + m)
  refine ⟨temper (extend (seededGen key).mt (N + m + k)), ?_, ?_⟩
  · rw [e3]; exact List.mem_map.2 ⟨k, List.mem_range.2 hkN, rfl⟩
  intro e
  rw [← temper_zero] at e
  exact hne (temper_inj e)

/-- The words that the generator seeded with `n` delivers. -/
def stream (key : List W) (n : Nat) : Option (List W) := (words n (seededGen key)).map Prod.fst

/-- Python's key: the digits of |n| to base 2^32, least significant first
(CPython, `random_seed` in `Modules/_randommodule.c`). -/
def pyKey (n : Nat) : List W :=
  if h : n < 2 ^ 32 then [BitVec.ofNat 32 n] else BitVec.ofNat 32 n :: pyKey (n / 2 ^ 32)
termination_by n
decreasing_by exact Nat.div_lt_self (by omega) (by decide)

theorem pyKey_small {n : Nat} (h : n < 2 ^ 32) : pyKey n = [BitVec.ofNat 32 n] := by
  unfold pyKey; rw [dif_pos h]

theorem pyKey_large {n : Nat} (h : 2 ^ 32 ≤ n) (h2 : n < 2 ^ 64) :
    pyKey n = [BitVec.ofNat 32 n, BitVec.ofNat 32 (n / 2 ^ 32)] := by
  unfold pyKey; rw [dif_neg (by omega), pyKey_small (by omega)]

theorem ofNat_mod (n : Nat) : BitVec.ofNat 32 (n % 2 ^ 32) = BitVec.ofNat 32 n := by
  apply BitVec.eq_of_toNat_eq; simp

theorem seedKey_small {n : Int} (h : n.natAbs < 2 ^ 32) : seedKey n = [BitVec.ofNat 32 n.natAbs] := by
  unfold seedKey; dsimp only
  rw [if_neg (by rw [Nat.div_eq_of_lt h]; omega), ofNat_mod]

theorem seedKey_large {n : Int} (h : 2 ^ 32 ≤ n.natAbs) :
    seedKey n = [BitVec.ofNat 32 (n.natAbs / 2 ^ 32), BitVec.ofNat 32 n.natAbs] := by
  unfold seedKey; dsimp only
  rw [if_pos (Nat.div_pos h (by decide)), ofNat_mod]

theorem stream_inj {k1 k2 : List W} (h : ∀ n, stream k1 n = stream k2 n) (hne : k1 ≠ [])
    (hl : k1.length = k2.length) (hlen : k1.length ≤ 200) : k1 = k2 :=
  seeded_inj hne hl hlen (words_determine_key h)

theorem ofNat_inj {a b : Nat} (ha : a < 2 ^ 32) (hb : b < 2 ^ 32)
    (h : BitVec.ofNat 32 a = BitVec.ofNat 32 b) : a = b := by
  have := congrArg BitVec.toNat h
  rwa [BitVec.toNat_ofNat, BitVec.toNat_ofNat, Nat.mod_eq_of_lt ha, Nat.mod_eq_of_lt hb] at this

/-- **Equal to Python exactly for short seeds**: for an `int64` seed the sequence is Python's if and
only if |n| < 2^32 or both halves of |n| are equal. -/
theorem seed_like_python_iff {n : Int} (hn : n.natAbs < 2 ^ 64) :
    (∀ m, stream (seedKey n) m = stream (pyKey n.natAbs) m) ↔
      n.natAbs < 2 ^ 32 ∨ n.natAbs / 2 ^ 32 = n.natAbs % 2 ^ 32 := by
  by_cases h : n.natAbs < 2 ^ 32
  · rw [seedKey_small h, pyKey_small h]; exact ⟨fun _ => Or.inl h, fun _ _ => rfl⟩
  · have h' : 2 ^ 32 ≤ n.natAbs := by omega
    rw [seedKey_large h', pyKey_large h' hn]
    constructor
    · intro hs
      have := stream_inj hs (List.cons_ne_nil _ _) rfl (Nat.le_of_ble_eq_true rfl)
      right
      have e := (List.cons.inj this).1
      rw [← ofNat_mod n.natAbs] at e
      exact ofNat_inj (by omega) (Nat.mod_lt _ (by decide)) e
    · intro hs
      rcases hs with hs | hs
      · exact absurd hs h
      · intro m
        rw [hs, ofNat_mod]

/-- 2^32 is such a seed. -/
theorem seed_like_python_refuted :
    ¬ ∀ n : Int, n.natAbs < 2 ^ 63 → ∀ m, stream (seedKey n) m = stream (pyKey n.natAbs) m := by
  intro h
  have := (seed_like_python_iff (n := 4294967296) (by decide)).1 (h _ (by decide))
  revert this; decide

/-- **Different seeds, different sequences**, for seeds (up to sign) of the same number of words. -/
theorem seed_distinct_partial {a b : Int} (hb : b.natAbs < 2 ^ 64) (ha : a.natAbs < 2 ^ 64)
    (hs : a.natAbs < 2 ^ 32 ↔ b.natAbs < 2 ^ 32)
    (h : ∀ m, stream (seedKey a) m = stream (seedKey b) m) : a.natAbs = b.natAbs := by
  by_cases h1 : a.natAbs < 2 ^ 32
  · have h2 := hs.1 h1
    rw [seedKey_small h1, seedKey_small h2] at h
    have := stream_inj h (List.cons_ne_nil _ _) rfl (Nat.le_of_ble_eq_true rfl)
    exact ofNat_inj h1 h2 (List.cons.inj this).1
  · have h2 : ¬ b.natAbs < 2 ^ 32 := fun e => h1 (hs.2 e)
    rw [seedKey_large (by omega), seedKey_large (by omega)] at h
    have e := stream_inj h (List.cons_ne_nil _ _) rfl (Nat.le_of_ble_eq_true rfl)
    have e1 := ofNat_inj (by omega) (by omega) (List.cons.inj e).1
    have e2 := (List.cons.inj (List.cons.inj e).2).1
    rw [← ofNat_mod a.natAbs, ← ofNat_mod b.natAbs] at e2
    have e3 := ofNat_inj (Nat.mod_lt _ (by decide)) (Nat.mod_lt _ (by decide)) e2
    omega

theorem keyAt_pair (h : W) (t : Nat) : keyAt [h, h - 1#32] t = keyAt [h] t := by
  have h2 : t % 2 < 2 := Nat.mod_lt _ (by decide)
  unfold keyAt
  simp only [List.length_cons, List.length_nil, Nat.zero_add, Nat.mod_one]
  rcases (show t % 2 = 0 ∨ t % 2 = 1 by omega) with e | e
  · simp [e]
  · simp [e, BitVec.sub_add_cancel]

theorem hseq_congr {k1 k2 : List W} (h : ∀ t, keyAt k1 t = keyAt k2 t) : ∀ t, hseq k1 t = hseq k2 t
  | 0 => rfl
  | t + 1 => by simp only [hseq, hseq_congr h t, h t]

theorem eseq_congr {k1 k2 : List W} (h : ∀ t, keyAt k1 t = keyAt k2 t) : ∀ t, eseq k1 t = eseq k2 t
  | 0 => by simp only [eseq, lastH, hseq_congr h, h]
  | t + 1 => by simp only [eseq, hseq_congr h, eseq_congr h t]

theorem seededGen_congr {k1 k2 : List W} (h : ∀ t, keyAt k1 t = keyAt k2 t) :
    seededGen k1 = seededGen k2 := by
  have : seeded k1 = seeded k2 := by
    funext i
    simp only [seeded, lastE, eseq_congr h]
  simp only [seededGen, this]

/-- Different seeds can give the same sequence: `seed(h * 2^32 + h - 1)` is `seed(h)`. -/
theorem seed_collision {g : Gen} (hg : Good g) {h : Nat} (h0 : 0 < h) (h1 : h < 2 ^ 31) :
    seedInt g ((h * 2 ^ 32 + (h - 1) : Nat) : Int) = seedInt g (h : Int) := by
  rw [seedInt_eq hg, seedInt_eq hg, seedKey_large (by rw [Int.natAbs_natCast]; omega),
    seedKey_small (by rw [Int.natAbs_natCast]; omega), Int.natAbs_natCast, Int.natAbs_natCast,
    show (h * 2 ^ 32 + (h - 1)) / 2 ^ 32 = h by omega,
    show BitVec.ofNat 32 (h * 2 ^ 32 + (h - 1)) = BitVec.ofNat 32 h - 1#32 by
      apply BitVec.eq_of_toNat_eq
      simp only [BitVec.toNat_ofNat, BitVec.toNat_sub]
      omega]
  exact congrArg some (seededGen_congr (keyAt_pair _))

theorem seed_distinct_refuted :
    ¬ ∀ a b : Int, 0 ≤ a → 0 ≤ b → a < 2 ^ 63 → b < 2 ^ 63 →
      (∀ m, stream (seedKey a) m = stream (seedKey b) m) → a = b := by
  intro h
  have hg := seededGen_good [0#32]
  have := seed_collision hg (h := 1) (by decide) (by decide)
  rw [seedInt_eq hg, seedInt_eq hg] at this
  have := Option.some.inj this
  have := h ((1 * 2 ^ 32 + (1 - 1) : Nat) : Int) ((1 : Nat) : Int) (by decide) (by decide) (by decide)
    (by decide) (fun m => by simp only [stream]; rw [‹seededGen _ = seededGen _›])
  revert this; decide

/-! ## Bits -/

theorem bitLengthTable_spec : ∀ d, 0 < d → d < 32 →
    2 ^ (bitLengthTable.getD d 0 - 1) ≤ d ∧ d < 2 ^ bitLengthTable.getD d 0 ∧
      0 < bitLengthTable.getD d 0 := by
  have : ∀ d < 32, 0 < d → 2 ^ (bitLengthTable.getD d 0 - 1) ≤ d ∧ d < 2 ^ bitLengthTable.getD d 0 ∧
      0 < bitLengthTable.getD d 0 := by decide
  exact fun d h1 h2 => this d h2 h1

/-- **The bit length**: `k` with `2^(k-1) ≤ d < 2^k`. -/
theorem bitsInDigit_spec (d : Nat) (h : 0 < d) :
    0 < bitsInDigit d ∧ 2 ^ (bitsInDigit d - 1) ≤ d ∧ d < 2 ^ bitsInDigit d := by
  induction d using Nat.strongRecOn with
  | ind d ih =>
    unfold bitsInDigit
    by_cases h32 : 32 ≤ d
    · rw [dif_pos h32, Nat.shiftRight_eq_div_pow]
      by_cases h64 : 64 ≤ d
      · have hlt : d / 2 ^ 6 < d := Nat.div_lt_self h (by decide)
        obtain ⟨a, b, c⟩ := ih (d / 2 ^ 6) hlt (Nat.div_pos h64 (by decide))
        generalize bitsInDigit (d / 2 ^ 6) = k at *
        obtain ⟨j, rfl⟩ : ∃ j, k = j + 1 := ⟨k - 1, by omega⟩
        refine ⟨by omega, ?_, ?_⟩
        · rw [show 6 + (j + 1) - 1 = 6 + j by omega, Nat.pow_add]
          rw [Nat.add_sub_cancel] at b
          have := (Nat.le_div_iff_mul_le (show 0 < 2 ^ 6 by decide)).1 b
          rwa [Nat.mul_comm] at this
        · rw [Nat.pow_add]
          have := (Nat.div_lt_iff_lt_mul (show 0 < 2 ^ 6 by decide)).1 c
          rwa [Nat.mul_comm] at this
      · have e : d / 2 ^ 6 = 0 := Nat.div_eq_of_lt (by omega)
        rw [e]
        have e0 : bitsInDigit 0 = 0 := by unfold bitsInDigit; rfl
        rw [e0]
        refine ⟨by decide, ?_, ?_⟩
        · show 2 ^ 5 ≤ d; omega
        · show d < 2 ^ 6; omega
    · rw [dif_neg h32]
      obtain ⟨a, b, c⟩ := bitLengthTable_spec d h (by omega)
      exact ⟨c, a, b⟩

theorem bitsInDigit_le {d m : Nat} (h : 0 < d) (hd : d < 2 ^ m) : bitsInDigit d ≤ m := by
  obtain ⟨a, b, -⟩ := bitsInDigit_spec d h
  have := (Nat.pow_lt_pow_iff_right (show 1 < 2 by decide)).1 (Nat.lt_of_le_of_lt b hd)
  omega

/-- The number of words for `k` bits. -/
def stride (k : Nat) : Nat := if k ≤ 32 then 1 else 2

/-- The `k` bits that Python takes from the words from position `p` on: the words are the digits
to base 2^32, least significant first, and the last one gives its upper bits. -/
def bitsAt (x : Nat → W) (k p : Nat) : Nat :=
  if k ≤ 32 then (temper (x p)).toNat / 2 ^ (32 - k)
  else (temper (x (p + 1))).toNat / 2 ^ (64 - k) * 2 ^ 32 + (temper (x p)).toNat

theorem bitsAt_lt (x : Nat → W) {k : Nat} (hk : k ≤ 64) (p : Nat) : bitsAt x k p < 2 ^ k := by
  unfold bitsAt
  split
  · apply (Nat.div_lt_iff_lt_mul (Nat.pow_pos (by decide))).2
    rw [← Nat.pow_add, show k + (32 - k) = 32 by omega]
    exact (temper (x p)).isLt
  · have h1 : (temper (x (p + 1))).toNat / 2 ^ (64 - k) < 2 ^ (k - 32) := by
      apply (Nat.div_lt_iff_lt_mul (Nat.pow_pos (by decide))).2
      rw [← Nat.pow_add, show k - 32 + (64 - k) = 32 by omega]
      exact (temper (x (p + 1))).isLt
    have h2 := (temper (x p)).isLt
    have h3 : 2 ^ k = 2 ^ (k - 32) * 2 ^ 32 := by rw [← Nat.pow_add]; congr 1; omega
    rw [h3]
    calc _ < _ * 2 ^ 32 + 2 ^ 32 := Nat.add_lt_add_left h2 _
      _ = (_ + 1) * 2 ^ 32 := by rw [Nat.add_mul, Nat.one_mul]
      _ ≤ _ := Nat.mul_le_mul_right _ h1

theorem word_at {x : Nat → W} (hx : Rec x) {p : Nat} {g : Gen} (h : At x p g) :
    ∃ g', word g = .ok (temper (x p), g') ∧ At x (p + 1) g' := by
  obtain ⟨g', h1, h2⟩ := genrand_at hx h
  exact ⟨g', by rw [word, h1], h2⟩

theorem toI64_id {n : Int} (h1 : -2 ^ 63 ≤ n) (h2 : n < 2 ^ 63) : toI64 n = n := by
  unfold toI64
  exact Int.bmod_eq_of_le (by omega) (by omega)

theorem toI32_id {n : Int} (h1 : -2 ^ 31 ≤ n) (h2 : n < 2 ^ 31) : toI32 n = n := by
  unfold toI32
  exact Int.bmod_eq_of_le (by omega) (by omega)

theorem bmod_shift (n j : Int) (m : Nat) : (n + j * (m : Int)).bmod m = n.bmod m := by
  rw [Int.mul_comm]; exact Int.add_mul_bmod_self_left ..

/-- The bits before the conversion to `int64_t`. -/
theorem getrandbits_raw {x : Nat → W} (hx : Rec x) {p k : Nat} {g : Gen} (h : At x p g) (h0 : 0 < k)
    (hk : k ≤ 64) : ∃ g', getrandbits g (k : Int) = .ok (toI64 (bitsAt x k p), g') ∧
      At x (p + stride k) g' := by
  obtain ⟨g1, a1, a2⟩ := word_at hx h
  unfold getrandbits bitsAt stride
  rw [toI32_id (by omega) (by omega)]
  dsimp only
  rw [if_neg (by omega)]
  by_cases h32 : k ≤ 32
  · rw [if_pos (by omega), if_pos h32, if_pos h32, a1]
    refine ⟨g1, ?_, a2⟩
    simp only [bind, Except.bind, Int.toNat_natCast, Nat.shiftRight_eq_div_pow]
  · obtain ⟨g2, b1, b2⟩ := word_at hx a2
    rw [if_neg (by omega), if_neg (by omega), if_neg h32, if_neg h32, a1]
    refine ⟨g2, ?_, b2⟩
    simp only [bind, Except.bind, b1, Int.toNat_natCast, Nat.shiftRight_eq_div_pow,
      Nat.shiftLeft_eq, Int.natCast_add]

/-- **Random bits**: for 1 ≤ k ≤ 63, `getrandbits(k)` is the number that Python takes from the same
words, between 0 and 2^k - 1. -/
theorem getrandbits_spec {x : Nat → W} (hx : Rec x) {p k : Nat} {g : Gen} (h : At x p g)
    (h0 : 0 < k) (hk : k ≤ 63) : bitsAt x k p < 2 ^ k ∧
      ∃ g', getrandbits g (k : Int) = .ok ((bitsAt x k p : Int), g') ∧ At x (p + stride k) g' := by
  have hlt := bitsAt_lt x (show k ≤ 64 by omega) p
  refine ⟨hlt, ?_⟩
  obtain ⟨g', a, b⟩ := getrandbits_raw hx h h0 (by omega)
  have : 2 ^ k ≤ 2 ^ 63 := Nat.pow_le_pow_right (by decide) hk
  rw [toI64_id (by omega) (by omega)] at a
  exact ⟨g', a, b⟩

/-- 64 bits come out negative when the upper one is set. -/
theorem getrandbits_64 {x : Nat → W} (hx : Rec x) {p : Nat} {g : Gen} (h : At x p g)
    (hb : 2 ^ 63 ≤ bitsAt x 64 p) : ∃ g', getrandbits g 64 = .ok ((bitsAt x 64 p : Int) - 2 ^ 64, g') ∧
      ((bitsAt x 64 p : Int) - 2 ^ 64 < 0) := by
  have hlt := bitsAt_lt x (show 64 ≤ 64 by omega) p
  obtain ⟨g', a, -⟩ := getrandbits_raw hx h (show 0 < 64 by decide) (by omega)
  refine ⟨g', ?_, by omega⟩
  have e : toI64 (bitsAt x 64 p : Int) = (bitsAt x 64 p : Int) - 2 ^ 64 := by
    unfold toI64
    rw [← bmod_shift (bitsAt x 64 p : Int) (-1) (2 ^ 64),
      show (bitsAt x 64 p : Int) + -1 * ((2 ^ 64 : Nat) : Int) = (bitsAt x 64 p : Int) - 2 ^ 64 by omega]
    exact Int.bmod_eq_of_le (by omega) (by omega)
  rw [e] at a
  exact a

/-- Any other number of bits in the range of `int` raises, but a larger one is taken modulo 2^32. -/
theorem getrandbits_raises (g : Gen) {k : Int} (h1 : -2 ^ 31 ≤ k) (h2 : k < 2 ^ 31)
    (h : k ≤ 0 ∨ 64 < k) : getrandbits g k = .error .valueError := by
  unfold getrandbits
  rw [toI32_id h1 h2]
  dsimp only
  by_cases h0 : k ≤ 0
  · rw [if_pos h0]
  · rw [if_neg h0, if_neg (by omega), if_pos (by omega)]

theorem getrandbits_truncates (g : Gen) (k j : Int) :
    getrandbits g (k + j * 2 ^ 32) = getrandbits g k := by
  have : toI32 (k + j * 2 ^ 32) = toI32 k := by
    exact bmod_shift k j (2 ^ 32)
  unfold getrandbits
  rw [this]

/-! ## Integers below a bound -/

theorem belowLoop_at {x : Nat → W} (hx : Rec x) {k : Nat} (h0 : 0 < k) (hk : k ≤ 63) (n : Int) :
    ∀ (f p : Nat) (g : Gen), At x p g →
      (∃ t < f, ((bitsAt x k (p + stride k * t) : Int) < n) ∧
        (∀ s < t, n ≤ (bitsAt x k (p + stride k * s) : Int)) ∧
        ∃ g', belowLoop n k f g = .ok ((bitsAt x k (p + stride k * t) : Int), g') ∧
          At x (p + stride k * (t + 1)) g') ∨
      ((∀ t < f, n ≤ (bitsAt x k (p + stride k * t) : Int)) ∧ belowLoop n k f g = .error .fuel)
  | 0, p, g, _ => Or.inr ⟨fun t ht => absurd ht (by omega), rfl⟩
  | f + 1, p, g, h => by
    obtain ⟨-, g1, a1, a2⟩ := getrandbits_spec hx h h0 hk
    by_cases hlt : (bitsAt x k p : Int) < n
    · left
      refine ⟨0, by omega, by simpa using hlt, fun s hs => absurd hs (by omega), g1, ?_, by simpa using a2⟩
      rw [belowLoop, a1]
      simp only [bind, Except.bind, Nat.mul_zero, Nat.add_zero]
      rw [if_neg (by omega)]
    · have e : belowLoop n k (f + 1) g = belowLoop n k f g1 := by
        rw [belowLoop, a1]
        simp only [bind, Except.bind]
        rw [if_pos (by omega)]
      have hp : ∀ t, p + stride k + stride k * t = p + stride k * (t + 1) := fun t => by
        rw [Nat.mul_add, Nat.mul_one]; omega
      rcases belowLoop_at hx h0 hk n f (p + stride k) g1 a2 with ⟨t, b1, b2, b3, g', b4, b5⟩ | ⟨b1, b2⟩
      · left
        simp only [hp] at b2 b3 b4 b5
        refine ⟨t + 1, by omega, b2, fun s hs => ?_, g', by rw [e, b4], b5⟩
        cases s with
        | zero => simpa using (by omega : n ≤ (bitsAt x k p : Int))
        | succ s => exact b3 s (by omega)
      · right
        simp only [hp] at b1
        refine ⟨fun t ht => ?_, by rw [e, b2]⟩
        cases t with
        | zero => simpa using (by omega : n ≤ (bitsAt x k p : Int))
        | succ t => exact b1 t (by omega)

/-- Outcome `r` is the first of the numbers of `k` bits, `k` the bit length of `n`, that is below
`n`: Python's `_randbelow_with_getrandbits`. -/
def FirstBelow (x : Nat → W) (p n : Nat) (r : Nat) (q : Nat) : Prop :=
  ∃ k, 0 < k ∧ 2 ^ (k - 1) ≤ n ∧ n < 2 ^ k ∧ ∃ t, r = bitsAt x k (p + stride k * t) ∧ r < n ∧
    (∀ s < t, n ≤ bitsAt x k (p + stride k * s)) ∧ q = p + stride k * (t + 1)

theorem randbelow_spec {x : Nat → W} (hx : Rec x) {p n : Nat} {g : Gen} (h : At x p g) (h0 : 0 < n)
    (hn : n < 2 ^ 63) (f : Nat) :
    (∃ (r q : Nat) (g' : Gen), randbelow f g (n : Int) = .ok ((r : Int), g') ∧ FirstBelow x p n r q ∧ At x q g') ∨
      randbelow f g (n : Int) = .error .fuel := by
  obtain ⟨a, b, c⟩ := bitsInDigit_spec n h0
  unfold randbelow
  rw [Int.toNat_natCast]
  rcases belowLoop_at hx a (bitsInDigit_le h0 hn) (n : Int) f p g h with
    ⟨t, -, b2, b3, g', b4, b5⟩ | ⟨-, b2⟩
  · left
    exact ⟨_, _, g', b4, ⟨_, a, b, c, t, rfl, by omega, fun s hs => by have := b3 s hs; omega, rfl⟩, b5⟩
  · exact Or.inr b2

/-- The loop ends as soon as one of the attempts is below the bound. -/
theorem randbelow_ends {x : Nat → W} (hx : Rec x) {p n t f : Nat} {g : Gen} (h : At x p g)
    (h0 : 0 < n) (hn : n < 2 ^ 63) (ht : t < f)
    (hb : bitsAt x (bitsInDigit n) (p + stride (bitsInDigit n) * t) < n) :
    ∃ r g', randbelow f g (n : Int) = .ok (r, g') := by
  obtain ⟨a, -, -⟩ := bitsInDigit_spec n h0
  unfold randbelow
  rw [Int.toNat_natCast]
  rcases belowLoop_at hx a (bitsInDigit_le h0 hn) (n : Int) f p g h with
    ⟨t, -, -, -, g', b4, -⟩ | ⟨b1, -⟩
  · exact ⟨_, g', b4⟩
  · have := b1 t ht; omega

/-! ## `randint` -/

theorem toI64_add_left (a b : Int) : toI64 (toI64 a + b) = toI64 (a + b) := by
  unfold toI64; exact Int.bmod_add_bmod

theorem toI64_sub_left (a b : Int) : toI64 (toI64 a - b) = toI64 (a - b) := by
  unfold toI64; exact Int.bmod_sub_bmod

theorem toI64_wrap {n : Int} (j : Int) (h1 : -2 ^ 63 ≤ n + j * 2 ^ 64) (h2 : n + j * 2 ^ 64 < 2 ^ 63) :
    toI64 n = n + j * 2 ^ 64 := by
  have e : toI64 (n + j * 2 ^ 64) = toI64 n := bmod_shift n j (2 ^ 64)
  rw [← e, toI64_id h1 h2]

theorem randint_eq (f : Nat) (g : Gen) (a b : Int) :
    randint f g a b =
      if 0 < toI64 (b + 1 - a) then do
        let (r, g) ← randbelow f g (toI64 (b + 1 - a))
        .ok (toI64 (a + r), g)
      else .error .valueError := by
  unfold randint randrange
  simp only [toI64_sub_left]
  by_cases h : 0 < toI64 (b + 1 - a)
  · simp only [h, and_self, if_true]
  · simp only [h, and_false, if_false, if_true]

/-- **`randint(a, b)` is Python's**: when the interval has fewer than 2^63 elements the result lies
between `a` and `b` and is `a` plus the first attempt of Python's that is small enough; no other
error is possible than that the attempts run out. -/
theorem randint_spec {x : Nat → W} (hx : Rec x) {p : Nat} {g : Gen} (h : At x p g) {a b : Int}
    (ha : -2 ^ 63 ≤ a) (hb : b < 2 ^ 63) (hab : a ≤ b) (hw : b - a + 1 < 2 ^ 63) (f : Nat) :
    (∃ r q g', randint f g a b = .ok (r, g') ∧ a ≤ r ∧ r ≤ b ∧
      FirstBelow x p (b - a + 1).toNat (r - a).toNat q ∧ At x q g') ∨
      randint f g a b = .error .fuel := by
  rw [randint_eq, toI64_id (by omega) (by omega), if_pos (by omega)]
  have e : b + 1 - a = ((b - a + 1).toNat : Int) := by omega
  rw [e]
  rcases randbelow_spec hx h (n := (b - a + 1).toNat) (by omega) (by omega) f with
    ⟨r, q, g', h1, h2, h3⟩ | h1
  · left
    have hr : r < (b - a + 1).toNat := by
      obtain ⟨_, _, _, _, _, _, h, _⟩ := h2
      exact h
    refine ⟨a + r, q, g', ?_, by omega, by omega, by rwa [show (a + r - a).toNat = r by omega], h3⟩
    rw [h1]
    simp only [bind, Except.bind]
    rw [toI64_id (by omega) (by omega)]
  · right
    rw [h1]; rfl

/-- An empty interval raises, while the difference fits. -/
theorem randint_empty_partial (f : Nat) (g : Gen) {a b : Int} (hab : b < a) (hw : -2 ^ 63 ≤ b + 1 - a) :
    randint f g a b = .error .valueError := by
  rw [randint_eq, toI64_id hw (by omega), if_neg (by omega)]

/-- An interval of 2^63 elements or more raises although it is not empty. -/
theorem randint_wide_refuted (f : Nat) (g : Gen) {a b : Int} (ha : -2 ^ 63 ≤ a) (hb : b < 2 ^ 63)
    (hw : 2 ^ 63 ≤ b - a + 1) : randint f g a b = .error .valueError := by
  rw [randint_eq, if_neg]
  by_cases h : b + 1 - a < 2 ^ 64
  · rw [toI64_wrap (-1) (by omega) (by omega)]; omega
  · rw [toI64_wrap (-1) (by omega) (by omega)]; omega

/-- An empty interval whose ends are far apart does not raise: with wrapping subtraction there is no
`ValueError`. -/
theorem randint_empty_refuted {x : Nat → W} (hx : Rec x) {p : Nat} {g : Gen} (h : At x p g)
    {a b : Int} (ha : a < 2 ^ 63) (hb : -2 ^ 63 ≤ b) (hw : b + 1 - a < -2 ^ 63) (f : Nat) :
    (∃ r, randint f g a b = .ok r) ∨ randint f g a b = .error .fuel := by
  rw [randint_eq, toI64_wrap 1 (by omega) (by omega), if_pos (by omega)]
  have e : b + 1 - a + 1 * 2 ^ 64 = ((b + 1 - a + 2 ^ 64).toNat : Int) := by omega
  rw [e]
  rcases randbelow_spec hx h (n := (b + 1 - a + 2 ^ 64).toNat) (by omega) (by omega) f with
    ⟨r, q, g', h1, -, -⟩ | h1
  · left; rw [h1]; exact ⟨_, rfl⟩
  · right; rw [h1]; rfl

/-! ## `random()` and uniformity -/

/-- **`random()`** is a multiple of 2^-53 in [0, 1), Python's from the same two words. -/
theorem random_spec {x : Nat → W} (hx : Rec x) {p : Nat} {g : Gen} (h : At x p g) :
    ∃ v g', random g = some (v, g') ∧ v < 2 ^ 53 ∧
      v = (temper (x p)).toNat / 2 ^ 5 * 2 ^ 26 + (temper (x (p + 1))).toNat / 2 ^ 6 ∧
      At x (p + 2) g' := by
  obtain ⟨g1, a1, a2⟩ := genrand_at hx h
  obtain ⟨g2, b1, b2⟩ := genrand_at hx a2
  refine ⟨_, g2, ?_, ?_, rfl, b2⟩
  · simp only [random, bind, Option.bind, a1, b1, BitVec.toNat_ushiftRight, Nat.shiftRight_eq_div_pow]
    rfl
  · have h1 := (temper (x p)).isLt
    have h2 := (temper (x (p + 1))).isLt
    omega

theorem card_div {k v : Nat} (hk : k ≤ 32) (hv : v < 2 ^ k) :
    ((Finset.range (2 ^ 32)).filter (fun w => w / 2 ^ (32 - k) = v)).card = 2 ^ (32 - k) := by
  have hp : 0 < 2 ^ (32 - k) := Nat.pow_pos (by decide)
  have he : (Finset.range (2 ^ 32)).filter (fun w => w / 2 ^ (32 - k) = v) =
      Finset.Ico (v * 2 ^ (32 - k)) ((v + 1) * 2 ^ (32 - k)) := by
    ext w
    rw [Finset.mem_filter, Finset.mem_range, Finset.mem_Ico]
    have hd : w / 2 ^ (32 - k) = v ↔ v * 2 ^ (32 - k) ≤ w ∧ w < (v + 1) * 2 ^ (32 - k) := by
      rw [← Nat.le_div_iff_mul_le hp, ← Nat.div_lt_iff_lt_mul hp]; omega
    rw [hd]
    constructor
    · exact fun h => h.2
    · refine fun h => ⟨Nat.lt_of_lt_of_le h.2 ?_, h⟩
      calc (v + 1) * 2 ^ (32 - k) ≤ 2 ^ k * 2 ^ (32 - k) := Nat.mul_le_mul_right _ hv
        _ = 2 ^ 32 := by rw [← Nat.pow_add]; congr 1; omega
  rw [he, Nat.card_Ico, ← Nat.sub_mul, Nat.add_sub_cancel_left, Nat.one_mul]

/-- **Every value of `k` bits is equally likely**, for words that are: as many single words
(k ≤ 32) lead to one value as to any other. -/
theorem bits_uniform_short {k v : Nat} (hk : k ≤ 32) (hv : v < 2 ^ k) :
    ((Finset.range (2 ^ 32)).filter (fun w => w >>> (32 - k) = v)).card = 2 ^ (32 - k) := by
  simp only [Nat.shiftRight_eq_div_pow]
  exact card_div hk hv

/-- The same for pairs of words (32 < k ≤ 64). -/
theorem bits_uniform_long {k v : Nat} (h1 : 32 < k) (hk : k ≤ 64) (hv : v < 2 ^ k) :
    (((Finset.range (2 ^ 32)) ×ˢ (Finset.range (2 ^ 32))).filter
      (fun w => ((w.2 >>> (64 - k)) <<< 32) + w.1 = v)).card = 2 ^ (64 - k) := by
  have hv' : v / 2 ^ 32 < 2 ^ (k - 32) := by
    apply (Nat.div_lt_iff_lt_mul (by decide)).2
    rw [← Nat.pow_add, show k - 32 + 32 = k by omega]; exact hv
  have he : ((Finset.range (2 ^ 32)) ×ˢ (Finset.range (2 ^ 32))).filter
      (fun w => ((w.2 >>> (64 - k)) <<< 32) + w.1 = v) =
      {v % 2 ^ 32} ×ˢ (Finset.range (2 ^ 32)).filter (fun w => w / 2 ^ (64 - k) = v / 2 ^ 32) := by
    ext ⟨a, b⟩
    simp only [Finset.mem_filter, Finset.mem_product, Finset.mem_range, Finset.mem_singleton,
      Nat.shiftRight_eq_div_pow, Nat.shiftLeft_eq]
    generalize b / 2 ^ (64 - k) = c
    constructor
    · rintro ⟨⟨h1, h2⟩, h3⟩; omega
    · rintro ⟨h1, h2, h3⟩; omega
  rw [he, Finset.card_product, Finset.card_singleton, Nat.one_mul,
    show 64 - k = 32 - (k - 32) by omega]
  exact card_div (by omega) hv'

/-- Every value of `random()` is equally likely: 2^11 pairs of words lead to it. -/
theorem random_uniform {v : Nat} (hv : v < 2 ^ 53) :
    (((Finset.range (2 ^ 32)) ×ˢ (Finset.range (2 ^ 32))).filter
      (fun w => (w.1 >>> 5) * 67108864 + (w.2 >>> 6) = v)).card = 2 ^ 11 := by
  have he : ((Finset.range (2 ^ 32)) ×ˢ (Finset.range (2 ^ 32))).filter
      (fun w => (w.1 >>> 5) * 67108864 + (w.2 >>> 6) = v) =
      (Finset.range (2 ^ 32)).filter (fun w => w / 2 ^ (32 - 27) = v / 2 ^ 26) ×ˢ
        (Finset.range (2 ^ 32)).filter (fun w => w / 2 ^ (32 - 26) = v % 2 ^ 26) := by
    ext ⟨a, b⟩
    simp only [Finset.mem_filter, Finset.mem_product, Finset.mem_range, Nat.shiftRight_eq_div_pow]
    constructor
    · rintro ⟨⟨h1, h2⟩, h3⟩; omega
    · rintro ⟨⟨h1, h2⟩, h3, h4⟩; omega
  rw [he, Finset.card_product, card_div (by decide) (by omega), card_div (by decide) (by omega),
    ← Nat.pow_add]

/-! ## State -/

section
variable {F : Type}

/-- **Saving and restoring**: whatever the object is, after `setstate` with a saved state it is the
object that was saved, so it delivers the same numbers. -/
theorem setstate_getstate (r r' : Rng F) (h : Good r.gen) : setstate r' (getstate r) = (r, false) := by
  obtain ⟨⟨index, mt⟩, gauss⟩ := r
  have hl : mt.length = N := h.size
  have hi : index ≤ N := h.index
  have ht : (mt.map (fun w => (w.toNat : Int)) ++ [(index : Int)]).take N =
      mt.map (fun w => (w.toNat : Int)) := by
    rw [List.take_append_of_le_length (by simp [hl]), List.take_of_length_le (by simp [hl])]
  have hg : (mt.map (fun w => (w.toNat : Int)) ++ [(index : Int)]).getD N 0 = (index : Int) := by
    rw [List.getD_eq_getElem?_getD, List.getElem?_append_right (by simp [hl])]
    simp [hl]
  have ha : (mt.map (fun w => (w.toNat : Int))).any (· = -1) = false := by
    rw [List.any_eq_false]
    intro z hz
    obtain ⟨w, -, rfl⟩ := List.mem_map.1 hz
    simp only [decide_eq_true_eq]; omega
  have hm : (mt.map (fun w => (w.toNat : Int))).map (BitVec.ofInt 32) = mt := by
    rw [List.map_map]
    conv => rhs; rw [← List.map_id mt]
    apply List.map_congr_left
    intro w _
    apply BitVec.eq_of_toNat_eq
    simp
  unfold setstate getstate
  simp only [ne_eq, not_true, if_false, ht, hg, ha, hm]
  rw [if_neg (by simp [hl]), if_neg (by decide), if_neg (by omega), if_neg (by omega)]
  rfl

/-- **No state breaks the generator**: after `setstate`, whatever the argument and the outcome, the
generator is one that never reads outside its array. -/
theorem setstate_good (r : Rng F) (s : State F) (h : Good r.gen) : Good (setstate r s).1.gen := by
  unfold setstate
  dsimp only
  split
  · exact h
  split
  · exact h
  · next hlen =>
    split
    · exact h
    split
    · exact h
    split
    · exact h
    · next hi =>
      refine ⟨?_, ?_⟩
      · simp only [List.length_map, List.length_take]; omega
      · show (s.internal.getD N 0).toNat ≤ N
        omega

/-- A call that raises for the words or the index has already replaced `gauss_next`, so it is not
without effect. -/
theorem setstate_failed_refuted (r : Rng F) (s : State F) (hv : s.version = 3)
    (hs : s.internal.length ≠ N + 1) (hg : s.gauss ≠ r.gauss) :
    (setstate r s).2 = true ∧ (setstate r s).1 ≠ r := by
  have e : setstate r s = ({ r with gauss := s.gauss }, true) := by
    unfold setstate
    rw [if_neg (by simp [hv])]
    exact if_pos hs
  rw [e]
  refine ⟨rfl, fun h => hg ?_⟩
  exact congrArg Rng.gauss h

/-- It raises for a wrong version before any effect. -/
theorem setstate_version (r : Rng F) (s : State F) (hv : s.version ≠ 3) :
    setstate r s = (r, true) := by
  unfold setstate; exact if_pos hv

/-- A failing call never changes the words or the index. -/
theorem setstate_failed_gen (r : Rng F) (s : State F) (h : (setstate r s).2 = true) :
    (setstate r s).1.gen = r.gen := by
  unfold setstate at h ⊢
  dsimp only at h ⊢
  split
  · rfl
  next h1 =>
  split
  · rfl
  next h2 =>
  split
  · rfl
  next h3 =>
  split
  · rfl
  next h4 =>
  split
  · rfl
  next h5 =>
  rw [if_neg h1, if_neg h2, if_neg h3, if_neg h4, if_neg h5] at h
  cases h

/-- A word or an index -1 is neither stored nor reported: the call returns as if it had
succeeded and the generator goes on as before. -/
theorem setstate_minus_one_refuted (r : Rng F) (s : State F) (hv : s.version = 3)
    (hs : s.internal.length = N + 1) (hm : -1 ∈ s.internal) :
    setstate r s = ({ r with gauss := s.gauss }, false) := by
  unfold setstate
  dsimp only
  rw [if_neg (by simp [hv]), if_neg (by simp [hs])]
  by_cases ha : (s.internal.take N).any (· = -1)
  · rw [if_pos ha]
  · rw [if_neg ha, if_pos]
    obtain ⟨i, hi, he⟩ := List.mem_iff_getElem.1 hm
    by_cases hiN : i < N
    · exfalso; apply ha
      rw [List.any_eq_true]
      refine ⟨-1, List.mem_iff_getElem.2 ⟨i, by rw [List.length_take]; omega, ?_⟩, by simp⟩
      rw [List.getElem_take]; exact he
    · obtain rfl : i = N := by omega
      rw [List.getD_eq_getElem?_getD, List.getElem?_eq_getElem hi, he]; rfl

/-- `seed(n)` forgets the saved normal deviate and everything drawn before. -/
theorem seed_forgets (r r' : Rng F) (h : Good r.gen) (h' : Good r'.gen) (n : Int) :
    ∃ q, seed r n = some q ∧ seed r' n = some q ∧ q.gauss = none ∧ Good q.gen := by
  refine ⟨⟨seededGen (seedKey n), none⟩, ?_, ?_, rfl, seededGen_good _⟩ <;>
    simp only [seed, bind, Option.bind, seedInt_eq h, seedInt_eq h']

end

/-! ## Concrete cases -/

example : seedKey 4294967296 = [1#32, 0#32] ∧ pyKey 4294967296 = [0#32, 1#32] := by
  constructor
  · decide
  · rw [pyKey_large (by decide) (by decide)]; decide

example : bitsInDigit 1000 = 10 ∧ bitsInDigit 1024 = 11 ∧ bitsInDigit 1 = 1 := by
  refine ⟨?_, ?_, ?_⟩ <;> simp [bitsInDigit, bitLengthTable]

/-- From the state of all zeros, `randint(3, 9)` gives 3 with the first word. -/
example : (randint 1 ⟨0, List.replicate N 0#32⟩ 3 9).toOption.map Prod.fst = some 3 := by
  decide +kernel

/-- Two draws over the refill: index 623, then 624. The second word is the 624th of the sequence. -/
example : let g : Gen := ⟨623, List.replicate 623 1#32 ++ [5#32]⟩
    ∃ g', words 2 g = some ([temper (extend g.mt 623), temper (extend g.mt 624)], g') ∧ Good g' := by
  intro g
  have hg : Good g := ⟨by
    show (List.replicate 623 1#32 ++ [5#32]).length = N
    rw [List.length_append, List.length_replicate]; rfl, by show 623 ≤ N; decide⟩
  obtain ⟨g', h1, h2⟩ := words_at (extend_rec g.mt) 2 623 g (good_at hg)
  exact ⟨g', h1, h2.good⟩

example : (setstate (F := Nat) ⟨⟨0, List.replicate N 1#32⟩, none⟩
    ⟨3, List.replicate (N + 1) 5, some 7⟩).1.gen.index = 5 := by decide +kernel

end Verif.Random
