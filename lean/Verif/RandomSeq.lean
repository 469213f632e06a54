/-
The generator produces the sequence of MT19937, and its state can be computed back.
-/
import Verif.Random

namespace Verif.Random

/-- The recurrence of MT19937 (Matsumoto and Nishimura 1998, equation 2.1): the upper bit of
`x i` followed by the lower bits of `x (i+1)`, times the matrix, plus `x (i+m)`. -/
def shifted (a b : W) : W := (a &&& upperMask) ||| (b &&& lowerMask)
def timesA (y : W) : W := (y >>> 1) ^^^ (if y.getLsbD 0 then matrixA else 0#32)
def Rec (x : Nat → W) : Prop := ∀ i, x (i + N) = x (i + M) ^^^ timesA (shifted (x i) (x (i + 1)))

theorem mag01_eq (y : W) : mag01 y = if y.getLsbD 0 then matrixA else 0#32 := by
  unfold mag01
  have h : (y &&& 1#32 = 0#32) ↔ y.getLsbD 0 = false := by
    constructor
    · intro h
      have := congrArg (fun z => z.getLsbD 0) h
      simpa using this
    · intro h
      apply BitVec.eq_of_getLsbD_eq
      intro i hi
      simp only [BitVec.getLsbD_and, BitVec.getLsbD_one, BitVec.getLsbD_zero]
      by_cases h0 : i = 0
      · subst h0; rw [h]; rfl
      · simp [h0]
  cases hb : y.getLsbD 0 with
  | false => rw [if_pos (h.2 hb)]; simp
  | true =>
    rw [if_neg (fun e => by rw [h.1 e] at hb; cases hb)]; simp

theorem twist_word (a b c : W) :
    c ^^^ (((a &&& upperMask) ||| (b &&& lowerMask)) >>> 1) ^^^
      mag01 ((a &&& upperMask) ||| (b &&& lowerMask)) = c ^^^ timesA (shifted a b) := by
  rw [mag01_eq, BitVec.xor_assoc]; rfl

/-! ## The array against the sequence -/

/-- The first `j` words are those of the next block. -/
def Agree (x : Nat → W) (off j : Nat) (mt : List W) : Prop :=
  mt.length = N ∧ ∀ i < N, mt[i]? = some (if i < j then x (off + N + i) else x (off + i))

theorem twistAt_agree {x : Nat → W} (hx : Rec x) {off kk next far : Nat} {mt : List W}
    (h : Agree x off kk mt) (hk : kk < N) (hn : mt[next]? = some (x (off + kk + 1)))
    (hf : mt[far]? = some (x (off + kk + M))) :
    ∃ mt', twistAt mt kk next far = some mt' ∧ Agree x off (kk + 1) mt' := by
  have h0 : mt[kk]? = some (x (off + kk)) := by rw [h.2 kk hk, if_neg (by omega)]
  have e : x (off + N + kk) = x (off + kk + M) ^^^ timesA (shifted (x (off + kk)) (x (off + kk + 1))) := by
    rw [show off + N + kk = off + kk + N by omega, hx]
  refine ⟨mt.set kk (x (off + N + kk)),
    by simp only [twistAt, h0, hn, hf, bind, Option.bind, twist_word, ← e], ?_, ?_⟩
  · simp [h.1]
  · intro i hi
    by_cases hik : i = kk
    · subst hik
      rw [List.getElem?_set_self (by rw [h.1]; exact hk), if_pos (by omega)]
    · rw [List.getElem?_set_ne (by omega), h.2 i hi]
      by_cases hlt : i < kk
      · rw [if_pos hlt, if_pos (by omega)]
      · rw [if_neg hlt, if_neg (by omega)]

theorem fold_agree {x : Nat → W} {off : Nat} {step : List W → Nat → Option (List W)} {hi : Nat}
    (hstep : ∀ kk mt, kk < hi → Agree x off kk mt →
      ∃ mt', step mt kk = some mt' ∧ Agree x off (kk + 1) mt') :
    ∀ (n s : Nat) (mt : List W), s + n ≤ hi → Agree x off s mt →
      ∃ mt', (List.range' s n).foldlM step mt = some mt' ∧ Agree x off (s + n) mt'
  | 0, s, mt, _, h => ⟨mt, rfl, h⟩
  | n + 1, s, mt, hs, h => by
    obtain ⟨mt1, h1, h2⟩ := hstep s mt (by omega) h
    obtain ⟨mt2, h3, h4⟩ := fold_agree hstep n (s + 1) mt1 (by omega) h2
    refine ⟨mt2, ?_, ?_⟩
    · rw [List.range'_succ, List.foldlM_cons, h1]; exact h3
    · rw [show s + (n + 1) = s + 1 + n by omega]; exact h4

theorem foldlM_congr_mem (f g : List W → Nat → Option (List W)) :
    ∀ (l : List Nat), (∀ k ∈ l, ∀ mt, f mt k = g mt k) → ∀ mt, l.foldlM f mt = l.foldlM g mt
  | [], _, _ => rfl
  | k :: l, h, mt => by
    rw [List.foldlM_cons, List.foldlM_cons, h k List.mem_cons_self mt]
    congr 1
    funext m
    exact foldlM_congr_mem f g l (fun k hk => h k (List.mem_cons_of_mem _ hk)) m

theorem twist_agree {x : Nat → W} (hx : Rec x) {off : Nat} {mt : List W} (h : Agree x off 0 mt) :
    ∃ mt', twist mt = some mt' ∧ Agree x (off + N) 0 mt' := by
  obtain ⟨m1, a1, a2⟩ := fold_agree (x := x) (off := off) (hi := N - M)
    (step := fun mt kk => twistAt mt kk (kk + 1) (kk + M)) (fun kk mt hk h => by
      have : N = 624 := rfl
      have : M = 397 := rfl
      refine twistAt_agree hx h (by omega) ?_ ?_
      · rw [h.2 _ (by omega), if_neg (by omega)]; rfl
      · rw [h.2 _ (by omega), if_neg (by omega), Nat.add_assoc]) (N - M) 0 mt (by omega) h
  obtain ⟨m2, b1, b2⟩ := fold_agree (x := x) (off := off) (hi := N - 1)
    (step := fun mt kk => if N - M ≤ kk then twistAt mt kk (kk + 1) (kk + M - N)
      else twistAt mt kk (kk + 1) (kk + M)) (fun kk mt hk h => by
      have : N = 624 := rfl
      have : M = 397 := rfl
      split
      · refine twistAt_agree hx h (by omega) ?_ ?_
        · rw [h.2 _ (by omega), if_neg (by omega)]; rfl
        · rw [h.2 _ (by omega), if_pos (by omega),
            show off + N + (kk + M - N) = off + kk + M by omega]
      · refine twistAt_agree hx h (by omega) ?_ ?_
        · rw [h.2 _ (by omega), if_neg (by omega)]; rfl
        · rw [h.2 _ (by omega), if_neg (by omega), Nat.add_assoc]) (M - 1) (N - M) m1 (by decide)
      (by rw [Nat.zero_add] at a2; exact a2)
  have b1' : (List.range' (N - M) (M - 1)).foldlM
      (fun mt kk => twistAt mt kk (kk + 1) (kk + M - N)) m1 = some m2 := by
    rw [← b1]
    exact foldlM_congr_mem _ _ _ (fun kk hk mt => by
      have := List.mem_range'_1.1 hk
      rw [if_pos this.1]) m1
  have b2' : Agree x off (N - 1) m2 := b2
  obtain ⟨m3, c1, c2⟩ := twistAt_agree hx (next := 0) (far := M - 1) b2' (by decide)
    (by rw [b2'.2 0 (by decide), if_pos (by decide)]; rfl)
    (by rw [b2'.2 _ (by decide), if_pos (by decide)]; rfl)
  refine ⟨m3, ?_, c2.1, fun i hi => ?_⟩
  · simp only [twist, bind, Option.bind, a1, b1', c1]
  · rw [c2.2 i hi, if_pos (by have : N = 624 := rfl; omega), if_neg (by omega)]

/-! ## The outputs -/

/-- The generator delivers `x p` next. -/
def At (x : Nat → W) (p : Nat) (g : Gen) : Prop :=
  ∃ off, p = off + g.index ∧ g.index ≤ N ∧ Agree x off 0 g.mt

theorem genrand_at {x : Nat → W} (hx : Rec x) {p : Nat} {g : Gen} (h : At x p g) :
    ∃ g', genrand g = some (temper (x p), g') ∧ At x (p + 1) g' := by
  obtain ⟨off, hp, hi, ha⟩ := h
  unfold genrand
  by_cases hq : N ≤ g.index
  · obtain ⟨mt', h1, h2⟩ := twist_agree hx ha
    rw [if_pos hq]
    have h0 : mt'[0]? = some (x (off + N)) := by
      rw [h2.2 0 (by decide), if_neg (by omega)]; rfl
    have : p = off + N := by omega
    refine ⟨⟨1, mt'⟩, ?_, off + N, by simp [this], by show 1 ≤ N; decide, h2⟩
    simp only [bind, Option.bind, h1, h0, this]
  · rw [if_neg hq]
    have h0 : g.mt[g.index]? = some (x (off + g.index)) := by
      rw [ha.2 _ (by omega), if_neg (by omega)]
    refine ⟨{ g with index := g.index + 1 }, ?_, off, by simp only; omega, by simp only; omega, ha⟩
    simp only [bind, Option.bind, h0, hp]

/-- The next `n` words. -/
def words : Nat → Gen → Option (List W × Gen)
  | 0, g => some ([], g)
  | n + 1, g => do
    let (w, g) ← genrand g
    let (ws, g) ← words n g
    some (w :: ws, g)

theorem words_at {x : Nat → W} (hx : Rec x) : ∀ (n p : Nat) (g : Gen), At x p g →
    ∃ g', words n g = some ((List.range n).map (fun k => temper (x (p + k))), g') ∧ At x (p + n) g'
  | 0, p, g, h => ⟨g, rfl, h⟩
  | n + 1, p, g, h => by
    obtain ⟨g1, h1, h2⟩ := genrand_at hx h
    obtain ⟨g2, h3, h4⟩ := words_at hx n (p + 1) g1 h2
    refine ⟨g2, ?_, by rw [show p + (n + 1) = p + 1 + n by omega]; exact h4⟩
    simp only [words, bind, Option.bind, h1, h3]
    rw [List.range_succ_eq_map, List.map_cons, List.map_map, Nat.add_zero]
    congr 3
    apply List.map_congr_left
    intro k _
    simp only [Function.comp]
    congr 2; omega

/-- The sequence that continues `N` given words. -/
def extend (mt : List W) (n : Nat) : W :=
  if h : n < N then mt.getD n 0#32
  else extend mt (n - N + M) ^^^ timesA (shifted (extend mt (n - N)) (extend mt (n - N + 1)))
termination_by n
decreasing_by
  all_goals
    have : N = 624 := rfl
    have : M = 397 := rfl
    omega

theorem extend_rec (mt : List W) : Rec (extend mt) := by
  intro i
  conv => lhs; unfold extend
  rw [dif_neg (by omega), Nat.add_sub_cancel]

theorem extend_of_lt {mt : List W} {i : Nat} (hl : mt.length = N) (h : i < N) :
    mt[i]? = some (extend mt i) := by
  unfold extend
  rw [dif_pos h, List.getD_eq_getElem?_getD, List.getElem?_eq_getElem (by omega)]
  rfl

/-- A generator as the constructors, `seed` and `setstate` leave it. -/
structure Good (g : Gen) : Prop where
  size : g.mt.length = N
  index : g.index ≤ N

theorem good_at {g : Gen} (h : Good g) : At (extend g.mt) g.index g :=
  ⟨0, by simp, h.index, h.size, fun i hi => by
    rw [extend_of_lt h.size hi, if_neg (by omega), Nat.zero_add]⟩

theorem At.good {x : Nat → W} {p : Nat} {g : Gen} (h : At x p g) : Good g := by
  obtain ⟨off, -, h2, h3⟩ := h
  exact ⟨h3.1, h2⟩

/-- A sequence with the recurrence is determined by `N` words. -/
theorem rec_unique {x z : Nat → W} (hx : Rec x) (hz : Rec z) (h : ∀ i < N, x i = z i) :
    ∀ n, x n = z n := by
  intro n
  induction n using Nat.strongRecOn with
  | ind n ih =>
    by_cases hn : n < N
    · exact h n hn
    · have e : n = (n - N) + N := by omega
      have : N = 624 := rfl
      have : M = 397 := rfl
      rw [e, hx, hz, ih _ (by omega), ih _ (by omega), ih _ (by omega)]

/-- The published recurrence, with its constants (w = 32, n = 624, m = 397, r = 31 and the matrix):
written without the definitions of the model. -/
def MT19937 (x : Nat → BitVec 32) : Prop :=
  ∀ i, x (i + 624) = x (i + 397) ^^^
    ((((x i &&& 0x80000000#32) ||| (x (i + 1) &&& 0x7fffffff#32)) >>> 1) ^^^
      if ((x i &&& 0x80000000#32) ||| (x (i + 1) &&& 0x7fffffff#32)).getLsbD 0
      then 0x9908b0df#32 else 0#32)

/-- The published tempering (u = 11, s = 7, t = 15, l = 18 and the two masks). -/
def tempering (x : BitVec 32) : BitVec 32 :=
  let a := x ^^^ (x >>> 11)
  let b := a ^^^ ((a <<< 7) &&& 0x9d2c5680#32)
  let c := b ^^^ ((b <<< 15) &&& 0xefc60000#32)
  c ^^^ (c >>> 18)

theorem rec_iff (x : Nat → W) : Rec x ↔ MT19937 x := Iff.rfl
theorem temper_eq (y : W) : temper y = tempering y := rfl

/-- **The generator is MT19937**: there is exactly one sequence that satisfies the recurrence of
MT19937 and starts with the words of the state, and any number of calls deliver its words from the
position of the generator on, tempered, without an access outside the array. -/
theorem generator_is_mt19937 {g : Gen} (h : Good g) :
    ∃ x : Nat → BitVec 32, MT19937 x ∧ (∀ i < 624, g.mt[i]? = some (x i)) ∧
      (∀ z, MT19937 z → (∀ i < 624, g.mt[i]? = some (z i)) → ∀ n, z n = x n) ∧
      ∀ n, ∃ g', words n g = some ((List.range n).map (fun k => tempering (x (g.index + k))), g') ∧
        Good g' := by
  refine ⟨extend g.mt, (rec_iff _).1 (extend_rec _), fun i hi => extend_of_lt h.size hi, ?_, fun n => ?_⟩
  · intro z hz h0
    exact rec_unique ((rec_iff _).2 hz) (extend_rec _) (fun i hi => by
      have := (h0 i hi).symm.trans (extend_of_lt h.size hi)
      exact Option.some.inj this)
  · obtain ⟨g', h1, h2⟩ := words_at (extend_rec g.mt) n g.index g (good_at h)
    exact ⟨g', h1, h2.good⟩

/-! ## Going back -/

theorem timesA_inj {y z : W} (h : timesA y = timesA z) : y = z := by
  unfold timesA at h
  have h31 := congrArg (fun w => w.getLsbD 31) h
  have hA : matrixA.getLsbD 31 = true := by decide
  have hb : y.getLsbD 0 = z.getLsbD 0 := by
    simp only [BitVec.getLsbD_xor, BitVec.getLsbD_ushiftRight] at h31
    rw [show y.getLsbD (1 + 31) = false from BitVec.getLsbD_of_ge _ _ (by omega),
      show z.getLsbD (1 + 31) = false from BitVec.getLsbD_of_ge _ _ (by omega)] at h31
    cases h1 : y.getLsbD 0 <;> cases h2 : z.getLsbD 0 <;> rw [h1, h2] at h31
    · rw [if_neg (by decide), if_pos rfl, hA] at h31; simp at h31
    · rw [if_pos rfl, if_neg (by decide), hA] at h31; simp at h31
  rw [hb] at h
  have hs : y >>> 1 = z >>> 1 := by
    have := congrArg (fun w => w ^^^ (if z.getLsbD 0 then matrixA else 0#32)) h
    simpa [BitVec.xor_assoc] using this
  apply BitVec.eq_of_getLsbD_eq
  intro i hi
  cases i with
  | zero => exact hb
  | succ i =>
    have := congrArg (fun w => w.getLsbD i) hs
    simp only [BitVec.getLsbD_ushiftRight] at this
    rwa [Nat.add_comm 1 i] at this

theorem lowerMask_bit (i : Nat) (h : i < 32) : lowerMask.getLsbD i = decide (i < 31) := by
  have : ∀ i < 32, lowerMask.getLsbD i = decide (i < 31) := by decide
  exact this i h

theorem upperMask_bit (i : Nat) (h : i < 32) : upperMask.getLsbD i = decide (i = 31) := by
  have : ∀ i < 32, upperMask.getLsbD i = decide (i = 31) := by decide
  exact this i h

theorem shifted_bit (a b : W) {i : Nat} (h : i < 32) :
    (shifted a b).getLsbD i = if i = 31 then a.getLsbD 31 else b.getLsbD i := by
  unfold shifted
  rw [BitVec.getLsbD_or, BitVec.getLsbD_and, BitVec.getLsbD_and, upperMask_bit i h,
    lowerMask_bit i h]
  by_cases h31 : i = 31
  · subst h31; simp
  · rw [if_neg h31]
    have : i < 31 := by omega
    simp [h31, this]

/-- The 19937 bits of the state at position `i`. -/
def SameState (x z : Nat → W) (i : Nat) : Prop :=
  (x i).getLsbD 31 = (z i).getLsbD 31 ∧ ∀ k, 0 < k → k < N → x (i + k) = z (i + k)

theorem sameState_back {x z : Nat → W} (hx : Rec x) (hz : Rec z) {i : Nat}
    (h : SameState x z (i + 1)) : SameState x z i := by
  have hN : N = 624 := rfl
  have hM : M = 397 := rfl
  have hw : ∀ k, 1 < k → k ≤ N → x (i + k) = z (i + k) := by
    intro k h1 h2
    have := h.2 (k - 1) (by omega) (by omega)
    rwa [show i + 1 + (k - 1) = i + k by omega] at this
  have e : timesA (shifted (x i) (x (i + 1))) = timesA (shifted (z i) (z (i + 1))) := by
    have h1 := hw N (by omega) (Nat.le_refl _)
    rw [hx, hz, hw M (by omega) (by omega)] at h1
    have := congrArg (fun w => z (i + M) ^^^ w) h1
    simpa [← BitVec.xor_assoc] using this
  have e' := timesA_inj e
  have hbit : ∀ j, j < 32 → (shifted (x i) (x (i + 1))).getLsbD j =
      (shifted (z i) (z (i + 1))).getLsbD j := fun j _ => by rw [e']
  have h31 := hbit 31 (by omega)
  rw [shifted_bit _ _ (by omega), shifted_bit _ _ (by omega), if_pos rfl, if_pos rfl] at h31
  refine ⟨h31, fun k hk hkN => ?_⟩
  by_cases hk1 : k = 1
  · subst hk1
    apply BitVec.eq_of_getLsbD_eq
    intro j hj
    by_cases hj31 : j = 31
    · subst hj31; exact h.1
    · have := hbit j hj
      rwa [shifted_bit _ _ hj, shifted_bit _ _ hj, if_neg hj31, if_neg hj31] at this
  · exact hw k (by omega) (by omega)

theorem sameState_first {x z : Nat → W} (hx : Rec x) (hz : Rec z) :
    ∀ i, SameState x z i → SameState x z 0
  | 0, h => h
  | i + 1, h => sameState_first hx hz i (sameState_back hx hz h)

theorem rec_zero : Rec (fun _ => 0#32) := by
  intro i
  show 0#32 = 0#32 ^^^ timesA (shifted 0#32 0#32)
  decide

/-- **No collapse**: from a state that is not all zero (in its 19937 bits) the generator never
reaches one: among any 624 consecutive words one is not zero. -/
theorem never_zero {x : Nat → W} (hx : Rec x) (h0 : ¬ SameState x (fun _ => 0#32) 0) (i : Nat) :
    ∃ k < N, x (i + k) ≠ 0#32 := by
  apply Classical.byContradiction
  intro hn
  apply h0
  apply sameState_first hx rec_zero i
  have hz : ∀ k, k < N → x (i + k) = 0#32 := by
    intro k hk
    apply Classical.byContradiction
    intro h
    exact hn ⟨k, hk, h⟩
  refine ⟨?_, fun k _ hk => hz k hk⟩
  have := hz 0 (by decide)
  rw [Nat.add_zero] at this
  rw [this]

/-! ## Tempering loses nothing -/

theorem shiftR_inj {s : Nat} (hs : 0 < s) {y z : W} (h : y ^^^ (y >>> s) = z ^^^ (z >>> s)) : y = z := by
  have hb : ∀ n i, i < 32 → 32 ≤ i + n → y.getLsbD i = z.getLsbD i := by
    intro n
    induction n using Nat.strongRecOn with
    | ind n ih =>
      intro i hi hn
      have hbit := congrArg (fun w => w.getLsbD i) h
      simp only [BitVec.getLsbD_xor, BitVec.getLsbD_ushiftRight] at hbit
      have hsh : y.getLsbD (s + i) = z.getLsbD (s + i) := by
        by_cases hq : s + i < 32
        · exact ih (n - s) (by omega) (s + i) hq (by omega)
        · rw [BitVec.getLsbD_of_ge _ _ (by omega), BitVec.getLsbD_of_ge _ _ (by omega)]
      rw [hsh] at hbit
      cases hy : y.getLsbD i <;> cases hz : z.getLsbD i <;> simp_all
  apply BitVec.eq_of_getLsbD_eq
  intro i hi
  exact hb 32 i hi (by omega)

theorem shiftL_inj {s : Nat} (hs : 0 < s) (m : W) {y z : W}
    (h : y ^^^ ((y <<< s) &&& m) = z ^^^ ((z <<< s) &&& m)) : y = z := by
  have hb : ∀ i, i < 32 → y.getLsbD i = z.getLsbD i := by
    intro i
    induction i using Nat.strongRecOn with
    | ind i ih =>
      intro hi
      have hbit := congrArg (fun w => w.getLsbD i) h
      simp only [BitVec.getLsbD_xor, BitVec.getLsbD_and, BitVec.getLsbD_shiftLeft] at hbit
      by_cases hq : i < s
      · simpa [hq] using hbit
      · have := ih (i - s) (by omega) (by omega)
        rw [this] at hbit
        cases hy : y.getLsbD i <;> cases hz : z.getLsbD i <;> simp_all
  exact BitVec.eq_of_getLsbD_eq hb

theorem temper_inj {y z : W} (h : temper y = temper z) : y = z := by
  unfold temper at h
  exact shiftR_inj (by decide) (shiftL_inj (by decide) _ (shiftL_inj (by decide) _
    (shiftR_inj (by decide) h)))

/-- **The outputs determine the state**: two generators that deliver the same 624 words agree in
all 19937 bits of their states, so they deliver the same words for ever. -/
theorem outputs_determine {x z : Nat → W} (hx : Rec x) (hz : Rec z) {p q : Nat}
    (h : ∀ k < N, temper (x (p + k)) = temper (z (q + k))) : ∀ k, x (p + k) = z (q + k) := by
  have hx' : Rec (fun k => x (p + k)) := by
    intro i
    have := hx (p + i)
    simp only [Nat.add_assoc] at this ⊢
    exact this
  have hz' : Rec (fun k => z (q + k)) := by
    intro i
    have := hz (q + i)
    simp only [Nat.add_assoc] at this ⊢
    exact this
  exact rec_unique hx' hz' (fun i hi => temper_inj (h i hi))

end Verif.Random
