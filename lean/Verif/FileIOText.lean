/-
`read(n)` of a text file, and lines of files that are larger than the buffer.
-/
import Verif.FileIOProps
import Verif.Utf8Props
import Mathlib.Tactic.ByContra

namespace Verif.FileIO

open Verif.Utf8 (encodeOne encode)

/-! ## `read(n)` of a text file -/

theorem charLen_1 : ∀ y < 128, charLen (UInt8.ofNat y) = 1 := by decide +kernel
theorem charLen_2 : ∀ y < 32, charLen (UInt8.ofNat (192 + y)) = 2 := by decide +kernel
theorem charLen_3 : ∀ y < 16, charLen (UInt8.ofNat (224 + y)) = 3 := by decide +kernel
theorem charLen_4 : ∀ y < 8, charLen (UInt8.ofNat (240 + y)) = 4 := by decide +kernel

/-- The first byte of an encoded character tells its length. -/
theorem encodeOne_head (x : Nat) :
    ∃ b bs, encodeOne x = b :: bs ∧ charLen b = (encodeOne x).length := by
  rw [Verif.Utf8.encodeOne_eq]
  split
  · exact ⟨_, _, rfl, charLen_1 x (by omega)⟩
  split
  · exact ⟨_, _, rfl, charLen_2 _ (by omega)⟩
  split
  · exact ⟨_, _, rfl, charLen_3 _ (by omega)⟩
  split
  · exact ⟨_, _, rfl, charLen_4 _ (by omega)⟩
  · exact ⟨_, _, rfl, by decide⟩

/-- Counting the characters that start in the first `j` bytes of an encoded text. -/
theorem scanChars_take : ∀ (cps : List Nat) (j f : Nat), ((encode cps).take j).length ≤ f →
    ∃ c miss, scanChars f ((encode cps).take j) = (c, miss) ∧ c ≤ cps.length ∧ c ≤ j ∧
      (encode (cps.take c)).length = min j (encode cps).length + miss
  | [], j, f, _ => ⟨0, 0, by cases f <;> simp [encode, scanChars], by simp, by omega, by
      simp [encode]⟩
  | x :: xs, 0, f, _ => ⟨0, 0, by cases f <;> simp [scanChars], by simp, by omega, by simp [encode]⟩
  | x :: xs, j + 1, f, hf => by
    obtain ⟨b, bs, hb, hlen⟩ := encodeOne_head x
    have hb1 : (encodeOne x).length = bs.length + 1 := by rw [hb]; rfl
    have he : encode (x :: xs) = b :: (bs ++ encode xs) := by
      rw [encode, hb]; rfl
    have hel : (encode (x :: xs)).length = bs.length + 1 + (encode xs).length := by
      rw [he]; simp; omega
    have ht : (encode (x :: xs)).take (j + 1) = b :: (bs ++ encode xs).take j := by
      rw [he, List.take_succ_cons]
    rw [ht] at hf ⊢
    cases f with
    | zero => simp at hf
    | succ f =>
      unfold scanChars
      have hcl : ((bs ++ encode xs).take j).length = min j (bs.length + (encode xs).length) := by
        simp
      by_cases hq : j < bs.length
      · rw [if_pos (by rw [hcl, hlen]; omega)]
        refine ⟨1, _, rfl, by simp, by omega, ?_⟩
        rw [hcl, hlen, hb1, hel]
        simp only [List.take_succ_cons, List.take_zero, encode, List.append_nil, hb1]
        omega
      · rw [if_neg (by rw [hcl, hlen]; omega)]
        have hd : (b :: (bs ++ encode xs).take j).drop (charLen b) =
            (encode xs).take (j - bs.length) := by
          rw [hlen, hb1, List.drop_succ_cons, List.drop_take, List.drop_left]
        rw [hd]
        obtain ⟨c, miss, h1, h2, h3, h4⟩ := scanChars_take xs (j - bs.length) f (by
          simp only [List.length_cons, hcl] at hf
          simp only [List.length_take]; omega)
        rw [h1]
        refine ⟨c + 1, miss, rfl, by simp; omega, by omega, ?_⟩
        rw [List.take_succ_cons, encode, List.length_append, hb1, h4, hel]
        omega

theorem encode_take_drop (cps : List Nat) (c : Nat) :
    encode (cps.take c) ++ encode (cps.drop c) = encode cps := by
  rw [← Verif.Utf8.encode_append, List.take_append_drop]

/-- The loop of `ReadUnicode`: `tail` are the missing bytes of a character read in part. -/
theorem readChars_small : ∀ (f : Nat) (s : Rd) (tail : Bytes) (cps : List Nat) (n : Nat),
    Small s (tail ++ encode cps) → Clean s → 0 < n → (tail ++ encode cps).length + 1 < f →
    ∃ s', readChars full f s n tail.length = .ok (s', tail ++ encode (cps.take n)) ∧
      Small s' (encode (cps.drop n)) ∧ Clean s' ∧ s'.keep = s.keep
  | 0, _, _, _, _, _, _, _, hf => by omega
  | f + 1, s, tail, cps, n, h, hc, hn, hf => by
    obtain ⟨m, hm⟩ : ∃ m, m = max n tail.length := ⟨_, rfl⟩
    have hmI : max (n : Int) (tail.length : Int) = ((m : Nat) : Int) := by omega
    unfold readChars
    rw [if_neg (by omega)]
    simp only [bind, Except.bind]
    rw [hmI]
    obtain ⟨s', i1, i2, i3, i4, i5⟩ := read_small h hc (m : Int)
    rw [i1]
    have htk : takeN (tail ++ encode cps) (m : Int) =
        ((tail ++ encode cps).take m, (tail ++ encode cps).drop m) := by
      unfold takeN
      rw [if_neg (by omega)]; rfl
    rw [htk] at i2
    rw [htk]
    dsimp only at i2 ⊢
    have e1 : (tail ++ encode cps).take m = tail ++ (encode cps).take (m - tail.length) := by
      rw [List.take_append, List.take_of_length_le (by omega)]
    have e2 : (tail ++ encode cps).drop m = (encode cps).drop (m - tail.length) := by
      rw [List.drop_append, List.drop_of_length_le (by omega), List.nil_append]
    rw [e1]
    rw [e2] at i2
    rw [List.drop_left]
    obtain ⟨c, miss, h1, h2, h3, h4⟩ := scanChars_take cps (m - tail.length)
      (tail ++ (encode cps).take (m - tail.length)).length (by
        rw [List.length_append]; omega)
    rw [h1]
    dsimp only
    -- what is left: the end of the last character, and the other characters
    obtain ⟨tail', htail⟩ : ∃ t, t = (encode (cps.take c)).drop (m - tail.length) := ⟨_, rfl⟩
    have hcn : c ≤ n := by omega
    have hle : miss = tail'.length := by
      rw [htail, List.length_drop, h4]
      by_cases hq : m - tail.length ≤ (encode cps).length
      · omega
      · have hx : (encode (cps.take c)).length ≤ (encode cps).length := by
          rw [← encode_take_drop cps c, List.length_append]; omega
        omega
    have hsplit : (encode cps).take (m - tail.length) ++ tail' = encode (cps.take c) := by
      rw [htail]
      by_cases hq : m - tail.length ≤ (encode (cps.take c)).length
      · rw [← encode_take_drop cps c, List.take_append_of_le_length hq, List.take_append_drop]
      · have hx : (encode (cps.take c)).length ≤ (encode cps).length := by
          rw [← encode_take_drop cps c, List.length_append]; omega
        have hfull : (encode (cps.drop c)) = [] := by
          have := congrArg List.length (encode_take_drop cps c)
          rw [List.length_append] at this
          apply List.eq_nil_of_length_eq_zero
          omega
        have hall : encode (cps.take c) = encode cps := by
          rw [← encode_take_drop cps c, hfull, List.append_nil]
        rw [List.drop_of_length_le (by omega), List.append_nil, hall,
          List.take_of_length_le (by rw [← hall]; omega)]
    have hleft : (encode cps).drop (m - tail.length) = tail' ++ encode (cps.drop c) := by
      have e : (encode cps).take (m - tail.length) ++ (encode cps).drop (m - tail.length) =
          (encode cps).take (m - tail.length) ++ (tail' ++ encode (cps.drop c)) := by
        rw [List.take_append_drop, ← List.append_assoc, hsplit, encode_take_drop]
      exact List.append_cancel_left e
    rw [hleft] at i2
    have hrest : ∀ k, encode (cps.take (c + k)) =
        encode (cps.take c) ++ encode ((cps.drop c).take k) := by
      intro k
      rw [← Verif.Utf8.encode_append, ← List.take_add]
    by_cases hlast : s'.last = true
    · -- the end of the file
      rw [if_pos hlast]
      have hR := (i2.buf.done hlast).1
      have ht' : tail' = [] := (List.append_eq_nil_iff.1 hR).1
      have hd' : encode (cps.drop c) = [] := (List.append_eq_nil_iff.1 hR).2
      have hdn : cps.drop c = [] := by
        cases hx : cps.drop c with
        | nil => rfl
        | cons y ys =>
          rw [hx, encode] at hd'
          obtain ⟨b, bs, hb, -⟩ := encodeOne_head y
          rw [hb] at hd'; simp at hd'
      have hcl : cps.length ≤ c := List.drop_eq_nil_iff.1 hdn
      refine ⟨s', ?_, ?_, i3, i4⟩
      · congr 2
        rw [← List.append_nil ((encode cps).take _), ← ht', hsplit,
          List.take_of_length_le hcl, List.take_of_length_le (by omega)]
      · rw [List.drop_of_length_le (by omega : cps.length ≤ n)]
        rw [hR] at i2
        exact i2
    · rw [if_neg hlast]
      have hlast' : s'.last = false := by simpa using hlast
      by_cases hz : (n : Int) - (c : Int) = 0 ∧ 0 < miss
      · rw [if_pos hz]
        have hcn' : c = n := by omega
        obtain ⟨s2, j1, j2, j3, j4, -⟩ := read_small i2 i3 (miss : Int)
        have htk2 : takeN (tail' ++ encode (cps.drop c)) (miss : Int) =
            (tail', encode (cps.drop c)) := by
          unfold takeN
          rw [if_neg (by omega), Int.toNat_natCast, hle, List.take_left, List.drop_left]
        rw [htk2] at j1 j2
        simp only [j1]
        refine ⟨s2, ?_, ?_, j3, j4.trans i4⟩
        · rw [List.append_assoc, hsplit, hcn']
        · rw [← hcn']; exact j2
      · rw [if_neg hz]
        by_cases hcn' : c = n
        · have hm0 : miss = 0 := by omega
          have ht' : tail' = [] := List.eq_nil_of_length_eq_zero (by omega)
          cases f with
          | zero => omega
          | succ f =>
            unfold readChars
            rw [if_pos (by omega)]
            dsimp only
            refine ⟨s', ?_, ?_, i3, i4⟩
            · rw [List.append_nil]
              congr 2
              rw [← List.append_nil ((encode cps).take _), ← ht', hsplit, hcn']
            · rw [ht', List.nil_append, hcn'] at i2
              exact i2
        · have hcI : (n : Int) - (c : Int) = ((n - c : Nat) : Int) := by omega
          rw [hcI, hle]
          -- some bytes were read
          have hne : tail ++ encode cps ≠ [] := by
            intro e
            have := i5 e (by omega)
            rw [hlast'] at this; cases this
          have hprog : (tail' ++ encode (cps.drop c)).length + 1 < f := by
            rw [← hleft, ← e2, List.length_drop]
            have := List.length_pos_iff.2 hne
            omega
          obtain ⟨s2, j1, j2, j3, j4⟩ := readChars_small f s' tail' (cps.drop c) (n - c) i2 i3
            (by omega) hprog
          rw [j1]
          refine ⟨s2, ?_, ?_, j3, j4.trans i4⟩
          · dsimp only
            congr 2
            rw [List.append_assoc]
            congr 1
            rw [← List.append_assoc, hsplit, ← hrest]
            congr 2; omega
          · rw [List.drop_drop] at j2
            have : c + (n - c) = n := by omega
            rw [this] at j2
            exact j2

/-- **`read(n)` of a text file** (files that fit, `n > 0`): the next `n` characters. Successive
calls continue where the last one stopped. -/
theorem read_text_partial {s : Rd} {cps : List Nat} (h : Small s (encode cps)) (hc : Clean s)
    (n : Nat) (hn : 0 < n) :
    ∃ s', readUnicode full s n = .ok (s', encode (cps.take n)) ∧ Small s' (encode (cps.drop n)) ∧
      Clean s' := by
  unfold readUnicode
  have hlen : (encode cps).length ≤ s.rest.length + (s.lim - s.pos) := by
    cases hl : s.last with
    | true => rw [(h.buf.done hl).1]; simp
    | false => have := small_held h hl; omega
  by_cases hq : (encode cps).length + 1 < s.rest.length + (s.lim - s.pos) + 2
  · obtain ⟨s', i1, i2, i3, i4⟩ := readChars_small _ s [] cps n h hc hn hq
    exact ⟨s', i1, i2, i3⟩
  · omega

/-! ## Files that are larger than the buffer -/

/-- The division into lines never puts the end of a line at the end of the buffer. `w` bytes of the
buffer are not delivered yet; a line that does not fit is moved to the front of the buffer. -/
def NoHit (cap : Nat) : Nat → List Nat → Prop
  | _, [] => True
  | w, n :: ns => (ns = [] ∨ n ≠ w) ∧ if n < w then NoHit cap (w - n) ns else NoHit cap (cap - n) ns

instance : ∀ (cap w : Nat) (ns : List Nat), Decidable (NoHit cap w ns)
  | _, _, [] => isTrue trivial
  | cap, w, n :: ns =>
    have := instDecidableNoHit cap (w - n) ns
    have := instDecidableNoHit cap (cap - n) ns
    inferInstanceAs (Decidable ((ns = [] ∨ n ≠ w) ∧
      if n < w then NoHit cap (w - n) ns else NoHit cap (cap - n) ns))

theorem readLines_large : ∀ (f : Nat) (s : Rd) (R : Bytes), Buf s R → s.keep = true →
    R.length < f → (∀ l ∈ lines R, l.length + 1 < s.cap) →
    s.rest = [] ∨ NoHit s.cap (s.lim - s.pos) ((lines R).map List.length) →
    ∃ s', readLines full f s = .ok (s', lines R)
  | 0, _, _, _, _, hf, _, _ => by omega
  | f + 1, s, R, h, hk, hf, hl, hg => by
    unfold readLines
    by_cases hR : R = []
    · subst hR
      obtain ⟨s', i1, -⟩ := readLine_end h
      rw [i1]
      exact ⟨s', rfl⟩
    · have hlast : s.last = false := by
        cases hl : s.last with
        | false => rfl
        | true => exact absurd (h.done hl).1 hR
      have hhl : s.held.length = s.lim - s.pos :=
        slice_length (by have := h.size; have := h.lim; omega)
      have hlive := h.live hlast
      rw [lines_eq hR] at hl hg
      have hfl : (firstLine R).length + 1 < s.cap := hl _ (by simp)
      have hguard : s.held = firstLine R → s.rest = [] := by
        intro e
        rcases hg with hx | hx
        · exact hx
        · simp only [List.map_cons, NoHit] at hx
          rcases hx.1 with hx | hx
          · have ha : afterLine R = [] := by
              by_contra ha
              rw [lines_eq ha] at hx; simp at hx
            have h1 := first_after R
            rw [ha, List.append_nil] at h1
            have h2 := congrArg List.length hlive
            have h3 := congrArg List.length h1
            rw [List.length_append, e] at h2
            exact List.eq_nil_of_length_eq_zero (by omega)
          · rw [← e, hhl] at hx
            exact absurd rfl hx
      obtain ⟨s', p, i1, i2, i3, i4, i5, i6, i7, i8, i9, i10, i11⟩ := readLine_spec h hlast hR hguard
      have hcap := i11 hfl
      have hlt : (afterLine R).length < R.length := by
        have h1 := congrArg List.length (first_after R)
        have h2 := List.length_pos_iff.2 (firstLine_ne_nil hR)
        rw [List.length_append] at h1; omega
      obtain ⟨s2, j1⟩ := readLines_large f s' (afterLine R) i3 (i4.trans hk) (by omega)
        (fun l hx => by rw [hcap]; exact hl l (List.mem_cons_of_mem _ hx)) (by
          rcases hg with hx | hx
          · exact Or.inl (i8 hx)
          by_cases ha : afterLine R = []
          · right; rw [ha]; simp [lines, NoHit]
          have hx : (firstLine R).length ≠ s.lim - s.pos ∧ _ :=
            ⟨hx.1.resolve_left (by rw [lines_eq ha]; simp), hx.2⟩
          · by_cases hd : s'.last = true
            · exact Or.inl (i3.done hd).2
            · have hd' : s'.last = false := by simpa using hd
              by_cases hm : (10 : UInt8) ∈ s.held
              · obtain ⟨k1, k2, k3⟩ := i9 hm hd'
                have hle : (firstLine R).length ≤ s.held.length := by
                  rw [← hlive, firstLine_append _ hm]
                  exact (List.take_sublist _ _).length_le
                rw [if_pos (by omega)] at hx
                right
                rw [hcap, k1, k2]
                have : s.lim - (s.pos + (firstLine R).length) =
                    s.lim - s.pos - (firstLine R).length := by omega
                rw [this]
                exact hx.2
              · by_cases hmR : (10 : UInt8) ∈ R
                · obtain ⟨k1, k2⟩ := i10 hm hmR
                  rcases k2 with k2 | k2
                  · exact Or.inl k2
                  · right
                    have hge : ¬ (firstLine R).length < s.lim - s.pos := by
                      intro hy
                      apply hm
                      have e : firstLine R = R.take (upTo R).length ++ [10] := firstLine_eq hmR
                      have hpre : firstLine R <+: s.held := by
                        have h1 : firstLine R <+: R := ⟨_, first_after R⟩
                        have h2 : s.held <+: R := ⟨_, hlive⟩
                        exact List.prefix_of_prefix_length_le h1 h2 (by omega)
                      exact hpre.subset (by rw [e]; simp)
                    rw [if_neg hge] at hx
                    rw [hcap, k2, k1, hcap]
                    exact hx.2
                · exact absurd (i6.2 (Or.inl hmR)) hd)
      rw [i1]
      simp only [bind, Except.bind, if_true]
      rw [i2]
      simp only [bind, Except.bind]
      rw [j1]
      refine ⟨s2, ?_⟩
      have : outLine s.keep (firstLine R) = firstLine R := by simp [outLine, hk]
      rw [lines_eq hR, this]

/-- **Lines of a large file**: `readlines()` returns the lines, when they are shorter than the
buffer and no line but the last ends exactly at the end of a buffer. -/
theorem readlines_large_partial (file junk : Bytes) (hj : 1 < junk.length)
    (hl : ∀ l ∈ lines file, l.length + 1 < junk.length - 1)
    (hg : NoHit (junk.length - 1) 0 ((lines file).map List.length)) :
    ∃ s', readLines full (file.length + 1) (openFile file junk true) = .ok (s', lines file) := by
  apply readLines_large (file.length + 1) _ file _ rfl (by omega) hl (Or.inr hg)
  exact ⟨by simp [openFile]; omega, by simp [openFile]; omega, Nat.le_refl _, Nat.zero_le _,
    fun _ => by rw [held_of_eq rfl]; rfl, Or.inr (Or.inr rfl), by simp [openFile],
    by simp [openFile]; omega⟩

end Verif.FileIO
