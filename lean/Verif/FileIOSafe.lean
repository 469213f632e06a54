/-
Reading lines stays inside the buffer: for every file, every capacity, and whatever `read(2)`
delivers at a time.
-/
import Verif.FileIOInv

namespace Verif.FileIO

/-- The buffer of a reader that only handed out lines. -/
structure Safe (s : Rd) : Prop where
  size : s.data.length = s.cap + 1
  capPos : 0 < s.cap
  le : s.pos ≤ s.lim
  lim : s.lim ≤ s.cap
  room : s.keep = true → s.lim - s.pos < s.cap

/-- Bytes that were not delivered yet. -/
def Rd.left (s : Rd) : Nat := s.rest.length + (s.lim - s.pos)

theorem open_safe (file junk : Bytes) (keep : Bool) (hj : 1 < junk.length) :
    Safe (openFile file junk keep) :=
  ⟨by simp [openFile]; omega, by simp [openFile]; omega, Nat.le_refl _, Nat.zero_le _,
    fun _ => by simp [openFile]; omega⟩

/-- `read(2)`, whatever it delivers. -/
theorem sysRead_any (grant : Nat → Nat) (s : Rd) (off n : Nat) (h : off + n ≤ s.data.length) :
    ∃ k, sysRead grant s off n =
        .ok (k, { s with rest := s.rest.drop k, data := blit s.data off (s.rest.take k) }) ∧
      k ≤ n ∧ k ≤ s.rest.length ∧ (0 < n → s.rest ≠ [] → 0 < k) ∧
      (blit s.data off (s.rest.take k)).length = s.data.length := by
  unfold sysRead
  simp only
  rw [if_pos (by omega)]
  refine ⟨_, rfl, by omega, by omega, fun h1 h2 => ?_, ?_⟩
  · have := List.length_pos_iff.2 h2; omega
  · rw [blit_length]; rw [List.length_take]; omega

theorem outLine_length_lt {l : Bytes} (h : l.getLast? = some 10) : (outLine false l).length < l.length := by
  have hne : l ≠ [] := by rintro rfl; simp at h
  have hp := List.length_pos_iff.2 hne
  unfold outLine
  rw [if_neg (by simp [h])]
  split <;> simp only [List.length_dropLast] <;> omega

theorem copyOut_some {s : Rd} {off n : Nat} (h : off + n ≤ s.data.length) :
    copyOut s (some (s.gen, off, n)) = .ok (slice s.data off (off + n)) := by
  unfold copyOut
  simp [h]

/-- A line in the buffer. -/
theorem fromBuffer_safe {s : Rd} (hs : s.data.length = s.cap + 1) (hp : s.pos ≤ s.lim)
    (hc : s.lim ≤ s.cap) (h : (10 : UInt8) ∈ s.held) :
    ∃ n e, readLineFromBuffer s = .ok ({ s with pos := e }, some (s.pos, n)) ∧ s.pos < e ∧
      e ≤ s.lim ∧ s.pos + n ≤ e ∧ (s.keep = true → n = e - s.pos) ∧
      (s.keep = false → s.pos + n < e) := by
  obtain ⟨n, i1, i2, i3, i4, i5⟩ := fromBuffer_some hs hp hc h
  refine ⟨n, _, i1, by omega, i4, by omega, fun hk => by rw [i5 hk]; omega, fun hk => ?_⟩
  have h1 := congrArg List.length i2
  rw [slice_length (by omega), hk] at h1
  have h2 := outLine_length_lt (l := firstLine s.held) (by rw [firstLine_eq h]; simp)
  rw [firstLine_length h] at h2
  omega

theorem grow_length {s : Rd} (hs : s.data.length = s.cap + 1) :
    (grow s).data.length = (grow s).cap + 1 := by
  simp only [grow, List.length_append, List.length_take, List.length_replicate]; omega

theorem readLoop_safe (grant : Nat → Nat) : ∀ (f : Nat) (s : Rd), s.data.length = s.cap + 1 →
    s.pos = 0 → s.lim < s.cap → s.rest.length < f →
    ∃ s' r p l, readLoop grant f s = .ok (s', r, p) ∧ copyOut s' p = .ok l ∧ Safe s' ∧
      s'.keep = s.keep ∧ (r = false → s'.last = true) ∧ (s'.last = true ∨ s'.left < s.left)
  | 0, _, _, _, _, hf => by omega
  | f + 1, s, hs, hp, hc, hf => by
    unfold readLoop
    obtain ⟨k, e, hk1, hk2, hk3, hk4⟩ := sysRead_any grant s s.lim (s.cap - s.lim) (by omega)
    rw [e]
    simp only [bind, Except.bind]
    by_cases hk : k = 0
    · rw [if_pos hk]
      have hsafe : Safe { s with rest := s.rest.drop k, data := blit s.data s.lim (s.rest.take k),
                                 last := true } :=
        ⟨hk4.trans hs, by simp only; omega, by simp only; omega, by simp only; omega,
          fun _ => by simp only; omega⟩
      by_cases hl : s.pos < s.lim
      · rw [if_pos hl]
        exact ⟨_, _, _, _, rfl, copyOut_some (by simp only [hk4]; omega), hsafe, rfl, by simp,
          Or.inl rfl⟩
      · rw [if_neg hl]
        exact ⟨_, _, _, _, rfl, rfl, hsafe, rfl, fun _ => rfl, Or.inl rfl⟩
    · rw [if_neg hk]
      obtain ⟨s1, hs1⟩ : ∃ s1 : Rd, s1 = Rd.mk (s.rest.drop k) (blit s.data s.lim (s.rest.take k))
        s.gen s.cap s.pos (s.lim + k) s.last s.keep := ⟨_, rfl⟩
      have e1 : ({ s with rest := s.rest.drop k, data := blit s.data s.lim (s.rest.take k),
                          lim := s.lim + k } : Rd) = s1 := hs1.symm
      have a1 : s1.data.length = s1.cap + 1 := by rw [hs1]; exact hk4.trans hs
      have a2 : s1.pos = 0 := by rw [hs1]; exact hp
      have a3 : s1.lim = s.lim + k := by rw [hs1]
      have a4 : s1.cap = s.cap := by rw [hs1]
      have a5 : s1.rest.length = s.rest.length - k := by rw [hs1]; simp
      have a6 : s1.keep = s.keep := by rw [hs1]
      rw [e1]
      by_cases hm : (10 : UInt8) ∈ s1.held
      · obtain ⟨n, e', j1, j2, j3, j4, j5, j6⟩ := fromBuffer_safe a1 (by omega) (by omega) hm
        rw [j1]
        simp only
        refine ⟨_, _, _, _, rfl, copyOut_some (s := { s1 with pos := e' }) (by simp only; omega),
          ⟨a1, by simp only; omega, j3, by simp only; omega, fun _ => by simp only; omega⟩, a6,
          by simp, Or.inr ?_⟩
        simp only [Rd.left]; omega
      · rw [fromBuffer_none a1 (by omega) (by omega) hm]
        simp only
        by_cases hg : s1.pos ≠ s1.lim ∧ s1.pos = 0 ∧ s1.cap ≤ s1.lim + 1
        · rw [if_pos hg]
          obtain ⟨s', r, p, l, i1, i2, i3, i4, i5, i6⟩ := readLoop_safe grant f (grow s1)
            (grow_length a1) a2 (by simp only [grow]; omega) (by simp only [grow]; omega)
          refine ⟨s', r, p, l, i1, i2, i3, i4.trans a6, i5, i6.imp id fun h => ?_⟩
          simp only [Rd.left, grow] at h ⊢
          omega
        · rw [if_neg hg]
          obtain ⟨s', r, p, l, i1, i2, i3, i4, i5, i6⟩ := readLoop_safe grant f s1 a1 a2 (by omega)
            (by omega)
          refine ⟨s', r, p, l, i1, i2, i3, i4.trans a6, i5, i6.imp id fun h => ?_⟩
          simp only [Rd.left] at h ⊢
          omega

/-- One line, from any state that line reading reaches. -/
theorem readLine_safe (grant : Nat → Nat) {s : Rd} (h : Safe s) :
    ∃ s' r p l, readLine grant s = .ok (s', r, p) ∧ copyOut s' p = .ok l ∧ Safe s' ∧
      (r = false → s'.last = true) ∧ (s'.last = true ∨ s'.left < s.left) := by
  have hs := h.size
  have hc := h.capPos
  have hp := h.le
  have hl := h.lim
  unfold readLine
  by_cases hlast : s.last = true
  · rw [if_pos hlast]
    exact ⟨s, _, _, _, rfl, rfl, h, fun _ => hlast, Or.inl hlast⟩
  rw [if_neg hlast]
  by_cases hm : (10 : UInt8) ∈ s.held
  · obtain ⟨n, e, j1, j2, j3, j4, j5, j6⟩ := fromBuffer_safe hs hp hl hm
    rw [j1]
    simp only [bind, Except.bind]
    unfold prefetch
    by_cases he : e = s.lim
    · rw [if_pos he]
      have hn : s.cap ≠ n := by
        cases hk : s.keep with
        | true => have := h.room hk; have := j5 hk; omega
        | false => have := j6 hk; omega
      simp only [bind, Except.bind]
      rw [if_neg hn]
      obtain ⟨k, e1, hk1, hk2, hk3, hk4⟩ := sysRead_any grant { s with lim := 0, pos := 0 } 0
        (s.cap - n) (by simp only; omega)
      rw [e1]
      simp only at hk2 hk4 ⊢
      by_cases hk : k = 0
      · simp only [hk, if_true]
        refine ⟨_, _, _, _, rfl, copyOut_some (s := Rd.mk _ _ s.gen _ _ _ _ _)
          (by subst hk; simp only [hk4]; omega), ⟨?_, hc, Nat.le_refl _, Nat.zero_le _, fun _ => ?_⟩,
          by simp, Or.inl rfl⟩
        · subst hk; exact hk4.trans hs
        · simp only; omega
      · rw [if_neg hk]
        refine ⟨_, _, _, _, rfl, copyOut_some (s := Rd.mk _ _ s.gen _ _ _ _ _)
          (by simp only [hk4]; omega), ⟨hk4.trans hs, hc, Nat.zero_le _, by simp only; omega,
          fun hk => ?_⟩, by simp, Or.inr ?_⟩
        · have := j5 hk; simp only; omega
        · simp only [Rd.left, List.length_drop]; omega
    · rw [if_neg he]
      refine ⟨_, _, _, _, rfl, copyOut_some (s := Rd.mk _ _ s.gen _ _ _ _ _)
        (by simp only; omega), ⟨hs, hc, j3, hl, fun hk => ?_⟩, by simp, Or.inr ?_⟩
      · have := h.room hk; simp only; omega
      · simp only [Rd.left]; omega
  · rw [fromBuffer_none hs hp hl hm]
    simp only [bind, Except.bind]
    obtain ⟨s1, hs1⟩ : ∃ s1, s1 = if s.pos ≠ s.lim ∧ s.pos = 0 ∧ s.cap ≤ s.lim + 1 then grow s
      else s := ⟨_, rfl⟩
    rw [← hs1]
    have b : s1.data.length = s1.cap + 1 ∧ s1.pos = s.pos ∧ s1.lim = s.lim ∧ s1.lim ≤ s1.cap ∧
        s1.lim - s1.pos < s1.cap ∧ s1.rest = s.rest ∧ s1.keep = s.keep := by
      rw [hs1]
      by_cases hg : s.pos ≠ s.lim ∧ s.pos = 0 ∧ s.cap ≤ s.lim + 1
      · rw [if_pos hg]
        exact ⟨grow_length hs, rfl, rfl, by simp only [grow]; omega, by simp only [grow]; omega, rfl,
          rfl⟩
      · rw [if_neg hg]
        exact ⟨hs, rfl, rfl, hl, by omega, rfl, rfl⟩
    obtain ⟨b1, b2, b3, b4, b5, b6, b7⟩ := b
    obtain ⟨c1, c2, c3, c4, c5, c6, c7, c8⟩ := compact_spec b1 (by omega) b4
    obtain ⟨s', r, p, l, i1, i2, i3, i4, i5, i6⟩ := readLoop_safe grant (s1.rest.length + 2)
      (compact s1) (by rw [c8]; exact c1) c2 (by omega) (by rw [c5]; omega)
    refine ⟨s', r, p, l, i1, i2, i3, i5, i6.imp id fun h => ?_⟩
    simp only [Rd.left, c5] at h ⊢
    rw [b6] at h
    omega

theorem readLines_safe (grant : Nat → Nat) : ∀ (f : Nat) (s : Rd), Safe s → s.left + 1 < f →
    ∃ s' ls, readLines grant f s = .ok (s', ls) ∧ Safe s'
  | 0, _, _, hf => by omega
  | 1, _, _, hf => by omega
  | f + 2, s, h, hf => by
    unfold readLines
    obtain ⟨s1, r, p, l, i1, i2, i3, i4, i5⟩ := readLine_safe grant h
    rw [i1]
    simp only [bind, Except.bind]
    cases r with
    | false => exact ⟨s1, [], by simp, i3⟩
    | true =>
      simp only [if_true, i2]
      by_cases hl : s1.last = true
      · refine ⟨s1, [l], ?_, i3⟩
        unfold readLines readLine
        simp [hl, bind, Except.bind]
      · obtain ⟨s2, ls, j1, j2⟩ := readLines_safe grant (f + 1) s1 i3 (by
          rcases i5 with hx | hx
          · exact absurd hx hl
          · omega)
        rw [j1]
        exact ⟨s2, l :: ls, rfl, j2⟩

theorem forLoop_safe (grant : Nat → Nat) : ∀ (f : Nat) (s : Rd), Safe s → s.left + 1 < f →
    ∃ s' ls, forLoop grant f s = .ok (s', ls) ∧ Safe s'
  | 0, _, _, hf => by omega
  | 1, _, _, hf => by omega
  | f + 2, s, h, hf => by
    unfold forLoop
    by_cases hl : s.last = true
    · rw [if_pos hl]; exact ⟨s, [], rfl, h⟩
    rw [if_neg hl]
    obtain ⟨s1, r, p, l, i1, i2, i3, i4, i5⟩ := readLine_safe grant h
    simp only [bind, Except.bind, readLineString, i1, i2]
    by_cases hl : s1.last = true
    · refine ⟨s1, [l], ?_, i3⟩
      unfold forLoop
      simp [hl]
    · obtain ⟨s2, ls, j1, j2⟩ := forLoop_safe grant (f + 1) s1 i3 (by
        rcases i5 with hx | hx
        · exact absurd hx hl
        · omega)
      rw [j1]
      exact ⟨s2, l :: ls, rfl, j2⟩

/-- Any number of `readline()` calls. -/
def readlineTimes (grant : Nat → Nat) : Nat → Rd → Except Err (Rd × List Bytes)
  | 0, s => .ok (s, [])
  | n + 1, s => do
    let (s, l) ← readLineString grant s
    let (s, ls) ← readlineTimes grant n s
    .ok (s, l :: ls)

theorem readlineTimes_safe (grant : Nat → Nat) : ∀ (n : Nat) (s : Rd), Safe s →
    ∃ s' ls, readlineTimes grant n s = .ok (s', ls) ∧ Safe s'
  | 0, s, h => ⟨s, [], rfl, h⟩
  | n + 1, s, h => by
    obtain ⟨s1, r, p, l, i1, i2, i3, -⟩ := readLine_safe grant h
    obtain ⟨s2, ls, j1, j2⟩ := readlineTimes_safe grant n s1 i3
    refine ⟨s2, l :: ls, ?_, j2⟩
    simp only [readlineTimes, readLineString, bind, Except.bind, i1, i2, j1]

/-- **Lines stay inside the buffer**: for every file, every capacity, every way in which `read(2)`
delivers the file, with or without line ends, reading some lines by `readline()` and then the rest
by `readlines()` or a `for` loop ends without an access outside the buffer and without a use of a
buffer that was given back. -/
theorem lines_in_bounds (grant : Nat → Nat) (file junk : Bytes) (keep : Bool) (hj : 1 < junk.length)
    (n : Nat) :
    ∃ s ls, readlineTimes grant n (openFile file junk keep) = .ok (s, ls) ∧
      (∃ r, readLines grant (s.left + 2) s = .ok r) ∧ ∃ r, forLoop grant (s.left + 2) s = .ok r := by
  obtain ⟨s, ls, h1, h2⟩ := readlineTimes_safe grant n _ (open_safe file junk keep hj)
  obtain ⟨s2, l2, h3, -⟩ := readLines_safe grant (s.left + 2) s h2 (by omega)
  obtain ⟨s3, l3, h4, -⟩ := forLoop_safe grant (s.left + 2) s h2 (by omega)
  exact ⟨s, ls, h1, ⟨_, h3⟩, _, h4⟩

/-- A file of 40 bytes through a buffer of 3 bytes, five bytes at a time at most. -/
example : ((readLines (fun n => n % 6) 50 (openFile ((List.range 40).map fun i =>
    if i % 7 = 3 then 10 else UInt8.ofNat i) [0, 0, 0, 0] false)).toOption.map
      fun r => r.2.map List.length) = some [3, 6, 6, 6, 6, 6, 1] := by decide +kernel

end Verif.FileIO
