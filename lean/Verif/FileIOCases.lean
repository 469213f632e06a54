/-
Files that are read wrongly, and concrete runs.  The capacity of the buffer is arbitrary (8 MiB in
the code); `junk` is the memory that the buffer starts with.
-/
import Verif.FileIOText

namespace Verif.FileIO

open Verif.Utf8 (encode)

/-! ## `for line in f` -/

/-- An empty file has no lines, and `for` sees one. -/
theorem for_empty_refuted (junk : Bytes) (hj : 1 < junk.length) :
    lines [] = [] ∧
    ∃ s', forLoop full 2 (openFile [] junk true) = .ok (s', [[]]) := by
  refine ⟨by simp [lines], ?_⟩
  have hs := open_small [] junk true (by simp; omega) hj
  obtain ⟨s', i1, i2, -⟩ := readLine_end hs.buf
  refine ⟨s', ?_⟩
  unfold forLoop
  rw [if_neg (by simp [openFile])]
  simp only [bind, Except.bind, readLineString, i1, copyOut]
  rw [forLoop_done 0 i2]

/-- A file with one line that ends with a newline: `for` sees the line and an empty one. -/
theorem for_one_line_refuted (l junk : Bytes) (hl : (10 : UInt8) ∉ l)
    (hj : l.length + 2 ≤ junk.length) :
    lines (l ++ [10]) = [l ++ [10]] ∧
    ∃ s', forLoop full 3 (openFile (l ++ [10]) junk true) = .ok (s', [l ++ [10], []]) := by
  have hu : upTo (l ++ [10]) = l := by
    unfold upTo
    rw [List.takeWhile_append_of_pos]
    · simp
    · intro a ha
      simp only [ne_eq, decide_not, Bool.not_eq_true', decide_eq_false_iff_not]
      rintro rfl; exact hl ha
  have hne : l ++ [(10 : UInt8)] ≠ [] := by simp
  have hf : firstLine (l ++ [10]) = l ++ [10] := by
    unfold firstLine; rw [hu, List.take_of_length_le (by simp)]
  have ha : afterLine (l ++ [10]) = [] := by
    unfold afterLine; rw [hu, List.drop_of_length_le (by simp)]
  refine ⟨by rw [lines_eq hne, hf, ha]; simp [lines], ?_⟩
  have hs := open_small (l ++ [10]) junk true (by simp; omega) (by omega)
  have hheld : (openFile (l ++ [10]) junk true).held = [] := held_of_eq rfl
  obtain ⟨s', p, i1, i2, i3, i4, i5, i6, -⟩ := readLine_spec hs.buf rfl hne (small_guard hs hne)
  rw [ha] at i3 i6
  have hd : s'.last = false := by
    cases hd : s'.last with
    | false => rfl
    | true =>
      rcases i6.1 hd with hx | hx
      · simp at hx
      · rw [hheld] at hx; simp at hx
  obtain ⟨s2, j1, j2, -⟩ := readLine_end i3
  refine ⟨s2, ?_⟩
  unfold forLoop
  rw [if_neg (by simp [openFile])]
  simp only [bind, Except.bind, readLineString, i1, i2]
  unfold forLoop
  rw [if_neg (by simp [hd])]
  simp only [bind, Except.bind, readLineString, j1, copyOut]
  rw [forLoop_done 0 j2]
  simp [outLine, openFile, hf]

/-! ## `read` -/

/-- `read()` of a text file returns the empty string, whatever the file. -/
theorem read_text_refuted (grant : Nat → Nat) (s : Rd) (n : Int) (h : n ≤ 0) :
    readUnicode grant s n = .ok (s, []) := by
  unfold readUnicode readChars
  rw [if_pos h]

/-- A text file with one letter: it should be "a". -/
theorem read_text_all_refuted (junk : Bytes) :
    readUnicode full (openFile [97] junk true) (-1) ≠ .ok (openFile [] junk true, [97]) := by
  rw [read_text_refuted _ _ _ (by decide)]
  intro h
  simp at h

theorem readN_big {file junk : Bytes} {keep : Bool} {cap size : Nat} (hj : junk.length = cap + 1)
    (hc : 1 < cap) (hf : 2 * cap ≤ file.length) (hs : cap < size) (hs' : size < 2 * cap) :
    read full (openFile file junk keep) size =
      let d := blit (blit junk 0 (file.take cap)) 0 ((file.drop cap).take cap)
      if size ≤ cap + 1 then
        .ok ({ rest := file.drop (2 * cap), data := d, gen := 0, cap := cap, pos := size, lim := cap,
               last := false, keep := keep },
          file.take cap ++ slice d 0 size)
      else .error .oob := by
  have hb : (blit junk 0 (file.take cap)).length = cap + 1 := by
    rw [blit_length (by simp only [List.length_take]; omega), hj]
  have hb2 : (blit (blit junk 0 (file.take cap)) 0 ((file.drop cap).take cap)).length = cap + 1 := by
    rw [blit_length (by rw [hb]; simp only [List.length_take, List.length_drop]; omega), hb]
  have hsl : slice (blit junk 0 (file.take cap)) 0 cap = file.take cap := by
    have h1 : (file.take cap).length = cap := by simp; omega
    have := slice_blit_zero (d := junk) (l := file.take cap) (by omega)
    rwa [h1] at this
  unfold read
  rw [if_neg (by omega), Int.toNat_natCast]
  have hfu : (openFile file junk keep).rest.length + 3 = (file.length) + 1 + 1 + 1 := rfl
  rw [hfu]
  unfold readN
  rw [if_neg (by omega), if_neg (by simp [openFile])]
  simp only [openFile, slice_self, Nat.sub_self, Nat.sub_zero, Bool.false_eq_true, if_false, hj,
    Nat.add_sub_cancel]
  rw [sysRead_full _ _ _ (by simp; omega)]
  simp only [bind, Except.bind]
  rw [if_neg (by omega)]
  unfold readN
  have e1 : min cap file.length = cap := by omega
  simp only [e1, Nat.sub_zero]
  rw [if_neg (by omega), if_neg (by omega)]
  rw [sysRead_full _ _ _ (by simp [hb])]
  simp only [bind, Except.bind, Bool.false_eq_true, if_false]
  have e2 : min cap (file.drop cap).length = cap := by simp; omega
  simp only [e2]
  rw [if_neg (by omega)]
  unfold readN
  simp only [Nat.sub_zero, Nat.zero_add]
  rw [if_neg (by omega), if_pos (by omega), hb2, hsl]
  by_cases hq : size ≤ cap + 1
  · rw [if_pos hq, if_pos hq]
    simp only [List.nil_append, List.drop_drop]
    rw [Nat.two_mul]
  · rw [if_neg hq, if_neg hq]

/-- `read(n)` with `n` one larger than the buffer returns almost twice as many bytes. -/
theorem read_large_refuted (file junk : Bytes) (keep : Bool) (hj : 2 < junk.length)
    (hf : 2 * junk.length ≤ file.length) :
    ∃ s' l, read full (openFile file junk keep) junk.length = .ok (s', l) ∧
      l.length = 2 * junk.length - 1 ∧ s'.lim < s'.pos := by
  obtain ⟨cap, hcap⟩ : ∃ cap, junk.length = cap + 1 := ⟨junk.length - 1, by omega⟩
  rw [readN_big hcap (by omega) (by omega) (by omega) (by omega)]
  simp only
  rw [if_pos (by omega)]
  refine ⟨_, _, rfl, ?_, by simp; omega⟩
  rw [List.length_append, slice_length]
  · simp; omega
  · rw [blit_length, blit_length]
    · omega
    · simp; omega
    · rw [blit_length] <;> simp <;> omega

/-- `read(n)` with larger `n` reads outside the buffer. -/
theorem read_bounds_refuted (file junk : Bytes) (keep : Bool) (n : Nat)
    (hn : junk.length < n) (hn2 : n + 2 < 2 * junk.length) (hf : 2 * junk.length ≤ file.length) :
    read full (openFile file junk keep) n = .error .oob := by
  obtain ⟨cap, hcap⟩ : ∃ cap, junk.length = cap + 1 := ⟨junk.length - 1, by omega⟩
  rw [readN_big hcap (by omega) (by omega) (by omega) (by omega)]
  simp only
  rw [if_neg (by omega)]

/-- A last line without a newline is returned by `readline()`, and again by `read()`. -/
theorem last_line_twice_refuted (a b c d : UInt8) (js : Bytes) :
    run (openFile [97] (a :: b :: c :: d :: js) true) [.readline, .read (-1)] =
      .ok [[[97]], [[97]]] ∧ spec [97] [.readline, .read (-1)] = [[[97]], [[]]] := by
  constructor
  · have e : min (min (js.length + 1 + 1 + 1) 1) (max 1 1) = 1 := by omega
    have e0 : ∀ n, min (min n 0) (max 1 0) = 0 := by omega
    simp [run, Op.step, readLineString, readLine, readLineFromBuffer, openFile, bind, Except.bind,
      compact, readLoop, sysRead, full, e, e0, blit, scanNl, copyOut, slice, FileIO.read, readAll]
  · decide +kernel

/-! ## Files that are larger than the buffer -/

theorem upTo_line {l : Bytes} (hl : (10 : UInt8) ∉ l) (t : Bytes) : upTo (l ++ 10 :: t) = l := by
  unfold upTo
  rw [List.takeWhile_append_of_pos]
  · simp
  · intro a ha
    simp only [ne_eq, decide_not, Bool.not_eq_true', decide_eq_false_iff_not]
    rintro rfl; exact hl ha

theorem firstLine_line {l : Bytes} (hl : (10 : UInt8) ∉ l) (t : Bytes) :
    firstLine (l ++ 10 :: t) = l ++ [10] := by
  unfold firstLine; rw [upTo_line hl, List.take_length_add_append]; simp

theorem afterLine_line {l : Bytes} (hl : (10 : UInt8) ∉ l) (t : Bytes) :
    afterLine (l ++ 10 :: t) = t := by
  unfold afterLine; rw [upTo_line hl, List.drop_length_add_append]; simp

theorem lines_line {l : Bytes} (hl : (10 : UInt8) ∉ l) (t : Bytes) :
    lines (l ++ 10 :: t) = (l ++ [10]) :: lines t := by
  rw [lines_eq (by simp), firstLine_line hl, afterLine_line hl]

theorem slice_blit_after {d l : Bytes} {a b : Nat} (h : l.length ≤ a) (hd : l.length ≤ d.length) :
    slice (blit d 0 l) a b = slice d a b := by
  unfold slice blit
  congr 1
  rw [List.take_zero, List.nil_append, Nat.zero_add, List.drop_append,
    List.drop_of_length_le h, List.nil_append, List.drop_drop]
  congr 1; omega

theorem copyOut_ok {s : Rd} {g off n : Nat} {l : Bytes} (hg : g = s.gen)
    (hn : off + n ≤ s.data.length) (hl : slice s.data off (off + n) = l) :
    copyOut s (some (g, off, n)) = .ok l := by
  unfold copyOut
  simp only [hg, ne_eq, not_true_eq_false, if_false, hn, if_true, hl]

theorem readLines_cons {s s' s2 : Rd} {p : Ptr} {f : Nat} {l : Bytes} {ls : List Bytes}
    (h1 : readLine full s = .ok (s', true, p)) (h2 : copyOut s' p = .ok l)
    (h3 : readLines full f s' = .ok (s2, ls)) : readLines full (f + 1) s = .ok (s2, l :: ls) := by
  unfold readLines
  simp only [bind, Except.bind, h1, if_true, h2, h3]

theorem readLines_nil {s s' : Rd} {p : Ptr} {f : Nat}
    (h1 : readLine full s = .ok (s', false, p)) : readLines full (f + 1) s = .ok (s', []) := by
  unfold readLines
  simp [bind, Except.bind, h1]

/-- A line that ends where the buffer ends: the next part of the file goes to the front of the
buffer before the line is copied. -/
theorem readLine_hit {s : Rd} {l o : Bytes} (hs : s.data.length = s.cap + 1) (hp : s.pos ≤ s.lim)
    (hc : s.lim ≤ s.cap) (hlast : s.last = false) (hh : s.held = l ++ [10])
    (hl : (10 : UInt8) ∉ l) (ho : o = outLine s.keep (l ++ [10])) (hn : s.cap ≠ o.length) :
    readLine full s = .ok
      (Rd.mk (s.rest.drop (s.cap - o.length)) (blit s.data 0 (s.rest.take (s.cap - o.length)))
        s.gen s.cap 0 (min (s.cap - o.length) s.rest.length)
        (decide (min (s.cap - o.length) s.rest.length = 0)) s.keep,
      true, some (s.gen, s.pos, o.length)) := by
  have hhl : s.held.length = s.lim - s.pos := slice_length (by omega)
  have hu : upTo s.held = l := by rw [hh]; exact upTo_line hl []
  have hf : firstLine s.held = l ++ [10] := by rw [hh]; exact firstLine_line hl []
  obtain ⟨n, i1, i2, i3, i4, i5⟩ := fromBuffer_some hs hp hc (by rw [hh]; simp)
  rw [hu] at i1 i3 i4 i5
  rw [hf, ← ho] at i2
  have hn' : n = o.length := by
    have := congrArg List.length i2
    rw [slice_length (by omega)] at this; omega
  rw [hh, List.length_append, List.length_singleton] at hhl
  unfold readLine
  rw [if_neg (by simp [hlast]), i1]
  simp only [bind, Except.bind]
  unfold prefetch
  rw [if_pos (by simp only; omega)]
  simp only [bind, Except.bind, hn']
  rw [if_neg hn, sysRead_full _ _ _ (by simp only; omega)]
  simp only
  by_cases hk : min (s.cap - o.length) s.rest.length = 0
  · simp [hk]
  · simp [hk, hlast]

/-- The first line of a large file. -/
theorem readLine_first {l t junk : Bytes} (hl : (10 : UInt8) ∉ l) (keep : Bool)
    (h : l.length + 3 < junk.length) (ht : junk.length ≤ l.length + t.length + 1) :
    ∃ s, readLine full (openFile (l ++ 10 :: t) junk keep) =
        .ok (s, true, some (0, 0, (outLine keep (l ++ [10])).length)) ∧
      copyOut s (some (0, 0, (outLine keep (l ++ [10])).length)) = .ok (outLine keep (l ++ [10])) ∧
      s.data.length = junk.length ∧ s.cap + 1 = junk.length ∧ s.pos = l.length + 1 ∧
      s.lim = s.cap ∧ s.last = false ∧ s.keep = keep ∧ s.gen = 0 ∧
      s.held = t.take (s.cap - (l.length + 1)) ∧ s.rest = t.drop (s.cap - (l.length + 1)) := by
  obtain ⟨cap, hcap⟩ : ∃ cap, junk.length = cap + 1 := ⟨junk.length - 1, by omega⟩
  have hfl : (l ++ 10 :: t).length = l.length + t.length + 1 := by simp; omega
  have htk : (l ++ 10 :: t).take cap = l ++ 10 :: t.take (cap - (l.length + 1)) := by
    rw [List.take_append, List.take_of_length_le (by omega)]
    rw [show cap - l.length = cap - (l.length + 1) + 1 by omega, List.take_succ_cons]
  have hdr : (l ++ 10 :: t).drop cap = t.drop (cap - (l.length + 1)) := by
    rw [List.drop_append, List.drop_of_length_le (by omega), List.nil_append]
    rw [show cap - l.length = cap - (l.length + 1) + 1 by omega, List.drop_succ_cons]
  have hlen : ((l ++ 10 :: t).take cap).length = cap := by
    rw [List.length_take]; omega
  have hb : (blit junk 0 ((l ++ 10 :: t).take cap)).length = cap + 1 := by
    rw [blit_length (by omega), hcap]
  generalize hs1 : Rd.mk ((l ++ 10 :: t).drop cap) (blit junk 0 ((l ++ 10 :: t).take cap)) 0 cap 0
    cap false keep = s1
  have hheld : s1.held = l ++ 10 :: t.take (cap - (l.length + 1)) := by
    rw [← htk, ← hs1]
    show slice _ 0 cap = _
    have := slice_blit_zero (d := junk) (l := (l ++ 10 :: t).take cap) (by omega)
    rwa [hlen] at this
  obtain ⟨n, i1, i2, i3, i4, i5⟩ := fromBuffer_some (s := s1) (by rw [← hs1]; exact hb)
    (by rw [← hs1]; exact Nat.zero_le _) (by rw [← hs1]; exact Nat.le_refl _)
    (by rw [hheld]; simp)
  rw [hheld, upTo_line hl] at i1 i3 i4
  rw [hheld, firstLine_line hl] at i2
  have hk : s1.keep = keep := by rw [← hs1]
  have hp : s1.pos = 0 := by rw [← hs1]
  have hlm : s1.lim = cap := by rw [← hs1]
  have hd : s1.data.length = cap + 1 := by rw [← hs1]; exact hb
  have hg : s1.gen = 0 := by rw [← hs1]
  rw [hk] at i2
  have hn : n = (outLine keep (l ++ [10])).length := by
    have := congrArg List.length i2
    rw [slice_length (by omega)] at this; omega
  have hrun : readLine full (openFile (l ++ 10 :: t) junk keep) =
      .ok ({ s1 with pos := s1.pos + l.length + 1 }, true, some (s1.gen, s1.pos, n)) := by
    unfold readLine
    rw [if_neg (by simp [openFile])]
    have e0 : readLineFromBuffer (openFile (l ++ 10 :: t) junk keep) =
        .ok (openFile (l ++ 10 :: t) junk keep, none) := by
      unfold readLineFromBuffer
      exact if_pos rfl
    have e1 : compact (openFile (l ++ 10 :: t) junk keep) = openFile (l ++ 10 :: t) junk keep := by
      unfold compact
      rw [if_neg (by simp [openFile])]
    rw [e0]
    simp only [bind, Except.bind, e1]
    unfold readLoop
    rw [sysRead_full _ _ _ (by simp [openFile])]
    simp only [bind, Except.bind, openFile, hcap, Nat.add_sub_cancel, Nat.sub_zero, Nat.zero_add]
    rw [show min cap (l ++ 10 :: t).length = cap by omega, if_neg (by omega), hs1, i1]
  refine ⟨{ s1 with pos := s1.pos + l.length + 1 }, ?_, ?_, ?_, ?_, ?_, ?_, ?_, ?_, ?_, ?_, ?_⟩
  · rw [hrun, hg, hp, hn]
  · rw [hp, hn] at i2
    exact copyOut_ok hg.symm (by show _ ≤ s1.data.length; omega) i2
  · simp only; omega
  · simp only [← hs1]; omega
  · simp only [hp]; omega
  · simp only [← hs1]
  · simp only [← hs1]
  · exact hk
  · exact hg
  · have hc1 : s1.cap = cap := by rw [← hs1]
    have : s1.held.drop (l.length + 1) = t.take (cap - (l.length + 1)) := by
      rw [hheld, List.drop_length_add_append]; rfl
    rw [← hs1] at this
    unfold Rd.held at this ⊢
    rw [slice_drop] at this
    simp only [← hs1, Nat.zero_add] at this ⊢
    exact this
  · simp only [← hs1]; exact hdr

/-- A file that is four bytes larger than the buffer, with four lines: `readlines()` returns the
last line in place of the third one. -/
theorem readlines_large_refuted (x junk : Bytes) (hx : (10 : UInt8) ∉ x) (h1 : 1 < x.length)
    (hj : junk.length = x.length + 4) :
    let file := [97, 10] ++ (x ++ 10 :: [99, 10, 100, 10])
    lines file = [[97, 10], x ++ [10], [99, 10], [100, 10]] ∧
    ∃ s', readLines full 5 (openFile file junk true) =
      .ok (s', [[97, 10], x ++ [10], [100, 10], [100, 10]]) := by
  intro file
  have hn : (10 : UInt8) ∉ [(97 : UInt8)] := by decide
  constructor
  · show lines ([97] ++ 10 :: (x ++ 10 :: ([99] ++ 10 :: ([100] ++ 10 :: [])))) = _
    rw [lines_line hn, lines_line hx, lines_line (by decide), lines_line (by decide)]
    simp [lines]
  obtain ⟨s1, i1, i2, i3, i4, i5, i6, i7, i8, i9, i10, i11⟩ :=
    readLine_first (l := [97]) (t := x ++ 10 :: [99, 10, 100, 10]) (junk := junk) hn true
      (by simp; omega) (by simp; omega)
  have hcap : s1.cap = x.length + 3 := by omega
  have hheld : s1.held = x ++ [10] := by
    rw [i10, hcap]
    simp only [List.length_singleton]
    rw [show x.length + 3 - (1 + 1) = x.length + 1 by omega, List.take_length_add_append]; rfl
  have hrest : s1.rest = [99, 10, 100, 10] := by
    rw [i11, hcap]
    simp only [List.length_singleton]
    rw [show x.length + 3 - (1 + 1) = x.length + 1 by omega, List.drop_length_add_append]; rfl
  have hp : s1.pos = 2 := by rw [i5]; rfl
  have ho : ∀ l : Bytes, outLine true l = l := by intro l; simp [outLine]
  have hsl : slice s1.data 2 (2 + (x.length + 1)) = x ++ [10] := by
    have := hheld
    unfold Rd.held at this
    rw [hp, i6, hcap] at this
    rw [← this]; congr 1; omega
  have e2 := readLine_hit (s := s1) (l := x) (o := x ++ [10]) (by omega) (by omega) (by omega) i7
    hheld hx (by rw [i8, ho]) (by rw [hcap]; simp)
  simp only [hcap, hrest, i8, i9, hp, List.length_append, List.length_singleton,
    show x.length + 3 - (x.length + 1) = 2 by omega] at e2
  -- the second line and the front of the buffer
  obtain ⟨d2, hd2⟩ : ∃ d, d = blit s1.data 0 [99, 10] := ⟨_, rfl⟩
  have hdl : s1.data.length = x.length + 4 := by omega
  have hl2 : d2.length = x.length + 4 := by
    rw [hd2, blit_length (by simp; omega), hdl]
  have hz2 : slice d2 0 2 = [99, 10] := by
    rw [hd2]; exact slice_blit_zero (l := [99, 10]) (by simp; omega)
  have hc2 : slice d2 2 (2 + (x.length + 1)) = x ++ [10] := by
    rw [hd2, slice_blit_after (by simp) (by simp; omega), hsl]
  have e2' : readLine full s1 = .ok (Rd.mk [100, 10] d2 0 (x.length + 3) 0 2 false true, true,
      some (0, 2, x.length + 1)) := by
    rw [e2, hd2]; rfl
  -- the third line, overwritten
  have e3 := readLine_hit (s := Rd.mk [100, 10] d2 0 (x.length + 3) 0 2 false true) (l := [99])
    (o := [99, 10]) hl2 (Nat.zero_le _) (by simp only; omega) rfl hz2 (by decide) (by rw [ho]; rfl)
    (by simp)
  obtain ⟨d3, hd3⟩ : ∃ d, d = blit d2 0 [100, 10] := ⟨_, rfl⟩
  have hl3 : d3.length = x.length + 4 := by
    rw [hd3, blit_length (by simp; omega), hl2]
  have hz3 : slice d3 0 2 = [100, 10] := by
    rw [hd3]; exact slice_blit_zero (l := [100, 10]) (by simp; omega)
  have e3' : readLine full (Rd.mk [100, 10] d2 0 (x.length + 3) 0 2 false true) =
      .ok (Rd.mk [] d3 0 (x.length + 3) 0 2 false true, true, some (0, 0, 2)) := by
    rw [e3, hd3]
    have t1 : ([100, 10] : Bytes).take (x.length + 3 - 2) = [100, 10] :=
      List.take_of_length_le (by simp; omega)
    have t2 : ([100, 10] : Bytes).drop (x.length + 3 - 2) = [] :=
      List.drop_of_length_le (by simp; omega)
    have t3 : min (x.length + 3 - 2) 2 = 2 := by omega
    simp only [List.length_cons, List.length_nil, Nat.zero_add, Nat.reduceAdd, t1, t2, t3]
    rfl
  -- the fourth line
  have e4 := readLine_hit (s := Rd.mk [] d3 0 (x.length + 3) 0 2 false true) (l := [100])
    (o := [100, 10]) hl3 (Nat.zero_le _) (by simp only; omega) rfl hz3 (by decide) (by rw [ho]; rfl)
    (by simp)
  have e4' : readLine full (Rd.mk [] d3 0 (x.length + 3) 0 2 false true) =
      .ok (Rd.mk [] d3 0 (x.length + 3) 0 0 true true, true, some (0, 0, 2)) := by
    rw [e4]
    simp [blit]
  have e5 : readLine full (Rd.mk [] d3 0 (x.length + 3) 0 0 true true) =
      .ok (Rd.mk [] d3 0 (x.length + 3) 0 0 true true, false, none) := by
    unfold readLine; rw [if_pos rfl]
  refine ⟨Rd.mk [] d3 0 (x.length + 3) 0 0 true true, ?_⟩
  have c2 : copyOut (Rd.mk [100, 10] d2 0 (x.length + 3) 0 2 false true)
      (some (0, 2, x.length + 1)) = .ok (x ++ [10]) := by
    exact copyOut_ok rfl (by show _ ≤ d2.length; omega) hc2
  have c3 : ∀ r lim last, copyOut (Rd.mk r d3 0 (x.length + 3) 0 lim last true)
      (some (0, 0, 2)) = .ok [100, 10] := by
    intro r lim last
    exact copyOut_ok rfl (by show _ ≤ d3.length; omega) hz3
  rw [ho] at i1 i2
  exact readLines_cons i1 i2 (readLines_cons e2' c2 (readLines_cons e3' (c3 _ _ _)
    (readLines_cons e4' (c3 _ _ _) (readLines_nil e5))))

/-- A vocabulary whose second line ends exactly where the buffer ends: the line is damaged. -/
theorem vocabulary_refuted (m : Nat) (junk : Bytes) (hj : junk.length = m + 5) (hm : 0 < m) :
    let x := List.replicate m (120 : UInt8)
    let file := [97, 10] ++ ((120 :: x) ++ 10 :: [98, 98, 10])
    (lines file).map (outLine false) = [[97], 120 :: x, [98, 98]] ∧
    ∃ s', readLines full 4 (openFile file junk false) = .ok (s', [[97], 10 :: x, [98, 98]]) := by
  intro x file
  have hxl : x.length = m := List.length_replicate
  have hx : (10 : UInt8) ∉ (120 :: x) := by
    simp only [List.mem_cons, x, List.mem_replicate]
    rintro (h | ⟨-, h⟩) <;> exact absurd h (by decide)
  have hn : (10 : UInt8) ∉ [(97 : UInt8)] := by decide
  have hout : outLine false ((120 :: x) ++ [10]) = 120 :: x := by
    have hl : (120 :: x).getLast? ≠ some 13 := by
      intro h
      have := List.mem_of_getLast? h
      simp only [List.mem_cons, x, List.mem_replicate] at this
      rcases this with h | ⟨-, h⟩ <;> exact absurd h (by decide)
    unfold outLine
    rw [if_neg (by rw [List.getLast?_concat]; simp)]
    simp only [List.dropLast_concat]
    rw [if_neg hl]
  constructor
  · show (lines ([97] ++ 10 :: ((120 :: x) ++ 10 :: ([98, 98] ++ 10 :: [])))).map _ = _
    rw [lines_line hn, lines_line hx, lines_line (by decide)]
    simp only [lines, List.map_cons, List.map_nil, hout]
    rfl
  obtain ⟨s1, i1, i2, i3, i4, i5, i6, i7, i8, i9, i10, i11⟩ :=
    readLine_first (l := [97]) (t := (120 :: x) ++ 10 :: [98, 98, 10]) (junk := junk) hn false
      (by simp; omega) (by simp; omega)
  have hcap : s1.cap = m + 4 := by omega
  have htl : s1.cap - ([(97 : UInt8)].length + 1) = (120 :: x).length + 1 := by
    simp only [List.length_cons, List.length_nil]; omega
  have hheld : s1.held = (120 :: x) ++ [10] := by
    rw [i10, htl, List.take_length_add_append]; rfl
  have hrest : s1.rest = [98, 98, 10] := by
    rw [i11, htl, List.drop_length_add_append]; rfl
  have hp : s1.pos = 2 := by rw [i5]; rfl
  have hxl1 : (120 :: x).length = m + 1 := by simp [hxl]
  have e2 := readLine_hit (s := s1) (l := 120 :: x) (o := 120 :: x) (by omega) (by omega)
    (by omega) i7 hheld hx (by rw [i8, hout]) (by omega)
  rw [hxl1, hcap, hrest, i8, i9, hp] at e2
  obtain ⟨d2, hd2⟩ : ∃ d, d = blit s1.data 0 [98, 98, 10] := ⟨_, rfl⟩
  have hl2 : d2.length = m + 5 := by
    rw [hd2, blit_length (by simp; omega)]; omega
  have e2' : readLine full s1 = .ok (Rd.mk [] d2 0 (m + 4) 0 3 false false, true,
      some (0, 2, m + 1)) := by
    rw [e2, hd2, show m + 4 - (m + 1) = 3 by omega]; rfl
  have hc2 : slice d2 2 (2 + (m + 1)) = 10 :: x := by
    have h3 : slice d2 3 (2 + (m + 1)) = x := by
      rw [hd2, slice_blit_after (by simp) (by simp; omega)]
      have h4 : slice s1.data 2 (m + 4) = 120 :: (x ++ [10]) := by
        have := hheld
        unfold Rd.held at this
        rwa [hp, i6, hcap] at this
      have h5 := congrArg (fun l => (l.drop 1).take m) h4
      simp only [slice_drop, List.drop_succ_cons, List.drop_zero] at h5
      rw [slice_take (by omega), List.take_left' hxl] at h5
      rw [← h5]; congr 1; omega
    have h2 : d2[2]? = some 10 := by
      rw [hd2]; simp [blit]
    have : slice d2 2 (2 + (m + 1)) = (d2[2]'(by omega)) :: slice d2 3 (2 + (m + 1)) := by
      unfold slice
      rw [show 2 + (m + 1) - 2 = (2 + (m + 1) - 3) + 1 by omega,
        List.drop_eq_getElem_cons (by omega : 2 < d2.length), List.take_succ_cons]
    rw [this, h3]
    congr 1
    have h6 := List.getElem?_eq_getElem (by omega : 2 < d2.length)
    rw [h2] at h6
    exact (Option.some.inj h6).symm
  have c2 : copyOut (Rd.mk [] d2 0 (m + 4) 0 3 false false) (some (0, 2, m + 1)) =
      .ok (10 :: x) := by
    exact copyOut_ok rfl (by show _ ≤ d2.length; omega) hc2
  have hz : slice d2 0 3 = [98, 98, 10] := by
    rw [hd2]; exact slice_blit_zero (l := [98, 98, 10]) (by simp; omega)
  have e3 := readLine_hit (s := Rd.mk [] d2 0 (m + 4) 0 3 false false) (l := [98, 98])
    (o := [98, 98]) hl2 (Nat.zero_le _) (by simp only; omega) rfl hz (by decide)
    (by show _ = outLine false _; decide) (by simp)
  have e3' : readLine full (Rd.mk [] d2 0 (m + 4) 0 3 false false) =
      .ok (Rd.mk [] d2 0 (m + 4) 0 0 true false, true, some (0, 0, 2)) := by
    rw [e3]; simp [blit]
  have c3 : copyOut (Rd.mk [] d2 0 (m + 4) 0 0 true false) (some (0, 0, 2)) = .ok [98, 98] := by
    have := congrArg (List.take 2) hz
    rw [slice_take (by omega)] at this
    exact copyOut_ok rfl (by show _ ≤ d2.length; omega) this
  have e4 : readLine full (Rd.mk [] d2 0 (m + 4) 0 0 true false) =
      .ok (Rd.mk [] d2 0 (m + 4) 0 0 true false, false, none) := by
    unfold readLine; rw [if_pos rfl]
  refine ⟨Rd.mk [] d2 0 (m + 4) 0 0 true false, ?_⟩
  have h97 : outLine false ([97] ++ [10]) = [97] := by decide
  rw [h97] at i1 i2
  exact readLines_cons i1 i2 (readLines_cons e2' c2 (readLines_cons e3' c3 (readLines_nil e4)))

/-- `read(n)` with the size of the buffer, and then a line of that size: the line is copied from
memory that was given back. -/
theorem readline_freed_refuted (P x junk : Bytes) (hx : (10 : UInt8) ∉ x)
    (hP : P.length = x.length + 1) (hj : junk.length = x.length + 2) :
    run (openFile (P ++ (x ++ [10])) junk true) [.read (x.length + 1 : Nat), .readline] =
      .error .freed := by
  obtain ⟨cap, hcap⟩ : ∃ cap, cap = x.length + 1 := ⟨_, rfl⟩
  have hj' : junk.length = cap + 1 := by omega
  have hfl : (P ++ (x ++ [10])).length = 2 * cap := by simp; omega
  have htk : (P ++ (x ++ [10])).take cap = P := by rw [hcap, ← hP, List.take_left]
  have hdr : (P ++ (x ++ [10])).drop cap = x ++ [10] := by rw [hcap, ← hP, List.drop_left]
  have hb : (blit junk 0 P).length = cap + 1 := by rw [blit_length (by omega), hj']
  have hxl : (x ++ [(10 : UInt8)]).length = cap := by simp; omega
  have hb2 : (blit (blit junk 0 P) 0 (x ++ [10])).length = cap + 1 := by
    rw [blit_length (by omega), hb]
  have hread : read full (openFile (P ++ (x ++ [10])) junk true) (cap : Nat) =
      .ok (Rd.mk [] (blit (blit junk 0 P) 0 (x ++ [10])) 0 cap 0 cap false true, P) := by
    unfold read
    rw [if_neg (by omega), Int.toNat_natCast]
    have hfu : (openFile (P ++ (x ++ [10])) junk true).rest.length + 3 =
        2 * cap + 1 + 1 + 1 := by show (P ++ (x ++ [10])).length + 3 = _; omega
    rw [hfu]
    unfold readN
    rw [if_neg (by omega), if_neg (by simp [openFile])]
    simp only [openFile, slice_self, Nat.sub_self, Nat.sub_zero, Bool.false_eq_true, if_false, hj',
      Nat.add_sub_cancel]
    rw [sysRead_full _ _ _ (by simp; omega)]
    simp only [bind, Except.bind, htk, hdr]
    have hmin : min cap (P ++ (x ++ [10])).length = cap := by rw [hfl]; omega
    simp only [hmin]
    rw [if_neg (by omega)]
    unfold readN
    simp only [Nat.sub_zero]
    rw [if_neg (by omega), if_neg (by omega)]
    rw [sysRead_full _ _ _ (by simp [hb])]
    simp only [bind, Except.bind, Bool.false_eq_true, if_false, hxl, Nat.min_self]
    rw [if_neg (by omega), List.take_of_length_le (by omega), List.drop_of_length_le (by omega)]
    unfold readN
    rw [if_pos (by omega)]
    have : slice (blit junk 0 P) 0 cap = P := by
      have := slice_blit_zero (d := junk) (l := P) (by omega)
      rwa [hP, ← hcap] at this
    rw [this]; simp
  generalize hs1 : Rd.mk [] (blit (blit junk 0 P) 0 (x ++ [10])) 0 cap 0 cap false true = s1
    at hread
  have hheld : s1.held = x ++ [10] := by
    rw [← hs1]
    show slice _ 0 cap = _
    have := slice_blit_zero (d := blit junk 0 P) (l := x ++ [10]) (by omega)
    rwa [hxl] at this
  obtain ⟨n, i1, i2, i3, i4, i5⟩ := fromBuffer_some (s := s1) (by rw [← hs1]; exact hb2)
    (by rw [← hs1]; exact Nat.zero_le _) (by rw [← hs1]; exact Nat.le_refl _) (by rw [hheld]; simp)
  have hu : upTo s1.held = x := by rw [hheld]; exact upTo_line hx []
  have hn := i5 (by rw [← hs1])
  rw [hu] at i1 hn
  have hline : ∃ s2, readLine full s1 = .ok (s2, true, some (0, 0, cap)) ∧ s2.gen = 1 := by
    unfold readLine
    rw [if_neg (by rw [← hs1]; simp), i1]
    simp only [bind, Except.bind]
    rw [← hs1]
    simp only
    unfold prefetch
    rw [if_pos (by simp only; omega)]
    simp only [bind, Except.bind]
    rw [if_pos (by omega), sysRead_full _ _ _ (by simp [grow, hb2]; omega)]
    refine ⟨_, by rw [hn, ← hcap], ?_⟩
    simp [grow]
  obtain ⟨s2, j1, j2⟩ := hline
  rw [← hcap]
  simp only [run, Op.step, readLineString, bind, Except.bind, hread, j1, copyOut]
  rw [if_pos (by rw [j2]; decide)]

/-- A pipe that delivers four bytes at a time: the second line is replaced by the fourth. -/
theorem pipe_refuted (a b c d e f g h i : UInt8) (js : Bytes) :
    let file : Bytes := [97, 10, 98, 10, 99, 10, 100, 10]
    lines file = [[97, 10], [98, 10], [99, 10], [100, 10]] ∧
    ∃ s', readLines (fun _ => 4) 6
        (openFile file (a :: b :: c :: d :: e :: f :: g :: h :: i :: js) true) =
      .ok (s', [[97, 10], [100, 10], [99, 10], [100, 10]]) := by
  refine ⟨by decide +kernel, ?_⟩
  have e1 : ∀ n, min (min (n + 8) 8) (max 1 4) = 4 := by omega
  have e2 : ∀ n, min (min (n + 6) 4) (max 1 4) = 4 := by omega
  have e3 : ∀ n, min (min n 0) (max 1 4) = 0 := by omega
  have e4 : ∀ n, ¬ n + 1 + 1 + 1 + 1 + 1 + 1 + 1 + 1 + 1 < 4 := by omega
  simp [readLines, readLine, readLineFromBuffer, openFile, bind, Except.bind, compact, readLoop,
    sysRead, e1, e2, e3, e4, blit, scanNl, copyOut, slice, prefetch]

/-! ## Concrete runs -/

/-- What a call returned, without the state. -/
def got {α : Type} (r : Except Err (Rd × α)) : Option α := (r.map Prod.snd).toOption

def B (s : String) : Bytes := s.toList.map fun c => UInt8.ofNat c.toNat

/-- A buffer of `n` bytes (and one more). -/
def mem (n : Nat) : Bytes := List.replicate (n + 1) 7

example : got (readLines full 30 (openFile (B "ab\ncd\n\nlast") (mem 20) true)) =
    some [B "ab\n", B "cd\n", B "\n", B "last"] := by decide +kernel
example : got (readLines full 30 (openFile (B "ab\r\ncd\n\nlast") (mem 20) false)) =
    some [B "ab", B "cd", B "", B "last"] := by decide +kernel
example : got (forLoop full 30 (openFile (B "ab\ncd\n\nlast") (mem 20) true)) =
    some [B "ab\n", B "cd\n", B "\n", B "last"] := by decide +kernel
example : (run (openFile (B "ab\ncd\nefgh\n") (mem 20) true) [.read 1, .readline, .read 4, .readlines,
    .read (-1), .readline]).toOption =
    some [[B "a"], [B "b\n"], [B "cd\ne"], [B "fgh\n"], [B ""], [B ""]] := by decide +kernel
example : (run (openFile (B "ab\ncd\nefgh\n") (mem 20) true) [.readline, .read (-1)]).toOption =
    some [[B "ab\n"], [B "cd\nefgh\n"]] := by decide +kernel
/-- Characters of two, three and four bytes. -/
example : got (readUnicode full (openFile (encode [97, 0xE9, 0x4E2D, 0x1F600, 98, 99]) (mem 20) true) 4) =
    some (encode [97, 0xE9, 0x4E2D, 0x1F600]) := by decide +kernel
example : got (readUnicode full (openFile (encode [0x4E2D, 0x6587, 98, 99]) (mem 20) true) 3) =
    some (encode [0x4E2D, 0x6587, 98]) := by decide +kernel
/-- Twelve bytes through a buffer of seven. -/
example : NoHit 7 0 ((lines (B "ab\ncd\nef\ngh\n")).map List.length) := by decide +kernel
example : got (readLines full 30 (openFile (B "ab\ncd\nef\ngh\n") (mem 7) true)) =
    some [B "ab\n", B "cd\n", B "ef\n", B "gh\n"] := by decide +kernel
/-- The same lines through a buffer of six: some are lost and others come twice. -/
example : got (readLines full 30 (openFile (B "ab\ncd\nef\ngh\n") (mem 6) true)) =
    some [B "ab\n", B "cd\n", B "gh\n", B "gh\n"] := by decide +kernel

end Verif.FileIO
