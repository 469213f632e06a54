/-
Files as a sequence of bytes: what `readline`, `readlines`, `for line in f` and `read` return.

The positive results are about regular files that fit into the buffer (8 MiB), and, for lines, about
larger files in which no line ends exactly at the end of a buffer.  `FileIOCases` shows that the
restrictions are needed.
-/
import Verif.FileIOInv

namespace Verif.FileIO

/-! ## What the lines of a file are -/

/-- The lines put together are the file. -/
theorem lines_flatten : ∀ R : Bytes, (lines R).flatten = R
  | [] => rfl
  | c :: cs => by
    have ih := lines_flatten cs
    unfold lines
    by_cases hc : c = 10
    · rw [if_pos hc, List.flatten_cons, ih]; rfl
    · rw [if_neg hc]
      cases hl : lines cs with
      | nil => rw [hl] at ih; simp at ih; simp [← ih]
      | cons l ls => rw [hl] at ih; simp only [List.flatten_cons, List.cons_append] at *; rw [ih]

/-- A newline occurs only at the end of a line, and every line but the last has one. -/
def LinesOk : List Bytes → Prop
  | [] => True
  | [l] => l ≠ [] ∧ (10 : UInt8) ∉ l.dropLast
  | l :: ls => (∃ m, l = m ++ [10] ∧ (10 : UInt8) ∉ m) ∧ LinesOk ls

theorem linesOk_cons {l : Bytes} {ls : List Bytes} (h : ∃ m, l = m ++ [10] ∧ (10 : UInt8) ∉ m)
    (hs : LinesOk ls) : LinesOk (l :: ls) := by
  cases ls with
  | nil =>
    obtain ⟨m, rfl, hm⟩ := h
    simpa [LinesOk] using hm
  | cons a as => exact ⟨h, hs⟩

theorem lines_ok : ∀ R : Bytes, LinesOk (lines R)
  | [] => trivial
  | c :: cs => by
    have ih := lines_ok cs
    unfold lines
    by_cases hc : c = 10
    · rw [if_pos hc]
      exact linesOk_cons ⟨[], by simp [hc], by simp⟩ ih
    · rw [if_neg hc]
      cases hl : lines cs with
      | nil => simp [LinesOk]
      | cons l ls =>
        rw [hl] at ih
        cases ls with
        | nil =>
          obtain ⟨h1, h2⟩ := ih
          refine ⟨by simp, ?_⟩
          rw [List.dropLast_cons_of_ne_nil h1]
          simp only [List.mem_cons, not_or]
          exact ⟨fun e => hc e.symm, h2⟩
        | cons a as =>
          obtain ⟨⟨m, rfl, hm⟩, h2⟩ := ih
          refine ⟨⟨c :: m, rfl, ?_⟩, h2⟩
          simp only [List.mem_cons, not_or]
          exact ⟨fun e => hc e.symm, hm⟩

/-- The two facts determine the lines: `lines` is the only such division. -/
theorem lines_unique : ∀ (ls : List Bytes), LinesOk ls → lines ls.flatten = ls
  | [], _ => rfl
  | [l], h => by
    obtain ⟨h1, h2⟩ := h
    simp only [List.flatten_cons, List.flatten_nil, List.append_nil]
    rw [lines_eq h1]
    by_cases hm : (10 : UInt8) ∈ l
    · have e : l = l.dropLast ++ [l.getLast h1] := (List.dropLast_concat_getLast h1).symm
      have hlast : l.getLast h1 = 10 := by
        rw [e] at hm
        rcases List.mem_append.1 hm with h | h
        · exact absurd h h2
        · exact (List.mem_singleton.1 h).symm
      have hup : upTo l = l.dropLast := by
        rw [e, hlast]
        simp only [List.dropLast_concat]
        generalize l.dropLast = m at h2
        induction m with
        | nil => simp [upTo]
        | cons c cs ih =>
          have hc : c ≠ 10 := fun e => h2 (by simp [e])
          rw [List.cons_append, upTo_cons_ne _ hc, ih (fun e => h2 (List.mem_cons_of_mem _ e))]
      have hlen : (upTo l).length + 1 = l.length := by
        rw [hup, List.length_dropLast]
        have := List.length_pos_iff.2 h1
        omega
      unfold firstLine afterLine
      rw [hlen, List.take_length, List.drop_length]; rfl
    · rw [firstLine_of_not_mem hm, afterLine_of_not_mem hm]; rfl
  | l :: a :: as, h => by
    obtain ⟨⟨m, rfl, hm⟩, h2⟩ := h
    have ih := lines_unique (a :: as) h2
    rw [List.flatten_cons]
    have hmem : (10 : UInt8) ∈ m ++ [10] := by simp
    rw [lines_eq (by simp), firstLine_append _ hmem, afterLine_append _ hmem]
    have hup : upTo (m ++ [10]) = m := by
      clear h2 ih hmem
      induction m with
      | nil => simp [upTo]
      | cons c cs ih =>
        have hc : c ≠ 10 := fun e => hm (by simp [e])
        rw [List.cons_append, upTo_cons_ne _ hc, ih (fun e => hm (List.mem_cons_of_mem _ e))]
    have h1 : firstLine (m ++ [10]) = m ++ [10] := by
      unfold firstLine; rw [hup]; exact List.take_of_length_le (by simp)
    have h3 : afterLine (m ++ [10]) = [] := by
      unfold afterLine; rw [hup]; exact List.drop_of_length_le (by simp)
    rw [h1, h3, List.nil_append, ih]

theorem getLast_app (a : Bytes) {b : Bytes} (h : b ≠ []) : (a ++ b).getLast? = b.getLast? := by
  rw [List.getLast?_append]
  cases hb : b.getLast? with
  | none => exact absurd (List.getLast?_eq_none_iff.1 hb) h
  | some x => rfl

/-! ## Files that fit into the buffer -/

/-- The rest of the file fits. -/
structure Small (s : Rd) (R : Bytes) : Prop where
  buf : Buf s R
  fits : s.rest = [] ∨ (s.pos = s.lim ∧ s.rest.length ≤ s.cap)

theorem held_of_eq {s : Rd} (h : s.pos = s.lim) : s.held = [] := by
  unfold Rd.held; rw [h, slice_self]

theorem open_small (file junk : Bytes) (keep : Bool) (h : file.length + 1 ≤ junk.length)
    (hj : 1 < junk.length) : Small (openFile file junk keep) file where
  buf := ⟨by simp [openFile]; omega, by simp [openFile]; omega, Nat.le_refl _, Nat.zero_le _,
    fun _ => by rw [held_of_eq rfl]; rfl, Or.inr (Or.inr rfl), by simp [openFile],
    by simp [openFile]; omega⟩
  fits := Or.inr ⟨rfl, by simp [openFile]; omega⟩

theorem small_guard {s : Rd} {R : Bytes} (h : Small s R) (hR : R ≠ []) :
    s.held = firstLine R → s.rest = [] := by
  intro e
  rcases h.fits with hr | ⟨hr, -⟩
  · exact hr
  · rw [held_of_eq hr] at e
    exact absurd e.symm (firstLine_ne_nil hR)

/-- The bytes after a line still fit. -/
theorem small_after {s s' : Rd} {R : Bytes} (h : Small s R) (hlast : s.last = false)
    (hb : Buf s' (afterLine R)) (hc : s.cap ≤ s'.cap) (h1 : s.rest = [] → s'.rest = [])
    (h2 : (10 : UInt8) ∉ s.held → (10 : UInt8) ∈ R →
      s'.pos = (firstLine R).length ∧ (s'.rest = [] ∨ s'.lim = s'.cap)) : Small s' (afterLine R) := by
  refine ⟨hb, ?_⟩
  rcases h.fits with hr | ⟨hr, hl⟩
  · exact Or.inl (h1 hr)
  · left
    by_cases hd : s'.last = true
    · exact (hb.done hd).2
    have hd : s'.last = false := by simpa using hd
    by_cases hm : (10 : UInt8) ∈ R
    · have hh : s.held = [] := held_of_eq hr
      obtain ⟨hp, hw | hw⟩ := h2 (by rw [hh]; simp) hm
      · exact hw
      · have hlive := hb.live hd
        have hR : s.rest = R := by have := h.buf.live hlast; rwa [hh, List.nil_append] at this
        have hlen := congrArg List.length hlive
        rw [List.length_append] at hlen
        have hsl : s'.held.length = s'.lim - s'.pos :=
          slice_length (by have := hb.size; have := hb.lim; omega)
        have hal : (afterLine R).length + (firstLine R).length = R.length := by
          have := congrArg List.length (first_after R)
          rw [List.length_append] at this; omega
        have hRl : R.length ≤ s.cap := by rw [← hR]; exact hl
        have : s'.rest.length = 0 := by omega
        exact List.eq_nil_of_length_eq_zero this
    · have := hb.live hd
      rw [afterLine_of_not_mem hm] at this
      exact (List.append_eq_nil_iff.1 this).2

/-- **Lines** (files that fit): the successive calls of `ReadLine` hand out the lines of the file,
with or without their newlines, and then report the end. -/
theorem readLines_small : ∀ (f : Nat) (s : Rd) (R : Bytes), Small s R → R.length < f →
    ∃ s', readLines full f s = .ok (s', (lines R).map (outLine s.keep)) ∧ s'.last = true ∧
      Small s' [] ∧ s'.keep = s.keep ∧
      ((R = [] ∨ R.getLast? = some 10) → (s.last = true → s.pos = s.lim) → s'.pos = s'.lim)
  | 0, _, _, _, hf => by omega
  | f + 1, s, R, h, hf => by
    unfold readLines
    by_cases hR : R = []
    · subst hR
      obtain ⟨s', i1, i2, i3, i4, i5⟩ := readLine_end h.buf
      rw [i1]
      refine ⟨s', rfl, i2, ⟨i3, Or.inl (i3.done i2).2⟩, i4, fun _ hc => i5 ?_⟩
      cases hl : s.last with
      | true => exact Or.inr (hc hl)
      | false => exact Or.inl rfl
    · have hlast : s.last = false := by
        cases hl : s.last with
        | false => rfl
        | true => exact absurd (h.buf.done hl).1 hR
      obtain ⟨s', p, i1, i2, i3, i4, i5, i6, i7, i8, i9, i10, i11⟩ :=
        readLine_spec h.buf hlast hR (small_guard h hR)
      have hsm := small_after h hlast i3 i5 i8 i10
      have hlt : (afterLine R).length < R.length := by
        have h1 := congrArg List.length (first_after R)
        have h2 := List.length_pos_iff.2 (firstLine_ne_nil hR)
        rw [List.length_append] at h1; omega
      obtain ⟨s2, j1, j2, j3, j4, j5⟩ := readLines_small f s' (afterLine R) hsm (by omega)
      rw [i1]
      simp only [bind, Except.bind, if_true]
      rw [i2]
      simp only [bind, Except.bind]
      rw [j1]
      refine ⟨s2, ?_, j2, j3, j4.trans i4, ?_⟩
      · rw [lines_eq hR, List.map_cons, i4]
      · intro ht _
        have ht : R.getLast? = some 10 := ht.resolve_left hR
        have hmem : (10 : UInt8) ∈ R := List.mem_of_getLast? ht
        refine j5 ?_ (i7 hmem)
        by_cases ha : afterLine R = []
        · exact Or.inl ha
        · right
          rw [← first_after R, getLast_app _ ha] at ht
          exact ht

/-- `f.readlines()` on a file that fits into the buffer. -/
theorem readlines_partial (file junk : Bytes) (h : file.length + 1 ≤ junk.length)
    (hj : 1 < junk.length) :
    ∃ s', readLines full (file.length + 1) (openFile file junk true) = .ok (s', lines file) := by
  obtain ⟨s', h1, -⟩ := readLines_small (file.length + 1) _ file (open_small file junk true h hj)
    (by omega)
  refine ⟨s', ?_⟩
  rw [h1]
  have : outLine (openFile file junk true).keep = id := by
    funext l; simp [outLine, openFile]
  rw [this, List.map_id]

/-- The operators that read a vocabulary get the lines without their ends. -/
theorem vocabulary_partial (file junk : Bytes) (h : file.length + 1 ≤ junk.length)
    (hj : 1 < junk.length) :
    ∃ s', readLines full (file.length + 1) (openFile file junk false) =
      .ok (s', (lines file).map (outLine false)) := by
  obtain ⟨s', h1, -⟩ := readLines_small (file.length + 1) _ file (open_small file junk false h hj)
    (by omega)
  exact ⟨s', h1⟩

/-! ## `for line in f` -/

theorem forLoop_done {s : Rd} (f : Nat) (h : s.last = true) : forLoop full (f + 1) s = .ok (s, []) := by
  unfold forLoop; rw [if_pos h]

/-- When the first unread line is in the buffer, or the file ends without a newline, the loop sees
the lines that are left. -/
theorem forLoop_small : ∀ (f : Nat) (s : Rd) (R : Bytes), Small s R → s.last = false →
    (10 : UInt8) ∈ s.held ∨ R.getLast? ≠ some 10 → R ≠ [] → R.length < f → s.rest = [] →
    ∃ s', forLoop full f s = .ok (s', (lines R).map (outLine s.keep)) ∧ s'.last = true
  | 0, _, _, _, _, _, _, hf, _ => by omega
  | f + 1, s, R, h, hlast, hg, hR, hf, hrest => by
    obtain ⟨s', p, i1, i2, i3, i4, i5, i6, i7, i8, i9, i10, i11⟩ :=
      readLine_spec h.buf hlast hR (small_guard h hR)
    have hsm := small_after h hlast i3 i5 i8 i10
    have hlt : (afterLine R).length < R.length := by
      have h1 := congrArg List.length (first_after R)
      have h2 := List.length_pos_iff.2 (firstLine_ne_nil hR)
      rw [List.length_append] at h1; omega
    have hRh : s.held = R := by
      have := h.buf.live hlast
      rwa [hrest, List.append_nil] at this
    unfold forLoop
    rw [if_neg (by simp [hlast])]
    simp only [bind, Except.bind, readLineString, i1, i2]
    obtain ⟨f', rfl⟩ : ∃ f', f = f' + 1 := by
      cases f with
      | zero => have := List.length_pos_iff.2 hR; omega
      | succ f' => exact ⟨f', rfl⟩
    by_cases hd : s'.last = true
    · rw [forLoop_done f' hd]
      refine ⟨s', ?_, hd⟩
      have ha : afterLine R = [] := by
        rcases i6.1 hd with hx | hx
        · exact afterLine_of_not_mem hx
        · exact hx.2
      rw [lines_eq hR, ha]; rfl
    · have hd' : s'.last = false := by simpa using hd
      have hne : afterLine R ≠ [] := by
        intro ha
        apply hd
        apply i6.2
        by_cases hm : (10 : UInt8) ∈ R
        · right; exact ⟨by rw [hRh]; exact hm, ha⟩
        · exact Or.inl hm
      have hs'r := i8 hrest
      have hs'h : s'.held = afterLine R := by
        have := i3.live hd'
        rwa [hs'r, List.append_nil] at this
      obtain ⟨s2, j1, j2⟩ := forLoop_small (f' + 1) s' (afterLine R) hsm hd' (by
        rcases hg with hx | hx
        · by_cases hl : (afterLine R).getLast? = some 10
          · left; rw [hs'h]; exact List.mem_of_getLast? hl
          · exact Or.inr hl
        · right
          rw [← first_after R, getLast_app _ hne] at hx
          exact hx) hne (by omega) hs'r
      rw [j1]
      refine ⟨s2, ?_, j2⟩
      rw [lines_eq hR, List.map_cons, i4]

/-- **Iteration** (files that fit): `for line in f` sees exactly the lines, when the file has at
least two lines or ends without a newline. -/
theorem for_lines_partial (file junk : Bytes) (h : file.length + 1 ≤ junk.length)
    (hj : 1 < junk.length) (hg : 2 ≤ (lines file).length ∨ file ≠ [] ∧ file.getLast? ≠ some 10) :
    ∃ s', forLoop full (file.length + 2) (openFile file junk true) = .ok (s', lines file) := by
  have hR : file ≠ [] := by
    rcases hg with hg | hg
    · rintro rfl; simp [lines] at hg
    · exact hg.1
  have hs := open_small file junk true h hj
  have hlast : (openFile file junk true).last = false := rfl
  have hkeep : (openFile file junk true).keep = true := rfl
  have hheld : (openFile file junk true).held = [] := held_of_eq rfl
  obtain ⟨s', p, i1, i2, i3, i4, i5, i6, i7, i8, i9, i10, i11⟩ :=
    readLine_spec hs.buf hlast hR (small_guard hs hR)
  have hsm := small_after hs hlast i3 i5 i8 i10
  have hlt : (afterLine file).length < file.length := by
    have h1 := congrArg List.length (first_after file)
    have h2 := List.length_pos_iff.2 (firstLine_ne_nil hR)
    rw [List.length_append] at h1; omega
  have hmap : ∀ ls : List Bytes, ls.map (outLine true) = ls := by
    intro ls
    have : outLine true = id := by funext l; simp [outLine]
    rw [this, List.map_id]
  unfold forLoop
  rw [if_neg (by simp [hlast])]
  simp only [bind, Except.bind, readLineString, i1, i2]
  have hout : outLine (openFile file junk true).keep (firstLine file) = firstLine file := by
    simp [outLine, hkeep]
  rw [hout]
  by_cases hd : s'.last = true
  · have hm : (10 : UInt8) ∉ file := by
      rcases i6.1 hd with hx | hx
      · exact hx
      · rw [hheld] at hx; simp at hx
    rw [forLoop_done _ hd]
    refine ⟨s', ?_⟩
    rw [lines_eq hR, afterLine_of_not_mem hm]; rfl
  · have hd' : s'.last = false := by simpa using hd
    have hm : (10 : UInt8) ∈ file := by
      by_cases hm : (10 : UInt8) ∈ file
      · exact hm
      · exact absurd (i6.2 (Or.inl hm)) hd
    have hne : afterLine file ≠ [] := by
      intro ha
      rcases hg with hg | hg
      · rw [lines_eq hR, ha] at hg; simp [lines] at hg
      · apply hg.2
        rw [← first_after file, ha, List.append_nil, firstLine_eq hm]; simp
    have hs'r : s'.rest = [] := by
      rcases hsm.fits with hx | ⟨hx, -⟩
      · exact hx
      · -- an empty buffer with more of the file to come is impossible here
        obtain ⟨hp, hw | hw⟩ := i10 (by rw [hheld]; simp) hm
        · exact hw
        · have hlive := i3.live hd'
          rw [held_of_eq hx, List.nil_append] at hlive
          have h1 := congrArg List.length (first_after file)
          rw [List.length_append, ← hlive] at h1
          have h2 : file.length ≤ (openFile file junk true).cap := by simp [openFile]; omega
          have : s'.rest.length = 0 := by omega
          exact List.eq_nil_of_length_eq_zero this
    have hs'h : s'.held = afterLine file := by
      have := i3.live hd'
      rwa [hs'r, List.append_nil] at this
    obtain ⟨s2, j1, j2⟩ := forLoop_small (file.length + 1) s' (afterLine file) hsm hd' (by
      by_cases hl : (afterLine file).getLast? = some 10
      · left; rw [hs'h]; exact List.mem_of_getLast? hl
      · exact Or.inr hl) hne (by omega) hs'r
    rw [j1]
    refine ⟨s2, ?_⟩
    rw [i4, hkeep, hmap, lines_eq hR]

/-! ## `read` -/

/-- Nothing stale is left in the buffer at the end of the file. -/
def Clean (s : Rd) : Prop := s.last = true → s.pos = s.lim

theorem open_clean (file junk : Bytes) (keep : Bool) : Clean (openFile file junk keep) := by
  intro h; cases h

/-- The buffer after all of it was taken. -/
theorem buf_empty {s : Rd} {R : Bytes} (h : Buf s R) (hr : s.rest = []) (b : Bool) :
    Small { s with lim := 0, pos := 0, last := b } [] :=
  ⟨⟨h.size, h.capPos, Nat.le_refl _, Nat.zero_le _, fun _ => by
      show slice _ 0 0 ++ s.rest = _
      rw [slice_self, hr]; rfl, Or.inl hr, fun _ => ⟨rfl, hr⟩, h.capPos⟩, Or.inl hr⟩

theorem readN_loaded {s : Rd} {R : Bytes} (h : Buf s R) (hc : Clean s) (hr : s.rest = [])
    (f size : Nat) :
    ∃ s', readN full size (f + 2) s size = .ok (s', R.take size) ∧ Small s' (R.drop size) ∧
      Clean s' ∧ s'.keep = s.keep ∧ (R = [] → 0 < size → s'.last = true) := by
  have hRh : s.held = R := by
    cases hl : s.last with
    | true => rw [held_of_eq (hc hl), (h.done hl).1]
    | false =>
      have := h.live hl
      rwa [hr, List.append_nil] at this
  have hsz := h.size
  have hlm := h.lim
  have hle := h.le
  have hlen : R.length = s.lim - s.pos := by rw [← hRh]; exact slice_length (by omega)
  unfold readN
  by_cases h0 : size = 0
  · rw [if_pos h0]
    subst h0
    exact ⟨s, by simp, ⟨by simpa using h, Or.inl hr⟩, hc, rfl, fun _ hx => by omega⟩
  rw [if_neg h0]
  by_cases h1 : size < s.lim - s.pos
  · rw [if_pos h1, if_pos (by omega)]
    have hl : s.last = false := by
      cases hl : s.last with
      | true => have := hc hl; omega
      | false => rfl
    refine ⟨{ s with pos := s.pos + size }, ?_, ⟨⟨hsz, h.capPos, by show s.pos + size ≤ s.lim; omega, hlm, fun _ => ?_,
      Or.inl hr, ?_, by show s.lim - (s.pos + size) < s.cap; omega⟩, Or.inl hr⟩, ?_, rfl, ?_⟩
    · rw [← hRh]
      unfold Rd.held
      rw [slice_take (by omega)]
    · show slice s.data (s.pos + size) s.lim ++ s.rest = _
      rw [hr, List.append_nil, ← hRh]
      unfold Rd.held
      rw [slice_drop]
    · intro hx
      have : s.last = true := hx
      rw [hl] at this; cases this
    · intro hx
      have : s.last = true := hx
      rw [hl] at this; cases this
    · intro hx; rw [hx] at hlen; simp at hlen; omega
  · rw [if_neg h1]
    have e1 : R.take size = R := List.take_of_length_le (by omega)
    have e2 : R.drop size = [] := List.drop_of_length_le (by omega)
    have e3 : slice s.data s.pos s.lim = R := hRh
    dsimp only
    rw [e1, e2, e3]
    by_cases hl : s.last = true
    · rw [if_pos hl]
      have hb := buf_empty h hr true
      refine ⟨_, rfl, ?_, fun _ => rfl, rfl, fun _ _ => hl⟩
      rw [← hl] at hb
      exact hb
    · rw [if_neg hl]
      simp only [bind, Except.bind]
      rw [sysRead_full _ 0 _ (by show 0 + s.cap ≤ s.data.length; omega)]
      have hz : ∀ m, min m (s.rest).length = 0 := by intro m; rw [hr]; simp
      have hb : ∀ m, blit s.data 0 (s.rest.take m) = s.data := by intro m; rw [hr]; simp [blit]
      have hd : ∀ m, s.rest.drop m = s.rest := by intro m; rw [hr]; simp
      simp only [hz, if_true, hb, hd]
      have hb' := buf_empty h hr true
      unfold readN
      by_cases h2 : size - (s.lim - s.pos) = 0
      · rw [if_pos h2]
        refine ⟨_, ?_, hb', fun _ => rfl, rfl, fun _ _ => rfl⟩
        simp only [List.append_nil]
      · rw [if_neg h2, if_neg (by simp)]
        dsimp only
        rw [if_pos rfl]
        refine ⟨_, ?_, hb', fun _ => rfl, rfl, fun _ _ => rfl⟩
        simp [slice_self]

/-- **`read(n)`** (files that fit): the next `n` bytes, or what is left. -/
theorem readN_small {s : Rd} {R : Bytes} (h : Small s R) (hc : Clean s) (size : Nat) :
    ∃ s', readN full size (s.rest.length + 3) s size = .ok (s', R.take size) ∧
      Small s' (R.drop size) ∧ Clean s' ∧ s'.keep = s.keep ∧
      (R = [] → 0 < size → s'.last = true) := by
  by_cases hr : s.rest = []
  · exact readN_loaded h.buf hc hr _ size
  · obtain ⟨hp, hfit⟩ := h.fits.resolve_left hr
    have hl : s.last = false := by
      cases hl : s.last with
      | true => exact absurd (h.buf.done hl).2 hr
      | false => rfl
    have hheld := held_of_eq hp
    have hR : s.rest = R := by
      have := h.buf.live hl
      rwa [hheld, List.nil_append] at this
    have hsz := h.buf.size
    unfold readN
    by_cases h0 : size = 0
    · subst h0
      rw [if_pos rfl]
      exact ⟨s, by simp, by simpa using h, hc, rfl, fun _ hx => by omega⟩
    · rw [if_neg h0, if_neg (by omega)]
      dsimp only
      rw [if_neg (by simp [hl])]
      simp only [bind, Except.bind]
      rw [sysRead_full _ 0 _ (by show 0 + s.cap ≤ s.data.length; omega)]
      have hk : min s.cap s.rest.length = s.rest.length := by omega
      have hk0 : ¬ s.rest.length = 0 := fun e => hr (List.eq_nil_of_length_eq_zero e)
      have ht : s.rest.take s.cap = s.rest := List.take_of_length_le hfit
      have hd : s.rest.drop s.cap = [] := List.drop_of_length_le hfit
      simp only [hk, ht, hd, hk0, if_false]
      have hz : s.lim - s.pos = 0 := by omega
      have hsl : slice s.data s.pos s.lim = [] := hheld
      rw [hz, Nat.sub_zero, hsl]
      -- the whole rest is now in the buffer
      generalize hs1 : (Rd.mk [] (blit s.data 0 s.rest) s.gen s.cap 0 s.rest.length s.last
        s.keep) = s1
      -- `Buf` wants room; only the case that takes a byte needs it
      have key : ∃ s', readN full size (s.rest.length + 2) s1 size = .ok (s', R.take size) ∧
          Small s' (R.drop size) ∧ Clean s' ∧ s'.keep = s1.keep ∧
          (R = [] → 0 < size → s'.last = true) := by
        have h1sz : s1.data.length = s1.cap + 1 := by
          rw [← hs1]; show (blit _ _ _).length = _; rw [blit_length (by omega)]; exact hsz
        have h1held : s1.held = R := by
          rw [← hs1, ← hR]
          exact slice_blit_zero (by omega)
        have h1last : s1.last = false := by rw [← hs1]; exact hl
        have h1pos : s1.pos = 0 := by rw [← hs1]
        have h1lim : s1.lim = s.rest.length := by rw [← hs1]
        have h1cap : s1.cap = s.cap := by rw [← hs1]
        have h1rest : s1.rest = [] := by rw [← hs1]
        have hcp := h.buf.capPos
        have hRl : R.length = s.rest.length := by rw [hR]
        by_cases hroom : s.rest.length < s.cap
        · have hb1 : Buf s1 R := ⟨h1sz, by omega, by omega, by omega, fun _ => by
            rw [h1held, h1rest, List.append_nil], Or.inl h1rest,
            fun e => absurd (h1last.symm.trans e) (by simp), by omega⟩
          exact readN_loaded hb1 (fun e => absurd (h1last.symm.trans e) (by simp)) h1rest _ size
        · -- the file fills the buffer exactly
          unfold readN
          rw [if_neg h0]
          by_cases hlt : size < s1.lim - s1.pos
          · rw [if_pos hlt, if_pos (by omega)]
            refine ⟨{ s1 with pos := s1.pos + size }, ?_, ⟨⟨h1sz, by show 0 < s1.cap; omega, by show s1.pos + size ≤ s1.lim; omega,
              by show s1.lim ≤ s1.cap; omega, fun _ => ?_, Or.inl h1rest, ?_,
              by show s1.lim - (s1.pos + size) < s1.cap; omega⟩, Or.inl h1rest⟩, ?_, rfl, ?_⟩
            · rw [← h1held]
              unfold Rd.held
              rw [slice_take (by omega)]
            · show slice s1.data (s1.pos + size) s1.lim ++ s1.rest = _
              rw [h1rest, List.append_nil, ← h1held]
              unfold Rd.held
              rw [slice_drop]
            · intro hx
              have : s1.last = true := hx
              rw [h1last] at this; cases this
            · intro hx
              have : s1.last = true := hx
              rw [h1last] at this; cases this
            · intro hx; rw [hx] at hRl; simp at hRl; omega
          · rw [if_neg hlt]
            have e1 : R.take size = R := List.take_of_length_le (by omega)
            have e2 : R.drop size = [] := List.drop_of_length_le (by omega)
            have e3 : slice s1.data s1.pos s1.lim = R := h1held
            dsimp only
            rw [e1, e2, e3, if_neg (by simp [h1last])]
            simp only [bind, Except.bind]
            rw [sysRead_full _ 0 _ (by show 0 + s1.cap ≤ s1.data.length; omega)]
            have hz : ∀ m, min m (s1.rest).length = 0 := by intro m; rw [h1rest]; simp
            have hb : ∀ m, blit s1.data 0 (s1.rest.take m) = s1.data := by
              intro m; rw [h1rest]; simp [blit]
            have hd : ∀ m, s1.rest.drop m = s1.rest := by intro m; rw [h1rest]; simp
            simp only [hz, if_true, hb, hd]
            have hb' : Small { s1 with lim := 0, pos := 0, last := true } [] :=
              ⟨⟨h1sz, by show 0 < s1.cap; omega, Nat.le_refl _, Nat.zero_le _, fun _ => by
                show slice _ 0 0 ++ s1.rest = _
                rw [slice_self, h1rest]; rfl, Or.inl h1rest, fun _ => ⟨rfl, h1rest⟩,
                by show 0 - 0 < s1.cap; omega⟩, Or.inl h1rest⟩
            obtain ⟨f', hf'⟩ : ∃ f', s.rest.length + 1 = f' + 1 := ⟨_, rfl⟩
            rw [hf']
            unfold readN
            by_cases h2 : size - (s1.lim - s1.pos) = 0
            · rw [if_pos h2]
              refine ⟨_, ?_, hb', fun _ => rfl, rfl, fun _ _ => rfl⟩
              simp only [List.append_nil]
            · rw [if_neg h2, if_neg (by simp)]
              dsimp only
              rw [if_pos rfl]
              refine ⟨_, ?_, hb', fun _ => rfl, rfl, fun _ _ => rfl⟩
              simp [slice_self]
      obtain ⟨s', i1, i2, i3, i4, i5⟩ := key
      rw [i1]
      refine ⟨s', by simp, i2, i3, ?_, i5⟩
      rw [i4, ← hs1]

/-- `read()` of a binary file returns everything that is left, however large the file. -/
theorem readAll_spec : ∀ (f : Nat) (s : Rd), s.data.length = s.cap + 1 → 0 < s.cap →
    s.rest.length < f →
    ∃ s', readAll full f s = .ok (s', s.rest) ∧ s'.data.length = s'.cap + 1 ∧ s'.cap = s.cap ∧
      s'.pos = s.pos ∧ s'.lim = s.lim ∧ s'.rest = [] ∧ s'.last = true ∧ s'.keep = s.keep
  | 0, _, _, _, hf => by omega
  | f + 1, s, hs, hc, hf => by
    unfold readAll
    rw [sysRead_full s 0 s.cap (by omega)]
    simp only [bind, Except.bind]
    by_cases hr : s.rest = []
    · have hz : min s.cap s.rest.length = 0 := by rw [hr]; simp
      rw [if_pos hz]
      have hb : blit s.data 0 (s.rest.take s.cap) = s.data := by rw [hr]; simp [blit]
      have hd : s.rest.drop s.cap = [] := by rw [hr]; simp
      rw [hb, hd, hr]
      exact ⟨_, rfl, hs, rfl, rfl, rfl, rfl, rfl, rfl⟩
    · have hpos := List.length_pos_iff.2 hr
      rw [if_neg (by omega)]
      have htl : (s.rest.take s.cap).length = min s.cap s.rest.length := by simp
      have hbl : (blit s.data 0 (s.rest.take s.cap)).length = s.cap + 1 := by
        rw [blit_length (by omega)]; exact hs
      obtain ⟨s', i1, i2, i3, i4, i5, i6, i7, i8⟩ := readAll_spec f
        { s with rest := s.rest.drop s.cap, data := blit s.data 0 (s.rest.take s.cap) } hbl hc
        (by show (s.rest.drop s.cap).length < f; rw [List.length_drop]; omega)
      rw [i1]
      refine ⟨s', ?_, i2, i3, i4, i5, i6, i7, i8⟩
      dsimp only
      have : (blit s.data 0 (s.rest.take s.cap)).take (min s.cap s.rest.length) =
          s.rest.take s.cap := by
        rw [← htl]
        have := slice_blit_zero (d := s.data) (l := s.rest.take s.cap) (by omega)
        unfold slice at this
        simpa using this
      rw [this, List.take_append_drop]

/-- What `read(n)` should return, and what should be left: `n < 0` stands for no argument. -/
def takeN (R : Bytes) (n : Int) : Bytes × Bytes :=
  if n < 0 then (R, []) else (R.take n.toNat, R.drop n.toNat)

theorem read_small {s : Rd} {R : Bytes} (h : Small s R) (hc : Clean s) (n : Int) :
    ∃ s', read full s n = .ok (s', (takeN R n).1) ∧ Small s' (takeN R n).2 ∧ Clean s' ∧
      s'.keep = s.keep ∧ (R = [] → 0 < n → s'.last = true) := by
  unfold read takeN
  by_cases hn : n < 0
  · rw [if_pos hn, if_pos hn]
    obtain ⟨s', i1, i2, i3, i4, i5, i6, i7, i8⟩ := readAll_spec (s.rest.length + 1)
      { s with lim := 0, pos := 0 } h.buf.size h.buf.capPos (by show s.rest.length < _; omega)
    simp only [bind, Except.bind]
    rw [i1]
    refine ⟨s', ?_, ⟨⟨i2, by rw [i3]; exact h.buf.capPos, by rw [i4, i5]; exact Nat.le_refl _,
      by rw [i5]; exact Nat.zero_le _, fun e => absurd (i7.symm.trans e) (by simp), Or.inl i6,
      fun _ => ⟨rfl, i6⟩, by rw [i4, i5, i3]; exact h.buf.capPos⟩, Or.inl i6⟩,
      fun _ => by rw [i4, i5], i8, fun _ _ => i7⟩
    dsimp only
    cases hl : s.last with
    | true =>
      obtain ⟨hR, hr⟩ := h.buf.done hl
      have : slice s.data s.pos s.lim = [] := held_of_eq (hc hl)
      rw [hr, hR, this]; rfl
    | false => rw [← h.buf.live hl]; rfl
  · rw [if_neg hn, if_neg hn]
    obtain ⟨s', i1, i2, i3, i4, i5⟩ := readN_small h hc n.toNat
    exact ⟨s', i1, i2, i3, i4, fun a b => i5 a (by omega)⟩

/-! ## Programs -/

/-- The calls of a program on one file opened in binary mode. -/
inductive Op where
  | readline
  | readlines
  /-- `read(n)`; a negative `n` stands for `read()` -/
  | read (n : Int)
deriving DecidableEq, Repr

/-- What each call should return (the pieces it returns, in order) and leave. -/
def Op.spec (R : Bytes) : Op → List Bytes × Bytes
  | .readline => ([firstLine R], afterLine R)
  | .readlines => (lines R, [])
  | .read n => ([(takeN R n).1], (takeN R n).2)

/-- The calls in the code. -/
def Op.step (s : Rd) : Op → Except Err (Rd × List Bytes)
  | .readline => do
    let (s, l) ← readLineString full s
    .ok (s, [l])
  | .readlines => readLines full (s.rest.length + (s.lim - s.pos) + 1) s
  | .read n => do
    let (s, l) ← FileIO.read full s n
    .ok (s, [l])

def spec (R : Bytes) : List Op → List (List Bytes)
  | [] => []
  | o :: os => (o.spec R).1 :: spec (o.spec R).2 os

def run (s : Rd) : List Op → Except Err (List (List Bytes))
  | [] => .ok []
  | o :: os => do
    let (s, l) ← o.step s
    let ls ← run s os
    .ok (l :: ls)

/-- Empty, or ending with a newline. -/
def Terminated (R : Bytes) : Prop := R = [] ∨ R.getLast? = some 10

theorem terminated_drop {R : Bytes} (h : Terminated R) (n : Nat) : Terminated (R.drop n) := by
  by_cases hd : R.drop n = []
  · exact Or.inl hd
  · right
    rcases h with rfl | h
    · simp at hd
    · rw [← List.take_append_drop n R, getLast_app _ hd] at h
      exact h

theorem small_held {s : Rd} {R : Bytes} (h : Small s R) (hl : s.last = false) :
    R.length = s.rest.length + (s.lim - s.pos) := by
  have := congrArg List.length (h.buf.live hl)
  rw [List.length_append] at this
  have hs : s.held.length = s.lim - s.pos :=
    slice_length (by have := h.buf.size; have := h.buf.lim; omega)
  omega

theorem step_small {s : Rd} {R : Bytes} (h : Small s R) (hc : Clean s) (hk : s.keep = true)
    (ht : Terminated R) (o : Op) :
    ∃ s', o.step s = .ok (s', (o.spec R).1) ∧ Small s' (o.spec R).2 ∧ Clean s' ∧
      s'.keep = true ∧ Terminated (o.spec R).2 := by
  have hid : ∀ l, outLine s.keep l = l := by intro l; simp [outLine, hk]
  cases o with
  | readline =>
    by_cases hR : R = []
    · subst hR
      obtain ⟨s', i1, i2, i3, i4, i5⟩ := readLine_end h.buf
      refine ⟨s', ?_, ⟨i3, Or.inl (i3.done i2).2⟩, fun _ => i5 ?_, i4.trans hk, Or.inl rfl⟩
      · simp only [Op.step, readLineString, bind, Except.bind, i1, copyOut]
        rfl
      · cases hl : s.last with
        | true => exact Or.inr (hc hl)
        | false => exact Or.inl rfl
    · have hlast : s.last = false := by
        cases hl : s.last with
        | false => rfl
        | true => exact absurd (h.buf.done hl).1 hR
      obtain ⟨s', p, i1, i2, i3, i4, i5, i6, i7, i8, i9, i10, i11⟩ :=
        readLine_spec h.buf hlast hR (small_guard h hR)
      have hmem : (10 : UInt8) ∈ R := List.mem_of_getLast? (ht.resolve_left hR)
      refine ⟨s', ?_, small_after h hlast i3 i5 i8 i10, i7 hmem, i4.trans hk, terminated_drop ht _⟩
      simp only [Op.step, readLineString, bind, Except.bind, i1, i2, hid]
      rfl
  | readlines =>
    obtain ⟨s', i1, i2, i3, i4, i5⟩ :=
      readLines_small (s.rest.length + (s.lim - s.pos) + 1) s R h (by
        cases hl : s.last with
        | true => rw [(h.buf.done hl).1]; simp
        | false => have := small_held h hl; omega)
    refine ⟨s', ?_, i3, fun _ => i5 ht hc, i4.trans hk, Or.inl rfl⟩
    simp only [Op.step, i1]
    have : outLine s.keep = id := by funext l; exact hid l
    rw [this, List.map_id]; rfl
  | read n =>
    obtain ⟨s', i1, i2, i3, i4, -⟩ := read_small h hc n
    refine ⟨s', ?_, i2, i3, i4.trans hk, ?_⟩
    · simp only [Op.step, bind, Except.bind, i1]; rfl
    · simp only [Op.spec, takeN]
      split
      · exact Or.inl rfl
      · exact terminated_drop ht _

theorem run_small : ∀ (os : List Op) (s : Rd) (R : Bytes), Small s R → Clean s → s.keep = true →
    Terminated R → run s os = .ok (spec R os)
  | [], _, _, _, _, _, _ => rfl
  | o :: os, s, R, h, hc, hk, ht => by
    obtain ⟨s', i1, i2, i3, i4, i5⟩ := step_small h hc hk ht o
    simp only [run, bind, Except.bind, i1, spec]
    rw [run_small os s' _ i2 i3 i4 i5]

/-- **Reading** (files that fit and end with a newline): whatever the order of `readline`,
`readlines`, `read(n)` and `read()`, each call continues where the last one stopped and returns
what it should, without leaving its buffer. -/
theorem reading_partial (file junk : Bytes) (h : file.length + 1 ≤ junk.length)
    (hj : 1 < junk.length) (ht : Terminated file) (os : List Op) :
    run (openFile file junk true) os = .ok (spec file os) :=
  run_small os _ file (open_small file junk true h hj) (open_clean _ _ _) rfl ht

/-- Nothing is lost or repeated: the pieces returned, and what the calls leave, are the file. -/
theorem spec_flatten : ∀ (os : List Op) (R : Bytes),
    ∃ T, ((spec R os).map List.flatten).flatten ++ T = R
  | [], R => ⟨R, rfl⟩
  | o :: os, R => by
    obtain ⟨T, hT⟩ := spec_flatten os (o.spec R).2
    refine ⟨T, ?_⟩
    simp only [spec, List.map_cons, List.flatten_cons, List.append_assoc]
    rw [hT]
    cases o with
    | readline => simp [Op.spec, first_after]
    | readlines => simp [Op.spec, lines_flatten]
    | read n =>
      simp only [Op.spec, takeN]
      split <;> simp

end Verif.FileIO
