/-
What one `readline` does: the lines of a byte string, the relation between the reader and the bytes
that are still to be delivered, and the specification of `readLine`.
-/
import Verif.FileIO

namespace Verif.FileIO

/-! ## Lines -/

/-- The lines of a byte string: every line ends with its newline, except perhaps the last. -/
def lines : Bytes → List Bytes
  | [] => []
  | c :: cs =>
    if c = 10 then [c] :: lines cs
    else match lines cs with
      | [] => [[c]]
      | l :: ls => (c :: l) :: ls

/-- Bytes before the first newline. -/
def upTo (R : Bytes) : Bytes := R.takeWhile (· ≠ 10)

def firstLine (R : Bytes) : Bytes := R.take ((upTo R).length + 1)
def afterLine (R : Bytes) : Bytes := R.drop ((upTo R).length + 1)

/-- A line as `ReadLine` hands it out: without `keep_newline` the end `\n` or `\r\n` is cut off. -/
def outLine (keep : Bool) (l : Bytes) : Bytes :=
  if keep = true ∨ l.getLast? ≠ some 10 then l
  else if l.dropLast.getLast? = some 13 then l.dropLast.dropLast else l.dropLast

theorem first_after (R : Bytes) : firstLine R ++ afterLine R = R := List.take_append_drop _ _

theorem firstLine_ne_nil {R : Bytes} (h : R ≠ []) : firstLine R ≠ [] := by
  cases R with
  | nil => exact absurd rfl h
  | cons c cs => simp [firstLine]

theorem upTo_cons_ne {c : UInt8} (cs : Bytes) (h : c ≠ 10) : upTo (c :: cs) = c :: upTo cs := by
  simp [upTo, h]

theorem upTo_cons_nl (cs : Bytes) : upTo ((10 : UInt8) :: cs) = [] := by
  simp [upTo]

theorem lines_eq : ∀ {R : Bytes}, R ≠ [] → lines R = firstLine R :: lines (afterLine R)
  | [], h => absurd rfl h
  | c :: cs, _ => by
    by_cases hc : c = 10
    · subst hc
      simp [lines, firstLine, afterLine, upTo_cons_nl]
    · have h1 : firstLine (c :: cs) = c :: firstLine cs := by
        simp [firstLine, upTo_cons_ne cs hc]
      have h2 : afterLine (c :: cs) = afterLine cs := by
        simp [afterLine, upTo_cons_ne cs hc]
      rw [h1, h2]
      cases cs with
      | nil => simp [lines, firstLine, afterLine, upTo, hc]
      | cons d ds =>
        rw [lines, if_neg hc, lines_eq (R := d :: ds) (by simp)]

theorem upTo_of_not_mem {R : Bytes} (h : (10 : UInt8) ∉ R) : upTo R = R := by
  induction R with
  | nil => rfl
  | cons c cs ih =>
    have hc : c ≠ 10 := fun e => h (by simp [e])
    rw [upTo_cons_ne cs hc, ih (fun e => h (List.mem_cons_of_mem _ e))]

theorem upTo_lt {R : Bytes} (h : (10 : UInt8) ∈ R) : (upTo R).length < R.length := by
  induction R with
  | nil => simp at h
  | cons c cs ih =>
    by_cases hc : c = 10
    · subst hc; simp [upTo_cons_nl]
    · rw [upTo_cons_ne cs hc]
      have : (10 : UInt8) ∈ cs := by
        rcases List.mem_cons.1 h with e | e
        · exact absurd e.symm hc
        · exact e
      have := ih this
      simpa using this

theorem upTo_get {R : Bytes} (h : (10 : UInt8) ∈ R) : R[(upTo R).length]? = some 10 := by
  induction R with
  | nil => simp at h
  | cons c cs ih =>
    by_cases hc : c = 10
    · subst hc; simp [upTo_cons_nl]
    · rw [upTo_cons_ne cs hc]
      have : (10 : UInt8) ∈ cs := by
        rcases List.mem_cons.1 h with e | e
        · exact absurd e.symm hc
        · exact e
      simpa using ih this

theorem upTo_append {S : Bytes} (T : Bytes) (h : (10 : UInt8) ∈ S) : upTo (S ++ T) = upTo S := by
  induction S with
  | nil => simp at h
  | cons c cs ih =>
    by_cases hc : c = 10
    · subst hc; simp [upTo_cons_nl]
    · rw [List.cons_append, upTo_cons_ne _ hc, upTo_cons_ne cs hc, ih]
      rcases List.mem_cons.1 h with e | e
      · exact absurd e.symm hc
      · exact e

theorem firstLine_append {S : Bytes} (T : Bytes) (h : (10 : UInt8) ∈ S) :
    firstLine (S ++ T) = firstLine S := by
  have := upTo_lt h
  unfold firstLine
  rw [upTo_append T h, List.take_append_of_le_length (by omega)]

theorem afterLine_append {S : Bytes} (T : Bytes) (h : (10 : UInt8) ∈ S) :
    afterLine (S ++ T) = afterLine S ++ T := by
  have := upTo_lt h
  unfold afterLine
  rw [upTo_append T h, List.drop_append_of_le_length (by omega)]

theorem firstLine_of_not_mem {R : Bytes} (h : (10 : UInt8) ∉ R) : firstLine R = R := by
  unfold firstLine
  rw [upTo_of_not_mem h]
  exact List.take_of_length_le (by omega)

theorem afterLine_of_not_mem {R : Bytes} (h : (10 : UInt8) ∉ R) : afterLine R = [] := by
  unfold afterLine
  rw [upTo_of_not_mem h]
  exact List.drop_of_length_le (by omega)

theorem firstLine_length {R : Bytes} (h : (10 : UInt8) ∈ R) :
    (firstLine R).length = (upTo R).length + 1 := by
  have := upTo_lt h
  simp only [firstLine, List.length_take]; omega

theorem firstLine_eq {R : Bytes} (h : (10 : UInt8) ∈ R) :
    firstLine R = R.take (upTo R).length ++ [10] := by
  unfold firstLine
  rw [List.take_add_one, upTo_get h]; rfl

theorem outLine_of_not_mem {R : Bytes} (keep : Bool) (h : (10 : UInt8) ∉ R) :
    outLine keep R = R := by
  unfold outLine
  rw [if_pos]
  right
  intro e
  exact h (List.mem_of_getLast? e)

/-! ## The buffer -/

theorem slice_length {d : Bytes} {a b : Nat} (h : b ≤ d.length) : (slice d a b).length = b - a := by
  simp only [slice, List.length_take, List.length_drop]; omega

theorem slice_take {d : Bytes} {a b n : Nat} (h : n ≤ b - a) :
    (slice d a b).take n = slice d a (a + n) := by
  unfold slice
  rw [List.take_take]
  congr 1; omega

theorem slice_drop {d : Bytes} {a b n : Nat} : (slice d a b).drop n = slice d (a + n) b := by
  unfold slice
  rw [List.drop_take, List.drop_drop]
  congr 1; omega

theorem slice_get {d : Bytes} {a b i : Nat} (h : i < b - a) : (slice d a b)[i]? = d[a + i]? := by
  unfold slice
  rw [List.getElem?_take_of_lt h, List.getElem?_drop]

theorem slice_self (d : Bytes) (a : Nat) : slice d a a = [] := by simp [slice]

theorem slice_cons {d : Bytes} {a k : Nat} (h : a < d.length) :
    slice d a (a + (k + 1)) = d.getD a 0 :: slice d (a + 1) (a + 1 + k) := by
  unfold slice
  rw [List.drop_eq_getElem_cons h]
  have e1 : a + (k + 1) - a = k + 1 := by omega
  have e2 : a + 1 + k - (a + 1) = k := by omega
  rw [e1, e2, List.take_succ_cons]
  simp [List.getD, h]

theorem blit_length {d l : Bytes} {off : Nat} (h : off + l.length ≤ d.length) :
    (blit d off l).length = d.length := by
  simp only [blit, List.length_append, List.length_take, List.length_drop]; omega

theorem slice_blit_end {d l : Bytes} {a off : Nat} (ha : a ≤ off) (h : off + l.length ≤ d.length) :
    slice (blit d off l) a (off + l.length) = slice d a off ++ l := by
  unfold slice blit
  have e : (d.take off).length = off := by simp only [List.length_take]; omega
  rw [List.append_assoc, List.drop_append_of_le_length (by omega)]
  have e1 : ((d.take off).drop a).length = off - a := by simp only [List.length_drop, e]
  rw [List.take_append, List.take_of_length_le (by omega), e1]
  have e2 : off + l.length - a - (off - a) = l.length := by omega
  rw [e2, List.take_left, List.drop_take]

theorem slice_blit_zero {d l : Bytes} (h : l.length ≤ d.length) :
    slice (blit d 0 l) 0 l.length = l := by
  have := slice_blit_end (d := d) (l := l) (a := 0) (off := 0) (by omega) (by omega)
  simpa [slice_self] using this

theorem scanNl_eq (d : Bytes) : ∀ (k e : Nat), e + k ≤ d.length →
    scanNl d e k = e + (upTo (slice d e (e + k))).length
  | 0, e, _ => by simp [scanNl, slice_self, upTo]
  | k + 1, e, h => by
    rw [slice_cons (by omega)]
    unfold scanNl
    by_cases hc : d.getD e 0 = 10
    · rw [if_neg (by simpa using hc), hc, upTo_cons_nl]; rfl
    · rw [if_pos hc, scanNl_eq d k (e + 1) (by omega), upTo_cons_ne _ hc, List.length_cons]
      omega

/-- The undelivered bytes inside the buffer. -/
def Rd.held (s : Rd) : Bytes := slice s.data s.pos s.lim

/-- The reader has the bytes `R` still to deliver. -/
structure Buf (s : Rd) (R : Bytes) : Prop where
  size : s.data.length = s.cap + 1
  capPos : 0 < s.cap
  le : s.pos ≤ s.lim
  lim : s.lim ≤ s.cap
  live : s.last = false → s.held ++ s.rest = R
  win : s.rest = [] ∨ s.lim = s.cap ∨ s.pos = s.lim
  done : s.last = true → R = [] ∧ s.rest = []
  room : s.lim - s.pos < s.cap

theorem sysRead_full (s : Rd) (off n : Nat) (h : off + n ≤ s.data.length) :
    sysRead full s off n =
      .ok (min n s.rest.length,
        { s with rest := s.rest.drop n, data := blit s.data off (s.rest.take n) }) := by
  unfold sysRead full
  have e : min (min n s.rest.length) (max 1 (id s.rest.length)) = min n s.rest.length := by
    simp only [id]; omega
  simp only [e]
  rw [if_pos (by omega)]
  have e1 : s.rest.drop (min n s.rest.length) = s.rest.drop n := by
    by_cases h : n ≤ s.rest.length
    · rw [Nat.min_eq_left h]
    · rw [Nat.min_eq_right (by omega), List.drop_of_length_le (Nat.le_refl _),
        List.drop_of_length_le (by omega)]
  have e2 : s.rest.take (min n s.rest.length) = s.rest.take n := by
    by_cases h : n ≤ s.rest.length
    · rw [Nat.min_eq_left h]
    · rw [Nat.min_eq_right (by omega), List.take_of_length_le (Nat.le_refl _),
        List.take_of_length_le (by omega)]
  rw [e1, e2]

/-- No newline in the buffer. -/
theorem fromBuffer_none {s : Rd} (hs : s.data.length = s.cap + 1) (hl : s.pos ≤ s.lim)
    (hc : s.lim ≤ s.cap) (h : (10 : UInt8) ∉ s.held) :
    readLineFromBuffer s =
      .ok (if s.pos ≠ s.lim ∧ s.pos = 0 ∧ s.cap ≤ s.lim + 1 then grow s else s, none) := by
  unfold readLineFromBuffer
  by_cases he : s.pos = s.lim
  · rw [if_pos he, if_neg (by simp [he])]
  · rw [if_neg he, if_neg (by omega)]
    have e : scanNl s.data s.pos (s.lim - s.pos) = s.lim := by
      rw [scanNl_eq _ _ _ (by omega)]
      have : s.pos + (s.lim - s.pos) = s.lim := by omega
      rw [this]
      have := upTo_of_not_mem h
      unfold Rd.held at this
      rw [this, slice_length (by omega)]; omega
    simp only [e, if_true, he, ne_eq, not_false_eq_true, true_and]

/-- A newline in the buffer. -/
theorem fromBuffer_some {s : Rd} (hs : s.data.length = s.cap + 1) (hl : s.pos ≤ s.lim)
    (hc : s.lim ≤ s.cap) (h : (10 : UInt8) ∈ s.held) :
    ∃ n, readLineFromBuffer s =
        .ok ({ s with pos := s.pos + (upTo s.held).length + 1 }, some (s.pos, n)) ∧
      slice s.data s.pos (s.pos + n) = outLine s.keep (firstLine s.held) ∧
      n ≤ (upTo s.held).length + 1 ∧ s.pos + (upTo s.held).length + 1 ≤ s.lim ∧
      (s.keep = true → n = (upTo s.held).length + 1) := by
  have hlen : s.held.length = s.lim - s.pos := slice_length (by omega)
  have hlt := upTo_lt h
  have hne : s.pos ≠ s.lim := by omega
  have e : scanNl s.data s.pos (s.lim - s.pos) = s.pos + (upTo s.held).length := by
    rw [scanNl_eq _ _ _ (by omega)]
    have : s.pos + (s.lim - s.pos) = s.lim := by omega
    rw [this]; rfl
  unfold readLineFromBuffer
  rw [if_neg hne, if_neg (by omega)]
  simp only [e]
  rw [if_neg (by omega)]
  refine ⟨_, rfl, ?_, ?_, by omega, ?_⟩
  · have hf := firstLine_eq h
    cases hk : s.keep with
    | true =>
      simp only [if_true, outLine, true_or]
      have : s.pos + (upTo s.held).length - s.pos + 1 = (upTo s.held).length + 1 := by omega
      rw [this]
      unfold firstLine
      rw [show s.held = slice s.data s.pos s.lim from rfl, slice_take]
      have : (upTo (slice s.data s.pos s.lim)).length = (upTo s.held).length := rfl
      omega
    | false =>
      have hg : (firstLine s.held).getLast? = some 10 := by rw [hf]; simp
      have hd : (firstLine s.held).dropLast = s.held.take (upTo s.held).length := by
        rw [hf]; simp
      simp only [outLine, hg, hd, Bool.false_eq_true, if_false, false_or, ne_eq,
        not_true_eq_false]
      have hl2 : (s.held.take (upTo s.held).length).length = (upTo s.held).length := by
        simp only [List.length_take]; omega
      have hcond : (s.pos < s.pos + (upTo s.held).length ∧
          s.data.getD (s.pos + (upTo s.held).length - 1) 0 = 13) ↔
          (s.held.take (upTo s.held).length).getLast? = some 13 := by
        rw [List.getLast?_eq_getElem?, hl2]
        by_cases hz : (upTo s.held).length = 0
        · simp [hz]
        · rw [List.getElem?_take_of_lt (by omega)]
          have e1 : s.held[(upTo s.held).length - 1]? =
              s.data[s.pos + ((upTo s.held).length - 1)]? := slice_get (by omega)
          have e2 : s.pos + (upTo s.held).length - 1 = s.pos + ((upTo s.held).length - 1) := by
            omega
          rw [e1, e2]
          have hlt' : s.pos + ((upTo s.held).length - 1) < s.data.length := by omega
          rw [List.getElem?_eq_getElem hlt']
          simp only [List.getD, List.getElem?_eq_getElem hlt', Option.getD_some,
            Option.some.injEq]
          constructor
          · exact fun x => x.2
          · exact fun x => ⟨by omega, x⟩
      by_cases hq : (s.held.take (upTo s.held).length).getLast? = some 13
      · rw [if_pos (hcond.2 hq), if_pos hq]
        have hz := (hcond.2 hq).1
        rw [List.dropLast_eq_take, hl2, List.take_take, Nat.min_eq_left (by omega)]
        rw [show s.held = slice s.data s.pos s.lim from rfl, slice_take]
        · congr 1
          have : (upTo (slice s.data s.pos s.lim)).length = (upTo s.held).length := rfl
          omega
        · have : (upTo (slice s.data s.pos s.lim)).length = (upTo s.held).length := rfl
          omega
      · rw [if_neg (fun x => hq (hcond.1 x)), if_neg hq]
        rw [show s.held = slice s.data s.pos s.lim from rfl, slice_take]
        · congr 1
          have : (upTo (slice s.data s.pos s.lim)).length = (upTo s.held).length := rfl
          omega
        · have : (upTo (slice s.data s.pos s.lim)).length = (upTo s.held).length := rfl
          omega
  · split
    · omega
    · split <;> omega
  · intro hk
    simp only [hk, if_true]; omega

theorem held_append_rest_lt {S : Bytes} {n : Nat} (T : Bytes) (h : (10 : UInt8) ∈ S) :
    (10 : UInt8) ∈ S ++ T.take n := List.mem_append_left _ h

theorem grow_buf {s : Rd} (hs : s.data.length = s.cap + 1) (hp : s.pos ≤ s.lim)
    (hc : s.lim ≤ s.cap) :
    (grow s).data.length = (grow s).cap + 1 ∧ (grow s).held = s.held := by
  constructor
  · simp only [grow, List.length_append, List.length_take, List.length_replicate]; omega
  · unfold Rd.held slice grow
    dsimp only
    rw [List.drop_append_of_le_length (by simp only [List.length_take]; omega),
      List.take_append_of_le_length (by simp only [List.length_drop, List.length_take]; omega),
      List.drop_take, List.take_take, Nat.min_eq_left (by omega)]

/-- The refill loop finds the first line. -/
theorem readLoop_spec : ∀ (f : Nat) (s : Rd), s.data.length = s.cap + 1 → s.pos = 0 →
    s.lim < s.cap → s.last = false → (10 : UInt8) ∉ s.held → s.rest.length < f →
    (s.held ++ s.rest = [] → ∃ s', readLoop full f s = .ok (s', false, none) ∧ s'.last = true ∧
      s'.pos = s'.lim ∧ Buf s' [] ∧ s'.keep = s.keep) ∧
    (s.held ++ s.rest ≠ [] → ∃ s' p, readLoop full f s = .ok (s', true, p) ∧
      copyOut s' p = .ok (outLine s.keep (firstLine (s.held ++ s.rest))) ∧
      Buf s' (afterLine (s.held ++ s.rest)) ∧ s'.keep = s.keep ∧ s.cap ≤ s'.cap ∧
      (s'.last = true ↔ (10 : UInt8) ∉ s.held ++ s.rest) ∧
      ((10 : UInt8) ∈ s.held ++ s.rest →
        s'.pos = (firstLine (s.held ++ s.rest)).length ∧ (s'.rest = [] ∨ s'.lim = s'.cap)) ∧
      (s'.rest = [] ∨ s'.rest.length < s.rest.length) ∧
      ((firstLine (s.held ++ s.rest)).length + 1 < s.cap → s'.cap = s.cap))
  | 0, s, _, _, _, _, _, hf => by omega
  | f + 1, s, hs, hp, hl, hlast, hn, hf => by
    have hheld : s.held = slice s.data 0 s.lim := by unfold Rd.held; rw [hp]
    have hhl : s.held.length = s.lim := by rw [hheld, slice_length (by omega)]; omega
    unfold readLoop
    rw [sysRead_full s s.lim (s.cap - s.lim) (by omega)]
    by_cases hr : s.rest = []
    · -- the end of the file
      have hz : min (s.cap - s.lim) s.rest.length = 0 := by rw [hr]; simp
      have hb : blit s.data s.lim (s.rest.take (s.cap - s.lim)) = s.data := by
        rw [hr]; simp [blit]
      have hd : s.rest.drop (s.cap - s.lim) = [] := by rw [hr]; simp
      simp only [bind, Except.bind, hz, if_true, hb, hd]
      constructor
      · intro he
        have hl0 : s.lim = 0 := by
          have : s.held = [] := (List.append_eq_nil_iff.1 he).1
          rw [this] at hhl; simpa using hhl.symm
        rw [if_neg (by omega)]
        exact ⟨_, rfl, rfl, by simp [hp, hl0], ⟨hs, by show 0 < s.cap; omega, by show s.pos ≤ s.lim; omega,
          by show s.lim ≤ s.cap; omega, by simp, Or.inl rfl, fun _ => ⟨rfl, rfl⟩,
          by show s.lim - s.pos < s.cap; omega⟩, rfl⟩
      · intro he
        have hl0 : s.pos < s.lim := by
          rcases Nat.eq_zero_or_pos s.lim with h0 | h0
          · exfalso; apply he
            rw [hr, List.append_nil]
            exact List.eq_nil_of_length_eq_zero (by omega)
          · omega
        rw [if_pos hl0]
        rw [hr, List.append_nil, firstLine_of_not_mem hn, afterLine_of_not_mem hn,
          outLine_of_not_mem _ hn]
        refine ⟨_, _, rfl, ?_, ⟨hs, by show 0 < s.cap; omega, by show s.pos ≤ s.lim; omega,
          by show s.lim ≤ s.cap; omega, by simp, Or.inl rfl, fun _ => ⟨rfl, rfl⟩,
          by show s.lim - s.pos < s.cap; omega⟩, rfl,
          Nat.le_refl _, ?_, fun h => absurd h hn, Or.inl rfl, fun _ => rfl⟩
        · simp only [copyOut, ne_eq, not_true_eq_false, if_false]
          rw [if_pos (by omega)]
          have : s.pos + (s.lim - s.pos) = s.lim := by omega
          rw [this]; rfl
        · exact ⟨fun _ => hn, fun _ => rfl⟩
    · -- some bytes arrive
      have hrl : 0 < s.rest.length := List.length_pos_iff.2 hr
      have hk : min (s.cap - s.lim) s.rest.length ≠ 0 := by omega
      simp only [bind, Except.bind]
      rw [if_neg hk]
      have htl : (s.rest.take (s.cap - s.lim)).length = min (s.cap - s.lim) s.rest.length := by
        simp [List.length_take]
      generalize hs1 : ({ s with rest := s.rest.drop (s.cap - s.lim),
                                 data := blit s.data s.lim (s.rest.take (s.cap - s.lim)),
                                 lim := s.lim + min (s.cap - s.lim) s.rest.length } : Rd) = s1
      have h1s : s1.data.length = s1.cap + 1 := by
        rw [← hs1]
        show (blit _ _ _).length = _
        rw [blit_length (by omega)]; exact hs
      have h1p : s1.pos = 0 := by rw [← hs1]; exact hp
      have h1c : s1.cap = s.cap := by rw [← hs1]
      have h1k : s1.keep = s.keep := by rw [← hs1]
      have h1last : s1.last = false := by rw [← hs1]; exact hlast
      have h1lim : s1.lim = s.lim + min (s.cap - s.lim) s.rest.length := by rw [← hs1]
      have h1l : s1.lim ≤ s1.cap := by omega
      have h1rest : s1.rest = s.rest.drop (s.cap - s.lim) := by rw [← hs1]
      have h1h : s1.held = s.held ++ s.rest.take (s.cap - s.lim) := by
        rw [← hs1]
        show slice (blit _ _ _) s.pos (s.lim + min (s.cap - s.lim) s.rest.length) = _
        rw [← htl, slice_blit_end (by omega) (by omega)]; rfl
      have h1r : s1.held ++ s1.rest = s.held ++ s.rest := by
        rw [h1h, List.append_assoc, h1rest, List.take_append_drop]
      have h1w : s1.rest = [] ∨ s1.lim = s1.cap := by
        by_cases h : s.rest.length ≤ s.cap - s.lim
        · left; rw [h1rest]; exact List.drop_of_length_le h
        · right; omega
      have h1rl : s1.rest.length < s.rest.length := by
        rw [h1rest, List.length_drop]; omega
      have hne : s.held ++ s.rest ≠ [] := by simp [hr]
      by_cases hm : (10 : UInt8) ∈ s1.held
      · obtain ⟨n, h1, h2, h3, h4, -⟩ := fromBuffer_some h1s (by omega) h1l hm
        refine ⟨fun h => absurd h hne, fun _ => ?_⟩
        have hmem : (10 : UInt8) ∈ s.held ++ s.rest := by
          rw [← h1r]; exact List.mem_append_left _ hm
        have hfl : firstLine (s.held ++ s.rest) = firstLine s1.held := by
          rw [← h1r, firstLine_append _ hm]
        have hal : afterLine (s.held ++ s.rest) = afterLine s1.held ++ s1.rest := by
          rw [← h1r, afterLine_append _ hm]
        rw [h1]
        refine ⟨_, _, rfl, ?_, ?_, h1k, Nat.le_of_eq h1c.symm, ?_, ?_, Or.inr h1rl, fun _ => h1c⟩
        · simp only [copyOut, ne_eq, not_true_eq_false, if_false]
          rw [if_pos (by omega), h2, hfl, h1k]
        · rw [hal]
          refine ⟨h1s, by show 0 < s1.cap; omega, by show _ ≤ s1.lim; omega, h1l, fun _ => ?_, ?_, ?_,
            by show s1.lim - (s1.pos + _ + 1) < s1.cap; omega⟩
          · show slice s1.data _ s1.lim ++ s1.rest = _
            unfold afterLine
            rw [show s1.held = slice s1.data s1.pos s1.lim from rfl, slice_drop]
            rfl
          · rcases h1w with h | h
            · exact Or.inl h
            · exact Or.inr (Or.inl h)
          · intro h
            have : s1.last = true := h
            rw [h1last] at this; cases this
        · constructor
          · intro h
            have : s1.last = true := h
            rw [h1last] at this; cases this
          · intro h; exact absurd hmem h
        · intro _
          refine ⟨?_, h1w⟩
          rw [hfl, firstLine_length hm]
          show s1.pos + _ + 1 = _
          omega
      · have h1 := fromBuffer_none h1s (by omega) h1l hm
        refine ⟨fun h => absurd h hne, fun _ => ?_⟩
        rw [h1]
        dsimp only
        have hpl : s1.pos ≠ s1.lim := by
          omega
        by_cases hg : s1.cap ≤ s1.lim + 1
        · rw [if_pos ⟨hpl, h1p, hg⟩]
          obtain ⟨g1, g2⟩ := grow_buf h1s (by omega) h1l
          have ih := (readLoop_spec f (grow s1) g1 h1p
            (by show s1.lim < 2 * s1.cap; omega) h1last
            (by rw [g2]; exact hm) (by show s1.rest.length < f; omega)).2
          have e : (grow s1).held ++ (grow s1).rest = s.held ++ s.rest := by
            rw [g2]; exact h1r
          rw [e] at ih
          obtain ⟨s', p, i1, i2, i3, i4, i5, i6, i7, i8, i9⟩ := ih hne
          refine ⟨s', p, i1, h1k ▸ i2, i3, i4.trans h1k, ?_, i6, i7, ?_, ?_⟩
          · have : (grow s1).cap = 2 * s1.cap := rfl
            omega
          · rcases i8 with h | h
            · exact Or.inl h
            · right
              have : (grow s1).rest.length = s1.rest.length := rfl
              omega
          · intro h
            exfalso
            -- the buffer holds at least `cap - 1` bytes without a newline
            have hle : s1.held.length ≤ (firstLine (s.held ++ s.rest)).length := by
              by_cases hm' : (10 : UInt8) ∈ s.held ++ s.rest
              · rw [firstLine_length hm', ← h1r]
                have : (upTo (s1.held ++ s1.rest)).length ≥ s1.held.length := by
                  have : ∀ (S T : Bytes), (10 : UInt8) ∉ S → (upTo (S ++ T)).length ≥ S.length := by
                    intro S
                    induction S with
                    | nil => intro T _; simp
                    | cons c cs ihc =>
                      intro T hS
                      have hc : c ≠ 10 := fun e => hS (by simp [e])
                      rw [List.cons_append, upTo_cons_ne _ hc]
                      have := ihc T (fun e => hS (List.mem_cons_of_mem _ e))
                      simpa using this
                  exact this _ _ hm
                omega
              · rw [firstLine_of_not_mem hm', ← h1r]; simp
            have : s1.held.length = s1.lim := by
              unfold Rd.held
              rw [slice_length (by omega), h1p]; omega
            omega
        · rw [if_neg (by simp [hg])]
          have ih := (readLoop_spec f s1 h1s h1p (by omega) h1last hm (by omega)).2
          rw [h1r] at ih
          obtain ⟨s', p, i1, i2, i3, i4, i5, i6, i7, i8, i9⟩ := ih hne
          refine ⟨s', p, i1, h1k ▸ i2, i3, i4.trans h1k, h1c ▸ i5, i6, i7, ?_, h1c ▸ i9⟩
          rcases i8 with h | h
          · exact Or.inl h
          · right; omega

theorem compact_spec {s : Rd} (hs : s.data.length = s.cap + 1) (hp : s.pos ≤ s.lim)
    (hc : s.lim ≤ s.cap) :
    (compact s).data.length = s.cap + 1 ∧ (compact s).pos = 0 ∧ (compact s).lim = s.lim - s.pos ∧
      (compact s).held = s.held ∧ (compact s).rest = s.rest ∧ (compact s).last = s.last ∧
      (compact s).keep = s.keep ∧ (compact s).cap = s.cap := by
  unfold compact
  by_cases h : 0 < s.pos
  · rw [if_pos h]
    have hl : (slice s.data s.pos s.lim).length = s.lim - s.pos := slice_length (by omega)
    refine ⟨?_, rfl, rfl, ?_, rfl, rfl, rfl, rfl⟩
    · dsimp only
      split
      · rw [blit_length (by omega)]; exact hs
      · exact hs
    · unfold Rd.held
      dsimp only
      by_cases hq : s.pos < s.lim
      · rw [if_pos hq]
        have := slice_blit_zero (d := s.data) (l := slice s.data s.pos s.lim) (by omega)
        rw [hl] at this
        exact this
      · rw [if_neg hq]
        have : s.lim - s.pos = 0 := by omega
        have e : s.pos = s.lim := by omega
        rw [this, e, slice_self, slice_self]
  · rw [if_neg h]
    exact ⟨hs, by omega, by omega, rfl, rfl, rfl, rfl, rfl⟩

/-- One call of `ReadLine` at the end of the file. -/
theorem readLine_end {s : Rd} (h : Buf s []) :
    ∃ s', readLine full s = .ok (s', false, none) ∧ s'.last = true ∧ Buf s' [] ∧
      s'.keep = s.keep ∧ (s.last = false ∨ s.pos = s.lim → s'.pos = s'.lim) := by
  unfold readLine
  cases hl : s.last with
  | true => exact ⟨s, by simp, hl, h, rfl, by simp⟩
  | false =>
    have hlive := h.live hl
    have hh : s.held = [] := (List.append_eq_nil_iff.1 hlive).1
    have hr : s.rest = [] := (List.append_eq_nil_iff.1 hlive).2
    have hpl : s.pos = s.lim := by
      have : s.held.length = s.lim - s.pos := slice_length (by have := h.size; have := h.lim; omega)
      rw [hh] at this
      have := h.le
      simp at *; omega
    have hn : (10 : UInt8) ∉ s.held := by rw [hh]; simp
    rw [if_neg (by simp), fromBuffer_none h.size h.le h.lim hn, if_neg (by simp [hpl])]
    simp only [bind, Except.bind]
    obtain ⟨c1, c2, c3, c4, c5, c6, c7, c8⟩ := compact_spec h.size h.le h.lim
    have hc := h.capPos
    obtain ⟨s', i1, i2, i3, i4, i5⟩ := (readLoop_spec (s.rest.length + 2) (compact s)
      (by rw [c8]; exact c1) c2 (by omega) (by rw [c6]; exact hl) (by rw [c4]; exact hn)
      (by rw [c5]; omega)).1 (by rw [c4, c5]; exact hlive)
    exact ⟨s', i1, i2, i4, i5.trans c7, fun _ => i3⟩

/-- One call of `ReadLine` before the end of the file, when the line does not end exactly at the
end of a buffer with more of the file to come. -/
theorem readLine_spec {s : Rd} {R : Bytes} (h : Buf s R) (hlast : s.last = false) (hR : R ≠ [])
    (hg : s.held = firstLine R → s.rest = []) :
    ∃ s' p, readLine full s = .ok (s', true, p) ∧
      copyOut s' p = .ok (outLine s.keep (firstLine R)) ∧ Buf s' (afterLine R) ∧
      s'.keep = s.keep ∧ s.cap ≤ s'.cap ∧
      (s'.last = true ↔ (10 : UInt8) ∉ R ∨ (10 : UInt8) ∈ s.held ∧ afterLine R = []) ∧
      ((10 : UInt8) ∈ R → s'.last = true → s'.pos = s'.lim) ∧
      (s.rest = [] → s'.rest = []) ∧
      ((10 : UInt8) ∈ s.held → s'.last = false →
        s'.lim = s.lim ∧ s'.pos = s.pos + (firstLine R).length ∧ s'.rest = s.rest) ∧
      ((10 : UInt8) ∉ s.held → (10 : UInt8) ∈ R →
        s'.pos = (firstLine R).length ∧ (s'.rest = [] ∨ s'.lim = s'.cap)) ∧
      ((firstLine R).length + 1 < s.cap → s'.cap = s.cap) := by
  have hlive := h.live hlast
  have hsz := h.size
  have hlm := h.lim
  have hle := h.le
  have hcp := h.capPos
  have hhl : s.held.length = s.lim - s.pos := slice_length (by omega)
  unfold readLine
  rw [if_neg (by simp [hlast])]
  by_cases hm : (10 : UInt8) ∈ s.held
  · obtain ⟨n, h1, h2, h3, h4, h5⟩ := fromBuffer_some h.size h.le h.lim hm
    have hfl : firstLine R = firstLine s.held := by rw [← hlive, firstLine_append _ hm]
    have hal : afterLine R = afterLine s.held ++ s.rest := by
      rw [← hlive, afterLine_append _ hm]
    have hmR : (10 : UInt8) ∈ R := by rw [← hlive]; exact List.mem_append_left _ hm
    have hfll := firstLine_length hm
    rw [h1]
    simp only [bind, Except.bind]
    unfold prefetch
    dsimp only
    by_cases hq : s.pos + (upTo s.held).length + 1 = s.lim
    · -- the line ends the buffer
      have hall : s.held = firstLine R := by
        rw [hfl]; unfold firstLine
        rw [List.take_of_length_le (by omega)]
      have hr : s.rest = [] := hg hall
      have hn : ¬ s.cap = n := by have := h.room; omega
      rw [if_pos hq, if_neg hn]
      simp only [bind, Except.bind]
      rw [sysRead_full _ 0 _ (by show 0 + (s.cap - n) ≤ s.data.length; omega)]
      have hz : ∀ m, min m (s.rest).length = 0 := by intro m; rw [hr]; simp
      have hb : ∀ m, blit s.data 0 (s.rest.take m) = s.data := by intro m; rw [hr]; simp [blit]
      simp only [hz, if_true, hb]
      have hafter : afterLine R = [] := by
        rw [hal, hr, List.append_nil]
        unfold afterLine
        exact List.drop_of_length_le (by omega)
      refine ⟨_, _, rfl, ?_, ?_, rfl, Nat.le_refl _, ?_, fun _ _ => rfl, ?_, ?_, ?_, fun _ => rfl⟩
      · simp only [copyOut, ne_eq, not_true_eq_false, if_false]
        rw [if_pos (by omega), h2, hfl]
      · rw [hafter]
        exact ⟨h.size, h.capPos, Nat.le_refl _, Nat.zero_le _, by simp,
          Or.inl (by show s.rest.drop _ = []; rw [hr]; simp),
          fun _ => ⟨rfl, by show s.rest.drop _ = []; rw [hr]; simp⟩, h.capPos⟩
      · exact ⟨fun _ => Or.inr ⟨hm, hafter⟩, fun _ => rfl⟩
      · intro _; show s.rest.drop _ = []; rw [hr]; simp
      · intro _ hx; cases hx
      · intro hx; exact absurd hm hx
    · rw [if_neg hq]
      have hafter : afterLine R ≠ [] := by
        rw [hal]
        intro e
        have := (List.append_eq_nil_iff.1 e).1
        unfold afterLine at this
        have := List.drop_eq_nil_iff.1 this
        omega
      refine ⟨_, _, rfl, ?_, ?_, rfl, Nat.le_refl _, ?_, ?_, fun hx => hx, ?_, ?_, fun _ => rfl⟩
      · simp only [copyOut, ne_eq, not_true_eq_false, if_false]
        rw [if_pos (by omega), h2, hfl]
      · rw [hal]
        refine ⟨h.size, h.capPos, h4, h.lim, fun _ => ?_, ?_, ?_,
          by show s.lim - (s.pos + _ + 1) < s.cap; omega⟩
        · show slice s.data _ s.lim ++ s.rest = _
          unfold afterLine
          rw [show s.held = slice s.data s.pos s.lim from rfl, slice_drop]
          rfl
        · rcases h.win with hw | hw | hw
          · exact Or.inl hw
          · exact Or.inr (Or.inl hw)
          · omega
        · intro hx
          have : s.last = true := hx
          rw [hlast] at this; cases this
      · constructor
        · intro hx
          have : s.last = true := hx
          rw [hlast] at this; cases this
        · rintro (hx | hx)
          · exact absurd hmR hx
          · exact absurd hx.2 hafter
      · intro _ hx
        have : s.last = true := hx
        rw [hlast] at this; cases this
      · intro _ _
        exact ⟨rfl, by show s.pos + _ + 1 = _; rw [hfl]; omega, rfl⟩
      · intro hx; exact absurd hm hx
  · rw [fromBuffer_none h.size h.le h.lim hm]
    simp only [bind, Except.bind]
    by_cases hgw : s.pos ≠ s.lim ∧ s.pos = 0 ∧ s.cap ≤ s.lim + 1
    · rw [if_pos hgw]
      obtain ⟨g1, g2⟩ := grow_buf h.size h.le h.lim
      have hcomp : compact (grow s) = grow s := by
        unfold compact
        rw [if_neg]
        show ¬ 0 < s.pos
        omega
      rw [hcomp]
      have e : (grow s).held ++ (grow s).rest = R := by rw [g2]; exact hlive
      have ih := (readLoop_spec ((grow s).rest.length + 2) (grow s) g1 hgw.2.1
        (by show s.lim < 2 * s.cap; omega) hlast (by rw [g2]; exact hm) (by omega)).2
      rw [e] at ih
      obtain ⟨s', p, i1, i2, i3, i4, i5, i6, i7, i8, i9⟩ := ih hR
      have hcap : (grow s).cap = 2 * s.cap := rfl
      refine ⟨s', p, i1, i2, i3, i4, by omega, ?_, ?_, ?_, fun hx => absurd hx hm, fun _ => i7, ?_⟩
      · rw [i6]
        exact ⟨Or.inl, fun hx => hx.elim id (fun hx => absurd hx.1 hm)⟩
      · intro hx hy; exact absurd hx (i6.1 hy)
      · intro hx
        rcases i8 with hy | hy
        · exact hy
        · have : (grow s).rest.length = 0 := by
            show s.rest.length = 0
            rw [hx]; rfl
          omega
      · intro hx
        exfalso
        have hle' : s.held.length ≤ (firstLine R).length := by
          by_cases hm' : (10 : UInt8) ∈ R
          · rw [firstLine_length hm', ← hlive]
            have : ∀ (S T : Bytes), (10 : UInt8) ∉ S → (upTo (S ++ T)).length ≥ S.length := by
              intro S
              induction S with
              | nil => intro T _; simp
              | cons c cs ihc =>
                intro T hS
                have hc : c ≠ 10 := fun e => hS (by simp [e])
                rw [List.cons_append, upTo_cons_ne _ hc]
                have := ihc T (fun e => hS (List.mem_cons_of_mem _ e))
                simpa using this
            have := this s.held s.rest hm
            omega
          · rw [firstLine_of_not_mem hm', ← hlive]; simp
        omega
    · rw [if_neg hgw]
      obtain ⟨c1, c2, c3, c4, c5, c6, c7, c8⟩ := compact_spec h.size h.le h.lim
      have e : (compact s).held ++ (compact s).rest = R := by rw [c4, c5]; exact hlive
      have ih := (readLoop_spec (s.rest.length + 2) (compact s)
        (by rw [c8]; exact c1) c2
        (by
          rw [c3, c8]
          by_cases h1 : s.pos = s.lim
          · omega
          · by_cases h2 : s.pos = 0
            · have : ¬ s.cap ≤ s.lim + 1 := fun hx => hgw ⟨h1, h2, hx⟩
              omega
            · omega)
        (by rw [c6]; exact hlast) (by rw [c4]; exact hm) (by rw [c5]; omega)).2
      rw [e, c7, c8, c5] at ih
      obtain ⟨s', p, i1, i2, i3, i4, i5, i6, i7, i8, i9⟩ := ih hR
      refine ⟨s', p, i1, i2, i3, i4, i5, ?_, ?_, ?_, fun hx => absurd hx hm, fun _ => i7, i9⟩
      · rw [i6]
        exact ⟨Or.inl, fun hx => hx.elim id (fun hx => absurd hx.1 hm)⟩
      · intro hx hy; exact absurd hx (i6.1 hy)
      · intro hx
        rcases i8 with hy | hy
        · exact hy
        · rw [hx] at hy; simp at hy

end Verif.FileIO
