import Mathlib.Tactic.Linarith
import Mathlib.Data.List.Infix
import Verif.Slice

/-!
# String search, split, join, replace, strip, affix tests and counting

The code for `bytes` (`src/runtime/container/string_helper.cc`, `string_view.cc`) and for `str`
(`unicode_helper.cc`, `unicode_view.cc`) is the same up to the character type, so it is modelled
once, over lists of an arbitrary character type with decidable equality.  Pointers into the data
are modelled as natural-number positions and `npos`/`nullptr` as `none`.
-/

namespace Verif.Strings

open Verif.Slice (sliceIndexCorrection)

variable {α : Type} [DecidableEq α]

/-! ## Searching -/

/-- `memchr` / `std::char_traits::find` over a block (C library). -/
def memchr (c : α) : List α → Option Nat
  | [] => none
  | x :: xs => if x = c then some 0 else (memchr c xs).map (· + 1)

theorem memchr_lt (c : α) (l : List α) (k : Nat) (h : memchr c l = some k) : k < l.length := by
  induction l generalizing k with
  | nil => simp [memchr] at h
  | cons x xs ih =>
    simp only [memchr] at h
    split at h
    · simp at h; simp [← h]
    · simp only [Option.map_eq_some_iff] at h
      obtain ⟨a, ha, rfl⟩ := h
      have := ih a ha
      simp; omega

/-- The `while` loop of `memmatch` (`string_view.cc:79-85`, `unicode_view.cc:47-53`):
`p` is the offset of `phaystack`, `hayend` the offset of `hayend`, `c` is `pneedle[0]`. -/
def memmatchLoop (hay needle : List α) (c : α) (hayend p : Nat) : Option Nat :=
  match h : memchr c ((hay.drop p).take (hayend - p)) with
  | none => none
  | some k =>
    if (hay.drop (p + k)).take needle.length = needle then some (p + k)
    else memmatchLoop hay needle c hayend (p + k + 1)
termination_by hayend - p
decreasing_by
  have := memchr_lt _ _ _ h
  simp only [List.length_take, List.length_drop] at this
  omega

/-- `string_view.cc:68-86`, `unicode_view.cc:36-55` `memmatch`. -/
def memmatch (hay needle : List α) : Option Nat :=
  match needle with
  | [] => some 0
  | c :: _ =>
    if hay.length < needle.length then none
    else memmatchLoop hay needle c (hay.length - needle.length + 1) 0

/-- `string_view.cc:119-127`, `unicode_view.cc:65-73` `find(view, pos)`. -/
def svFind (s needle : List α) (pos : Nat) : Option Nat :=
  if s.isEmpty ∨ pos > s.length then
    if s.isEmpty ∧ pos = 0 ∧ needle.isEmpty then some 0 else none
  else (memmatch (s.drop pos) needle).map (pos + ·)

/-- `string_view.cc:129-135`, `unicode_view.cc:75-81` `find(char, pos)`. -/
def svFindChar (s : List α) (c : α) (pos : Nat) : Option Nat :=
  if s.isEmpty ∨ pos ≥ s.length then none
  else (memchr c (s.drop pos)).map (pos + ·)

/-- `std::find_end(ptr, last, needle)` for random access iterators (C++ library): scan the
candidate start positions from the right. -/
def findEnd (s needle : List α) : Nat → Option Nat
  | 0 => if (s.drop 0).take needle.length = needle then some 0 else none
  | i + 1 => if (s.drop (i + 1)).take needle.length = needle then some (i + 1)
             else findEnd s needle i

/-- `string_view.cc:137-145`, `unicode_view.cc:83-91` `rfind(view, pos)`.  The range handed to
`std::find_end` is `[0, min(len - slen, pos) + slen)`, so its last candidate start is
`min(len - slen, pos)`. -/
def svRFind (s needle : List α) (pos : Nat) : Option Nat :=
  if s.length < needle.length then none
  else if needle.isEmpty then some (min s.length pos)
  else findEnd s needle (min (s.length - needle.length) pos)

/-- The loop of `rfind(char, pos)`, `string_view.cc:152-158`. -/
def rfindCharLoop (s : List α) (c : α) : Nat → Option Nat
  | 0 => if s[0]? = some c then some 0 else none
  | i + 1 => if s[i + 1]? = some c then some (i + 1) else rfindCharLoop s c i

/-- `string_view.cc:148-160`, `unicode_view.cc:94-106`. -/
def svRFindChar (s : List α) (c : α) (pos : Nat) : Option Nat :=
  if s.isEmpty then none else rfindCharLoop s c (min pos (s.length - 1))

/-- `string_helper.cc:94-96`, `unicode_helper.cc:99-101` `Contains`. -/
def contains (s needle : List α) : Bool := (svFind s needle 0).isSome

/-- `unicode_helper.cc:107-114` `PyFind`.  `start` is converted to `size_type`, so a negative
start becomes a position of at least 2^63, beyond any string. -/
def pyFind (s needle : List α) (start stop : Int) : Int :=
  let stop := sliceIndexCorrection stop s.length
  let pos := if start < 0 then none else svFind s needle start.toNat
  match pos with
  | none => -1
  | some p => if (p : Int) > stop ∨ (p + needle.length : Int) > stop then -1 else p

/-! ## Counting -/

/-- The loop of `Count` (`string_helper.cc:509-516`, `unicode_helper.cc:490-497`) with `fuel` iterations;
`none` means that it is still running.  After the first index correction `start`, `end` are
non-negative, so they are naturals. -/
def countLoop (s x : List α) (stop : Nat) : Nat → Nat → Option Nat
  | 0, _ => none
  | fuel + 1, start =>
    if start < stop then
      match svFind s x start with
      | none => some 0
      | some p =>
        if p > stop then some 0
        else (countLoop s x stop fuel (p + x.length)).map (· + 1)
    else some 0

/-- `string_helper.cc:503-518`, `unicode_helper.cc:484-499` `Count`. -/
def count (s x : List α) (start stop : Int) (fuel : Nat) : Option Nat :=
  countLoop s x (sliceIndexCorrection stop s.length).toNat fuel
    (sliceIndexCorrection start s.length).toNat

/-! ## Replace -/

/-- The value used for a negative `count`/`maxsplit`: `std::numeric_limits<int64_t>::max()`. -/
def unlimited : Nat := 9223372036854775807

/-- `if (count < 0) count = max`. -/
def limit (count : Int) : Nat := if count < 0 then unlimited else count.toNat

/-- The loop of `Replace` (`string_helper.cc:325-331`, `unicode_helper.cc:307-313`) followed by
the final append; the recursion is on the remaining `count`. -/
def replaceLoop (s old new : List α) : Nat → Nat → List α
  | 0, current => s.drop current
  | c + 1, current =>
    match svFind s old current with
    | none => s.drop current
    | some next =>
      (s.drop current).take (next - current) ++ new ++ replaceLoop s old new c (next + old.length)

/-- `string_helper.cc:313-333`, `unicode_helper.cc:295-315` `Replace`. -/
def replace (s old new : List α) (count : Int) : List α :=
  replaceLoop s old new (limit count) 0

/-! ## Split by a separator and join -/

/-- The separator loop of `Split` (`string_helper.cc:174-182`, `unicode_helper.cc:187-195`). -/
def splitLoop (s sep : List α) : Nat → Nat → List (List α)
  | 0, start => if start < s.length then [s.drop start] else []
  | n + 1, start =>
    if start < s.length then
      match svFind s sep start with
      | some stop =>
        (s.drop start).take (stop - start) :: splitLoop s sep n (stop + sep.length)
      | none => [s.drop start]
    else []

/-- `string_helper.cc:134-186`, `unicode_helper.cc:147-199` `Split` with a separator;
`none` is "ValueError: empty separator". -/
def splitSep (s sep : List α) (maxsplit : Int) : Option (List (List α)) :=
  if sep.isEmpty then none else some (splitLoop s sep (limit maxsplit) 0)

/-- Capacity computation of `Join` (`string_helper.cc:249-262`, `unicode_helper.cc:231-244`). -/
def joinCap (sep : List α) : List (List α) → Nat
  | [] => 0
  | p :: ps => ps.foldl (fun cap q => cap + sep.length + q.length) p.length

/-- Copy phase of `Join` (`string_helper.cc:264-280`, `unicode_helper.cc:246-262`): the characters
written to the buffer, in order. -/
def join (sep : List α) : List (List α) → List α
  | [] => []
  | p :: ps => ps.foldl (fun out q => out ++ sep ++ q) p

/-! ## Split on whitespace -/

/-- `while (p < end && isspace(*p)) ++p`. -/
def skipSpace (isSpace : α → Bool) (s : List α) (i : Nat) : Nat :=
  match h : s[i]? with
  | none => i
  | some c => if isSpace c then skipSpace isSpace s (i + 1) else i
termination_by s.length - i
decreasing_by
  have := (List.getElem?_eq_some_iff.mp h).1
  omega

omit [DecidableEq α] in
theorem skipSpace_ge (isSpace : α → Bool) (s : List α) (i : Nat) : i ≤ skipSpace isSpace s i := by
  fun_induction skipSpace isSpace s i <;> omega

/-- The main loop of the whitespace variant (`string_helper.cc:149-171`,
`unicode_helper.cc:162-184`) followed by the final append. -/
def wsLoop (isSpace : α → Bool) (s : List α) (last cur maxsplit : Nat) : List (List α) :=
  match h : s[cur]? with
  | some c =>
    if isSpace c then
      if 0 < maxsplit then
        (s.drop last).take (cur - last) ::
          wsLoop isSpace s (skipSpace isSpace s (cur + 1)) (skipSpace isSpace s (cur + 1) + 1)
            (maxsplit - 1)
      else [s.drop last]
    else wsLoop isSpace s last (cur + 1) maxsplit
  | none => if last < s.length then [s.drop last] else []
termination_by s.length - cur
decreasing_by
  · have := (List.getElem?_eq_some_iff.mp h).1
    have := skipSpace_ge isSpace s (cur + 1)
    omega
  · have := (List.getElem?_eq_some_iff.mp h).1
    omega

/-- `string_helper.cc:134-172`, `unicode_helper.cc:147-185` `Split` without separator. -/
def splitWs (isSpace : α → Bool) (s : List α) (maxsplit : Int) : List (List α) :=
  let last := skipSpace isSpace s 0
  wsLoop isSpace s last (last + 1) (limit maxsplit)

/-! ## Strip -/

/-- The character test of strip: `isspace` when `chars` is absent, else `chars.find(c) != npos`
(`string_helper.cc:426-436`). -/
def stripTest (isSpace : α → Bool) (chars : Option (List α)) (c : α) : Bool :=
  match chars with
  | none => isSpace c
  | some cs => (svFindChar cs c 0).isSome

/-- The left loop: same shape as `skipSpace` with an arbitrary test. -/
abbrev stripLeft (p : α → Bool) (s : List α) (i : Nat) : Nat := skipSpace p s i

/-- `string_helper.cc:423-445`, `unicode_helper.cc:404-426` `LStrip`. -/
def lstrip (isSpace : α → Bool) (s : List α) (chars : Option (List α)) : List α :=
  let d := stripLeft (stripTest isSpace chars) s 0
  if d < s.length then s.drop d else []

/-- Right loop of `RStrip`: `while (data >= begin && test(*data)) --data`; the argument is
`data - begin + 1`, the number of characters kept. -/
def stripRight (p : α → Bool) (s : List α) : Nat → Nat
  | 0 => 0
  | n + 1 =>
    match s[n]? with
    | some c => if p c then stripRight p s n else n + 1
    | none => n + 1

/-- `string_helper.cc:447-469`, `unicode_helper.cc:428-450` `RStrip`. -/
def rstrip (isSpace : α → Bool) (s : List α) (chars : Option (List α)) : List α :=
  s.take (stripRight (stripTest isSpace chars) s s.length)

/-- Right loop of `Strip`: `while (right > left && test(*right)) --right`; the argument is
`right - left`. -/
def stripRightTo (p : α → Bool) (s : List α) (left : Nat) : Nat → Nat
  | 0 => 0
  | n + 1 =>
    match s[left + n + 1]? with
    | some c => if p c then stripRightTo p s left n else n + 1
    | none => n + 1

/-- `string_helper.cc:471-501`, `unicode_helper.cc:452-482` `Strip`.  `right = len - 1` initially;
when `left` has reached the end, `right < left` and the result is empty. -/
def strip (isSpace : α → Bool) (s : List α) (chars : Option (List α)) : List α :=
  let p := stripTest isSpace chars
  let left := stripLeft p s 0
  if left < s.length then
    (s.drop left).take (stripRightTo p s left (s.length - 1 - left) + 1)
  else []

/-! ## Affixes -/

/-- `string_helper.cc:379-389`, `unicode_helper.cc:359-373` `StartsWith`. -/
def startsWith (s prefix_ : List α) (start stop : Int) : Bool :=
  let len : Int := s.length
  let start := sliceIndexCorrection start len
  let stop := sliceIndexCorrection stop len
  if stop - start < prefix_.length ∨ start ≥ len then false
  else decide (prefix_ = (s.drop start.toNat).take prefix_.length)

/-- `string_helper.cc:335-346`, `unicode_helper.cc:317-328` `EndsWith`. -/
def endsWith (s suffix : List α) (start stop : Int) : Bool :=
  let len : Int := s.length
  let start := sliceIndexCorrection start len
  let stop := sliceIndexCorrection stop len
  if stop - start < suffix.length ∨ start ≥ len then false
  else decide (suffix = (s.drop (stop - suffix.length).toNat).take suffix.length)

/-- `string_helper.cc:391-403` the tuple overload of `StartsWith`. -/
def startsWithAny (s : List α) (prefixes : List (List α)) (start stop : Int) : Bool :=
  match prefixes with
  | [] => false
  | p :: ps => if startsWith s p start stop then true else startsWithAny s ps start stop

/-- `string_helper.cc:60-72`, `unicode_helper.cc:65-77` `Repeat`: the copy loop. -/
def repeatLoop (s : List α) : Nat → List α
  | 0 => []
  | n + 1 => s ++ repeatLoop s n

/-- `string_helper.cc:60-72`: result size and contents. -/
def repeat_ (s : List α) (times : Int) : Nat × List α :=
  let t := (if times < 0 then 0 else times).toNat
  (t * s.length, repeatLoop s t)

/-! ## Lemmas: search -/

/-- Specification: `needle` occurs in `s` at position `i`. -/
def OccursAt (needle s : List α) (i : Nat) : Prop := i ≤ s.length ∧ needle <+: s.drop i

instance (needle s : List α) (i : Nat) : Decidable (OccursAt needle s i) := by
  unfold OccursAt; infer_instance

omit [DecidableEq α] in
theorem take_eq_iff_prefix (needle l : List α) : l.take needle.length = needle ↔ needle <+: l := by
  rw [List.prefix_iff_eq_take]; exact eq_comm

omit [DecidableEq α] in
theorem OccursAt.le (needle s : List α) (i : Nat) (h : OccursAt needle s i) :
    i + needle.length ≤ s.length := by
  have := h.2.length_le
  rw [List.length_drop] at this
  have := h.1
  omega

theorem memchr_spec (c : α) (l : List α) :
    (∀ k, memchr c l = some k → l[k]? = some c ∧ ∀ j < k, l[j]? ≠ some c) ∧
    (memchr c l = none → ∀ j : Nat, l[j]? ≠ some c) := by
  induction l with
  | nil => simp [memchr]
  | cons x xs ih =>
    simp only [memchr]
    split
    · rename_i h
      constructor
      · intro k hk
        simp at hk; subst hk
        simp [h]
      · simp
    · rename_i h
      constructor
      · intro k hk
        rw [Option.map_eq_some_iff] at hk
        obtain ⟨a, ha, rfl⟩ := hk
        have := ih.1 a ha
        refine ⟨by simpa using this.1, ?_⟩
        intro j hj
        cases j with
        | zero => simpa using h
        | succ j => simpa using this.2 j (by omega)
      · intro hk j
        simp at hk
        cases j with
        | zero => simpa using h
        | succ j => simpa using ih.2 hk j

theorem memchr_isSome (c : α) (l : List α) : (memchr c l).isSome = true ↔ c ∈ l := by
  cases h : memchr c l with
  | none =>
    have := (memchr_spec c l).2 h
    simp only [Option.isSome_none, Bool.false_eq_true, false_iff]
    intro hm
    obtain ⟨j, hj⟩ := List.mem_iff_getElem?.mp hm
    exact this j hj
  | some k =>
    have := ((memchr_spec c l).1 k h).1
    simp only [Option.isSome_some, true_iff]
    exact List.mem_iff_getElem?.mpr ⟨k, this⟩

omit [DecidableEq α] in
theorem occursAt_head {c : α} {cs s : List α} {i : Nat} (h : OccursAt (c :: cs) s i) :
    s[i]? = some c := by
  obtain ⟨t, ht⟩ := h.2
  have : (s.drop i)[0]? = some c := by rw [← ht]; simp
  simpa using this

theorem memmatchLoop_spec (hay : List α) (c : α) (cs : List α) (hayend p : Nat)
    (hend : hayend = hay.length - (c :: cs).length + 1) (hlen : (c :: cs).length ≤ hay.length) :
    (∀ i, memmatchLoop hay (c :: cs) c hayend p = some i →
      p ≤ i ∧ OccursAt (c :: cs) hay i ∧ ∀ j, p ≤ j → j < i → ¬ OccursAt (c :: cs) hay j) ∧
    (memmatchLoop hay (c :: cs) c hayend p = none →
      ∀ j, p ≤ j → ¬ OccursAt (c :: cs) hay j) := by
  fun_induction memmatchLoop hay (c :: cs) c hayend p with
  | case1 p hm =>
    constructor
    · simp
    · intro _ j hj ho
      have hle := ho.le
      have := (memchr_spec c _).2 hm (j - p)
      apply this
      rw [List.getElem?_take_of_lt (by omega), List.getElem?_drop, show p + (j - p) = j by omega]
      exact occursAt_head ho
  | case2 p k hm heq =>
    have hk := memchr_lt _ _ _ hm
    simp only [List.length_take, List.length_drop] at hk
    constructor
    · intro i hi
      simp at hi; subst hi
      refine ⟨by omega, ⟨by omega, (take_eq_iff_prefix _ _).mp heq⟩, ?_⟩
      intro j h1 h2 ho
      have := ((memchr_spec c _).1 k hm).2 (j - p) (by omega)
      apply this
      rw [List.getElem?_take_of_lt (by omega), List.getElem?_drop, show p + (j - p) = j by omega]
      exact occursAt_head ho
    · simp
  | case3 p k hm hne ih =>
    have hno : ∀ j, p ≤ j → j < p + k + 1 → ¬ OccursAt (c :: cs) hay j := by
      intro j h1 h2 ho
      by_cases hj : j = p + k
      · subst hj
        exact hne ((take_eq_iff_prefix _ _).mpr ho.2)
      · have hk := memchr_lt _ _ _ hm
        simp only [List.length_take, List.length_drop] at hk
        have := ((memchr_spec c _).1 k hm).2 (j - p) (by omega)
        apply this
        rw [List.getElem?_take_of_lt (by omega), List.getElem?_drop, show p + (j - p) = j by omega]
        exact occursAt_head ho
    constructor
    · intro i hi
      obtain ⟨h1, h2, h3⟩ := ih.1 i hi
      refine ⟨by omega, h2, ?_⟩
      intro j hj1 hj2
      by_cases hjj : j < p + k + 1
      · exact hno j hj1 hjj
      · exact h3 j (by omega) hj2
    · intro hn j hj
      by_cases hjj : j < p + k + 1
      · exact hno j hj hjj
      · exact ih.2 hn j (by omega)

theorem memmatch_spec (hay needle : List α) :
    (∀ i, memmatch hay needle = some i →
      OccursAt needle hay i ∧ ∀ j < i, ¬ OccursAt needle hay j) ∧
    (memmatch hay needle = none → ∀ j, ¬ OccursAt needle hay j) := by
  cases needle with
  | nil =>
    simp only [memmatch]
    constructor
    · intro i hi
      simp at hi; subst hi
      exact ⟨⟨by omega, List.nil_prefix⟩, by omega⟩
    · simp
  | cons c cs =>
    simp only [memmatch]
    split
    · rename_i h
      refine ⟨by simp, ?_⟩
      intro _ j ho
      have := ho.le
      omega
    · rename_i h
      have := memmatchLoop_spec hay c cs _ 0 rfl (by omega)
      refine ⟨fun i hi => ?_, fun hn j => this.2 hn j (by omega)⟩
      obtain ⟨_, h2, h3⟩ := this.1 i hi
      exact ⟨h2, fun j hj => h3 j (by omega) hj⟩

omit [DecidableEq α] in
theorem occursAt_drop (needle s : List α) (pos i : Nat) (hp : pos ≤ s.length) :
    OccursAt needle (s.drop pos) i ↔ OccursAt needle s (pos + i) := by
  unfold OccursAt
  rw [List.length_drop, List.drop_drop]
  constructor
  · rintro ⟨h1, h2⟩; exact ⟨by omega, h2⟩
  · rintro ⟨h1, h2⟩; exact ⟨by omega, h2⟩

/-- Both directions of the search specification in one statement. -/
theorem svFind_spec (s needle : List α) (pos : Nat) :
    (∀ i, svFind s needle pos = some i →
      pos ≤ i ∧ OccursAt needle s i ∧ ∀ j, pos ≤ j → j < i → ¬ OccursAt needle s j) ∧
    (svFind s needle pos = none → ∀ j, pos ≤ j → ¬ OccursAt needle s j) := by
  unfold svFind
  split
  · rename_i h
    split
    · rename_i h2
      obtain ⟨h2, rfl, h3⟩ := h2
      simp at h2 h3
      subst h2 h3
      constructor
      · intro i hi
        simp at hi; subst hi
        exact ⟨by omega, ⟨by simp, by simp⟩, by omega⟩
      · simp
    · rename_i h2
      refine ⟨by simp, ?_⟩
      intro _ j hj ho
      have hle := ho.le
      apply h2
      rcases h with h | h
      · refine ⟨h, ?_, ?_⟩
        · simp at h; subst h; simp at hle; omega
        · simp at h; subst h; simp at hle; simp [hle.2]
      · omega
  · rename_i h
    have hp : pos ≤ s.length := by omega
    have hm := memmatch_spec (s.drop pos) needle
    constructor
    · intro i hi
      rw [Option.map_eq_some_iff] at hi
      obtain ⟨k, hk, rfl⟩ := hi
      obtain ⟨h1, h2⟩ := hm.1 k hk
      refine ⟨by omega, (occursAt_drop _ _ _ _ hp).mp h1, ?_⟩
      intro j hj1 hj2 ho
      apply h2 (j - pos) (by omega)
      rw [occursAt_drop _ _ _ _ hp, show pos + (j - pos) = j by omega]
      exact ho
    · intro hn j hj ho
      simp at hn
      apply hm.2 hn (j - pos)
      rw [occursAt_drop _ _ _ _ hp, show pos + (j - pos) = j by omega]
      exact ho

theorem svFindChar_isSome (s : List α) (c : α) : (svFindChar s c 0).isSome = true ↔ c ∈ s := by
  unfold svFindChar
  cases s with
  | nil => simp
  | cons x xs =>
    simp only [List.isEmpty_cons, List.length_cons, Bool.false_eq_true, false_or]
    rw [if_neg (by omega), Option.isSome_map, List.drop_zero]
    exact memchr_isSome c _

theorem findEnd_spec (s needle : List α) (n : Nat) (hn : n ≤ s.length) :
    (∀ i, findEnd s needle n = some i →
      i ≤ n ∧ OccursAt needle s i ∧ ∀ j, i < j → j ≤ n → ¬ OccursAt needle s j) ∧
    (findEnd s needle n = none → ∀ j ≤ n, ¬ OccursAt needle s j) := by
  induction n with
  | zero =>
    simp only [findEnd]
    split
    · rename_i h
      rw [take_eq_iff_prefix] at h
      refine ⟨?_, by simp⟩
      intro i hi
      simp at hi; subst hi
      exact ⟨by omega, ⟨by omega, h⟩, by omega⟩
    · rename_i h
      rw [take_eq_iff_prefix] at h
      refine ⟨by simp, ?_⟩
      intro _ j hj ho
      obtain rfl : j = 0 := by omega
      exact h ho.2
  | succ n ih =>
    simp only [findEnd]
    split
    · rename_i h
      rw [take_eq_iff_prefix] at h
      refine ⟨?_, by simp⟩
      intro i hi
      simp at hi; subst hi
      exact ⟨by omega, ⟨by omega, h⟩, by omega⟩
    · rename_i h
      rw [take_eq_iff_prefix] at h
      have := ih (by omega)
      refine ⟨?_, ?_⟩
      · intro i hi
        obtain ⟨h1, h2, h3⟩ := this.1 i hi
        refine ⟨by omega, h2, ?_⟩
        intro j hj1 hj2
        by_cases hj : j = n + 1
        · subst hj; exact fun ho => h ho.2
        · exact h3 j hj1 (by omega)
      · intro hn' j hj
        by_cases hj' : j = n + 1
        · subst hj'; exact fun ho => h ho.2
        · exact this.2 hn' j (by omega)

/-! ## Lemmas: whitespace and strip loops -/

omit [DecidableEq α] in
theorem skipSpace_spec (p : α → Bool) (s : List α) (i : Nat) (hi : i ≤ s.length) :
    i ≤ skipSpace p s i ∧ skipSpace p s i ≤ s.length ∧
    (∀ c ∈ (s.drop i).take (skipSpace p s i - i), p c = true) ∧
    (∀ c, s[skipSpace p s i]? = some c → p c = false) := by
  fun_induction skipSpace p s i with
  | case1 i h => refine ⟨by omega, hi, by simp, by simp [h]⟩
  | case2 i c h hp ih =>
    have hlt := (List.getElem?_eq_some_iff.mp h).1
    obtain ⟨h1, h2, h3, h4⟩ := ih (by omega)
    refine ⟨by omega, h2, ?_, h4⟩
    intro d hd
    rw [List.drop_eq_getElem_cons hlt, show skipSpace p s (i + 1) - i =
      (skipSpace p s (i + 1) - (i + 1)) + 1 by omega, List.take_succ_cons] at hd
    rcases List.mem_cons.mp hd with rfl | hd
    · rw [List.getElem?_eq_getElem hlt] at h
      simp at h; rw [h]; exact hp
    · exact h3 d hd
  | case3 i c h hp =>
    refine ⟨by omega, hi, by simp, ?_⟩
    intro d hd
    rw [h] at hd
    simp at hd; subst hd
    simpa using hp

end Verif.Strings
