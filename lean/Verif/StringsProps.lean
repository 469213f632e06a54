import Verif.Strings

/-! # C13-C19: string search, count, replace, split/join, strip, affixes, whitespace split

Specifications are relations on plain lists (`OccursAt`, `Replaced`, `IsSplit`, `WsSplit`, ...)
that mention neither positions variables of the code nor its loops. -/

namespace Verif.Strings

open Verif.Slice (sliceIndexCorrection pyClamp)

variable {α : Type} [DecidableEq α]

/-! ## C13 find / rfind -/

/-- C13.  `find(needle, pos)` returns the least occurrence at or after `pos`, and reports absence
exactly when there is none — for every haystack, needle (also empty) and position. -/
theorem find_correct (s needle : List α) (pos : Nat) :
    (∀ i, svFind s needle pos = some i ↔
      (pos ≤ i ∧ OccursAt needle s i ∧ ∀ j, pos ≤ j → j < i → ¬ OccursAt needle s j)) ∧
    (svFind s needle pos = none ↔ ∀ j, pos ≤ j → ¬ OccursAt needle s j) := by
  have h := svFind_spec s needle pos
  constructor
  · intro i
    refine ⟨h.1 i, ?_⟩
    rintro ⟨h1, h2, h3⟩
    cases hf : svFind s needle pos with
    | none => exact absurd h2 (h.2 hf i h1)
    | some k =>
      obtain ⟨k1, k2, k3⟩ := h.1 k hf
      congr 1
      by_contra hne
      rcases Nat.lt_or_gt_of_ne hne with hlt | hlt
      · exact h3 k k1 hlt k2
      · exact k3 i h1 hlt h2
  · refine ⟨h.2, ?_⟩
    intro hn
    cases hf : svFind s needle pos with
    | none => rfl
    | some k => exact absurd (h.1 k hf).2.1 (hn k (h.1 k hf).1)

/-- C13.  `rfind(needle, pos)` returns the greatest occurrence at or before `pos`. -/
theorem rfind_correct (s needle : List α) (pos : Nat) :
    (∀ i, svRFind s needle pos = some i →
      i ≤ pos ∧ OccursAt needle s i ∧ ∀ j, i < j → j ≤ pos → ¬ OccursAt needle s j) ∧
    (svRFind s needle pos = none → ∀ j ≤ pos, ¬ OccursAt needle s j) := by
  unfold svRFind
  split
  · rename_i h
    refine ⟨by simp, ?_⟩
    intro _ j _ ho
    have := ho.le; omega
  · rename_i h
    split
    · rename_i he
      simp at he; subst he
      refine ⟨?_, by simp⟩
      intro i hi
      simp at hi; subst hi
      refine ⟨by omega, ⟨by omega, List.nil_prefix⟩, ?_⟩
      intro j h1 h2 ho
      have := ho.1
      omega
    · have hs := findEnd_spec s needle (min (s.length - needle.length) pos) (by omega)
      constructor
      · intro i hi
        obtain ⟨h1, h2, h3⟩ := hs.1 i hi
        refine ⟨by omega, h2, ?_⟩
        intro j hj1 hj2 ho
        have := ho.le
        exact h3 j hj1 (by omega) ho
      · intro hn j hj ho
        have := ho.le
        exact hs.2 hn j (by omega) ho

/-- C13.  Single character `find`. -/
theorem findChar_correct (s : List α) (c : α) (pos : Nat) :
    (∀ i, svFindChar s c pos = some i →
      pos ≤ i ∧ s[i]? = some c ∧ ∀ j, pos ≤ j → j < i → s[j]? ≠ some c) ∧
    (svFindChar s c pos = none → ∀ j, pos ≤ j → s[j]? ≠ some c) := by
  unfold svFindChar
  split
  · rename_i h
    refine ⟨by simp, ?_⟩
    intro _ j hj hs
    have := (List.getElem?_eq_some_iff.mp hs).1
    rcases h with h | h
    · simp at h; subst h; simp at this
    · omega
  · have hm := memchr_spec c (s.drop pos)
    constructor
    · intro i hi
      rw [Option.map_eq_some_iff] at hi
      obtain ⟨k, hk, rfl⟩ := hi
      obtain ⟨h1, h2⟩ := hm.1 k hk
      rw [List.getElem?_drop] at h1
      refine ⟨by omega, h1, ?_⟩
      intro j hj1 hj2
      have := h2 (j - pos) (by omega)
      rwa [List.getElem?_drop, show pos + (j - pos) = j by omega] at this
    · intro hn j hj
      simp at hn
      have := hm.2 hn (j - pos)
      rwa [List.getElem?_drop, show pos + (j - pos) = j by omega] at this

/-- C13.  Single character `rfind`. -/
theorem rfindChar_correct (s : List α) (c : α) (pos : Nat) :
    (∀ i, svRFindChar s c pos = some i →
      i ≤ pos ∧ s[i]? = some c ∧ ∀ j, i < j → j ≤ pos → s[j]? ≠ some c) ∧
    (svRFindChar s c pos = none → ∀ j ≤ pos, s[j]? ≠ some c) := by
  have hloop : ∀ n, (∀ i, rfindCharLoop s c n = some i →
      i ≤ n ∧ s[i]? = some c ∧ ∀ j, i < j → j ≤ n → s[j]? ≠ some c) ∧
      (rfindCharLoop s c n = none → ∀ j ≤ n, s[j]? ≠ some c) := by
    intro n
    induction n with
    | zero =>
      simp only [rfindCharLoop]
      split
      · rename_i h
        refine ⟨?_, by simp⟩
        intro i hi; simp at hi; subst hi
        exact ⟨by omega, h, by omega⟩
      · rename_i h
        refine ⟨by simp, ?_⟩
        intro _ j hj
        obtain rfl : j = 0 := by omega
        exact h
    | succ n ih =>
      simp only [rfindCharLoop]
      split
      · rename_i h
        refine ⟨?_, by simp⟩
        intro i hi; simp at hi; subst hi
        exact ⟨by omega, h, by omega⟩
      · rename_i h
        refine ⟨?_, ?_⟩
        · intro i hi
          obtain ⟨h1, h2, h3⟩ := ih.1 i hi
          refine ⟨by omega, h2, ?_⟩
          intro j hj1 hj2
          by_cases hj : j = n + 1
          · subst hj; exact h
          · exact h3 j hj1 (by omega)
        · intro hn j hj
          by_cases hj' : j = n + 1
          · subst hj'; exact h
          · exact ih.2 hn j (by omega)
  unfold svRFindChar
  split
  · rename_i h
    refine ⟨by simp, ?_⟩
    intro _ j _ hs
    simp at h; subst h; simp at hs
  · have hs := hloop (min pos (s.length - 1))
    constructor
    · intro i hi
      obtain ⟨h1, h2, h3⟩ := hs.1 i hi
      refine ⟨by omega, h2, ?_⟩
      intro j hj1 hj2 hc
      have := (List.getElem?_eq_some_iff.mp hc).1
      exact h3 j hj1 (by omega) hc
    · intro hn j hj hc
      have := (List.getElem?_eq_some_iff.mp hc).1
      exact hs.2 hn j (by omega) hc

/-- C13.  `needle in s` is the substring relation. -/
theorem contains_correct (s needle : List α) : contains s needle = true ↔ needle <:+: s := by
  unfold contains
  have h := svFind_spec s needle 0
  constructor
  · intro hc
    obtain ⟨i, hi⟩ := Option.isSome_iff_exists.mp hc
    exact (h.1 i hi).2.1.2.isInfix.trans (List.drop_suffix _ _).isInfix
  · rintro ⟨a, b, hab⟩
    by_contra hc
    simp only [Bool.not_eq_true, Option.isSome_eq_false_iff, Option.isNone_iff_eq_none] at hc
    apply h.2 hc a.length (by omega)
    refine ⟨by rw [← hab]; simp, ?_⟩
    rw [← hab, List.append_assoc, List.drop_left]
    exact List.prefix_append _ _

/-- Python's `find(needle, start, end)`: least occurrence lying inside the clamped range, else -1. -/
def PyFindSpec (s needle : List α) (start stop : Int) (r : Int) : Prop :=
  (∃ i : Nat, r = i ∧ OccursAt needle s i ∧
      (if start < 0 then max 0 (start + s.length) else start) ≤ i ∧
      (i : Int) + needle.length ≤ pyClamp stop s.length ∧
      ∀ j : Nat, j < i → OccursAt needle s j →
        ¬ (if start < 0 then max 0 (start + s.length) else start) ≤ (j : Int)) ∨
  (r = -1 ∧ ∀ i : Nat, OccursAt needle s i →
      (if start < 0 then max 0 (start + s.length) else start) ≤ (i : Int) →
      ¬ (i : Int) + needle.length ≤ pyClamp stop s.length)

/-- C13 for `str.find(needle, start, end)` with `start ≥ 0` (any `end`, also negative).  Missing:
negative `start`, see `pyFind_refuted`. -/
theorem pyFind_correct_partial (s needle : List α) (start stop : Int) (h : 0 ≤ start) :
    PyFindSpec s needle start stop (pyFind s needle start stop) := by
  have hc := Verif.Slice.clamp_range stop s.length
  unfold pyFind PyFindSpec
  simp only [Verif.Slice.sliceIndexCorrection_eq]
  rw [if_neg (by omega), if_neg (by omega)]
  have hf := svFind_spec s needle start.toNat
  cases hp : svFind s needle start.toNat with
  | none =>
    right
    refine ⟨rfl, ?_⟩
    intro i ho hi
    exact absurd ho (hf.2 hp i (by omega))
  | some p =>
    obtain ⟨h1, h2, h3⟩ := hf.1 p hp
    simp only
    by_cases hout : (p : Int) > pyClamp stop s.length ∨
        (p + needle.length : Int) > pyClamp stop s.length
    · rw [if_pos hout]
      right
      refine ⟨rfl, ?_⟩
      intro i ho hi
      have : p ≤ i := by
        by_contra hlt
        exact h3 i (by omega) (by omega) ho
      omega
    · rw [if_neg hout]
      left
      refine ⟨p, rfl, h2, by omega, by omega, ?_⟩
      intro j hj ho hle
      exact h3 j (by omega) hj ho

/-- FINDING (C13 refuted for negative start): `"abc".find("c", -1)` is 2 in Python; here -1. -/
theorem pyFind_refuted :
    pyFind "abc".toList "c".toList (-1) 3 = -1 ∧
    ¬ PyFindSpec "abc".toList "c".toList (-1) 3 (-1) ∧
    PyFindSpec "abc".toList "c".toList (-1) 3 2 := by
  refine ⟨by decide, ?_, ?_⟩
  · rintro (⟨i, h, _⟩ | ⟨_, h⟩)
    · omega
    · exact h 2 (by decide) (by decide) (by decide)
  · left
    refine ⟨2, rfl, by decide, by decide, by decide, ?_⟩
    intro j hj _
    have : (j : Int) < 2 := by omega
    simp; omega

/-! ## C14 count -/

/-- A list of positions of non-overlapping occurrences of `x` inside `[lo, hi)` of `s`. -/
def NonOverlapping (s x : List α) (hi : Nat) : Nat → List Nat → Prop
  | _, [] => True
  | lo, p :: ps => lo ≤ p ∧ p + x.length ≤ hi ∧ OccursAt x s p ∧
      NonOverlapping s x hi (p + x.length) ps

omit [DecidableEq α] in
theorem NonOverlapping.mono {s x : List α} {hi lo lo' : Nat} {ps : List Nat}
    (h : NonOverlapping s x hi lo ps) (hle : lo' ≤ lo) : NonOverlapping s x hi lo' ps := by
  cases ps with
  | nil => trivial
  | cons p ps => exact ⟨by have := h.1; omega, h.2⟩

/-- The count loop terminates and computes the maximum number of non-overlapping occurrences,
provided no occurrence starts inside the range and runs over its end. -/
theorem countLoop_correct (s x : List α) (hx : x ≠ []) (stop : Nat)
    (hstop : ∀ p, p ≤ stop → OccursAt x s p → p + x.length ≤ stop) (fuel start : Nat)
    (hfuel : stop - start < fuel) :
    ∃ n, countLoop s x stop fuel start = some n ∧
      (∃ ps, ps.length = n ∧ NonOverlapping s x stop start ps) ∧
      (∀ ps, NonOverlapping s x stop start ps → ps.length ≤ n) := by
  have hxl : 0 < x.length := List.length_pos_iff.mpr hx
  have hnone : ∀ lo, (∀ p, lo ≤ p → p ≤ stop → ¬ OccursAt x s p) →
      ∀ ps, NonOverlapping s x stop lo ps → ps.length ≤ 0 := by
    intro lo hlo ps hps
    cases ps with
    | nil => simp
    | cons p ps => exact absurd hps.2.2.1 (hlo p hps.1 (by have := hps.2.1; omega))
  induction fuel generalizing start with
  | zero => omega
  | succ fuel ih =>
    simp only [countLoop]
    by_cases hlt : start < stop
    · rw [if_pos hlt]
      have hf := svFind_spec s x start
      cases hp : svFind s x start with
      | none =>
        refine ⟨0, rfl, ⟨[], rfl, trivial⟩, ?_⟩
        exact hnone start fun p h1 _ => hf.2 hp p h1
      | some p =>
        obtain ⟨h1, h2, h3⟩ := hf.1 p hp
        simp only
        by_cases hgt : p > stop
        · rw [if_pos hgt]
          refine ⟨0, rfl, ⟨[], rfl, trivial⟩, ?_⟩
          exact hnone start fun q hq1 hq2 => h3 q hq1 (by omega)
        · rw [if_neg hgt]
          have hle := hstop p (by omega) h2
          obtain ⟨n, hn, ⟨ps, hps1, hps2⟩, hmax⟩ := ih (p + x.length) (by omega)
          rw [hn]
          refine ⟨n + 1, rfl, ⟨p :: ps, by simp [hps1], h1, hle, h2, hps2⟩, ?_⟩
          intro qs hqs
          cases qs with
          | nil => simp
          | cons q qs =>
            have hpq : p ≤ q := by
              by_contra hc
              exact h3 q hqs.1 (by omega) hqs.2.2.1
            have := hmax qs (hqs.2.2.2.mono (by omega))
            simp; omega
    · rw [if_neg hlt]
      refine ⟨0, rfl, ⟨[], rfl, trivial⟩, ?_⟩
      apply hnone start
      intro p h1 h2 ho
      have := hstop p h2 ho
      omega

/-- C14.  `s.count(x, start, end)` for a non-empty `x` terminates and is the largest number of
non-overlapping occurrences of `x` inside the range, whenever `end` is at or past the end of `s`
(the default), or more generally no occurrence begins inside the range and runs over its end.
Missing: ranges cutting an occurrence and the empty `x`, see `count_refuted_end`,
`count_refuted_empty`. -/
theorem count_correct_partial (s x : List α) (hx : x ≠ []) (start stop : Int)
    (hstop : ∀ p : Nat, (p : Int) ≤ pyClamp stop s.length → OccursAt x s p →
      (p : Int) + x.length ≤ pyClamp stop s.length) (fuel : Nat) (hfuel : s.length < fuel) :
    ∃ n, count s x start stop fuel = some n ∧
      (∃ ps, ps.length = n ∧
        NonOverlapping s x (pyClamp stop s.length).toNat (pyClamp start s.length).toNat ps) ∧
      (∀ ps, NonOverlapping s x (pyClamp stop s.length).toNat (pyClamp start s.length).toNat ps →
        ps.length ≤ n) := by
  have hc := Verif.Slice.clamp_range stop s.length
  unfold count
  simp only [Verif.Slice.sliceIndexCorrection_eq]
  apply countLoop_correct s x hx
  · intro p h1 h2
    have := hstop p (by omega) h2
    omega
  · omega

/-- The default range `count(x)` (end at or beyond the length) always meets the side condition. -/
theorem count_default_correct_partial (s x : List α) (hx : x ≠ []) (stop : Int)
    (h : (s.length : Int) ≤ stop) (fuel : Nat) (hfuel : s.length < fuel) :
    ∃ n, count s x 0 stop fuel = some n ∧
      (∃ ps, ps.length = n ∧ NonOverlapping s x s.length 0 ps) ∧
      (∀ ps, NonOverlapping s x s.length 0 ps → ps.length ≤ n) := by
  have hc : pyClamp stop s.length = s.length := by unfold pyClamp; split <;> omega
  have h0 : pyClamp 0 s.length = 0 := by unfold pyClamp; omega
  have := count_correct_partial s x hx 0 stop (by
    intro p _ ho
    have := ho.le
    rw [hc]; omega) fuel hfuel
  rw [hc, h0] at this
  exact this

/-- FINDING (C14 refuted): `"ab".count("b", 0, 1)` is 0 in Python; the code answers 1, counting an
occurrence outside the range. -/
theorem count_refuted_end :
    count "ab".toList "b".toList 0 1 10 = some 1 ∧
    ∀ ps, NonOverlapping "ab".toList "b".toList 1 0 ps → ps = [] := by
  refine ⟨by decide +kernel, ?_⟩
  intro ps h
  cases ps with
  | nil => rfl
  | cons p ps =>
    exfalso
    obtain ⟨h1, h2, h3, _⟩ := h
    have : p = 0 := by simp at h2; omega
    subst this
    revert h3; decide

/-- FINDING (C14 refuted): counting the empty string in a non-empty range never terminates: for no
number of iterations is there a result. -/
theorem count_refuted_empty (s : List α) (start stop : Int)
    (h : pyClamp start s.length < pyClamp stop s.length) (fuel : Nat) :
    count s [] start stop fuel = none := by
  have hc := Verif.Slice.clamp_range stop s.length
  have hb := Verif.Slice.clamp_range start s.length
  unfold count
  simp only [Verif.Slice.sliceIndexCorrection_eq]
  induction fuel with
  | zero => rfl
  | succ fuel ih =>
    simp only [countLoop]
    rw [if_pos (by omega)]
    have hf : svFind s [] (pyClamp start s.length).toNat = some (pyClamp start s.length).toNat := by
      rw [(find_correct s [] _).1]
      exact ⟨by omega, ⟨by omega, List.nil_prefix⟩, by omega⟩
    rw [hf]
    simp only
    rw [if_neg (by omega), List.length_nil, Nat.add_zero, ih]
    rfl

/-! ## C15 replace -/

/-- `r` is `s` with the first `n` non-overlapping occurrences (from the left) of `old` replaced. -/
inductive Replaced (old new : List α) : Nat → List α → List α → Prop
  | stop (n s) (h : n = 0 ∨ ¬ old <:+: s) : Replaced old new n s s
  | step (n pre post r) (first : ∀ j < pre.length, ¬ OccursAt old (pre ++ old ++ post) j)
      (rest : Replaced old new n post r) :
      Replaced old new (n + 1) (pre ++ old ++ post) (pre ++ new ++ r)

/-- `r` is `s` with every non-overlapping occurrence (from the left) of `old` replaced. -/
inductive ReplacedAll (old new : List α) : List α → List α → Prop
  | stop (s) (h : ¬ old <:+: s) : ReplacedAll old new s s
  | step (pre post r) (first : ∀ j < pre.length, ¬ OccursAt old (pre ++ old ++ post) j)
      (rest : ReplacedAll old new post r) :
      ReplacedAll old new (pre ++ old ++ post) (pre ++ new ++ r)

omit [DecidableEq α] in
theorem infix_iff_occurs (needle s : List α) : needle <:+: s ↔ ∃ i, OccursAt needle s i := by
  constructor
  · rintro ⟨a, b, rfl⟩
    refine ⟨a.length, by simp, ?_⟩
    rw [List.append_assoc, List.drop_left]
    exact List.prefix_append _ _
  · rintro ⟨i, h⟩
    exact h.2.isInfix.trans (List.drop_suffix _ _).isInfix

omit [DecidableEq α] in
/-- Decomposition of the text from `cur` at the first occurrence `p`. -/
theorem drop_split_at (s x : List α) (cur p : Nat) (h1 : cur ≤ p) (h2 : OccursAt x s p) :
    s.drop cur = (s.drop cur).take (p - cur) ++ x ++ s.drop (p + x.length) := by
  obtain ⟨t, ht⟩ := h2.2
  have e1 : s.drop p = x ++ t := ht.symm
  have e2 : s.drop (p + x.length) = t := by
    rw [← List.drop_drop, e1, List.drop_left]
  have e3 : (s.drop cur).drop (p - cur) = s.drop p := by
    rw [List.drop_drop]; congr 1; omega
  rw [e2, List.append_assoc, ← e1, ← e3, List.take_append_drop]

omit [DecidableEq α] in
theorem first_of_find (s x : List α) (cur p : Nat) (h1 : cur ≤ p) (h2 : OccursAt x s p)
    (h3 : ∀ j, cur ≤ j → j < p → ¬ OccursAt x s j) :
    ∀ j < ((s.drop cur).take (p - cur)).length, ¬ OccursAt x
      ((s.drop cur).take (p - cur) ++ x ++ s.drop (p + x.length)) j := by
  intro j hj ho
  rw [← drop_split_at s x cur p h1 h2, occursAt_drop _ _ _ _ (by have := h2.1; omega)] at ho
  rw [List.length_take, List.length_drop] at hj
  exact h3 (cur + j) (by omega) (by omega) ho

theorem replaceLoop_correct (s old new : List α) (n cur : Nat) (hcur : cur ≤ s.length) :
    Replaced old new n (s.drop cur) (replaceLoop s old new n cur) := by
  induction n generalizing cur with
  | zero => exact .stop _ _ (.inl rfl)
  | succ n ih =>
    simp only [replaceLoop]
    have hf := svFind_spec s old cur
    cases hp : svFind s old cur with
    | none =>
      apply Replaced.stop
      right
      rw [infix_iff_occurs]
      rintro ⟨i, hi⟩
      rw [occursAt_drop _ _ _ _ hcur] at hi
      exact hf.2 hp _ (by omega) hi
    | some p =>
      obtain ⟨h1, h2, h3⟩ := hf.1 p hp
      simp only
      have := Replaced.step (new := new) n _ _ _ (first_of_find s old cur p h1 h2 h3)
        (ih (p + old.length) h2.le)
      rwa [← drop_split_at s old cur p h1 h2] at this

/-- C15.  `s.replace(old, new, count)` with `count ≥ 0` replaces the first `count` non-overlapping
occurrences from the left and nothing else.  (For the empty `old` the relation is still met, but
Python defines the empty pattern differently: see `replace_refuted_empty`.) -/
theorem replace_count_correct (s old new : List α) (count : Int) (h : 0 ≤ count) :
    Replaced old new count.toNat s (replace s old new count) := by
  unfold replace limit
  rw [if_neg (by omega)]
  have := replaceLoop_correct s old new count.toNat 0 (by omega)
  rwa [List.drop_zero] at this

omit [DecidableEq α] in
theorem Replaced.all {old new : List α} (hold : old ≠ []) {n : Nat} {s r : List α}
    (h : Replaced old new n s r) (hn : s.length < n) : ReplacedAll old new s r := by
  have hol : 0 < old.length := List.length_pos_iff.mpr hold
  induction h with
  | stop n s h =>
    rcases h with h | h
    · omega
    · exact .stop _ h
  | step n pre post r first rest ih =>
    refine .step _ _ _ first (ih ?_)
    simp at hn; omega

/-- C15.  `s.replace(old, new)` (negative count) replaces every non-overlapping occurrence of a
non-empty `old`.  The length bound is that of any real string.  Missing: empty `old`. -/
theorem replace_all_correct_partial (s old new : List α) (hold : old ≠ []) (count : Int)
    (h : count < 0) (hlen : s.length < unlimited) :
    ReplacedAll old new s (replace s old new count) := by
  unfold replace limit
  rw [if_pos h]
  have := replaceLoop_correct s old new unlimited 0 (by omega)
  rw [List.drop_zero] at this
  exact this.all hold hlen

/-- Replacing a pattern that does not occur is the identity. -/
theorem replace_absent (s old new : List α) (count : Int) (h : ¬ old <:+: s) :
    replace s old new count = s := by
  unfold replace
  cases hl : limit count with
  | zero => simp [replaceLoop]
  | succ n =>
    simp only [replaceLoop]
    cases hp : svFind s old 0 with
    | none => simp
    | some p =>
      exact absurd ((infix_iff_occurs _ _).mpr ⟨p, ((svFind_spec s old 0).1 p hp).2.1⟩) h

/-- FINDING (C15 refuted): the empty pattern.  `"ab".replace("", "x", 2)` is `"xaxb"` in Python;
here all copies are put in front, and an unlimited count performs 2^63 - 1 insertions. -/
theorem replace_refuted_empty (s new : List α) (n : Nat) :
    replaceLoop s [] new n 0 = (List.replicate n new).flatten ++ s := by
  induction n with
  | zero => rfl
  | succ n ih =>
    have hf : svFind s [] 0 = some 0 := by
      rw [(find_correct s [] _).1]
      exact ⟨by omega, ⟨by omega, List.nil_prefix⟩, by omega⟩
    simp only [replaceLoop, hf]
    simp only [Nat.sub_zero, List.take_zero, List.nil_append, List.length_nil, Nat.add_zero, ih]
    rw [List.replicate_succ, List.flatten_cons, List.append_assoc]

/-! ## C16 split by separator and join -/

/-- Python's `split(sep, n)`: cut at the first `n` non-overlapping occurrences of `sep`. -/
inductive IsSplit (sep : List α) : Nat → List α → List (List α) → Prop
  | stop (n s) (h : n = 0 ∨ ¬ sep <:+: s) : IsSplit sep n s [s]
  | step (n pre post ps) (first : ∀ j < pre.length, ¬ OccursAt sep (pre ++ sep ++ post) j)
      (rest : IsSplit sep n post ps) : IsSplit sep (n + 1) (pre ++ sep ++ post) (pre :: ps)

/-- Remove one trailing empty piece. -/
def dropTrailingEmpty (ps : List (List α)) : List (List α) :=
  if ps.getLast? = some [] then ps.dropLast else ps

omit [DecidableEq α] in
theorem IsSplit.ne_nil {sep : List α} {n : Nat} {s : List α} {ps : List (List α)}
    (h : IsSplit sep n s ps) : ps ≠ [] := by cases h <;> simp

theorem dropTrailingEmpty_cons (p : List α) (ps : List (List α)) (h : ps ≠ []) :
    dropTrailingEmpty (p :: ps) = p :: dropTrailingEmpty ps := by
  cases ps with
  | nil => exact absurd rfl h
  | cons q qs =>
    unfold dropTrailingEmpty
    rw [List.getLast?_cons_cons]
    split <;> simp

theorem splitLoop_correct (s sep : List α) (hsep : sep ≠ []) (n start : Nat)
    (hs : start ≤ s.length) :
    ∃ ps, IsSplit sep n (s.drop start) ps ∧ splitLoop s sep n start = dropTrailingEmpty ps := by
  have hend : ∀ n, ¬ start < s.length → IsSplit sep n (s.drop start) [[]] := by
    intro n h
    have : s.drop start = [] := List.drop_eq_nil_of_le (by omega)
    rw [this]
    exact .stop _ _ (.inr (by simpa using hsep))
  have hne : start < s.length → dropTrailingEmpty [s.drop start] = [s.drop start] := by
    intro h
    unfold dropTrailingEmpty
    rw [if_neg]
    simp; omega
  induction n generalizing start with
  | zero =>
    simp only [splitLoop]
    split
    · rename_i h
      exact ⟨[s.drop start], .stop _ _ (.inl rfl), (hne h).symm⟩
    · rename_i h
      exact ⟨[[]], hend _ h, by simp [dropTrailingEmpty]⟩
  | succ n ih =>
    simp only [splitLoop]
    split
    · rename_i h
      have hf := svFind_spec s sep start
      cases hp : svFind s sep start with
      | none =>
        refine ⟨[s.drop start], .stop _ _ (.inr ?_), (hne h).symm⟩
        rw [infix_iff_occurs]
        rintro ⟨i, hi⟩
        rw [occursAt_drop _ _ _ _ hs] at hi
        exact hf.2 hp _ (by omega) hi
      | some p =>
        obtain ⟨h1, h2, h3⟩ := hf.1 p hp
        obtain ⟨ps, hps1, hps2⟩ := ih (p + sep.length) h2.le
          (by
            intro n h
            have : s.drop (p + sep.length) = [] := List.drop_eq_nil_of_le (by omega)
            rw [this]
            exact .stop _ _ (.inr (by simpa using hsep)))
          (by
            intro h
            unfold dropTrailingEmpty
            rw [if_neg]
            simp; omega)
        have hstep := IsSplit.step n _ _ _ (first_of_find s sep start p h1 h2 h3) hps1
        rw [← drop_split_at s sep start p h1 h2] at hstep
        refine ⟨_, hstep, ?_⟩
        simp only
        rw [dropTrailingEmpty_cons _ _ hps1.ne_nil, hps2]
    · rename_i h
      exact ⟨[[]], hend _ h, by simp [dropTrailingEmpty]⟩

/-- C16.  `s.split(sep, maxsplit)` is Python's result with one trailing empty piece removed, for
every string, non-empty separator and `maxsplit`. -/
theorem split_correct_partial (s sep : List α) (hsep : sep ≠ []) (maxsplit : Int) :
    ∃ ps, IsSplit sep (limit maxsplit) s ps ∧
      splitSep s sep maxsplit = some (dropTrailingEmpty ps) := by
  obtain ⟨ps, h1, h2⟩ := splitLoop_correct s sep hsep (limit maxsplit) 0 (by omega)
  rw [List.drop_zero] at h1
  refine ⟨ps, h1, ?_⟩
  unfold splitSep
  rw [if_neg (by simpa using hsep), h2]

/-- C16.  The empty separator raises. -/
theorem split_empty_sep (s : List α) (maxsplit : Int) : splitSep s [] maxsplit = none := rfl

/-- FINDING (C16 refuted): the trailing empty piece is lost, so joining does not give the string
back: `"a,b,".split(",")` is `["a","b"]` and `",".join` of it is `"a,b"`. -/
theorem split_refuted :
    (splitSep "a,b,".toList ",".toList 10) = some ["a".toList, "b".toList] ∧
    join ",".toList ["a".toList, "b".toList] ≠ "a,b,".toList ∧
    IsSplit ",".toList 10 "a,b,".toList ["a".toList, "b".toList, []] ∧
    splitSep "".toList ",".toList 10 = some [] := by
  refine ⟨by decide +kernel, by decide, ?_, by decide⟩
  refine .step 9 "a".toList "b,".toList _ (by decide) ?_
  refine .step 8 "b".toList [] _ (by decide) ?_
  exact .stop _ _ (.inr (by decide))

omit [DecidableEq α] in
/-- C16.  `sep.join(pieces)` is the pieces with `sep` between them, and it fills its preallocated
buffer exactly. -/
theorem join_correct (sep : List α) (ps : List (List α)) :
    join sep ps = sep.intercalate ps ∧ (join sep ps).length = joinCap sep ps := by
  cases ps with
  | nil => exact ⟨by simp [join], rfl⟩
  | cons p ps =>
    have key : ∀ (ps : List (List α)) (acc : List α),
        ps.foldl (fun out q => out ++ sep ++ q) acc = acc ++ (ps.map (sep ++ ·)).flatten ∧
        ps.foldl (fun cap q => cap + sep.length + q.length) acc.length =
          (ps.foldl (fun out q => out ++ sep ++ q) acc).length := by
      intro ps
      induction ps with
      | nil => intro acc; simp
      | cons q qs ih =>
        intro acc
        constructor
        · rw [List.foldl_cons, (ih _).1]; simp
        · rw [List.foldl_cons, List.foldl_cons, ← (ih _).2]; simp [Nat.add_assoc]
    have hint : ∀ (ps : List (List α)) (p : List α),
        sep.intercalate (p :: ps) = p ++ (ps.map (sep ++ ·)).flatten := by
      intro ps
      induction ps with
      | nil => intro p; simp [List.intercalate]
      | cons q qs ih =>
        intro p
        have := ih q
        simp only [List.intercalate, List.intersperse_cons_cons, List.flatten_cons, List.map_cons] at *
        rw [this]
        simp
    simp only [join, joinCap]
    exact ⟨by rw [(key ps p).1, hint], ((key ps p).2).symm⟩

omit [DecidableEq α] in
theorem IsSplit.join {sep : List α} {n : Nat} {s : List α} {ps : List (List α)}
    (h : IsSplit sep n s ps) : sep.intercalate ps = s := by
  induction h with
  | stop => simp
  | step n pre post ps first rest ih =>
    cases ps with
    | nil => exact absurd rfl rest.ne_nil
    | cons q qs =>
      rw [List.intercalate, List.intersperse_cons_cons, List.flatten_cons, List.flatten_cons]
      rw [List.intercalate] at ih
      rw [ih, List.append_assoc]

/-- C16.  Joining the pieces of a split gives the string back, or the string without one trailing
separator (the law that is missing is exactly this trailing separator). -/
theorem split_join_partial (s sep : List α) (hsep : sep ≠ []) (maxsplit : Int) :
    ∃ ps, splitSep s sep maxsplit = some ps ∧
      (join sep ps = s ∨ join sep ps ++ sep = s) := by
  obtain ⟨ps, h1, h2⟩ := split_correct_partial s sep hsep maxsplit
  refine ⟨_, h2, ?_⟩
  rw [(join_correct _ _).1]
  have hj := h1.join
  unfold dropTrailingEmpty
  by_cases hl : ps.getLast? = some []
  · rw [if_pos hl]
    obtain ⟨qs, rfl⟩ := List.getLast?_eq_some_iff.mp hl
    rw [List.dropLast_concat]
    cases qs with
    | nil => left; simpa [List.intercalate] using hj
    | cons q qs =>
      right
      rw [← hj]
      have e := (join_correct sep ((q :: qs) ++ [[]])).1
      have e2 := (join_correct sep (q :: qs)).1
      rw [← e, ← e2]
      simp [Verif.Strings.join, List.foldl_append]
  · rw [if_neg hl]
    exact .inl hj

omit [DecidableEq α] in
theorem IsSplit.pieces {sep : List α} (hsep : sep ≠ []) {n : Nat} {s : List α}
    {ps : List (List α)} (h : IsSplit sep n s ps) (hn : s.length < n) :
    ∀ p ∈ ps, ¬ sep <:+: p := by
  have hl : 0 < sep.length := List.length_pos_iff.mpr hsep
  induction h with
  | stop n s h =>
    intro p hp
    simp at hp; subst hp
    rcases h with h | h
    · omega
    · exact h
  | step n pre post ps first rest ih =>
    intro p hp
    rcases List.mem_cons.mp hp with rfl | hp
    · rw [infix_iff_occurs]
      rintro ⟨i, hi⟩
      have hle := hi.le
      refine first i (by omega) ⟨by simp; omega, ?_⟩
      rw [List.append_assoc, List.drop_append_of_le_length hi.1]
      exact hi.2.trans (List.prefix_append _ _)
    · refine ih ?_ p hp
      simp at hn; omega

/-- C16.  No piece of an unlimited split contains the separator. -/
theorem split_pieces_correct (s sep : List α) (hsep : sep ≠ []) (maxsplit : Int)
    (hm : maxsplit < 0) (hlen : s.length < unlimited) (ps : List (List α))
    (h : splitSep s sep maxsplit = some ps) : ∀ p ∈ ps, ¬ sep <:+: p := by
  obtain ⟨qs, h1, h2⟩ := split_correct_partial s sep hsep maxsplit
  rw [h2] at h
  simp only [Option.some.injEq] at h
  subst h
  have hu : limit maxsplit = unlimited := by unfold limit; rw [if_pos hm]
  have hp := h1.pieces hsep (by rw [hu]; exact hlen)
  intro p hpm
  apply hp p
  unfold dropTrailingEmpty at hpm
  split at hpm
  · exact List.mem_of_mem_dropLast hpm
  · exact hpm

/-- C16.  At most `maxsplit` cuts are made. -/
theorem split_count_correct (s sep : List α) (hsep : sep ≠ []) (maxsplit : Int)
    (hm : 0 ≤ maxsplit) (ps : List (List α)) (h : splitSep s sep maxsplit = some ps) :
    (ps.length : Int) ≤ maxsplit + 1 := by
  obtain ⟨qs, h1, h2⟩ := split_correct_partial s sep hsep maxsplit
  rw [h2] at h
  simp only [Option.some.injEq] at h
  subst h
  have hcut : ∀ {n : Nat} {s : List α} {ps : List (List α)}, IsSplit sep n s ps →
      ps.length ≤ n + 1 := by
    intro n s ps h
    induction h with
    | stop => simp
    | step n pre post ps first rest ih => simp; omega
  have hq := hcut h1
  have hu : limit maxsplit = maxsplit.toNat := by unfold limit; rw [if_neg (by omega)]
  rw [hu] at hq
  unfold dropTrailingEmpty
  split
  · rw [List.length_dropLast]; omega
  · omega

/-! ## C17 strip -/

omit [DecidableEq α] in
theorem stripRight_spec (p : α → Bool) (s : List α) (n : Nat) (hn : n ≤ s.length) :
    stripRight p s n ≤ n ∧
    (∀ c ∈ (s.take n).drop (stripRight p s n), p c = true) ∧
    (∀ c, (s.take (stripRight p s n)).getLast? = some c → p c = false) := by
  induction n with
  | zero => simp [stripRight]
  | succ n ih =>
    have hlt : n < s.length := by omega
    simp only [stripRight]
    rw [List.getElem?_eq_getElem hlt]
    simp only
    split
    · rename_i hp
      obtain ⟨h1, h2, h3⟩ := ih (by omega)
      refine ⟨by omega, ?_, h3⟩
      intro c hc
      rw [List.take_succ_eq_append_getElem hlt, List.drop_append_of_le_length (by
        rw [List.length_take]; omega)] at hc
      rcases List.mem_append.mp hc with hc | hc
      · exact h2 c hc
      · simp at hc; rw [hc]; exact hp
    · rename_i hp
      refine ⟨by omega, ?_, ?_⟩
      · rw [List.drop_eq_nil_of_le (by rw [List.length_take]; omega)]
        simp
      · intro c hc
        rw [List.take_succ_eq_append_getElem hlt, List.getLast?_append] at hc
        simp at hc
        rw [← hc]
        simpa using hp

/-- The characters removed by strip: whitespace when no set is given, else the members of it. -/
def InStripSet (isSpace : α → Bool) (chars : Option (List α)) (c : α) : Prop :=
  match chars with
  | none => isSpace c = true
  | some cs => c ∈ cs

theorem stripTest_iff (isSpace : α → Bool) (chars : Option (List α)) (c : α) :
    stripTest isSpace chars c = true ↔ InStripSet isSpace chars c := by
  cases chars with
  | none => rfl
  | some cs => exact svFindChar_isSome cs c

/-- C17.  `lstrip` removes exactly the longest prefix of strippable characters. -/
theorem lstrip_correct (isSpace : α → Bool) (s : List α) (chars : Option (List α)) :
    ∃ pre, s = pre ++ lstrip isSpace s chars ∧ (∀ c ∈ pre, InStripSet isSpace chars c) ∧
      (∀ c, (lstrip isSpace s chars).head? = some c → ¬ InStripSet isSpace chars c) := by
  obtain ⟨h1, h2, h3, h4⟩ := skipSpace_spec (stripTest isSpace chars) s 0 (by omega)
  unfold lstrip
  simp only [stripLeft]
  generalize skipSpace (stripTest isSpace chars) s 0 = d at *
  refine ⟨s.take d, ?_, ?_, ?_⟩
  · split
    · exact (List.take_append_drop d s).symm
    · rw [List.append_nil, List.take_of_length_le (by omega)]
  · intro c hc
    rw [← stripTest_iff]
    exact h3 c (by simpa using hc)
  · intro c hc
    rw [← stripTest_iff, Bool.not_eq_true]
    split at hc
    · rw [List.head?_drop] at hc
      exact h4 c hc
    · simp at hc

/-- C17.  `rstrip` removes exactly the longest suffix of strippable characters. -/
theorem rstrip_correct (isSpace : α → Bool) (s : List α) (chars : Option (List α)) :
    ∃ post, s = rstrip isSpace s chars ++ post ∧ (∀ c ∈ post, InStripSet isSpace chars c) ∧
      (∀ c, (rstrip isSpace s chars).getLast? = some c → ¬ InStripSet isSpace chars c) := by
  obtain ⟨h1, h2, h3⟩ := stripRight_spec (stripTest isSpace chars) s s.length (by omega)
  unfold rstrip
  generalize stripRight (stripTest isSpace chars) s s.length = d at *
  refine ⟨s.drop d, (List.take_append_drop d s).symm, ?_, ?_⟩
  · intro c hc
    rw [← stripTest_iff]
    exact h2 c (by simpa using hc)
  · intro c hc
    rw [← stripTest_iff, Bool.not_eq_true]
    exact h3 c hc

omit [DecidableEq α] in
theorem stripRightTo_spec (p : α → Bool) (s : List α) (left n : Nat) (hn : left + n < s.length)
    (hleft : ∀ c, s[left]? = some c → p c = false) :
    stripRightTo p s left n ≤ n ∧
    (∀ c ∈ (s.drop (left + stripRightTo p s left n + 1)).take (n - stripRightTo p s left n),
      p c = true) ∧
    (∀ c, s[left + stripRightTo p s left n]? = some c → p c = false) := by
  induction n with
  | zero => simp only [stripRightTo]; exact ⟨by omega, by simp, hleft⟩
  | succ n ih =>
    have hlt : left + n + 1 < s.length := by omega
    simp only [stripRightTo]
    rw [List.getElem?_eq_getElem hlt]
    simp only
    split
    · rename_i hp
      obtain ⟨h1, h2, h3⟩ := ih (by omega)
      refine ⟨by omega, ?_, h3⟩
      intro c hc
      generalize stripRightTo p s left n = d at *
      rw [show n + 1 - d = (n - d) + 1 by omega, List.take_add_one, List.mem_append] at hc
      rcases hc with hc | hc
      · exact h2 c hc
      · rw [List.getElem?_drop, show left + d + 1 + (n - d) = left + n + 1 by omega,
          List.getElem?_eq_getElem hlt] at hc
        simp at hc
        rw [hc]; exact hp
    · rename_i hp
      refine ⟨by omega, by simp, ?_⟩
      intro c hc
      rw [show left + (n + 1) = left + n + 1 by omega, List.getElem?_eq_getElem hlt] at hc
      simp at hc
      rw [← hc]
      simpa using hp

/-- C17.  `strip` removes exactly the longest strippable prefix and suffix. -/
theorem strip_correct (isSpace : α → Bool) (s : List α) (chars : Option (List α)) :
    ∃ pre post, s = pre ++ strip isSpace s chars ++ post ∧
      (∀ c ∈ pre, InStripSet isSpace chars c) ∧ (∀ c ∈ post, InStripSet isSpace chars c) ∧
      (∀ c, (strip isSpace s chars).head? = some c → ¬ InStripSet isSpace chars c) ∧
      (∀ c, (strip isSpace s chars).getLast? = some c → ¬ InStripSet isSpace chars c) := by
  obtain ⟨h1, h2, h3, h4⟩ := skipSpace_spec (stripTest isSpace chars) s 0 (by omega)
  unfold strip
  simp only [stripLeft]
  generalize skipSpace (stripTest isSpace chars) s 0 = d at *
  by_cases hd : d < s.length
  · rw [if_pos hd]
    obtain ⟨g1, g2, g3⟩ := stripRightTo_spec (stripTest isSpace chars) s d (s.length - 1 - d)
      (by omega) h4
    generalize stripRightTo (stripTest isSpace chars) s d (s.length - 1 - d) = r at *
    have hdr : d + r < s.length := by omega
    refine ⟨s.take d, s.drop (d + r + 1), ?_, ?_, ?_, ?_, ?_⟩
    · rw [List.append_assoc, show d + r + 1 = d + (r + 1) by omega, ← List.drop_drop,
        List.take_append_drop, List.take_append_drop]
    · intro c hc
      rw [← stripTest_iff]
      exact h3 c (by simpa using hc)
    · intro c hc
      rw [← stripTest_iff]
      apply g2
      rw [List.take_of_length_le (by rw [List.length_drop]; omega)]
      exact hc
    · intro c hc
      rw [← stripTest_iff, Bool.not_eq_true]
      apply h4
      rw [List.head?_take, if_neg (by omega), List.head?_drop] at hc
      exact hc
    · intro c hc
      rw [← stripTest_iff, Bool.not_eq_true]
      apply g3
      rw [List.getLast?_eq_getElem?, List.length_take, List.length_drop,
        List.getElem?_take_of_lt (by omega), List.getElem?_drop] at hc
      rw [← hc]
      congr 1
      omega
  · rw [if_neg hd]
    refine ⟨s, [], by simp, ?_, by simp, by simp, by simp⟩
    intro c hc
    rw [← stripTest_iff]
    apply h3 c
    rw [List.drop_zero, List.take_of_length_le (by omega)]
    exact hc

/-! ## C18 startswith / endswith -/

/-- C18.  For a non-empty affix, `startswith(p, start, end)` decides whether the Python slice
`s[start:end]` begins with `p`.  Missing: the empty affix at the end of the string, see
`startsWith_refuted_empty`. -/
theorem startsWith_correct_partial (s p : List α) (hp : p ≠ []) (start stop : Int) :
    startsWith s p start stop = true ↔
      p <+: (s.drop (pyClamp start s.length).toNat).take
        ((pyClamp stop s.length).toNat - (pyClamp start s.length).toNat) := by
  have hl : 0 < p.length := List.length_pos_iff.mpr hp
  have hb := Verif.Slice.clamp_range start s.length
  have he := Verif.Slice.clamp_range stop s.length
  unfold startsWith
  simp only [Verif.Slice.sliceIndexCorrection_eq]
  generalize pyClamp start s.length = b at *
  generalize pyClamp stop s.length = e at *
  split
  · rename_i h
    simp only [Bool.false_eq_true, false_iff]
    intro hpre
    have := hpre.length_le
    rw [List.length_take, List.length_drop] at this
    omega
  · rename_i h
    rw [decide_eq_true_iff, List.prefix_iff_eq_take, List.take_take, min_eq_left (by omega)]

/-- C18 for `endswith`. -/
theorem endsWith_correct_partial (s p : List α) (hp : p ≠ []) (start stop : Int) :
    endsWith s p start stop = true ↔
      p <:+ (s.drop (pyClamp start s.length).toNat).take
        ((pyClamp stop s.length).toNat - (pyClamp start s.length).toNat) := by
  have hl : 0 < p.length := List.length_pos_iff.mpr hp
  have hb := Verif.Slice.clamp_range start s.length
  have he := Verif.Slice.clamp_range stop s.length
  unfold endsWith
  simp only [Verif.Slice.sliceIndexCorrection_eq]
  generalize pyClamp start s.length = b at *
  generalize pyClamp stop s.length = e at *
  split
  · rename_i h
    simp only [Bool.false_eq_true, false_iff]
    intro hpre
    have := hpre.length_le
    rw [List.length_take, List.length_drop] at this
    omega
  · rename_i h
    rw [decide_eq_true_iff, List.suffix_iff_eq_drop, List.length_take, List.length_drop,
      List.drop_take, List.drop_drop]
    have e1 : b.toNat + (min (e.toNat - b.toNat) (s.length - b.toNat) - p.length) =
        (e - p.length).toNat := by omega
    have e2 : e.toNat - b.toNat - (min (e.toNat - b.toNat) (s.length - b.toNat) - p.length) =
        p.length := by omega
    rw [e1, e2]

/-- C18, tuple argument: true exactly when some member of the tuple is a prefix. -/
theorem startsWithAny_correct (s : List α) (ps : List (List α)) (start stop : Int) :
    startsWithAny s ps start stop = true ↔ ∃ p ∈ ps, startsWith s p start stop = true := by
  induction ps with
  | nil => simp [startsWithAny]
  | cons p ps ih =>
    simp only [startsWithAny, List.mem_cons]
    split
    · rename_i h
      simp only [true_iff]
      exact ⟨p, .inl rfl, h⟩
    · rename_i h
      rw [ih]
      constructor
      · rintro ⟨q, hq, hs⟩; exact ⟨q, .inr hq, hs⟩
      · rintro ⟨q, rfl | hq, hs⟩
        · exact absurd hs h
        · exact ⟨q, hq, hs⟩

/-- FINDING (C18 refuted): `"".startswith("")` and `"".endswith("")` are True in Python and False
here (likewise `"ab".startswith("", 2)`). -/
theorem startsWith_refuted_empty :
    startsWith ([] : List Char) [] 0 0 = false ∧ endsWith ([] : List Char) [] 0 0 = false ∧
    startsWith ['a', 'b'] [] 2 2 = false := by decide

/-! ## C19 whitespace split -/

/-- Python's `split(None, n)`. -/
inductive WsSplit (isSpace : α → Bool) : Nat → List α → List (List α) → Prop
  | blank (n s) (h : ∀ c ∈ s, isSpace c = true) : WsSplit isSpace n s []
  | rest (gap : List α) (c : α) (r : List α) (hg : ∀ c ∈ gap, isSpace c = true)
      (hc : isSpace c = false) : WsSplit isSpace 0 (gap ++ c :: r) [c :: r]
  | word (n) (gap w t : List α) (ps) (hg : ∀ c ∈ gap, isSpace c = true) (hw : w ≠ [])
      (hns : ∀ c ∈ w, isSpace c = false) (ht : ∀ c, t.head? = some c → isSpace c = true)
      (hps : WsSplit isSpace n t ps) : WsSplit isSpace (n + 1) (gap ++ w ++ t) (w :: ps)

omit [DecidableEq α] in
/-- Prepending blanks does not change the result. -/
theorem WsSplit.prepend {isSpace : α → Bool} {n : Nat} {s : List α} {ps : List (List α)}
    (h : WsSplit isSpace n s ps) (g : List α) (hg : ∀ c ∈ g, isSpace c = true) :
    WsSplit isSpace n (g ++ s) ps := by
  have happ : ∀ gap : List α, (∀ c ∈ gap, isSpace c = true) →
      ∀ c ∈ g ++ gap, isSpace c = true := by
    intro gap h c hc
    rcases List.mem_append.mp hc with hc | hc
    · exact hg c hc
    · exact h c hc
  cases h with
  | blank _ _ h => exact .blank _ _ (happ s h)
  | rest gap c r hgap hc =>
    rw [← List.append_assoc]
    exact .rest _ _ _ (happ gap hgap) hc
  | word n gap w t ps hgap hw hns ht hps =>
    rw [← List.append_assoc, ← List.append_assoc]
    exact .word _ _ _ _ _ (happ gap hgap) hw hns ht hps

omit [DecidableEq α] in
/-- Invariant of the main loop: `last` is at the end or at the start of a word, and everything
between `last` and `cur` is non-blank. -/
theorem wsLoop_correct (isSpace : α → Bool) (s : List α) (last cur m : Nat)
    (h1 : last < cur) (hl : last ≤ s.length)
    (h2 : ∀ c ∈ (s.drop last).take (cur - last), isSpace c = false) :
    WsSplit isSpace m (s.drop last) (wsLoop isSpace s last cur m) := by
  fun_induction wsLoop isSpace s last cur m with
  | case1 last cur m c hc hsp hm ih =>
    have hlt := (List.getElem?_eq_some_iff.mp hc).1
    obtain ⟨k1, k2, k3, k4⟩ := skipSpace_spec isSpace s (cur + 1) (by omega)
    have hrest := ih (by omega) k2 (by
      intro d hd
      rw [show skipSpace isSpace s (cur + 1) + 1 - skipSpace isSpace s (cur + 1) = 1 by omega] at hd
      rw [List.take_one, List.head?_drop] at hd
      have := Option.mem_toList.mp hd
      exact k4 d this)
    obtain ⟨m', rfl⟩ : ∃ m', m = m' + 1 := ⟨m - 1, by omega⟩
    rw [Nat.add_sub_cancel] at hrest ⊢
    have e1 : s.drop last = [] ++ (s.drop last).take (cur - last) ++ s.drop cur := by
      rw [List.nil_append]
      conv => lhs; rw [← List.take_append_drop (cur - last) (s.drop last)]
      rw [List.drop_drop, show last + (cur - last) = cur by omega]
    conv => arg 3; rw [e1]
    refine .word _ _ _ _ _ (by simp) ?_ h2 ?_ ?_
    · intro he
      have := congrArg List.length he
      rw [List.length_take, List.length_drop, List.length_nil] at this
      omega
    · intro d hd
      rw [List.head?_drop, hc] at hd
      simp at hd; subst hd; exact hsp
    · have e2 : s.drop cur = (c :: (s.drop (cur + 1)).take (skipSpace isSpace s (cur + 1) -
          (cur + 1))) ++ s.drop (skipSpace isSpace s (cur + 1)) := by
        rw [List.drop_eq_getElem_cons hlt, List.cons_append]
        have : s[cur] = c := by
          rw [List.getElem?_eq_getElem hlt] at hc; simpa using hc
        rw [this]
        congr 1
        conv => lhs; rw [← List.take_append_drop (skipSpace isSpace s (cur + 1) - (cur + 1))
          (s.drop (cur + 1))]
        rw [List.drop_drop, show cur + 1 + (skipSpace isSpace s (cur + 1) - (cur + 1)) =
          skipSpace isSpace s (cur + 1) by omega]
      rw [e2]
      apply hrest.prepend
      intro d hd
      rcases List.mem_cons.mp hd with rfl | hd
      · exact hsp
      · exact k3 d hd
  | case2 last cur m c hc hsp hm =>
    have hlt := (List.getElem?_eq_some_iff.mp hc).1
    obtain rfl : m = 0 := by omega
    have hll : last < s.length := by omega
    rw [List.drop_eq_getElem_cons hll]
    refine WsSplit.rest [] _ _ (by simp) ?_
    apply h2
    rw [List.drop_eq_getElem_cons hll, show cur - last = (cur - last - 1) + 1 by omega,
      List.take_succ_cons]
    exact List.mem_cons_self
  | case3 last cur m c hc hsp ih =>
    have hlt := (List.getElem?_eq_some_iff.mp hc).1
    apply ih (by omega) hl
    intro d hd
    rw [show cur + 1 - last = (cur - last) + 1 by omega, List.take_add_one, List.mem_append] at hd
    rcases hd with hd | hd
    · exact h2 d hd
    · rw [List.getElem?_drop, show last + (cur - last) = cur by omega, hc] at hd
      simp at hd; subst hd
      simpa using hsp
  | case4 last cur m hc hlast =>
    have hge : s.length ≤ cur := by simpa using hc
    have hall : ∀ c ∈ s.drop last, isSpace c = false := by
      intro c hcm
      apply h2
      rw [List.take_of_length_le (by rw [List.length_drop]; omega)]
      exact hcm
    cases m with
    | zero =>
      rw [List.drop_eq_getElem_cons hlast]
      refine WsSplit.rest [] _ _ (by simp) ?_
      apply hall
      rw [List.drop_eq_getElem_cons hlast]
      exact List.mem_cons_self
    | succ m =>
      have := WsSplit.word (isSpace := isSpace) m [] (s.drop last) [] [] (by simp) (by simp; omega)
        hall (by simp) (.blank _ _ (by simp))
      simpa using this
  | case5 last cur m hc hlast =>
    rw [List.drop_eq_nil_of_le (by omega)]
    exact .blank _ _ (by simp)

omit [DecidableEq α] in
/-- C19.  `s.split(None, maxsplit)` follows Python's definition for every string and `maxsplit`. -/
theorem splitWs_correct (isSpace : α → Bool) (s : List α) (maxsplit : Int) :
    WsSplit isSpace (limit maxsplit) s (splitWs isSpace s maxsplit) := by
  obtain ⟨k1, k2, k3, k4⟩ := skipSpace_spec isSpace s 0 (by omega)
  unfold splitWs
  simp only
  generalize skipSpace isSpace s 0 = d at *
  have := wsLoop_correct isSpace s d (d + 1) (limit maxsplit) (by omega) k2 (by
    intro c hc
    rw [show d + 1 - d = 1 by omega, List.take_one, List.head?_drop] at hc
    exact k4 c (Option.mem_toList.mp hc))
  have h2 := this.prepend (s.take d) (by
    intro c hc
    exact k3 c (by simpa using hc))
  rwa [List.take_append_drop] at h2

omit [DecidableEq α] in
/-- C19.  Consequence for the unlimited split: every piece is a non-empty run of non-blank
characters and together they are all the non-blank characters in order. -/
theorem splitWs_pieces (isSpace : α → Bool) (s : List α) (maxsplit : Int) (hm : maxsplit < 0)
    (hlen : s.length < unlimited) :
    (∀ p ∈ splitWs isSpace s maxsplit, p ≠ [] ∧ ∀ c ∈ p, isSpace c = false) ∧
    (splitWs isSpace s maxsplit).flatten = s.filter (fun c => !isSpace c) := by
  have h := splitWs_correct isSpace s maxsplit
  have hu : limit maxsplit = unlimited := by unfold limit; rw [if_pos hm]
  rw [hu] at h
  clear hu
  generalize splitWs isSpace s maxsplit = ps at *
  generalize unlimited = n at *
  induction h with
  | blank n s h =>
    refine ⟨by simp, ?_⟩
    rw [List.flatten_nil, eq_comm, List.filter_eq_nil_iff]
    intro c hc
    simp [h c hc]
  | rest => simp at hlen
  | word n gap w t ps hg hw hns ht hps ih =>
    have hwl : 0 < w.length := List.length_pos_iff.mpr hw
    obtain ⟨i1, i2⟩ := ih (by simp at hlen; omega)
    constructor
    · intro p hp
      rcases List.mem_cons.mp hp with rfl | hp
      · exact ⟨hw, hns⟩
      · exact i1 p hp
    · rw [List.flatten_cons, i2, List.filter_append, List.filter_append]
      have e1 : gap.filter (fun c => !isSpace c) = [] := by
        rw [List.filter_eq_nil_iff]; intro c hc; simp [hg c hc]
      have e2 : w.filter (fun c => !isSpace c) = w := by
        rw [List.filter_eq_self]; intro c hc; simp [hns c hc]
      rw [e1, e2, List.nil_append]

omit [DecidableEq α] in
/-- The specification determines the result: it is a function of the string and the limit. -/
theorem WsSplit.functional {isSpace : α → Bool} {n : Nat} {s : List α} {ps qs : List (List α)}
    (h1 : WsSplit isSpace n s ps) (h2 : WsSplit isSpace n s qs) : ps = qs := by
  have gapw : ∀ (g g' : List α) (c c' : α) (r r' : List α), (∀ c ∈ g, isSpace c = true) →
      (∀ c ∈ g', isSpace c = true) → isSpace c = false → isSpace c' = false →
      g ++ c :: r = g' ++ c' :: r' → g = g' ∧ c :: r = c' :: r' := by
    intro g
    induction g with
    | nil =>
      intro g' c c' r r' _ hg' hc _ he
      cases g' with
      | nil => exact ⟨rfl, by simpa using he⟩
      | cons x xs =>
        simp at he
        rw [he.1, hg' x (by simp)] at hc
        simp at hc
    | cons y ys ih =>
      intro g' c c' r r' hg hg' hc hc' he
      cases g' with
      | nil =>
        simp at he
        rw [← he.1, hg y (by simp)] at hc'
        simp at hc'
      | cons x xs =>
        simp only [List.cons_append, List.cons.injEq] at he
        obtain ⟨a, b⟩ := ih xs c c' r r' (fun c h => hg c (by simp [h]))
          (fun c h => hg' c (by simp [h])) hc hc' he.2
        exact ⟨by rw [he.1, a], b⟩
  have wordt : ∀ (w w' t t' : List α), (∀ c ∈ w, isSpace c = false) →
      (∀ c ∈ w', isSpace c = false) → (∀ c, t.head? = some c → isSpace c = true) →
      (∀ c, t'.head? = some c → isSpace c = true) → w ++ t = w' ++ t' → w = w' ∧ t = t' := by
    intro w
    induction w with
    | nil =>
      intro w' t t' _ hw' ht _ he
      cases w' with
      | nil => exact ⟨rfl, by simpa using he⟩
      | cons x xs =>
        simp at he
        have := ht x (by rw [he]; rfl)
        rw [hw' x (by simp)] at this
        simp at this
    | cons y ys ih =>
      intro w' t t' hw hw' ht ht' he
      cases w' with
      | nil =>
        simp at he
        have := ht' y (by rw [← he]; rfl)
        rw [hw y (by simp)] at this
        simp at this
      | cons x xs =>
        simp only [List.cons_append, List.cons.injEq] at he
        obtain ⟨a, b⟩ := ih xs t t' (fun c h => hw c (by simp [h]))
          (fun c h => hw' c (by simp [h])) ht ht' he.2
        exact ⟨by rw [he.1, a], b⟩
  induction h1 generalizing qs with
  | blank n s h =>
    cases h2 with
    | blank => rfl
    | rest gap c r hg hc => rw [h c (by simp)] at hc; simp at hc
    | word n gap w t ps hg hw hns ht hps =>
      cases w with
      | nil => exact absurd rfl hw
      | cons c w =>
        have := hns c (by simp)
        rw [h c (by simp)] at this
        simp at this
  | rest gap c r hg hc =>
    generalize hs : gap ++ c :: r = s at h2
    generalize hn : (0 : Nat) = n at h2
    cases h2 with
    | blank _ _ h => rw [h c (by rw [← hs]; simp)] at hc; simp at hc
    | rest gap' c' r' hg' hc' =>
      rw [(gapw _ _ _ _ _ _ hg hg' hc hc' hs).2]
    | word => simp at hn
  | word n gap w t ps hg hw hns ht hps ih =>
    generalize hs : gap ++ w ++ t = s at h2
    generalize hn : n + 1 = m at h2
    cases w with
    | nil => exact absurd rfl hw
    | cons c w =>
    cases h2 with
    | blank _ _ h =>
      have := hns c (by simp)
      rw [h c (by rw [← hs]; simp)] at this
      simp at this
    | rest => simp at hn
    | word n' gap' w' t' qs hg' hw' hns' ht' hps' =>
      cases w' with
      | nil => exact absurd rfl hw'
      | cons c' w' =>
        rw [List.append_assoc, List.append_assoc] at hs
        obtain ⟨_, e⟩ := gapw _ _ _ _ _ _ hg hg' (hns c (by simp)) (hns' c' (by simp)) hs
        obtain ⟨e1, e2⟩ := wordt (c :: w) (c' :: w') t t' hns hns' ht ht' e
        rw [e1]
        obtain rfl : n = n' := by omega
        rw [ih (by rw [e2]; exact hps')]

omit [DecidableEq α] in
/-- `s * times` is `times` copies, of exactly the size that was allocated. -/
theorem repeat_correct (s : List α) (times : Int) :
    (repeat_ s times).2 = (List.replicate times.toNat s).flatten ∧
    (repeat_ s times).2.length = (repeat_ s times).1 := by
  have hl : ∀ n, repeatLoop s n = (List.replicate n s).flatten := by
    intro n
    induction n with
    | zero => rfl
    | succ n ih => rw [repeatLoop, ih, List.replicate_succ, List.flatten_cons]
  have ht : (if times < 0 then 0 else times).toNat = times.toNat := by split <;> omega
  unfold repeat_
  simp only [ht, hl]
  refine ⟨trivial, ?_⟩
  generalize times.toNat = n
  induction n with
  | zero => simp
  | succ n ih => rw [List.replicate_succ, List.flatten_cons, List.length_append, ih, Nat.succ_mul]; omega

/-! ### Non-vacuity -/

example : svFind "abcabc".toList "ca".toList 1 = some 2 := by decide +kernel
example : svFind "abc".toList "".toList 3 = some 3 := by decide +kernel
example : svRFind "abcabc".toList "bc".toList 3 = some 1 := by decide
example : pyFind "hello".toList "l".toList 3 (-1) = 3 := by decide +kernel
example : count "aaaa".toList "aa".toList 0 4 100 = some 2 := by decide +kernel
example : "aa".toList ≠ [] ∧ ((4 : Int) = pyClamp 4 "aaaa".length) := by decide
example : replace "a-b-c".toList "-".toList "+=".toList (-1) = "a+=b+=c".toList := by decide +kernel
example : splitSep "a,b,c".toList ",".toList 1 = some ["a".toList, "b,c".toList] := by decide +kernel
example : join ", ".toList ["a".toList, "b".toList] = "a, b".toList := by decide
example : strip (· == ' ') "  ab c ".toList none = "ab c".toList := by decide +kernel
example : lstrip (· == ' ') "xxabx".toList (some "x".toList) = "abx".toList := by decide +kernel
example : startsWith "hello".toList "el".toList 1 (-1) = true := by decide
example : endsWith "hello".toList "ll".toList 1 (-1) = true := by decide
example : splitWs (· == ' ') "  ab  c d ".toList (-1) = ["ab".toList, "c".toList, "d".toList] := by
  decide +kernel
example : splitWs (· == ' ') "  ab  c d ".toList 1 = ["ab".toList, "c d ".toList] := by
  decide +kernel

end Verif.Strings
