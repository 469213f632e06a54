import Verif.WordPieceVocab
/-
The tokenizer on `str` and on sentences.
-/
namespace Verif.WordPiece
open Verif.Cedar (St Bytes Represents total found Text bytes)

/-! ### From bytes to code points -/

theorem text_take {w : List Nat} (h : Text w) (n : Nat) : Text (w.take n) := fun x hx => h x (List.mem_of_mem_take hx)
theorem text_drop {w : List Nat} (h : Text w) (n : Nat) : Text (w.drop n) := fun x hx => h x (List.mem_of_mem_drop hx)
theorem text_append {a b : List Nat} (ha : Text a) (hb : Text b) : Text (a ++ b) := by
  intro c hc
  rcases List.mem_append.mp hc with h | h
  · exact ha c h
  · exact hb c h

theorem bytes_nil : bytes [] = [] := rfl

theorem bytes_eq_nil {w : List Nat} : bytes w = [] ↔ w = [] :=
  ⟨fun h => by by_contra hc; exact Cedar.bytes_ne_nil hc h, fun h => by rw [h]; rfl⟩

theorem ids_bytes {lines : List (List Nat)} (hl : ∀ l ∈ lines, Text l) {k : List Nat} (hk : Text k) :
    ids (lines.map bytes) (bytes k) = ids lines k := by
  unfold ids
  congr 1
  induction lines with
  | nil => rfl
  | cons l lines ih =>
    have ih' := ih (fun x hx => hl x (by simp [hx]))
    rw [List.map_cons]
    by_cases e : l = []
    · rw [List.filter_cons_of_neg (by simp [e, bytes_nil]), List.filter_cons_of_neg (by simp [e])]
      exact ih'
    · rw [List.filter_cons_of_pos (by simp [bytes_eq_nil, e]), List.filter_cons_of_pos (by simp [e]),
        List.idxOf?_cons, List.idxOf?_cons, ih']
      by_cases e2 : l = k
      · rw [e2]; simp
      · have : bytes l ≠ bytes k := fun h => e2 (Cedar.bytes_inj (hl l (by simp)) hk h)
        simp [this, e2]

theorem bytes_split {w : List Nat} (n : Nat) : bytes w = bytes (w.take n) ++ bytes (w.drop n) := by
  rw [← Cedar.bytes_append, List.take_append_drop]

theorem bytes_drop {w : List Nat} (n : Nat) : (bytes w).drop (bytes (w.take n)).length = bytes (w.drop n) := by
  rw [bytes_split (w := w) n, List.drop_left]

theorem bytes_take_le (w : List Nat) (n : Nat) : (bytes (w.take n)).length ≤ (bytes w).length := by
  rw [bytes_split (w := w) n, List.length_append]; omega

/-- An entry of the vocabulary found in the bytes ends at the end of a character. -/
theorem boundary {lines : List (List Nat)} (hl : ∀ l ∈ lines, Text l) {cur w : List Nat} (hc : Text cur) (hw : Text w)
    {k : Nat} {v : Int} (hk : 0 < k) (hk2 : k ≤ (bytes w).length)
    (h : ids (lines.map bytes) (bytes cur ++ (bytes w).take k) = some v) :
    ∃ n, 0 < n ∧ n ≤ w.length ∧ k = (bytes (w.take n)).length ∧ ids lines (cur ++ w.take n) = some v := by
  obtain ⟨l, hlm, e⟩ := List.mem_map.mp (ids_some h).2.2
  have hlt := hl l hlm
  have e2 : (bytes (cur ++ w)).take ((bytes cur).length + k) = bytes l := by
    rw [Cedar.bytes_append, take_of_append (by omega), Nat.add_sub_cancel_left, e]
  have hpre := Cedar.prefix_of_bytes hlt (text_append hc hw) e2
  have hlen := congrArg List.length e
  rw [List.length_append, List.length_take, Nat.min_eq_left hk2] at hlen
  have hgt : cur.length < l.length := by
    by_contra hcon
    have hle : l.length ≤ cur.length := by omega
    have : l = cur.take l.length := by
      rw [List.take_append_of_le_length hle] at hpre; exact hpre.symm
    have h3 := bytes_take_le cur l.length
    rw [← this] at h3
    omega
  have hl2 := congrArg List.length hpre
  rw [List.length_take, List.length_append] at hl2
  rw [take_of_append (by omega)] at hpre
  refine ⟨l.length - cur.length, by omega, by omega, ?_, ?_⟩
  · have := congrArg (fun x => (bytes x).length) hpre
    rw [Cedar.bytes_append, List.length_append] at this
    omega
  · rw [hpre, ← ids_bytes hl hlt, e]; exact h

theorem ids_at {lines : List (List Nat)} (hl : ∀ l ∈ lines, Text l) {cur w : List Nat} (hc : Text cur) (hw : Text w)
    (n : Nat) : ids (lines.map bytes) (bytes cur ++ (bytes w).take (bytes (w.take n)).length) =
      ids lines (cur ++ w.take n) := by
  rw [Cedar.take_bytes, ← Cedar.bytes_append, ids_bytes hl (text_append hc (text_take hw n))]

theorem cut_bytes {lines : List (List Nat)} (hl : ∀ l ∈ lines, Text l) {cur w : List Nat} (hc : Text cur)
    (hw : Text w) : cut (ids (lines.map bytes)) (bytes cur) (bytes w) (bytes w).length =
      (cut (ids lines) cur w w.length).map (fun p => ((bytes (w.take p.1)).length, p.2)) := by
  cases h : cut (ids lines) cur w w.length with
  | none =>
    rw [cut_none] at h
    rw [Option.map_none, cut_none]
    intro k hk hk2
    cases hi : ids (lines.map bytes) (bytes cur ++ (bytes w).take k) with
    | none => rfl
    | some v =>
      obtain ⟨n, n1, n2, _, n4⟩ := boundary hl hc hw hk hk2 hi
      rw [h n n1 n2] at n4; cases n4
  | some p =>
    obtain ⟨n, v⟩ := p
    obtain ⟨h1, h2, h3, h4⟩ := cut_some.mp h
    rw [Option.map_some, cut_some]
    refine ⟨?_, bytes_take_le w n, ?_, ?_⟩
    · have := Cedar.bytes_take_lt (w := w) (i := 0) (j := n) h1 h2
      dsimp only
      omega
    · dsimp only; rw [ids_at hl hc hw, h3]
    · intro k hk hk2
      cases hi : ids (lines.map bytes) (bytes cur ++ (bytes w).take k) with
      | none => rfl
      | some v' =>
        dsimp only at hk
        obtain ⟨j, j1, j2, j3, j4⟩ := boundary hl hc hw (by omega) hk2 hi
        have : n < j := by
          by_contra hcon
          have e : w.take j = (w.take n).take j := by rw [List.take_take, Nat.min_eq_left (by omega)]
          have := bytes_take_le (w.take n) j
          rw [← e] at this
          omega
        rw [h4 j this j2] at j4; cases j4

/-- The reference on the bytes of a `str` is the reference on its code points: no piece ends inside a character. -/
theorem greedy_bytes {lines : List (List Nat)} (hl : ∀ l ∈ lines, Text l) {pre : List Nat} (hp : Text pre) :
    ∀ (N : Nat) (cur w : List Nat), w.length = N → Text cur → Text w →
    greedy (ids (lines.map bytes)) (bytes pre) (bytes cur) (bytes w) =
      (greedy (ids lines) pre cur w).map (fun l => l.map (fun x => (bytes x.1, x.2))) := by
  intro N
  induction N using Nat.strong_induction_on with
  | _ N ih =>
    intro cur w hN hc hw
    by_cases hne : w = []
    · subst hne; rw [bytes_nil, greedy_nil, greedy_nil]; rfl
    · have hne2 : bytes w ≠ [] := Cedar.bytes_ne_nil hne
      have hcb := cut_bytes hl hc hw
      cases h : cut (ids lines) cur w w.length with
      | none =>
        rw [h] at hcb
        rw [greedy_none hne h, greedy_none hne2 hcb]; rfl
      | some p =>
        obtain ⟨n, v⟩ := p
        rw [h] at hcb
        obtain ⟨h1, h2, _, _⟩ := cut_some.mp h
        rw [greedy_some hne h, greedy_some hne2 hcb]
        dsimp only
        rw [bytes_drop, Cedar.take_bytes, ih (w.drop n).length (by rw [List.length_drop]; omega) pre (w.drop n) rfl hp
          (text_drop hw n), ← Cedar.bytes_append, Option.map_map, Option.map_map]
        rfl

/-- Every piece of the reference is in the vocabulary, and the pieces without their prefixes are the word. -/
theorem greedy_pieces {V : List Nat → Option Int} {pre : List Nat} : ∀ (N : Nat) (cur w : List Nat)
    (l : List (List Nat × Int)), w.length = N → greedy V pre cur w = some l →
    (∀ x ∈ l, V x.1 = some x.2) ∧ ∃ parts : List (List Nat), w = parts.flatten ∧ (∀ q ∈ parts, q ≠ []) ∧
      ∀ q qs, parts = q :: qs → l.map (·.1) = (cur ++ q) :: qs.map (pre ++ ·) := by
  intro N
  induction N using Nat.strong_induction_on with
  | _ N ih =>
    intro cur w l hN h
    by_cases hne : w = []
    · subst hne
      rw [greedy_nil] at h
      obtain rfl := Option.some.inj h
      exact ⟨by simp, [], rfl, by simp, by simp⟩
    · cases hc : cut V cur w w.length with
      | none => rw [greedy_none hne hc] at h; cases h
      | some p =>
        obtain ⟨n, v⟩ := p
        obtain ⟨h1, h2, h3, _⟩ := cut_some.mp hc
        rw [greedy_some hne hc] at h
        obtain ⟨r, hr, rfl⟩ := Option.map_eq_some_iff.mp h
        obtain ⟨i1, parts, i2, i3, i4⟩ := ih (w.drop n).length (by rw [List.length_drop]; omega) pre (w.drop n) r rfl hr
        refine ⟨?_, w.take n :: parts, by rw [List.flatten_cons, ← i2, List.take_append_drop], ?_, ?_⟩
        · intro x hx
          rcases List.mem_cons.mp hx with rfl | hx
          · exact h3
          · exact i1 x hx
        · intro q hq
          rcases List.mem_cons.mp hq with rfl | hq
          · intro e
            have := congrArg List.length e
            rw [List.length_take, List.length_nil] at this
            omega
          · exact i3 q hq
        · intro q qs e
          obtain ⟨rfl, rfl⟩ := List.cons.inj e
          rw [List.map_cons]
          cases parts with
          | nil =>
            rw [List.flatten_nil] at i2
            rw [i2, greedy_nil] at hr
            obtain rfl := Option.some.inj hr
            rfl
          | cons a b => rw [i4 a b rfl]; rfl

/-! ### Items and sentences -/

theorem decode_piece {w : List Nat} (h : Text w) : Utf8.utf8Decode (raw (bytes w)) = .ok w := by
  have : raw (bytes w) = Utf8.encode w := by
    unfold raw bytes
    rw [List.map_map]
    conv_rhs => rw [← List.map_id (Utf8.encode w)]
    apply List.map_congr_left
    intro u _
    simp
  rw [this]
  exact Utf8.decode_encode w h.le

/-- How a piece is given back. -/
def out1 (lookup : Bool) (mk : List Nat → Val) (x : List Nat × Int) : Val := if lookup then .int x.2 else mk x.1

/-- The tokens of one word: none of an empty word, the unknown token of a word that is too long or that the reference
cannot cut. -/
def expect (V : List Nat → Option Int) (pre : List Nat) (unk : List Nat × Int) (lookup : Bool) (max : Int)
    (mk : List Nat → Val) (w : List Nat) (size : Nat) : List Val :=
  if w = [] then []
  else if max < size then [out1 lookup mk unk]
  else
    match greedy V pre [] w with
    | some l => l.map (out1 lookup mk)
    | none => [out1 lookup mk unk]

/-- The tokens of one item of a sentence. -/
def tokens (lines : List (List Nat)) (pre : List Nat) (unk : List Nat × Int) (lookup : Bool) (max : Int) : Val → List Val
  | .bytes w => expect (ids (lines.map bytes)) (bytes pre) (bytes unk.1, unk.2) lookup max .bytes w w.length
  | .str w => expect (ids lines) pre unk lookup max .str w (Utf8.encode w).length
  | _ => []

/-- The words covered: without NUL, and not empty unless empty words are skipped. -/
def Good (skip : Bool) : Val → Prop
  | .bytes w => Bytes w ∧ (skip = false → w ≠ [])
  | .str w => Text w ∧ (skip = false → w ≠ [])
  | _ => False

theorem word_long {α : Type} {t : Tk} (p : List Nat → Int → α) {w : List Nat} (hne : w ≠ [])
    (hmax : t.max < (w.length : Int)) (out : List α) : word t p w out = some (out ++ [p t.unk t.unkId]) := by
  have hpos : 0 < w.length := List.length_pos_of_ne_nil hne
  have hsk : (t.skip && w.length == 0) = false := by
    rw [Bool.and_eq_false_iff]; right; rw [beq_eq_false_iff_ne]; omega
  unfold word
  split
  · unfold noPrefix
    simp only [hsk, Bool.false_eq_true, if_false]
    rw [if_pos (by omega)]
  · unfold withPrefix
    obtain ⟨b0, a1, _⟩ := write_ok (buf := List.replicate (w.length + t.pre.length) none) (off := 0) (xs := t.pre)
      (by simp)
    rw [a1]
    simp only [hsk, Bool.false_eq_true, if_false]
    rw [if_pos (by omega)]

theorem word_skip {α : Type} {t : Tk} (p : List Nat → Int → α) (hs : t.skip = true) (out : List α) :
    word t p [] out = some out := by
  unfold word
  split
  · unfold noPrefix; simp [hs]
  · unfold withPrefix
    obtain ⟨b0, a1, _⟩ := write_ok (buf := List.replicate (([] : List Nat).length + t.pre.length) none) (off := 0)
      (xs := t.pre) (by simp)
    rw [a1]; simp [hs]

/-- The tokenizer made of a vocabulary of `str`s. -/
structure Made (t : Tk) (lines : List (List Nat)) (pre : List Nat) (unk : List Nat × Int) (lookup skip : Bool)
    (max : Int) : Prop where
  ok : Ok t (ids (lines.map bytes))
  text : ∀ l ∈ lines, Text l
  tpre : Text pre
  tunk : Text unk.1
  epre : t.pre = bytes pre
  eunk : t.unk = bytes unk.1
  eid : t.unkId = unk.2
  elookup : t.lookup = lookup
  eskip : t.skip = skip
  emax : t.max = max

theorem item_ok {t : Tk} {lines : List (List Nat)} {pre : List Nat} {unk : List Nat × Int} {lookup skip : Bool}
    {max : Int} (h : Made t lines pre unk lookup skip max) {x : Val} (hx : Good skip x) (out : List Val) :
    item t x out = .ok (out ++ tokens lines pre unk lookup max x) := by
  obtain ⟨ok, text, tpre, tunk, epre, eunk, eid, elookup, eskip, emax⟩ := h
  cases x with
  | int _ => exact hx.elim
  | other => exact hx.elim
  | bytes w =>
    unfold item tokens expect
    dsimp only
    have hpost : ∀ y, post t false y.1 y.2 = out1 lookup .bytes y := by
      intro y; unfold post out1; rw [elookup]; simp
    by_cases hne : w = []
    · rw [if_pos hne, hne, word_skip _ (by
        cases hs : skip with
        | false => exact absurd hne (hx.2 hs)
        | true => rw [eskip, hs])]
      simp
    · rw [if_neg hne]
      by_cases hm : max < (w.length : Int)
      · rw [if_pos hm, word_long _ hne (by rw [emax]; exact hm), eunk, eid, ← hpost]
      · rw [if_neg hm, word_ok ok _ hx.1 hne (by rw [emax]; omega), epre]
        cases greedy (ids (lines.map bytes)) (bytes pre) [] w with
        | none => rw [result, eunk, eid, ← hpost]
        | some l =>
          rw [result]
          simp only [hpost]
  | str w =>
    unfold item tokens expect
    dsimp only
    have hpost : ∀ y : List Nat × Int, Text y.1 → post t true (bytes y.1) y.2 = out1 lookup .str y := by
      intro y hy; unfold post out1; rw [elookup, decode_piece hy]; simp
    by_cases hne : w = []
    · rw [if_pos hne, hne, bytes_nil, word_skip _ (by
        cases hs : skip with
        | false => exact absurd hne (hx.2 hs)
        | true => rw [eskip, hs])]
      simp
    · rw [if_neg hne]
      have hne2 : bytes w ≠ [] := Cedar.bytes_ne_nil hne
      rw [← Cedar.bytes_length]
      by_cases hm : max < ((bytes w).length : Int)
      · rw [if_pos hm, word_long _ hne2 (by rw [emax]; exact hm), eunk, eid, hpost _ tunk]
      · rw [if_neg hm, word_ok ok _ (Cedar.bytes_ok hx.1) hne2 (by rw [emax]; omega), epre]
        have hg := greedy_bytes text tpre _ [] w rfl (by intro c hc; simp at hc) hx.1
        rw [bytes_nil] at hg
        rw [hg]
        cases hgr : greedy (ids lines) pre [] w with
        | none => rw [Option.map_none, result, eunk, eid, hpost _ tunk]
        | some l =>
          rw [Option.map_some, result]
          rw [List.map_map]
          dsimp only
          refine congrArg (fun z => Res.ok (out ++ z)) ?_
          apply List.map_congr_left
          intro y hy
          have := (greedy_pieces _ [] w l rfl hgr).1 y hy
          exact hpost y (text _ (ids_some this).2.2)

theorem sentence_run {t : Tk} {lines : List (List Nat)} {pre : List Nat} {unk : List Nat × Int} {lookup skip : Bool}
    {max : Int} (h : Made t lines pre unk lookup skip max) : ∀ (xs : List Val), (∀ x ∈ xs, Good skip x) →
    ∀ (out : List Val) (lens : List Int), sentence t xs out lens =
      .ok (out ++ xs.flatMap (tokens lines pre unk lookup max),
        lens ++ xs.map (fun x => ((tokens lines pre unk lookup max x).length : Int)))
  | [], _, out, lens => by simp [sentence]
  | x :: xs, hx, out, lens => by
    rw [sentence, item_ok h (hx x (by simp))]
    dsimp only
    rw [sentence_run h xs (fun y hy => hx y (by simp [hy]))]
    have e : ((out ++ tokens lines pre unk lookup max x).length : Int) - out.length =
        (tokens lines pre unk lookup max x).length := by rw [List.length_append]; omega
    rw [e]
    simp only [List.flatMap_cons, List.map_cons, List.append_assoc, List.singleton_append]

theorem max_wrap {max : Int} (h1 : -2 ^ 31 ≤ max) (h2 : max < 2 ^ 31) : Cedar.wrap max = max := by
  unfold Cedar.wrap
  exact Int.bmod_eq_of_le (by omega) (by omega)

/-- **C120, C121: `tokenize` and `tokenize_with_meta`.**  For every vocabulary of `str`s that contains the unknown token
(without NUL, with at most 64 entries nested in one another and at most 2³¹ lines) the constructor succeeds, and every
sentence of `bytes` and `str` words without NUL is cut, word by word, like by the reference: greedily into the longest
pieces of the vocabulary, or into the unknown token if this fails or the word has more than `max_bytes_per_token`
bytes.  The identifiers are the numbers of the lines.  The second result has the number of tokens of each word. -/
theorem tokenize_partial {lines : List (List Nat)} (hl : ∀ l ∈ lines, Text l) (hv : Vocab (lines.map bytes))
    {unk pre : List Nat} (hu : unk ∈ lines) (hune : unk ≠ []) (hp : Text pre) (lookup skip : Bool) {max : Int}
    (m1 : -2 ^ 31 ≤ max) (m2 : max < 2 ^ 31) (junk : Int) :
    ∃ t v, new (lines.map bytes) lookup (some (bytes unk)) (bytes pre) skip max junk = .ok t ∧
      ids lines unk = some v ∧
      ∀ xs, (∀ x ∈ xs, Good skip x) → sentence t xs [] [] =
        .ok (xs.flatMap (tokens lines pre (unk, v) lookup max),
          xs.map (fun x => ((tokens lines pre (unk, v) lookup max x).length : Int))) := by
  rcases new_ok hv lookup (Cedar.bytes_ok (hl unk hu)) (Cedar.bytes_ne_nil hune) (Cedar.bytes_ok hp) skip max junk with
    ⟨t, v, n1, n2, n3, n4, n5, n6, n7, n8, n9⟩ | ⟨_, hno⟩
  · rw [ids_bytes hl (hl unk hu)] at n2
    refine ⟨t, v, n1, n2, fun xs hxs => ?_⟩
    have hm : Made t lines pre (unk, v) lookup skip max :=
      ⟨n3, hl, hp, hl unk hu, n9, n7, n8, n5, n4, by rw [n6, max_wrap m1 m2]⟩
    rw [sentence_run hm xs hxs]
    rfl
  · exact absurd (List.mem_map_of_mem hu) hno

/-- The numbers of tokens add up. -/
theorem lens_sum (f : Val → List Val) (xs : List Val) :
    (xs.map (fun x => ((f x).length : Int))).sum = (xs.flatMap f).length := by
  induction xs with
  | nil => rfl
  | cons x xs ih => rw [List.map_cons, List.sum_cons, ih, List.flatMap_cons, List.length_append]; omega

/-- **C120, a word in the vocabulary is one token.** -/
theorem whole_word {V : List Nat → Option Int} {pre w : List Nat} {v : Int} (hne : w ≠ []) (h : V w = some v) :
    greedy V pre [] w = some [(w, v)] := by
  have hc : cut V [] w w.length = some (w.length, v) :=
    cut_some.mpr ⟨List.length_pos_of_ne_nil hne, le_refl _, by simpa using h, fun k h1 h2 => by omega⟩
  rw [greedy_some hne hc, List.drop_length, greedy_nil]
  simp

/-! ### What is not true -/

/-- **C120, empty words.**  With `skip_empty=False` an empty word gives the token `""` with the identifier -1, which no
entry of the vocabulary has. -/
theorem empty_word_refuted {t : Tk} {V : List Nat → Option Int} (ht : Ok t V) (hs : t.skip = false) (hm : 0 ≤ t.max)
    (out : List Val) : item t (.bytes []) out = .ok (out ++ [if t.lookup then .int (-1) else .bytes []]) ∧
      ∀ k, V k ≠ some (-1) := by
  refine ⟨?_, fun k hk => (ht.val k _ hk).1 rfl⟩
  obtain ⟨m, v, s1, s2, s3, _, _⟩ := search_ok ht.rep ht.val ht.shallow (w := []) (by intro c hc; simp at hc) (-1)
  have hm0 : m = 0 := by simpa using s2
  subst hm0
  have hp : post t false [] v = if t.lookup then .int (-1) else .bytes [] := by
    unfold post; rw [s3 rfl]; simp
  have hw : word t (post t false) [] out = some (out ++ [post t false [] v]) := by
    unfold word
    split
    · unfold noPrefix
      rw [s1]
      simp [hs, hm]
    · unfold withPrefix
      obtain ⟨b0, a1, _⟩ := write_ok (buf := List.replicate (([] : List Nat).length + t.pre.length) none) (off := 0)
        (xs := t.pre) (by simp)
      rw [a1, s1]
      simp [hs, hm]
  unfold item
  dsimp only
  rw [hw, hp]

/-- **C121, `max_bytes_per_token`.**  The number is cut to 32 bits: with `2**31` every word that is not empty is
unknown, also those in the vocabulary. -/
theorem max_bytes_refuted {lines : List (List Nat)} (hv : Vocab lines) {unk pre : List Nat} (hu : unk ∈ lines)
    (hune : unk ≠ []) (hp : Bytes pre) (skip : Bool) (junk : Int) :
    ∃ t v, new lines true (some unk) pre skip (2 ^ 31) junk = .ok t ∧ ids lines unk = some v ∧
      ∀ w, w ≠ [] → ∀ out, item t (.bytes w) out = .ok (out ++ [.int v]) := by
  rcases new_ok hv true (hv.bytes unk hu) hune hp skip (2 ^ 31) junk with
    ⟨t, v, n1, n2, n3, n4, n5, n6, n7, n8, n9⟩ | ⟨_, hno⟩
  · refine ⟨t, v, n1, n2, fun w hw out => ?_⟩
    have hmx : t.max < (w.length : Int) := by
      rw [n6]
      have : Cedar.wrap (2 ^ 31) = -2 ^ 31 := by decide
      rw [this]; omega
    unfold item
    dsimp only
    rw [word_long _ hw hmx]
    dsimp only
    unfold post
    rw [n5, n8]; rfl
  · exact absurd hu hno

/-- **C120, more than 64 nested entries.**  The results of the trie are then read outside of the array that holds
them. -/
theorem nested_refuted {lines : List (List Nat)} (hb : ∀ l ∈ lines, Bytes l) (hc : lines.length ≤ 2 ^ 31)
    {t : Tk} (ht : newMapping (readVocab [] 0 lines) = some t.trie) (p : List Nat → Int → Val) {w : List Nat}
    (hw : Bytes w) (hm : (w.length : Int) ≤ t.max) (hf : 64 < (found (ids lines) [] 0 w).length) (out : List Val) :
    word t p w out = none := by
  obtain ⟨s, h1, h2⟩ := newMapping_ok hb hc
  rw [h1] at ht
  have hs := (Cedar.many_matches_refuted h2 hw ids_val hf).1
  rw [Option.some.inj ht] at hs
  have hne : w ≠ [] := by rintro rfl; simp [found] at hf
  have hpos : 0 < w.length := List.length_pos_of_ne_nil hne
  have hsk : (t.skip && w.length == 0) = false := by
    rw [Bool.and_eq_false_iff]; right; rw [beq_eq_false_iff_ne]; omega
  have hse : search t.trie w (-1) = none := by unfold search; rw [hs]
  unfold word
  split
  · unfold noPrefix
    simp only [hsk, Bool.false_eq_true, if_false]
    rw [if_neg (by omega), hse]
  · unfold withPrefix
    obtain ⟨b0, a1, _⟩ := write_ok (buf := List.replicate (w.length + t.pre.length) none) (off := 0) (xs := t.pre)
      (by simp)
    rw [a1]
    simp only [hsk, Bool.false_eq_true, if_false]
    rw [if_neg (by omega), hse]

/-! ### Examples -/

/-- A vocabulary nested 65 deep. -/
example : 64 < (found (ids ((List.range 65).map (fun i => List.replicate (i + 1) 97))) [] 0
    (List.replicate 65 97)).length := by decide +kernel

/-- `[UNK]`, `un`, `##aff`, `##able`, `é`, `##é`. -/
def exLines : List (List Nat) :=
  [[91, 85, 78, 75, 93], [117, 110], [35, 35, 97, 102, 102], [], [35, 35, 97, 98, 108, 101], [0xE9], [35, 35, 0xE9]]

theorem exLines_text : ∀ l ∈ exLines, Text l := by
  intro l hl x hx
  have : ∀ l ∈ exLines, ∀ x ∈ l, 0 < x ∧ x ≤ 0x10FFFF := by decide
  exact this l hl x hx

theorem exLines_vocab : Vocab (exLines.map bytes) := by
  refine ⟨?_, by decide, shallow_of_length (by decide)⟩
  intro l hl
  obtain ⟨k, hk, rfl⟩ := List.mem_map.mp hl
  exact Cedar.bytes_ok (exLines_text k hk)

/-- The theorem applies to it, and gives for `["unaffable", "éé", "unx", b"un"]` the tokens `un ##aff ##able`, `é ##é`,
`[UNK]` and `un`. -/
example : ∃ t, new (exLines.map bytes) false (some (bytes [91, 85, 78, 75, 93])) (bytes [35, 35]) true 100 7 = .ok t ∧
    sentence t [.str [117, 110, 97, 102, 102, 97, 98, 108, 101], .str [0xE9, 0xE9], .str [117, 110, 120],
      .bytes [117, 110]] [] [] =
    .ok ([.str [117, 110], .str [35, 35, 97, 102, 102], .str [35, 35, 97, 98, 108, 101], .str [0xE9], .str [35, 35, 0xE9],
      .str [91, 85, 78, 75, 93], .bytes [117, 110]], [3, 2, 1, 1]) := by
  obtain ⟨t, v, h1, h2, h3⟩ := tokenize_partial exLines_text exLines_vocab (unk := [91, 85, 78, 75, 93]) (pre := [35, 35])
    (by decide) (by decide) (by unfold Cedar.Text; decide) false true (max := 100) (by decide) (by decide) 7
  refine ⟨t, h1, ?_⟩
  have hv : v = 0 := by
    have : ids exLines [91, 85, 78, 75, 93] = some 0 := by decide
    rw [this] at h2; exact (Option.some.inj h2).symm
  subst hv
  rw [h3 _ (by
    intro x hx
    have : ∀ w : List Nat, (∀ c ∈ w, 0 < c ∧ c < 256) → Text w ∧ Bytes w :=
      fun w h => ⟨fun c hc => ⟨(h c hc).1, by have := (h c hc).2; omega⟩, h⟩
    simp only [List.mem_cons, List.not_mem_nil, or_false] at hx
    rcases hx with rfl | rfl | rfl | rfl
    · exact ⟨(this _ (by decide)).1, by decide⟩
    · exact ⟨(this _ (by decide)).1, by decide⟩
    · exact ⟨(this _ (by decide)).1, by decide⟩
    · exact ⟨(this _ (by decide)).2, by decide⟩)]
  decide +kernel

end Verif.WordPiece
