import Verif.EmojiProps
/-
The emoji filter on `str`.
-/
namespace Verif.Emoji
open Verif.Cedar (St Bytes Represents total found Text bytes)
open Verif.WordPiece (newMapping search Res Val raw cut ids Shallow cut_some cut_none ids_some ids_mem)

/-- The first byte of a character is no continuation byte, the others are. -/
theorem encodeOne_shape {x : Nat} (hx : x ≤ 0x10FFFF) : ∃ u t, (Utf8.encodeOne x).map UInt8.toNat = u :: t ∧
    (u < 128 ∨ 192 ≤ u) ∧ ∀ b ∈ t, 128 ≤ b ∧ b < 192 := by
  rw [Utf8.encodeOne_eq]
  split
  · exact ⟨x, [], by simp [Utf8.toNat_ofNat x (by omega)], by omega, by simp⟩
  split
  · refine ⟨192 + x / 64, [128 + x % 64], ?_, by omega, ?_⟩
    · simp only [List.map_cons, List.map_nil]
      rw [Utf8.toNat_ofNat _ (by omega), Utf8.toNat_ofNat _ (by omega)]
    · intro b hb; simp only [List.mem_cons, List.not_mem_nil, or_false] at hb; omega
  split
  · refine ⟨224 + x / 4096, [128 + x / 64 % 64, 128 + x % 64], ?_, by omega, ?_⟩
    · simp only [List.map_cons, List.map_nil]
      rw [Utf8.toNat_ofNat _ (by omega), Utf8.toNat_ofNat _ (by omega), Utf8.toNat_ofNat _ (by omega)]
    · intro b hb; simp only [List.mem_cons, List.not_mem_nil, or_false] at hb; omega
  · refine ⟨240 + x / 262144, [128 + x / 4096 % 64, 128 + x / 64 % 64, 128 + x % 64], ?_, by omega, ?_⟩
    · simp only [List.map_cons, List.map_nil]
      rw [Utf8.toNat_ofNat _ (by omega), Utf8.toNat_ofNat _ (by omega), Utf8.toNat_ofNat _ (by omega),
        Utf8.toNat_ofNat _ (by omega)]
    · intro b hb; simp only [List.mem_cons, List.not_mem_nil, or_false] at hb; omega

theorem bytes_cons (x : Nat) (w : List Nat) : bytes (x :: w) = (Utf8.encodeOne x).map UInt8.toNat ++ bytes w := by
  unfold bytes; rw [Utf8.encode, List.map_append]

/-- No code begins inside a character. -/
theorem longest_inside {codes : List (List Nat)} (hc : ∀ k ∈ codes, Text k) {b : Nat} (hb : 128 ≤ b ∧ b < 192)
    (l : List Nat) : longest (codes.map bytes) (b :: l) = none := by
  rw [longest_none]
  intro k hk hk2 hmem
  obtain ⟨q, hq, e⟩ := List.mem_map.mp hmem
  obtain ⟨j, rfl⟩ : ∃ j, k = j + 1 := ⟨k - 1, by omega⟩
  rw [List.take_succ_cons] at e
  cases q with
  | nil => rw [WordPiece.bytes_nil] at e; cases e
  | cons x q =>
    obtain ⟨u, t, h1, h2, _⟩ := encodeOne_shape (hc _ hq x (by simp)).2
    rw [bytes_cons, h1, List.cons_append] at e
    have := (List.cons.inj e).1
    omega

theorem segs_inside {codes : List (List Nat)} (hc : ∀ k ∈ codes, Text k) : ∀ (t l : List Nat),
    (∀ b ∈ t, 128 ≤ b ∧ b < 192) → segs (codes.map bytes) (t ++ l) = t.map .inl ++ segs (codes.map bytes) l
  | [], l, _ => rfl
  | b :: t, l, h => by
    rw [List.cons_append, segs_none (longest_inside hc (h b (by simp)) _),
      segs_inside hc t l (fun x hx => h x (by simp [hx]))]
    rfl

theorem longest_bytes {codes : List (List Nat)} (hc : ∀ k ∈ codes, Text k) {w : List Nat} (hw : Text w) :
    longest (codes.map bytes) (bytes w) = (longest codes w).map (fun n => (bytes (w.take n)).length) := by
  unfold longest
  have := WordPiece.cut_bytes hc (cur := []) (by intro c hc; simp at hc) hw
  rw [WordPiece.bytes_nil] at this
  rw [this, Option.map_map, Option.map_map]
  rfl

/-- A segment in bytes. -/
def enc : Nat ⊕ List Nat → List (Nat ⊕ List Nat)
  | .inl c => ((Utf8.encodeOne c).map UInt8.toNat).map .inl
  | .inr k => [.inr (bytes k)]

theorem segs_bytes {codes : List (List Nat)} (hc : ∀ k ∈ codes, Text k) : ∀ (N : Nat) (w : List Nat), w.length = N →
    Text w → segs (codes.map bytes) (bytes w) = (segs codes w).flatMap enc := by
  intro N
  induction N using Nat.strong_induction_on with
  | _ N ih =>
    intro w hN hw
    cases w with
    | nil => rw [WordPiece.bytes_nil, segs, segs]; rfl
    | cons c l =>
      have hlb := longest_bytes hc hw
      cases h : longest codes (c :: l) with
      | none =>
        rw [h, Option.map_none] at hlb
        obtain ⟨u, t, h1, _, h3⟩ := encodeOne_shape (hw c (by simp)).2
        rw [bytes_cons, h1, List.cons_append] at hlb ⊢
        rw [segs_none hlb, segs_inside hc t _ h3, segs_none h, List.flatMap_cons, enc, h1,
          ih l.length (by simp at hN; omega) l rfl (fun x hx => hw x (by simp [hx]))]
        rfl
      | some n =>
        rw [h, Option.map_some] at hlb
        obtain ⟨n1, n2, _, _⟩ := longest_some.mp h
        rw [segs_some hlb, segs_some h, Cedar.take_bytes, WordPiece.bytes_drop,
          ih ((c :: l).drop n).length (by rw [List.length_drop]; omega) _ rfl (WordPiece.text_drop hw n),
          List.flatMap_cons, enc]
        rfl

theorem enc_isRight (x : Nat ⊕ List Nat) : ∀ y ∈ enc x, y.isRight = x.isRight := by
  intro y hy
  cases x with
  | inl c =>
    obtain ⟨b, _, rfl⟩ := List.mem_map.mp hy
    rfl
  | inr k => rw [enc, List.mem_singleton] at hy; rw [hy]; rfl

theorem enc_ne (x : Nat ⊕ List Nat) : enc x ≠ [] := by
  cases x with
  | inl c =>
    have := Cedar.encodeOne_length c
    intro e
    have := congrArg List.length e
    rw [enc, List.length_map, List.length_map, List.length_nil] at this
    omega
  | inr k => simp [enc]

theorem dropWhile_enc : ∀ (l : List (Nat ⊕ List Nat)),
    (l.flatMap enc).dropWhile (·.isRight) = (l.dropWhile (·.isRight)).flatMap enc
  | [] => rfl
  | .inr k :: l => by
    rw [List.dropWhile_cons_of_pos (by rfl), List.flatMap_cons, enc, List.singleton_append,
      List.dropWhile_cons_of_pos (by rfl), dropWhile_enc l]
  | .inl c :: l => by
    rw [List.dropWhile_cons_of_neg (by simp), List.flatMap_cons]
    have hne := enc_ne (.inl c)
    have hr := enc_isRight (.inl c)
    cases h : enc (.inl c) with
    | nil => exact absurd h hne
    | cons y ys =>
      have := hr y (by rw [h]; simp)
      rw [List.cons_append, List.dropWhile_cons_of_neg (by rw [this]; simp)]

theorem merged_inls (t : List Nat) (l : List (Nat ⊕ List Nat)) : merged (t.map .inl ++ l) = t.map .inl ++ merged l := by
  induction t with
  | nil => rfl
  | cons b t ih => rw [List.map_cons, List.cons_append, merged_inl, ih]; rfl

theorem merged_enc : ∀ (N : Nat) (l : List (Nat ⊕ List Nat)), l.length = N →
    merged (l.flatMap enc) = (merged l).flatMap enc := by
  intro N
  induction N using Nat.strong_induction_on with
  | _ N ih =>
    intro l hN
    match l, hN with
    | [], _ => rw [List.flatMap_nil, merged]; rfl
    | .inl c :: l, hN =>
      rw [List.flatMap_cons, merged_inl, List.flatMap_cons, enc, merged_inls, ih l.length (by simp at hN; omega) l rfl]
    | .inr k :: l, hN =>
      have hsub := (List.dropWhile_sublist (fun x : Nat ⊕ List Nat => x.isRight) (l := l)).length_le
      rw [List.flatMap_cons, merged_inr, List.flatMap_cons, enc, List.singleton_append, merged_inr, dropWhile_enc,
        ih _ (by simp at hN; omega) _ rfl]
      rfl

theorem bytes_flatMap (f : Nat ⊕ List Nat → List Nat) (l : List (Nat ⊕ List Nat)) :
    bytes (l.flatMap f) = l.flatMap (fun x => bytes (f x)) := by
  induction l with
  | nil => rfl
  | cons x l ih => rw [List.flatMap_cons, List.flatMap_cons, Cedar.bytes_append, ih]

theorem replaced_enc (r : List Nat) (l : List (Nat ⊕ List Nat)) :
    replaced (bytes r) (l.flatMap enc) = bytes (replaced r l) := by
  unfold replaced
  rw [bytes_flatMap, List.flatMap_assoc]
  congr 1
  funext x
  cases x with
  | inl c =>
    rw [enc]
    dsimp only
    rw [bytes_cons, WordPiece.bytes_nil, List.append_nil]
    induction (Utf8.encodeOne c).map UInt8.toNat with
    | nil => rfl
    | cons b t ih => rw [List.map_cons, List.flatMap_cons, ih]; rfl
  | inr k => rw [enc, List.flatMap_singleton]

theorem mem_segs {codes : List (List Nat)} {w : List Nat} {c : Nat} (h : .inl c ∈ segs codes w) : c ∈ w := by
  have := (segs_join (codes := codes) _ w rfl).1
  rw [← this, List.mem_flatMap]
  exact ⟨_, h, by simp⟩

theorem mem_merged : ∀ (N : Nat) (l : List (Nat ⊕ List Nat)), l.length = N → ∀ x ∈ merged l, x ∈ l := by
  intro N
  induction N using Nat.strong_induction_on with
  | _ N ih =>
    intro l hN x hx
    match l, hN with
    | [], _ => rw [merged] at hx; exact hx
    | .inl c :: l, hN =>
      rw [merged_inl] at hx
      rcases List.mem_cons.mp hx with e | e
      · rw [e]; simp
      · exact List.mem_cons_of_mem _ (ih l.length (by simp at hN; omega) l rfl x e)
    | .inr k :: l, hN =>
      have hsl := List.dropWhile_sublist (fun x : Nat ⊕ List Nat => x.isRight) (l := l)
      have hsub := hsl.length_le
      rw [merged_inr] at hx
      rcases List.mem_cons.mp hx with e | e
      · rw [e]; simp
      · exact List.mem_cons_of_mem _ (hsl.subset (ih _ (by simp at hN; omega) _ rfl x e))

theorem replaced_text {r w : List Nat} (hr : Text r) (hw : Text w) {l : List (Nat ⊕ List Nat)}
    (h : ∀ c, .inl c ∈ l → c ∈ w) : Text (replaced r l) := by
  intro c hc
  obtain ⟨x, hx, hcx⟩ := List.mem_flatMap.mp hc
  cases x with
  | inl d =>
    rw [List.mem_singleton] at hcx
    exact hw c (hcx ▸ h d hx)
  | inr k => exact hr c hcx

theorem decoded_bytes {w : List Nat} (h : Text w) : decoded (some (bytes w)) = .ok (.str w) := by
  unfold decoded
  dsimp only
  rw [WordPiece.decode_piece h]

/-- **C122 on `str`.**  The same over code points, if the codes are `str`s: nothing is found inside of a character. -/
theorem str_partial {codes : List (List Nat)} (hc : ∀ k ∈ codes, Text k) (h : Codes (codes.map bytes)) :
    ∃ s, new (codes.map bytes) = some s ∧ ∀ w, Text w →
    filterM s (.str w) = .ok (.str (stripped (segs codes w))) ∧
    ∀ r, Text r → replaceM s (.str w) (.str r) true = .ok (.str (replaced r (segs codes w))) ∧
      replaceM s (.str w) (.str r) false = .ok (.str (replaced r (merged (segs codes w)))) := by
  obtain ⟨s, h1, h2⟩ := bytes_partial h
  refine ⟨s, h1, fun w hw => ?_⟩
  obtain ⟨f1, f2⟩ := h2 (bytes w) (Cedar.bytes_ok hw)
  have hsb := segs_bytes hc _ w rfl hw
  have hnil : Text [] := by intro c hc; simp at hc
  have hm1 : ∀ c, .inl c ∈ segs codes w → c ∈ w := fun c => mem_segs
  have hm2 : ∀ c, .inl c ∈ merged (segs codes w) → c ∈ w := fun c hc => mem_segs (mem_merged _ _ rfl _ hc)
  have conv : ∀ (o : Option (List Nat)) (b : List Nat), (match o with | none => Res.ub | some b => Res.ok (Val.bytes b)) = .ok (.bytes b) → o = some b := by
    intro o b ho
    cases o with
    | none => cases ho
    | some x => injection ho with ho; injection ho with ho; rw [ho]
  refine ⟨?_, fun r hr => ⟨?_, ?_⟩⟩
  · unfold filterM at f1 ⊢
    dsimp only at f1 ⊢
    rw [conv _ _ f1, hsb, ← replaced_nil, ← WordPiece.bytes_nil, replaced_enc, decoded_bytes (replaced_text hnil hw hm1)]
    rfl
  · have := (f2 (bytes r)).1
    unfold replaceM at this ⊢
    dsimp only at this ⊢
    rw [conv _ _ this, hsb, replaced_enc, decoded_bytes (replaced_text hr hw hm1)]
  · have := (f2 (bytes r)).2
    unfold replaceM at this ⊢
    dsimp only at this ⊢
    rw [conv _ _ this, hsb, merged_enc _ _ rfl, replaced_enc, decoded_bytes (replaced_text hr hw hm2)]

/-- Where no code occurs nothing changes. -/
theorem unchanged {codes : List (List Nat)} {w : List Nat}
    (h : ∀ i j, i < j → j ≤ w.length → (w.take j).drop i ∉ codes) (r : List Nat) : replaced r (segs codes w) = w := by
  have key : ∀ (l p : List Nat), p ++ l = w → replaced r (segs codes l) = l := by
    intro l
    induction l with
    | nil => intro p _; rw [segs]; rfl
    | cons c l ih =>
      intro p hp
      have hn : longest codes (c :: l) = none := by
        rw [longest_none]
        intro k hk hk2 hc
        refine h p.length (p.length + k) (by omega) (by rw [← hp, List.length_append]; omega) ?_
        rw [← hp, List.take_length_add_append, List.drop_left]
        exact hc
      rw [segs_none hn]
      unfold replaced at ih ⊢
      rw [List.flatMap_cons, ih (p ++ [c]) (by rw [List.append_assoc]; exact hp)]
      rfl
  exact key w [] rfl

/-! ### `check_pos` -/

/-- The place meant by `pos`: from the end if negative, and inside the text. -/
def place (pos : Int) (len : Nat) : Nat := if pos < 0 then (pos + len).toNat else min pos.toNat len

theorem corrected_eq (pos : Int) (len : Nat) : corrected pos len = place pos len := by
  unfold corrected place
  split
  · split <;> omega
  · split <;> omega

/-- **C122, `check_pos` on bytes.**  The length of the longest code at that place, or 0. -/
theorem checkPos_bytes {codes : List (List Nat)} (h : Codes codes) : ∃ s, new codes = some s ∧ ∀ w, Bytes w →
    ∀ pos, checkPos s (.bytes w) pos = .ok (((longest codes (w.drop (place pos w.length))).getD 0 : Nat) : Int) := by
  obtain ⟨s, h1, h2⟩ := new_ok h
  refine ⟨s, h1, fun w hw pos => ?_⟩
  obtain ⟨m, v, s1, s2, s3⟩ := search_longest h h2 (WordPiece.Bytes.drop hw (place pos w.length))
  unfold checkPos
  dsimp only
  rw [corrected_eq, s1]
  dsimp only
  by_cases hm : m = 0
  · rw [s2 hm, hm]; rfl
  · rw [s3 hm]; rfl

/-- At the beginning of a `str` it is the length of the longest code in code points. -/
theorem checkPos_str_partial {codes : List (List Nat)} (hc : ∀ k ∈ codes, Text k) (h : Codes (codes.map bytes)) :
    ∃ s, new (codes.map bytes) = some s ∧ ∀ w, Text w → ∀ pos, place pos w.length = 0 →
      checkPos s (.str w) pos = .ok (((longest codes w).getD 0 : Nat) : Int) := by
  obtain ⟨s, h1, h2⟩ := new_ok h
  refine ⟨s, h1, fun w hw pos hpos => ?_⟩
  obtain ⟨m, v, s1, s2, s3⟩ := search_longest h h2 (Cedar.bytes_ok hw)
  have hlb := longest_bytes hc hw
  unfold checkPos
  dsimp only
  rw [corrected_eq, hpos, if_neg (by omega), List.drop_zero, s1]
  dsimp only
  cases hl : longest codes w with
  | none =>
    rw [hl, Option.map_none] at hlb
    have hm : m = 0 := by
      by_contra hm
      rw [s3 hm] at hlb; cases hlb
    rw [hm, List.take_zero, Utf8.countUnitSize_eq, Utf8.dec_nil]
    rfl
  | some n =>
    rw [hl, Option.map_some] at hlb
    have hm : m ≠ 0 := by
      intro hm
      rw [s2 hm] at hlb; cases hlb
    rw [s3 hm] at hlb
    have e : (Utf8.encode w).take m = Utf8.encode (w.take n) := by
      rw [Option.some.inj hlb, Cedar.bytes_length]
      conv_lhs => rw [← List.take_append_drop n w, Utf8.encode_append, List.take_append_drop, List.take_left]
    rw [e]
    have h5 := Utf8.dec_encode_append (w.take n) (WordPiece.text_take hw n).le []
    rw [List.append_nil, Utf8.dec_nil, List.append_nil] at h5
    rw [Utf8.countUnitSize_eq, h5, List.length_take, Nat.min_eq_left (longest_some.mp hl).2.1]
    rfl

/-- **C122, `check_pos` on `str` at another place than the beginning** reads behind the end of the `str`, for every
filter and every `str`. -/
theorem checkPos_str_refuted (s : St) {w : List Nat} {pos : Int} (h : place pos w.length ≠ 0) :
    checkPos s (.str w) pos = .ub := by
  unfold checkPos
  dsimp only
  rw [corrected_eq, if_pos (by omega)]

/-! ### What is not true -/

/-- **C122, the result may contain codes**: what is left of a code and what is right of it can be one. -/
theorem clean_refuted : stripped (segs [[97, 98]] [97, 97, 98, 98]) = [97, 98] := by decide +kernel

/-- **C122, an empty code** (`user_emojis=[""]`) ends the process. -/
theorem empty_code_refuted : new [[]] = none := by decide +kernel

/-- **C122, codes given as bytes** can cut a character of a `str`: `b"\xa9"` and `é`. -/
theorem bytes_code_refuted : (new [[0xA9]]).map (fun s => decide (filterM s (.str [0xE9]) = .ok (.str [0xE9]) ∨
    filterM s (.str [0xE9]) = .ok (.str []))) = some false := by decide +kernel

/-! ### Examples -/

/-- `:)` and `:))` and an emoji; the longest is taken. -/
def exCodes : List (List Nat) := [[58, 41], [58, 41, 41], [0x1F600]]

theorem exCodes_ok : Codes (exCodes.map bytes) := by
  refine ⟨by decide, ?_, shallow_of_length (by decide)⟩
  intro k hk
  obtain ⟨q, hq, rfl⟩ := List.mem_map.mp hk
  refine Cedar.bytes_ok ?_
  have : ∀ q ∈ exCodes, ∀ x ∈ q, 0 < x ∧ x ≤ 0x10FFFF := by decide
  exact this q hq

example : segs exCodes [97, 58, 41, 41, 0x1F600, 98, 58] =
    [.inl 97, .inr [58, 41, 41], .inr [0x1F600], .inl 98, .inl 58] := by decide +kernel
example : replaced [63] (merged (segs exCodes [97, 58, 41, 41, 0x1F600, 98, 58])) = [97, 63, 98, 58] := by
  decide +kernel
example : ∃ s, new (exCodes.map bytes) = some s ∧ replaceM s (.str [97, 58, 41, 41, 0x1F600, 98, 58]) (.str [63]) true =
    .ok (.str [97, 63, 63, 98, 58]) := by
  have ht : ∀ q ∈ exCodes, ∀ x ∈ q, 0 < x ∧ x ≤ 0x10FFFF := by decide
  obtain ⟨s, h1, h2⟩ := str_partial ht exCodes_ok
  refine ⟨s, h1, ?_⟩
  have := ((h2 [97, 58, 41, 41, 0x1F600, 98, 58] (by unfold Cedar.Text; decide)).2 [63] (by unfold Cedar.Text; decide)).1
  rw [this]
  decide +kernel

end Verif.Emoji
