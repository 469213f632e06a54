import Verif.StrFormat
import Verif.Utf8Props

/-! `str.format` (C138). -/
namespace Verif.StrFormat

open Verif.Utf8 (encode encodeOne utf8Decode DecRes encodeOne_eq encode_append decode_encode toNat_ofNat)

/-! ### What Python does -/

/-- The parts of a format string. -/
inductive Seg
  | ch (c : Nat)
  | openBrace
  | closeBrace
  | field
deriving DecidableEq

def Seg.ok : Seg → Prop
  | .ch c => c ≠ 123 ∧ c ≠ 125
  | _ => True

/-- How a part is written. -/
def Seg.source : Seg → List Nat
  | .ch c => [c]
  | .openBrace => [123, 123]
  | .closeBrace => [125, 125]
  | .field => [123, 125]

def source (l : List Seg) : List Nat := l.flatMap Seg.source

def fields : List Seg → Nat
  | [] => 0
  | .field :: l => fields l + 1
  | _ :: l => fields l

/-- The fields replaced by the arguments in order. -/
def subst : List Seg → List (List Nat) → Option (List Nat)
  | [], _ => some []
  | .ch c :: l, a => (subst l a).map (c :: ·)
  | .openBrace :: l, a => (subst l a).map (123 :: ·)
  | .closeBrace :: l, a => (subst l a).map (125 :: ·)
  | .field :: _, [] => none
  | .field :: l, t :: a => (subst l a).map (t ++ ·)

/-- `str` of a value; text of bytes is left open. -/
def pyText : Val → Option (List Nat)
  | .str s => some s
  | .bytes _ => none
  | .int i => some (chars (toString i))
  | .bool b => some (chars (if b then "True" else "False"))
  | .none => some (chars "None")

/-! ### Bytes -/

theorem big_ne {x : Nat} (h : 128 ≤ x) (h2 : x < 256) : UInt8.ofNat x ≠ 123 ∧ UInt8.ofNat x ≠ 125 := by
  have := toNat_ofNat x h2
  constructor
  · intro e; rw [e] at this; simp at this; omega
  · intro e; rw [e] at this; simp at this; omega

/-- No byte of another code point is a brace. -/
theorem plain {x : Nat} (h : x ≠ 123 ∧ x ≠ 125) : ∀ b ∈ encodeOne x, b ≠ 123 ∧ b ≠ 125 := by
  rw [encodeOne_eq]
  intro b hb
  split at hb
  · simp only [List.mem_singleton] at hb
    subst hb
    have := toNat_ofNat x (by omega)
    constructor
    · intro e; rw [e] at this; simp at this; omega
    · intro e; rw [e] at this; simp at this; omega
  split at hb
  · simp only [List.mem_cons, List.not_mem_nil, or_false] at hb
    rcases hb with rfl | rfl <;> exact big_ne (by omega) (by omega)
  split at hb
  · simp only [List.mem_cons, List.not_mem_nil, or_false] at hb
    rcases hb with rfl | rfl | rfl <;> exact big_ne (by omega) (by omega)
  split at hb
  · simp only [List.mem_cons, List.not_mem_nil, or_false] at hb
    rcases hb with rfl | rfl | rfl | rfl <;> exact big_ne (by omega) (by omega)
  · simp only [List.mem_cons, List.not_mem_nil, or_false] at hb
    rcases hb with rfl | rfl | rfl <;> decide

theorem loop_plain : ∀ {bs : List UInt8}, (∀ b ∈ bs, b ≠ 123 ∧ b ≠ 125) → ∀ (cs : List UInt8) (args : List Val)
    (out : List UInt8), loop (bs ++ cs) false false args out = loop cs false false args (out ++ bs)
  | [], _, cs, args, out => by simp
  | b :: bs, h, cs, args, out => by
    have hb := h b (by simp)
    simp only [List.cons_append, loop, hb.1, hb.2, if_false, Bool.false_eq_true]
    rw [loop_plain (fun x hx => h x (by simp [hx]))]
    simp

theorem encodeOne_cons (x : Nat) : ∃ b bs, encodeOne x = b :: bs := by
  rw [encodeOne_eq]
  repeat' split
  all_goals exact ⟨_, _, rfl⟩

theorem enc_open : encodeOne 123 = [123] := by decide
theorem enc_close : encodeOne 125 = [125] := by decide

/-! ### The parts -/

/-- What the loop writes for the parts. -/
def emit : List Seg → List Val → Option (List UInt8)
  | [], _ => some []
  | .ch c :: l, a => (emit l a).map (encodeOne c ++ ·)
  | .openBrace :: l, a => (emit l a).map (123 :: ·)
  | .closeBrace :: l, a => (emit l a).map (125 :: ·)
  | .field :: _, [] => none
  | .field :: l, t :: a => (emit l a).map (write t ++ ·)

theorem loop_parts : ∀ (l : List Seg), (∀ p ∈ l, p.ok) → ∀ (args : List Val) (out : List UInt8),
    loop (encode (source l)) false false args out =
      match emit l args with
      | some t => .ok (out ++ t)
      | none => .error .index
  | [], _, args, out => by simp [source, encode, loop, emit]
  | p :: l, h, args, out => by
    have ih := loop_parts l (fun q hq => h q (by simp [hq]))
    have hp := h p (by simp)
    have hs : source (p :: l) = p.source ++ source l := rfl
    rw [hs, encode_append]
    cases p with
    | ch c =>
      have e : encode (Seg.source (.ch c)) = encodeOne c := by simp [Seg.source, encode]
      rw [e, loop_plain (plain hp), ih]
      simp only [emit]
      cases emit l args <;> simp
    | openBrace =>
      simp only [Seg.source, encode, enc_open, List.cons_append, List.nil_append, List.append_nil, loop, if_true,
        Bool.false_eq_true, if_false]
      rw [ih]
      simp only [emit]
      cases emit l args <;> simp
    | closeBrace =>
      simp only [Seg.source, encode, enc_close, List.cons_append, List.nil_append, List.append_nil, loop, if_true,
        Bool.false_eq_true, if_false, show ¬ ((125 : UInt8) = 123) by decide]
      rw [ih]
      simp only [emit]
      cases emit l args <;> simp
    | field =>
      simp only [Seg.source, encode, enc_open, enc_close, List.cons_append, List.nil_append, List.append_nil, loop,
        if_true, Bool.false_eq_true, if_false, show ¬ ((125 : UInt8) = 123) by decide]
      cases args with
      | nil => simp [emit]
      | cons a args =>
        simp only [ih, emit]
        cases emit l args <;> simp

theorem emit_some : ∀ (l : List Seg) (args : List Val), fields l ≤ args.length ↔ ∃ t, emit l args = some t
  | [], args => by simp [fields, emit]
  | .ch c :: l, args => by
    simp only [fields, emit, emit_some l args]; cases emit l args <;> simp
  | .openBrace :: l, args => by
    simp only [fields, emit, emit_some l args]; cases emit l args <;> simp
  | .closeBrace :: l, args => by
    simp only [fields, emit, emit_some l args]; cases emit l args <;> simp
  | .field :: l, [] => by simp [fields, emit]
  | .field :: l, a :: args => by
    simp only [fields, emit, List.length_cons, Nat.add_le_add_iff_right, emit_some l args]; cases emit l args <;> simp

/-- C138: a format string of characters, doubled braces and `{}` works if there are arguments for all fields, and fails
with an index error otherwise. -/
theorem format_enough (l : List Seg) (hl : ∀ p ∈ l, p.ok) (args : List Val) :
    (fields l ≤ args.length → ∃ r, format (source l) args = .ok r) ∧
    (args.length < fields l → format (source l) args = .error .index) := by
  unfold format
  rw [loop_parts l hl]
  constructor
  · intro h
    obtain ⟨t, ht⟩ := (emit_some l args).1 h
    rw [ht]; exact ⟨_, rfl⟩
  · intro h
    cases e : emit l args with
    | none => rfl
    | some t => have := (emit_some l args).2 ⟨t, e⟩; omega

/-- C138: every other format string fails. -/
theorem format_only (s : List Nat) (args : List Val) (out o : List UInt8)
    (h : loop (encode s) false false args out = .ok o) :
    ∃ l : List Seg, (∀ p ∈ l, p.ok) ∧ source l = s ∧ fields l ≤ args.length := by
  induction hn : s.length using Nat.strongRecOn generalizing s args out with
  | _ n ih =>
    subst hn
    match s, h with
    | [], _ => exact ⟨[], by simp, rfl, Nat.zero_le _⟩
    | c :: s, h =>
      by_cases h1 : c = 123
      · subst h1
        match s, h with
        | [], h => simp [encode, enc_open, loop] at h
        | d :: s, h =>
          by_cases h3 : d = 123
          · subst h3
            simp [encode, enc_open, loop] at h
            obtain ⟨l, a, b, e⟩ := ih s.length (by simp; omega) s _ _ h rfl
            exact ⟨.openBrace :: l, by simpa [Seg.ok] using a, by rw [← b]; rfl, by simpa [fields] using e⟩
          · by_cases h4 : d = 125
            · subst h4
              cases args with
              | nil => simp [encode, enc_open, enc_close, loop] at h
              | cons a args =>
                simp [encode, enc_open, enc_close, loop] at h
                obtain ⟨l, x, b, e⟩ := ih s.length (by simp; omega) s _ _ h rfl
                exact ⟨.field :: l, by simpa [Seg.ok] using x, by rw [← b]; rfl, by simpa [fields] using e⟩
            · obtain ⟨b, bs, hb⟩ := encodeOne_cons d
              have hp := plain ⟨h3, h4⟩ b (by rw [hb]; simp)
              simp [encode, enc_open, hb, loop, hp.1, hp.2] at h
      · by_cases h2 : c = 125
        · subst h2
          match s, h with
          | [], h => simp [encode, enc_close, loop] at h
          | d :: s, h =>
            by_cases h4 : d = 125
            · subst h4
              simp [encode, enc_close, loop] at h
              obtain ⟨l, a, b, e⟩ := ih s.length (by simp; omega) s _ _ h rfl
              exact ⟨.closeBrace :: l, by simpa [Seg.ok] using a, by rw [← b]; rfl, by simpa [fields] using e⟩
            · obtain ⟨b, bs, hb⟩ := encodeOne_cons d
              have hp : b ≠ 125 := by
                by_cases h3 : d = 123
                · subst h3; rw [enc_open] at hb; cases hb; decide
                · exact (plain ⟨h3, h4⟩ b (by rw [hb]; simp)).2
              simp [encode, enc_close, hb, loop, hp] at h
        · rw [encode, loop_plain (plain ⟨h1, h2⟩)] at h
          obtain ⟨l, a, b, e⟩ := ih s.length (by simp) s _ _ h rfl
          exact ⟨.ch c :: l, by simpa [Seg.ok] using ⟨⟨h1, h2⟩, a⟩, by rw [← b]; rfl, by simpa [fields] using e⟩

/-- C138: exactly the format strings made of characters, doubled braces and as many `{}` as there are arguments, or
fewer, are accepted. -/
theorem format_accepts (s : List Nat) (args : List Val) :
    (∃ r, format s args = .ok r) ↔ ∃ l : List Seg, (∀ p ∈ l, p.ok) ∧ source l = s ∧ fields l ≤ args.length := by
  constructor
  · rintro ⟨r, h⟩
    unfold format at h
    cases e : loop (encode s) false false args [] with
    | error x => rw [e] at h; cases h
    | ok o => exact format_only s args [] o e
  · rintro ⟨l, hl, rfl, hf⟩
    exact (format_enough l hl args).1 hf

/-- The values for which the text is that of Python. -/
def Plain : Val → Prop
  | .str s => ∀ x ∈ s, x ≤ 0x10FFFF
  | .int _ => True
  | _ => False

theorem chars_le (s : String) : ∀ x ∈ chars s, x ≤ 0x10FFFF := by
  intro x hx
  obtain ⟨c, _, rfl⟩ := List.mem_map.1 hx
  have := c.valid
  simp only [Char.toNat]
  unfold UInt32.isValidChar Nat.isValidChar at this
  omega

theorem write_plain {v : Val} (h : Plain v) :
    ∃ t, pyText v = some t ∧ write v = encode t ∧ ∀ x ∈ t, x ≤ 0x10FFFF := by
  cases v with
  | str s => exact ⟨s, rfl, rfl, h⟩
  | int i => exact ⟨_, rfl, rfl, chars_le _⟩
  | bytes b => exact h.elim
  | bool b => exact h.elim
  | none => exact h.elim

theorem emit_subst : ∀ (l : List Seg), (∀ c, Seg.ch c ∈ l → c ≤ 0x10FFFF) → ∀ (args : List Val), (∀ v ∈ args, Plain v) →
    ∀ (ts : List (List Nat)), args.map pyText = ts.map some →
    ∀ t, subst l ts = some t → emit l args = some (encode t) ∧ ∀ x ∈ t, x ≤ 0x10FFFF
  | [], _, _, _, _, _, t, h => by
    simp only [subst, Option.some.injEq] at h; subst h; simp [emit, encode]
  | .ch c :: l, hl, args, ha, ts, he, t, h => by
    simp only [subst, Option.map_eq_some_iff] at h
    obtain ⟨u, hu, rfl⟩ := h
    obtain ⟨a, b⟩ := emit_subst l (fun c hc => hl c (by simp [hc])) args ha ts he u hu
    have := hl c (by simp)
    simp only [emit, a, Option.map_some, encode, List.mem_cons, forall_eq_or_imp]
    exact ⟨trivial, this, b⟩
  | .openBrace :: l, hl, args, ha, ts, he, t, h => by
    simp only [subst, Option.map_eq_some_iff] at h
    obtain ⟨u, hu, rfl⟩ := h
    obtain ⟨a, b⟩ := emit_subst l (fun c hc => hl c (by simp [hc])) args ha ts he u hu
    simp only [emit, a, Option.map_some, encode, enc_open, List.mem_cons, forall_eq_or_imp]
    exact ⟨rfl, by omega, b⟩
  | .closeBrace :: l, hl, args, ha, ts, he, t, h => by
    simp only [subst, Option.map_eq_some_iff] at h
    obtain ⟨u, hu, rfl⟩ := h
    obtain ⟨a, b⟩ := emit_subst l (fun c hc => hl c (by simp [hc])) args ha ts he u hu
    simp only [emit, a, Option.map_some, encode, enc_close, List.mem_cons, forall_eq_or_imp]
    exact ⟨rfl, by omega, b⟩
  | .field :: l, hl, args, ha, ts, he, t, h => by
    match ts, h with
    | [], h => simp [subst] at h
    | w :: ts, h =>
      simp only [subst, Option.map_eq_some_iff] at h
      obtain ⟨u, hu, rfl⟩ := h
      match args, he with
      | [], he => simp at he
      | v :: args, he =>
        simp only [List.map_cons, List.cons.injEq] at he
        obtain ⟨a, b⟩ := emit_subst l (fun c hc => hl c (by simp [hc])) args (fun v hv => ha v (by simp [hv])) ts he.2 u hu
        obtain ⟨t', h1, h2, h3⟩ := write_plain (ha v (by simp))
        rw [he.1] at h1; cases h1
        simp only [emit, a, Option.map_some, h2, encode_append, true_and]
        intro x hx
        rcases List.mem_append.1 hx with hx | hx
        · exact h3 x hx
        · exact b x hx

/-- C138: with text and integers as arguments the result is that of Python; arguments that are left over are ignored. -/
theorem format_text (l : List Seg) (hl : ∀ p ∈ l, p.ok) (hc : ∀ c, Seg.ch c ∈ l → c ≤ 0x10FFFF) (args : List Val)
    (ha : ∀ v ∈ args, Plain v) (ts : List (List Nat)) (he : args.map pyText = ts.map some) (t : List Nat)
    (ht : subst l ts = some t) : format (source l) args = .ok (.ok t) := by
  obtain ⟨a, b⟩ := emit_subst l hc args ha ts he t ht
  unfold format
  rw [loop_parts l hl, a]
  simp only [List.nil_append]
  rw [decode_encode t b]

/-- C138 fails for `None` and booleans: their text is not that of Python. -/
theorem none_refuted :
    format [123, 125] [.none] = .ok (.ok (chars "nullptr")) ∧ pyText .none = some (chars "None") ∧
    format [123, 125] [.bool true] = .ok (.ok (chars "1")) ∧ pyText (.bool true) = some (chars "True") := by
  have e : ∀ v, format [123, 125] [v] = .ok (utf8Decode (write v)) := by
    intro v
    simp [format, encode, enc_open, enc_close, loop]
  refine ⟨?_, rfl, ?_, rfl⟩
  · rw [e, write, decode_encode _ (chars_le _)]
  · rw [e, write, decode_encode _ (chars_le _)]; rfl

/-- C138 fails for bytes: they are not quoted, and bytes that are no UTF-8 swallow the text that follows. -/
theorem bytes_refuted :
    (∀ t : List Nat, (∀ x ∈ t, x ≤ 0x10FFFF) → format [123, 125] [.bytes (encode t)] = .ok (.ok t)) ∧
    format [123, 125, 65] [.bytes [0xE4]] = .ok (.ok [0xFFFD]) := by
  constructor
  · intro t ht
    simp [format, encode, enc_open, enc_close, loop, write, decode_encode t ht]
  · have e : format [123, 125, 65] [.bytes [0xE4]] = .ok (utf8Decode [0xE4, 65]) := rfl
    rw [e]
    exact congrArg _ (by decide +kernel)

/-- "a{}{{é}}{}" with "xy" and -12. -/
example : format [97, 123, 125, 123, 123, 233, 125, 125, 123, 125] [.str [120, 121], .int (-12), .int 3] =
    .ok (.ok [97, 120, 121, 123, 233, 125, 45, 49, 50]) :=
  format_text [.ch 97, .field, .openBrace, .ch 233, .closeBrace, .field] (by simp [Seg.ok]) (by simp)
    [.str [120, 121], .int (-12), .int 3] (by simp [Plain]) [[120, 121], [45, 49, 50], [51]] (by decide +kernel) _ rfl

example : format [123, 48, 125] [.int 1] = .error .keyword ∧ format [123] [] = .error .singleOpen ∧
    format [125, 97] [] = .error .singleClose ∧ format [123, 125] [] = .error .index :=
  ⟨rfl, rfl, rfl, rfl⟩

end Verif.StrFormat
