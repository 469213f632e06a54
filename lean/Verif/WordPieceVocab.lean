import Verif.WordPieceProps
import Mathlib.Data.List.Nodup
/-
The vocabulary of the tokenizer and its constructor.
-/
namespace Verif.WordPiece
open Verif.Cedar (St Bytes Represents total found Text)

theorem emplace_nodup {m : List (List Nat × Int)} (h : (m.map (·.1)).Nodup) (k : List Nat) (no : Nat) :
    ((emplace m k no).map (·.1)).Nodup := by
  unfold emplace
  split
  · exact h
  · rename_i hk
    rw [List.map_append, List.map_cons, List.map_nil]
    exact List.Nodup.append h (by simp) (List.disjoint_singleton.mpr hk)

theorem readVocab_nodup : ∀ (ls : List (List Nat)) (m : List (List Nat × Int)) (no : Nat), (m.map (·.1)).Nodup →
    ((readVocab m no ls).map (·.1)).Nodup
  | [], m, no, h => h
  | l :: ls, m, no, h => by
    rw [readVocab]
    split
    · exact readVocab_nodup ls m no h
    · exact readVocab_nodup ls _ _ (emplace_nodup h _ _)

theorem mem_readVocab : ∀ (ls : List (List Nat)) (m : List (List Nat × Int)) (no : Nat) (k : List Nat) (v : Int),
    (k, v) ∈ readVocab m no ls ↔
      (k, v) ∈ m ∨ (k ∉ m.map (·.1) ∧ ∃ i, (ls.filter (· ≠ [])).idxOf? k = some i ∧ v = Cedar.wrap ((no + i : Nat) : Int))
  | [], m, no, k, v => by simp [readVocab]
  | l :: ls, m, no, k, v => by
    rw [readVocab]
    by_cases hl : l = []
    · rw [if_pos hl, mem_readVocab ls m no, List.filter_cons_of_neg (by simp [hl])]
    · rw [if_neg hl, mem_readVocab ls, List.filter_cons_of_pos (by simp [hl]), List.idxOf?_cons]
      unfold emplace
      by_cases hin : l ∈ m.map (·.1)
      · rw [if_pos hin]
        by_cases hk : l = k
        · subst hk
          constructor
          · rintro (h | ⟨h, _⟩)
            · exact .inl h
            · exact absurd hin h
          · rintro (h | ⟨h, _⟩)
            · exact .inl h
            · exact absurd hin h
        · have hbeq : (l == k) = false := by simp [hk]
          rw [hbeq]
          simp only [Bool.false_eq_true, if_false]
          constructor
          · rintro (h | ⟨h, i, hi, e⟩)
            · exact .inl h
            · refine .inr ⟨h, i + 1, by rw [hi]; rfl, by rw [e]; congr 2; omega⟩
          · rintro (h | ⟨h, i, hi, e⟩)
            · exact .inl h
            · obtain ⟨j, hj, rfl⟩ := Option.map_eq_some_iff.mp hi
              exact .inr ⟨h, j, hj, by rw [e]; congr 2; omega⟩
      · rw [if_neg hin]
        by_cases hk : l = k
        · subst hk
          simp only [beq_self_eq_true, if_true]
          rw [List.mem_append, List.mem_singleton, List.map_append, List.mem_append]
          constructor
          · rintro ((h | h) | ⟨h, _⟩)
            · exact .inl h
            · exact .inr ⟨hin, 0, rfl, by rw [(Prod.mk.inj h).2]; simp⟩
            · exact absurd (.inr (by simp)) h
          · rintro (h | ⟨_, i, hi, e⟩)
            · exact .inl (.inl h)
            · obtain rfl := Option.some.inj hi
              exact .inl (.inr (by rw [e]; simp))
        · have hbeq : (l == k) = false := by simp [hk]
          rw [hbeq]
          simp only [Bool.false_eq_true, if_false]
          rw [List.mem_append, List.mem_singleton, List.map_append, List.mem_append, List.map_cons, List.map_nil,
            List.mem_singleton]
          have hk' : ¬ k = l := fun e => hk e.symm
          constructor
          · rintro ((h | h) | ⟨h, i, hi, e⟩)
            · exact .inl h
            · exact absurd (Prod.mk.inj h).1 hk'
            · exact .inr ⟨fun h' => h (.inl h'), i + 1, by rw [hi]; rfl, by rw [e]; congr 2; omega⟩
          · rintro (h | ⟨h, i, hi, e⟩)
            · exact .inl (.inl h)
            · obtain ⟨j, hj, rfl⟩ := Option.map_eq_some_iff.mp hi
              exact .inr ⟨fun h' => h'.elim h hk', j, hj, by rw [e]; congr 2; omega⟩

/-- What the trie holds if no key occurs twice. -/
theorem total_nodup {m : List (List Nat × Int)} (h : (m.map (·.1)).Nodup) (k : List Nat) (v : Int) :
    total m k = some v ↔ ∃ v0, (k, v0) ∈ m ∧ v = Cedar.wrap v0 := by
  have key : ∀ v0, (k, v0) ∈ m → m.filter (·.1 = k) = [(k, v0)] := by
    intro v0 hv0
    induction m with
    | nil => simp at hv0
    | cons q m ih =>
      rw [List.map_cons, List.nodup_cons] at h
      by_cases hq : q.1 = k
      · rw [List.filter_cons_of_pos (by simpa using hq)]
        have hnone : m.filter (·.1 = k) = [] := by
          rw [List.filter_eq_nil_iff]
          intro x hx
          simp only [decide_eq_true_eq]
          rintro rfl
          exact h.1 (hq ▸ List.mem_map_of_mem hx)
        rw [hnone]
        rcases List.mem_cons.mp hv0 with e | e
        · rw [e]
        · exact absurd (List.mem_map_of_mem (f := (·.1)) e) (hq ▸ h.1)
      · rw [List.filter_cons_of_neg (by simpa using hq)]
        rcases List.mem_cons.mp hv0 with e | e
        · rw [← e] at hq; exact absurd rfl hq
        · exact ih h.2 e
  unfold total
  constructor
  · intro ht
    split at ht
    · rename_i hm
      obtain ⟨⟨k', v0⟩, hv0, rfl⟩ := List.mem_map.mp hm
      rw [key v0 hv0] at ht
      exact ⟨v0, hv0, by simpa using (Option.some.inj ht).symm⟩
    · cases ht
  · rintro ⟨v0, hv0, rfl⟩
    rw [if_pos (List.mem_map_of_mem (f := (·.1)) hv0), key v0 hv0]
    simp

theorem idx_lt {l : List (List Nat)} {k : List Nat} {i : Nat} (h : l.idxOf? k = some i) : i < l.length := by
  rw [List.idxOf?] at h
  exact (List.findIdx?_eq_some_iff_findIdx_eq.mp h).1

theorem wrap_small {n : Nat} (h : n < 2 ^ 31) : Cedar.wrap (n : Int) = n := by
  unfold Cedar.wrap
  exact Int.bmod_eq_of_le (by omega) (by omega)

/-- The trie of a vocabulary holds the numbers of the lines. -/
theorem total_vocab {lines : List (List Nat)} (hn : lines.length ≤ 2 ^ 31) :
    total ((readVocab [] 0 lines).mergeSort (fun a b => leBytes a.1 b.1)) = ids lines := by
  have hp := List.mergeSort_perm (readVocab [] 0 lines) (fun a b => leBytes a.1 b.1)
  have hnd := (hp.map (·.1)).nodup_iff.mpr (readVocab_nodup lines [] 0 (by simp))
  funext k
  have hlt : ∀ i, (lines.filter (· ≠ [])).idxOf? k = some i → i < 2 ^ 31 := by
    intro i hi
    have := idx_lt hi
    have := List.length_filter_le (fun x : List Nat => decide (x ≠ [])) lines
    omega
  have main : ∀ v, total ((readVocab [] 0 lines).mergeSort (fun a b => leBytes a.1 b.1)) k = some v ↔
      ids lines k = some v := by
    intro v
    rw [total_nodup hnd]
    unfold ids
    constructor
    · rintro ⟨v0, hv0, rfl⟩
      rw [hp.mem_iff, mem_readVocab] at hv0
      rcases hv0 with h | ⟨_, i, hi, hv⟩
      · simp at h
      · rw [hv, hi, Cedar.wrap_wrap, Nat.zero_add, wrap_small (hlt i hi)]; rfl
    · intro h
      obtain ⟨i, hi, rfl⟩ := Option.map_eq_some_iff.mp h
      refine ⟨(i : Int), ?_, (wrap_small (hlt i hi)).symm⟩
      rw [hp.mem_iff, mem_readVocab]
      exact .inr ⟨by simp, i, hi, by rw [Nat.zero_add, wrap_small (hlt i hi)]⟩
  cases h : total ((readVocab [] 0 lines).mergeSort (fun a b => leBytes a.1 b.1)) k with
  | some v => exact ((main v).mp h).symm
  | none =>
    cases h' : ids lines k with
    | none => rfl
    | some v => rw [(main v).mpr h'] at h; cases h

theorem ids_some {lines : List (List Nat)} {k : List Nat} {v : Int} (h : ids lines k = some v) :
    0 ≤ v ∧ k ≠ [] ∧ k ∈ lines := by
  unfold ids at h
  obtain ⟨i, hi, rfl⟩ := Option.map_eq_some_iff.mp h
  have hm : k ∈ lines.filter (· ≠ []) := by
    by_contra hc
    rw [List.idxOf?_eq_none_iff.mpr hc] at hi
    cases hi
  rw [List.mem_filter] at hm
  exact ⟨Int.natCast_nonneg i, by simpa using hm.2, hm.1⟩

theorem ids_mem {lines : List (List Nat)} {k : List Nat} (h : k ∈ lines) (hk : k ≠ []) : ∃ v, ids lines k = some v := by
  unfold ids
  cases hi : (lines.filter (· ≠ [])).idxOf? k with
  | some i => exact ⟨_, rfl⟩
  | none =>
    rw [List.idxOf?_eq_none_iff] at hi
    exact absurd (List.mem_filter.mpr ⟨h, by simpa using hk⟩) hi

/-- The vocabularies covered: at most 2³¹ lines, no NUL, at most 64 entries that are prefixes of one another. -/
structure Vocab (lines : List (List Nat)) : Prop where
  bytes : ∀ l ∈ lines, Bytes l
  count : lines.length ≤ 2 ^ 31
  shallow : Shallow (ids lines)

/-- Entries of at most 64 bytes suffice. -/
theorem shallow_of_length {lines : List (List Nat)} (h : ∀ l ∈ lines, l.length ≤ 64) : Shallow (ids lines) := by
  intro u
  have hs := (List.pairwise_cons.mp (Cedar.found_sorted (ids lines) [] 0 u)).2
  have hnd : ((found (ids lines) [] 0 u).map (·.1)).Nodup := by
    rw [List.Nodup, List.pairwise_map]
    exact hs.imp (fun h e => by omega)
  have hsub : (found (ids lines) [] 0 u).map (·.1) ⊆ List.range' 1 64 := by
    intro n hn
    obtain ⟨⟨n', v⟩, hp, rfl⟩ := List.mem_map.mp hn
    obtain ⟨h1, h2, h3⟩ := (Cedar.mem_found _ _ _ _).mp hp
    have := h _ (ids_some h3).2.2
    rw [List.length_take] at this
    rw [List.mem_range'_1]
    omega
  have := (List.subperm_of_subset hnd hsub).length_le
  rwa [List.length_map, List.length_range'] at this

theorem newMapping_ok {lines : List (List Nat)} (hb : ∀ l ∈ lines, Bytes l) (hc : lines.length ≤ 2 ^ 31) :
    ∃ s, newMapping (readVocab [] 0 lines) = some s ∧ Represents s (ids lines) := by
  have hp := List.mergeSort_perm (readVocab [] 0 lines) (fun a b => leBytes a.1 b.1)
  obtain ⟨s, h1, h2⟩ := Cedar.history ((readVocab [] 0 lines).mergeSort (fun a b => leBytes a.1 b.1)) (by
    rintro ⟨k, v⟩ hkv
    rw [hp.mem_iff, mem_readVocab] at hkv
    rcases hkv with hkv | ⟨_, i, hi, _⟩
    · simp at hkv
    · have hi' : ids lines k = some (i : Int) := by unfold ids; rw [hi]; rfl
      have := ids_some hi'
      exact ⟨this.2.1, hb k this.2.2⟩)
  rw [total_vocab hc] at h2
  exact ⟨s, h1, h2⟩

theorem ids_val {lines : List (List Nat)} : ∀ k v, ids lines k = some v → v ≠ -1 ∧ v ≠ -2 := by
  intro k v hv
  have := (ids_some hv).1
  omega

/-- **C121, the constructor.**  With a vocabulary containing the unknown token the constructor succeeds and the
identifier of the unknown token is the number of its line; without it the constructor fails. -/
theorem new_ok {lines : List (List Nat)} (h : Vocab lines) (lookup : Bool) {unk pre : List Nat} (hu : Bytes unk)
    (hune : unk ≠ []) (hp : Bytes pre) (skip : Bool) (max junk : Int) :
    (∃ t v, new lines lookup (some unk) pre skip max junk = .ok t ∧ ids lines unk = some v ∧ Ok t (ids lines) ∧
      t.skip = skip ∧ t.lookup = lookup ∧ t.max = Cedar.wrap max ∧ t.unk = unk ∧ t.unkId = v ∧ t.pre = pre) ∨
    (new lines lookup (some unk) pre skip max junk = .error ∧ unk ∉ lines) := by
  obtain ⟨s, h1, h2⟩ := newMapping_ok h.bytes h.count
  obtain ⟨m, v, s1, s2, s3, s4, s5⟩ := search_ok h2 ids_val h.shallow hu junk
  have hpos := List.length_pos_of_ne_nil hune
  have e : new lines lookup (some unk) pre skip max junk = if m = unk.length then
      .ok { skip := skip, lookup := lookup, max := Cedar.wrap max, unk := unk, unkId := v, pre := pre, trie := s }
        else .error := by
    unfold new
    dsimp only
    rw [h1]
    dsimp only
    rw [s1]
  rw [e]
  by_cases hm : m = unk.length
  · left
    rw [if_pos hm]
    have := s4 (by omega)
    rw [hm, List.take_length] at this
    exact ⟨_, v, rfl, this, ⟨h2, ids_val, h.shallow, hp⟩, rfl, rfl, rfl, rfl, rfl, rfl⟩
  · right
    rw [if_neg hm]
    refine ⟨rfl, fun hin => ?_⟩
    obtain ⟨v', hv'⟩ := ids_mem hin hune
    have := s5 unk.length (by omega) (by omega)
    rw [List.take_length, hv'] at this
    cases this

/-- **C121, `unk_token=None`.**  The constructor always fails, although the code has a case for it. -/
theorem none_unk_refuted (lines : List (List Nat)) (lookup : Bool) (pre : List Nat) (skip : Bool) (max junk : Int) :
    new lines lookup none pre skip max junk = .error := rfl

/-- **C121, `unk_token=""`.**  The constructor succeeds and the identifier given for unknown words is a variable that
was never written. -/
theorem empty_unk_refuted {lines : List (List Nat)} (h : Vocab lines) (lookup : Bool) (pre : List Nat) (skip : Bool)
    (max junk : Int) : ∃ t, new lines lookup (some []) pre skip max junk = .ok t ∧ t.unkId = junk := by
  obtain ⟨s, h1, h2⟩ := newMapping_ok h.bytes h.count
  obtain ⟨m, v, s1, s2, s3, s4, s5⟩ := search_ok h2 ids_val h.shallow (w := []) (by intro c hc; simp at hc) junk
  have hm : m = 0 := by simpa using s2
  subst hm
  refine ⟨{ skip := skip, lookup := lookup, max := Cedar.wrap max, unk := [], unkId := v, pre := pre, trie := s },
    ?_, s3 rfl⟩
  unfold new
  dsimp only
  rw [h1]
  dsimp only
  rw [s1]
  rfl

/-- **C121, blank lines and duplicates.**  The identifier is not the number of the line in the file: a blank line is not
counted, so every later token has an identifier one below its line.  Of a token in two lines the first counts. -/
theorem line_number_refuted (a b : List (List Nat)) (k : List Nat) (hk : k ≠ []) (hka : k ∉ a) (hkb : k ∉ b)
    (ha : [] ∉ a) (hb : [] ∉ b) :
    (a ++ [] :: b ++ [k]).idxOf? k = some (a.length + 1 + b.length) ∧
    ids (a ++ [] :: b ++ [k]) k = some ((a.length + b.length : Nat) : Int) := by
  have fa : a.filter (· ≠ []) = a := List.filter_eq_self.mpr (fun x hx => by
    simp only [ne_eq, decide_not, Bool.not_eq_eq_eq_not, Bool.not_true, decide_eq_false_iff_not]
    rintro rfl; exact ha hx)
  have fb : b.filter (· ≠ []) = b := List.filter_eq_self.mpr (fun x hx => by
    simp only [ne_eq, decide_not, Bool.not_eq_eq_eq_not, Bool.not_true, decide_eq_false_iff_not]
    rintro rfl; exact hb hx)
  have key : ∀ l : List (List Nat), k ∉ l → (l ++ [k]).idxOf? k = some l.length := by
    intro l hl
    induction l with
    | nil => simp [List.idxOf?_cons]
    | cons x l ih =>
      rw [List.mem_cons, not_or] at hl
      have : (x == k) = false := by simp [Ne.symm hl.1]
      rw [List.cons_append, List.idxOf?_cons, this, ih hl.2]; rfl
  constructor
  · rw [key _ (by simp [hka, hkb, hk])]
    simp; omega
  · unfold ids
    rw [List.filter_append, List.filter_append, fa, List.filter_cons_of_neg (by simp), fb,
      List.filter_cons_of_pos (by simpa using hk), List.filter_nil, key _ (by simp [hka, hkb])]
    simp

end Verif.WordPiece
