import Verif.Emoji
import Verif.WordPieceUse
/-
The emoji filter finds the longest code at every place, from left to right.
-/
namespace Verif.Emoji
open Verif.Cedar (St Bytes Represents total found Text bytes)
open Verif.WordPiece (newMapping search Res Val raw cut ids Shallow cut_some cut_none ids_some ids_mem)

/-! ### The specification -/

/-- The length of the longest code that `w` begins with. -/
def longest (codes : List (List Nat)) (w : List Nat) : Option Nat := (cut (ids codes) [] w w.length).map (·.1)

theorem ids_iff {codes : List (List Nat)} {k : List Nat} (hk : k ≠ []) : (∃ v, ids codes k = some v) ↔ k ∈ codes :=
  ⟨fun ⟨_, h⟩ => (ids_some h).2.2, fun h => ids_mem h hk⟩

theorem take_ne {w : List Nat} {n : Nat} (h : 0 < n) (h2 : n ≤ w.length) : w.take n ≠ [] := by
  intro e
  have := congrArg List.length e
  rw [List.length_take, List.length_nil] at this
  omega

theorem longest_some {codes : List (List Nat)} {w : List Nat} {n : Nat} : longest codes w = some n ↔
    0 < n ∧ n ≤ w.length ∧ w.take n ∈ codes ∧ ∀ k, n < k → k ≤ w.length → w.take k ∉ codes := by
  unfold longest
  rw [Option.map_eq_some_iff]
  constructor
  · rintro ⟨⟨n', v⟩, h, rfl⟩
    obtain ⟨h1, h2, h3, h4⟩ := cut_some.mp h
    rw [List.nil_append] at h3
    refine ⟨h1, h2, (ids_some h3).2.2, fun k hk hk2 hc => ?_⟩
    obtain ⟨v', hv'⟩ := ids_mem hc (take_ne (by omega) hk2)
    have := h4 k hk hk2
    rw [List.nil_append, hv'] at this; cases this
  · rintro ⟨h1, h2, h3, h4⟩
    obtain ⟨v, hv⟩ := ids_mem h3 (take_ne h1 h2)
    refine ⟨(n, v), cut_some.mpr ⟨h1, h2, by rw [List.nil_append]; exact hv, fun k hk hk2 => ?_⟩, rfl⟩
    rw [List.nil_append]
    cases hi : ids codes (w.take k) with
    | none => rfl
    | some v' => exact absurd (ids_some hi).2.2 (h4 k hk hk2)

theorem longest_none {codes : List (List Nat)} {w : List Nat} : longest codes w = none ↔
    ∀ k, 0 < k → k ≤ w.length → w.take k ∉ codes := by
  unfold longest
  rw [Option.map_eq_none_iff, cut_none]
  constructor
  · intro h k hk hk2 hc
    obtain ⟨v', hv'⟩ := ids_mem hc (take_ne hk hk2)
    have := h k hk hk2
    rw [List.nil_append, hv'] at this; cases this
  · intro h k hk hk2
    rw [List.nil_append]
    cases hi : ids codes (w.take k) with
    | none => rfl
    | some v' => exact absurd (ids_some hi).2.2 (h k hk hk2)

/-- The text from left to right: characters and, wherever some code begins, the longest code. -/
def segs (codes : List (List Nat)) (w : List Nat) : List (Nat ⊕ List Nat) :=
  match w with
  | [] => []
  | c :: l =>
    match h : longest codes (c :: l) with
    | none => .inl c :: segs codes l
    | some n => .inr ((c :: l).take n) :: segs codes ((c :: l).drop n)
  termination_by w.length
  decreasing_by
    · simp
    · have := (longest_some.mp h).1
      rw [List.length_drop, List.length_cons]; omega

theorem segs_none {codes : List (List Nat)} {c : Nat} {l : List Nat} (h : longest codes (c :: l) = none) :
    segs codes (c :: l) = .inl c :: segs codes l := by
  rw [segs]
  split
  · rfl
  · rename_i h'; rw [h] at h'; cases h'

theorem segs_some {codes : List (List Nat)} {w : List Nat} {n : Nat} (h : longest codes w = some n) :
    segs codes w = .inr (w.take n) :: segs codes (w.drop n) := by
  cases w with
  | nil => have := longest_some.mp h; simp at this; omega
  | cons c l =>
    rw [segs]
    split
    · rename_i h'; rw [h] at h'; cases h'
    · rename_i h'; rw [h] at h'; obtain rfl := Option.some.inj h'; rfl

/-- The text without the codes. -/
def stripped (l : List (Nat ⊕ List Nat)) : List Nat :=
  l.flatMap (fun x => match x with | .inl c => [c] | .inr _ => [])

/-- The text with every code replaced. -/
def replaced (r : List Nat) (l : List (Nat ⊕ List Nat)) : List Nat :=
  l.flatMap (fun x => match x with | .inl c => [c] | .inr _ => r)

/-- Codes that follow one another are one. -/
def merged : List (Nat ⊕ List Nat) → List (Nat ⊕ List Nat)
  | [] => []
  | .inl c :: l => .inl c :: merged l
  | .inr k :: l => .inr k :: merged (l.dropWhile (·.isRight))
  termination_by l => l.length
  decreasing_by
    · simp
    · have := List.dropWhile_sublist (fun x : Nat ⊕ List Nat => x.isRight) (l := l)
      have := this.length_le
      simp; omega

/-! ### Building the filter -/

theorem codesMap_nodup : ∀ (ks : List (List Nat)) (m : List (List Nat × Int)), (m.map (·.1)).Nodup →
    ((codesMap m ks).map (·.1)).Nodup
  | [], m, h => h
  | k :: ks, m, h => by
    rw [codesMap]
    split
    · exact codesMap_nodup ks m h
    · rename_i hk
      refine codesMap_nodup ks _ ?_
      rw [List.map_append, List.map_cons, List.map_nil]
      exact List.Nodup.append h (by simp) (List.disjoint_singleton.mpr hk)

theorem mem_codesMap : ∀ (ks : List (List Nat)) (m : List (List Nat × Int)) (k : List Nat) (v : Int),
    (k, v) ∈ codesMap m ks ↔ (k, v) ∈ m ∨ (k ∉ m.map (·.1) ∧ k ∈ ks ∧ v = 0)
  | [], m, k, v => by simp [codesMap]
  | q :: ks, m, k, v => by
    rw [codesMap]
    by_cases hin : q ∈ m.map (·.1)
    · rw [if_pos hin, mem_codesMap ks]
      constructor
      · rintro (h | ⟨h1, h2, h3⟩)
        · exact .inl h
        · exact .inr ⟨h1, List.mem_cons_of_mem _ h2, h3⟩
      · rintro (h | ⟨h1, h2, h3⟩)
        · exact .inl h
        · rcases List.mem_cons.mp h2 with rfl | h2
          · exact absurd hin h1
          · exact .inr ⟨h1, h2, h3⟩
    · rw [if_neg hin, mem_codesMap ks, List.mem_append, List.mem_singleton, List.map_append, List.mem_append,
        List.map_cons, List.map_nil, List.mem_singleton]
      constructor
      · rintro ((h | h) | ⟨h1, h2, h3⟩)
        · exact .inl h
        · obtain ⟨rfl, rfl⟩ := Prod.mk.inj h
          exact .inr ⟨hin, by simp, rfl⟩
        · exact .inr ⟨fun h => h1 (.inl h), List.mem_cons_of_mem _ h2, h3⟩
      · rintro (h | ⟨h1, h2, h3⟩)
        · exact .inl (.inl h)
        · rcases List.mem_cons.mp h2 with rfl | h2
          · exact .inl (.inr (by rw [h3]))
          · by_cases e : k = q
            · exact .inl (.inr (by rw [h3, e]))
            · exact .inr ⟨fun h => h.elim h1 e, h2, h3⟩

/-- What the trie holds. -/
def has (codes : List (List Nat)) (k : List Nat) : Option Int := if k ∈ codes then some 0 else none

theorem has_some {codes : List (List Nat)} {k : List Nat} {v : Int} : has codes k = some v ↔ k ∈ codes ∧ v = 0 := by
  unfold has
  split
  · rename_i h; simp [h, eq_comm]
  · rename_i h; simp [h]

/-- The codes covered: not empty, without NUL, with at most 64 nested in one another. -/
structure Codes (codes : List (List Nat)) : Prop where
  ne : [] ∉ codes
  bytes : ∀ k ∈ codes, Bytes k
  shallow : Shallow (has codes)

/-- Codes of at most 64 bytes suffice. -/
theorem shallow_of_length {codes : List (List Nat)} (h : ∀ l ∈ codes, l.length ≤ 64) : Shallow (has codes) := by
  intro u
  have hs := (List.pairwise_cons.mp (Cedar.found_sorted (has codes) [] 0 u)).2
  have hnd : ((found (has codes) [] 0 u).map (·.1)).Nodup := by
    rw [List.Nodup, List.pairwise_map]
    exact hs.imp (fun h e => by omega)
  have hsub : (found (has codes) [] 0 u).map (·.1) ⊆ List.range' 1 64 := by
    intro n hn
    obtain ⟨⟨n', v⟩, hp, rfl⟩ := List.mem_map.mp hn
    obtain ⟨h1, h2, h3⟩ := (Cedar.mem_found _ _ _ _).mp hp
    have := h _ (has_some.mp h3).1
    rw [List.length_take] at this
    rw [List.mem_range'_1]
    omega
  have := (List.subperm_of_subset hnd hsub).length_le
  rwa [List.length_map, List.length_range'] at this

theorem new_ok {codes : List (List Nat)} (h : Codes codes) : ∃ s, new codes = some s ∧ Represents s (has codes) := by
  have hp := List.mergeSort_perm (codesMap [] codes) (fun a b => WordPiece.leBytes a.1 b.1)
  have hnd := (hp.map (·.1)).nodup_iff.mpr (codesMap_nodup codes [] (by simp))
  obtain ⟨s, h1, h2⟩ := Cedar.history ((codesMap [] codes).mergeSort (fun a b => WordPiece.leBytes a.1 b.1)) (by
    rintro ⟨k, v⟩ hkv
    rw [hp.mem_iff, mem_codesMap] at hkv
    rcases hkv with hkv | ⟨_, hk, _⟩
    · simp at hkv
    · exact ⟨fun e => h.ne (e ▸ hk), h.bytes k hk⟩)
  have e : total ((codesMap [] codes).mergeSort (fun a b => WordPiece.leBytes a.1 b.1)) = has codes := by
    funext k
    have main : ∀ v, total ((codesMap [] codes).mergeSort (fun a b => WordPiece.leBytes a.1 b.1)) k = some v ↔
        has codes k = some v := by
      intro v
      rw [WordPiece.total_nodup hnd, has_some]
      constructor
      · rintro ⟨v0, hv0, rfl⟩
        rw [hp.mem_iff, mem_codesMap] at hv0
        rcases hv0 with h | ⟨_, h1, h2⟩
        · simp at h
        · exact ⟨h1, by rw [h2]; decide⟩
      · rintro ⟨h1, rfl⟩
        exact ⟨0, by rw [hp.mem_iff, mem_codesMap]; exact .inr ⟨by simp, h1, rfl⟩, by decide⟩
    cases ht : total ((codesMap [] codes).mergeSort (fun a b => WordPiece.leBytes a.1 b.1)) k with
    | some v => exact ((main v).mp ht).symm
    | none =>
      cases h' : has codes k with
      | none => rfl
      | some v => rw [(main v).mpr h'] at ht; cases ht
  rw [e] at h2
  exact ⟨s, h1, h2⟩

theorem search_longest {codes : List (List Nat)} (h : Codes codes) {s : St} (hs : Represents s (has codes)) {w : List Nat}
    (hw : Bytes w) : ∃ m v, search s w 0 = some (m, v) ∧ (m = 0 → longest codes w = none) ∧
      (m ≠ 0 → longest codes w = some m) := by
  have hval : ∀ k v, has codes k = some v → v ≠ -1 ∧ v ≠ -2 := by
    intro k v hk; rw [(has_some.mp hk).2]; decide
  obtain ⟨m, v, h1, h2, _, h4, h5⟩ := WordPiece.search_ok hs hval h.shallow hw 0
  have hno : ∀ k, m < k → k ≤ w.length → w.take k ∉ codes := by
    intro k hk hk2 hc
    have := h5 k hk hk2
    rw [has_some.mpr ⟨hc, rfl⟩] at this; cases this
  refine ⟨m, v, h1, ?_, ?_⟩
  · intro hm; rw [longest_none]; intro k hk hk2; exact hno k (by omega) hk2
  · intro hm; exact longest_some.mpr ⟨by omega, h2, (has_some.mp (h4 (by omega))).1, hno⟩

/-! ### The loops -/

theorem bytes_tail {c : Nat} {l : List Nat} (h : Bytes (c :: l)) : Bytes l := fun x hx => h x (List.mem_cons_of_mem _ hx)

theorem filter_ok {codes : List (List Nat)} (h : Codes codes) {s : St} (hs : Represents s (has codes)) :
    ∀ (N : Nat) (w : List Nat), w.length = N → Bytes w → filter s w = some (stripped (segs codes w)) := by
  intro N
  induction N using Nat.strong_induction_on with
  | _ N ih =>
    intro w hN hw
    cases w with
    | nil => rw [filter, segs]; rfl
    | cons c l =>
      obtain ⟨m, v, h1, h2, h3⟩ := search_longest h hs hw
      rw [filter, h1]
      dsimp only
      by_cases hm : m = 0
      · rw [if_pos hm, segs_none (h2 hm), ih l.length (by simp at hN; omega) l rfl (bytes_tail hw)]
        rfl
      · rw [if_neg hm, segs_some (h3 hm), ih ((c :: l).drop m).length (by
          rw [List.length_drop, hN]
          have := (longest_some.mp (h3 hm)).2.1
          omega) _ rfl (WordPiece.Bytes.drop hw m)]
        rfl

theorem merged_inl (c : Nat) (l : List (Nat ⊕ List Nat)) : merged (.inl c :: l) = .inl c :: merged l := by rw [merged]
theorem merged_inr (k : List Nat) (l : List (Nat ⊕ List Nat)) :
    merged (.inr k :: l) = .inr k :: merged (l.dropWhile (·.isRight)) := by rw [merged]

theorem replaceLoop_ok {codes : List (List Nat)} (h : Codes codes) {s : St} (hs : Represents s (has codes))
    (r : List Nat) (keep : Bool) : ∀ (N : Nat) (w : List Nat) (last : Bool), w.length = N → Bytes w →
    replaceLoop s r keep w last = some (replaced r (if keep then segs codes w else
      if last then merged ((segs codes w).dropWhile (·.isRight)) else merged (segs codes w))) := by
  intro N
  induction N using Nat.strong_induction_on with
  | _ N ih =>
    intro w last hN hw
    cases w with
    | nil =>
      rw [replaceLoop, segs]
      cases keep <;> cases last <;> simp [replaced, merged]
    | cons c l =>
      obtain ⟨m, v, h1, h2, h3⟩ := search_longest h hs hw
      rw [replaceLoop, h1]
      dsimp only
      by_cases hm : m = 0
      · rw [if_pos hm, segs_none (h2 hm), ih l.length (by simp at hN; omega) l false rfl (bytes_tail hw)]
        cases keep <;> cases last <;> simp [replaced, merged_inl]
      · rw [if_neg hm, segs_some (h3 hm), ih ((c :: l).drop m).length (by
          rw [List.length_drop, hN]
          have := (longest_some.mp (h3 hm)).2.1
          omega) _ true rfl (WordPiece.Bytes.drop hw m)]
        cases keep <;> cases last <;> simp [replaced, merged_inr, List.dropWhile_cons]

theorem replaced_nil (l : List (Nat ⊕ List Nat)) : replaced [] l = stripped l := rfl

theorem stripped_merged : ∀ (N : Nat) (l : List (Nat ⊕ List Nat)), l.length = N → stripped (merged l) = stripped l := by
  intro N
  induction N using Nat.strong_induction_on with
  | _ N ih =>
    intro l hN
    match l, hN with
    | [], _ => rw [merged]
    | .inl c :: l, hN =>
      rw [merged_inl]
      have := ih l.length (by simp at hN; omega) l rfl
      unfold stripped at this ⊢
      rw [List.flatMap_cons, List.flatMap_cons, this]
    | .inr k :: l, hN =>
      rw [merged_inr]
      have hsub := (List.dropWhile_sublist (fun x : Nat ⊕ List Nat => x.isRight) (l := l)).length_le
      have := ih (l.dropWhile (·.isRight)).length (by simp at hN; omega) _ rfl
      unfold stripped at this ⊢
      rw [List.flatMap_cons, List.flatMap_cons, this]
      dsimp only
      rw [List.nil_append, List.nil_append]
      clear this hsub hN ih
      induction l with
      | nil => rfl
      | cons x l ihl =>
        cases x with
        | inl c => rfl
        | inr q => rw [List.dropWhile_cons_of_pos (by rfl), ihl]; rfl

/-- **C122 on bytes.**  `filter` removes exactly the codes found from left to right, the longest at each place, and
`replace` puts the replacement in the place of each of them, or in the place of each run of them if `keep_all` is
False. -/
theorem bytes_partial {codes : List (List Nat)} (h : Codes codes) : ∃ s, new codes = some s ∧ ∀ w, Bytes w →
    filterM s (.bytes w) = .ok (.bytes (stripped (segs codes w))) ∧
    ∀ r, replaceM s (.bytes w) (.bytes r) true = .ok (.bytes (replaced r (segs codes w))) ∧
      replaceM s (.bytes w) (.bytes r) false = .ok (.bytes (replaced r (merged (segs codes w)))) := by
  obtain ⟨s, h1, h2⟩ := new_ok h
  refine ⟨s, h1, fun w hw => ⟨?_, fun r => ?_⟩⟩
  · unfold filterM; dsimp only; rw [filter_ok h h2 _ w rfl hw]
  · unfold replaceM replace
    by_cases hr : r = []
    · subst hr
      rw [replaced_nil, replaced_nil, stripped_merged _ _ rfl]
      dsimp only
      rw [if_pos rfl, filter_ok h h2 _ w rfl hw]
      exact ⟨rfl, rfl⟩
    · dsimp only
      rw [if_neg hr, if_neg hr, replaceLoop_ok h h2 r true _ w false rfl hw, replaceLoop_ok h h2 r false _ w false rfl hw]
      exact ⟨rfl, rfl⟩

/-- What `segs` is: the pieces put together are the text, every code found is one of the codes. -/
theorem segs_join {codes : List (List Nat)} : ∀ (N : Nat) (w : List Nat), w.length = N →
    (segs codes w).flatMap (fun x => match x with | .inl c => [c] | .inr k => k) = w ∧
      ∀ k, .inr k ∈ segs codes w → k ∈ codes := by
  intro N
  induction N using Nat.strong_induction_on with
  | _ N ih =>
    intro w hN
    cases w with
    | nil => rw [segs]; simp
    | cons c l =>
      cases h : longest codes (c :: l) with
      | none =>
        rw [segs_none h]
        have := ih l.length (by simp at hN; omega) l rfl
        refine ⟨by rw [List.flatMap_cons, this.1]; rfl, fun k hk => ?_⟩
        rcases List.mem_cons.mp hk with e | e
        · cases e
        · exact this.2 k e
      | some n =>
        obtain ⟨n1, n2, n3, _⟩ := longest_some.mp h
        rw [segs_some h]
        have := ih ((c :: l).drop n).length (by rw [List.length_drop]; omega) _ rfl
        refine ⟨by rw [List.flatMap_cons, this.1]; dsimp only; rw [List.take_append_drop], fun k hk => ?_⟩
        rcases List.mem_cons.mp hk with e | e
        · obtain rfl := Sum.inr.inj e; exact n3
        · exact this.2 k e

end Verif.Emoji
