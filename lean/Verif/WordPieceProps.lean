import Verif.WordPiece
import Verif.CedarTextProps
/-
The tokenizer cuts words like the reference algorithm of BERT.
-/
namespace Verif.WordPiece
open Verif.Cedar (St Bytes Represents total found Text)

/-! ### The reference -/

/-- The inner loop of the reference: the longest `w[:n]` with `cur + w[:n]` in the vocabulary, from `n` downwards. -/
def cut (V : List Nat → Option Int) (cur w : List Nat) : Nat → Option (Nat × Int)
  | 0 => none
  | n + 1 =>
    match V (cur ++ w.take (n + 1)) with
    | some v => some (n + 1, v)
    | none => cut V cur w n

theorem cut_some {V : List Nat → Option Int} {cur w : List Nat} : ∀ {N n : Nat} {v : Int},
    cut V cur w N = some (n, v) ↔ 0 < n ∧ n ≤ N ∧ V (cur ++ w.take n) = some v ∧
      ∀ k, n < k → k ≤ N → V (cur ++ w.take k) = none
  | 0, n, v => by
    constructor
    · intro h; simp [cut] at h
    · rintro ⟨h1, h2, _⟩; omega
  | N + 1, n, v => by
    rw [cut]
    cases hV : V (cur ++ w.take (N + 1)) with
    | none =>
      dsimp only
      rw [cut_some]
      constructor
      · rintro ⟨h1, h2, h3, h4⟩
        refine ⟨h1, by omega, h3, fun k hk hk' => ?_⟩
        by_cases e : k = N + 1
        · rw [e]; exact hV
        · exact h4 k hk (by omega)
      · rintro ⟨h1, h2, h3, h4⟩
        have : n ≠ N + 1 := by rintro rfl; rw [hV] at h3; cases h3
        exact ⟨h1, by omega, h3, fun k hk hk' => h4 k hk (by omega)⟩
    | some v' =>
      dsimp only
      constructor
      · intro h
        obtain ⟨rfl, rfl⟩ := Prod.mk.inj (Option.some.inj h)
        exact ⟨by omega, by omega, hV, fun k hk hk' => by omega⟩
      · rintro ⟨h1, h2, h3, h4⟩
        have : n = N + 1 := by
          by_contra hn
          have := h4 (N + 1) (by omega) (by omega)
          rw [hV] at this; cases this
        subst this
        rw [hV] at h3
        rw [Option.some.inj h3]

theorem cut_none {V : List Nat → Option Int} {cur w : List Nat} : ∀ {N : Nat},
    cut V cur w N = none ↔ ∀ k, 0 < k → k ≤ N → V (cur ++ w.take k) = none
  | 0 => by simp only [cut, true_iff]; intro k h1 h2; omega
  | N + 1 => by
    rw [cut]
    cases hV : V (cur ++ w.take (N + 1)) with
    | none =>
      dsimp only
      rw [cut_none]
      constructor
      · intro h k h1 h2
        by_cases e : k = N + 1
        · rw [e]; exact hV
        · exact h k h1 (by omega)
      · intro h k h1 h2; exact h k h1 (by omega)
    | some v' =>
      dsimp only
      constructor
      · intro h; cases h
      · intro h; rw [h (N + 1) (by omega) (by omega)] at hV; cases hV

/-- The reference (`WordpieceTokenizer.tokenize` of BERT, on one word): repeatedly the longest piece, the first without,
the others with the prefix.  `none` if some rest begins with no piece. -/
def greedy (V : List Nat → Option Int) (pre cur w : List Nat) : Option (List (List Nat × Int)) :=
  if w = [] then some []
  else
    match h : cut V cur w w.length with
    | none => none
    | some (n, v) => (greedy V pre pre (w.drop n)).map ((cur ++ w.take n, v) :: ·)
  termination_by w.length
  decreasing_by
    have := cut_some.mp h
    rw [List.length_drop]; omega

theorem greedy_nil (V : List Nat → Option Int) (pre cur : List Nat) : greedy V pre cur [] = some [] := by
  rw [greedy, if_pos rfl]

theorem greedy_none {V : List Nat → Option Int} {pre cur w : List Nat} (hw : w ≠ [])
    (h : cut V cur w w.length = none) : greedy V pre cur w = none := by
  rw [greedy, if_neg hw]
  split
  · rfl
  · rename_i h'; rw [h] at h'; cases h'

theorem greedy_some {V : List Nat → Option Int} {pre cur w : List Nat} {n : Nat} {v : Int}
    (hw : w ≠ []) (h : cut V cur w w.length = some (n, v)) :
    greedy V pre cur w = (greedy V pre pre (w.drop n)).map ((cur ++ w.take n, v) :: ·) := by
  rw [greedy, if_neg hw]
  split
  · rename_i h'; rw [h] at h'; cases h'
  · rename_i h'
    rw [h] at h'
    obtain ⟨rfl, rfl⟩ := Prod.mk.inj (Option.some.inj h')
    rfl

/-- The identifier of a token: the number of its first line, blank lines not counted. -/
def ids (lines : List (List Nat)) (k : List Nat) : Option Int :=
  ((lines.filter (· ≠ [])).idxOf? k).map Int.ofNat

/-! ### Searching -/

/-- No text has more than 64 entries of the vocabulary as prefixes. -/
def Shallow (V : List Nat → Option Int) : Prop := ∀ u, (found V [] 0 u).length ≤ 64

/-- The tokenizer with its trie filled. -/
structure Ok (t : Tk) (V : List Nat → Option Int) : Prop where
  rep : Represents t.trie V
  val : ∀ k v, V k = some v → v ≠ -1 ∧ v ≠ -2
  shallow : Shallow V
  bpre : Bytes t.pre

theorem search_ok {s : St} {V : List Nat → Option Int} (h : Represents s V) (hv : ∀ k v, V k = some v → v ≠ -1 ∧ v ≠ -2)
    (hl : Shallow V) {w : List Nat} (hw : Bytes w) (val : Int) :
    ∃ m v, search s w val = some (m, v) ∧ m ≤ w.length ∧ (m = 0 → v = val) ∧ (0 < m → V (w.take m) = some v) ∧
      ∀ k, m < k → k ≤ w.length → V (w.take k) = none := by
  obtain ⟨n, v, h1, h2, h3⟩ := Cedar.prefixSearch_partial h hw hv (hl w)
  unfold search
  rw [h1]
  dsimp only
  rcases h2 with ⟨rfl, rfl⟩ | ⟨h4, h5, h6⟩
  · rw [if_pos rfl]
    exact ⟨0, val, rfl, by omega, fun _ => rfl, fun h => by omega, h3⟩
  · rw [if_neg (by omega)]
    exact ⟨n, v, rfl, h5, fun h => by omega, fun _ => h6, h3⟩

theorem take_of_append {cur w : List Nat} {k : Nat} (h : cur.length ≤ k) :
    (cur ++ w).take k = cur ++ w.take (k - cur.length) := by
  rw [List.take_append, List.take_of_length_le h]

/-- One search is the inner loop of the reference. -/
theorem search_cut {s : St} {V : List Nat → Option Int} (h : Represents s V)
    (hv : ∀ k v, V k = some v → v ≠ -1 ∧ v ≠ -2) (hl : Shallow V) {cur w : List Nat} (hw : Bytes (cur ++ w)) (val : Int) :
    ∃ m v, search s (cur ++ w) val = some (m, v) ∧ m ≤ cur.length + w.length ∧
      (m ≤ cur.length → cut V cur w w.length = none) ∧
      (cur.length < m → cut V cur w w.length = some (m - cur.length, v)) := by
  obtain ⟨m, v, h1, h2, _, h4, h5⟩ := search_ok h hv hl hw val
  rw [List.length_append] at h2 h5
  refine ⟨m, v, h1, h2, ?_, ?_⟩
  · intro hm
    rw [cut_none]
    intro k hk hk'
    have := h5 (cur.length + k) (by omega) (by omega)
    rw [take_of_append (by omega), Nat.add_sub_cancel_left] at this
    exact this
  · intro hm
    rw [cut_some]
    have := h4 (by omega)
    rw [take_of_append (by omega)] at this
    refine ⟨by omega, by omega, this, ?_⟩
    intro k hk hk'
    have := h5 (cur.length + k) (by omega) (by omega)
    rw [take_of_append (by omega), Nat.add_sub_cancel_left] at this
    exact this

theorem Bytes.append {a b : List Nat} (ha : Bytes a) (hb : Bytes b) : Bytes (a ++ b) := by
  intro c hc
  rcases List.mem_append.mp hc with h | h
  · exact ha c h
  · exact hb c h

theorem Bytes.drop {a : List Nat} (ha : Bytes a) (n : Nat) : Bytes (a.drop n) :=
  fun c hc => ha c (List.mem_of_mem_drop hc)

/-! ### The loops -/

theorem popN_append {α : Type} (base : List α) : ∀ (n : Nat) (l : List α), l.length = n → popN (base ++ l) n = some base
  | 0, l, h => by
    have : l = [] := List.length_eq_zero_iff.mp h
    rw [this, List.append_nil]; rfl
  | n + 1, l, h => by
    have hne : l ≠ [] := by rintro rfl; simp at h
    rw [popN, if_neg (by simp [hne]), List.dropLast_append_of_ne_nil hne]
    exact popN_append base n _ (by rw [List.length_dropLast, h]; rfl)

theorem mapM_some : ∀ (l : List Nat), (l.map some).mapM id = some l
  | [] => rfl
  | x :: l => by
    rw [List.map_cons, List.mapM_cons, mapM_some l]; rfl

theorem read_ok {buf : List (Option Nat)} {off : Nat} {w : List Nat} {r : List (Option Nat)}
    (h : buf.drop off = w.map some ++ r) (ho : off ≤ buf.length) : read buf off w.length = some w := by
  have hlen : buf.length - off = w.length + r.length := by
    rw [← List.length_drop, h, List.length_append, List.length_map]
  unfold read
  rw [if_pos (by omega), h, List.take_left' (by simp), mapM_some]

theorem write_ok {buf : List (Option Nat)} {off : Nat} {xs : List Nat} (h : off + xs.length ≤ buf.length) :
    ∃ b, write buf off xs = some b ∧ b.length = buf.length ∧ b.take off = buf.take off ∧
      b.drop off = xs.map some ++ buf.drop (off + xs.length) := by
  have h0 : (buf.take off).length = off := by rw [List.length_take]; omega
  refine ⟨buf.take off ++ xs.map some ++ buf.drop (off + xs.length), by unfold write; rw [if_pos h], ?_, ?_, ?_⟩
  · rw [List.length_append, List.length_append, h0, List.length_map, List.length_drop]; omega
  · rw [List.append_assoc]; exact List.take_left' h0
  · rw [List.append_assoc]; exact List.drop_left' h0

/-- What is pushed for a word. -/
def result {α : Type} (t : Tk) (p : List Nat → Int → α) (o : Option (List (List Nat × Int))) : List α :=
  match o with
  | some l => l.map (fun x => p x.1 x.2)
  | none => [p t.unk t.unkId]

theorem loopP_ok {α : Type} {t : Tk} {V : List Nat → Option Int} (ht : Ok t V) (p : List Nat → Int → α)
    (base : List α) : ∀ (N : Nat) (rest : List Nat) (buf : List (Option Nat)) (off : Nat) (val : Int) (l : List α)
    (r : List (Option Nat)),
    rest.length = N → rest ≠ [] → Bytes rest → off ≤ buf.length → buf.drop off = (t.pre ++ rest).map some ++ r →
    loopP t p buf off (rest.length + t.pre.length) val l.length (base ++ l) =
      some (match greedy V t.pre t.pre rest with
        | some r => base ++ (l ++ r.map (fun x => p x.1 x.2))
        | none => base ++ [p t.unk t.unkId]) := by
  intro N
  induction N using Nat.strong_induction_on with
  | _ N ih =>
    intro rest buf off val l r0 hN hne hb ho hbuf
    have hpos : 0 < rest.length := List.length_pos_of_ne_nil hne
    have hlen : rest.length + t.pre.length = (t.pre ++ rest).length := by rw [List.length_append]; omega
    obtain ⟨m, v, h1, h2, h3, h4⟩ := search_cut ht.rep ht.val ht.shallow (Bytes.append ht.bpre hb) val
    rw [loopP, if_neg (by omega), hlen, read_ok hbuf ho]
    dsimp only
    rw [h1]
    dsimp only
    rw [← hlen]
    by_cases hm : m = rest.length + t.pre.length
    · rw [if_pos hm]
      have hc := h4 (by omega)
      have e : m - t.pre.length = rest.length := by omega
      rw [e] at hc
      rw [greedy_some hne hc, List.drop_length, greedy_nil]
      simp only [Option.map_some, List.map_cons, List.map_nil, List.take_length, List.append_assoc]
      rw [List.take_of_length_le (by omega)]
    · rw [if_neg hm]
      by_cases hm2 : m ≤ t.pre.length
      · rw [if_pos hm2, popN_append base _ l rfl, greedy_none hne (h3 hm2)]
        rfl
      · rw [if_neg hm2]
        have hc := h4 (by omega)
        have hbl : buf.length = off + (t.pre.length + rest.length) + r0.length := by
          have := congrArg List.length hbuf
          rw [List.length_drop, List.length_append, List.length_map, List.length_append] at this
          omega
        obtain ⟨b, w1, w2, _, w3⟩ := write_ok (buf := buf) (off := off + (m - t.pre.length)) (xs := t.pre) (by omega)
        rw [w1]
        dsimp only
        have hk : m - t.pre.length < rest.length := by omega
        have hdrop : b.drop (off + (m - t.pre.length)) = (t.pre ++ rest.drop (m - t.pre.length)).map some ++ r0 := by
          rw [w3, List.map_append, Nat.add_assoc, ← List.drop_drop, hbuf, List.drop_append_of_le_length
            (by rw [List.length_map, List.length_append]; omega), ← List.map_drop, List.append_assoc]
          congr 3
          rw [Nat.add_comm, ← List.drop_drop, List.drop_left]
        have hl : (rest.drop (m - t.pre.length)).length = rest.length - (m - t.pre.length) := List.length_drop
        have hrec := ih (rest.length - (m - t.pre.length)) (by omega) (rest.drop (m - t.pre.length)) b
          (off + (m - t.pre.length)) v (l ++ [p ((t.pre ++ rest).take m) v]) r0 hl
          (by intro e; rw [e] at hl; simp at hl; omega) (Bytes.drop hb _) (by omega) hdrop
        have e1 : rest.length + t.pre.length - (m - t.pre.length) =
            (rest.drop (m - t.pre.length)).length + t.pre.length := by omega
        rw [List.length_append, List.length_singleton] at hrec
        rw [e1, List.append_assoc, hrec, greedy_some hne hc, take_of_append (by omega)]
        cases greedy V t.pre t.pre (rest.drop (m - t.pre.length)) with
        | none => rfl
        | some r => simp [List.append_assoc]

theorem loopN_ok {α : Type} {t : Tk} {V : List Nat → Option Int} (ht : Ok t V) (p : List Nat → Int → α)
    (base : List α) : ∀ (N : Nat) (rest : List Nat) (val : Int) (l : List α),
    rest.length = N → rest ≠ [] → Bytes rest →
    loopN t p rest val l.length (base ++ l) =
      some (match greedy V [] [] rest with
        | some r => base ++ (l ++ r.map (fun x => p x.1 x.2))
        | none => base ++ [p t.unk t.unkId]) := by
  intro N
  induction N using Nat.strong_induction_on with
  | _ N ih =>
    intro rest val l hN hne hb
    have hpos : 0 < rest.length := List.length_pos_of_ne_nil hne
    obtain ⟨m, v, h1, h2, h3, h4⟩ := search_cut ht.rep ht.val ht.shallow (cur := []) (w := rest) (by simpa using hb) val
    rw [List.nil_append] at h1
    rw [List.length_nil] at h2 h3 h4
    rw [loopN, if_neg (by omega), h1]
    dsimp only
    by_cases hm : m = rest.length
    · rw [if_pos hm]
      have hc := h4 (by omega)
      rw [Nat.sub_zero] at hc
      rw [greedy_some hne hc, hm, List.drop_length, greedy_nil]
      simp
    · rw [if_neg hm]
      by_cases hm2 : m = 0
      · rw [if_pos hm2, popN_append base _ l rfl, greedy_none hne (h3 (by omega))]
        rfl
      · rw [if_neg hm2]
        have hc := h4 (by omega)
        rw [Nat.sub_zero] at hc
        have hl : (rest.drop m).length = rest.length - m := List.length_drop
        have hrec := ih (rest.length - m) (by omega) (rest.drop m) v (l ++ [p (rest.take m) v]) hl
          (by intro e; rw [e] at hl; simp at hl; omega) (Bytes.drop hb _)
        rw [List.length_append, List.length_singleton] at hrec
        rw [List.append_assoc, hrec, greedy_some hne hc, List.nil_append]
        cases greedy V [] [] (rest.drop m) with
        | none => rfl
        | some r => simp [List.append_assoc]

/-- The pieces of a word of at most `max` bytes are those of the reference; no byte outside of the buffer is touched. -/
theorem word_ok {α : Type} {t : Tk} {V : List Nat → Option Int} (ht : Ok t V) (p : List Nat → Int → α) {w : List Nat}
    (hw : Bytes w) (hne : w ≠ []) (hmax : (w.length : Int) ≤ t.max) (out : List α) :
    word t p w out = some (out ++ result t p (greedy V t.pre [] w)) := by
  have hpos : 0 < w.length := List.length_pos_of_ne_nil hne
  have hsk : (t.skip && w.length == 0) = false := by
    rw [Bool.and_eq_false_iff]; right; rw [beq_eq_false_iff_ne]; omega
  obtain ⟨m, v, h1, h2, h3, h4⟩ := search_cut ht.rep ht.val ht.shallow (cur := []) (w := w) (by simpa using hw) (-1)
  rw [List.nil_append] at h1
  rw [List.length_nil] at h2 h3 h4
  unfold word
  by_cases hp : t.pre = []
  · rw [if_pos hp]
    unfold noPrefix
    simp only [hsk, Bool.false_eq_true, if_false]
    rw [if_neg (by omega), h1]
    dsimp only
    by_cases hm : m = w.length
    · rw [if_pos hm]
      have hc := h4 (by omega)
      rw [Nat.sub_zero] at hc
      rw [greedy_some hne hc, hm, List.drop_length, greedy_nil]
      rfl
    · rw [if_neg hm]
      by_cases hm2 : m = 0
      · rw [if_pos hm2, greedy_none hne (h3 (by omega))]; rfl
      · rw [if_neg hm2]
        have hc := h4 (by omega)
        rw [Nat.sub_zero] at hc
        have hl : (w.drop m).length = w.length - m := List.length_drop
        have := loopN_ok ht p out _ (w.drop m) v [p (w.take m) v] hl
          (by intro e; rw [e] at hl; simp at hl; omega) (Bytes.drop hw _)
        rw [List.length_singleton] at this
        rw [this, greedy_some hne hc, hp]
        cases greedy V [] [] (w.drop m) with
        | none => rfl
        | some r => rfl
  · rw [if_neg hp]
    unfold withPrefix
    obtain ⟨b0, a1, a2, _, a3⟩ := write_ok (buf := List.replicate (w.length + t.pre.length) none) (off := 0) (xs := t.pre)
      (by simp)
    rw [a1]
    simp only [hsk, Bool.false_eq_true, if_false]
    rw [if_neg (by omega), h1]
    dsimp only
    by_cases hm : m = w.length
    · rw [if_pos hm]
      have hc := h4 (by omega)
      rw [Nat.sub_zero] at hc
      rw [greedy_some hne hc, hm, List.drop_length, greedy_nil]
      rfl
    · rw [if_neg hm]
      by_cases hm2 : m = 0
      · rw [if_pos hm2, greedy_none hne (h3 (by omega))]; rfl
      · rw [if_neg hm2]
        have hc := h4 (by omega)
        rw [Nat.sub_zero] at hc
        have hl : (w.drop m).length = w.length - m := List.length_drop
        rw [List.length_replicate] at a2
        obtain ⟨b, b1, b2, b3, b4⟩ := write_ok (buf := b0) (off := t.pre.length) (xs := w.drop m) (by omega)
        rw [b1]
        dsimp only
        rw [List.drop_zero, Nat.zero_add] at a3
        have hd : b.drop 0 = (t.pre ++ w.drop m).map some ++ b0.drop (t.pre.length + (w.drop m).length) := by
          rw [List.drop_zero, List.map_append, List.append_assoc, ← b4]
          conv_lhs => rw [← List.take_append_drop t.pre.length b, b3, a3]
          rw [List.take_left' (by simp)]
        have := loopP_ok ht p out _ (w.drop m) b 0 v [p (w.take m) v] _ hl
          (by intro e; rw [e] at hl; simp at hl; omega) (Bytes.drop hw _) (by omega) hd
        rw [List.length_singleton, hl] at this
        rw [this, greedy_some hne hc]
        cases greedy V t.pre t.pre (w.drop m) with
        | none => rfl
        | some r => rfl
end Verif.WordPiece
