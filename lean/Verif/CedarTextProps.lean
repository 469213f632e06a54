import Verif.CedarText
import Verif.CedarProps
import Verif.Utf8Props
/-
The trie on `str`.
-/
namespace Verif.Cedar

/-- A `str` without NUL. -/
def Text (w : List Nat) : Prop := ∀ x ∈ w, 0 < x ∧ x ≤ 0x10FFFF

theorem Text.le {w : List Nat} (h : Text w) : ∀ x ∈ w, x ≤ 0x10FFFF := fun x hx => (h x hx).2

theorem encodeOne_pos {x : Nat} (h : 0 < x) : ∀ u ∈ Utf8.encodeOne x, 0 < u.toNat := by
  rw [Utf8.encodeOne_eq]
  intro u hu
  have key : ∀ n, 0 < n → n < 256 → 0 < (UInt8.ofNat n).toNat := by
    intro n h1 h2; rw [Utf8.toNat_ofNat n h2]; exact h1
  split at hu
  · simp only [List.mem_singleton] at hu; subst hu; exact key _ h (by omega)
  split at hu
  · simp only [List.mem_cons, List.not_mem_nil, or_false] at hu
    rcases hu with rfl | rfl <;> exact key _ (by omega) (by omega)
  split at hu
  · simp only [List.mem_cons, List.not_mem_nil, or_false] at hu
    rcases hu with rfl | rfl | rfl <;> exact key _ (by omega) (by omega)
  split at hu
  · simp only [List.mem_cons, List.not_mem_nil, or_false] at hu
    rcases hu with rfl | rfl | rfl | rfl <;> exact key _ (by omega) (by omega)
  · simp only [List.mem_cons, List.not_mem_nil, or_false] at hu
    rcases hu with rfl | rfl | rfl <;> decide

theorem bytes_ok : ∀ {w : List Nat}, Text w → Bytes (bytes w)
  | [], _ => by intro c hc; simp [bytes, Utf8.encode] at hc
  | x :: w, h => by
    intro c hc
    simp only [bytes, Utf8.encode, List.map_append, List.mem_append] at hc
    rcases hc with hc | hc
    · obtain ⟨u, hu, rfl⟩ := List.mem_map.mp hc
      exact ⟨encodeOne_pos (h x (by simp)).1 u hu, u.toNat_lt⟩
    · exact bytes_ok (fun y hy => h y (by simp [hy])) c hc

theorem toNat_map_inj {a b : List UInt8} (h : a.map UInt8.toNat = b.map UInt8.toNat) : a = b :=
  List.map_injective_iff.mpr (fun _ _ e => UInt8.toNat_inj.mp e) h

theorem bytes_inj {a b : List Nat} (ha : Text a) (hb : Text b) (h : bytes a = bytes b) : a = b :=
  Utf8.encode_injective a b ha.le hb.le (toNat_map_inj h)

theorem encodeOne_length (x : Nat) : 0 < (Utf8.encodeOne x).length := by
  unfold Utf8.encodeOne; split <;> (try split) <;> (try split) <;> (try split) <;> simp

theorem bytes_length (w : List Nat) : (bytes w).length = (Utf8.encode w).length := by simp [bytes]

theorem bytes_ne_nil {w : List Nat} (h : w ≠ []) : bytes w ≠ [] := by
  cases w with
  | nil => exact absurd rfl h
  | cons x w =>
    intro e
    have := congrArg List.length e
    simp only [bytes_length, Utf8.encode, List.length_append, List.length_nil] at this
    have := encodeOne_length x
    omega

/-- A key is a prefix of a text exactly if its bytes are a prefix of the bytes of the text. -/
theorem prefix_of_bytes {k w : List Nat} (hk : Text k) (hw : Text w) {m : Nat}
    (h : (bytes w).take m = bytes k) : w.take k.length = k := by
  unfold bytes at h
  rw [← List.map_take] at h
  have h1 := toNat_map_inj h
  have h2 : Utf8.encode w = Utf8.encode k ++ (Utf8.encode w).drop m := by
    rw [← h1, List.take_append_drop]
  have h3 := Utf8.dec_encode_append w hw.le []
  rw [List.append_nil, h2, Utf8.dec_encode_append k hk.le, Utf8.dec_nil, List.append_nil] at h3
  rw [← h3, List.take_left]

/-- The lengths in bytes of the prefixes of a text. -/
theorem take_bytes (w : List Nat) (n : Nat) : (bytes w).take (bytes (w.take n)).length = bytes (w.take n) := by
  have : bytes w = bytes (w.take n) ++ bytes (w.drop n) := by
    unfold bytes; rw [← List.map_append, ← Utf8.encode_append, List.take_append_drop]
  rw [this, List.take_left]

theorem total_bytes {ops : List (List Nat × Int)} (ho : ∀ p ∈ ops, Text p.1) {k : List Nat} (hk : Text k) :
    total (ops.map (fun p => (bytes p.1, p.2))) (bytes k) = total ops k := by
  unfold total
  have h1 : (bytes k ∈ (ops.map (fun p => (bytes p.1, p.2))).map (·.1)) ↔ k ∈ ops.map (·.1) := by
    simp only [List.map_map, List.mem_map, Function.comp]
    constructor
    · rintro ⟨p, hp, e⟩; exact ⟨p, hp, bytes_inj (ho p hp) hk e⟩
    · rintro ⟨p, hp, e⟩; exact ⟨p, hp, by rw [e]⟩
  have h2 : ((ops.map (fun p => (bytes p.1, p.2))).filter (·.1 = bytes k)).map (·.2) =
      (ops.filter (·.1 = k)).map (·.2) := by
    rw [List.filter_map, List.map_map]
    have : ops.filter ((fun p : List Nat × Int => decide (p.1 = bytes k)) ∘ fun p => (bytes p.1, p.2)) =
        ops.filter (·.1 = k) := by
      apply List.filter_congr
      intro p hp
      simp only [Function.comp]
      exact decide_eq_decide.mpr ⟨fun e => bytes_inj (ho p hp) hk e, fun e => by rw [e]⟩
    rw [this]; rfl
  simp only [h1, h2]

theorem total_bytes_some {ops : List (List Nat × Int)} {b : List Nat} {v : Int}
    (h : total (ops.map (fun p => (bytes p.1, p.2))) b = some v) : ∃ k ∈ ops.map (·.1), b = bytes k := by
  unfold total at h
  split at h
  · rename_i hm
    simp only [List.map_map, List.mem_map, Function.comp] at hm
    obtain ⟨p, hp, e⟩ := hm
    exact ⟨p.1, List.mem_map_of_mem hp, e.symm⟩
  · cases h

/-- The keys found in the bytes of a text are the keys found in the text. -/
theorem mem_found_bytes {ops : List (List Nat × Int)} (ho : ∀ p ∈ ops, Text p.1) {w : List Nat} (hw : Text w)
    (m : Nat) (v : Int) :
    (m, v) ∈ found (total (ops.map (fun p => (bytes p.1, p.2)))) [] 0 (bytes w) ↔
      ∃ n, 0 < n ∧ n ≤ w.length ∧ total ops (w.take n) = some v ∧ m = (bytes (w.take n)).length := by
  rw [mem_found]
  constructor
  · rintro ⟨h1, h2, h3⟩
    obtain ⟨k, hk, e⟩ := total_bytes_some h3
    obtain ⟨p, hp, rfl⟩ := List.mem_map.mp hk
    have hpre := prefix_of_bytes (ho p hp) hw e
    have hlen := congrArg List.length e
    rw [List.length_take, Nat.min_eq_left h2] at hlen
    have hkl := congrArg List.length hpre
    rw [List.length_take] at hkl
    refine ⟨p.1.length, ?_, by omega, ?_, by rw [hpre]; exact hlen⟩
    · cases hp1 : p.1 with
      | nil => rw [hp1] at hlen; simp [bytes, Utf8.encode] at hlen; omega
      | cons _ _ => simp
    · rw [hpre, ← total_bytes ho (ho p hp), ← e]; exact h3
  · rintro ⟨n, h1, h2, h3, h4⟩
    have ht : Text (w.take n) := fun x hx => hw x (List.mem_of_mem_take hx)
    have htk := take_bytes w n
    rw [← h4] at htk
    refine ⟨?_, ?_, ?_⟩
    · rw [h4]
      refine List.length_pos_of_ne_nil (bytes_ne_nil (fun e => ?_))
      have := congrArg List.length e
      rw [List.length_take, List.length_nil] at this
      omega
    · have := congrArg List.length htk
      rw [List.length_take, ← h4] at this
      omega
    · rw [htk, total_bytes ho ht]; exact h3

theorem bytes_append (a b : List Nat) : bytes (a ++ b) = bytes a ++ bytes b := by
  unfold bytes; rw [Utf8.encode_append, List.map_append]

theorem bytes_take_lt {w : List Nat} {i j : Nat} (h : i < j) (hj : j ≤ w.length) :
    (bytes (w.take i)).length < (bytes (w.take j)).length := by
  have h1 : w.take j = w.take i ++ (w.take j).drop i := by
    have := (List.take_append_drop i (w.take j)).symm
    rw [List.take_take, Nat.min_eq_left (by omega)] at this
    exact this
  have h2 : (w.take j).drop i ≠ [] := by
    intro e
    have := congrArg List.length e
    rw [List.length_drop, List.length_take, List.length_nil] at this
    omega
  rw [h1, bytes_append, List.length_append]
  have := List.length_pos_of_ne_nil (bytes_ne_nil h2)
  omega

theorem sorted_ext : ∀ (a b : List (Nat × Int)), a.Pairwise (fun x y => x.1 < y.1) →
    b.Pairwise (fun x y => x.1 < y.1) → (∀ p, p ∈ a ↔ p ∈ b) → a = b
  | [], [], _, _, _ => rfl
  | [], y :: b, _, _, h => by have := (h y).mpr (by simp); simp at this
  | x :: a, [], _, _, h => by have := (h x).mp (by simp); simp at this
  | x :: a, y :: b, ha, hb, h => by
    rw [List.pairwise_cons] at ha hb
    have hxy : x = y := by
      rcases List.mem_cons.mp ((h x).mp (by simp)) with e | e
      · exact e
      · rcases List.mem_cons.mp ((h y).mpr (by simp)) with e' | e'
        · exact e'.symm
        · have := hb.1 x e
          have := ha.1 y e'
          omega
    subst hxy
    refine congrArg _ (sorted_ext a b ha.2 hb.2 (fun p => ?_))
    constructor
    · intro hp
      rcases List.mem_cons.mp ((h p).mp (by simp [hp])) with e | e
      · have := ha.1 p hp; rw [e] at this; omega
      · exact e
    · intro hp
      rcases List.mem_cons.mp ((h p).mpr (by simp [hp])) with e | e
      · have := hb.1 p hp; rw [e] at this; omega
      · exact e

theorem found_bytes {ops : List (List Nat × Int)} (ho : ∀ p ∈ ops, Text p.1) {w : List Nat} (hw : Text w) :
    found (total (ops.map (fun p => (bytes p.1, p.2)))) [] 0 (bytes w) =
      (found (total ops) [] 0 w).map (fun p => ((bytes (w.take p.1)).length, p.2)) := by
  refine sorted_ext _ _ (List.pairwise_cons.mp (found_sorted _ _ _ _)).2 ?_ ?_
  · rw [List.pairwise_map]
    refine (List.pairwise_cons.mp (found_sorted (total ops) [] 0 w)).2.imp_of_mem ?_
    intro a b ha hb hlt
    exact bytes_take_lt hlt ((mem_found _ _ b.1 b.2).mp hb).2.1
  · rintro ⟨m, v⟩
    rw [mem_found_bytes ho hw, List.mem_map]
    constructor
    · rintro ⟨n, h1, h2, h3, h4⟩
      exact ⟨(n, v), (mem_found _ _ _ _).mpr ⟨h1, h2, h3⟩, by rw [h4]⟩
    · rintro ⟨⟨n, v'⟩, h1, h2⟩
      obtain ⟨e1, e2⟩ := Prod.mk.inj h2
      obtain ⟨h3, h4, h5⟩ := (mem_found _ _ _ _).mp h1
      dsimp only at e1 e2
      exact ⟨n, h3, h4, by rw [← e2]; exact h5, e1.symm⟩

theorem charLen_encodeOne {x : Nat} (hx : x ≤ 0x10FFFF) :
    ∃ u t, Utf8.encodeOne x = u :: t ∧ charLen u = t.length + 1 := by
  rw [Utf8.encodeOne_eq]
  split
  · exact ⟨_, _, rfl, by unfold charLen; rw [Utf8.toNat_ofNat _ (by omega), if_pos (by omega)]; rfl⟩
  split
  · exact ⟨_, _, rfl, by
      unfold charLen; rw [Utf8.toNat_ofNat _ (by omega), if_neg (by omega), if_pos (by omega)]; rfl⟩
  split
  · exact ⟨_, _, rfl, by
      unfold charLen
      rw [Utf8.toNat_ofNat _ (by omega), if_neg (by omega), if_neg (by omega), if_pos (by omega)]; rfl⟩
  · exact ⟨_, _, rfl, by
      unfold charLen
      rw [Utf8.toNat_ofNat _ (by omega), if_neg (by omega), if_neg (by omega), if_neg (by omega)]; rfl⟩

/-- `len2count` maps the lengths in bytes to the lengths in code points. -/
theorem len2count_lookup : ∀ (w : List Nat) (L C : Nat), Text w → ∀ j, 0 < j → j ≤ w.length →
    (len2count L C (Utf8.encode w)).lookup (L + (bytes (w.take j)).length) = some (C + j)
  | [], _, _, _, j, h1, h2 => by simp at h2; omega
  | x :: w, L, C, hw, j, h1, h2 => by
    obtain ⟨u, t, e1, e2⟩ := charLen_encodeOne (hw x (by simp)).2
    have hx : (bytes [x]).length = charLen u := by
      rw [bytes_length, Utf8.encode, Utf8.encode, List.append_nil, e1, e2]; rfl
    have hstep : len2count L C (Utf8.encode (x :: w)) =
        (L + charLen u, C + 1) :: len2count (L + charLen u) (C + 1) (Utf8.encode w) := by
      rw [Utf8.encode, e1, List.cons_append, len2count, e2, Nat.add_sub_cancel, List.drop_left]
    obtain ⟨i, rfl⟩ : ∃ i, j = i + 1 := ⟨j - 1, by omega⟩
    have hlen : (bytes ((x :: w).take (i + 1))).length = charLen u + (bytes (w.take i)).length := by
      rw [List.take_succ_cons, ← List.singleton_append, bytes_append, List.length_append, hx]
    rw [hstep, hlen, List.lookup_cons]
    by_cases hi : i = 0
    · subst hi
      have : (L + (charLen u + (bytes (w.take 0)).length) == L + charLen u) = true := by
        simp [bytes, Utf8.encode]
      rw [this]
    · have hpos : 0 < (bytes (w.take i)).length := by
        have := bytes_take_lt (w := w) (i := 0) (j := i) (by omega) (by simpa using h2)
        omega
      have : (L + (charLen u + (bytes (w.take i)).length) == L + charLen u) = false := by
        rw [beq_eq_false_iff_ne]; intro e; omega
      rw [this]
      dsimp only
      have ih := len2count_lookup w (L + charLen u) (C + 1) (fun y hy => hw y (by simp [hy])) i (by omega)
        (by simpa using h2)
      rw [← Nat.add_assoc, ih]
      congr 1; omega

theorem from_text {w : List Nat} (hw : Text w) (pos : Int) : Text (from' w pos) :=
  fun x hx => hw x (List.mem_of_mem_drop hx)

theorem uBuild_represents {ops : List (List Nat × Int)} (ho : ∀ p ∈ ops, p.1 ≠ [] ∧ Text p.1) :
    ∃ s, uBuild init ops = some s ∧ Represents s (total (ops.map (fun p => (bytes p.1, p.2)))) := by
  refine history _ ?_
  intro p hp
  obtain ⟨q, hq, rfl⟩ := List.mem_map.mp hp
  exact ⟨bytes_ne_nil (ho q hq).1, bytes_ok (ho q hq).2⟩

theorem total_values {ops : List (List Nat × Int)} (ho : ∀ p ∈ ops, Text p.1)
    (hv : ∀ k v, total ops k = some v → v ≠ -1 ∧ v ≠ -2) :
    ∀ b v, total (ops.map (fun p => (bytes p.1, p.2))) b = some v → v ≠ -1 ∧ v ≠ -2 := by
  intro b v h
  obtain ⟨k, hk, rfl⟩ := total_bytes_some h
  obtain ⟨p, hp, rfl⟩ := List.mem_map.mp hk
  rw [total_bytes ho (ho p hp)] at h
  exact hv _ _ h

/-- **C51, all prefixes of a `str`.**  After any history of updates with non-empty `str` keys without NUL,
`prefix_search_all(w, pos)` is the list of the keys that are prefixes of `w[pos:]`, shortest first, with their lengths
in code points and the sums of their values in 32 bits, if no such sum is -1 or -2 and at most 64 keys match. -/
theorem uPrefixSearchAll_partial {ops : List (List Nat × Int)} (ho : ∀ p ∈ ops, p.1 ≠ [] ∧ Text p.1) {w : List Nat}
    (hw : Text w) (pos : Int) (hv : ∀ k v, total ops k = some v → v ≠ -1 ∧ v ≠ -2)
    (hl : (found (total ops) [] 0 (from' w pos)).length ≤ 64) :
    ∃ s, uBuild init ops = some s ∧ uPrefixSearchAll s w pos = some (found (total ops) [] 0 (from' w pos)) := by
  obtain ⟨s, h1, h2⟩ := uBuild_represents ho
  refine ⟨s, h1, ?_⟩
  have ho' : ∀ p ∈ ops, Text p.1 := fun p hp => (ho p hp).2
  have ht := from_text hw pos
  have hfb := found_bytes ho' ht
  have hs := prefixSearchAll_partial h2 (bytes_ok ht) (total_values ho' hv) (by rw [hfb, List.length_map]; exact hl)
  unfold uPrefixSearchAll
  dsimp only
  rw [hs, hfb]
  dsimp only
  congr 1
  rw [List.filterMap_map]
  conv_rhs => rw [← List.filterMap_some (l := found (total ops) [] 0 (from' w pos))]
  apply List.filterMap_congr
  rintro ⟨n, v⟩ hp
  obtain ⟨p1, p2, _⟩ := (mem_found _ _ _ _).mp hp
  have := len2count_lookup (from' w pos) 0 0 ht n p1 p2
  rw [Nat.zero_add, Nat.zero_add] at this
  simp only [Function.comp, this, Option.map_some]

/-- **C51, the longest prefix of a `str`.**  Under the same conditions `prefix_search(w, pos)` is the length in code
points and the value of the longest key that is a prefix of `w[pos:]`, or `(0, -1)` if there is none. -/
theorem uPrefixSearch_partial {ops : List (List Nat × Int)} (ho : ∀ p ∈ ops, p.1 ≠ [] ∧ Text p.1) {w : List Nat}
    (hw : Text w) (pos : Int) (hv : ∀ k v, total ops k = some v → v ≠ -1 ∧ v ≠ -2)
    (hl : (found (total ops) [] 0 (from' w pos)).length ≤ 64) :
    ∃ s n v, uBuild init ops = some s ∧ uPrefixSearch s w pos = some (n, v) ∧
      ((n = 0 ∧ v = -1) ∨ (0 < n ∧ n ≤ (from' w pos).length ∧ total ops ((from' w pos).take n) = some v)) ∧
      ∀ k, n < k → k ≤ (from' w pos).length → total ops ((from' w pos).take k) = none := by
  obtain ⟨s, h1, h2⟩ := uBuild_represents ho
  have ho' : ∀ p ∈ ops, Text p.1 := fun p hp => (ho p hp).2
  have ht := from_text hw pos
  generalize hx : from' w pos = x at *
  have hfb := found_bytes ho' ht
  obtain ⟨n, v, a1, a2, a3⟩ := prefixSearch_partial h2 (bytes_ok ht) (total_values ho' hv)
    (by rw [hfb, List.length_map]; exact hl)
  have hup : ∀ k, Utf8.countUnitSize ((Utf8.encode x).take n) = some k →
      uPrefixSearch s w pos = some (k, v) := by
    intro k hk
    unfold uPrefixSearch
    dsimp only
    rw [hx, a1]
    dsimp only
    rw [hk]
  -- no longer key matches
  have hnone : ∀ j, (∀ i, j < i → i ≤ x.length → n < (bytes (x.take i)).length) → ∀ k, j < k → k ≤ x.length →
      total ops (x.take k) = none := by
    intro j hj k hk hkl
    have htk : Text (x.take k) := fun y hy => ht y (List.mem_of_mem_take hy)
    rw [← total_bytes ho' htk, ← take_bytes]
    refine a3 _ (hj k hk hkl) ?_
    have := congrArg List.length (take_bytes x k)
    rw [List.length_take] at this
    omega
  rcases a2 with ⟨e1, e2⟩ | ⟨e1, e2, e3⟩
  · refine ⟨s, 0, v, h1, hup 0 ?_, Or.inl ⟨rfl, e2⟩, hnone 0 ?_⟩
    · rw [e1, List.take_zero, Utf8.countUnitSize_eq, Utf8.dec_nil]; rfl
    · intro i hi hil
      have := bytes_take_lt hi hil
      omega
  · obtain ⟨j, j1, j2, j3, j4⟩ := (mem_found_bytes ho' ht n v).mp ((mem_found _ _ _ _).mpr ⟨e1, e2, e3⟩)
    have htj : Text (x.take j) := fun y hy => ht y (List.mem_of_mem_take hy)
    refine ⟨s, j, v, h1, hup j ?_, Or.inr ⟨j1, j2, j3⟩, hnone j ?_⟩
    · have h3 : (Utf8.encode x).take n = Utf8.encode (x.take j) := by
        have h4 := take_bytes x j
        rw [← j4] at h4
        unfold bytes at h4
        rw [← List.map_take] at h4
        exact toNat_map_inj h4
      have h5 := Utf8.dec_encode_append (x.take j) htj.le []
      rw [List.append_nil, Utf8.dec_nil, List.append_nil] at h5
      rw [h3, Utf8.countUnitSize_eq, h5, List.length_take, Nat.min_eq_left j2]
    · intro i hi hil
      rw [j4]; exact bytes_take_lt hi hil

/-! ### What goes wrong -/

/-- A run of the trie on bytes: build, then search. -/
def run (ops : List (List Nat × Int)) (w : List Nat) : Option (List (Nat × Int)) :=
  match build init ops with
  | none => none
  | some s => prefixSearchAll s w

/-- Updating a key that is there adds the values: after `update("a", 1)` and `update("a", 2)` its value is 3. -/
theorem update_overwrites_refuted : run [([97], 1), ([97], 2)] [97] = some [(1, 3)] := by decide +kernel

/-- A key with the default index -1 is not found. -/
theorem default_index_found_refuted : run [([97], -1)] [97] = some [] := by decide +kernel

/-- A key with the value -2 hides the longer ones. -/
theorem longer_found_refuted : run [([97], -2), ([97, 98], 5)] [97, 98] = some [] ∧
    run [([97, 98], 5)] [97, 98] = some [(2, 5)] := by decide +kernel

/-- Values are cut to 32 bits. -/
theorem value_kept_refuted : run [([97], 2 ^ 32 + 5)] [97] = some [(1, 5)] := by decide +kernel

/-- A NUL in the text makes the search take a value for a position: it reads outside the array. -/
theorem nul_text_refuted : run [([97], 1000)] [97, 0, 98] = none := by decide +kernel

/-- A key with a NUL destroys other keys. -/
theorem nul_key_refuted : run [([98], 1)] [98] = some [(1, 1)] ∧
    run [([98], 1), ([97, 0], 5)] [98] = some [] := by decide +kernel

/-- The empty key ends the process. -/
theorem empty_key_refuted (s : St) (v : Int) : update s [] v = none := rfl

/-- More than 64 matching keys: the result is read outside the array that holds it. -/
theorem many_matches_refuted {s : St} {M : List Nat → Option Int} (h : Represents s M) {w : List Nat} (hw : Bytes w)
    (hv : ∀ k v, M k = some v → v ≠ -1 ∧ v ≠ -2) (hl : 64 < (found M [] 0 w).length) :
    prefixSearch s w = none ∧ prefixSearchAll s w = none := by
  obtain ⟨g, h⟩ := h
  have hp := prefixes_eq h w [] 0 h.tree.inv.rootD (by simp [Inner]) hw
  rw [List.reverse_nil, h.tree.inv.rootPos, reported_all hv] at hp
  unfold prefixSearch prefixSearchAll
  rw [hp]
  dsimp only
  rw [if_pos hl, if_pos hl]
  exact ⟨rfl, rfl⟩

/-! ### Examples -/

/-- The keys `a`, `é`, `éa` and `中`: the last two prefixes of `éab` are found with their lengths in code points. -/
example : (uBuild init [([0x61], 1), ([0xE9], 2), ([0xE9, 0x61], 3), ([0x4E2D], 4)]).bind
    (fun s => uPrefixSearchAll s [0x62, 0xE9, 0x61, 0x62] 1) = some [(1, 2), (2, 3)] := by decide +kernel

example : (uBuild init [([0x61], 1), ([0xE9], 2), ([0xE9, 0x61], 3), ([0x4E2D], 4)]).bind
    (fun s => uPrefixSearch s [0x62, 0xE9, 0x61, 0x62] (-3)) = some (2, 3) := by decide +kernel

/-- The children `a` and `b` of different nodes collide and one node is moved. -/
example : run [([97, 97], 1), ([98, 97], 2), ([97, 98], 3), ([98, 98], 4), ([97, 99, 100], 5)] [97, 99, 100] =
    some [(3, 5)] := by decide +kernel

/-- 65 keys `a`, `aa`, ... -/
example : ∃ s, build init ((List.range 65).map (fun i => (List.replicate (i + 1) 97, 1))) = some s ∧
    prefixSearch s (List.replicate 65 97) = none := by
  obtain ⟨s, h1, h2⟩ := history ((List.range 65).map (fun i => (List.replicate (i + 1) 97, 1))) (by
    intro p hp
    obtain ⟨i, _, rfl⟩ := List.mem_map.mp hp
    refine ⟨by simp, fun c hc => ?_⟩
    rw [List.eq_of_mem_replicate hc]; omega)
  refine ⟨s, h1, (many_matches_refuted h2 ?_ ?_ ?_).1⟩
  · intro c hc; rw [List.eq_of_mem_replicate hc]; omega
  · intro k v hk
    have hall : ∀ k ∈ ((List.range 65).map (fun i => (List.replicate (i + 1) 97, (1 : Int)))).map (·.1),
        total ((List.range 65).map (fun i => (List.replicate (i + 1) 97, 1))) k = some 1 := by decide +kernel
    have hm : k ∈ ((List.range 65).map (fun i => (List.replicate (i + 1) 97, (1 : Int)))).map (·.1) := by
      by_contra hm
      unfold total at hk
      rw [if_neg hm] at hk; cases hk
    rw [hall k hm] at hk
    have := Option.some.inj hk
    omega
  · decide +kernel

end Verif.Cedar
