/-
C82: `serialize` / `deserialize` and the files of saved pipelines.
-/
import Verif.PickleProps
import Mathlib.Data.List.Forall2

namespace Verif.Pickle

/-! ## Round trip and distinctness -/

/-- **C82.**  Every value that the runtime can hold, made of None, numbers, strings, lists, tuples, sets,
dicts, contiguous arrays, native operators and handles nested to any depth, is saved and loads back as the
same value. -/
theorem saved_value_loads_partial (E : Env) (v : Val) (h : Ok E v) :
    ∃ j, toS E v = some j ∧ fromS E j = some v := roundtrip_val E v h

/-- **C82.**  Different values are saved as different documents. (A pipeline names an operator after the text
of its saved attributes: operators with different attributes do not share a name.) -/
theorem distinct_values_distinct_documents_partial (E : Env) (v w : Val) (hv : Ok E v) (hw : Ok E w)
    (h : toS E v = toS E w) : v = w := by
  obtain ⟨j, h1, h2⟩ := roundtrip_val E v hv
  obtain ⟨k, h3, h4⟩ := roundtrip_val E w hw
  rw [h1, h3] at h
  injection h with h
  subst h
  rw [h2] at h4
  injection h4

/-! ## Which values are refused -/

/-- A value inside a value. -/
inductive Inside : Val → Val → Prop where
  | self (v : Val) : Inside v v
  | list (w x : Val) (xs : List Val) : x ∈ xs → Inside w x → Inside w (.list xs)
  | tuple (w x : Val) (xs : List Val) : x ∈ xs → Inside w x → Inside w (.tuple xs)
  | set (w x : Val) (xs : List Val) : x ∈ xs → Inside w x → Inside w (.set xs)
  | key (w k v : Val) (xs : List (Val × Val)) : (k, v) ∈ xs → Inside w k → Inside w (.dict xs)
  | val (w k v : Val) (xs : List (Val × Val)) : (k, v) ∈ xs → Inside w v → Inside w (.dict xs)

theorem toSList_some (E : Env) : ∀ (xs : List Val) (l : List J), toSList E xs = some l →
    List.Forall₂ (fun x j => toS E x = some j) xs l
  | [], l, h => by simp only [toSList, Option.some.injEq] at h; subst h; exact .nil
  | x :: r, l, h => by
    simp only [toSList, Option.bind_eq_bind, Option.bind_eq_some_iff, Option.some.injEq] at h
    obtain ⟨j, h1, l', h2, rfl⟩ := h
    exact .cons h1 (toSList_some E r l' h2)

theorem toSPairs_some (E : Env) : ∀ (xs : List (Val × Val)) (l : List J), toSPairs E xs = some l →
    List.Forall₂ (fun x j => toS E x = some j) (flat xs) l
  | [], l, h => by simp only [toSPairs, Option.some.injEq] at h; subst h; exact .nil
  | (k, v) :: r, l, h => by
    simp only [toSPairs, Option.bind_eq_bind, Option.bind_eq_some_iff, Option.some.injEq] at h
    obtain ⟨j, h1, j', h3, l', h2, rfl⟩ := h
    exact .cons h1 (.cons h3 (toSPairs_some E r l' h2))

theorem mem_flat_key (k v : Val) : ∀ xs : List (Val × Val), (k, v) ∈ xs → k ∈ flat xs
  | (a, b) :: r, h => by
    rcases List.mem_cons.1 h with h | h
    · injection h with h1 h2; subst h1; simp [flat]
    · simp [flat, mem_flat_key k v r h]

theorem mem_flat_val (k v : Val) : ∀ xs : List (Val × Val), (k, v) ∈ xs → v ∈ flat xs
  | (a, b) :: r, h => by
    rcases List.mem_cons.1 h with h | h
    · injection h with h1 h2; subst h2; simp [flat]
    · simp [flat, mem_flat_val k v r h]

theorem forall2_mem {α β : Type} {R : α → β → Prop} : ∀ {xs : List α} {l : List β}, List.Forall₂ R xs l →
    ∀ x ∈ xs, ∃ j ∈ l, R x j
  | _, _, .nil, x, h => by simp at h
  | _, _, .cons h1 h2, x, h => by
    rcases List.mem_cons.1 h with h | h
    · subst h; exact ⟨_, by simp, h1⟩
    · obtain ⟨j, h3, h4⟩ := forall2_mem h2 x h
      exact ⟨j, by simp [h3], h4⟩

theorem fromSList_none (E : Env) : ∀ (l : List J) (j : J), j ∈ l → fromS E j = none → fromSList E l = none
  | a :: r, j, h, hj => by
    rcases List.mem_cons.1 h with h | h
    · subst h; simp [fromSList, hj]
    · simp only [fromSList, fromSList_none E r j h hj]
      cases fromS E a <;> simp

theorem fromS_func (E : Env) (v : J) : fromS E (node .func v) = none := by
  simp only [node, fromS, kT, kV]
  simp only [and_self, if_true, if_neg (tagName_ne_adt Tag.func), tagOf_func]
  cases v <;> simp [fromV, fromLeaf]

/-- **C82, functions.**  A value with a function anywhere inside is accepted by the writer (when nothing else
is refused), but the file can never be loaded: the reader does not know the name that the writer gives to
functions. -/
theorem function_saved_but_not_loadable_refuted (E : Env) (p : Nat) (v : Val) (hi : Inside (.func p) v) :
    (toS E (.func p)).isSome = true ∧ ∀ j, toS E v = some j → fromS E j = none := by
  refine ⟨by simp [toS], ?_⟩
  generalize hw : Val.func p = w at hi
  induction hi with
  | self =>
    subst hw
    intro j hj
    simp only [toS, Option.some.injEq] at hj
    subst hj
    exact fromS_func E _
  | list x xs hx _ ih =>
    intro j hj
    simp only [toS, Option.map_eq_some_iff] at hj
    obtain ⟨l, hl, rfl⟩ := hj
    obtain ⟨j, hj, hxj⟩ := forall2_mem (toSList_some E xs l hl) x hx
    rw [fromS_node _ _ _ (by decide)]
    simp [fromV, fromSList_none E l j hj (ih j hxj)]
  | tuple x xs hx _ ih =>
    intro j hj
    simp only [toS, Option.map_eq_some_iff] at hj
    obtain ⟨l, hl, rfl⟩ := hj
    obtain ⟨j, hj, hxj⟩ := forall2_mem (toSList_some E xs l hl) x hx
    rw [fromS_node _ _ _ (by decide)]
    simp [fromV, fromData, kSize, kData, fromSList_none E l j hj (ih j hxj)]
  | set x xs hx _ ih =>
    intro j hj
    simp only [toS, Option.map_eq_some_iff] at hj
    obtain ⟨l, hl, rfl⟩ := hj
    obtain ⟨j, hj, hxj⟩ := forall2_mem (toSList_some E xs l hl) x hx
    rw [fromS_node _ _ _ (by decide)]
    simp [fromV, fromSList_none E l j hj (ih j hxj)]
  | key k v xs hx _ ih =>
    intro j hj
    simp only [toS, Option.map_eq_some_iff] at hj
    obtain ⟨l, hl, rfl⟩ := hj
    obtain ⟨j, hj, hxj⟩ := forall2_mem (toSPairs_some E xs l hl) k (mem_flat_key k v xs hx)
    rw [fromS_node _ _ _ (by decide)]
    simp [fromV, fromSList_none E l j hj (ih j hxj)]
  | val k v xs hx _ ih =>
    intro j hj
    simp only [toS, Option.map_eq_some_iff] at hj
    obtain ⟨l, hl, rfl⟩ := hj
    obtain ⟨j, hj, hxj⟩ := forall2_mem (toSPairs_some E xs l hl) v (mem_flat_val k v xs hx)
    rw [fromS_node _ _ _ (by decide)]
    simp [fromV, fromSList_none E l j hj (ih j hxj)]

/-- What the writer refuses by itself: objects of user classes, other types, arrays that are not contiguous
and arrays with memory that was never written. -/
def Refused : Val → Prop
  | .user => True
  | .other => True
  | .nd _ _ contig data => contig = false ∨ none ∈ data
  | _ => False

theorem readAll_none : ∀ data : List (Option Int), readAll data = none ↔ none ∈ data
  | [] => by simp [readAll]
  | none :: r => by simp [readAll]
  | some x :: r => by simp [readAll, readAll_none r]

mutual
theorem toS_none (E : Env) : ∀ v, toS E v = none → ∃ w, Inside w v ∧ Refused w
  | .none, h => by simp [toS] at h
  | .int _, h => by simp [toS] at h
  | .float _, h => by simp [toS] at h
  | .bytes b, h => by simp only [toS] at h; split at h <;> simp at h
  | .str _, h => by simp [toS] at h
  | .list xs, h => by
    simp only [toS, Option.map_eq_none_iff] at h
    obtain ⟨x, hx, w, h1, h2⟩ := toSList_none E xs h
    exact ⟨w, .list w x xs hx h1, h2⟩
  | .tuple xs, h => by
    simp only [toS, Option.map_eq_none_iff] at h
    obtain ⟨x, hx, w, h1, h2⟩ := toSList_none E xs h
    exact ⟨w, .tuple w x xs hx h1, h2⟩
  | .set xs, h => by
    simp only [toS, Option.map_eq_none_iff] at h
    obtain ⟨x, hx, w, h1, h2⟩ := toSList_none E xs h
    exact ⟨w, .set w x xs hx h1, h2⟩
  | .dict xs, h => by
    simp only [toS, Option.map_eq_none_iff] at h
    obtain ⟨k, v, hx, w, h1, h2⟩ := toSPairs_none E xs h
    rcases h1 with h1 | h1
    · exact ⟨w, .key w k v xs hx h1, h2⟩
    · exact ⟨w, .val w k v xs hx h1, h2⟩
  | .nd t s c d, h => by
    refine ⟨_, .self _, ?_⟩
    simp only [toS] at h
    cases c with
    | false => exact .inl rfl
    | true =>
      simp only [if_true, Option.map_eq_none_iff] at h
      exact .inr ((readAll_none d).1 h)
  | .native .., h => by simp [toS] at h
  | .user, _ => ⟨_, .self _, trivial⟩
  | .handle _, h => by simp [toS] at h
  | .func _, h => by simp [toS] at h
  | .other, _ => ⟨_, .self _, trivial⟩
theorem toSList_none (E : Env) : ∀ xs, toSList E xs = none → ∃ x ∈ xs, ∃ w, Inside w x ∧ Refused w
  | [], h => by simp [toSList] at h
  | x :: r, h => by
    cases hx : toS E x with
    | none => exact ⟨x, by simp, toS_none E x hx⟩
    | some j =>
      cases hr : toSList E r with
      | none =>
        obtain ⟨y, hy, hw⟩ := toSList_none E r hr
        exact ⟨y, by simp [hy], hw⟩
      | some l => simp [toSList, hx, hr] at h
theorem toSPairs_none (E : Env) : ∀ xs, toSPairs E xs = none →
    ∃ k v, (k, v) ∈ xs ∧ ∃ w, (Inside w k ∨ Inside w v) ∧ Refused w
  | [], h => by simp [toSPairs] at h
  | (k, v) :: r, h => by
    cases hk : toS E k with
    | none =>
      obtain ⟨w, h1, h2⟩ := toS_none E k hk
      exact ⟨k, v, by simp, w, .inl h1, h2⟩
    | some j =>
      cases hv : toS E v with
      | none =>
        obtain ⟨w, h1, h2⟩ := toS_none E v hv
        exact ⟨k, v, by simp, w, .inr h1, h2⟩
      | some j' =>
        cases hr : toSPairs E r with
        | none =>
          obtain ⟨a, b, hy, hw⟩ := toSPairs_none E r hr
          exact ⟨a, b, by simp [hy], hw⟩
        | some l => simp [toSPairs, hk, hv, hr] at h
end

/-- **C82, refusals.**  The writer raises exactly when something inside the value is an object of a user class,
a value of an unsupported type, or an array that is not contiguous (or was never written). -/
theorem refused_iff (E : Env) (v : Val) : toS E v = none ↔ ∃ w, Inside w v ∧ Refused w := by
  refine ⟨toS_none E v, ?_⟩
  rintro ⟨w, hi, hr⟩
  induction hi with
  | self =>
    cases w <;> simp only [Refused] at hr <;> first | exact hr.elim | skip
    case nd t s c d =>
      rcases hr with rfl | hr
      · simp [toS]
      · simp [toS, (readAll_none d).2 hr]
    · simp [toS]
    · simp [toS]
  | list x xs hx _ ih =>
    have hx' := ih
    rw [toS, Option.map_eq_none_iff]
    cases h : toSList E xs with
    | none => rfl
    | some l =>
      obtain ⟨j, _, hj⟩ := forall2_mem (toSList_some E xs l h) x hx
      rw [hx'] at hj; exact absurd hj (by simp)
  | tuple x xs hx _ ih =>
    have hx' := ih
    rw [toS, Option.map_eq_none_iff]
    cases h : toSList E xs with
    | none => rfl
    | some l =>
      obtain ⟨j, _, hj⟩ := forall2_mem (toSList_some E xs l h) x hx
      rw [hx'] at hj; exact absurd hj (by simp)
  | set x xs hx _ ih =>
    have hx' := ih
    rw [toS, Option.map_eq_none_iff]
    cases h : toSList E xs with
    | none => rfl
    | some l =>
      obtain ⟨j, _, hj⟩ := forall2_mem (toSList_some E xs l h) x hx
      rw [hx'] at hj; exact absurd hj (by simp)
  | key k v xs hx _ ih =>
    have hx' := ih
    rw [toS, Option.map_eq_none_iff]
    cases h : toSPairs E xs with
    | none => rfl
    | some l =>
      obtain ⟨j, _, hj⟩ := forall2_mem (toSPairs_some E xs l h) k (mem_flat_key k v xs hx)
      rw [hx'] at hj; exact absurd hj (by simp)
  | val k v xs hx _ ih =>
    have hx' := ih
    rw [toS, Option.map_eq_none_iff]
    cases h : toSPairs E xs with
    | none => rfl
    | some l =>
      obtain ⟨j, _, hj⟩ := forall2_mem (toSPairs_some E xs l h) v (mem_flat_val k v xs hx)
      rw [hx'] at hj; exact absurd hj (by simp)

/-! ## Files that were not written by this writer -/

/-- Files of old versions call tuples "ADT", and the two members of a node may be swapped. -/
theorem old_tuple_and_swapped_members (E : Env) (t : Tag) (v : J) :
    fromS E (.obj [(kT, .str adtName), (kV, v)]) = fromS E (node .tuple v) ∧
    fromS E (.obj [(kV, v), (kT, .str (tagName t))]) = fromS E (node t v) := by
  constructor
  · have h := tagOf_tagName .tuple (by decide)
    simp [fromS, node, kT, kV, tagName_ne_adt, h]
  · simp [fromS, node, kT, kV]

/-- The document of an array. -/
def ndDoc (t : DT) (shape : List Nat) (xs : List J) : J := node .nd (.obj [(kDtype, .str (dtName t)),
  (kShape, .arr (shape.map (fun (d : Nat) => J.num (d : Int)))), (kData, .arr xs)])

theorem fromS_ndDoc (E : Env) (t : DT) (shape : List Nat) (xs : List J) (hs : ∀ d ∈ shape, d < 2 ^ 63) :
    fromS E (ndDoc t shape xs)
      = (fill E t xs (List.replicate (elems shape) none) 0).map (fun m => .nd t shape true m) := by
  have hz : (dtName t).takeWhile (fun c => decide (c ≠ 0)) = dtName t := by cases t <;> rfl
  simp only [ne_eq, decide_not] at hz
  rw [ndDoc, fromS_node _ _ _ (by decide)]
  simp only [fromV, fromLeaf]
  simp only [fromNd, look, List.find?, kDtype, kShape, kData, getStr]
  simp [hz, dtOf_dtName, getShape_map shape hs]
  cases fill E t xs (List.replicate (elems shape) none) 0 <;> rfl

/-- **C82, short arrays.**  An array document with `n` readable values for a shape of `m` elements: with `n ≤ m`
it loads, and the elements from `n` on are memory that was never written. -/
theorem short_data_uninitialised_refuted (E : Env) (t : DT) (shape : List Nat) (xs : List J) (l : List Int)
    (hs : ∀ d ∈ shape, d < 2 ^ 63) (hx : xs.mapM (asElem E t) = some l) (hn : l.length ≤ elems shape) :
    fromS E (ndDoc t shape xs)
      = some (.nd t shape true (l.map some ++ List.replicate (elems shape - l.length) none)) := by
  have hf := fill_spec E t l xs [] (List.replicate (elems shape) none) hx (by simpa using hn)
  rw [fromS_ndDoc E t shape xs hs]
  simp only [List.nil_append, List.length_nil] at hf
  simp [hf]

theorem mapM_length {α β : Type} (f : α → Option β) : ∀ (xs : List α) (l : List β), xs.mapM f = some l →
    l.length = xs.length
  | [], l, h => by simp at h; simp [h]
  | x :: r, l, h => by
    rw [List.mapM_cons] at h
    simp only [Option.bind_eq_bind, Option.bind_eq_some_iff, Option.pure_def, Option.some.injEq] at h
    obtain ⟨y, _, l', h2, rfl⟩ := h
    simp [mapM_length f r l' h2]

theorem fill_long (E : Env) (t : DT) : ∀ (xs : List J) (mem : List (Option Int)) (k : Nat),
    k ≤ mem.length → mem.length < k + xs.length → fill E t xs mem k = none
  | [], mem, k, h1, h2 => by simp at h2; omega
  | j :: r, mem, k, h1, h2 => by
    simp only [fill]
    split
    · rfl
    · cases asElem E t j with
      | none => rfl
      | some x =>
        rw [Option.bind_some]
        exact fill_long E t r _ (k + 1) (by simp; omega) (by simp only [List.length_set, List.length_cons] at *; omega)

/-- **C82, long arrays.**  With more values than the shape has elements, loading raises: nothing is written
behind the array. -/
theorem long_data_raises (E : Env) (t : DT) (shape : List Nat) (xs : List J)
    (hs : ∀ d ∈ shape, d < 2 ^ 63) (hn : elems shape < xs.length) : fromS E (ndDoc t shape xs) = none := by
  rw [fromS_ndDoc E t shape xs hs, fill_long E t xs _ 0 (by simp) (by simpa using hn)]
  rfl

/-- **C82, sizes of tuples.**  The size that a tuple document states is not compared with its fields. -/
theorem tuple_size_ignored_refuted (E : Env) (n : Nat) (hn : n < 2 ^ 32) (xs : List Val) (l : List J)
    (h : fromSList E l = some xs) :
    fromS E (node .tuple (.obj [(kSize, .num n), (kData, .arr l)])) = some (.tuple xs) := by
  have hg := getUint_nat n hn
  rw [fromS_node _ _ _ (by decide)]
  simp -implicitDefEqProofs [fromV, look, List.find?, kSize, kData, hg, fromData, h]

/-! ## Text -/

/-- Unicode scalar values: what UTF-8 can carry. -/
def Scalar (x : Nat) : Prop := x < 0xD800 ∨ (0xE000 ≤ x ∧ x ≤ 0x10FFFF)

/-- Valid UTF-8. -/
def Utf8Text (s : Name) : Prop := ∃ cps : List Nat, (∀ x ∈ cps, Scalar x) ∧ s = Utf8.encode cps

mutual
/-- A document that the writer accepts: all strings are valid UTF-8; and every float is one of those that
survive printing and parsing, `fl`. -/
def Valid (fl : Nat → Prop) : J → Prop
  | .dbl b => fl b
  | .str s => Utf8Text s
  | .arr xs => ValidList fl xs
  | .obj ms => ValidMembers fl ms
  | .null => True
  | .bool _ => True
  | .num _ => True
def ValidList (fl : Nat → Prop) : List J → Prop
  | [] => True
  | j :: r => Valid fl j ∧ ValidList fl r
def ValidMembers (fl : Nat → Prop) : List (Name × J) → Prop
  | [] => True
  | (n, j) :: r => Utf8Text n ∧ Valid fl j ∧ ValidMembers fl r
end

mutual
/-- A value whose strings have no surrogates and whose floats survive printing. -/
def Printable (E : Env) (fl : Nat → Prop) : Val → Prop
  | .float b => fl b
  | .str s => ∀ x ∈ s, Scalar x
  | .list xs => PrintableList E fl xs
  | .tuple xs => PrintableList E fl xs
  | .set xs => PrintableList E fl xs
  | .dict xs => PrintablePairs E fl xs
  | .nd t _ _ data => ∀ x b, some x ∈ data → fromElem E t x = .dbl b → fl b
  | .native _ _ _ cls inst => Utf8Text cls ∧ Utf8Text inst
  | .none => True
  | .int _ => True
  | .bytes _ => True
  | .user => True
  | .handle _ => True
  | .func _ => True
  | .other => True
def PrintableList (E : Env) (fl : Nat → Prop) : List Val → Prop
  | [] => True
  | x :: r => Printable E fl x ∧ PrintableList E fl r
def PrintablePairs (E : Env) (fl : Nat → Prop) : List (Val × Val) → Prop
  | [] => True
  | (k, v) :: r => Printable E fl k ∧ Printable E fl v ∧ PrintablePairs E fl r
end

theorem ascii_text (s : Name) (h : ∀ c ∈ s, c.toNat < 128) : Utf8Text s := by
  refine ⟨s.map UInt8.toNat, ?_, ?_⟩
  · intro x hx
    obtain ⟨c, hc, rfl⟩ := List.mem_map.1 hx
    have := h c hc
    exact .inl (by omega)
  · induction s with
    | nil => rfl
    | cons c r ih =>
      have hc := h c (by simp)
      simp only [List.map_cons, Utf8.encode]
      rw [← ih (fun x hx => h x (by simp [hx]))]
      have : Utf8.encodeOne c.toNat = [c] := by
        rw [Utf8.encodeOne_eq]; simp [hc]
      rw [this]; rfl

theorem ascii_names : Utf8Text kT ∧ Utf8Text kV ∧ Utf8Text kSize ∧ Utf8Text kData ∧ Utf8Text kDtype ∧
    Utf8Text kShape ∧ Utf8Text kTag ∧ Utf8Text kType ∧ Utf8Text kClass ∧ Utf8Text kVar ∧ Utf8Text kUd ∧
    Utf8Text kIsNative ∧ Utf8Text kIsJit ∧ Utf8Text kNClass ∧ Utf8Text kNInst ∧ Utf8Text kUserPtr ∧
    Utf8Text kPtr ∧ Utf8Text kVersion ∧ Utf8Text kDoc ∧ Utf8Text version := by
  refine ⟨?_, ?_, ?_, ?_, ?_, ?_, ?_, ?_, ?_, ?_, ?_, ?_, ?_, ?_, ?_, ?_, ?_, ?_, ?_, ?_⟩ <;>
    exact ascii_text _ (by decide)

theorem ascii_tag (t : Tag) : Utf8Text (tagName t) := ascii_text _ (by cases t <;> decide)
theorem ascii_dt (t : DT) : Utf8Text (dtName t) := ascii_text _ (by cases t <;> decide)

/-- A string with a surrogate has no valid UTF-8 form. -/
theorem text_encode_iff (s : List Nat) (h : ∀ x ∈ s, x ≤ 0x10FFFF) :
    Utf8Text (Utf8.encode s) ↔ ∀ x ∈ s, Scalar x := by
  constructor
  · rintro ⟨cps, h1, h2⟩
    have : s = cps := Utf8.encode_injective s cps h (fun x hx => by
      rcases h1 x hx with h | h <;> omega) h2
    rw [this]; exact h1
  · exact fun h => ⟨s, h, rfl⟩

theorem valid_node (fl : Nat → Prop) (t : Tag) (v : J) : Valid fl (node t v) ↔ Valid fl v := by
  simp [node, Valid, ValidMembers, ascii_names, ascii_tag]

theorem validList_num {α : Type} (fl : Nat → Prop) (f : α → Int) : ∀ l : List α,
    ValidList fl (l.map (fun a => J.num (f a)))
  | [] => trivial
  | _ :: r => ⟨trivial, validList_num fl f r⟩

theorem validList_elems (E : Env) (fl : Nat → Prop) (t : DT) : ∀ l : List Int,
    ValidList fl (l.map (fromElem E t)) ↔ ∀ x b, x ∈ l → fromElem E t x = .dbl b → fl b
  | [] => by simp [ValidList]
  | y :: r => by
    have hy : Valid fl (fromElem E t y) ↔ ∀ b, fromElem E t y = .dbl b → fl b := by
      cases t <;> simp [fromElem, Valid]
    simp only [List.map_cons, ValidList, validList_elems E fl t r, hy, List.mem_cons]
    constructor
    · rintro ⟨h1, h2⟩ x b (rfl | hx) hb
      · exact h1 b hb
      · exact h2 x b hx hb
    · intro h
      exact ⟨fun b hb => h y b (.inl rfl) hb, fun x b hx hb => h x b (.inr hx) hb⟩

mutual
theorem valid_val (E : Env) (fl : Nat → Prop) : ∀ v j, Ok E v → toS E v = some j →
    (Valid fl j ↔ Printable E fl v)
  | .none, j, _, h => by
    simp only [toS, Option.some.injEq] at h; subst h; rw [valid_node]; simp [Valid, Printable]
  | .int i, j, _, h => by
    simp only [toS, Option.some.injEq] at h; subst h; rw [valid_node]; simp [Valid, Printable]
  | .float b, j, _, h => by
    simp only [toS, Option.some.injEq] at h; subst h; rw [valid_node]; simp [Valid, Printable]
  | .bytes b, j, _, h => by
    simp only [toS] at h
    split at h
    · simp only [Option.some.injEq] at h; subst h; rw [valid_node]
      simp only [Valid, Printable, iff_true]
      exact validList_num fl (fun c : UInt8 => (c.toNat : Int)) b
    · rename_i hb
      simp only [Option.some.injEq] at h; subst h; rw [valid_node]
      simp only [Valid, Printable, iff_true]
      refine ascii_text b (fun c hc => ?_)
      have := List.any_eq_false.1 (by simpa using hb) c hc
      simp [awkward] at this
      omega
  | .str s, j, ho, h => by
    simp only [Ok] at ho
    simp only [toS, Option.some.injEq] at h; subst h; rw [valid_node]
    simp only [Valid, Printable]
    exact text_encode_iff s ho
  | .list xs, j, ho, h => by
    simp only [Ok] at ho
    simp only [toS, Option.map_eq_some_iff] at h
    obtain ⟨l, hl, rfl⟩ := h
    rw [valid_node]
    simp only [Valid, Printable]
    exact valid_list E fl xs l ho hl
  | .tuple xs, j, ho, h => by
    simp only [Ok] at ho
    simp only [toS, Option.map_eq_some_iff] at h
    obtain ⟨l, hl, rfl⟩ := h
    rw [valid_node]
    simp only [Valid, ValidMembers, Printable, ascii_names, true_and, and_true]
    exact valid_list E fl xs l ho.2 hl
  | .set xs, j, ho, h => by
    simp only [Ok] at ho
    simp only [toS, Option.map_eq_some_iff] at h
    obtain ⟨l, hl, rfl⟩ := h
    rw [valid_node]
    simp only [Valid, Printable]
    exact valid_list E fl xs l ho.1 hl
  | .dict xs, j, ho, h => by
    simp only [Ok] at ho
    simp only [toS, Option.map_eq_some_iff] at h
    obtain ⟨l, hl, rfl⟩ := h
    rw [valid_node]
    simp only [Valid, Printable]
    exact valid_pairs E fl xs l ho.1 hl
  | .nd t s c d, j, ho, h => by
    simp only [Ok] at ho
    obtain ⟨rfl, _, _, l, rfl, _⟩ := ho
    rw [toS, if_pos rfl, readAll_map, Option.map_some, Option.some.injEq] at h
    subst h
    rw [valid_node]
    simp only [Valid, ValidMembers, Printable, ascii_names, ascii_dt, true_and, and_true]
    rw [validList_elems E fl t l]
    have := validList_num fl (fun d : Nat => (d : Int)) s
    simp only [this, true_and]
    simp
  | .native tag vars jit cls inst, j, _, h => by
    simp only [toS, Option.some.injEq] at h; subst h; rw [valid_node]
    simp only [Valid, ValidMembers, Printable, ascii_names, true_and, and_true]
    exact ⟨fun h => h.2, fun h => ⟨h.1, h⟩⟩
  | .user, _, ho, _ => by simp [Ok] at ho
  | .handle p, j, _, h => by
    simp only [toS, Option.some.injEq] at h; subst h; rw [valid_node]
    simp [Valid, ValidMembers, Printable, ascii_names]
  | .func p, _, ho, _ => by simp [Ok] at ho
  | .other, _, ho, _ => by simp [Ok] at ho
theorem valid_list (E : Env) (fl : Nat → Prop) : ∀ xs l, OkList E xs → toSList E xs = some l →
    (ValidList fl l ↔ PrintableList E fl xs)
  | [], l, _, h => by simp only [toSList, Option.some.injEq] at h; subst h; simp [ValidList, PrintableList]
  | x :: r, l, ho, h => by
    simp only [OkList] at ho
    simp only [toSList, Option.bind_eq_bind, Option.bind_eq_some_iff, Option.some.injEq] at h
    obtain ⟨j, h1, l', h2, rfl⟩ := h
    simp only [ValidList, PrintableList, valid_val E fl x j ho.1 h1, valid_list E fl r l' ho.2 h2]
theorem valid_pairs (E : Env) (fl : Nat → Prop) : ∀ xs l, OkPairs E xs → toSPairs E xs = some l →
    (ValidList fl l ↔ PrintablePairs E fl xs)
  | [], l, _, h => by simp only [toSPairs, Option.some.injEq] at h; subst h; simp [ValidList, PrintablePairs]
  | (k, v) :: r, l, ho, h => by
    simp only [OkPairs] at ho
    simp only [toSPairs, Option.bind_eq_bind, Option.bind_eq_some_iff, Option.some.injEq] at h
    obtain ⟨j, h1, j', h3, l', h2, rfl⟩ := h
    simp only [ValidList, PrintablePairs, valid_val E fl k j ho.1 h1, valid_val E fl v j' ho.2.1 h3,
      valid_pairs E fl r l' ho.2.2 h2]
end

/-- What is assumed of rapidjson: documents with valid strings are written, and read back as they were when
their floats survive (`fl`); documents with other strings are refused. -/
structure TextLaws (write : J → Option Name) (parse : Name → Option J) (fl : Nat → Prop) : Prop where
  back : ∀ ms, Valid fl (.obj ms) → ∃ t, write (.obj ms) = some t ∧ parse t = some (.obj ms)
  backArr : ∀ xs, Valid fl (.arr xs) → ∃ t, write (.arr xs) = some t ∧ parse t = some (.arr xs)
  refuse : ∀ ms, ¬ Valid (fun _ => True) (.obj ms) → write (.obj ms) = none

/-- **C82, text.**  `deserialize(serialize(v)) == v` for every value that can be saved, if its strings have no
surrogates and its floats survive printing. -/
theorem deserialize_serialize_partial (E : Env) (write : J → Option Name) (parse : Name → Option J)
    (fl : Nat → Prop) (L : TextLaws write parse fl) (v : Val) (h : Ok E v) (hp : Printable E fl v) :
    ∃ t, serialize E write v = some t ∧ deserialize E parse t = some v := by
  obtain ⟨j, h1, h2⟩ := roundtrip_val E v h
  have hj := (valid_val E fl v j h h1).2 hp
  obtain ⟨t, h3, h4⟩ := L.back [(kVersion, .str version), (kDoc, j)] (by
    simp [Valid, ValidMembers, ascii_names, hj])
  refine ⟨t, by simp [serialize, h1, h3], ?_⟩
  have e1 : look [(kVersion, .str version), (kDoc, j)] kVersion = some (.str version) := rfl
  have e2 : look [(kVersion, .str version), (kDoc, j)] kDoc = some j := rfl
  have e3 : version.takeWhile (fun c => decide (c ≠ 0)) = version := rfl
  simp only [deserialize, h4, Option.bind_some, e1, e2, e3, if_true, h2]

/-- **C82, surrogates.**  A value that can be saved otherwise is refused as soon as a string in it has a
surrogate (such strings are legal in Python and in the runtime). -/
theorem surrogates_refused_refuted (E : Env) (write : J → Option Name) (parse : Name → Option J)
    (fl : Nat → Prop) (L : TextLaws write parse fl) (v : Val) (h : Ok E v)
    (hp : ¬ Printable E (fun _ => True) v) : serialize E write v = none := by
  obtain ⟨j, h1, _⟩ := roundtrip_val E v h
  have hj := (valid_val E (fun _ => True) v j h h1).not.2 hp
  simp only [serialize, h1, Option.bind_some]
  apply L.refuse
  simp [Valid, ValidMembers, ascii_names, hj]

end Verif.Pickle
