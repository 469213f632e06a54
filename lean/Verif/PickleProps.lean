/-
What is saved comes back: round trips of `Verif.Pickle`, on the level of documents and, for any writer and
parser that agree on valid documents, on the level of text.
-/
import Verif.Pickle
import Verif.Utf8Props

namespace Verif.Pickle

/-! ## Values as the runtime keeps them -/

/-- Keys of a table: each can be hashed and no two are taken for the same. -/
def KeysOk (E : Env) (ks : List Val) : Prop :=
  (∀ k ∈ ks, hashable k = true) ∧ ks.Pairwise fun a b => E.same a b = false

/-- An element of an array: in the range of its type; a narrow float survives being widened. -/
def ElemOk (E : Env) : DT → Int → Prop
  | .i8, x => -2 ^ 7 ≤ x ∧ x < 2 ^ 7
  | .i16, x => -2 ^ 15 ≤ x ∧ x < 2 ^ 15
  | .i32, x => -2 ^ 31 ≤ x ∧ x < 2 ^ 31
  | .i64, x => -2 ^ 63 ≤ x ∧ x < 2 ^ 63
  | .u8, x => 0 ≤ x ∧ x < 2 ^ 8
  | .u16, x => 0 ≤ x ∧ x < 2 ^ 16
  | .f16, x => 0 ≤ x ∧ E.narrow16 (E.narrow32 (E.widen32 (E.widen16 x.toNat))) = x.toNat
  | .f32, x => 0 ≤ x ∧ E.narrow32 (E.widen32 x.toNat) = x.toNat
  | .f64, x => 0 ≤ x

mutual
/-- Values that can be saved: 64-bit integers, code points up to 0x10FFFF, fewer than 2^32 tuple fields,
distinct hashable keys, contiguous arrays of the right size, no functions and no user objects. -/
def Ok (E : Env) : Val → Prop
  | .none => True
  | .int i => -2 ^ 63 ≤ i ∧ i < 2 ^ 63
  | .float _ => True
  | .bytes _ => True
  | .str s => ∀ x ∈ s, x ≤ 0x10FFFF
  | .list xs => OkList E xs
  | .tuple xs => xs.length < 2 ^ 32 ∧ OkList E xs
  | .set xs => OkList E xs ∧ KeysOk E xs
  | .dict xs => OkPairs E xs ∧ KeysOk E (xs.map Prod.fst)
  | .nd t shape contig data => contig = true ∧ data.length = elems shape ∧ (∀ d ∈ shape, d < 2 ^ 63) ∧
      ∃ l : List Int, data = l.map some ∧ ∀ x ∈ l, ElemOk E t x
  | .native tag vars _ cls inst => tag < 2 ^ 32 ∧ vars < 2 ^ 32 ∧ (0 : UInt8) ∉ cls ∧ (0 : UInt8) ∉ inst
  | .user => False
  | .handle p => p < 2 ^ 64
  | .func _ => False
  | .other => False
def OkList (E : Env) : List Val → Prop
  | [] => True
  | x :: r => Ok E x ∧ OkList E r
def OkPairs (E : Env) : List (Val × Val) → Prop
  | [] => True
  | (k, v) :: r => Ok E k ∧ Ok E v ∧ OkPairs E r
end

/-! ## Pieces -/

theorem tagOf_tagName (t : Tag) (h1 : t ≠ .func) : tagOf (tagName t) = t := by
  cases t <;> first | (exact absurd rfl h1) | (simp [tagOf, tagName])

theorem tagName_ne_adt (t : Tag) : tagName t ≠ adtName := by cases t <;> simp [tagName, adtName]

theorem tagOf_func : tagOf (tagName .func) = .other := by simp [tagOf, tagName]

theorem dtOf_dtName (t : DT) : dtOf (dtName t) = some t := by
  cases t <;> simp [dtOf, dtName, List.find?]

theorem fromS_node (E : Env) (t : Tag) (v : J) (h : t ≠ .func) : fromS E (node t v) = fromV E t v := by
  simp [node, fromS, kT, kV, tagName_ne_adt t, tagOf_tagName t h]

theorem fromStr_encode (s : List Nat) (h : ∀ x ∈ s, x ≤ 0x10FFFF) :
    fromStr (.str (Utf8.encode s)) = some (.str s) := by
  simp [fromStr, Utf8.decode_encode s h]

theorem bytes_arr (b : List UInt8) :
    fromBytes (.arr (b.map (fun c => J.num (c.toNat : Int)))) = some (.bytes b) := by
  have h : (b.map (fun c => J.num (c.toNat : Int))).mapM getUint = some (b.map UInt8.toNat) := by
    induction b with
    | nil => rfl
    | cons c r ih =>
      have hc : getUint (.num (c.toNat : Int)) = some c.toNat := by
        have := UInt8.toNat_lt c
        simp only [getUint]
        rw [if_pos (by omega)]
        simp
      rw [List.map_cons, List.mapM_cons, hc, ih]; rfl
  simp only [fromBytes, h, Option.map_some, List.map_map]
  congr 2
  conv => rhs; rw [← List.map_id b]
  apply List.map_congr_left
  intro c _
  simp

theorem addAll_distinct (E : Env) : ∀ (xs acc : List Val), KeysOk E (acc ++ xs) →
    addAll E acc xs = some (acc ++ xs)
  | [], acc, _ => by simp [addAll]
  | x :: r, acc, h => by
    have hx : hashable x = true := h.1 x (by simp)
    have hn : acc.any (fun e => E.same e x) = false := by
      rw [List.any_eq_false]
      intro e he
      have := (List.pairwise_append.1 h.2).2.2 e he x (by simp)
      simp [this]
    simp only [addAll, addItem, hx, hn, if_true, Bool.false_eq_true, if_false, Option.bind_some]
    have h' : KeysOk E ((acc ++ [x]) ++ r) := by simpa using h
    rw [addAll_distinct E r (acc ++ [x]) h']
    simp

/-- Keys and values of a table in turn. -/
def flat : List (Val × Val) → List Val
  | [] => []
  | (k, v) :: r => k :: v :: flat r

theorem setAll_distinct (E : Env) : ∀ (xs acc : List (Val × Val)), KeysOk E ((acc ++ xs).map Prod.fst) →
    setAll E acc (flat xs) = some (acc ++ xs)
  | [], acc, _ => by simp [setAll, flat]
  | (k, v) :: r, acc, h => by
    have hx : hashable k = true := h.1 k (by simp)
    have hn : acc.any (fun e => E.same e.1 k) = false := by
      rw [List.any_eq_false]
      intro e he
      have h2 := h.2
      rw [List.map_append] at h2
      have := (List.pairwise_append.1 h2).2.2 e.1 (List.mem_map_of_mem he) k (by simp)
      simp [this]
    simp only [flat, setAll, setItem, hx, hn, if_true, Bool.false_eq_true, if_false, Option.bind_some]
    have h' : KeysOk E (((acc ++ [(k, v)]) ++ r).map Prod.fst) := by simpa using h
    rw [setAll_distinct E r (acc ++ [(k, v)]) h']
    simp

theorem getShape_map : ∀ (s : List Nat), (∀ d ∈ s, d < 2 ^ 63) →
    getShape (s.map (fun (d : Nat) => J.num (d : Int))) = some s
  | [], _ => rfl
  | d :: r, h => by
    have hd := h d (by simp)
    have hg : getInt64 (.num (d : Int)) = some (d : Int) := by
      simp only [getInt64]; rw [if_pos (by omega)]
    simp only [List.map_cons, getShape, hg, getShape_map r (fun x hx => h x (by simp [hx])),
      Option.bind_eq_bind, Option.bind_some]
    rw [if_pos (by omega)]
    simp

theorem asElem_fromElem (E : Env) (t : DT) (x : Int) (h : ElemOk E t x) :
    asElem E t (fromElem E t x) = some x := by
  cases t <;> simp only [ElemOk] at h <;> simp only [asElem, fromElem, getDouble, Option.map_some]
  · simp only [getInt]; rw [if_pos (by omega), Option.map_some, Int.bmod_eq_of_le (by omega) (by omega)]
  · simp only [getInt]; rw [if_pos (by omega), Option.map_some, Int.bmod_eq_of_le (by omega) (by omega)]
  · simp only [getInt]; rw [if_pos (by omega)]
  · simp only [getInt64]; rw [if_pos (by omega)]
  · simp only [getInt]; rw [if_pos (by omega), Option.map_some, Int.emod_eq_of_lt (by omega) (by omega)]
  · simp only [getInt]; rw [if_pos (by omega), Option.map_some, Int.emod_eq_of_lt (by omega) (by omega)]
  · rw [h.2]; congr 1; omega
  · rw [h.2]; congr 1; omega
  · simp [Int.toNat_of_nonneg h]

theorem readAll_map : ∀ l : List Int, readAll (l.map some) = some l
  | [] => rfl
  | x :: r => by simp [readAll, readAll_map r]

/-- Filling memory after a part `A` that is done. -/
theorem fill_spec (E : Env) (t : DT) : ∀ (l : List Int) (js : List J) (A B : List (Option Int)),
    js.mapM (asElem E t) = some l → l.length ≤ B.length →
    fill E t js (A ++ B) A.length = some (A ++ l.map some ++ B.drop l.length)
  | l, [], A, B, hj, _ => by
    obtain rfl : l = [] := by simpa using hj.symm
    simp [fill]
  | l, j :: js, A, [], hj, hk => by
    obtain rfl : l = [] := by simpa using hk
    rw [List.mapM_cons] at hj
    cases hx : asElem E t j <;> cases hr : js.mapM (asElem E t) <;> simp [hx, hr] at hj
  | l, j :: js, A, y :: B, hj, hk => by
    rw [List.mapM_cons] at hj
    cases hx : asElem E t j with
    | none => simp [hx] at hj
    | some x =>
      cases hr : js.mapM (asElem E t) with
      | none => simp [hx, hr] at hj
      | some r =>
        simp only [hx, hr, Option.bind_eq_bind, Option.bind_some, Option.pure_def, Option.some.injEq] at hj
        subst hj
        have ih := fill_spec E t r js (A ++ [some x]) B hr (by simpa using hk)
        have hset : (A ++ y :: B).set A.length (some x) = (A ++ [some x]) ++ B := by simp
        simp only [fill, hx, Option.bind_some]
        rw [if_neg (by simp), hset]
        simpa using ih

theorem mapM_fromElem (E : Env) (t : DT) : ∀ l : List Int, (∀ x ∈ l, ElemOk E t x) →
    (l.map (fromElem E t)).mapM (asElem E t) = some l
  | [], _ => rfl
  | x :: r, h => by
    rw [List.map_cons, List.mapM_cons, asElem_fromElem E t x (h x (by simp)),
      mapM_fromElem E t r (fun y hy => h y (by simp [hy]))]
    rfl

theorem fromNd_ok (E : Env) (t : DT) (shape : List Nat) (l : List Int) (h1 : l.length = elems shape)
    (h2 : ∀ d ∈ shape, d < 2 ^ 63) (h3 : ∀ x ∈ l, ElemOk E t x) :
    fromNd E (.obj [(kDtype, .str (dtName t)),
        (kShape, .arr (shape.map (fun (d : Nat) => J.num (d : Int)))),
        (kData, .arr (l.map (fromElem E t)))]) = some (.nd t shape true (l.map some)) := by
  have hz : (dtName t).takeWhile (fun c => decide (c ≠ 0)) = dtName t := by cases t <;> rfl
  have hf := fill_spec E t l (l.map (fromElem E t)) [] (List.replicate (elems shape) none)
    (mapM_fromElem E t l h3) (by simp [h1])
  simp only [ne_eq, decide_not] at hz
  simp only [List.nil_append, List.length_nil] at hf
  simp [fromNd, look, List.find?, kDtype, kShape, kData, getStr, hz, dtOf_dtName,
    getShape_map shape h2, hf, h1]

theorem noZero (s : Name) (h : (0 : UInt8) ∉ s) : s.takeWhile (fun c => decide (c ≠ 0)) = s := by
  induction s with
  | nil => rfl
  | cons x r ih =>
    have hx : x ≠ 0 := fun e => h (by simp [e])
    rw [List.takeWhile_cons_of_pos (by simpa using hx), ih (fun hr => h (List.mem_cons_of_mem _ hr))]

theorem getUint_nat (n : Nat) (h : n < 2 ^ 32) : getUint (.num (n : Int)) = some n := by
  simp only [getUint]; rw [if_pos (by omega)]; simp

theorem getUint_two : getUint (.num 2) = some 2 := getUint_nat 2 (by decide)

theorem getUint64_nat (n : Nat) (h : n < 2 ^ 64) : getUint64 (.num (n : Int)) = some n := by
  simp only [getUint64]; rw [if_pos (by omega)]; simp

theorem getInt64_num (i : Int) (h : -2 ^ 63 ≤ i ∧ i < 2 ^ 63) : getInt64 (.num i) = some i := if_pos h

theorem fromUser_ok (tag vars : Nat) (jit : Bool) (cls inst : Name) (h1 : tag < 2 ^ 32) (h2 : vars < 2 ^ 32)
    (h3 : (0 : UInt8) ∉ cls) (h4 : (0 : UInt8) ∉ inst) :
    fromUser (.obj [
      (kTag, .num tag), (kType, .num 2), (kClass, .str cls), (kVar, .num vars), (kUd, .num 0),
      (kIsNative, .bool true), (kIsJit, .bool jit), (kNClass, .str cls), (kNInst, .str inst)])
      = some (.native tag vars jit cls inst) := by
  have a := noZero cls h3
  have b := noZero inst h4
  simp only [fromUser]
  generalize hm : [(kTag, J.num tag), (kType, .num 2), (kClass, .str cls), (kVar, .num vars), (kUd, .num 0),
      (kIsNative, .bool true), (kIsJit, .bool jit), (kNClass, .str cls), (kNInst, .str inst)] = ms
  have e1 : look ms kTag = some (.num tag) := by subst hm; rfl
  have e2 : look ms kType = some (.num 2) := by subst hm; rfl
  have e3 : look ms kVar = some (.num vars) := by subst hm; rfl
  have e4 : look ms kIsNative = some (.bool true) := by subst hm; rfl
  have e5 : look ms kIsJit = some (.bool jit) := by subst hm; rfl
  have e6 : look ms kNClass = some (.str cls) := by subst hm; rfl
  have e7 : look ms kNInst = some (.str inst) := by subst hm; rfl
  simp -implicitDefEqProofs only [e1, e2, e3, e4, e5, e6, e7, Option.bind_eq_bind, Option.bind_some, getUint_nat tag h1,
    getUint_nat vars h2, getUint_two, getBool, getStr, a, b, if_true]

/-! ## The round trip -/

mutual
theorem roundtrip_val (E : Env) : ∀ v, Ok E v → ∃ j, toS E v = some j ∧ fromS E j = some v
  | .none, _ => ⟨_, by rw [toS], by rw [fromS_node _ _ _ (by decide)]; simp -implicitDefEqProofs [fromV, fromLeaf]⟩
  | .int i, h => ⟨_, by rw [toS], by
      simp only [Ok] at h
      rw [fromS_node _ _ _ (by decide)]
      simp -implicitDefEqProofs only [fromV, fromLeaf, getInt64_num i h, Option.map_some]⟩
  | .float b, _ => ⟨_, by rw [toS], by
      rw [fromS_node _ _ _ (by decide)]; simp -implicitDefEqProofs [fromV, fromLeaf, getDouble]⟩
  | .bytes b, _ => by
      by_cases hb : b.any awkward = true
      · refine ⟨_, by rw [toS, if_pos hb], ?_⟩
        rw [fromS_node _ _ _ (by decide)]
        simp -implicitDefEqProofs only [fromV, fromLeaf, bytes_arr]
      · refine ⟨_, by rw [toS, if_neg hb], ?_⟩
        rw [fromS_node _ _ _ (by decide)]
        simp -implicitDefEqProofs [fromV, fromLeaf, fromBytes]
  | .str s, h => ⟨_, by rw [toS], by
      simp only [Ok] at h
      rw [fromS_node _ _ _ (by decide)]
      simp -implicitDefEqProofs only [fromV, fromLeaf, fromStr_encode s h]⟩
  | .list xs, h => by
      simp only [Ok] at h
      obtain ⟨l, h1, h2⟩ := roundtrip_list E xs h
      refine ⟨_, by rw [toS, h1, Option.map_some], ?_⟩
      rw [fromS_node _ _ _ (by decide)]
      simp -implicitDefEqProofs [fromV, h2]
  | .tuple xs, h => by
      simp only [Ok] at h
      obtain ⟨l, h1, h2⟩ := roundtrip_list E xs h.2
      have hl : l.length = xs.length := toSList_length E xs l h1
      refine ⟨_, by rw [toS, h1, Option.map_some], ?_⟩
      rw [fromS_node _ _ _ (by decide)]
      have hg := getUint_nat l.length (hl ▸ h.1)
      simp -implicitDefEqProofs [fromV, look, List.find?, kSize, kData, hg, fromData, h2]
  | .set xs, h => by
      simp only [Ok] at h
      obtain ⟨l, h1, h2⟩ := roundtrip_list E xs h.1
      refine ⟨_, by rw [toS, h1, Option.map_some], ?_⟩
      rw [fromS_node _ _ _ (by decide)]
      simp -implicitDefEqProofs [fromV, h2, addAll_distinct E xs [] (by simpa using h.2)]
  | .dict xs, h => by
      simp only [Ok] at h
      obtain ⟨l, h1, h2⟩ := roundtrip_pairs E xs h.1
      refine ⟨_, by rw [toS, h1, Option.map_some], ?_⟩
      rw [fromS_node _ _ _ (by decide)]
      simp -implicitDefEqProofs [fromV, h2, setAll_distinct E xs [] (by simpa using h.2)]
  | .nd t shape contig data, h => by
      simp only [Ok] at h
      obtain ⟨rfl, h1, h2, l, rfl, h3⟩ := h
      refine ⟨_, by rw [toS, if_pos rfl, readAll_map, Option.map_some], ?_⟩
      rw [fromS_node _ _ _ (by decide)]
      simp -implicitDefEqProofs only [fromV, fromLeaf]
      exact fromNd_ok E t shape l (by simpa using h1) h2 h3
  | .native tag vars jit cls inst, h => by
      simp only [Ok] at h
      refine ⟨_, by rw [toS], ?_⟩
      rw [fromS_node _ _ _ (by decide)]
      simp -implicitDefEqProofs only [fromV, fromLeaf]
      exact fromUser_ok tag vars jit cls inst h.1 h.2.1 h.2.2.1 h.2.2.2
  | .user, h => by simp [Ok] at h
  | .handle p, h => by
      simp only [Ok] at h
      refine ⟨_, by rw [toS], ?_⟩
      rw [fromS_node _ _ _ (by decide)]
      have hg := getUint64_nat p h
      simp -implicitDefEqProofs [fromV, fromLeaf, look, List.find?, hg]
  | .func p, h => by simp [Ok] at h
  | .other, h => by simp [Ok] at h
theorem roundtrip_list (E : Env) : ∀ xs, OkList E xs → ∃ l, toSList E xs = some l ∧ fromSList E l = some xs
  | [], _ => ⟨[], rfl, rfl⟩
  | x :: r, h => by
      simp only [OkList] at h
      obtain ⟨j, h1, h2⟩ := roundtrip_val E x h.1
      obtain ⟨l, h3, h4⟩ := roundtrip_list E r h.2
      exact ⟨j :: l, by simp [toSList, h1, h3], by simp [fromSList, h2, h4]⟩
theorem roundtrip_pairs (E : Env) : ∀ xs, OkPairs E xs →
    ∃ l, toSPairs E xs = some l ∧ fromSList E l = some (flat xs)
  | [], _ => ⟨[], rfl, rfl⟩
  | (k, v) :: r, h => by
      simp only [OkPairs] at h
      obtain ⟨jk, h1, h2⟩ := roundtrip_val E k h.1
      obtain ⟨jv, h5, h6⟩ := roundtrip_val E v h.2.1
      obtain ⟨l, h3, h4⟩ := roundtrip_pairs E r h.2.2
      exact ⟨jk :: jv :: l, by simp [toSPairs, h1, h3, h5], by simp [fromSList, flat, h2, h4, h6]⟩
theorem toSList_length (E : Env) : ∀ xs l, toSList E xs = some l → l.length = xs.length
  | [], l, h => by simp [toSList] at h; simp [← h]
  | x :: r, l, h => by
      simp only [toSList, Option.bind_eq_bind, Option.bind_eq_some_iff, Option.some.injEq] at h
      obtain ⟨j, _, l', h2, rfl⟩ := h
      simp [toSList_length E r l' h2]
end

end Verif.Pickle
