import Verif.ListOps
import Verif.SliceProps
import Mathlib.Data.List.Forall2

/-! # C06: list method histories refine Python lists -/

namespace Verif.ListOps

open Verif.Slice (pyClamp pySlicePositions)

variable {α : Type}

/-- Python's list semantics, one call: from heap `h` the call may end in heap `h'` with result `r`.
Written with decompositions of the contents, not with the code's index arithmetic. -/
def PyStep (eq : α → α → Bool) (h : Heap α) (op : Op α) (h' : Heap α) (r : Res α) : Prop :=
  match op with
  | .append a x => h' = upd h a (h a ++ [x]) ∧ r = .unit
  | .extend a b => h' = upd h a (h a ++ h b) ∧ r = .unit
  | .insert a i x => ∃ pre post, h a = pre ++ post ∧ (pre.length : Int) = pyClamp i (h a).length ∧
      h' = upd h a (pre ++ x :: post) ∧ r = .unit
  | .pop a i =>
      (∃ pre x post, h a = pre ++ x :: post ∧
        (if i < 0 then i + (h a).length else i) = (pre.length : Int) ∧
        h' = upd h a (pre ++ post) ∧ r = .val x) ∨
      (¬ (-((h a).length : Int) ≤ i ∧ i < (h a).length) ∧ h' = h ∧ r = .raised)
  | .remove a x =>
      (∃ pre y post, h a = pre ++ y :: post ∧ eq y x = true ∧ (∀ z ∈ pre, eq z x = false) ∧
        h' = upd h a (pre ++ post) ∧ r = .unit) ∨
      ((∀ z ∈ h a, eq z x = false) ∧ h' = h ∧ r = .raised)
  | .reverse a => h' = upd h a (h a).reverse ∧ r = .unit
  | .clear a => h' = upd h a [] ∧ r = .unit
  | .getItem a i =>
      (∃ pre x post, h a = pre ++ x :: post ∧
        (if i < 0 then i + (h a).length else i) = (pre.length : Int) ∧ h' = h ∧ r = .val x) ∨
      (¬ (-((h a).length : Int) ≤ i ∧ i < (h a).length) ∧ h' = h ∧ r = .raised)
  | .setItem a i x =>
      (∃ pre y post, h a = pre ++ y :: post ∧
        (if i < 0 then i + (h a).length else i) = (pre.length : Int) ∧
        h' = upd h a (pre ++ x :: post) ∧ r = .unit) ∨
      (¬ (-((h a).length : Int) ≤ i ∧ i < (h a).length) ∧ h' = h ∧ r = .raised)
  | .setSlice a s e b => ∃ pre mid post, h a = pre ++ mid ++ post ∧
      (pre.length : Int) = pyClamp s (h a).length ∧
      ((pre ++ mid).length : Int) = max (pyClamp s (h a).length) (pyClamp e (h a).length) ∧
      h' = upd h a (pre ++ h b ++ post) ∧ r = .unit
  | .getSlice dst a s e step =>
      if step ≤ 0 then h' = h ∧ r = .raised
      else h' = upd h dst ((pySlicePositions (h a).length s e step).filterMap ((h a)[·]?)) ∧
        r = .unit
  | .index a x s e => h' = h ∧
      ((∃ pre y post, h a = pre ++ y :: post ∧ eq y x = true ∧
          pyClamp s (h a).length ≤ (pre.length : Int) ∧
          (pre.length : Int) < pyClamp e (h a).length ∧
          (∀ z ∈ pre.drop (pyClamp s (h a).length).toNat, eq z x = false) ∧
          r = .int pre.length) ∨
       ((∀ (i : Nat) (z : α), (h a)[i]? = some z → pyClamp s (h a).length ≤ (i : Int) →
          (i : Int) < pyClamp e (h a).length → eq z x = false) ∧ r = .raised))
  | .count a x => h' = h ∧ r = .int ((h a).filter (fun y => eq y x)).length
  | .contains a x => h' = h ∧ ∃ b, r = .bool b ∧ (b = true ↔ ∃ y ∈ h a, eq y x = true)
  | .repeat_ dst a n => h' = upd h dst (List.replicate n.toNat (h a)).flatten ∧ r = .unit
  | .concat dst a b => h' = upd h dst (h a ++ h b) ∧ r = .unit
  | .equal a b => h' = h ∧ ∃ q, r = .bool q ∧
      (q = true ↔ a = b ∨ List.Forall₂ (fun x y => eq x y = true) (h a) (h b))
  | .len a => h' = h ∧ r = .int (h a).length

/-- The calls the theorem covers: slice assignment with ordered non-negative bounds from another
list, slices with non-negative step, and `index` on lists shorter than 2^31. -/
def Supported (h : Heap α) : Op α → Prop
  | .setSlice a s e b => a ≠ b ∧ 0 ≤ s ∧ s ≤ e
  | .index a _ _ _ => (h a).length < 2147483648
  | _ => True

/-- A split of a list at a valid position. -/
theorem split_at (v : List α) (k : Nat) (hk : k < v.length) :
    v = v.take k ++ v[k] :: v.drop (k + 1) := by
  conv => lhs; rw [← List.take_append_drop k v, List.drop_eq_getElem_cons hk]

theorem removeCode_spec (eq : α → α → Bool) (x : α) (v : List α) :
    (∀ v', removeCode eq x v = some v' → ∃ pre y post, v = pre ++ y :: post ∧ eq y x = true ∧
      (∀ z ∈ pre, eq z x = false) ∧ v' = pre ++ post) ∧
    (removeCode eq x v = none → ∀ z ∈ v, eq z x = false) := by
  induction v with
  | nil => simp [removeCode]
  | cons y ys ih =>
    simp only [removeCode]
    split
    · rename_i h
      refine ⟨?_, by simp⟩
      intro v' hv
      simp at hv; subst hv
      exact ⟨[], y, ys, rfl, h, by simp, rfl⟩
    · rename_i h
      constructor
      · intro v' hv
        rw [Option.map_eq_some_iff] at hv
        obtain ⟨w, hw, rfl⟩ := hv
        obtain ⟨pre, z, post, h1, h2, h3, h4⟩ := ih.1 w hw
        refine ⟨y :: pre, z, post, by rw [h1]; rfl, h2, ?_, by rw [h4]; rfl⟩
        intro u hu
        rcases List.mem_cons.mp hu with rfl | hu
        · simpa using h
        · exact h3 u hu
      · intro hn z hz
        simp at hn
        rcases List.mem_cons.mp hz with rfl | hz
        · simpa using h
        · exact ih.2 hn z hz

theorem step_getItem (eq : α → α → Bool) (h : Heap α) (a : Ref) (i : Int) :
    PyStep eq h (.getItem a i) (stepCode eq h (.getItem a i)).1
      (stepCode eq h (.getItem a i)).2 := by
  have hg := Verif.Slice.getItem_correct (h a) i
  simp only [PyStep, stepCode]
  cases hc : Verif.Slice.getItem (h a) i with
  | ok x =>
    left
    rcases (hg.1 x).mp hc with ⟨h1, h2⟩ | ⟨h1, h2, h3⟩
    · have hlt := (List.getElem?_eq_some_iff.mp h2).1
      rw [if_neg (by omega)]
      refine ⟨(h a).take i.toNat, x, (h a).drop (i.toNat + 1), ?_, ?_, rfl, rfl⟩
      · have := split_at (h a) i.toNat hlt
        rw [(List.getElem?_eq_some_iff.mp h2).2] at this
        exact this
      · rw [List.length_take]; omega
    · have hlt := (List.getElem?_eq_some_iff.mp h3).1
      rw [if_pos h1]
      refine ⟨(h a).take ((h a).length + i).toNat, x, (h a).drop (((h a).length + i).toNat + 1),
        ?_, ?_, rfl, rfl⟩
      · have := split_at (h a) _ hlt
        rw [(List.getElem?_eq_some_iff.mp h3).2] at this
        exact this
      · rw [List.length_take]; omega
  | error e =>
    have : e = .indexOverflow := by
      revert hc
      unfold Verif.Slice.getItem
      simp only [Verif.Slice.sliceIndexCorrection_eq]
      split
      · rename_i hr
        have hlt : (pyClamp i (h a).length).toNat < (h a).length := by
          unfold pyClamp; split <;> omega
        rw [List.getElem?_eq_getElem hlt]
        simp
      · simp; exact fun h => h.symm
    subst this
    right
    have := hg.2.mp hc
    exact ⟨by omega, rfl, rfl⟩

theorem step_setItem (eq : α → α → Bool) (h : Heap α) (a : Ref) (i : Int) (x : α) :
    PyStep eq h (.setItem a i x) (stepCode eq h (.setItem a i x)).1
      (stepCode eq h (.setItem a i x)).2 := by
  simp only [PyStep, stepCode, Verif.Slice.setItem]
  generalize hk : (if i < 0 then i + ((h a).length : Int) else i) = k
  by_cases hr : k ≥ 0 ∧ k < (h a).length
  · rw [if_pos hr]
    left
    have hlt : k.toNat < (h a).length := by omega
    refine ⟨(h a).take k.toNat, (h a)[k.toNat], (h a).drop (k.toNat + 1), split_at _ _ hlt, ?_, ?_,
      rfl⟩
    · rw [List.length_take]; omega
    · simp only
      rw [List.set_eq_take_append_cons_drop, if_pos hlt]
  · rw [if_neg hr]
    right
    refine ⟨?_, rfl, rfl⟩
    split at hk <;> omega

theorem popCode_spec (v : List α) (i : Int) :
    (∀ x v', popCode v i = some (x, v') → ∃ pre post, v = pre ++ x :: post ∧
      (if i < 0 then i + v.length else i) = (pre.length : Int) ∧ v' = pre ++ post) ∧
    (popCode v i = none → ¬ (-(v.length : Int) ≤ i ∧ i < v.length)) := by
  unfold popCode Verif.Slice.indexCorrection
  by_cases hr : (if i < 0 then i + (v.length : Int) else i) ≥ 0 ∧
      (if i < 0 then i + (v.length : Int) else i) < v.length
  · simp only
    rw [if_pos hr]
    have hlt : (if i < 0 then i + (v.length : Int) else i).toNat < v.length := by omega
    rw [List.getElem?_eq_getElem hlt]
    constructor
    · intro x v' hx
      simp only [Option.some.injEq, Prod.mk.injEq] at hx
      refine ⟨v.take (if i < 0 then i + (v.length : Int) else i).toNat,
        v.drop ((if i < 0 then i + (v.length : Int) else i).toNat + 1), ?_, ?_, ?_⟩
      · have := split_at v _ hlt
        rw [hx.1] at this
        exact this
      · rw [List.length_take]; omega
      · rw [← hx.2, List.eraseIdx_eq_take_drop_succ]
    · simp
  · simp only
    rw [if_neg hr]
    refine ⟨by simp, ?_⟩
    intro _
    split at hr <;> omega

theorem step_pop (eq : α → α → Bool) (h : Heap α) (a : Ref) (i : Int) :
    PyStep eq h (.pop a i) (stepCode eq h (.pop a i)).1 (stepCode eq h (.pop a i)).2 := by
  have hp := popCode_spec (h a) i
  simp only [PyStep, stepCode]
  cases hc : popCode (h a) i with
  | some xv =>
    obtain ⟨x, v⟩ := xv
    obtain ⟨pre, post, h1, h2, h3⟩ := hp.1 x v hc
    exact .inl ⟨pre, x, post, h1, h2, by rw [h3], rfl⟩
  | none => exact .inr ⟨hp.2 hc, rfl, rfl⟩

theorem insertCode_eq (v : List α) (i : Int) (x : α) :
    insertCode v i x =
      v.take (pyClamp i v.length).toNat ++ x :: v.drop (pyClamp i v.length).toNat := by
  have hc := Verif.Slice.clamp_range i v.length
  have hp : pyClamp i v.length = max 0 (min (v.length : Int) (Verif.Slice.indexCorrection i v.length)) := rfl
  unfold insertCode
  simp only
  generalize hk : Verif.Slice.indexCorrection i v.length = k at *
  by_cases hge : (if k < 0 then 0 else k) ≥ (v.length : Int)
  · rw [if_pos hge]
    have : pyClamp i v.length = v.length := by split at hge <;> omega
    rw [this]
    simp
  · rw [if_neg hge]
    have : pyClamp i v.length = (if k < 0 then 0 else k) := by split at hge <;> split <;> omega
    rw [← this, insertIdx_eq _ _ _ (by omega)]

theorem step_insert (eq : α → α → Bool) (h : Heap α) (a : Ref) (i : Int) (x : α) :
    PyStep eq h (.insert a i x) (stepCode eq h (.insert a i x)).1
      (stepCode eq h (.insert a i x)).2 := by
  have hc := Verif.Slice.clamp_range i (h a).length
  refine ⟨(h a).take (pyClamp i (h a).length).toNat, (h a).drop (pyClamp i (h a).length).toNat,
    (List.take_append_drop _ _).symm, ?_, ?_, rfl⟩
  · rw [List.length_take]; omega
  · simp only [stepCode]
    rw [insertCode_eq]

theorem step_setSlice (eq : α → α → Bool) (h : Heap α) (a b : Ref) (s e : Int)
    (hs : a ≠ b ∧ 0 ≤ s ∧ s ≤ e) :
    PyStep eq h (.setSlice a s e b) (stepCode eq h (.setSlice a s e b)).1
      (stepCode eq h (.setSlice a s e b)).2 := by
  have h1 := Verif.Slice.clamp_range s (h a).length
  have h2 := Verif.Slice.clamp_range e (h a).length
  have hle : pyClamp s (h a).length ≤ pyClamp e (h a).length := by
    unfold pyClamp; split <;> split <;> omega
  simp only [PyStep, stepCode, setSliceCode]
  rw [if_neg (by tauto), if_pos (by omega)]
  simp only [Verif.Slice.sliceIndexCorrection_eq]
  generalize pyClamp s (h a).length = k1 at *
  generalize pyClamp e (h a).length = k2 at *
  refine ⟨(h a).take k1.toNat, ((h a).drop k1.toNat).take (k2.toNat - k1.toNat),
    (h a).drop k2.toNat, ?_, ?_, ?_, ?_, trivial⟩
  · rw [List.append_assoc]
    conv => lhs; rw [← List.take_append_drop k1.toNat (h a)]
    congr 1
    conv => lhs; rw [← List.take_append_drop (k2.toNat - k1.toNat) ((h a).drop k1.toNat)]
    rw [List.drop_drop]
    congr 2
    omega
  · rw [List.length_take]; omega
  · rw [List.length_append, List.length_take, List.length_take, List.length_drop]; omega
  · congr 1
    have hlen : ((h a).take k1.toNat).length = k1.toNat := by rw [List.length_take]; omega
    have e1 : ((h a).take k1.toNat ++ (h a).drop k2.toNat).take k1.toNat = (h a).take k1.toNat := by
      conv => lhs; arg 1; rw [← hlen]
      rw [List.take_left]
    have e2 : ((h a).take k1.toNat ++ (h a).drop k2.toNat).drop k1.toNat = (h a).drop k2.toNat := by
      conv => lhs; arg 1; rw [← hlen]
      rw [List.drop_left]
    rw [e1, e2]

theorem step_index (eq : α → α → Bool) (h : Heap α) (a : Ref) (x : α) (s e : Int)
    (hlen : (h a).length < 2147483648) :
    PyStep eq h (.index a x s e) (stepCode eq h (.index a x s e)).1
      (stepCode eq h (.index a x s e)).2 := by
  have h1 := Verif.Slice.clamp_range s (h a).length
  have h2 := Verif.Slice.clamp_range e (h a).length
  simp only [PyStep, stepCode, indexCode, Verif.Slice.sliceIndexCorrection_eq]
  generalize pyClamp s (h a).length = k1 at *
  generalize pyClamp e (h a).length = k2 at *
  by_cases hle : k1 ≥ k2
  · rw [if_pos hle]
    refine ⟨rfl, .inr ⟨?_, rfl⟩⟩
    intro i z _ hi1 hi2
    omega
  · rw [if_neg hle]
    have hblen : (((h a).drop k1.toNat).take (k2.toNat - k1.toNat)).length =
        k2.toNat - k1.toNat := by
      rw [List.length_take, List.length_drop]; omega
    have hfi : findIf eq x (h a) k1.toNat k2.toNat =
        k1.toNat + (((h a).drop k1.toNat).take (k2.toNat - k1.toNat)).findIdx
          (fun y => eq y x) := rfl
    have hfle := List.findIdx_le_length (p := fun y => eq y x)
      (xs := ((h a).drop k1.toNat).take (k2.toNat - k1.toNat))
    rw [hfi]
    generalize hd : (((h a).drop k1.toNat).take (k2.toNat - k1.toNat)).findIdx
      (fun y => eq y x) = d at *
    rw [hblen] at hfle
    have hw : wrapI32 ((k1.toNat + d : Nat) : Int) = k1 + d := by unfold wrapI32; omega
    rw [hw]
    by_cases hend : k1 + (d : Int) = k2
    · rw [if_pos hend]
      refine ⟨rfl, .inr ⟨?_, rfl⟩⟩
      intro i z hz hi1 hi2
      have hnf : ∀ y ∈ ((h a).drop k1.toNat).take (k2.toNat - k1.toNat), ¬ eq y x = true := by
        have := List.findIdx_eq_length.mp (by rw [hd, hblen]; omega :
          List.findIdx (fun y => eq y x) (((h a).drop k1.toNat).take (k2.toNat - k1.toNat)) =
          (((h a).drop k1.toNat).take (k2.toNat - k1.toNat)).length)
        intro y hy
        simpa using this y hy
      have hmem : z ∈ ((h a).drop k1.toNat).take (k2.toNat - k1.toNat) := by
        apply List.mem_of_getElem? (i := i - k1.toNat)
        rw [List.getElem?_take_of_lt (by omega), List.getElem?_drop,
          show k1.toNat + (i - k1.toNat) = i by omega]
        exact hz
      simpa using hnf z hmem
    · rw [if_neg hend]
      have hdlt : d < (((h a).drop k1.toNat).take (k2.toNat - k1.toNat)).length := by omega
      have hlt : k1.toNat + d < (h a).length := by omega
      refine ⟨rfl, .inl ⟨(h a).take (k1.toNat + d), (h a)[k1.toNat + d], _, split_at _ _ hlt, ?_,
        ?_, ?_, ?_, ?_⟩⟩
      · have := List.findIdx_getElem (p := fun y => eq y x)
          (xs := ((h a).drop k1.toNat).take (k2.toNat - k1.toNat)) (w := by rw [hd]; exact hdlt)
        simp only [hd] at this
        simpa using this
      · rw [List.length_take]; omega
      · rw [List.length_take]; omega
      · intro z hz
        rw [List.drop_take, show k1.toNat + d - k1.toNat = d by omega] at hz
        obtain ⟨j, hj⟩ := List.mem_iff_getElem?.mp hz
        have hjd : j < d := by
          have := (List.getElem?_eq_some_iff.mp hj).1
          rw [List.length_take] at this; omega
        rw [List.getElem?_take_of_lt hjd, List.getElem?_drop] at hj
        have := List.not_of_lt_findIdx (p := fun y => eq y x)
          (xs := ((h a).drop k1.toNat).take (k2.toNat - k1.toNat)) (i := j) (by rw [hd]; exact hjd)
        simp only [List.getElem_take, List.getElem_drop] at this
        have hz2 := (List.getElem?_eq_some_iff.mp hj).2
        rw [← hz2]
        simpa using this
      · have he : k1 + (d : Int) = (((h a).take (k1.toNat + d)).length : Int) := by
          rw [List.length_take]; omega
        rw [he]

/-- Every supported call agrees with Python. -/
theorem step_correct (eq : α → α → Bool) (h : Heap α) (op : Op α) (hs : Supported h op) :
    PyStep eq h op (stepCode eq h op).1 (stepCode eq h op).2 := by
  cases op with
  | append a x => exact ⟨rfl, rfl⟩
  | extend a b => exact ⟨by simp only [stepCode]; rw [pushAll_eq], rfl⟩
  | insert a i x => exact step_insert eq h a i x
  | pop a i => exact step_pop eq h a i
  | remove a x =>
    have := removeCode_spec eq x (h a)
    simp only [PyStep, stepCode]
    cases hr : removeCode eq x (h a) with
    | some v =>
      obtain ⟨pre, y, post, h1, h2, h3, h4⟩ := this.1 v hr
      exact .inl ⟨pre, y, post, h1, h2, h3, by rw [h4], rfl⟩
    | none => exact .inr ⟨this.2 hr, rfl, rfl⟩
  | reverse a => exact ⟨rfl, rfl⟩
  | clear a => exact ⟨rfl, rfl⟩
  | getItem a i => exact step_getItem eq h a i
  | setItem a i x => exact step_setItem eq h a i x
  | setSlice a s e b => exact step_setSlice eq h a b s e hs
  | getSlice dst a s e step =>
    simp only [PyStep, stepCode]
    split
    · rename_i hle
      rw [(Verif.Slice.getSlice_step_not_positive (h a) s e step hle).1]
      exact ⟨rfl, rfl⟩
    · rw [Verif.Slice.listGetSlice_correct _ _ _ _ (by omega)]
      exact ⟨rfl, rfl⟩
  | index a x s e => exact step_index eq h a x s e hs
  | count a x =>
    refine ⟨rfl, ?_⟩
    simp only [stepCode]
    rw [countCode_eq, List.countP_eq_length_filter]
  | contains a x =>
    refine ⟨rfl, _, rfl, ?_⟩
    rw [List.any_eq_true]
  | repeat_ dst a n =>
    refine ⟨?_, rfl⟩
    simp only [stepCode]
    rw [repeatCode_eq]
  | concat dst a b =>
    refine ⟨?_, rfl⟩
    simp only [stepCode, concatCode]
    split
    · rename_i hz
      have ha : h a = [] := List.length_eq_zero_iff.mp (by omega)
      have hb : h b = [] := List.length_eq_zero_iff.mp (by omega)
      rw [ha, hb]; rfl
    · rw [pushAll_eq, pushAll_eq]; rfl
  | equal a b =>
    refine ⟨rfl, _, rfl, ?_⟩
    split
    · rename_i hab; simp [hab]
    · rename_i hab
      split
      · rename_i hl
        simp only [Bool.false_eq_true, false_iff, not_or]
        refine ⟨hab, fun hf => hl hf.length_eq⟩
      · rename_i hl
        rw [equalLoop_eq _ _ _ (by omega)]
        tauto
  | len a => exact ⟨rfl, rfl⟩

/-- Python's semantics of a whole history. -/
inductive PyRun (eq : α → α → Bool) : Heap α → List (Op α) → Heap α → List (Res α) → Prop
  | nil (h) : PyRun eq h [] h []
  | cons {h op h' r ops h'' rs} (step : PyStep eq h op h' r) (rest : PyRun eq h' ops h'' rs) :
      PyRun eq h (op :: ops) h'' (r :: rs)

/-- Every call of the history is supported in the heap it is made in. -/
def SupportedRun (eq : α → α → Bool) : Heap α → List (Op α) → Prop
  | _, [] => True
  | h, op :: ops => Supported h op ∧ SupportedRun eq (stepCode eq h op).1 ops

/-- C06.  Every history of list calls, over any number of possibly aliased lists, produces the
contents, results and errors of Python lists.  Missing (see the `_refuted` theorems): slice
assignment with negative or reversed bounds or from the list itself, `index` beyond 2^31. -/
theorem list_history_correct_partial (eq : α → α → Bool) (h : Heap α) (ops : List (Op α))
    (hs : SupportedRun eq h ops) :
    PyRun eq h ops (runCode eq h ops).1 (runCode eq h ops).2 := by
  induction ops generalizing h with
  | nil => exact .nil h
  | cons op ops ih =>
    simp only [runCode]
    exact .cons (step_correct eq h op hs.1) (ih _ hs.2)

/-- Histories without slice assignment and `index` need no side condition at all. -/
theorem list_history_correct (eq : α → α → Bool) (h : Heap α) (ops : List (Op α))
    (hs : ∀ op ∈ ops, (∀ a s e b, op ≠ .setSlice a s e b) ∧ ∀ a x s e, op ≠ .index a x s e) :
    PyRun eq h ops (runCode eq h ops).1 (runCode eq h ops).2 := by
  apply list_history_correct_partial
  induction ops generalizing h with
  | nil => trivial
  | cons op ops ih =>
    refine ⟨?_, ih _ (fun o ho => hs o (List.mem_cons_of_mem _ ho))⟩
    have := hs op List.mem_cons_self
    cases op <;> first | trivial | exact absurd rfl (this.1 _ _ _ _) | exact absurd rfl (this.2 _ _ _ _)

/-- `Concat<true>`, which takes over uniquely referenced operands, yields the concatenation. -/
theorem concatMove_correct (ops : List (Nat × List α)) :
    concatMoveCode ops = (ops.map Prod.snd).flatten := by
  have hf : ∀ (l : List (Nat × List α)) (acc : List α),
      l.foldl (fun r p => pushAll r p.2) acc = acc ++ (l.map Prod.snd).flatten := by
    intro l
    induction l with
    | nil => intro acc; simp
    | cons p ps ih => intro acc; rw [List.foldl_cons, ih, pushAll_eq]; simp
  have hlen : ∀ (l : List (Nat × List α)) (c : Nat),
      l.foldl (fun c p => c + p.2.length) c = c + ((l.map Prod.snd).flatten).length := by
    intro l
    induction l with
    | nil => intro c; simp
    | cons p ps ih => intro c; rw [List.foldl_cons, ih]; simp; omega
  cases ops with
  | nil => rfl
  | cons p rest =>
    obtain ⟨u, a⟩ := p
    simp only [concatMoveCode]
    split
    · rename_i hz
      rw [hlen] at hz
      rw [eq_comm]
      exact List.length_eq_zero_iff.mp (by omega)
    · split
      · rw [hf]; simp
      · rw [hf]; simp

/-- FINDING (C06 refuted): `l[a:b] = l` is well defined in Python; the code erases first and then
inserts from the list itself. -/
theorem setSlice_self_refuted :
    (stepCode (α := Nat) (· == ·) (fun _ => [1, 2, 3]) (.setSlice 0 1 2 0)).2 = .undefined ∧
    ∃ h', PyStep (α := Nat) (· == ·) (fun _ => [1, 2, 3]) (.setSlice 0 1 2 0) h' .unit ∧
      h' 0 = [1, 1, 2, 3, 3] := by
  refine ⟨by decide, upd (fun _ => [1, 2, 3]) 0 [1, 1, 2, 3, 3], ?_, rfl⟩
  exact ⟨[1], [2], [3], rfl, by decide, by decide, rfl, rfl⟩

/-- FINDING (C06 refuted): `l[-1:3] = [9]` is accepted by Python and raises here. -/
theorem setSlice_negative_refuted :
    (stepCode (α := Nat) (· == ·) (fun r => if r = 0 then [1, 2, 3] else [9])
      (.setSlice 0 (-1) 3 1)).2 = .raised ∧
    ∃ h', PyStep (α := Nat) (· == ·) (fun r => if r = 0 then [1, 2, 3] else [9])
      (.setSlice 0 (-1) 3 1) h' .unit ∧ h' 0 = [1, 2, 9] := by
  refine ⟨by decide, upd (fun r => if r = 0 then [1, 2, 3] else [9]) 0 [1, 2, 9], ?_, rfl⟩
  exact ⟨[1, 2], [3], [], rfl, by decide, by decide, rfl, rfl⟩

/-- FINDING (C06 refuted): `index` keeps the position in a 32-bit `int`: in a list whose first match
is at position 2^31 the answer is -2^31. -/
theorem index_truncation_refuted (n : Nat) (hn : n = 2147483648) (stop : Int)
    (hstop : stop = 2147483649) :
    indexCode (· == ·) true (List.replicate n false ++ [true]) 0 stop = some (-2147483648) := by
  subst hstop
  have hlen : (List.replicate n false ++ [true]).length = n + 1 := by simp
  unfold indexCode
  simp only [Verif.Slice.sliceIndexCorrection_eq, hlen]
  have c1 : pyClamp 0 ((n + 1 : Nat) : Int) = 0 := by unfold pyClamp; omega
  have c2 : pyClamp 2147483649 ((n + 1 : Nat) : Int) = 2147483649 := by
    unfold pyClamp; split <;> omega
  rw [c1, c2, if_neg (by omega)]
  have hf : findIf (· == ·) true (List.replicate n false ++ [true]) (Int.toNat 0)
      (Int.toNat 2147483649) = n := by
    unfold findIf
    have e0 : (Int.toNat 0) = 0 := rfl
    rw [e0, List.drop_zero, List.take_of_length_le (by rw [hlen]; omega), Nat.zero_add]
    have hg : ∀ k, List.findIdx (fun y => y == true) (List.replicate k false ++ [true]) = k := by
      intro k
      induction k with
      | zero => rfl
      | succ k ih => rw [List.replicate_succ, List.cons_append, List.findIdx_cons, ih]; rfl
    exact hg n
  rw [hf]
  have hw : wrapI32 (n : Int) = -2147483648 := by unfold wrapI32; omega
  rw [hw, if_neg (by omega)]

/-! ### Non-vacuity -/

example : (runCode (α := Nat) (· == ·) (fun _ => [])
    [.append 0 1, .append 0 2, .extend 0 0, .insert 0 (-1) 9, .pop 0 0, .remove 0 2, .index 0 9 0 5,
     .pop 0 7, .equal 0 1, .len 0]).2 =
    [.unit, .unit, .unit, .unit, .val 1, .unit, .int 1, .raised, .bool false, .int 3] := by decide
example : SupportedRun (α := Nat) (· == ·) (fun _ => [])
    [.append 0 1, .append 1 2, .setSlice 0 0 1 1, .index 0 2 0 5] := by
  refine ⟨trivial, trivial, ⟨by decide, by decide, by decide⟩, ?_, trivial⟩
  show List.length _ < _
  decide
example : concatMoveCode [(1, [1, 2]), (2, [3])] = [1, 2, 3] := by decide

end Verif.ListOps
