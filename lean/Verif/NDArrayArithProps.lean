import Verif.NDArrayReadProps

/-!
# Element-wise arithmetic on NDArrays
-/

namespace Verif.NDArray

variable {α D : Type}

/-- NumPy's broadcasting rule: starting with the trailing dimensions, and a missing dimension being
one, two dimensions are compatible if they are equal or one of them is one. -/
def Broadcasts (s1 s2 s : List Nat) : Prop :=
  s.length = max s1.length s2.length ∧ ∀ k < s.length,
    (s1.reverse.getD k 1 = s2.reverse.getD k 1 ∨ s1.reverse.getD k 1 = 1 ∨ s2.reverse.getD k 1 = 1) ∧
    s.reverse.getD k 1 =
      if s1.reverse.getD k 1 = 1 then s2.reverse.getD k 1 else s1.reverse.getD k 1

/-- The index of an operand for an index of the result: leading indices are dropped, and the index
in a dimension of length one is zero. -/
def bidx (shape idx : List Nat) : List Nat :=
  List.zipWith (fun d i => if d = 1 then 0 else i) shape (idx.drop (idx.length - shape.length))

theorem broadcastRev_iff (xs ys r : List Nat) : broadcastRev xs ys = some r ↔
    (r.length = max xs.length ys.length ∧ ∀ k < r.length,
      (xs.getD k 1 = ys.getD k 1 ∨ xs.getD k 1 = 1 ∨ ys.getD k 1 = 1) ∧
      r.getD k 1 = if xs.getD k 1 = 1 then ys.getD k 1 else xs.getD k 1) := by
  induction xs generalizing ys r with
  | nil =>
    simp only [broadcastRev, Option.some.injEq]
    constructor
    · rintro rfl
      refine ⟨by simp, fun k _ => ⟨by simp, by simp⟩⟩
    · rintro ⟨h1, h2⟩
      refine List.ext_getElem (by simpa using h1.symm) fun k h3 h4 => ?_
      have := (h2 k h4).2
      simp only [List.getD_nil, if_true] at this
      rw [List.getD_eq_getElem _ _ h4, List.getD_eq_getElem _ _ h3] at this
      exact this.symm
  | cons x xs ih =>
    cases ys with
    | nil =>
      simp only [broadcastRev, Option.some.injEq]
      constructor
      · rintro rfl
        refine ⟨by simp, fun k _ => ⟨by simp, ?_⟩⟩
        split
        · rename_i h; rw [h]; simp
        · rfl
      · rintro ⟨h1, h2⟩
        refine List.ext_getElem (by simpa using h1.symm) fun k h3 h4 => ?_
        have := (h2 k h4).2
        rw [List.getD_eq_getElem _ _ h4] at this
        rw [this]
        split
        · rename_i h
          rw [List.getD_eq_getElem _ _ h3] at h
          rw [h]; simp
        · rw [List.getD_eq_getElem _ _ h3]
    | cons y ys =>
      rw [broadcastRev]
      constructor
      · intro h
        split at h
        · rename_i d r' hd hr'
          injection h with h
          subst h
          obtain ⟨h1, h2⟩ := (ih ys r').1 hr'
          refine ⟨by simp [h1], fun k hk => ?_⟩
          cases k with
          | zero =>
            simp only [List.getD_cons_zero]
            split at hd
            · rename_i e
              injection hd with hd
              refine ⟨Or.inl e, ?_⟩
              rw [← hd]; split <;> omega
            · split at hd
              · rename_i e1 e
                injection hd with hd
                exact ⟨Or.inr (Or.inl e), by rw [if_pos e]; exact hd.symm⟩
              · split at hd
                · rename_i e1 e2 e
                  injection hd with hd
                  exact ⟨Or.inr (Or.inr e), by rw [if_neg e2]; exact hd.symm⟩
                · cases hd
          | succ k =>
            simp only [List.getD_cons_succ]
            exact h2 k (by simpa using hk)
        · cases h
      · rintro ⟨h1, h2⟩
        cases r with
        | nil => simp at h1
        | cons d r =>
          have hr : broadcastRev xs ys = some r := by
            refine (ih ys r).2 ⟨by simpa using h1, fun k hk => ?_⟩
            have := h2 (k + 1) (by simpa using hk)
            simpa using this
          have h0 := h2 0 (by simp)
          simp only [List.getD_cons_zero] at h0
          rw [hr]
          have hd : (if x = y then some x else if x = 1 then some y else if y = 1 then some x
              else none) = some d := by
            rw [h0.2]
            by_cases e : x = y
            · rw [if_pos e]; congr 1; split <;> omega
            · rw [if_neg e]
              by_cases e1 : x = 1
              · rw [if_pos e1, if_pos e1]
              · rw [if_neg e1, if_neg e1, if_pos (by omega)]
          rw [hd]

/-- The runtime's broadcast shape is NumPy's. -/
theorem broadcastShape_iff (s1 s2 s : List Nat) :
    broadcastShape s1 s2 = some s ↔ Broadcasts s1 s2 s := by
  rw [broadcastShape, Option.map_eq_some_iff]
  constructor
  · rintro ⟨r, h1, rfl⟩
    have := (broadcastRev_iff _ _ _).1 h1
    unfold Broadcasts
    simpa using this
  · intro h
    refine ⟨s.reverse, (broadcastRev_iff _ _ _).2 ?_, by simp⟩
    unfold Broadcasts at h
    simpa using h

theorem getD_reverse (l : List Nat) (k : Nat) (hk : k < l.length) (d : Nat) :
    l.reverse.getD k d = l.getD (l.length - 1 - k) d := by
  rw [List.getD_eq_getElem _ _ (by simpa using hk), List.getElem_reverse,
    List.getD_eq_getElem _ _ (by omega)]

/-- A dimension of the left operand is one or that of the result. -/
theorem Broadcasts.dim {s1 s2 s : List Nat} (h : Broadcasts s1 s2 s) {j : Nat} (hj : j < s1.length) :
    s1.getD j 0 = 1 ∨ s1.getD j 0 = s.getD (j + (s.length - s1.length)) 0 := by
  have hlen := h.1
  have := (h.2 (s1.length - 1 - j) (by omega)).2
  rw [getD_reverse s1 _ (by omega), getD_reverse s _ (by omega)] at this
  rw [show s1.length - 1 - (s1.length - 1 - j) = j by omega,
    show s.length - 1 - (s1.length - 1 - j) = j + (s.length - s1.length) by omega] at this
  rw [List.getD_eq_getElem _ _ hj] at this ⊢
  rw [List.getD_eq_getElem _ _ (by omega)] at this ⊢
  by_cases e : s1[j] = 1
  · exact Or.inl e
  · rw [if_neg e] at this; exact Or.inr this.symm

theorem Broadcasts.symm {s1 s2 s : List Nat} (h : Broadcasts s1 s2 s) : Broadcasts s2 s1 s := by
  refine ⟨by rw [h.1, Nat.max_comm], fun k hk => ?_⟩
  obtain ⟨h1, h2⟩ := h.2 k hk
  refine ⟨by omega, ?_⟩
  rw [h2]
  split <;> split <;> omega

theorem Broadcasts.len_le {s1 s2 s : List Nat} (h : Broadcasts s1 s2 s) : s1.length ≤ s.length := by
  rw [h.1]; exact Nat.le_max_left _ _

theorem bidx_valid {s1 s2 s idx : List Nat} (h : Broadcasts s1 s2 s) (hv : Valid s idx) :
    Valid s1 (bidx s1 idx) := by
  have hl := hv.length
  have hle := h.len_le
  rw [valid_iff_getD] at hv ⊢
  have hbl : (bidx s1 idx).length = s1.length := by
    simp [bidx]; omega
  refine ⟨hbl, fun j hj => ?_⟩
  rw [List.getD_eq_getElem _ _ (by omega)]
  simp only [bidx, List.getElem_zipWith, List.getElem_drop]
  have hd := h.dim hj
  rw [List.getD_eq_getElem _ _ hj] at hd ⊢
  split
  · rename_i e; omega
  · rename_i e
    have h1 := hv.2 (j + (s.length - s1.length)) (by omega)
    have h2 : s1[j] = s.getD (j + (s.length - s1.length)) 0 := by omega
    rw [h2]
    rw [List.getD_eq_getElem _ _ (by omega)] at h1
    simp only [hl, Nat.add_comm (s.length - s1.length) j]
    exact h1

theorem dot_zeros (n : Nat) (idx : List Nat) : dot idx (List.replicate n 0) = 0 := by
  induction n generalizing idx with
  | zero => cases idx <;> simp [dot]
  | succ n ih => cases idx <;> simp [dot, List.replicate_succ, ih]

theorem dot_broadcast (shape idx : List Nat) (strides : List Int) (hv : idx.length = shape.length)
    (hs : strides.length = shape.length)
    (h0 : ∀ j (h : j < shape.length), shape[j] = 0 → idx.getD j 0 = 0) :
    dot idx (List.zipWith (fun d s => if d > 1 then s else 0) shape strides) =
      dot (List.zipWith (fun d i => if d = 1 then 0 else i) shape idx) strides := by
  induction shape generalizing idx strides with
  | nil => cases idx <;> simp_all [dot]
  | cons d ds ih =>
    cases idx with
    | nil => simp at hv
    | cons i is =>
      cases strides with
      | nil => simp at hs
      | cons s ss =>
        simp only [List.zipWith_cons_cons, dot]
        rw [ih is ss (by simpa using hv) (by simpa using hs) (fun j hj => by
          have := h0 (j + 1) (by simpa using hj)
          simpa using this)]
        congr 1
        have hz := h0 0 (by simp)
        simp only [List.getElem_cons_zero, List.getD_cons_zero] at hz
        by_cases e1 : d = 1
        · simp [e1]
        · by_cases e0 : d = 0
          · simp [e0, hz e0]
          · rw [if_pos (show d > 1 by omega), if_neg e1]

/-- The strides of a broadcast operand lead to the operand's element. -/
theorem dot_broadcastStride {s1 s2 s idx : List Nat} (h : Broadcasts s1 s2 s) (hv : Valid s idx)
    {strides : List Int} (hs : strides.length = s1.length) :
    dot idx (broadcastStride s.length s1 strides) = dot (bidx s1 idx) strides := by
  have hl := hv.length
  have hle := h.len_le
  rw [broadcastStride]
  conv_lhs => rw [← List.take_append_drop (s.length - s1.length) idx]
  rw [dot_append (by simp; omega), dot_zeros, Int.zero_add, bidx, hl]
  refine dot_broadcast _ _ _ (by simp; omega) hs fun j hj e0 => ?_
  have hd := h.dim hj
  rw [List.getD_eq_getElem _ _ hj, e0] at hd
  have h1 := (valid_iff_getD.1 hv).2 (j + (s.length - s1.length)) (by omega)
  omega

theorem broadcastStride_length {s1 s2 s : List Nat} (h : Broadcasts s1 s2 s) {strides : List Int}
    (hs : strides.length = s1.length) : (broadcastStride s.length s1 strides).length = s.length := by
  have := h.len_le
  simp [broadcastStride, hs]
  omega

theorem broadcasts_self (s : List Nat) : Broadcasts s s s := by
  refine ⟨by simp, fun k _ => ⟨Or.inl rfl, ?_⟩⟩
  split <;> simp_all

theorem bidx_self {s idx : List Nat} (hv : Valid s idx) : bidx s idx = idx := by
  rw [bidx, hv.length, Nat.sub_self, List.drop_zero]
  induction s generalizing idx with
  | nil => cases idx <;> simp_all [Valid]
  | cons d ds ih =>
    cases idx with
    | nil => simp [Valid] at hv
    | cons i is =>
      obtain ⟨h1, h2⟩ := hv
      rw [List.zipWith_cons_cons, ih h2]
      congr 1
      split <;> omega

/-- A broadcast operand as a source of the loop into a new array. -/
theorem broadcast_source {h : Heap α} {a : Arr D} (ha : Ok h a) {s2 s : List Nat} (dt : D)
    (hb : Broadcasts a.shape s2 s) : Source (empty h s dt).2 (empty h s dt).1
      ⟨a.buf, a.base, broadcastStride s.length a.shape a.strides⟩ where
  inb idx hv := by
    have hv' : Valid s idx := hv
    have := (empty_mono ha s dt).inb _ (bidx_valid hb hv')
    dsimp only
    rw [dot_broadcastStride hb hv' ha.len]
    exact this
  dis i j hi hj e := by
    have h1 := (Prod.ext_iff.1 e).1
    have := ha.buf
    simp [empty] at h1
    omega

/-- `l op r`: the shape is NumPy's broadcast shape, every element is the operator applied to the
operands' elements NumPy pairs, the result is a new array and no existing array changes.  It raises
exactly if the shapes do not broadcast. -/
theorem binary_spec (f : α → α → α) (dt : D) {h : Heap α} {l r : Arr D} (hl : Ok h l) (hr : Ok h r) :
    (∃ s t h', Broadcasts l.shape r.shape s ∧ binary f dt l r h = .ok (t, h') ∧
      Fresh h h' t s dt fun idx =>
        f (elem h l (bidx l.shape idx)) (elem h r (bidx r.shape idx))) ∨
    (binary f dt l r h = .error .raise ∧ ∀ s, ¬ Broadcasts l.shape r.shape s) := by
  rw [binary]
  by_cases hc : l.shape = r.shape ∧ l.isContiguous = true ∧ r.isContiguous = true
  · rw [if_pos hc]
    left
    obtain ⟨hs, hcl, hcr⟩ := hc
    have hst := flatLoop_stored (bin f (h.mem 0 0)) (empty_ok h l.shape dt) (Or.inl rfl)
      [(l.buf, l.base), (r.buf, r.base)] ?_
    · obtain ⟨h', h1, h2⟩ := hst
      refine ⟨l.shape, (empty h l.shape dt).1, h', hs ▸ broadcasts_self l.shape, ?_, ?_⟩
      · dsimp only
        have h1' : flatLoop (bin f ((empty h l.shape dt).2.mem 0 0)) (prod (empty h l.shape dt).1.shape)
          ((empty h l.shape dt).1.buf, (empty h l.shape dt).1.base)
          [(l.buf, l.base), (r.buf, r.base)] (empty h l.shape dt).2 = .ok h' := h1
        rw [h1']; rfl
      · have hf := h2.fresh
        refine ⟨hf.ok, hf.shape, hf.dt, hf.buf, hf.next, hf.size, fun idx hv => ?_, hf.frame⟩
        rw [hf.elem idx hv, bidx_self hv, bidx_self (hs ▸ hv)]
        have e1 := hl.contiguous_addr hcl hv
        have e2 := hr.contiguous_addr hcr (hs ▸ hv)
        rw [← hs] at e2
        simp only [List.map_cons, List.map_nil, bin, elem, e1, e2]
        rfl
    · intro c hm
      rcases List.mem_cons.1 hm with e | hm
      · subst e
        exact source_flat (empty_mono hl l.shape dt) rfl hcl (disjoint_empty hl l.shape dt)
      · rw [List.mem_singleton] at hm
        subst hm
        exact source_flat (empty_mono hr l.shape dt) hs.symm hcr (disjoint_empty hr l.shape dt)
  · rw [if_neg hc]
    cases hb : broadcastShape l.shape r.shape with
    | none =>
      right
      refine ⟨rfl, fun s hs => ?_⟩
      rw [(broadcastShape_iff _ _ _).2 hs] at hb
      cases hb
    | some s =>
      left
      have hB := (broadcastShape_iff _ _ _).1 hb
      have hne : s ≠ [] := by
        intro e
        have h0 := hB.1
        rw [e, List.length_nil] at h0
        have hl0 : l.shape = [] := List.eq_nil_of_length_eq_zero (by omega)
        have hr0 : r.shape = [] := List.eq_nil_of_length_eq_zero (by omega)
        have hl1 := hl.len
        have hr1 := hr.len
        rw [hl0] at hl1
        rw [hr0] at hr1
        refine hc ⟨by rw [hl0, hr0], ?_, ?_⟩
        · apply isContiguous_nil hl0 (List.eq_nil_of_length_eq_zero hl1)
        · apply isContiguous_nil hr0 (List.eq_nil_of_length_eq_zero hr1)
      have hst := strided_stored (bin f (h.mem 0 0)) (empty_ok h s dt) hne
        (srcs := [⟨l.buf, l.base, broadcastStride s.length l.shape l.strides⟩,
          ⟨r.buf, r.base, broadcastStride s.length r.shape r.strides⟩]) ?_ ?_
      · obtain ⟨h', h1, h2⟩ := hst
        refine ⟨s, (empty h s dt).1, h', hB, ?_, ?_⟩
        · dsimp only
          have h1' : strided (bin f ((empty h s dt).2.mem 0 0)) s ⟨(empty h s dt).1.buf,
            (empty h s dt).1.base, (empty h s dt).1.strides⟩
            [⟨l.buf, l.base, broadcastStride s.length l.shape l.strides⟩,
              ⟨r.buf, r.base, broadcastStride s.length r.shape r.strides⟩] (empty h s dt).2 = .ok h' := h1
          rw [h1']; rfl
        · have hf := h2.fresh
          refine ⟨hf.ok, hf.shape, hf.dt, hf.buf, hf.next, hf.size, fun idx hv => ?_, hf.frame⟩
          rw [hf.elem idx hv]
          simp only [List.map_cons, List.map_nil, bin, elem, Arr.addr]
          rw [dot_broadcastStride hB hv hl.len, dot_broadcastStride hB.symm hv hr.len]
          rfl
      · intro c hm
        rcases List.mem_cons.1 hm with e | hm
        · subst e; exact broadcast_source hl dt hB
        · rw [List.mem_singleton] at hm
          subst hm; exact broadcast_source hr dt hB.symm
      · intro c hm
        rcases List.mem_cons.1 hm with e | hm
        · subst e; exact broadcastStride_length hB hl.len
        · rw [List.mem_singleton] at hm
          subst hm; exact broadcastStride_length hB.symm hr.len

/-- `a op number` applies the operator to every element. -/
theorem scalarOp_spec (f : α → α) (dt : D) {h : Heap α} {a : Arr D} (ha : Ok h a) :
    ∃ t h', scalarOp f dt a h = .ok (t, h') ∧ Fresh h h' t a.shape dt fun idx => f (elem h a idx) := by
  rw [scalarOp]
  dsimp only
  by_cases hc : a.isContiguous = true
  · rw [if_pos hc]
    obtain ⟨h', h1, h2⟩ := flatLoop_stored (una f (h.mem 0 0)) (empty_ok h a.shape dt) (Or.inl rfl)
      [(a.buf, a.base)] (by
        intro c hm
        rw [List.mem_singleton] at hm
        subst hm
        exact source_flat (empty_mono ha a.shape dt) rfl hc (disjoint_empty ha a.shape dt))
    refine ⟨(empty h a.shape dt).1, h', ?_, ?_⟩
    · have h1' : flatLoop (una f ((empty h a.shape dt).2.mem 0 0)) (prod (empty h a.shape dt).1.shape)
        ((empty h a.shape dt).1.buf, (empty h a.shape dt).1.base)
        [(a.buf, a.base)] (empty h a.shape dt).2 = .ok h' := h1
      rw [h1']; rfl
    · have hf := h2.fresh
      refine ⟨hf.ok, hf.shape, hf.dt, hf.buf, hf.next, hf.size, fun idx hv => ?_, hf.frame⟩
      rw [hf.elem idx hv]
      simp only [List.map_cons, List.map_nil, una, elem, ha.contiguous_addr hc hv]
      rfl
  · rw [if_neg hc]
    have hne : a.shape ≠ [] := by
      intro e
      have := ha.len
      rw [e] at this
      exact hc (isContiguous_nil e (List.eq_nil_of_length_eq_zero this))
    obtain ⟨h', h1, h2⟩ := strided_stored (una f (h.mem 0 0)) (empty_ok h a.shape dt) hne
      (srcs := [⟨a.buf, a.base, a.strides⟩]) (by
        intro c hm
        rw [List.mem_singleton] at hm
        subst hm
        exact source_of (empty_mono ha a.shape dt) rfl (disjoint_empty ha a.shape dt)) (by
        intro c hm
        rw [List.mem_singleton] at hm
        subst hm
        exact ha.len)
    refine ⟨(empty h a.shape dt).1, h', ?_, ?_⟩
    · have h1' : strided (una f ((empty h a.shape dt).2.mem 0 0)) (empty h a.shape dt).1.shape
        ⟨(empty h a.shape dt).1.buf, (empty h a.shape dt).1.base, (empty h a.shape dt).1.strides⟩
        [⟨a.buf, a.base, a.strides⟩] (empty h a.shape dt).2 = .ok h' := h1
      rw [h1']; rfl
    · have hf := h2.fresh
      refine ⟨hf.ok, hf.shape, hf.dt, hf.buf, hf.next, hf.size, fun idx hv => ?_, hf.frame⟩
      rw [hf.elem idx hv]
      rfl

-- a row added to the columns of a transposed array
example : ∃ t h', binary (fun x y : Int => x + y) () { demoArr [3, 2] with strides := [1, 3], compact := false }
      { demoArr [1, 2] with data := 4 } (demoHeap 6) = .ok (t, h') ∧ t.shape = [3, 2] ∧
    (indices [3, 2]).map (elem h' t) = [4, 8, 5, 9, 6, 10] := ⟨_, _, rfl, rfl, rfl⟩

example : (match binary (fun x y : Int => x + y) () (demoArr [3, 2]) (demoArr [3]) (demoHeap 6) with
    | .error e => e = .raise
    | .ok _ => False) := rfl

example : Broadcasts [5, 1, 4] [3, 1] [5, 3, 4] ∧ bidx [3, 1] [4, 2, 3] = [2, 0] := by
  refine ⟨(broadcastShape_iff _ _ _).1 rfl, rfl⟩

end Verif.NDArray
