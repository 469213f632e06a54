import Verif.NDArrayCopy
import Verif.NDArrayViewProps

/-!
# Reading NDArrays: lists, iteration, copies, equality, chains of indices
-/

namespace Verif.NDArray

variable {α D : Type}

/-! ### Lists -/

/-- NumPy's `tolist` for the elements `g`. -/
def npToList : List Nat → (List Nat → α) → Py α
  | [], g => .num (g [])
  | n :: ds, g => .list ((List.range n).map fun i => npToList ds fun idx => g (i :: idx))

theorem mapM_ok {β γ : Type} (f : β → Res γ) (g : β → γ) :
    ∀ (l : List β), (∀ x ∈ l, f x = .ok (g x)) → l.mapM f = .ok (l.map g)
  | [], _ => rfl
  | x :: xs, h => by
    rw [List.mapM_cons, h x (by simp), ok_bind, mapM_ok f g xs fun y hy => h y (by simp [hy])]
    rfl

theorem toListImpl_eq (h : Heap α) (b : Nat) (shape : List Nat) (hne : shape ≠ [])
    (strides : List Int) (hl : strides.length = shape.length) (off : Int)
    (hin : ∀ idx, Valid shape idx → h.In (b, off + dot idx strides)) :
    ∃ l, toListImpl h b shape strides off = .ok l ∧
      Py.list l = npToList shape fun idx => h.mem b (off + dot idx strides) := by
  induction shape generalizing strides off with
  | nil => exact absurd rfl hne
  | cons n ds ih =>
    cases strides with
    | nil => simp at hl
    | cons s ss =>
      cases ds with
      | nil =>
        refine ⟨(List.range n).map fun (i : Nat) => .num (h.mem b (off + i * s)), ?_, ?_⟩
        · rw [toListImpl]
          refine mapM_ok _ _ _ fun i hi => ?_
          have := hin [i] ⟨List.mem_range.1 hi, trivial⟩
          simp only [dot, Int.add_zero] at this
          rw [show h.read b (off + i * s) = _ from read_of_in this]
          rfl
        · simp only [npToList, dot, Int.add_zero]
      | cons d ds =>
        have hcell : ∀ i ∈ List.range n, ∃ l, toListImpl h b (d :: ds) ss (off + i * s) = .ok l ∧
            Py.list l = npToList (d :: ds) fun idx => h.mem b (off + i * s + dot idx ss) := by
          intro i hi
          refine ih (by simp) ss (by simpa using hl) _ fun idx hv => ?_
          have := hin (i :: idx) ⟨List.mem_range.1 hi, hv⟩
          rw [dot] at this
          rwa [Int.add_assoc]
        have hr : ∀ i ∈ List.range n, (do
            let l ← toListImpl h b (d :: ds) ss (off + i * s)
            return Py.list l) = (Except.ok (npToList (d :: ds) fun idx =>
              h.mem b (off + i * s + dot idx ss)) : Res (Py α)) := by
          intro i hi
          obtain ⟨l, h1, h2⟩ := hcell i hi
          rw [h1, ok_bind, h2]; rfl
        refine ⟨_, mapM_ok _ _ _ hr, ?_⟩
        rw [npToList]
        simp only [dot, Int.add_assoc]

/-- `to_list` of any view gives NumPy's nested list of its elements, without touching other
memory. -/
theorem toList_spec_partial {h : Heap α} {a : Arr D} (ha : Ok h a) (hne : a.shape ≠ []) :
    ∃ l, toList h a = .ok l ∧ Py.list l = npToList a.shape (elem h a) :=
  toListImpl_eq h a.buf a.shape hne a.strides ha.len _ ha.inb

example : (do
    let r ← runViews (demoHeap 6) [.transpose none] (.view (demoArr [2, 3]))
    match r with
    | .view v => toList (demoHeap 6) v
    | .scalar _ => .ok []) =
    .ok [.list [.num 0, .num 3], .list [.num 1, .num 4], .list [.num 2, .num 5]] := rfl

/-- `to_list` of an array without dimensions gives the empty list; NumPy gives the number. -/
theorem toList_scalar_refuted : toList (demoHeap 1) (demoArr []) = .ok [] ∧
    npToList [] (elem (demoHeap 1) (demoArr [])) = .num 0 := ⟨rfl, rfl⟩

/-- Iterating gives the items `a[0]`, ..., `a[n-1]` in order. -/
theorem iterate_spec_partial {h : Heap α} {a : Arr D} (ha : Ok h a) {n : Nat} {ds : List Nat}
    (hs : a.shape = n :: ds) : ∃ l, iterate h a = .ok l ∧ l.length = n ∧
      ∀ i (hi : i < l.length), Agrees h a (ds, fun idx => i :: idx) l[i] := by
  have hget : ∀ i : Nat, i < n → ∃ r, getItem h a i = .ok r ∧
      Agrees h a (ds, fun idx => i :: idx) r := by
    intro i hi
    have hnp : npView (.item i) a.shape = some (ds, fun idx => i :: idx) := by
      rw [hs]
      simp only [npView]
      rw [if_pos ⟨by omega, by omega⟩]
      have : ((i : Int) % n).toNat = i := by rw [Int.emod_eq_of_lt (by omega) (by omega)]; simp
      rw [this]
    cases hr : getItem h a i with
    | ok r => exact ⟨r, rfl, view_agrees ha (op := .item i) hr hnp⟩
    | error e =>
      cases e with
      | raise =>
        have := view_raises ha (op := .item i) hr hnp
        simp [ViewOp.reshapes, ViewOp.negative] at this
      | bad =>
        have := (view_safe_partial ha (by rw [hs]; simp) (.item i)).1
        exact (this hr).elim
  have : Nonempty (Item α D) := ⟨.view a⟩
  choose! g hg1 hg2 using hget
  refine ⟨(List.range n).map g, ?_, by simp, fun i hi => ?_⟩
  · rw [iterate, size, hs]
    exact mapM_ok _ _ _ fun i hi => hg1 i (List.mem_range.1 hi)
  · rw [List.getElem_map, List.getElem_range]
    exact hg2 i (by simpa using hi)

example : iterate (demoHeap 6) (demoArr [3, 2]) = .ok [.view (demoArr [2]),
    .view { demoArr [2] with data := 2 }, .view { demoArr [2] with data := 4 }] := by decide

/-! ### Copies -/

section Copies

variable [DecidableEq D]

/-- `contiguous()` has the same shape and elements, laid out in row-major order; no existing array
changes. -/
theorem contiguous_keeps (c : Conv D α) {h : Heap α} {a : Arr D} (ha : Ok h a) :
    ∃ r h', contiguous c a h = .ok (r, h') ∧ Ok h' r ∧ r.shape = a.shape ∧ r.dt = a.dt ∧
      (∀ idx, Valid a.shape idx → elem h' r idx = elem h a idx ∧
        r.addr idx = r.base + ravel a.shape idx) ∧
      ∀ b : Arr D, Ok h b → Ok h' b ∧ ∀ idx, elem h' b idx = elem h b idx := by
  obtain ⟨r, h', h1, h2, h3, h4, h5, h6, h7, h8, h9⟩ := contiguous_spec c ha
  refine ⟨r, h', h1, h2, h3, h4, fun idx hv => ⟨h6 idx hv, ?_⟩, fun b hb => ?_⟩
  · rw [h2.contiguous_addr h5 (h3 ▸ hv), h3]
  · exact ⟨hb.mono h8 h9, fun idx => h7 _ hb.buf _⟩

/-- `as_type` gives a new array with every element converted; no existing array changes. -/
theorem asType_keeps_partial (c : Conv D α) {h : Heap α} {a : Arr D} (ha : Ok h a)
    (hne : a.shape ≠ []) (dt : D) :
    ∃ r h', asType c a dt h = .ok (r, h') ∧ Ok h' r ∧ r.shape = a.shape ∧ r.dt = dt ∧
      (∀ idx, Valid a.shape idx → elem h' r idx = c.elem dt a.dt (elem h a idx)) ∧
      ∀ b : Arr D, Ok h b → b.buf ≠ r.buf ∧ Ok h' b ∧ ∀ idx, elem h' b idx = elem h b idx := by
  obtain ⟨r, h', h1, h2⟩ := asType_spec c ha hne dt
  refine ⟨r, h', h1, h2.ok, h2.shape, h2.dt, fun idx hv => h2.elem idx hv, fun b hb => ?_⟩
  exact ⟨by have := hb.buf; have := h2.buf; omega, h2.keeps hb⟩

/-- `as_type` of an array without dimensions reads past its shape. -/
theorem asType_scalar_refuted (c : Conv Unit Int) :
    asType c (demoArr []) () (demoHeap 1) = .error .bad := rfl

example (c : Conv Unit Int) : ∃ r h', contiguous c
    { demoArr [3, 2] with strides := [1, 3], compact := false } (demoHeap 6) = .ok (r, h') ∧
    r.strides = [2, 1] ∧ elem h' r [2, 0] = 2 ∧ elem h' r [0, 1] = 3 := ⟨_, _, rfl, rfl, rfl, rfl⟩

/-! ### Equality -/

omit [DecidableEq D] in
theorem forN_all (f : Nat → Res Bool) (g : Nat → Bool) : ∀ (n : Nat), (∀ i < n, f i = .ok (g i)) →
    forN n (fun i r => do
      let b ← f i
      return r && b) true = .ok ((List.range n).all g)
  | 0, _ => rfl
  | n + 1, h => by
    rw [forN, forN_all f g n fun i hi => h i (by omega), ok_bind, h n (by omega), ok_bind,
      List.range_succ, List.all_append]
    simp

/-- Equality of contiguous arrays without byte offset compares shape, type and elements. -/
theorem equal_spec_partial (same : α → α → Bool) {h : Heap α} {a b : Arr D} (ha : Ok h a)
    (hb : Ok h b) (ca : a.isContiguous = true) (cb : b.isContiguous = true) (oa : a.boff = 0)
    (ob : b.boff = 0) : ∃ r, equal same h a b = .ok r ∧ (r = true ↔ a.shape = b.shape ∧ a.dt = b.dt ∧
      ∀ idx, Valid a.shape idx → same (elem h a idx) (elem h b idx) = true) := by
  rw [equal, if_neg (by simp [ca, cb])]
  by_cases hs : a.shape = b.shape
  · rw [if_neg (by simp [hs])]
    by_cases hd : a.dt = b.dt
    · rw [if_pos hd]
      have hra : ∀ idx, Valid a.shape idx → h.read a.buf (a.data + ravel a.shape idx) =
          .ok (elem h a idx) := by
        intro idx hv
        have := ha.inb idx hv
        have he := ha.contiguous_addr ca hv
        rw [Arr.base, oa, Int.add_zero] at he
        rw [elem, ← he]; exact read_of_in this
      have hrb : ∀ idx, Valid a.shape idx → h.read b.buf (b.data + ravel a.shape idx) =
          .ok (elem h b idx) := by
        intro idx hv
        rw [hs] at hv
        have := hb.inb idx hv
        have he := hb.contiguous_addr cb hv
        rw [Arr.base, ob, Int.add_zero] at he
        rw [elem, hs, ← he]; exact read_of_in this
      have hf : ∀ i < prod a.shape, (do
          let x ← h.read a.buf (a.data + i)
          let y ← h.read b.buf (b.data + i)
          return same x y : Res Bool) = .ok (same (elem h a (unravel a.shape i))
            (elem h b (unravel a.shape i))) := by
        intro i hi
        obtain ⟨h1, h2⟩ := unravel_spec hi
        have e1 := hra _ h1
        have e2 := hrb _ h1
        rw [h2] at e1 e2
        rw [e1, ok_bind, e2, ok_bind]; rfl
      refine ⟨(List.range (prod a.shape)).all fun i => same (elem h a (unravel a.shape i))
            (elem h b (unravel a.shape i)), ?_, ?_⟩
      · have := forN_all _ _ (prod a.shape) hf
        simp only [bind_assoc'] at this
        exact this
      · rw [List.all_eq_true]
        simp only [hs, hd, true_and]
        constructor
        · intro hh idx hv
          have := hh (ravel a.shape idx) (List.mem_range.2 (by rw [hs]; exact hv.ravel_lt))
          have e : unravel a.shape (ravel a.shape idx) = idx := by
            have h3 : ravel a.shape idx < prod a.shape := by rw [hs]; exact hv.ravel_lt
            obtain ⟨h1, h2⟩ := unravel_spec h3
            exact ravel_inj h1 (by rw [hs]; exact hv) h2
          rw [← hs, e] at this; exact this
        · intro hh i hi
          exact hh _ (unravel_spec (List.mem_range.1 hi)).1
    · rw [if_neg hd]; exact ⟨false, rfl, by simp [hd]⟩
  · rw [if_pos hs]; exact ⟨false, rfl, by simp [hs]⟩

/-- With a byte offset, the wrong bytes are compared: an array over the elements 2, 3 compares equal
to one over the elements 0, 1. -/
theorem equal_offset_refuted :
    equal (fun x y : Int => x == y) (demoHeap 4) { demoArr [2] with boff := 2 } (demoArr [2]) =
      .ok true ∧ elem (demoHeap 4) { demoArr [2] with boff := 2 } [0] = 2 ∧
    elem (demoHeap 4) (demoArr [2]) [0] = 0 := by decide

example : equal (fun x y : Int => x == y) (demoHeap 4) { demoArr [2] with data := 2 } (demoArr [2]) =
    .ok false := by decide

end Copies

/-! ### Chains of indices -/

/-- The same number, or arrays with the same elements in the same places. -/
def SameItem : Item α D → Item α D → Prop
  | .scalar x, .scalar y => x = y
  | .view a, .view b => a.buf = b.buf ∧ a.base = b.base ∧ a.shape = b.shape ∧
      a.strides = b.strides ∧ a.compact = b.compact ∧ a.dt = b.dt
  | _, _ => False

/-- The same outcome. -/
def SameRes : Res (Item α D) → Res (Item α D) → Prop
  | .ok x, .ok y => SameItem x y
  | .error e, .error e' => e = e'
  | _, _ => False

theorem SameRes.refl (x : Res (Item α D)) : SameRes x x := by
  rcases x with e | (v | a) <;> simp [SameRes, SameItem]

/-- The number of indices is at most that of dimensions. -/
theorem fused_walk (h : Heap α) : ∀ (is : List Int) (a : Arr D), is ≠ [] →
    a.strides.length = a.shape.length → is.length ≤ a.shape.length →
    SameRes (do
      let p ← walkIdx is a.shape a.strides a.base
      if a.shape.length = is.length then
        let v ← h.read a.buf p
        return .scalar v
      else
        return .view { a with data := p, boff := 0, shape := a.shape.drop is.length,
                              strides := a.strides.drop is.length,
                              compact := isContig (a.shape.drop is.length)
                                (a.strides.drop is.length) })
      (runViews h (is.map .item) (.view a))
  | [], _, hne, _, _ => absurd rfl hne
  | i :: is, a, _, hl, hle => by
    rcases hs : a.shape with _ | ⟨d, ds⟩
    · rw [hs] at hle; simp at hle
    · rcases hst : a.strides with _ | ⟨s, ss⟩
      · rw [hs, hst] at hl; simp at hl
      · simp only [List.map_cons, runViews, applyView, getItem, hs, hst, walkIdx]
        by_cases hi : 0 ≤ indexCorrection i d ∧ indexCorrection i d < d
        · rw [if_neg (not_not_intro hi), if_neg (not_not_intro hi)]
          cases ds with
          | nil =>
            have his : is = [] := by
              rw [hs] at hle
              cases is with
              | nil => rfl
              | cons => simp at hle
            subst his
            simp only [walkIdx, ok_bind, List.length_nil, List.length_cons, if_true, List.map_nil,
              bind_assoc', runViews, pure_eq_ok]
            rw [show a.base + s * indexCorrection i d = a.data + a.boff + indexCorrection i d * s by
              rw [Arr.base, Int.mul_comm]]
            exact SameRes.refl _
          | cons e ds =>
            rw [if_neg (by simp)]
            simp only [ok_bind]
            cases is with
            | nil =>
              simp only [walkIdx, ok_bind, List.length_nil, List.length_cons, List.map_nil, runViews,
                List.drop_one, List.tail_cons]
              rw [if_neg (by simp)]
              simp only [pure_eq_ok, SameRes, SameItem, Arr.base, Nat.zero_add, List.drop_one, List.tail_cons, true_and, and_true]
              ring
            | cons j js =>
              have := fused_walk h (j :: js)
                { a with data := a.data + s * indexCorrection i d, shape := e :: ds, strides := ss,
                         compact := isContig (e :: ds) ss } (by simp)
                (by rw [hs, hst] at hl; simpa using hl) (by rw [hs] at hle; simpa using hle)
              simp only [Arr.base] at this ⊢
              rw [show a.data + a.boff + s * indexCorrection i d =
                a.data + s * indexCorrection i d + a.boff by ring]
              simpa using this
        · rw [if_pos hi, if_pos hi]
          simp [SameRes, error_bind]

/-- Reading `a[k0][k1]...` in one step has the outcome of reading it one index at a time. -/
theorem fusedGet_eq_chain {h : Heap α} {a : Arr D} (ha : Ok h a) (hsh : a.shape ≠ [])
    (is : List Int) (hne : is ≠ []) :
    SameRes (fusedGetItem h a is) (runViews h (is.map .item) (.view a)) := by
  rw [fusedGetItem]
  by_cases hle : is.length ≤ a.shape.length
  · rw [if_neg (by omega)]
    exact fused_walk h is a hne ha.len hle
  · rw [if_pos (by omega)]
    have : runViews h (is.map .item) (.view a) = .error .raise := by
      clear hne
      induction is generalizing a with
      | nil => simp at hle
      | cons i is ih =>
        rw [List.map_cons, runViews]
        rcases hs : a.shape with _ | ⟨d, ds⟩
        · exact (hsh hs).elim
        · by_cases hi : -(d : Int) ≤ i ∧ i < d
          · cases ds with
            | nil =>
              rw [applyView, getItem_scalar ha hs hi, ok_bind]
              cases is with
              | nil => rw [hs] at hle; simp at hle
              | cons j js => rfl
            | cons e ds =>
              obtain ⟨v, h1, h2, h3, _⟩ := getItem_view ha hs hi
              rw [applyView, h1, ok_bind]
              exact ih h3 (by rw [h2]; simp) (by rw [h2]; rw [hs] at hle; simpa using hle)
          · rw [applyView, getItem_raise ha hs hi]; rfl
    rw [this]; rfl

example : fusedGetItem (demoHeap 24) (demoArr [2, 3, 4]) [1, -1, 2] = .ok (.scalar 22) ∧
    runViews (demoHeap 24) [.item 1, .item (-1), .item 2] (.view (demoArr [2, 3, 4])) =
      .ok (.scalar 22) := by decide

end Verif.NDArray
