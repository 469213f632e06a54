import Verif.NDArrayViews

/-!
# Properties of NDArray views

Statements are about `applyView`, the runtime's operations, `npView`, NumPy's, and the elements
`elem h a idx`.
-/

namespace Verif.NDArray

variable {α D : Type}

/-- NumPy accepts no reshape that does not come out even. -/
theorem even_of_npView {op : ViewOp} {shape : List Nat} {np : List Nat × (List Nat → List Nat)}
    (h : npView op shape = some np) : op.even shape := by
  cases op <;> try trivial
  rename_i s
  intro h1
  simp only [npView] at h
  split at h
  · cases h
  · rename_i s' hs
    rw [npReshape, if_neg (by omega)] at hs
    split at hs
    · rename_i hc; exact hc.2.2
    · cases hs

/-- Where the runtime and NumPy both return a view, it has the same shape, and each of its elements
is the same element of the original array. -/
theorem view_agrees {h : Heap α} {a : Arr D} (ha : Ok h a) {op : ViewOp} {r : Item α D}
    {np : List Nat × (List Nat → List Nat)} (hr : applyView h op a = .ok r)
    (hn : npView op a.shape = some np) : Agrees h a np r := by
  rcases applyView_spec ha op with ⟨r', h1, _, h2⟩ | ⟨h1, _⟩ | ⟨h1, _⟩
  · rw [hr] at h1
    injection h1 with h1
    subst h1
    obtain ⟨np', h3, h4⟩ := h2 (even_of_npView hn)
    rw [hn] at h3
    injection h3 with h3
    rw [h3]; exact h4
  · rw [hr] at h1; cases h1
  · rw [hr] at h1; cases h1

/-- The runtime returns a view where NumPy raises only for a reshape whose unknown dimension does
not come out even. -/
theorem view_accepts {h : Heap α} {a : Arr D} (ha : Ok h a) {op : ViewOp} {r : Item α D}
    (hr : applyView h op a = .ok r) (hn : npView op a.shape = none) :
    ∃ s, op = .reshape s ∧ s.countP (· < 0) = 1 ∧ ¬ known s ∣ prod a.shape := by
  rcases applyView_spec ha op with ⟨r', h1, _, h2⟩ | ⟨h1, _⟩ | ⟨h1, _⟩
  · by_cases he : op.even a.shape
    · obtain ⟨np', h3, _⟩ := h2 he
      rw [hn] at h3; cases h3
    · cases op <;> try exact (he trivial).elim
      rename_i s
      simp only [ViewOp.even, Even, Classical.not_imp] at he
      exact ⟨s, rfl, he.1, he.2⟩
  · rw [hr] at h1; cases h1
  · rw [hr] at h1; cases h1

/-- The runtime raises where NumPy returns a view only for a reshape, squeeze or unsqueeze of an
array that is not contiguous, and for negative axes of squeeze. -/
theorem view_raises {h : Heap α} {a : Arr D} (ha : Ok h a) {op : ViewOp}
    {np : List Nat × (List Nat → List Nat)} (hr : applyView h op a = .error .raise)
    (hn : npView op a.shape = some np) :
    (op.reshapes = true ∧ a.compact = false) ∨ op.negative := by
  rcases applyView_spec ha op with ⟨r', h1, _⟩ | ⟨_, h1⟩ | ⟨h1, _⟩
  · rw [hr] at h1; cases h1
  · rw [hn] at h1; simpa using h1
  · rw [hr] at h1; cases h1

/-- View operations touch no memory outside the array, except on arrays without dimensions; what
they return is well-formed. -/
theorem view_safe_partial {h : Heap α} {a : Arr D} (ha : Ok h a) (hne : a.shape ≠ [])
    (op : ViewOp) : applyView h op a ≠ .error .bad ∧
      ∀ r, applyView h op a = .ok r → OkItem h a r := by
  rcases applyView_spec ha op with ⟨r', h1, h2, _⟩ | ⟨h1, _⟩ | ⟨_, h1⟩
  · rw [h1]
    refine ⟨by simp, fun r hr => ?_⟩
    injection hr with hr
    exact hr ▸ h2
  · rw [h1]; simp
  · exact (hne h1).elim

/-! ### Chains -/

/-- `a.op1.op2...`: a number has none of the operations. -/
def runViews (h : Heap α) : List ViewOp → Item α D → Res (Item α D)
  | [], r => .ok r
  | op :: ops, .view a => do
    let r ← applyView h op a
    runViews h ops r
  | _ :: _, .scalar _ => .error .raise

/-- NumPy's result of a chain. -/
def npChain : List ViewOp → List Nat → Option (List Nat × (List Nat → List Nat))
  | [], shape => some (shape, id)
  | op :: ops, shape => match npView op shape with
    | none => none
    | some np => match npChain ops np.1 with
      | none => none
      | some np' => some (np'.1, np.2 ∘ np'.2)

/-- A view of a view of an array, to any depth, addresses the elements NumPy's addresses. -/
theorem chain_agrees {h : Heap α} {a : Arr D} (ha : Ok h a) {ops : List ViewOp} {r : Item α D}
    {np : List Nat × (List Nat → List Nat)} (hr : runViews h ops (.view a) = .ok r)
    (hn : npChain ops a.shape = some np) : Agrees h a np r := by
  induction ops generalizing a np with
  | nil =>
    simp only [runViews] at hr
    injection hr with hr
    simp only [npChain] at hn
    injection hn with hn
    subst hr hn
    exact ⟨rfl, ha, rfl, rfl, fun idx hv => ⟨hv, rfl⟩⟩
  | cons op ops ih =>
    simp only [runViews] at hr
    simp only [npChain] at hn
    cases hop : applyView h op a with
    | error e => rw [hop] at hr; cases hr
    | ok r1 =>
      rw [hop, ok_bind] at hr
      cases hnp : npView op a.shape with
      | none => rw [hnp] at hn; cases hn
      | some np1 =>
        rw [hnp] at hn
        dsimp only at hn
        cases hc : npChain ops np1.1 with
        | none => rw [hc] at hn; cases hn
        | some np2 =>
          rw [hc] at hn
          injection hn with hn
          have hA := view_agrees ha hop hnp
          cases r1 with
          | scalar x =>
            cases ops with
            | nil =>
              simp only [runViews] at hr
              injection hr with hr
              simp only [npChain] at hc
              injection hc with hc
              subst hr hn hc
              exact hA
            | cons op' ops => simp [runViews] at hr
          | view v =>
            obtain ⟨e, hv, hV⟩ := hA
            have := ih hv hr (by rw [e]; exact hc)
            subst hn
            cases r with
            | view w =>
              obtain ⟨e2, hw, hW⟩ := this
              exact ⟨e2, hw, hV.trans hW⟩
            | scalar x =>
              obtain ⟨e2, hw, hW⟩ := this
              refine ⟨e2, (hV.at_idx _ hw).1, ?_⟩
              rw [hW]
              simp only [elem, Function.comp, hV.buf, (hV.at_idx _ hw).2]

/-- Reading any element of a chain of views reads the original element and stays inside the buffer. -/
theorem chain_elem {h : Heap α} {a v : Arr D} (ha : Ok h a) {ops : List ViewOp}
    {np : List Nat × (List Nat → List Nat)} (hr : runViews h ops (.view a) = .ok (.view v))
    (hn : npChain ops a.shape = some np) (idx : List Nat) (hv : Valid np.1 idx) :
    Valid a.shape (np.2 idx) ∧ elem h v idx = elem h a (np.2 idx) ∧
      h.read v.buf (v.addr idx) = .ok (elem h a (np.2 idx)) := by
  obtain ⟨e, h1, h2⟩ := chain_agrees ha hr hn
  rw [← e] at hv
  obtain ⟨h3, h4⟩ := h2.at_idx idx hv
  refine ⟨h3, by simp only [elem, h2.buf, h4], ?_⟩
  have := h1.inb idx hv
  rw [show h.read v.buf (v.addr idx) = _ from read_of_in this]
  simp only [elem, h2.buf, h4]

/-! ### Concrete cases -/

/-- A buffer holding 0, 1, 2, ... -/
def demoHeap (n : Nat) : Heap Int := { mem := fun _ o => o, size := fun _ => n, next := 1 }

/-- A contiguous array over it. -/
def demoArr (shape : List Nat) : Arr Unit :=
  { buf := 0, data := 0, boff := 0, shape := shape, strides := genStrides shape, compact := true,
    dt := () }

theorem demo_ok (shape : List Nat) : Ok (demoHeap (prod shape)) (demoArr shape) where
  len := genStrides_length shape
  buf := Nat.zero_lt_one
  inb idx hv := by
    have h1 : prod shape > ravel shape idx := Valid.ravel_lt (shape := shape) hv
    simp [Heap.In, demoArr, Arr.addr, Arr.base, dot_genStrides, demoHeap]
    exact h1
  inj i j hi hj e := by
    simp [demoArr, Arr.addr, Arr.base, dot_genStrides] at e
    exact ravel_inj hi hj e
  comp _ := Or.inl rfl

-- `np.arange(24).reshape(2, 3, 4).transpose()[-3:9:2][1]` has the elements 2, 14; 6, 18; 10, 22.
example : (runViews (demoHeap 24)
      [.transpose none, .slice (-3) 9 2, .item 1] (.view (demoArr [2, 3, 4])) =
    .ok (.view { demoArr [3, 2] with data := 3, strides := [4, 12], compact := false })) ∧
    (npChain [.transpose none, .slice (-3) 9 2, .item 1] [2, 3, 4]).map Prod.fst = some [3, 2] ∧
    (npChain [.transpose none, .slice (-3) 9 2, .item 1] [2, 3, 4]).map (fun p => p.2 [2, 1]) =
      some [1, 2, 3] ∧
    elem (demoHeap 24) { demoArr [3, 2] with data := 3, strides := [4, 12] } [2, 1] = 23 := by
  decide

-- `np.arange(24).reshape(2, 3, 4).transpose([1, -1, 0])`
example : npView (.transpose (some [1, -1, 0])) [2, 3, 4] =
    some ([3, 4, 2], unpermute [1, 2, 0]) ∧ unpermute [1, 2, 0] [1, 3, 0] = [0, 1, 3] := by
  refine ⟨by simp [npView, npAxes], by decide⟩

-- squeeze and unsqueeze
example : applyView (demoHeap 6) (.squeeze [2, 0]) (demoArr [1, 6, 1]) =
      .ok (.view (demoArr [6])) ∧
    squeezeMask [1, 6, 1] [2, 0] = some [true, false, true] ∧ fillIn [true, false, true] [4] = [0, 4, 0] ∧
    applyView (demoHeap 6) (.unsqueeze (-2)) (demoArr [6]) = .ok (.view (demoArr [1, 6])) := by
  decide

-- reshape of a transposed array raises in the runtime, not in NumPy
example : runViews (demoHeap 6) [.transpose none, .reshape [6]] (.view (demoArr [2, 3])) =
    .error .raise := by decide

/-! ### What does not hold -/

/-- `arange(10).reshape([4, -1])` silently gives a 4 by 2 array of the first eight elements; NumPy
raises. -/
theorem reshape_uneven_refuted :
    applyView (demoHeap 10) (.reshape [4, -1]) (demoArr [10]) = .ok (.view (demoArr [4, 2])) ∧
    npView (.reshape [4, -1]) [10] = none := by
  refine ⟨by decide, ?_⟩
  have : npReshape (prod [10]) [4, -1] = none := by decide
  simp only [npView, this]

/-- `squeeze` rejects the negative axis NumPy accepts. -/
theorem squeeze_negative_refuted :
    applyView (demoHeap 6) (.squeeze [-1]) (demoArr [6, 1]) = .error .raise ∧
    (npView (.squeeze [-1]) [6, 1]).map Prod.fst = some [6] := by decide

/-- Indexing the array without dimensions that `squeeze` returns reads through a null pointer. -/
theorem view_safe_refuted :
    runViews (demoHeap 1) [.squeeze [], .item 0] (.view (demoArr [1, 1])) = .error .bad ∧
    runViews (demoHeap 1) [.reshape [], .slice 0 1 1] (.view (demoArr [1])) = .error .bad := by
  decide

end Verif.NDArray
