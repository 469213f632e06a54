import Verif.NDArrayReadProps
import Verif.NDArrayNested

/-!
# Item and slice assignment of NDArrays
-/

namespace Verif.NDArray

variable {α D : Type}

/-- What a right-hand side means for a region of a given shape: `g` is the new contents. -/
def Rhs [DecidableEq D] (c : Conv D α) (h : Heap α) (dt : D) (shape : List Nat) :
    Value α D → (List Nat → α) → Prop
  | .arr src, g => src.shape = shape ∧ ∀ idx, Valid shape idx →
      g idx = c.elem dt src.dt (elem h src idx)
  | .list l, g => HasShape shape (.list l) ∧ ∀ idx, Valid shape idx →
      ∃ v, pyAt idx (.list l) = some v ∧ g idx = c.store dt v
  | .num v, g => shape = [] ∧ g [] = c.store dt v
  | .other, _ => False

/-- The assignment `a[...] = g` to the region of `a` that `np` describes: those elements have the new
values, all other elements of `a` and all other memory are unchanged. -/
structure Assigned (h h' : Heap α) (a : Arr D) (np : List Nat × (List Nat → List Nat))
    (g : List Nat → α) : Prop where
  next : h.next ≤ h'.next
  size : ∀ b < h.next, h'.size b = h.size b
  hit : ∀ j, Valid np.1 j → elem h' a (np.2 j) = g j
  miss : ∀ idx, Valid a.shape idx → (∀ j, Valid np.1 j → np.2 j ≠ idx) → elem h' a idx = elem h a idx
  frame : ∀ b < h.next, ∀ o, (∀ idx, Valid a.shape idx → (b, o) ≠ (a.buf, a.addr idx)) →
    h'.mem b o = h.mem b o

/-- A store that may have allocated temporaries. -/
structure StoredTmp (h h' : Heap α) (dst : Arr D) (g : List Nat → α) : Prop where
  next : h.next ≤ h'.next
  size : ∀ b < h.next, h'.size b = h.size b
  hit : ∀ idx, Valid dst.shape idx → elem h' dst idx = g idx
  frame : ∀ b < h.next, ∀ o, (∀ idx, Valid dst.shape idx → (b, o) ≠ (dst.buf, dst.addr idx)) →
    h'.mem b o = h.mem b o

theorem Stored.tmp {h h' : Heap α} {dst : Arr D} {g : List Nat → α} (hs : Stored h h' dst g) :
    StoredTmp h h' dst g :=
  ⟨Nat.le_of_eq hs.next.symm, fun b _ => by rw [hs.size], hs.hit, fun b _ o => hs.frame b o⟩

theorem StoredTmp.forget {h h' : Heap α} {dst : Arr D} {g : List Nat → α}
    (hs : StoredTmp h h' { dst with compact := false } g) : StoredTmp h h' dst g :=
  ⟨hs.next, hs.size, hs.hit, hs.frame⟩

theorem StoredTmp.assigned {h h' : Heap α} {a dst : Arr D} {g : List Nat → α}
    {m : List Nat → List Nat} (hs : StoredTmp h h' dst g) (ha : Ok h a) (hv : ViewOf a dst m) :
    Assigned h h' a (dst.shape, m) g where
  next := hs.next
  size := hs.size
  hit j hj := by
    have := hs.hit j hj
    rw [elem, hv.buf, (hv.at_idx j hj).2] at this
    exact this
  miss idx hi hno := by
    refine hs.frame _ ha.buf _ fun j hj e => hno j hj ?_
    have e2 := (Prod.ext_iff.1 e).2
    rw [(hv.at_idx j hj).2] at e2
    exact (ha.inj _ _ hi (hv.at_idx j hj).1 e2).symm
  frame b hb o hno := by
    refine hs.frame b hb o fun j hj e => hno _ (hv.at_idx j hj).1 ?_
    rw [e, hv.buf, (hv.at_idx j hj).2]

theorem Ok.forget {h : Heap α} {a : Arr D} (ha : Ok h a) : Ok h { a with compact := false } :=
  ⟨ha.len, ha.buf, ha.inb, ha.inj, by simp⟩

/-! ### The temporary of a list -/

/-- The temporary as an array. -/
def tmpArr (h : Heap α) (shape : List Nat) (dt : D) : Arr D :=
  { buf := h.next, data := 0, boff := 0, shape := shape, strides := genStrides shape,
    compact := true, dt := dt }

theorem ofList_ok (h : Heap α) (vs : List α) (shape : List Nat) (dt : D)
    (hl : vs.length = prod shape) : Ok (h.ofList vs).2 (tmpArr h shape dt) where
  len := genStrides_length shape
  buf := Nat.lt_succ_self _
  inb idx hv := by
    have h1 : ravel shape idx < prod shape := Valid.ravel_lt (shape := shape) hv
    simp only [Heap.In, tmpArr, Arr.addr, Arr.base, dot_genStrides, Heap.ofList, if_true, hl]
    omega
  inj i j hi hj e := by
    simp [tmpArr, Arr.addr, Arr.base, dot_genStrides] at e
    exact ravel_inj hi hj e
  comp _ := Or.inl rfl

theorem ofList_mono {h : Heap α} {a : Arr D} (ha : Ok h a) (vs : List α) :
    Ok (h.ofList vs).2 a :=
  ha.mono (Nat.le_succ _) fun b hb => by
    simp only [Heap.ofList]; rw [if_neg (by omega)]

theorem ofList_elem (h : Heap α) (vs : List α) (shape : List Nat) (dt : D) {idx : List Nat} {v : α}
    (hv : vs[ravel shape idx]? = some v) : elem (h.ofList vs).2 (tmpArr h shape dt) idx = v := by
  simp [elem, tmpArr, Arr.addr, Arr.base, dot_genStrides, Heap.ofList, hv]

theorem isContiguous_of {a : Arr D} (h : isContig a.shape a.strides = true) :
    a.isContiguous = true := by simp [Arr.isContiguous, h]

variable [DecidableEq D]

/-- The right-hand side can be read, and shares no element with the destination. -/
def RhsOk (h : Heap α) (dst : Arr D) : Value α D → Prop
  | .arr src => Ok h src ∧ Disjoint dst src
  | _ => True

omit [DecidableEq D] in
theorem not_mem_list {l : List (Py α)} : ¬ HasShape [] (Py.list l) := by
  rintro ⟨v, e⟩; cases e

theorem setHelper_spec (c : Conv D α) {h : Heap α} {dst : Arr D}
    (hd : Ok h { dst with compact := false }) (hne : dst.shape ≠ []) {v : Value α D}
    (hv : RhsOk h dst v) :
    (∃ g h', Rhs c h dst.dt dst.shape v g ∧ setHelper c dst v h = .ok h' ∧ StoredTmp h h' dst g) ∨
    (setHelper c dst v h = .error .raise ∧ ∀ g, ¬ Rhs c h dst.dt dst.shape v g) := by
  cases v with
  | num v => right; exact ⟨rfl, fun g hg => hne hg.1⟩
  | other => right; exact ⟨rfl, fun g hg => hg⟩
  | arr src =>
    obtain ⟨hs, hdis⟩ := hv
    by_cases hsh : dst.shape = src.shape
    · left
      rw [setHelper, if_neg (by simp [hsh])]
      refine ⟨fun idx => c.elem dst.dt src.dt (elem h src idx), ?_⟩
      split
      · rename_i hc
        obtain ⟨h', h1, h2⟩ := assignFlat_stored c hd hs hsh.symm hc.2 (isContiguous_of hc.1) hdis
        refine ⟨h', ⟨hsh.symm, fun _ _ => rfl⟩, ?_, h2.tmp.forget⟩
        rw [flatCount_eq hne hd.len (Or.inl ((isContig_iff hd.len).1 hc.1)), ok_bind]
        exact h1
      · obtain ⟨h', h1, h2⟩ := assignStrided_stored c hd hs hsh.symm hne hdis
        exact ⟨h', ⟨hsh.symm, fun _ _ => rfl⟩, h1, h2.tmp.forget⟩
    · right
      rw [setHelper, if_pos hsh]
      exact ⟨rfl, fun g hg => hsh hg.1.symm⟩
  | list l =>
    by_cases hH : HasShape dst.shape (.list l)
    · left
      have hvl := vals_length _ _ hH
      have hlen : ((vals dst.shape (.list l)).map (c.store dst.dt)).length = prod dst.shape := by
        rw [List.length_map, hvl]
      simp only [setHelper, firstShape_of_hasShape _ _ hH, (flat_spec _ _).1 hH, List.nil_append]
      rw [if_neg (by omega), if_neg (by simp)]
      set vs := (vals dst.shape (.list l)).map (c.store dst.dt) with hvs
      have hsrc := ofList_ok h vs dst.shape dst.dt hlen
      have hd' := ofList_mono hd vs
      have hdis : Disjoint dst (tmpArr h dst.shape dst.dt) :=
        Disjoint.of_buf (by
          have : dst.buf < h.next := hd.buf
          simp [tmpArr]; omega)
      have hel : ∀ idx, Valid dst.shape idx → ∃ v, pyAt idx (.list l) = some v ∧
          elem (h.ofList vs).2 (tmpArr h dst.shape dst.dt) idx = c.store dst.dt v := by
        intro idx hv
        obtain ⟨v, h1, h2⟩ := vals_get _ _ hH idx hv
        refine ⟨v, h1, ofList_elem h vs dst.shape dst.dt ?_⟩
        rw [hvs, List.getElem?_map, h2]; rfl
      have hst : ∀ h', Stored (h.ofList vs).2 h' { dst with compact := false } (fun idx =>
          c.elem dst.dt dst.dt (elem (h.ofList vs).2 (tmpArr h dst.shape dst.dt) idx)) →
          StoredTmp h h' dst fun idx =>
            c.elem dst.dt dst.dt (elem (h.ofList vs).2 (tmpArr h dst.shape dst.dt) idx) := by
        intro h' hs
        refine ⟨by rw [hs.next]; exact Nat.le_succ _, fun b hb => ?_, hs.hit, fun b hb o hno => ?_⟩
        · rw [hs.size]; simp only [Heap.ofList]; rw [if_neg (by omega)]
        · rw [hs.frame b o hno]; simp only [Heap.ofList]; rw [if_neg (by omega)]
      refine ⟨fun idx => c.elem dst.dt dst.dt
        (elem (h.ofList vs).2 (tmpArr h dst.shape dst.dt) idx), ?_⟩
      have hrhs : Rhs c h dst.dt dst.shape (.list l) (fun idx => c.elem dst.dt dst.dt
          (elem (h.ofList vs).2 (tmpArr h dst.shape dst.dt) idx)) := by
        refine ⟨hH, fun idx hv => ?_⟩
        obtain ⟨v, h1, h2⟩ := hel idx hv
        exact ⟨v, h1, by simp only [Conv.elem, if_true]; exact h2⟩
      split
      · rename_i hc
        obtain ⟨h', h1, h2⟩ := assignFlat_stored c hd' hsrc rfl rfl (isContiguous_of hc) hdis
        refine ⟨h', hrhs, ?_, hst h' h2⟩
        rw [flatCount_eq hne hd.len (Or.inl ((isContig_iff hd.len).1 hc)), ok_bind]
        exact h1
      · obtain ⟨h', h1, h2⟩ := assignStrided_stored c hd' hsrc rfl hne hdis
        exact ⟨h', hrhs, h1, hst h' h2⟩
    · right
      refine ⟨?_, fun g hg => hH hg.1⟩
      rw [setHelper]
      cases hf : firstShape (.list l) with
      | none => rfl
      | some sh =>
        dsimp only
        by_cases hS : HasShape sh (.list l)
        · rw [(flat_spec _ _).1 hS]
          dsimp only
          rw [List.nil_append, vals_length _ _ hS, if_neg (by omega), if_pos]
          intro e; exact hH (e ▸ hS)
        · obtain ⟨vs, h1, h2⟩ := (flat_spec _ _).2 hS []
          rw [h1]
          dsimp only
          rw [List.nil_append, if_neg (by omega)]

/-! ### The region of a chain of indices -/

omit [DecidableEq D] in
/-- The pointer walk finds the region NumPy's indexing describes. -/
theorem walk_spec : ∀ (is : List Int) (shape : List Nat) (strides : List Int) (p : Int),
    strides.length = shape.length → is.length ≤ shape.length →
    (∃ k, k.length = is.length ∧ Valid (shape.take is.length) k ∧
      walkIdx is shape strides p = .ok (p + dot k (strides.take is.length)) ∧
      npChain (is.map .item) shape = some (shape.drop is.length, fun idx => k ++ idx)) ∨
    (walkIdx is shape strides p = .error .raise ∧ npChain (is.map .item) shape = none)
  | [], shape, strides, p, _, _ => by
    left
    exact ⟨[], rfl, by simp [Valid], by simp [walkIdx, dot], by simp [npChain]; rfl⟩
  | i :: is, [], _, _, _, hle => by simp at hle
  | i :: is, d :: ds, [], _, hl, _ => by simp at hl
  | i :: is, d :: ds, s :: ss, p, hl, hle => by
    rw [walkIdx]
    by_cases hi : -(d : Int) ≤ i ∧ i < d
    · rw [if_neg (not_not_intro (indexCorrection_range.2 hi))]
      have hnp : npView (.item i) (d :: ds) = some (ds, fun idx => (i % d).toNat :: idx) := by
        simp only [npView]; rw [if_pos hi]
      rcases walk_spec is ds ss (p + s * indexCorrection i d) (by simpa using hl)
          (by simpa using hle) with ⟨k, h1, h2, h3, h4⟩ | ⟨h3, h4⟩
      · left
        refine ⟨(i % d).toNat :: k, by simp [h1], ⟨emod_toNat_lt (by omega), h2⟩, ?_, ?_⟩
        · rw [h3, indexCorrection_emod hi]
          simp only [List.length_cons, List.take_succ_cons, dot]
          congr 1; ring
        · simp only [List.map_cons, npChain, hnp, h4, List.length_cons, List.drop_succ_cons]
          rfl
      · right
        refine ⟨h3, ?_⟩
        simp only [List.map_cons, npChain, hnp, h4]
    · right
      rw [if_pos (by rw [indexCorrection_range]; exact hi)]
      refine ⟨rfl, ?_⟩
      have hnp : npView (.item i) (d :: ds) = none := by
        simp only [npView]; rw [if_neg hi]
      simp only [List.map_cons, npChain, hnp]

omit [DecidableEq D] in
/-- The region as an array record. -/
theorem region_ok {h : Heap α} {a : Arr D} (ha : Ok h a) {n : Nat} {k : List Nat}
    (hk : k.length = n) (hv : Valid (a.shape.take n) k) :
    Ok h { a with data := a.base + dot k (a.strides.take n), boff := 0, shape := a.shape.drop n,
                  strides := a.strides.drop n, compact := false } ∧
    ViewOf a { a with data := a.base + dot k (a.strides.take n), boff := 0,
                      shape := a.shape.drop n, strides := a.strides.drop n, compact := false }
      (fun idx => k ++ idx) := by
  have hlen : (a.strides.take n).length = k.length := by
    have h1 := hv.length
    rw [List.length_take] at h1 ⊢
    rw [ha.len, h1]
  have hV : ViewOf a { a with data := a.base + dot k (a.strides.take n), boff := 0,
                              shape := a.shape.drop n, strides := a.strides.drop n,
                              compact := false } (fun idx => k ++ idx) := by
    refine ⟨rfl, rfl, fun idx hi => ⟨?_, ?_⟩⟩
    · rw [← List.take_append_drop n a.shape]; exact hv.append hi
    · simp only [Arr.addr, Arr.base, Int.add_zero]
      conv_rhs => rw [← List.take_append_drop n a.strides, dot_append hlen.symm]
      ring
  refine ⟨ha.ofView hV ?_ ?_ (by simp), hV⟩
  · simp [ha.len]
  · intro i j _ _ e; exact List.append_cancel_left e

/-- The right-hand side shares no element with the array assigned to. -/
def Separate (h : Heap α) (a : Arr D) : Value α D → Prop
  | .arr src => Ok h src ∧ Disjoint a src
  | _ => True

omit [DecidableEq D] in
theorem Separate.rhsOk {h : Heap α} {a dst : Arr D} {m : List Nat → List Nat} {v : Value α D}
    (hs : Separate h a v) (hv : ViewOf a dst m) : RhsOk h dst v := by
  cases v <;> try trivial
  rename_i src
  refine ⟨hs.1, fun i j hi hj e => hs.2 i (m j) hi (hv.at_idx j hj).1 ?_⟩
  rw [e, hv.buf, (hv.at_idx j hj).2]

/-! ### Assignment through indices -/

/-- `a[k0]...[kn] = v` with as many indices as NumPy allows: the elements NumPy's indexing addresses
get the new values and nothing else changes, or it raises.  It raises exactly if an index is out of
range or the right-hand side does not have the shape of the region.  (Excluded: `v` an array
without dimensions, and more indices than dimensions.) -/
theorem fusedSet_spec_partial (c : Conv D α) {h : Heap α} {a : Arr D} (ha : Ok h a) {is : List Int}
    (hle : is.length ≤ a.shape.length) {v : Value α D} (hv : Separate h a v)
    (h0 : ∀ src, v = .arr src → src.shape ≠ []) :
    (∃ np g h', npChain (is.map .item) a.shape = some np ∧ Rhs c h a.dt np.1 v g ∧
      fusedSetItem c a is v h = .ok h' ∧ Assigned h h' a np g) ∨
    (fusedSetItem c a is v h = .error .raise ∧
      ∀ np, npChain (is.map .item) a.shape = some np → ∀ g, ¬ Rhs c h a.dt np.1 v g) := by
  rcases walk_spec is a.shape a.strides a.base ha.len hle with ⟨k, h1, h2, h3, h4⟩ | ⟨h3, h4⟩
  · obtain ⟨hR, hV⟩ := region_ok ha h1 h2
    -- a value that is not a number
    have hother : (∀ w, v ≠ .num w) → fusedSetItem c a is v h = setHelper c
        { a with data := a.base + dot k (a.strides.take is.length), boff := 0,
                 shape := a.shape.drop is.length, strides := a.strides.drop is.length } v h := by
      intro hn
      cases v with
      | num w => exact (hn w rfl).elim
      | _ => simp only [fusedSetItem, h3, ok_bind]
    by_cases hnum : ∃ w, v = .num w
    · obtain ⟨w, rfl⟩ := hnum
      rw [fusedSetItem]
      by_cases hl : is.length = a.shape.length
      · left
        rw [if_neg (by simp [hl]), h3, ok_bind]
        have hdrop : a.shape.drop is.length = [] := by rw [hl, List.drop_length]
        have hin := hR.inb [] (by simp only [hdrop]; trivial)
        simp only [Arr.addr, Arr.base, dot, Int.add_zero] at hin
        refine ⟨_, fun _ => c.store a.dt w, h.set a.buf (a.base + dot k (a.strides.take is.length))
          (c.store a.dt w), h4, ⟨hdrop, rfl⟩, if_pos hin, ?_⟩
        refine StoredTmp.assigned (dst := { a with
          data := a.base + dot k (a.strides.take is.length), boff := 0,
          shape := a.shape.drop is.length, strides := a.strides.drop is.length, compact := false })
          ?_ ha hV
        refine ⟨Nat.le_refl _, fun _ _ => rfl, fun idx hi => ?_, fun b _ o hno => ?_⟩
        · simp only [hdrop] at hi
          cases idx with
          | nil => simp [elem, Arr.addr, Arr.base, dot, Heap.set]
          | cons => simp [Valid] at hi
        · have := hno [] (by simp only [hdrop]; trivial)
          simp only [Arr.addr, Arr.base, dot, Int.add_zero, ne_eq, Prod.mk.injEq] at this
          simp only [Heap.set, Arr.base]
          exact if_neg this
      · right
        rw [if_pos hl]
        refine ⟨rfl, fun np hnp g hg => hl ?_⟩
        rw [h4] at hnp
        injection hnp with hnp
        subst hnp
        have := congrArg List.length hg.1
        simp at this; omega
    · have hn : ∀ w, v ≠ .num w := fun w e => hnum ⟨w, e⟩
      rw [hother hn]
      by_cases hsh : a.shape.drop is.length = []
      · right
        constructor
        · cases v with
          | num w => exact (hn w rfl).elim
          | other => rfl
          | arr src =>
            rw [setHelper, if_pos]
            simp only [hsh]; exact (h0 src rfl).symm
          | list l =>
            rw [setHelper]
            cases hf : firstShape (.list l) with
            | none => rfl
            | some sh =>
              dsimp only
              by_cases hS : HasShape sh (.list l)
              · rw [(flat_spec _ _).1 hS]
                dsimp only
                rw [List.nil_append, vals_length _ _ hS, if_neg (by omega), if_pos]
                intro e
                rw [hsh] at e
                rw [← e] at hS
                exact not_mem_list hS
              · obtain ⟨vs, h1, h2⟩ := (flat_spec _ _).2 hS []
                rw [h1]
                dsimp only
                rw [List.nil_append, if_neg (by omega)]
        · intro np hnp g hg
          rw [h4] at hnp
          injection hnp with hnp
          subst hnp
          cases v with
          | num w => exact (hn w rfl).elim
          | other => exact hg
          | arr src => exact h0 src rfl (hg.1.trans hsh)
          | list l =>
            have := hg.1
            dsimp only at this
            rw [hsh] at this
            exact not_mem_list this
      · have hrv := hv.rhsOk (m := fun idx => k ++ idx) (dst := { a with
            data := a.base + dot k (a.strides.take is.length), boff := 0,
            shape := a.shape.drop is.length, strides := a.strides.drop is.length })
            ⟨hV.buf, hV.dt, hV.at_idx⟩
        rcases setHelper_spec c (dst := { a with
            data := a.base + dot k (a.strides.take is.length), boff := 0,
            shape := a.shape.drop is.length, strides := a.strides.drop is.length }) hR hsh
            hrv with ⟨g, h', e1, e2, e3⟩ | ⟨e1, e2⟩
        · left
          exact ⟨_, g, h', h4, e1, e2, e3.assigned ha ⟨hV.buf, hV.dt, hV.at_idx⟩⟩
        · right
          refine ⟨e1, fun np hnp => ?_⟩
          rw [h4] at hnp
          injection hnp with hnp
          subst hnp
          exact e2
  · right
    refine ⟨?_, fun np hnp => by rw [h4] at hnp; cases hnp⟩
    cases v with
    | num w => rw [fusedSetItem]; split <;> simp [h3, error_bind]
    | _ => simp [fusedSetItem, h3, error_bind]

/-- Setting one item is the chain of one index. -/
theorem setItem_eq_fused (c : Conv D α) {h : Heap α} {a : Arr D} (ha : Ok h a) (hne : a.shape ≠ [])
    (i : Int) (v : Value α D) : setItem c a i v h = fusedSetItem c a [i] v h := by
  rcases hs : a.shape with _ | ⟨d, ds⟩
  · exact (hne hs).elim
  · obtain ⟨s, ss, hst⟩ := strides_cons ha hs
    cases v with
    | num w =>
      simp only [setItem, fusedSetItem, hs, hst, walkIdx]
      cases ds with
      | nil =>
        simp only [List.length_cons, List.length_nil, ne_eq, not_true_eq_false, if_false]
        split <;> rfl
      | cons e ds => simp
    | _ =>
      simp only [setItem, fusedSetItem, hs, hst, walkIdx]
      split <;> rfl

/-- `a[i] = v`. -/
theorem setItem_spec_partial (c : Conv D α) {h : Heap α} {a : Arr D} (ha : Ok h a)
    (hne : a.shape ≠ []) {i : Int} {v : Value α D} (hv : Separate h a v)
    (h0 : ∀ src, v = .arr src → src.shape ≠ []) :
    (∃ np g h', npView (.item i) a.shape = some np ∧ Rhs c h a.dt np.1 v g ∧
      setItem c a i v h = .ok h' ∧ Assigned h h' a np g) ∨
    (setItem c a i v h = .error .raise ∧
      ∀ np, npView (.item i) a.shape = some np → ∀ g, ¬ Rhs c h a.dt np.1 v g) := by
  rw [setItem_eq_fused c ha hne]
  have hnp : npChain [.item i] a.shape = npView (.item i) a.shape := by
    simp only [npChain]
    cases npView (.item i) a.shape with
    | none => rfl
    | some np => rfl
  have := fusedSet_spec_partial c ha (is := [i]) (by
    cases h1 : a.shape with
    | nil => exact (hne h1).elim
    | cons => simp) hv h0
  rw [List.map_cons, List.map_nil, hnp] at this
  exact this

/-- `a[b:e] = v`: an empty slice accepts any right-hand side. -/
theorem setSlice_spec_partial (c : Conv D α) {h : Heap α} {a : Arr D} (ha : Ok h a)
    (hne : a.shape ≠ []) {b e : Int} {v : Value α D} (hv : Separate h a v) :
    ∃ np, npView (.slice b e 1) a.shape = some np ∧
      ((∃ g h', (Rhs c h a.dt np.1 v g ∨ np.1.head? = some 0) ∧
          setSlice c a b e v h = .ok h' ∧ Assigned h h' a np g) ∨
        (setSlice c a b e v h = .error .raise ∧ ∀ g, ¬ Rhs c h a.dt np.1 v g)) := by
  rcases hs : a.shape with _ | ⟨d, ds⟩
  · exact (hne hs).elim
  · obtain ⟨s, ss, hst⟩ := strides_cons ha hs
    obtain ⟨w, m, hw1, hw2, hw3, hw4, hnp⟩ : ∃ w m, getSlice a b e 1 = .ok w ∧
        w.shape = (npRows d b e 1).length :: ds ∧ Ok h w ∧ ViewOf a w m ∧
        npView (.slice b e 1) (d :: ds) = some ((npRows d b e 1).length :: ds, m) := by
      obtain ⟨w, hw1, hw2, hw3, hw4⟩ := getSlice_view ha hs b e 1 (by omega)
      exact ⟨w, _, hw1, hw2, hw3, hw4, rfl⟩
    refine ⟨_, hnp, ?_⟩
    rw [getSlice, if_neg (by omega), hs, hst] at hw1
    simp only [setSlice, hs, hst]
    dsimp only at hw1
    by_cases hle : sliceCorrection e d ≤ sliceCorrection b d
    · rw [if_pos hle] at hw1 ⊢
      injection hw1 with hw1
      have h0 : (npRows d b e 1).length = 0 := by
        rw [← hw1] at hw2
        simpa using hw2.symm
      left
      have hno : ∀ j, ¬ Valid ((npRows d b e 1).length :: ds) j := fun j hj => by
        rw [h0] at hj
        cases j <;> simp [Valid] at hj
      exact ⟨elem h a, h, Or.inr (by simp [h0]), rfl, Nat.le_refl _, fun _ _ => rfl,
        fun j hj => (hno j hj).elim, fun _ _ _ => rfl, fun _ _ _ _ => rfl⟩
    · rw [if_neg hle] at hw1 ⊢
      injection hw1 with hw1
      have hn : (npRows d b e 1).length = (sliceCorrection e d - sliceCorrection b d).toNat := by
        rw [← hw1] at hw2
        simp at hw2
        omega
      have hV : ViewOf a { a with
            data := a.base + s * sliceCorrection b d, boff := 0, shape := (sliceCorrection e d - sliceCorrection b d).toNat :: ds,
            strides := s :: ss } m := by
        refine ⟨rfl, rfl, fun idx hi => ?_⟩
        have hi' : Valid w.shape idx := by rw [hw2, hn]; exact hi
        obtain ⟨e1, e2⟩ := hw4.at_idx idx hi'
        refine ⟨e1, ?_⟩
        rw [← e2, ← hw1]
        simp only [Arr.addr, Arr.base, Int.mul_one, Int.add_zero]
        ring
      have hO : Ok h { a with
            data := a.base + s * sliceCorrection b d, boff := 0, shape := (sliceCorrection e d - sliceCorrection b d).toNat :: ds,
            strides := s :: ss, compact := false } := by
        refine ha.ofView (m := m) ⟨hV.buf, hV.dt, hV.at_idx⟩ ?_ ?_ (by simp)
        · have := ha.len
          rw [hs, hst] at this
          simpa using this
        · intro i j hi hj e'
          have hi' : Valid w.shape i := by rw [hw2, hn]; exact hi
          have hj' : Valid w.shape j := by rw [hw2, hn]; exact hj
          refine hw3.inj i j hi' hj' ?_
          rw [(hw4.at_idx i hi').2, (hw4.at_idx j hj').2, e']
      rw [hn]
      rcases setHelper_spec c (dst := { a with
            data := a.base + s * sliceCorrection b d, boff := 0, shape := (sliceCorrection e d - sliceCorrection b d).toNat :: ds,
            strides := s :: ss })
          hO (by simp) (hv.rhsOk hV) with ⟨g, h', e1, e2, e3⟩ | ⟨e1, e2⟩
      · left
        exact ⟨g, h', Or.inl e1, e2, e3.assigned ha hV⟩
      · right
        exact ⟨e1, e2⟩

/-! ### One index at a time -/

/-- `a[k0]...[kn] = v` one index at a time. -/
def setChain (c : Conv D α) : List Int → Arr D → Value α D → Heap α → Res (Heap α)
  | [], _, _, _ => .error .raise
  | [i], a, v, h => setItem c a i v h
  | i :: is, a, v, h => do
    let r ← getItem h a i
    match r with
    | .view w => setChain c is w v h
    | .scalar _ => .error .raise

theorem setHelper_congr (c : Conv D α) {dst dst' : Arr D} (h1 : dst.buf = dst'.buf)
    (h2 : dst.data = dst'.data) (h3 : dst.boff = dst'.boff) (h4 : dst.shape = dst'.shape)
    (h5 : dst.strides = dst'.strides) (h6 : dst.dt = dst'.dt) (v : Value α D) (h : Heap α) :
    setHelper c dst v h = setHelper c dst' v h := by
  cases dst; cases dst'
  dsimp only at h1 h2 h3 h4 h5 h6
  subst h1 h2 h3 h4 h5 h6
  cases v <;> rfl

/-- Assigning in one step has the outcome of assigning one index at a time, whatever the
right-hand side: for numbers always, otherwise if there are no more indices than dimensions. -/
theorem fusedSet_eq_chain (c : Conv D α) {h : Heap α} {a : Arr D} (ha : Ok h a)
    (hsh : a.shape ≠ []) (is : List Int) (hne : is ≠ []) (v : Value α D)
    (hv : (∃ w, v = .num w) ∨ is.length ≤ a.shape.length) :
    fusedSetItem c a is v h = setChain c is a v h := by
  induction is generalizing a with
  | nil => exact absurd rfl hne
  | cons i is ih =>
    cases is with
    | nil => rw [setChain, setItem_eq_fused c ha hsh]
    | cons j js =>
      rw [setChain]
      · rcases hs : a.shape with _ | ⟨d, ds⟩
        · exact (hsh hs).elim
        · obtain ⟨s, ss, hst⟩ := strides_cons ha hs
          by_cases hi : -(d : Int) ≤ i ∧ i < d
          · cases ds with
            | nil =>
              rcases hv with ⟨w, rfl⟩ | hv
              · rw [getItem_scalar ha hs hi, ok_bind]
                simp [fusedSetItem, hs]
              · rw [hs] at hv; simp at hv
            | cons e ds =>
              obtain ⟨w, hw1, hw2, hw3, hw4⟩ := getItem_view ha hs hi
              rw [hw1, ok_bind]
              dsimp only
              rw [← ih hw3 (by rw [hw2]; simp) (by simp) (by
                rw [hs] at hv; rw [hw2]; simpa using hv)]
              simp only [getItem, hs, hst] at hw1
              rw [if_neg (not_not_intro (indexCorrection_range.2 hi)), if_neg (by simp)] at hw1
              injection hw1 with hw1
              injection hw1 with hw1
              have hwalk : walkIdx (i :: j :: js) a.shape a.strides a.base =
                  walkIdx (j :: js) w.shape w.strides w.base := by
                rw [hs, hst, walkIdx, if_neg (not_not_intro (indexCorrection_range.2 hi)), ← hw1]
                simp only [Arr.base]
                congr 1
                ring
              have hdrop : a.shape.drop (i :: j :: js).length = w.shape.drop (j :: js).length ∧
                  a.strides.drop (i :: j :: js).length = w.strides.drop (j :: js).length ∧
                  a.buf = w.buf ∧ a.dt = w.dt := by
                rw [hs, hst, ← hw1]; simp
              have hlen : (i :: j :: js).length ≠ a.shape.length ↔
                  (j :: js).length ≠ w.shape.length := by
                rw [hs, hw2]; simp
              cases v with
              | num x =>
                simp only [fusedSetItem, hwalk, hdrop.2.2.1, hdrop.2.2.2]
                simp only [hlen]
              | _ =>
                simp only [fusedSetItem, hwalk]
                congr 1 <;>
                · funext p
                  refine setHelper_congr c ?_ ?_ ?_ ?_ ?_ ?_ _ _
                  · exact hdrop.2.2.1
                  · rfl
                  · rfl
                  · exact hdrop.1
                  · exact hdrop.2.1
                  · exact hdrop.2.2.2
          · rw [getItem_raise ha hs hi]
            have hw : walkIdx (i :: j :: js) a.shape a.strides a.base = .error .raise := by
              rw [hs, hst, walkIdx, if_pos (by rw [indexCorrection_range]; exact hi)]
            cases v with
            | num x => rw [fusedSetItem]; split <;> simp [hw, error_bind]
            | _ => simp [fusedSetItem, hw, error_bind]
      · simp

/-! ### Concrete cases -/

/-- Conversions for the examples: none. -/
def demoConv : Conv Unit Int := { cast := fun _ _ x => x, store := fun _ x => x }

-- `a.transpose()[1] = [7, 8]` on a 2 by 3 array
example : ∃ h', setItem demoConv { demoArr [3, 2] with strides := [1, 3], compact := false } 1
      (.list [.num 7, .num 8]) (demoHeap 6) = .ok h' ∧
    (indices [2, 3]).map (elem h' (demoArr [2, 3])) = [0, 7, 2, 3, 8, 5] := ⟨_, rfl, rfl⟩

-- `a[0:2] = b`
example : ∃ h', setSlice demoConv (demoArr [3, 2]) 0 (-1)
      (.arr { demoArr [2, 2] with data := 6 }) (demoHeap 10) = .ok h' ∧
    (indices [3, 2]).map (elem h' (demoArr [3, 2])) = [6, 7, 8, 9, 4, 5] := ⟨_, rfl, rfl⟩

example : fusedSetItem demoConv (demoArr [2, 3]) [1, -1] (.num 9) (demoHeap 6) =
    setChain demoConv [1, -1] (demoArr [2, 3]) (.num 9) (demoHeap 6) :=
  fusedSet_eq_chain demoConv (demo_ok [2, 3]) (by simp [demoArr]) _ (by simp) _ (Or.inl ⟨_, rfl⟩)

/-! ### What does not hold -/

/-- With a source that overlaps the destination, elements are read after they have been overwritten:
for `v = a[0:8:2]` the assignment `v[1:4] = v[0:3]` gives 0, 0, 0, 0 instead of 0, 0, 2, 4. -/
theorem setSlice_overlap_refuted :
    ∃ h', setSlice demoConv { demoArr [4] with strides := [2], compact := false } 1 4
        (.arr { demoArr [3] with strides := [2], compact := false }) (demoHeap 8) = .ok h' ∧
      (indices [4]).map (elem h' { demoArr [4] with strides := [2] }) = [0, 0, 0, 0] ∧
      (indices [3]).map (elem (demoHeap 8) { demoArr [3] with strides := [2] }) = [0, 2, 4] :=
  ⟨_, rfl, rfl, rfl⟩

/-- On contiguous arrays, `a[1:4] = a[0:3]` is a `memcpy` between overlapping regions. -/
theorem setSlice_memcpy_refuted :
    (match setSlice demoConv (demoArr [4]) 1 4 (.arr (demoArr [3])) (demoHeap 4) with
      | .error e => e = .bad
      | .ok _ => False) := rfl

/-- Assigning an array without dimensions to an item reads past a shape; NumPy assigns the number. -/
theorem setItem_scalar_refuted :
    (match setItem demoConv (demoArr [3]) 0 (.arr { demoArr [] with data := 3 }) (demoHeap 4) with
      | .error e => e = .bad
      | .ok _ => False) := rfl

/-- With more indices than dimensions and a right-hand side that is not a number, assigning in one
step reads past the shape; one index at a time raises. -/
theorem fusedSet_toomany_refuted :
    (match fusedSetItem demoConv (demoArr [3]) [0, 0] (.list [.num 1]) (demoHeap 3) with
      | .error e => e = .bad
      | .ok _ => False) ∧
    (match setChain demoConv [0, 0] (demoArr [3]) (.list [.num 1]) (demoHeap 3) with
      | .error e => e = .raise
      | .ok _ => False) := ⟨rfl, rfl⟩

/-- A slice assignment to an empty slice accepts a right-hand side of any shape; NumPy raises. -/
theorem setSlice_empty_refuted : ∃ h',
    setSlice demoConv (demoArr [3]) 2 2 (.list [.num 1, .list []]) (demoHeap 3) = .ok h' := ⟨_, rfl⟩

end Verif.NDArray
