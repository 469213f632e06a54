import Verif.NDArraySetProps

/-!
# Concatenation, stacking and construction of NDArrays
-/

namespace Verif.NDArray

variable {α D : Type}

/-! ### Concatenation -/

/-- The index moved by `n` along an axis. -/
def shiftAt (ax n : Nat) (idx : List Nat) : List Nat := idx.set ax (idx.getD ax 0 + n)

/-- The lengths of the arrays along an axis add up to. -/
def axisSum (ax : Nat) (arrays : List (Arr D)) : Nat :=
  (arrays.map fun a => a.shape.getD ax 0).sum

/-- The shapes agree except along the axis. -/
def SameBut (ax : Nat) (s t : List Nat) : Prop := s.length = t.length ∧
  ∀ k < t.length, k ≠ ax → s.getD k 0 = t.getD k 0

theorem set_getD (l : List Nat) (ax n k : Nat) :
    (l.set ax n).getD k 0 = if k = ax ∧ ax < l.length then n else l.getD k 0 := by
  simp only [List.getD_eq_getElem?_getD, List.getElem?_set]
  by_cases h : ax = k
  · subst h
    by_cases hl : ax < l.length
    · simp [hl]
    · simp [hl]
  · simp [h, Ne.symm h]

theorem sameBut_eq {ax : Nat} {s t : List Nat} (h : SameBut ax s t) (n : Nat) :
    t.set ax n = s.set ax n := by
  refine List.ext_getElem (by simp [h.1]) fun k h1 h2 => ?_
  have hk : k < t.length := by simpa using h1
  rw [← List.getD_eq_getElem _ 0 h1, ← List.getD_eq_getElem _ 0 h2, set_getD, set_getD]
  by_cases e : k = ax
  · subst e; simp [hk, h.1]
  · rw [if_neg (fun x => e x.1), if_neg (fun x => e x.1), h.2 k hk e]

theorem set_self (l : List Nat) (ax : Nat) : l.set ax (l.getD ax 0) = l := by
  refine List.ext_getElem (by simp) fun k h1 h2 => ?_
  rw [← List.getD_eq_getElem _ 0 h1, ← List.getD_eq_getElem _ 0 h2, set_getD]
  split
  · rename_i e; rw [e.1]
  · rfl

theorem concatShape_spec (ax : Nat) (shape : List Nat) (hax : ax < shape.length) (as : List (Arr D)) :
    ((∀ a ∈ as, SameBut ax a.shape shape) ∧ concatShape ax shape as =
      .ok (shape.set ax (shape.getD ax 0 + axisSum ax as))) ∨
    ((¬ ∀ a ∈ as, SameBut ax a.shape shape) ∧ concatShape ax shape as = .error .raise) := by
  induction as generalizing shape with
  | nil =>
    left
    refine ⟨by simp, ?_⟩
    simp [concatShape, axisSum]
    exact (set_self shape ax).symm
  | cons a as ih =>
    rw [concatShape]
    by_cases hl : a.shape.length = shape.length
    · rw [if_neg (by simp [hl])]
      by_cases hall : ((List.range shape.length).all fun k =>
          decide (k = ax ∨ shape.getD k 0 = a.shape.getD k 0)) = true
      · rw [if_pos hall]
        have ha : SameBut ax a.shape shape := by
          refine ⟨hl, fun k hk hne => ?_⟩
          rw [List.all_eq_true] at hall
          have := hall k (List.mem_range.2 hk)
          rw [decide_eq_true_eq] at this
          rcases this with h | h
          · exact (hne h).elim
          · exact h.symm
        have hiff : ∀ b : Arr D, SameBut ax b.shape
            (shape.set ax (shape.getD ax 0 + a.shape.getD ax 0)) ↔ SameBut ax b.shape shape := by
          intro b
          unfold SameBut
          rw [List.length_set]
          constructor
          · rintro ⟨h1, h2⟩
            refine ⟨h1, fun k hk hne => ?_⟩
            rw [h2 k hk hne, set_getD, if_neg (fun h => hne h.1)]
          · rintro ⟨h1, h2⟩
            refine ⟨h1, fun k hk hne => ?_⟩
            rw [h2 k hk hne, set_getD, if_neg (fun h => hne h.1)]
        rcases ih (shape.set ax (shape.getD ax 0 + a.shape.getD ax 0)) (by simpa using hax) with
          ⟨h1, h2⟩ | ⟨h1, h2⟩
        · left
          refine ⟨fun b hb => ?_, ?_⟩
          · rcases List.mem_cons.1 hb with e | hb
            · exact e ▸ ha
            · exact (hiff b).1 (h1 b hb)
          · rw [h2, set_getD, if_pos ⟨rfl, hax⟩, List.set_set]
            simp [axisSum, Nat.add_assoc]
        · right
          exact ⟨fun hh => h1 fun b hb => (hiff b).2 (hh b (by simp [hb])), h2⟩
      · rw [if_neg hall]
        right
        refine ⟨fun hh => hall ?_, rfl⟩
        rw [List.all_eq_true]
        intro k hk
        rw [decide_eq_true_eq]
        by_cases e : k = ax
        · exact Or.inl e
        · exact Or.inr ((hh a (by simp)).2 k (List.mem_range.1 hk) e).symm
    · rw [if_pos hl]
      right
      exact ⟨fun hh => hl (hh a (by simp)).1, rfl⟩

theorem valid_shift {ax n m : Nat} {shape idx : List Nat} (hax : ax < shape.length)
    (hm : m ≤ shape.getD ax 0) (hv : Valid (shape.set ax n) idx) (hn : n + (m - n) ≤ m) (off : Nat)
    (hoff : off + n ≤ shape.getD ax 0) : Valid shape (shiftAt ax off idx) := by
  rw [valid_iff_getD] at hv ⊢
  obtain ⟨h1, h2⟩ := hv
  rw [List.length_set] at h1 h2
  refine ⟨by simp [shiftAt, h1], fun k hk => ?_⟩
  have := h2 k hk
  rw [set_getD] at this
  rw [shiftAt, set_getD]
  by_cases e : k = ax
  · subst e
    rw [if_pos ⟨rfl, hk⟩] at this
    rw [if_pos ⟨rfl, by omega⟩]
    omega
  · rw [if_neg (fun h => e h.1)] at this ⊢
    exact this

theorem dot_set (idx : List Nat) (strides : List Int) (ax n : Nat) (h1 : ax < idx.length)
    (h2 : idx.length = strides.length) :
    dot (shiftAt ax n idx) strides = n * strides.getD ax 0 + dot idx strides := by
  induction idx generalizing ax strides with
  | nil => simp at h1
  | cons i is ih =>
    cases strides with
    | nil => simp at h2
    | cons s ss =>
      cases ax with
      | zero => simp [shiftAt, dot]; ring
      | succ ax =>
        have := ih ss ax (by simpa using h1) (by simpa using h2)
        simp only [shiftAt, List.getD_cons_succ, List.set_cons_succ, dot] at this ⊢
        rw [this]; ring

/-- The region of the result an array goes to. -/
def sect (r : Arr D) (ax n off : Nat) : Arr D :=
  { r with compact := false, shape := r.shape.set ax n,
           boff := r.boff + off * r.strides.getD ax 0 }

theorem sect_ok {h : Heap α} {r : Arr D} (hr : Ok h r) {ax n off : Nat} (hax : ax < r.shape.length)
    (hoff : off + n ≤ r.shape.getD ax 0) :
    Ok h (sect r ax n off) ∧ ViewOf r (sect r ax n off) (shiftAt ax off) := by
  have hV : ViewOf r (sect r ax n off) (shiftAt ax off) := by
    refine ⟨rfl, rfl, fun idx hv => ⟨?_, ?_⟩⟩
    · exact valid_shift (m := n) hax (by omega) hv (by omega) off hoff
    · have := hv.length
      simp only [sect, List.length_set] at this
      simp only [Arr.addr, Arr.base, sect]
      rw [dot_set idx r.strides ax off (by omega) (by rw [hr.len]; exact this)]
      ring
  refine ⟨hr.ofView hV ?_ ?_ (by simp [sect]), hV⟩
  · simp [sect, hr.len]
  · intro i j hi hj e
    have hi := hi.length
    have hj := hj.length
    simp only [sect, List.length_set] at hi hj
    refine List.ext_getElem (by omega) fun k h1 h2 => ?_
    have := congrArg (fun l => l.getD k 0) e
    simp only [shiftAt, set_getD] at this
    rw [← List.getD_eq_getElem _ 0 h1, ← List.getD_eq_getElem _ 0 h2]
    split at this
    · rename_i hc
      rw [if_pos ⟨hc.1, by omega⟩] at this
      rw [hc.1]; omega
    · rename_i hc
      rw [if_neg (by rintro ⟨e, _⟩; exact hc ⟨e, by omega⟩)] at this
      exact this

variable [DecidableEq D]

/-- The loop fills the sections one after the other. -/
theorem concatLoop_spec (c : Conv D α) {r : Arr D} {ax : Nat} (hax : ax < r.shape.length) :
    ∀ (as : List (Arr D)) (off : Nat) (view : Arr D) (h : Heap α), Ok h r →
    view.buf = r.buf → view.data = r.data → view.boff = r.boff + off * r.strides.getD ax 0 →
    view.strides = r.strides → view.compact = false → view.dt = r.dt →
    (∃ n, view.shape = r.shape.set ax n) →
    (∀ a ∈ as, Ok h a ∧ a.buf ≠ r.buf ∧ SameBut ax a.shape r.shape) →
    off + axisSum ax as ≤ r.shape.getD ax 0 →
    ∃ h', concatLoop c ax view as h = .ok h' ∧ h'.size = h.size ∧ h'.next = h.next ∧
      (∀ pre a post, as = pre ++ a :: post → ∀ idx, Valid a.shape idx →
        elem h' r (shiftAt ax (off + axisSum ax pre) idx) = c.elem r.dt a.dt (elem h a idx)) ∧
      (∀ idx, Valid r.shape idx → idx.getD ax 0 < off → elem h' r idx = elem h r idx) ∧
      (∀ b o, b ≠ r.buf → h'.mem b o = h.mem b o)
  | [], off, view, h, _, _, _, _, _, _, _, _, _, _ =>
    ⟨h, rfl, rfl, rfl, fun pre a post e => by simp at e, fun _ _ _ => rfl, fun _ _ _ => rfl⟩
  | a :: as, off, view, h, hr, e1, e2, e3, e4, e5, e6, ⟨n0, e7⟩, hsrc, hsum => by
    obtain ⟨ha, hab, has⟩ := hsrc a (by simp)
    set n := a.shape.getD ax 0 with hn
    have hsum' : off + n + axisSum ax as ≤ r.shape.getD ax 0 := by
      simp only [axisSum, List.map_cons, List.sum_cons] at hsum ⊢
      omega
    have hview : { view with shape := view.shape.set ax n } = sect r ax n off := by
      cases view
      dsimp only at e1 e2 e3 e4 e5 e6 e7
      subst e1 e2 e3 e4 e5 e6 e7
      simp [sect]
    obtain ⟨hO, hV⟩ := sect_ok hr hax (n := n) (off := off) (by omega)
    have hsh : a.shape = (sect r ax n off).shape := by
      simp only [sect]
      rw [sameBut_eq has n, hn, set_self]
    have hne : (sect r ax n off).shape ≠ [] := by
      intro e
      have := congrArg List.length e
      simp [sect] at this
      rw [this] at hax
      simp at hax
    obtain ⟨h1, hs1, hs2⟩ := assignNDArray_stored c hO ha hsh hne (Disjoint.of_buf hab)
    have hkeep : ∀ b : Arr D, b.buf ≠ r.buf → ∀ idx, elem h1 b idx = elem h b idx := fun b hb idx =>
      hs2.frame _ _ fun j _ e => hb (Prod.ext_iff.1 e).1
    have hmono : ∀ b : Arr D, Ok h b → Ok h1 b := fun b hb =>
      hb.mono (Nat.le_of_eq hs2.next.symm) fun _ _ => by rw [hs2.size]
    obtain ⟨h', i1, i2, i3, i4, i5, i6⟩ := concatLoop_spec c hax as (off + n)
      { sect r ax n off with
        boff := (sect r ax n off).boff + n * (sect r ax n off).strides.getD ax 0 } h1
      (hmono r hr) rfl rfl (by simp [sect]; ring) rfl rfl rfl ⟨n, rfl⟩
      (fun b hb => by
        have := hsrc b (by simp [hb])
        exact ⟨hmono b this.1, this.2⟩) hsum'
    refine ⟨h', ?_, by rw [i2, hs2.size], by rw [i3, hs2.next], ?_, ?_, ?_⟩
    · rw [concatLoop]
      dsimp only
      rw [← hn, hview, hs1, ok_bind]
      rw [← hview] at i1
      exact i1
    · intro pre b post e idx hv
      cases pre with
      | nil =>
        simp only [List.nil_append, List.cons.injEq] at e
        obtain ⟨rfl, rfl⟩ := e
        have hv' : Valid (sect r ax n off).shape idx := hsh ▸ hv
        have e0 : axisSum ax ([] : List (Arr D)) = 0 := rfl
        rw [e0, Nat.add_zero]
        rw [i5 _ (hV.at_idx idx hv').1]
        · have := hs2.hit idx hv'
          simp only [elem] at this ⊢
          rw [← (hV.at_idx idx hv').2]
          exact this
        · have hvl := hv.length
          have hl : ax < idx.length := by rw [hvl, has.1]; exact hax
          rw [shiftAt, set_getD, if_pos ⟨rfl, hl⟩]
          have := (valid_iff_getD.1 hv).2 ax (by omega)
          omega
      | cons b' pre =>
        simp only [List.cons_append, List.cons.injEq] at e
        obtain ⟨rfl, e⟩ := e
        have := i4 pre b post e idx hv
        rw [hkeep b (hsrc b (by simp [e])).2.1] at this
        rw [← this]
        congr 2
        simp [axisSum, hn, Nat.add_assoc]
    · intro idx hv hlt
      rw [i5 idx hv (by omega)]
      refine hs2.frame _ _ fun j hj e => ?_
      have e := (Prod.ext_iff.1 e).2
      rw [(hV.at_idx j hj).2] at e
      have e := hr.inj _ _ hv (hV.at_idx j hj).1 e
      rw [e, shiftAt, set_getD, if_pos ⟨rfl, by
        have := hj.length
        simp only [sect, List.length_set] at this
        omega⟩] at hlt
      omega
    · intro b o hb
      rw [i6 b o hb]
      exact hs2.frame _ _ fun j _ e => hb (Prod.ext_iff.1 e).1

/-- `concatenate(arrays, axis)`: the lengths along the axis add up, the other dimensions are those
of all the arrays, and the elements of every array, converted to the type of the first, are at the
indices moved by the lengths of the arrays before it.  It raises exactly for no arrays, arrays
without dimensions, an axis out of range and shapes that differ elsewhere. -/
theorem concatenate_spec (c : Conv D α) {h : Heap α} {arrays : List (Arr D)}
    (hok : ∀ a ∈ arrays, Ok h a) (axis : Int) :
    (∃ a0 rest r h' ax, arrays = a0 :: rest ∧ -(a0.shape.length : Int) ≤ axis ∧
      axis < a0.shape.length ∧ ax = (axis % a0.shape.length).toNat ∧
      (∀ a ∈ rest, SameBut ax a.shape a0.shape) ∧
      concatenate c arrays axis h = .ok (r, h') ∧ Ok h' r ∧ r.dt = a0.dt ∧
      r.shape = a0.shape.set ax (axisSum ax arrays) ∧
      (∀ pre a post, arrays = pre ++ a :: post → ∀ idx, Valid a.shape idx →
        elem h' r (shiftAt ax (axisSum ax pre) idx) = c.elem a0.dt a.dt (elem h a idx)) ∧
      ∀ b : Arr D, Ok h b → b.buf ≠ r.buf ∧ Ok h' b ∧ ∀ idx, elem h' b idx = elem h b idx) ∨
    (concatenate c arrays axis h = .error .raise ∧
      (arrays = [] ∨ ∃ a0 rest, arrays = a0 :: rest ∧ (¬ (-(a0.shape.length : Int) ≤ axis ∧
        axis < a0.shape.length) ∨
        ∃ a ∈ rest, ¬ SameBut (axis % a0.shape.length).toNat a.shape a0.shape))) := by
  cases arrays with
  | nil => right; exact ⟨rfl, Or.inl rfl⟩
  | cons a0 rest =>
    rw [concatenate]
    by_cases h0 : a0.shape.length = 0
    · right
      rw [if_pos h0]
      exact ⟨rfl, Or.inr ⟨a0, rest, rfl, Or.inl (by omega)⟩⟩
    · rw [if_neg h0]
      dsimp only
      by_cases hax : -(a0.shape.length : Int) ≤ axis ∧ axis < a0.shape.length
      · have hc := indexCorrection_range.2 hax
        rw [if_neg (by omega)]
        have hk : (indexCorrection axis a0.shape.length).toNat =
            (axis % a0.shape.length).toNat := by
          rw [indexCorrection_emod hax, Int.toNat_natCast]
        rw [hk]
        have hlt : (axis % a0.shape.length).toNat < a0.shape.length := emod_toNat_lt (by omega)
        obtain ⟨ax, hg⟩ : ∃ ax, ax = (axis % (a0.shape.length : Int)).toNat := ⟨_, rfl⟩
        rw [← hg] at hlt ⊢
        rcases concatShape_spec ax a0.shape hlt rest with ⟨h1, h2⟩ | ⟨h1, h2⟩
        · left
          rw [h2, ok_bind]
          set shape := a0.shape.set ax (a0.shape.getD ax 0 + axisSum ax rest) with hshape
          have hsum : a0.shape.getD ax 0 + axisSum ax rest = axisSum ax (a0 :: rest) := by
            simp [axisSum]
          have hgd : shape.getD ax 0 = a0.shape.getD ax 0 + axisSum ax rest := by
            rw [hshape, set_getD, if_pos ⟨rfl, hlt⟩]
          have hsb : ∀ a : Arr D, SameBut ax a.shape a0.shape → SameBut ax a.shape shape := by
            intro a ha
            refine ⟨by rw [ha.1, hshape, List.length_set], fun k hk hne => ?_⟩
            rw [hshape, List.length_set] at hk
            rw [ha.2 k hk hne, hshape, set_getD, if_neg (fun h => hne h.1)]
          obtain ⟨h', i1, i2, i3, i4, i5, i6⟩ := concatLoop_spec c
            (r := (empty h shape a0.dt).1) (ax := ax) (by simpa [empty, hshape] using hlt)
            (a0 :: rest) 0 { (empty h shape a0.dt).1 with compact := false } (empty h shape a0.dt).2
            (empty_ok h shape a0.dt) rfl rfl (by simp) rfl rfl rfl
            ⟨shape.getD ax 0, by rw [show (empty h shape a0.dt).1.shape = shape from rfl, set_self]⟩
            (by
              intro a ha
              refine ⟨empty_mono (hok a ha) shape a0.dt, ?_, ?_⟩
              · have := (hok a ha).buf
                simp [empty]; omega
              · rcases List.mem_cons.1 ha with e | ha
                · subst e; exact hsb a ⟨rfl, fun _ _ _ => rfl⟩
                · exact hsb a (h1 a ha))
            (by
              rw [show (empty h shape a0.dt).1.shape = shape from rfl, hgd, hsum]; omega)
          refine ⟨a0, rest, (empty h shape a0.dt).1, h', ax, rfl, hax.1, hax.2, hg, h1, ?_, ?_, rfl,
            ?_, ?_, ?_⟩
          · rw [i1]; rfl
          · exact (empty_ok h shape a0.dt).mono (Nat.le_of_eq i3.symm) fun _ _ => by rw [i2]
          · rw [← hsum]; rfl
          · intro pre a post e idx hv
            have := i4 pre a post e idx hv
            rw [Nat.zero_add] at this
            exact this
          · intro b hb
            have hbb : b.buf ≠ (empty h shape a0.dt).1.buf := by
              have := hb.buf
              simp [empty]; omega
            refine ⟨hbb, (empty_mono hb shape a0.dt).mono (Nat.le_of_eq i3.symm)
              fun _ _ => by rw [i2], fun idx => i6 _ _ hbb⟩
        · right
          rw [h2]
          refine ⟨rfl, Or.inr ⟨a0, rest, rfl, Or.inr ?_⟩⟩
          rw [← hg]
          simpa using h1
      · right
        have : ¬ (0 ≤ indexCorrection axis a0.shape.length ∧
            indexCorrection axis a0.shape.length < a0.shape.length) := by
          rw [indexCorrection_range]; exact hax
        rw [if_pos (by omega)]
        exact ⟨rfl, Or.inr ⟨a0, rest, rfl, Or.inl hax⟩⟩

/-! ### Stacking -/

/-- The index with a coordinate inserted at an axis. -/
def insertAt (k i : Nat) (idx : List Nat) : List Nat := idx.take k ++ i :: idx.drop k

omit [DecidableEq D] in
theorem valid_insert : ∀ (k i n : Nat) (shape idx : List Nat), k ≤ shape.length →
    Valid shape idx → i < n → Valid (insertAt k n shape) (insertAt k i idx)
  | 0, i, n, shape, idx, _, hv, hi => by
    simp only [insertAt, List.take_zero, List.drop_zero, List.nil_append, Valid]
    exact ⟨hi, hv⟩
  | k + 1, i, n, [], idx, hk, hv, hi => by simp at hk
  | k + 1, i, n, d :: ds, [], hk, hv, hi => by simp [Valid] at hv
  | k + 1, i, n, d :: ds, j :: idx, hk, hv, hi => by
    have := valid_insert k i n ds idx (by simpa using hk) hv.2 hi
    simp only [insertAt, List.take_succ_cons, List.drop_succ_cons, List.cons_append, Valid] at this ⊢
    exact ⟨hv.1, this⟩

omit [DecidableEq D] in
theorem dot_insert : ∀ (k i : Nat) (idx : List Nat) (st : List Int), k < st.length →
    idx.length + 1 = st.length →
    dot (insertAt k i idx) st = i * st.getD k 0 + dot idx (st.eraseIdx k)
  | 0, i, idx, st, hk, hl => by
    cases st with
    | nil => simp at hk
    | cons s ss => simp [insertAt, dot]
  | k + 1, i, [], st, hk, hl => by
    simp at hl; omega
  | k + 1, i, j :: idx, [], hk, hl => by simp at hk
  | k + 1, i, j :: idx, s :: ss, hk, hl => by
    have := dot_insert k i idx ss (by simpa using hk) (by simpa using hl)
    simp only [insertAt, List.take_succ_cons, List.drop_succ_cons, List.cons_append, dot,
      List.getD_cons_succ, List.eraseIdx_cons_succ] at this ⊢
    rw [this]; ring

omit [DecidableEq D] in
theorem insert_inj : ∀ (k i j : Nat) (a b : List Nat), a.length = b.length → k ≤ a.length →
    insertAt k i a = insertAt k j b → i = j ∧ a = b := by
  intro k i j a b hl hk e
  simp only [insertAt] at e
  have := List.append_inj e (by simp [hl])
  obtain ⟨h1, h2⟩ := this
  injection h2 with h2 h3
  refine ⟨h2, ?_⟩
  rw [← List.take_append_drop k a, h1, h3, List.take_append_drop]

/-- The place of the `i`-th array in the result. -/
def slot (r : Arr D) (k i : Nat) (shape : List Nat) : Arr D :=
  { r with compact := false, shape := shape, data := 0, boff := i * r.strides.getD k 0,
           strides := r.strides.eraseIdx k }

omit [DecidableEq D] in
theorem slot_ok {h : Heap α} {r : Arr D} (hr : Ok h r) {k i n : Nat} {shape : List Nat}
    (hk : k ≤ shape.length) (hs : r.shape = insertAt k n shape) (hi : i < n) (hb : r.base = 0) :
    Ok h (slot r k i shape) ∧ ViewOf r (slot r k i shape) (insertAt k i) := by
  have hl : r.strides.length = shape.length + 1 := by
    rw [hr.len, hs]
    simp [insertAt]; omega
  have hV : ViewOf r (slot r k i shape) (insertAt k i) := by
    refine ⟨rfl, rfl, fun idx hv => ⟨?_, ?_⟩⟩
    · rw [hs]; exact valid_insert k i n shape idx hk hv hi
    · have hvl : idx.length = shape.length := hv.length
      simp only [Arr.addr, hb]
      rw [dot_insert k i idx r.strides (by omega) (by omega)]
      simp [Arr.base, slot]
  refine ⟨hr.ofView hV ?_ ?_ (by simp [slot]), hV⟩
  · simp only [slot]
    rw [List.length_eraseIdx_of_lt (by omega)]; omega
  · intro a b ha hb e
    have ha : a.length = shape.length := ha.length
    have hb : b.length = shape.length := hb.length
    exact (insert_inj k i i a b (by omega) (by omega) e).2

theorem stackLoop_spec (c : Conv D α) {r : Arr D} {k n : Nat} {shape : List Nat}
    (hk : k ≤ shape.length) (hs : r.shape = insertAt k n shape) (hb : r.base = 0)
    (hg : r.strides = genStrides r.shape) :
    ∀ (as : List (Arr D)) (i : Nat) (h : Heap α), Ok h r →
    (∀ a ∈ as, Ok h a ∧ a.buf ≠ r.buf ∧ a.shape = shape) → i + as.length ≤ n →
    ∃ h', stackLoop c k r.dt shape (prod shape) r.buf (r.strides.getD k 0) (r.strides.eraseIdx k)
        i as h = .ok h' ∧ h'.size = h.size ∧ h'.next = h.next ∧
      (∀ j a, as[j]? = some a → ∀ idx, Valid shape idx →
        elem h' r (insertAt k (i + j) idx) = c.elem r.dt a.dt (elem h a idx)) ∧
      (∀ m idx, m < i → Valid shape idx →
        elem h' r (insertAt k m idx) = elem h r (insertAt k m idx)) ∧
      (∀ b o, b ≠ r.buf → h'.mem b o = h.mem b o)
  | [], i, h, _, _, _ => ⟨h, rfl, rfl, rfl, by simp, fun _ _ _ _ => rfl, fun _ _ _ => rfl⟩
  | a :: as, i, h, hr, hsrc, hn => by
    simp only [List.length_cons] at hn
    obtain ⟨ha, hab, hash⟩ := hsrc a (by simp)
    obtain ⟨hO, hV⟩ := slot_ok hr hk hs (i := i) (by omega) hb
    have hdis : Disjoint (slot r k i shape) a := Disjoint.of_buf hab
    have hstep : ∃ h1, (if a.isContiguous ∧ k = 0 then
          assignFlat c r.dt a.dt (prod shape) (r.buf, i * r.strides.getD k 0) (a.buf, a.base) h
        else assignStrided c r.dt a.dt shape ⟨r.buf, i * r.strides.getD k 0, r.strides.eraseIdx k⟩
          ⟨a.buf, a.base, a.strides⟩ h) = .ok h1 ∧
        Stored h h1 (slot r k i shape) fun idx => c.elem r.dt a.dt (elem h a idx) := by
      have hbase : (slot r k i shape).base = i * r.strides.getD k 0 := by simp [slot, Arr.base]
      split
      · rename_i hc
        have hcd : (slot r k i shape).isContiguous = true := by
          refine isContiguous_of ((isContig_iff hO.len).2 ?_)
          simp only [slot, hg, hs, hc.2, insertAt, List.take_zero, List.nil_append, List.drop_zero]
          rw [genStrides_cons]
          rfl
        have := assignFlat_stored c hO ha hash hc.1 hcd hdis
        rw [hbase] at this
        exact this
      · rename_i hc
        have hne : shape ≠ [] := by
          intro e
          refine hc ⟨isContiguous_nil (hash.trans e) ?_, by rw [e] at hk; simpa using hk⟩
          have := ha.len
          rw [hash, e] at this
          exact List.length_eq_zero_iff.1 this
        have := assignStrided_stored c hO ha hash hne hdis
        rw [hbase] at this
        exact this
    obtain ⟨h1, hs1, hs2⟩ := hstep
    have hkeep : ∀ b : Arr D, b.buf ≠ r.buf → ∀ idx, elem h1 b idx = elem h b idx := fun b hb idx =>
      hs2.frame _ _ fun j _ e => hb (Prod.ext_iff.1 e).1
    have hmono : ∀ b : Arr D, Ok h b → Ok h1 b := fun b hb =>
      hb.mono (Nat.le_of_eq hs2.next.symm) fun _ _ => by rw [hs2.size]
    obtain ⟨h', i1, i2, i3, i4, i5, i6⟩ := stackLoop_spec c hk hs hb hg as (i + 1) h1 (hmono r hr)
      (fun b hb => by
        have := hsrc b (by simp [hb])
        exact ⟨hmono b this.1, this.2⟩) (by omega)
    refine ⟨h', ?_, by rw [i2, hs2.size], by rw [i3, hs2.next], ?_, ?_, ?_⟩
    · rw [stackLoop]
      split
      · rename_i hc
        rw [if_pos hc] at hs1
        rw [hs1, ok_bind]
        exact i1
      · rename_i hc
        rw [if_neg hc] at hs1
        rw [hs1, ok_bind]
        exact i1
    · intro j b e idx hv
      cases j with
      | zero =>
        simp only [List.getElem?_cons_zero, Option.some.injEq] at e
        subst e
        rw [Nat.add_zero, i5 i idx (by omega) hv]
        have := hs2.hit idx hv
        simp only [elem] at this ⊢
        rw [← (hV.at_idx idx hv).2]
        exact this
      | succ j =>
        rw [List.getElem?_cons_succ] at e
        have := i4 j b e idx hv
        rw [hkeep b (hsrc b (by simp [List.mem_of_getElem? e])).2.1] at this
        rw [← this]
        congr 2
        omega
    · intro m idx hm hv
      rw [i5 m idx (by omega) hv]
      refine hs2.frame _ _ fun j hj e => ?_
      have e := (Prod.ext_iff.1 e).2
      rw [(hV.at_idx j hj).2] at e
      have hv' : Valid r.shape (insertAt k m idx) := by
        rw [hs]; exact valid_insert k m n shape idx hk hv (by omega)
      have e := hr.inj _ _ hv' (hV.at_idx j hj).1 e
      have hj' : j.length = shape.length := hj.length
      have := (insert_inj k m i idx j (by rw [hv.length, hj']) (by rw [hv.length]; exact hk) e).1
      omega
    · intro b o hb
      rw [i6 b o hb]
      exact hs2.frame _ _ fun j _ e => hb (Prod.ext_iff.1 e).1

/-- `stack(arrays, axis)`: the result has one more dimension, at the axis, with one entry per array;
its elements there are those of the array, converted to the type of the first.  It raises exactly
for no arrays, different shapes and an axis out of range. -/
theorem stack_spec (c : Conv D α) {h : Heap α} {arrays : List (Arr D)}
    (hok : ∀ a ∈ arrays, Ok h a) (axis : Int) :
    (∃ a0 rest r h' k, arrays = a0 :: rest ∧ (∀ a ∈ rest, a.shape = a0.shape) ∧
      -((a0.shape.length : Int) + 1) ≤ axis ∧ axis < a0.shape.length + 1 ∧
      k = (axis % ((a0.shape.length : Int) + 1)).toNat ∧
      stack c arrays axis h = .ok (r, h') ∧ Ok h' r ∧ r.dt = a0.dt ∧
      r.shape = insertAt k arrays.length a0.shape ∧
      (∀ i a, arrays[i]? = some a → ∀ idx, Valid a.shape idx →
        elem h' r (insertAt k i idx) = c.elem a0.dt a.dt (elem h a idx)) ∧
      ∀ b : Arr D, Ok h b → b.buf ≠ r.buf ∧ Ok h' b ∧ ∀ idx, elem h' b idx = elem h b idx) ∨
    (stack c arrays axis h = .error .raise ∧
      (arrays = [] ∨ ∃ a0 rest, arrays = a0 :: rest ∧ ((∃ a ∈ rest, a.shape ≠ a0.shape) ∨
        ¬ (-((a0.shape.length : Int) + 1) ≤ axis ∧ axis < a0.shape.length + 1)))) := by
  cases arrays with
  | nil => right; exact ⟨rfl, Or.inl rfl⟩
  | cons a0 rest =>
    rw [stack]
    by_cases hsame : ∀ a ∈ rest, a.shape = a0.shape
    · have hall : (rest.all fun a => decide (a.shape = a0.shape)) = true := by
        rw [List.all_eq_true]; simpa using hsame
      rw [if_neg (not_not.2 hall)]
      dsimp only
      by_cases hax : -(((a0.shape.length + 1 : Nat)) : Int) ≤ axis ∧
          axis < ((a0.shape.length + 1 : Nat) : Int)
      · have hc := indexCorrection_range.2 hax
        rw [if_neg (by omega)]
        obtain ⟨k, hg⟩ : ∃ k, k = (axis % ((a0.shape.length : Int) + 1)).toNat := ⟨_, rfl⟩
        have hkk : (indexCorrection axis (a0.shape.length + 1)).toNat = k := by
          rw [indexCorrection_emod hax, Int.toNat_natCast, hg]
          push_cast; rfl
        have hlt : k < a0.shape.length + 1 := by
          rw [hg]
          have := Int.emod_lt_of_pos axis (b := (a0.shape.length : Int) + 1) (by omega)
          have := Int.emod_nonneg axis (b := (a0.shape.length : Int) + 1) (by omega)
          omega
        left
        rw [hkk]
        change ∃ a0' rest' r h' k', _
        set shape := a0.shape.take k ++ (rest.length + 1) :: a0.shape.drop k with hshape
        obtain ⟨h', i1, i2, i3, i4, i5, i6⟩ := stackLoop_spec c (r := (empty h shape a0.dt).1) (k := k)
          (n := rest.length + 1) (shape := a0.shape) (by omega) rfl rfl rfl (a0 :: rest) 0
          (empty h shape a0.dt).2 (empty_ok h shape a0.dt)
          (by
            intro a ha
            refine ⟨empty_mono (hok a ha) shape a0.dt, ?_, ?_⟩
            · have := (hok a ha).buf
              simp [empty]; omega
            · rcases List.mem_cons.1 ha with e | ha
              · rw [e]
              · exact hsame a ha) (by simp)
        have hshapes : ∀ (i : Nat) (a : Arr D), (a0 :: rest)[i]? = some a → a.shape = a0.shape := by
          intro i a e
          rcases List.mem_cons.1 (List.mem_of_getElem? e) with e | e
          · rw [e]
          · exact hsame a e
        refine ⟨a0, rest, (empty h shape a0.dt).1, h', k, rfl, hsame, by push_cast at hax; omega,
          by push_cast at hax; omega, hg, ?_, ?_, rfl, rfl, ?_, ?_⟩
        · exact (congrArg (· >>= fun h2 => pure ((empty h shape a0.dt).1, h2)) i1 :)
        · exact (empty_ok h shape a0.dt).mono (Nat.le_of_eq i3.symm) fun _ _ => by rw [i2]
        · intro i a e idx hv
          have := i4 i a e idx (hshapes i a e ▸ hv)
          rw [Nat.zero_add] at this
          exact this
        · intro b hb
          have hbb : b.buf ≠ (empty h shape a0.dt).1.buf := by
            have := hb.buf
            simp [empty]; omega
          refine ⟨hbb, (empty_mono hb shape a0.dt).mono (Nat.le_of_eq i3.symm)
            fun _ _ => by rw [i2], fun idx => i6 _ _ hbb⟩
      · right
        have : ¬ (0 ≤ indexCorrection axis (a0.shape.length + 1) ∧
            indexCorrection axis (a0.shape.length + 1) < ((a0.shape.length + 1 : Nat) : Int)) := by
          rw [indexCorrection_range]; exact hax
        rw [if_pos (by omega)]
        exact ⟨rfl, Or.inr ⟨a0, rest, rfl, Or.inr (by push_cast at hax; omega)⟩⟩
    · right
      have hall : ¬ (rest.all fun a => decide (a.shape = a0.shape)) = true := by
        rw [List.all_eq_true]; simpa using hsame
      rw [if_pos hall]
      exact ⟨rfl, Or.inr ⟨a0, rest, rfl, Or.inl (by simpa using hsame)⟩⟩

-- `concatenate([a, b], -1)` for a 2 by 2 and the transpose of a 1 by 2 array
example : ∃ r h', concatenate demoConv [demoArr [2, 2],
      { demoArr [2, 1] with data := 4, strides := [1, 2], compact := false }] (-1) (demoHeap 6) =
    .ok (r, h') ∧ r.shape = [2, 3] ∧
    (indices [2, 3]).map (elem h' r) = [0, 1, 4, 2, 3, 5] := ⟨_, _, rfl, rfl, rfl⟩

-- `stack([a, b], 1)`
example : ∃ r h', stack demoConv [demoArr [3], { demoArr [3] with data := 3 }] 1 (demoHeap 6) =
    .ok (r, h') ∧ r.shape = [3, 2] ∧
    (indices [3, 2]).map (elem h' r) = [0, 3, 1, 4, 2, 5] := ⟨_, _, rfl, rfl, rfl⟩

end Verif.NDArray
