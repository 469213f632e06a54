import Verif.NDArrayViews

/-!
# Copies and stores of NDArrays

What the element loops do to memory, in terms of multi-indices.
-/

namespace Verif.NDArray

variable {α D : Type}

/-- The elements of `dst` have been set to `g`, and nothing else has changed. -/
structure Stored (h h' : Heap α) (dst : Arr D) (g : List Nat → α) : Prop where
  size : h'.size = h.size
  next : h'.next = h.next
  hit : ∀ idx, Valid dst.shape idx → elem h' dst idx = g idx
  frame : ∀ b o, (∀ idx, Valid dst.shape idx → (b, o) ≠ (dst.buf, dst.addr idx)) →
    h'.mem b o = h.mem b o

/-- A source of a loop: all its elements can be read and none is one of the destination. -/
structure Source (h : Heap α) (dst : Arr D) (c : Cursor) : Prop where
  inb : ∀ idx, Valid dst.shape idx → h.In (c.buf, c.off + dot idx c.strides)
  dis : ∀ i j, Valid dst.shape i → Valid dst.shape j →
    (c.buf, c.off + dot i c.strides) ≠ (dst.buf, dst.addr j)

theorem cells_stored (f : List α → α) {h : Heap α} {dst : Arr D} (hd : Ok h dst)
    {srcs : List Cursor} (hs : ∀ c ∈ srcs, Source h dst c) :
    ∃ h', cells f (walkCells dst.shape ⟨dst.buf, dst.base, dst.strides⟩ srcs) h = .ok h' ∧
      Stored h h' dst fun idx => f (srcs.map fun c => h.mem c.buf (c.off + dot idx c.strides)) := by
  set L := walkCells dst.shape ⟨dst.buf, dst.base, dst.strides⟩ srcs with hL
  have hmem : ∀ p ∈ L, ∃ idx, Valid dst.shape idx ∧ p = ((dst.buf, dst.addr idx),
      srcs.map fun c => (c.buf, c.off + dot idx c.strides)) := by
    intro p hp
    rw [hL, walkCells] at hp
    obtain ⟨idx, h1, rfl⟩ := List.mem_map.1 hp
    exact ⟨idx, mem_indices.1 h1, rfl⟩
  have hmem' : ∀ idx, Valid dst.shape idx → ((dst.buf, dst.addr idx),
      srcs.map fun c => (c.buf, c.off + dot idx c.strides)) ∈ L := by
    intro idx hv
    rw [hL, walkCells]
    exact List.mem_map.2 ⟨idx, mem_indices.2 hv, rfl⟩
  have hw := cells_written f L h ?_ ?_ ?_
  · obtain ⟨h', h1, h2⟩ := hw
    refine ⟨h', h1, h2.size, h2.next, fun idx hv => ?_, fun b o hb => h2.frame b o fun p hp e => ?_⟩
    · have := h2.at_dst _ (hmem' idx hv)
      rw [List.map_map] at this
      exact this
    · obtain ⟨idx, hv, rfl⟩ := hmem p hp
      exact hb idx hv e.symm
  · intro p hp
    obtain ⟨idx, hv, rfl⟩ := hmem p hp
    refine ⟨hd.inb idx hv, fun c hc => ?_⟩
    obtain ⟨c', h1, rfl⟩ := List.mem_map.1 hc
    exact (hs c' h1).inb idx hv
  · have : L.map Prod.fst = (indices dst.shape).map fun idx => (dst.buf, dst.addr idx) := by
      rw [hL, walkCells, List.map_map]; rfl
    rw [this]
    refine List.Nodup.map_on (fun i hi j hj e => ?_) (indices_nodup _)
    exact hd.inj i j (mem_indices.1 hi) (mem_indices.1 hj) (Prod.ext_iff.1 e).2
  · intro p hp c hc hm
    obtain ⟨i, hi, rfl⟩ := hmem p hp
    obtain ⟨c', h1, rfl⟩ := List.mem_map.1 hc
    obtain ⟨q, hq, e⟩ := List.mem_map.1 hm
    obtain ⟨j, hj, rfl⟩ := hmem q hq
    exact (hs c' h1).dis i j hi hj e.symm

theorem strided_stored (f : List α → α) {h : Heap α} {dst : Arr D} (hd : Ok h dst)
    (hne : dst.shape ≠ []) {srcs : List Cursor} (hs : ∀ c ∈ srcs, Source h dst c)
    (hl : ∀ c ∈ srcs, c.strides.length = dst.shape.length) :
    ∃ h', strided f dst.shape ⟨dst.buf, dst.base, dst.strides⟩ srcs h = .ok h' ∧
      Stored h h' dst fun idx => f (srcs.map fun c => h.mem c.buf (c.off + dot idx c.strides)) := by
  rw [strided_cells f dst.shape hne _ srcs hd.len hl]
  exact cells_stored f hd hs

/-- The strides of a contiguous array, unless it has no elements. -/
theorem Ok.strides_eq {h : Heap α} {a : Arr D} (ha : Ok h a) (hc : a.isContiguous = true) :
    a.strides = genStrides a.shape ∨ a.shape.head? = some 0 := by
  rw [Arr.isContiguous, Bool.or_eq_true] at hc
  rcases hc with hc | hc
  · exact ha.comp hc
  · exact Or.inl ((isContig_iff ha.len).1 hc)

theorem isContiguous_nil {a : Arr D} (h : a.shape = []) (hs : a.strides = []) :
    a.isContiguous = true := by
  simp [Arr.isContiguous, h, hs, isContig, contigAux]

theorem flatLoop_stored (f : List α → α) {h : Heap α} {dst : Arr D} (hd : Ok h dst)
    (hc : dst.strides = genStrides dst.shape ∨ prod dst.shape = 0) (srcs : List (Nat × Int))
    (hs : ∀ c ∈ srcs, Source h dst ⟨c.1, c.2, genStrides dst.shape⟩) :
    ∃ h', flatLoop f (prod dst.shape) (dst.buf, dst.base) srcs h = .ok h' ∧
      Stored h h' dst fun idx =>
        f (srcs.map fun c => h.mem c.1 (c.2 + ravel dst.shape idx)) := by
  rw [flatLoop_cells]
  rcases hc with hc | hc
  · rw [flat_eq_walk, ← hc]
    have hw := cells_stored f hd (srcs := srcs.map fun c => ⟨c.1, c.2, dst.strides⟩) ?_
    · obtain ⟨h', h1, h2⟩ := hw
      refine ⟨h', h1, h2.size, h2.next, fun idx hv => ?_, h2.frame⟩
      rw [h2.hit idx hv, List.map_map, hc]
      simp only [Function.comp_def, dot_genStrides]
    · intro c hm
      obtain ⟨c', h1, rfl⟩ := List.mem_map.1 hm
      rw [hc]; exact hs c' h1
  · refine ⟨h, by rw [hc]; rfl, rfl, rfl, fun idx hv => ?_, fun _ _ _ => rfl⟩
    exact (not_valid_of_prod_zero hc hv).elim

/-- No element of `src` is one of `dst`. -/
def Disjoint (dst src : Arr D) : Prop :=
  ∀ i j, Valid src.shape i → Valid dst.shape j → (src.buf, src.addr i) ≠ (dst.buf, dst.addr j)

theorem Disjoint.of_buf {dst src : Arr D} (h : src.buf ≠ dst.buf) : Disjoint dst src :=
  fun _ _ _ _ e => h (Prod.ext_iff.1 e).1

theorem source_of {h : Heap α} {dst src : Arr D} (hs : Ok h src) (hsh : src.shape = dst.shape)
    (hdis : Disjoint dst src) : Source h dst ⟨src.buf, src.base, src.strides⟩ where
  inb idx hv := hs.inb idx (hsh ▸ hv)
  dis i j hi hj := hdis i j (hsh ▸ hi) hj

theorem source_flat {h : Heap α} {dst src : Arr D} (hs : Ok h src) (hsh : src.shape = dst.shape)
    (hc : src.isContiguous = true) (hdis : Disjoint dst src) :
    Source h dst ⟨src.buf, src.base, genStrides dst.shape⟩ where
  inb idx hv := by
    have := hs.inb idx (hsh ▸ hv)
    rw [hs.contiguous_addr hc (hsh ▸ hv), hsh] at this
    rwa [dot_genStrides]
  dis i j hi hj := by
    have := hdis i j (hsh ▸ hi) hj
    rw [hs.contiguous_addr hc (hsh ▸ hi), hsh] at this
    rwa [dot_genStrides]

/-- Contiguous arrays without common elements do not overlap. -/
theorem not_overlap {h : Heap α} {dst src : Arr D} (hd : Ok h dst) (hs : Ok h src)
    (hsh : src.shape = dst.shape) (hcs : src.isContiguous = true)
    (hcd : dst.isContiguous = true) (hdis : Disjoint dst src) :
    overlap (prod dst.shape) (dst.buf, dst.base) (src.buf, src.base) = false := by
  rw [Bool.eq_false_iff]
  intro ho
  simp only [overlap, decide_eq_true_eq] at ho
  obtain ⟨hb, h1, h2⟩ := ho
  have key : ∀ p q : Nat, p < prod dst.shape → q < prod dst.shape →
      src.base + p = dst.base + q → False := by
    intro p q hp hq e
    obtain ⟨i, hi, rfl⟩ := ravel_surj hp
    obtain ⟨j, hj, rfl⟩ := ravel_surj hq
    refine hdis i j (hsh ▸ hi) hj ?_
    rw [hs.contiguous_addr hcs (hsh ▸ hi), hd.contiguous_addr hcd hj, hsh, hb, e]
  by_cases hle : dst.base ≤ src.base
  · exact key 0 (src.base - dst.base).toNat (by omega) (by omega) (by omega)
  · exact key (dst.base - src.base).toNat 0 (by omega) (by omega) (by omega)

theorem flatCount_eq {shape : List Nat} {strides : List Int} (hne : shape ≠ [])
    (hl : strides.length = shape.length)
    (hc : strides = genStrides shape ∨ shape.head? = some 0) :
    flatCount shape strides = .ok (prod shape) := by
  cases shape with
  | nil => exact absurd rfl hne
  | cons d ds =>
    cases strides with
    | nil => simp at hl
    | cons s ss =>
      rw [flatCount]
      rcases hc with hc | hc
      · rw [genStrides_cons] at hc
        injection hc with hc _
        rw [hc, prod_cons]
        congr 1
      · simp at hc
        simp [hc, prod_cons]

variable [DecidableEq D]

theorem assignFlat_stored (c : Conv D α) {h : Heap α} {dst src : Arr D} (hd : Ok h dst)
    (hs : Ok h src) (hsh : src.shape = dst.shape) (hcs : src.isContiguous = true)
    (hcd : dst.isContiguous = true) (hdis : Disjoint dst src) :
    ∃ h', assignFlat c dst.dt src.dt (prod dst.shape) (dst.buf, dst.base) (src.buf, src.base) h =
        .ok h' ∧ Stored h h' dst fun idx => c.elem dst.dt src.dt (elem h src idx) := by
  rw [assignFlat, if_neg (by rw [not_overlap hd hs hsh hcs hcd hdis]; simp)]
  have hc : dst.strides = genStrides dst.shape ∨ prod dst.shape = 0 := by
    rcases hd.strides_eq hcd with h | h
    · exact Or.inl h
    · exact Or.inr (prod_zero_of_head h)
  obtain ⟨h', h1, h2⟩ := flatLoop_stored (una (c.elem dst.dt src.dt) (h.mem 0 0)) hd hc
    [(src.buf, src.base)] (by
      intro x hx
      rw [List.mem_singleton] at hx
      subst hx
      exact source_flat hs hsh hcs hdis)
  refine ⟨h', h1, h2.size, h2.next, fun idx hv => ?_, h2.frame⟩
  rw [h2.hit idx hv]
  simp only [List.map_cons, List.map_nil, una, elem]
  rw [hs.contiguous_addr hcs (hsh ▸ hv), hsh]

theorem assignStrided_stored (c : Conv D α) {h : Heap α} {dst src : Arr D} (hd : Ok h dst)
    (hs : Ok h src) (hsh : src.shape = dst.shape) (hne : dst.shape ≠ []) (hdis : Disjoint dst src) :
    ∃ h', assignStrided c dst.dt src.dt dst.shape ⟨dst.buf, dst.base, dst.strides⟩
        ⟨src.buf, src.base, src.strides⟩ h = .ok h' ∧
      Stored h h' dst fun idx => c.elem dst.dt src.dt (elem h src idx) := by
  obtain ⟨h', h1, h2⟩ := strided_stored (una (c.elem dst.dt src.dt) (h.mem 0 0)) hd hne
    (srcs := [⟨src.buf, src.base, src.strides⟩])
    (by
      intro x hx
      rw [List.mem_singleton] at hx
      subst hx
      exact source_of hs hsh hdis)
    (by
      intro x hx
      rw [List.mem_singleton] at hx
      subst hx
      rw [← hsh]; exact hs.len)
  refine ⟨h', h1, h2.size, h2.next, fun idx hv => ?_, h2.frame⟩
  rw [h2.hit idx hv]
  rfl

/-- `AssignNDArray` copies, with conversion. -/
theorem assignNDArray_stored (c : Conv D α) {h : Heap α} {dst src : Arr D} (hd : Ok h dst)
    (hs : Ok h src) (hsh : src.shape = dst.shape) (hne : dst.shape ≠ []) (hdis : Disjoint dst src) :
    ∃ h', assignNDArray c src dst h = .ok h' ∧
      Stored h h' dst fun idx => c.elem dst.dt src.dt (elem h src idx) := by
  rw [assignNDArray]
  split
  · rename_i hc
    rw [flatCount_eq (hsh ▸ hne) hs.len (hs.strides_eq hc.1), ok_bind, hsh]
    exact assignFlat_stored c hd hs hsh hc.1 hc.2 hdis
  · rw [hsh]
    exact assignStrided_stored c hd hs hsh hne hdis

/-! ### New arrays -/

omit [DecidableEq D] in
theorem empty_mono {h : Heap α} {a : Arr D} (ha : Ok h a) (shape : List Nat) (dt : D) :
    Ok (empty h shape dt).2 a :=
  ha.mono (Nat.le_succ _) fun b hb => by simp [empty, Heap.alloc]; omega

/-- A new array `r` holds `g`, everything that existed before is as it was. -/
structure Fresh (h h' : Heap α) (r : Arr D) (sh : List Nat) (d : D) (g : List Nat → α) : Prop where
  ok : Ok h' r
  shape : r.shape = sh
  dt : r.dt = d
  buf : h.next ≤ r.buf
  next : h.next ≤ h'.next
  size : ∀ b < h.next, h'.size b = h.size b
  elem : ∀ idx, Valid sh idx → NDArray.elem h' r idx = g idx
  frame : ∀ b < h.next, ∀ o, h'.mem b o = h.mem b o

omit [DecidableEq D] in
theorem Stored.fresh {h h' : Heap α} {shape : List Nat} {dt : D} {g : List Nat → α}
    (hs : Stored (empty h shape dt).2 h' (empty h shape dt).1 g) :
    Fresh h h' (empty h shape dt).1 shape dt g where
  ok := (empty_ok h shape dt).mono (Nat.le_of_eq hs.next.symm) fun b _ => by rw [hs.size]
  shape := rfl
  dt := rfl
  buf := Nat.le_refl _
  next := by rw [hs.next]; exact Nat.le_succ _
  size b hb := by rw [hs.size]; simp [empty, Heap.alloc]; omega
  elem := hs.hit
  frame b hb o := by
    rw [hs.frame b o fun idx _ e => by
      have := (Prod.ext_iff.1 e).1
      simp [empty] at this; omega]
    simp [empty, Heap.alloc]

omit [DecidableEq D] in
/-- Arrays that existed before a new one was made are well-formed and keep their elements. -/
theorem Fresh.keeps {h h' : Heap α} {r : Arr D} {shape : List Nat} {dt : D} {g : List Nat → α}
    (hf : Fresh h h' r shape dt g) {a : Arr D} (ha : Ok h a) :
    Ok h' a ∧ ∀ idx, NDArray.elem h' a idx = NDArray.elem h a idx :=
  ⟨ha.mono hf.next hf.size, fun _ => hf.frame _ ha.buf _⟩

omit [DecidableEq D] in
theorem elem_empty (h : Heap α) (shape : List Nat) (dt : D) (a : Arr D) (idx : List Nat) :
    NDArray.elem (empty h shape dt).2 a idx = NDArray.elem h a idx := rfl

omit [DecidableEq D] in
theorem disjoint_empty {h : Heap α} {a : Arr D} (ha : Ok h a) (shape : List Nat) (dt : D) :
    Disjoint (empty h shape dt).1 a :=
  Disjoint.of_buf (by have := ha.buf; simp [empty]; omega)

/-- `contiguous` keeps the elements; the result is contiguous and nothing else has changed. -/
theorem contiguous_spec (c : Conv D α) {h : Heap α} {a : Arr D} (ha : Ok h a) :
    ∃ r h', contiguous c a h = .ok (r, h') ∧ Ok h' r ∧ r.shape = a.shape ∧ r.dt = a.dt ∧
      r.isContiguous = true ∧ (∀ idx, Valid a.shape idx → elem h' r idx = elem h a idx) ∧
      (∀ b < h.next, ∀ o, h'.mem b o = h.mem b o) ∧ h.next ≤ h'.next ∧
      (∀ b < h.next, h'.size b = h.size b) := by
  rw [contiguous]
  by_cases hc : a.isContiguous = true
  · rw [if_pos hc]
    exact ⟨a, h, rfl, ha, rfl, rfl, hc, fun _ _ => rfl, fun _ _ _ => rfl, Nat.le_refl _, fun _ _ => rfl⟩
  · rw [if_neg hc]
    have hne : a.shape ≠ [] := by
      intro e
      apply hc
      have := ha.len
      rw [e] at this
      rw [Arr.isContiguous, e, List.eq_nil_of_length_eq_zero this]
      simp [isContig, contigAux]
    obtain ⟨h', h1, h2⟩ := assignNDArray_stored c (empty_ok h a.shape a.dt)
      (empty_mono ha a.shape a.dt) rfl hne (disjoint_empty ha a.shape a.dt)
    dsimp only
    rw [h1]
    have hf := h2.fresh
    refine ⟨_, h', rfl, hf.ok, rfl, rfl, rfl, fun idx hv => ?_, hf.frame, hf.next, hf.size⟩
    rw [hf.elem idx hv, elem_empty]
    simp [Conv.elem, empty]

/-- `as_type` converts every element into a new array. -/
theorem asType_spec (c : Conv D α) {h : Heap α} {a : Arr D} (ha : Ok h a) (hne : a.shape ≠ [])
    (dt : D) : ∃ r h', asType c a dt h = .ok (r, h') ∧
      Fresh h h' r a.shape dt fun idx => c.elem dt a.dt (elem h a idx) := by
  rw [asType]
  by_cases hc : a.isContiguous = true
  · obtain ⟨h', h1, h2⟩ := assignFlat_stored c (empty_ok h a.shape dt) (empty_mono ha a.shape dt) rfl
      hc rfl (disjoint_empty ha a.shape dt)
    refine ⟨_, h', ?_, h2.fresh⟩
    dsimp only
    rw [if_pos hc, flatCount_eq hne ha.len (ha.strides_eq hc), ok_bind]
    have h1' : assignFlat c dt a.dt (prod a.shape) ((empty h a.shape dt).1.buf,
      (empty h a.shape dt).1.base) (a.buf, a.base) (empty h a.shape dt).2 = .ok h' := h1
    rw [h1']; rfl
  · obtain ⟨h', h1, h2⟩ := assignStrided_stored c (empty_ok h a.shape dt) (empty_mono ha a.shape dt)
      rfl hne (disjoint_empty ha a.shape dt)
    refine ⟨_, h', ?_, h2.fresh⟩
    dsimp only
    rw [if_neg hc]
    have h1' : assignStrided c dt a.dt (empty h a.shape dt).1.shape ⟨(empty h a.shape dt).1.buf,
      (empty h a.shape dt).1.base, (empty h a.shape dt).1.strides⟩ ⟨a.buf, a.base, a.strides⟩
      (empty h a.shape dt).2 = .ok h' := h1
    rw [h1']; rfl

end Verif.NDArray
