import Verif.NDArray
import Mathlib.Tactic.Ring
import Mathlib.Tactic.Linarith
import Mathlib.Data.List.Basic
import Mathlib.Data.List.Nodup

/-!
# Index arithmetic and the effect of element loops on memory
-/

namespace Verif.NDArray

variable {α D : Type}

/-! ### Indices -/

/-- `idx` is a multi-index of an array with this shape. -/
def Valid : List Nat → List Nat → Prop
  | [], [] => True
  | d :: ds, i :: is => i < d ∧ Valid ds is
  | _, _ => False

/-- The inner product of an index with the strides. -/
def dot : List Nat → List Int → Int
  | i :: is, s :: ss => i * s + dot is ss
  | _, _ => 0

/-- Row-major number of a multi-index. -/
def ravel : List Nat → List Nat → Nat
  | _ :: ds, i :: is => i * prod ds + ravel ds is
  | _, _ => 0

/-- All multi-indices in row-major order. -/
def indices : List Nat → List (List Nat)
  | [] => [[]]
  | d :: ds => (List.range d).flatMap fun i => (indices ds).map (i :: ·)

/-- The address of an element. -/
def Arr.addr (a : Arr D) (idx : List Nat) : Int := a.base + dot idx a.strides

/-- The element at a multi-index. -/
def elem (h : Heap α) (a : Arr D) (idx : List Nat) : α := h.mem a.buf (a.addr idx)

theorem Valid.length {shape idx : List Nat} (h : Valid shape idx) : idx.length = shape.length := by
  induction shape generalizing idx with
  | nil => cases idx <;> simp_all [Valid]
  | cons d ds ih => cases idx with
    | nil => simp [Valid] at h
    | cons i is => simp [ih h.2]

theorem prod_nil : prod [] = 1 := rfl

theorem prod_cons (d : Nat) (ds : List Nat) : prod (d :: ds) = d * prod ds := rfl

theorem prod_append (xs ys : List Nat) : prod (xs ++ ys) = prod xs * prod ys := by
  induction xs with
  | nil => simp [prod_nil]
  | cons x xs ih => simp only [List.cons_append, prod_cons, ih]; ring

theorem genStrides_cons (d : Nat) (ds : List Nat) :
    genStrides (d :: ds) = (prod ds : Int) :: genStrides ds := by
  induction ds generalizing d with
  | nil => simp [genStrides, prod_nil]
  | cons e es ih =>
    rw [genStrides, ih e]
    simp only [List.headD_cons, prod_cons, List.cons.injEq, and_true]
    push_cast; ring

theorem genStrides_length (shape : List Nat) : (genStrides shape).length = shape.length := by
  induction shape with
  | nil => rfl
  | cons d ds ih => simp [genStrides_cons, ih]

theorem dot_genStrides {shape idx : List Nat} : dot idx (genStrides shape) = ravel shape idx := by
  induction shape generalizing idx with
  | nil => cases idx <;> simp [genStrides, dot, ravel]
  | cons d ds ih => cases idx with
    | nil => simp [dot, ravel]
    | cons i is => simp [genStrides_cons, dot, ravel, ih]

theorem contigAux_genStrides (shape : List Nat) :
    contigAux shape (genStrides shape) = some (prod shape : Int) := by
  induction shape with
  | nil => simp [contigAux, prod_nil]
  | cons d ds ih =>
    rw [genStrides_cons, contigAux, ih]
    simp only [if_true, prod_cons]
    push_cast; rw [Int.mul_comm]

theorem contigAux_some {shape : List Nat} {strides : List Int} {e : Int}
    (hl : strides.length = shape.length) (h : contigAux shape strides = some e) :
    strides = genStrides shape ∧ e = prod shape := by
  induction shape generalizing strides e with
  | nil => cases strides <;> simp_all [contigAux, genStrides, prod_nil]
  | cons d ds ih => cases strides with
    | nil => simp at hl
    | cons s ss =>
      rw [contigAux] at h
      cases hc : contigAux ds ss with
      | none => simp [hc] at h
      | some e' =>
        obtain ⟨h1, h2⟩ := ih (by simpa using hl) hc
        simp only [hc] at h
        split at h
        · rename_i hs
          simp only [Option.some.injEq] at h
          refine ⟨?_, ?_⟩
          · rw [genStrides_cons, ← h1, ← h2, hs]
          · rw [← h, h2, prod_cons]; push_cast; ring
        · simp at h

theorem isContig_iff {shape : List Nat} {strides : List Int}
    (hl : strides.length = shape.length) :
    isContig shape strides = true ↔ strides = genStrides shape := by
  unfold isContig
  constructor
  · intro h
    obtain ⟨e, he⟩ := Option.isSome_iff_exists.1 h
    exact (contigAux_some hl he).1
  · rintro rfl
    rw [contigAux_genStrides]; rfl

theorem Valid.ravel_lt {shape idx : List Nat} (h : Valid shape idx) : ravel shape idx < prod shape := by
  induction shape generalizing idx with
  | nil => cases idx <;> simp_all [Valid, ravel, prod_nil]
  | cons d ds ih => cases idx with
    | nil => simp [Valid] at h
    | cons i is =>
      have := ih h.2
      have h1 := h.1
      simp only [ravel, prod_cons]
      calc i * prod ds + ravel ds is < i * prod ds + prod ds := by omega
        _ = (i + 1) * prod ds := by ring
        _ ≤ d * prod ds := Nat.mul_le_mul_right _ h1

theorem ravel_inj {shape idx idx' : List Nat} (h : Valid shape idx) (h' : Valid shape idx')
    (e : ravel shape idx = ravel shape idx') : idx = idx' := by
  induction shape generalizing idx idx' with
  | nil => cases idx <;> cases idx' <;> simp_all [Valid]
  | cons d ds ih => cases idx with
    | nil => simp [Valid] at h
    | cons i is => cases idx' with
      | nil => simp [Valid] at h'
      | cons j js =>
        simp only [ravel] at e
        have r1 := h.2.ravel_lt
        have r2 := h'.2.ravel_lt
        have hij : i = j := by
          have e1 : (i * prod ds + ravel ds is) / prod ds = i := by
            rw [Nat.mul_comm, Nat.mul_add_div (by omega), Nat.div_eq_of_lt r1, Nat.add_zero]
          have e2 : (j * prod ds + ravel ds js) / prod ds = j := by
            rw [Nat.mul_comm, Nat.mul_add_div (by omega), Nat.div_eq_of_lt r2, Nat.add_zero]
          rw [← e1, e, e2]
        subst hij
        rw [ih h.2 h'.2 (by omega)]

theorem range_flatMap_add (n m : Nat) :
    ((List.range n).flatMap fun i => (List.range m).map fun j => i * m + j) = List.range (n * m) := by
  induction n with
  | zero => simp
  | succ n ih =>
    rw [List.range_succ, List.flatMap_append, ih, Nat.succ_mul, List.range_add]
    simp

theorem indices_ravel (shape : List Nat) :
    (indices shape).map (ravel shape) = List.range (prod shape) := by
  induction shape with
  | nil => simp [indices, ravel, prod_nil]
  | cons d ds ih =>
    rw [indices, List.map_flatMap, prod_cons, ← range_flatMap_add]
    congr 1
    funext i
    rw [List.map_map, ← ih, List.map_map]
    rfl

theorem mem_indices {shape idx : List Nat} : idx ∈ indices shape ↔ Valid shape idx := by
  induction shape generalizing idx with
  | nil => cases idx <;> simp [indices, Valid]
  | cons d ds ih => cases idx with
    | nil => simp [indices, Valid]
    | cons i is =>
      simp only [indices, List.mem_flatMap, List.mem_range, List.mem_map, Valid, List.cons.injEq]
      constructor
      · rintro ⟨j, hj, x, hx, rfl, rfl⟩; exact ⟨hj, ih.1 hx⟩
      · rintro ⟨hi, hv⟩; exact ⟨i, hi, is, ih.2 hv, rfl, rfl⟩

theorem indices_nodup (shape : List Nat) : (indices shape).Nodup :=
  List.Nodup.of_map (ravel shape) (by rw [indices_ravel]; exact List.nodup_range)

theorem ravel_surj {shape : List Nat} {k : Nat} (h : k < prod shape) :
    ∃ idx, Valid shape idx ∧ ravel shape idx = k := by
  have : k ∈ (indices shape).map (ravel shape) := by rw [indices_ravel]; exact List.mem_range.2 h
  obtain ⟨idx, h1, h2⟩ := List.mem_map.1 this
  exact ⟨idx, mem_indices.1 h1, h2⟩

theorem not_valid_of_prod_zero {shape idx : List Nat} (h : prod shape = 0) : ¬ Valid shape idx := by
  intro hv
  have := hv.ravel_lt
  omega

theorem Valid.append {s1 s2 i1 i2 : List Nat} (h1 : Valid s1 i1) (h2 : Valid s2 i2) :
    Valid (s1 ++ s2) (i1 ++ i2) := by
  induction s1 generalizing i1 with
  | nil => cases i1 <;> simp_all [Valid]
  | cons d ds ih => cases i1 with
    | nil => simp [Valid] at h1
    | cons i is => exact ⟨h1.1, ih h1.2⟩

theorem valid_append_split {s1 s2 i : List Nat} (h : Valid (s1 ++ s2) i) :
    ∃ i1 i2, i = i1 ++ i2 ∧ Valid s1 i1 ∧ Valid s2 i2 := by
  induction s1 generalizing i with
  | nil => exact ⟨[], i, rfl, trivial, h⟩
  | cons d ds ih => cases i with
    | nil => simp [Valid] at h
    | cons i is =>
      obtain ⟨i1, i2, rfl, h1, h2⟩ := ih h.2
      exact ⟨i :: i1, i2, rfl, ⟨h.1, h1⟩, h2⟩

theorem dot_append {i1 i2 : List Nat} {s1 s2 : List Int} (h : i1.length = s1.length) :
    dot (i1 ++ i2) (s1 ++ s2) = dot i1 s1 + dot i2 s2 := by
  induction i1 generalizing s1 with
  | nil => cases s1 <;> simp_all [dot]
  | cons i is ih => cases s1 with
    | nil => simp at h
    | cons s ss =>
      simp only [List.cons_append, dot]
      rw [ih (by simpa using h)]; ring

theorem valid_iff_getD {shape idx : List Nat} : Valid shape idx ↔
    idx.length = shape.length ∧ ∀ k < shape.length, idx.getD k 0 < shape.getD k 0 := by
  induction shape generalizing idx with
  | nil => cases idx <;> simp [Valid]
  | cons d ds ih => cases idx with
    | nil => simp [Valid]
    | cons i is =>
      simp only [Valid, ih, List.length_cons, Nat.add_right_cancel_iff]
      constructor
      · rintro ⟨h0, h1, h2⟩
        refine ⟨h1, fun k hk => ?_⟩
        cases k with
        | zero => simpa using h0
        | succ k => simpa using h2 k (by omega)
      · rintro ⟨h1, h2⟩
        refine ⟨by simpa using h2 0 (by omega), h1, fun k hk => ?_⟩
        simpa using h2 (k + 1) (by omega)

/-! ### Element loops -/

@[simp] theorem ok_bind {β γ : Type} (x : β) (f : β → Res γ) : (Except.ok x >>= f) = f x := rfl
@[simp] theorem error_bind {β γ : Type} (e : Err) (f : β → Res γ) :
    ((Except.error e : Res β) >>= f) = .error e := rfl
@[simp] theorem pure_eq_ok {β : Type} (x : β) : (pure x : Res β) = .ok x := rfl

theorem bind_assoc' {β γ δ : Type} (x : Res β) (f : β → Res γ) (g : γ → Res δ) :
    (x >>= f) >>= g = x >>= fun y => f y >>= g := by cases x <;> rfl

/-- One iteration: load the sources, store the destination. -/
def cell (f : List α → α) (p : (Nat × Int) × List (Nat × Int)) (h : Heap α) : Res (Heap α) := do
  let vs ← p.2.mapM fun c => h.read c.1 c.2
  h.write p.1.1 p.1.2 (f vs)

/-- A sequence of iterations. -/
def cells (f : List α → α) : List ((Nat × Int) × List (Nat × Int)) → Heap α → Res (Heap α)
  | [], h => .ok h
  | p :: ps, h => do
    let h ← cell f p h
    cells f ps h

theorem cells_append (f : List α → α) (xs ys : List ((Nat × Int) × List (Nat × Int)))
    (h : Heap α) : cells f (xs ++ ys) h = cells f xs h >>= cells f ys := by
  induction xs generalizing h with
  | nil => rfl
  | cons x xs ih =>
    simp only [List.cons_append, cells, bind_assoc']
    cases cell f x h with
    | error e => rfl
    | ok h1 => simp [ih]

theorem cells_single (f : List α → α) (p : (Nat × Int) × List (Nat × Int)) (h : Heap α) :
    cells f [p] h = cell f p h := by
  simp only [cells]
  cases cell f p h <;> rfl

theorem forN_cells (f : List α → α) (n : Nat) (L : Nat → List ((Nat × Int) × List (Nat × Int)))
    (g : Nat → Heap α → Res (Heap α)) (hg : ∀ i < n, ∀ h, g i h = cells f (L i) h) (h : Heap α) :
    forN n g h = cells f ((List.range n).flatMap L) h := by
  induction n with
  | zero => rfl
  | succ n ih =>
    rw [forN, ih (fun i hi => hg i (by omega)), List.range_succ, List.flatMap_append, cells_append]
    simp only [List.flatMap_cons, List.flatMap_nil, List.append_nil]
    cases cells f ((List.range n).flatMap L) h with
    | error e => rfl
    | ok h1 => simp [hg n (by omega)]

theorem flatLoop_cells (f : List α → α) (n : Nat) (dst : Nat × Int) (srcs : List (Nat × Int))
    (h : Heap α) : flatLoop f n dst srcs h = cells f ((List.range n).map fun (i : Nat) =>
      ((dst.1, dst.2 + i), srcs.map fun c => (c.1, c.2 + i))) h := by
  rw [flatLoop, forN_cells f n (fun i => [((dst.1, dst.2 + i), srcs.map fun c => (c.1, c.2 + i))])]
  · simp [List.flatMap_singleton']
    congr 1
    induction List.range n with
    | nil => rfl
    | cons x xs ih => simp [ih]
  · intro i _ h
    rw [cells_single, cell]
    simp [List.mapM_map, Function.comp_def]

theorem dot_cursor (i : Nat) (is : List Nat) (s : List Int) (hs : s ≠ []) :
    dot (i :: is) s = i * s.headD 0 + dot is s.tail := by
  cases s with
  | nil => exact absurd rfl hs
  | cons s ss => rfl

/-- The iterations of a strided walk. -/
def walkCells (shape : List Nat) (dst : Cursor) (srcs : List Cursor) :
    List ((Nat × Int) × List (Nat × Int)) :=
  (indices shape).map fun idx => ((dst.buf, dst.off + dot idx dst.strides),
    srcs.map fun c => (c.buf, c.off + dot idx c.strides))

theorem strided_cells (f : List α → α) (shape : List Nat) (hne : shape ≠ []) (dst : Cursor)
    (srcs : List Cursor) (hd : dst.strides.length = shape.length)
    (hs : ∀ c ∈ srcs, c.strides.length = shape.length) (h : Heap α) :
    strided f shape dst srcs h = cells f (walkCells shape dst srcs) h := by
  induction shape generalizing dst srcs h with
  | nil => exact absurd rfl hne
  | cons n rest ih => cases rest with
    | nil =>
      rw [strided, forN_cells f n (fun i => [((dst.buf, dst.off + i * dst.strides.headD 0),
        srcs.map fun c => (c.buf, c.off + i * c.strides.headD 0))])]
      · congr 1
        rw [walkCells, indices, List.map_flatMap]
        congr 1
        funext i
        simp only [indices, List.map_cons, List.map_nil, List.cons.injEq, and_true, Prod.mk.injEq,
          true_and]
        refine ⟨?_, ?_⟩
        · rw [dot_cursor _ _ _ (by intro e; simp [e] at hd)]; simp [dot]
        · refine List.map_congr_left fun c hc => ?_
          rw [dot_cursor _ _ _ (by intro e; have := hs c hc; simp [e] at this)]; simp [dot]
      · intro i _ h
        rw [cells_single, cell]
        simp [List.mapM_map, Function.comp_def]
    | cons d ds =>
      rw [strided, forN_cells f n (fun i => walkCells (d :: ds) (dst.step i) (srcs.map (·.step i)))]
      · congr 1
        rw [walkCells, indices, List.map_flatMap]
        congr 1
        funext i
        simp only [walkCells, List.map_map, Function.comp_def, Cursor.step]
        refine List.map_congr_left fun idx _ => ?_
        simp only [Prod.mk.injEq, true_and]
        refine ⟨?_, ?_⟩
        · rw [dot_cursor _ _ _ (by intro e; simp [e] at hd)]; ring
        · refine List.map_congr_left fun c hc => ?_
          rw [dot_cursor _ _ _ (by intro e; have := hs c hc; simp [e] at this)]
          simp only [Prod.mk.injEq, true_and]; ring
      · intro i _ h
        refine ih (by simp) _ _ ?_ ?_ h
        · simp [Cursor.step, hd]
        · intro c hc
          obtain ⟨c', h1, rfl⟩ := List.mem_map.1 hc
          simp [Cursor.step, hs c' h1]

/-- The address lies in its buffer. -/
def Heap.In (h : Heap α) (p : Nat × Int) : Prop := 0 ≤ p.2 ∧ p.2 < h.size p.1

theorem read_of_in {h : Heap α} {p : Nat × Int} (hp : h.In p) : h.read p.1 p.2 = .ok (h.mem p.1 p.2) :=
  if_pos hp

theorem mapM_read (h : Heap α) (l : List (Nat × Int)) (hl : ∀ p ∈ l, h.In p) :
    (l.mapM fun c => h.read c.1 c.2) = .ok (l.map fun c => h.mem c.1 c.2) := by
  induction l with
  | nil => rfl
  | cons p ps ih =>
    rw [List.mapM_cons, read_of_in (hl p (by simp)), ih (fun q hq => hl q (by simp [hq]))]
    rfl

/-- The result of writing `f` of the sources to the destination of every listed iteration. -/
structure Written (f : List α → α) (L : List ((Nat × Int) × List (Nat × Int))) (h h' : Heap α) :
    Prop where
  size : h'.size = h.size
  next : h'.next = h.next
  at_dst : ∀ p ∈ L, h'.mem p.1.1 p.1.2 = f (p.2.map fun c => h.mem c.1 c.2)
  frame : ∀ b o, (∀ p ∈ L, p.1 ≠ (b, o)) → h'.mem b o = h.mem b o

theorem cells_written (f : List α → α) : ∀ (L : List ((Nat × Int) × List (Nat × Int))) (h : Heap α),
    (∀ p ∈ L, h.In p.1 ∧ ∀ c ∈ p.2, h.In c) → (L.map Prod.fst).Nodup →
    (∀ p ∈ L, ∀ c ∈ p.2, c ∉ L.map Prod.fst) →
    ∃ h', cells f L h = .ok h' ∧ Written f L h h'
  | [], h, _, _, _ => ⟨h, rfl, rfl, rfl, by simp, by simp⟩
  | p :: L, h, hin, hnd, hdis => by
    have hp := hin p (by simp)
    have h1 : cell f p h = .ok (h.set p.1.1 p.1.2 (f (p.2.map fun c => h.mem c.1 c.2))) := by
      rw [cell, mapM_read h p.2 hp.2]
      exact if_pos hp.1
    obtain ⟨h', e, W⟩ := cells_written f L
      (h.set p.1.1 p.1.2 (f (p.2.map fun c => h.mem c.1 c.2)))
      (fun q hq => hin q (by simp [hq])) (by simpa using hnd.tail)
      (fun q hq c hc hm => hdis q (by simp [hq]) c hc (by simp at hm ⊢; exact Or.inr hm))
    refine ⟨h', by rw [cells, h1]; exact e, W.size.trans rfl, W.next.trans rfl, ?_, ?_⟩
    · intro q hq
      rcases List.mem_cons.1 hq with rfl | hq
      · rw [W.frame]
        · simp [Heap.set]
        · intro r hr hre
          simp only [List.map_cons, List.nodup_cons] at hnd
          exact hnd.1 (List.mem_map.2 ⟨r, hr, hre⟩)
      · rw [W.at_dst q hq]
        congr 1
        refine List.map_congr_left fun c hc => ?_
        have : c ≠ p.1 := fun hce => hdis q (by simp [hq]) c hc (by simp [hce])
        simp only [Heap.set]
        rw [if_neg]
        intro hh
        exact this (Prod.ext hh.1 hh.2)
    · intro b o hb
      rw [W.frame b o fun q hq => hb q (by simp [hq])]
      have := hb p (by simp)
      simp only [Heap.set]
      rw [if_neg]
      rintro ⟨rfl, rfl⟩
      exact this rfl

/-- The flat loop visits the same cells as the strided walk over row-major data. -/
theorem flat_eq_walk (shape : List Nat) (db : Nat) (doff : Int) (srcs : List (Nat × Int)) :
    ((List.range (prod shape)).map fun (i : Nat) =>
      ((db, doff + i), srcs.map fun c => (c.1, c.2 + (i : Int)))) =
    walkCells shape ⟨db, doff, genStrides shape⟩
      (srcs.map fun c => ⟨c.1, c.2, genStrides shape⟩) := by
  rw [walkCells, ← indices_ravel, List.map_map]
  refine List.map_congr_left fun idx _ => ?_
  simp [dot_genStrides, Function.comp_def]

end Verif.NDArray
