import Mathlib.Data.List.Dedup

/-!
# NDArray: strided views, copies, assignment, arithmetic

Model of `/repo/src/runtime/container/ndarray.cc`, `ndarray_helper.cc`, `ndarray_operator.cc` and of
the list constructor in `/repo/src/runtime/generic/generic_constructor_funcs.cc`.

Memory is a family of buffers, each with a size in elements; every read and write of an element is
checked and an access outside the buffer is the outcome `bad`, as is reading `shape[0]` of an array
without dimensions and `memcpy` between overlapping regions.  `raise` is an exception.

Simplifications: offsets are counted in elements, not bytes (all views of a buffer have its data
type); dimensions are natural numbers and sizes do not overflow; conversions between data types and
the arithmetic on elements are arbitrary functions; only CPU arrays; `bool` arrays, for which
`MATX_NDARRAY_TYPE_SWITCH` raises in every function modelled here but the constructor, are left out;
reference counts are not modelled (a buffer lives as long as a view of it).
-/

namespace Verif.NDArray

/-- The two ways an operation can fail: an exception, or undefined behaviour. -/
inductive Err where
  | raise
  | bad
  deriving DecidableEq, Repr

/-- Outcome of an operation. -/
abbrev Res (β : Type) := Except Err β

/-- Element storage: contents and number of elements of every buffer, and the next free buffer. -/
structure Heap (α : Type) where
  mem : Nat → Int → α
  size : Nat → Nat
  next : Nat

variable {α D : Type}

/-- Load of one element. -/
def Heap.read (h : Heap α) (b : Nat) (o : Int) : Res α :=
  if 0 ≤ o ∧ o < h.size b then .ok (h.mem b o) else .error .bad

/-- The contents after a store. -/
def Heap.set (h : Heap α) (b : Nat) (o : Int) (v : α) : Heap α :=
  { h with mem := fun b' o' => if b' = b ∧ o' = o then v else h.mem b' o' }

/-- Store of one element. -/
def Heap.write (h : Heap α) (b : Nat) (o : Int) (v : α) : Res (Heap α) :=
  if 0 ≤ o ∧ o < h.size b then .ok (h.set b o v) else .error .bad

/-- Allocation of a buffer of `n` elements with arbitrary contents. -/
def Heap.alloc (h : Heap α) (n : Nat) : Nat × Heap α :=
  (h.next, { h with size := fun b => if b = h.next then n else h.size b, next := h.next + 1 })

/-- `NDArray::Container` (`/repo/include/matxscript/runtime/container/ndarray_private.h` lines
34-75): `data` and `byte_offset` of the `DLTensor`, `shape_`, `strides_`; `compact` is
`dl_tensor.strides == nullptr`. -/
structure Arr (D : Type) where
  buf : Nat
  data : Int
  boff : Int
  shape : List Nat
  strides : List Int
  compact : Bool
  dt : D
  deriving DecidableEq

/-- The address computed by all readers: `static_cast<char*>(data) + byte_offset`. -/
def Arr.base (a : Arr D) : Int := a.data + a.boff

/-- `for (i = 0; i < n; ++i) s = f(i, s)`. -/
def forN {σ : Type} : Nat → (Nat → σ → Res σ) → σ → Res σ
  | 0, _, s => .ok s
  | n + 1, f, s => do
    let s ← forN n f s
    f n s

/-! ### Shapes and strides -/

/-- `GetDataSize`, `ElementSize`, `GetItemNum` in elements (ndarray.cc lines 135-142). -/
def prod (shape : List Nat) : Nat := shape.foldr (· * ·) 1

/-- `IsContiguous(shape, strides, ndim)` (ndarray.cc lines 144-156): from the last dimension, the
expected stride after the dimensions seen, or `none` after a mismatch. -/
def contigAux : List Nat → List Int → Option Int
  | [], _ => some 1
  | d :: ds, s :: ss => match contigAux ds ss with
    | some e => if s = e then some (e * d) else none
    | none => none
  | _ :: _, [] => none

/-- The result of `IsContiguous(shape, strides, ndim)`. -/
def isContig (shape : List Nat) (strides : List Int) : Bool := (contigAux shape strides).isSome

/-- `IsContiguous(const DLTensor&)` (ndarray.cc lines 158-163). -/
def Arr.isContiguous (a : Arr D) : Bool := a.compact || isContig a.shape a.strides

/-- `NDArray::GenStridesFromShape` (ndarray.cc lines 763-776). -/
def genStrides : List Nat → List Int
  | [] => []
  | [_] => [1]
  | _ :: d :: ds => ((genStrides (d :: ds)).headD 0 * d) :: genStrides (d :: ds)

/-- `NDArray::Empty` (ndarray.cc lines 778-788). -/
def empty (h : Heap α) (shape : List Nat) (dt : D) : Arr D × Heap α :=
  ({ buf := h.next, data := 0, boff := 0, shape := shape, strides := genStrides shape,
     compact := true, dt := dt }, (h.alloc (prod shape)).2)

/-- `index_correction` (`container_slice_helper.h` lines 31-33). -/
def indexCorrection (i : Int) (len : Nat) : Int := if i < 0 then i + len else i

/-- `slice_index_correction` (`container_slice_helper.h` lines 26-29). -/
def sliceCorrection (i : Int) (len : Nat) : Int :=
  if i < 0 then (if i < -(len : Int) then 0 else i + len) else (if i > len then len else i)

/-! ### Reading and views -/

/-- What indexing returns: a number or a view. -/
inductive Item (α D : Type) where
  | scalar (v : α)
  | view (a : Arr D)
  deriving DecidableEq

/-- `NDArray::get_item(int64_t)` (ndarray.cc lines 900-928); `Internal::Create(shape, ndim, strides)`
(lines 474-507) sets the strides pointer unless the strides are contiguous. -/
def getItem (h : Heap α) (a : Arr D) (i : Int) : Res (Item α D) :=
  match a.shape, a.strides with
  | d :: ds, s :: ss =>
    let idx := indexCorrection i d
    if ¬ (0 ≤ idx ∧ idx < d) then .error .raise
    else if ds.length = 0 then do
      let v ← h.read a.buf (a.data + a.boff + idx * s)
      return .scalar v
    else .ok (.view { a with data := a.data + s * idx, shape := ds, strides := ss,
                             compact := isContig ds ss })
  | _, _ => .error .bad

/-- The pointer walk of `fused_get_item` and `fused_set_item` (ndarray.cc lines 1024-1032): one
dimension per index. -/
def walkIdx : List Int → List Nat → List Int → Int → Res Int
  | [], _, _, p => .ok p
  | i :: is, d :: ds, s :: ss, p =>
    let idx := indexCorrection i d
    if ¬ (0 ≤ idx ∧ idx < d) then .error .raise else walkIdx is ds ss (p + s * idx)
  | _ :: _, _, _, _ => .error .bad

/-- `NDArray::fused_get_item` (ndarray.cc lines 1018-1052). -/
def fusedGetItem (h : Heap α) (a : Arr D) (is : List Int) : Res (Item α D) :=
  if a.shape.length < is.length then .error .raise
  else do
    let p ← walkIdx is a.shape a.strides (a.data + a.boff)
    if a.shape.length = is.length then
      let v ← h.read a.buf p
      return .scalar v
    else
      return .view { a with data := p, boff := 0, shape := a.shape.drop is.length,
                            strides := a.strides.drop is.length,
                            compact := isContig (a.shape.drop is.length)
                              (a.strides.drop is.length) }

/-- `NDArray::get_slice` (ndarray.cc lines 1417-1446).  The empty slice has a null data pointer. -/
def getSlice (a : Arr D) (b e step : Int) : Res (Arr D) :=
  if ¬ (0 < step) then .error .raise
  else match a.shape, a.strides with
  | d :: ds, s :: ss =>
    let b := sliceCorrection b d
    let e := sliceCorrection e d
    if e ≤ b then .ok { a with data := 0, boff := 0, shape := 0 :: ds, compact := true }
    else
      let shape := ((e - b + step - 1) / step).toNat :: ds
      let strides := (s * step) :: ss
      .ok { a with data := a.data + s * b, shape := shape, strides := strides,
                   compact := isContig shape strides }
  | _, _ => .error .bad

/-- The default axes and the checks of `NDArray::transpose` (ndarray.cc lines 1477-1514). -/
def permutation (n : Nat) : Option (List Int) → Res (List Nat)
  | none => .ok (List.range n).reverse
  | some l =>
    if l.length ≠ n then .error .raise
    else if l.all fun i => 0 ≤ indexCorrection i n ∧ indexCorrection i n < n then
      .ok (l.map fun i => (indexCorrection i n).toNat)
    else .error .raise

/-- `NDArray::transpose` (ndarray.cc lines 1477-1535); the set of the axes has `ndim` elements. -/
def transpose (a : Arr D) (axes : Option (List Int)) : Res (Arr D) := do
  let p ← permutation a.shape.length axes
  if p.dedup.length ≠ a.shape.length then .error .raise
  else
    let shape := p.map fun k => a.shape.getD k 0
    let strides := p.map fun k => a.strides.getD k 0
    return { a with shape := shape, strides := strides, compact := isContig shape strides }

/-- The scan of `Reshape` for the unknown dimension (ndarray.cc lines 570-580): the product of the
given ones and whether there is an unknown one. -/
def scanShape : List Int → Res (Nat × Bool)
  | [] => .ok (1, false)
  | d :: ds => do
    let (g, u) ← scanShape ds
    if d < 0 then (if u then .error .raise else return (g, true)) else return (d.toNat * g, u)

/-- `NDArray::CreateView` (ndarray.cc lines 721-737). -/
def createView (a : Arr D) (shape : List Nat) : Res (Arr D) :=
  if ¬ a.compact then .error .raise
  else if prod shape > prod a.shape then .error .raise
  else .ok { a with shape := shape, strides := genStrides shape, compact := true }

/-- `NDArray::Reshape` (ndarray.cc lines 556-590): there is no check that the unknown dimension
comes out even. -/
def reshape (a : Arr D) (newshape : List Int) : Res (Arr D) :=
  if ¬ a.isContiguous then .error .raise
  else do
    let (given, unknown) ← scanShape newshape
    if ¬ unknown ∧ given ≠ prod a.shape then .error .raise
    else if given = 0 ∧ unknown then .error .raise
    else createView a (newshape.map fun d => if d < 0 then prod a.shape / given else d.toNat)

/-- The scan of `Squeeze` with axes (ndarray.cc lines 640-660): `i` is the current axis. -/
def squeezeScan : List Nat → Nat → List Int → Res (List Nat)
  | shape, _, [] => .ok shape
  | [], _, _ :: _ => .error .raise
  | d :: ds, i, j :: js =>
    if (i : Int) = j then
      (if d = 1 then squeezeScan ds (i + 1) js else .error .raise)
    else do
      let r ← squeezeScan ds (i + 1) (j :: js)
      return d :: r

/-- Insertion into a sorted list, for `partial_sort_copy`. -/
def insertSorted (x : Int) : List Int → List Int
  | [] => [x]
  | y :: ys => if x ≤ y then x :: y :: ys else y :: insertSorted x ys

/-- `partial_sort_copy` of all the axes. -/
def sortAxes (l : List Int) : List Int := l.foldr insertSorted []

/-- `NDArray::Squeeze` (ndarray.cc lines 626-661). -/
def squeeze (a : Arr D) (axes : List Int) : Res (Arr D) :=
  if axes.isEmpty then reshape a ((a.shape.filter (· ≠ 1)).map Int.ofNat)
  else do
    let shape ← squeezeScan a.shape 0 (sortAxes axes)
    reshape a (shape.map Int.ofNat)

/-- `NDArray::Unsqueeze` (ndarray.cc lines 690-703). -/
def unsqueeze (a : Arr D) (dim : Int) : Res (Arr D) :=
  let n : Int := a.shape.length
  if ¬ (-n - 1 ≤ dim ∧ dim < n + 1) then .error .raise
  else
    let k := (if dim < 0 then dim + n + 1 else dim).toNat
    reshape a ((a.shape.take k ++ 1 :: a.shape.drop k).map Int.ofNat)

/-! ### Python lists -/

/-- Values a list may hold, as far as arrays are concerned. -/
inductive Py (α : Type) where
  | num (v : α)
  | list (l : List (Py α))
  | other

/-- `ToListImpl` (ndarray.cc lines 385-403). -/
def toListImpl (h : Heap α) (b : Nat) : List Nat → List Int → Int → Res (List (Py α))
  | [], _, _ => .ok []
  | [n], s :: _, off => (List.range n).mapM fun (i : Nat) => do
      let v ← h.read b (off + i * s)
      return .num v
  | n :: d :: ds, s :: ss, off => (List.range n).mapM fun (i : Nat) => do
      let l ← toListImpl h b (d :: ds) ss (off + i * s)
      return .list l
  | _ :: _, [], _ => .error .bad

/-- `NDArray::ToList` (ndarray.cc lines 407-418). -/
def toList (h : Heap α) (a : Arr D) : Res (List (Py α)) :=
  toListImpl h a.buf a.shape a.strides (a.data + a.boff)

/-- `NDArray::size` (ndarray.cc lines 1468-1475). -/
def size (a : Arr D) : Nat := a.shape.headD 0

/-- Iteration (`NDArrayIteratorNode`, ndarray.cc lines 70-115): `get_item(pos)` for each position. -/
def iterate (h : Heap α) (a : Arr D) : Res (List (Item α D)) :=
  (List.range (size a)).mapM fun (i : Nat) => getItem h a i

/-- `ListHelper::FirstShape` (`/repo/src/runtime/container/list_helper.cc` lines 55-67). -/
def firstShape : Py α → Option (List Nat)
  | .list [] => none
  | .list (x :: xs) => match x with
    | .list l => (firstShape (.list l)).map ((xs.length + 1) :: ·)
    | _ => some [xs.length + 1]
  | _ => some []

mutual
/-- `ListHelper::IsNDArrayImpl` (`/repo/include/matxscript/runtime/container/list_helper.h` lines
73-105): appends the numbers and checks lengths against `shape`, the part of the shape from the
current depth on.  The numbers appended so far are returned in either case, as they have been
written to the target. -/
def flat : Py α → List Nat → List α → Bool × List α
  | .num v, shape, acc => if shape.length ≠ 0 then (false, acc) else (true, acc ++ [v])
  | .list l, shape, acc =>
    if l.isEmpty then (false, acc)
    else match shape with
      | [] => (false, acc)
      | d :: ds => if l.length ≠ d then (false, acc) else flatAll l ds acc
  | .other, _, acc => (false, acc)
/-- The loop over the elements of a list. -/
def flatAll : List (Py α) → List Nat → List α → Bool × List α
  | [], _, acc => (true, acc)
  | x :: xs, shape, acc => match flat x shape acc with
    | (true, acc) => flatAll xs shape acc
    | (false, acc) => (false, acc)
end

/-! ### Copies -/

/-- Conversions: `cast d s` is the C++ conversion from element type `s` to `d`, `store d` the
conversion of a Python number to `d`. -/
structure Conv (D α : Type) where
  cast : D → D → α → α
  store : D → α → α

/-- `dst = src` between elements: no conversion between equal types. -/
def Conv.elem [DecidableEq D] (c : Conv D α) (d s : D) (v : α) : α :=
  if d = s then v else c.cast d s v

/-- A pointer into a buffer with the strides to walk it. -/
structure Cursor where
  buf : Nat
  off : Int
  strides : List Int
  deriving DecidableEq

/-- The cursor at index `i` of the first dimension: `data + i * strides[0]`, `strides + 1`. -/
def Cursor.step (c : Cursor) (i : Nat) : Cursor :=
  { c with off := c.off + i * c.strides.headD 0, strides := c.strides.tail }

/-- The function applied to two loaded elements (`OP::Map`). -/
def bin (f : α → α → α) (dflt : α) : List α → α
  | [x, y] => f x y
  | _ => dflt

/-- The function applied to one loaded element (a conversion, or an operator with a number). -/
def una (f : α → α) (dflt : α) : List α → α
  | [x] => f x
  | _ => dflt

/-- The recursion shared by the templates `Assign` (ndarray.cc lines 1113-1135), `ScalarAssign` and
`BinaryAssign` (`ndarray_operator.cc` lines 51-103): they differ in the number of source pointers
and in the function applied.  With no dimensions the code reads `shape[0]`. -/
def strided (f : List α → α) : List Nat → Cursor → List Cursor → Heap α → Res (Heap α)
  | [], _, _, _ => .error .bad
  | [n], dst, srcs, h => forN n (fun i h => do
      let vs ← srcs.mapM fun c => h.read c.buf (c.off + i * c.strides.headD 0)
      h.write dst.buf (dst.off + i * dst.strides.headD 0) (f vs)) h
  | n :: d :: ds, dst, srcs, h => forN n (fun i h =>
      strided f (d :: ds) (dst.step i) (srcs.map (·.step i)) h) h

/-- The loop over compact data: `Assign(dst, src, element_num)` (ndarray.cc lines 1138-1143) and the
loops of `contiguous_binary_nd` and `contiguous_binary_scalar` (`ndarray_operator.cc` lines
171-207). -/
def flatLoop (f : List α → α) (n : Nat) (dst : Nat × Int) (srcs : List (Nat × Int)) (h : Heap α) :
    Res (Heap α) :=
  forN n (fun i h => do
    let vs ← srcs.mapM fun c => h.read c.1 (c.2 + i)
    h.write dst.1 (dst.2 + i) (f vs)) h

/-- Whether `memcpy` of `n` elements is undefined: the regions overlap. -/
def overlap (n : Nat) (dst src : Nat × Int) : Bool :=
  dst.1 = src.1 ∧ dst.2 < src.2 + n ∧ src.2 < dst.2 + n

/-- The two overloads of `Assign` for compact data (ndarray.cc lines 1137-1148): `memcpy` for equal
types, an element loop otherwise. -/
def assignFlat [DecidableEq D] (c : Conv D α) (dd sd : D) (n : Nat) (dst src : Nat × Int)
    (h : Heap α) : Res (Heap α) :=
  if dd = sd ∧ overlap n dst src then .error .bad
  else flatLoop (una (c.elem dd sd) (h.mem 0 0)) n dst [src] h

/-- The general `Assign` (ndarray.cc lines 1113-1135). -/
def assignStrided [DecidableEq D] (c : Conv D α) (dd sd : D) (shape : List Nat) (dst src : Cursor)
    (h : Heap α) : Res (Heap α) :=
  strided (una (c.elem dd sd) (h.mem 0 0)) shape dst [src] h

/-- `shape[0] * strides[0]`, the number of elements of compact data. -/
def flatCount (shape : List Nat) (strides : List Int) : Res Nat :=
  match shape, strides with
  | d :: _, s :: _ => .ok (d * s).toNat
  | _, _ => .error .bad

/-- `NDArray::AssignNDArray` (ndarray.cc lines 1581-1606). -/
def assignNDArray [DecidableEq D] (c : Conv D α) (src dst : Arr D) (h : Heap α) : Res (Heap α) :=
  if src.isContiguous ∧ dst.isContiguous then do
    let n ← flatCount src.shape src.strides
    assignFlat c dst.dt src.dt n (dst.buf, dst.base) (src.buf, src.base) h
  else
    assignStrided c dst.dt src.dt src.shape ⟨dst.buf, dst.base, dst.strides⟩
      ⟨src.buf, src.base, src.strides⟩ h

/-- `NDArray::Contiguous` (ndarray.cc lines 1610-1625). -/
def contiguous [DecidableEq D] (c : Conv D α) (a : Arr D) (h : Heap α) : Res (Arr D × Heap α) :=
  if a.isContiguous then .ok (a, h)
  else do
    let (r, h) := empty h a.shape a.dt
    let h ← assignNDArray c a r h
    return (r, h)

/-- `NDArray::as_type` (ndarray.cc lines 1537-1568). -/
def asType [DecidableEq D] (c : Conv D α) (a : Arr D) (dt : D) (h : Heap α) :
    Res (Arr D × Heap α) := do
  let (r, h) := empty h a.shape dt
  if a.isContiguous then
    let n ← flatCount a.shape a.strides
    let h ← assignFlat c dt a.dt n (r.buf, r.base) (a.buf, a.base) h
    return (r, h)
  else
    let h ← assignStrided c dt a.dt r.shape ⟨r.buf, r.base, r.strides⟩ ⟨a.buf, a.base, a.strides⟩ h
    return (r, h)

/-- `NDArray::operator==` (ndarray.cc lines 203-237) for two different objects: `memcmp` starts at
`data` without `byte_offset`.  Bytes of two elements of one type are equal iff `same` says so. -/
def equal [DecidableEq D] (same : α → α → Bool) (h : Heap α) (a b : Arr D) : Res Bool :=
  if ¬ a.isContiguous ∨ ¬ b.isContiguous then .error .raise
  else if a.shape ≠ b.shape then .ok false
  else if a.dt = b.dt then
    forN (prod a.shape) (fun i r => do
      let x ← h.read a.buf (a.data + i)
      let y ← h.read b.buf (b.data + i)
      return r && same x y) true
  else .ok false

/-! ### Assignment -/

/-- The right-hand side of an item or slice assignment. -/
inductive Value (α D : Type) where
  | num (v : α)
  | arr (a : Arr D)
  | list (l : List (Py α))
  | other

/-- A buffer that holds the numbers of a list (`SimpleVec`). -/
def Heap.ofList (h : Heap α) (l : List α) : Nat × Heap α :=
  (h.next, { mem := fun b o => if b = h.next then (l[o.toNat]?).getD (h.mem b o) else h.mem b o
             size := fun b => if b = h.next then l.length else h.size b
             next := h.next + 1 })

/-- `NDArray::set_item_helper` (ndarray.cc lines 1150-1211); the destination is an array record for
the region written.  The numbers of a list go to a temporary of `prod shape` elements first. -/
def setHelper [DecidableEq D] (c : Conv D α) (dst : Arr D) (item : Value α D) (h : Heap α) :
    Res (Heap α) :=
  match item with
  | .arr src =>
    if dst.shape ≠ src.shape then .error .raise
    else if isContig dst.shape dst.strides ∧ src.isContiguous then do
      let n ← flatCount dst.shape dst.strides
      assignFlat c dst.dt src.dt n (dst.buf, dst.base) (src.buf, src.base) h
    else
      assignStrided c dst.dt src.dt dst.shape ⟨dst.buf, dst.base, dst.strides⟩
        ⟨src.buf, src.base, src.strides⟩ h
  | .list l =>
    match firstShape (.list l) with
    | none => .error .raise
    | some shape => match flat (.list l) shape [] with
      | (false, vs) => if prod shape < vs.length then .error .bad else .error .raise
      | (true, vs) =>
        if prod shape < vs.length then .error .bad
        else if dst.shape ≠ shape then .error .raise
        else
          let (b, h) := h.ofList (vs.map (c.store dst.dt))
          if isContig dst.shape dst.strides then do
            let n ← flatCount dst.shape dst.strides
            assignFlat c dst.dt dst.dt n (dst.buf, dst.base) (b, 0) h
          else
            assignStrided c dst.dt dst.dt dst.shape ⟨dst.buf, dst.base, dst.strides⟩
              ⟨b, 0, genStrides shape⟩ h
  | _ => .error .raise

/-- `NDArray::set_item(int64_t, ...)` (ndarray.cc lines 1213-1275). -/
def setItem [DecidableEq D] (c : Conv D α) (a : Arr D) (i : Int) (item : Value α D) (h : Heap α) :
    Res (Heap α) :=
  match item with
  | .num v =>
    if a.shape.length ≠ 1 then .error .raise
    else match a.shape, a.strides with
      | d :: _, s :: _ =>
        let idx := indexCorrection i d
        if ¬ (0 ≤ idx ∧ idx < d) then .error .raise
        else h.write a.buf (a.base + s * idx) (c.store a.dt v)
      | _, _ => .error .bad
  | item => match a.shape, a.strides with
    | d :: ds, s :: ss =>
      let idx := indexCorrection i d
      if ¬ (0 ≤ idx ∧ idx < d) then .error .raise
      else setHelper c { a with data := a.base + s * idx, boff := 0, shape := ds, strides := ss }
        item h
    | _, _ => .error .bad

/-- `NDArray::fused_set_item` (ndarray.cc lines 1326-1411): the number of indices is only checked
for a number. -/
def fusedSetItem [DecidableEq D] (c : Conv D α) (a : Arr D) (is : List Int) (item : Value α D)
    (h : Heap α) : Res (Heap α) :=
  match item with
  | .num v =>
    if is.length ≠ a.shape.length then .error .raise
    else do
      let p ← walkIdx is a.shape a.strides a.base
      h.write a.buf p (c.store a.dt v)
  | item => do
    let p ← walkIdx is a.shape a.strides a.base
    setHelper c { a with data := p, boff := 0, shape := a.shape.drop is.length,
                         strides := a.strides.drop is.length } item h

/-- `NDArray::set_slice` (ndarray.cc lines 1448-1466). -/
def setSlice [DecidableEq D] (c : Conv D α) (a : Arr D) (b e : Int) (item : Value α D)
    (h : Heap α) : Res (Heap α) :=
  match a.shape, a.strides with
  | d :: ds, s :: ss =>
    let b := sliceCorrection b d
    let e := sliceCorrection e d
    if e ≤ b then .ok h
    else setHelper c { a with data := a.base + s * b, boff := 0,
                              shape := (e - b).toNat :: ds, strides := s :: ss } item h
  | _, _ => .error .bad

/-! ### Arithmetic -/

/-- `NDArrayHelper::GetBroadcastShape` (`ndarray_helper.cc` lines 117-150) on reversed shapes. -/
def broadcastRev : List Nat → List Nat → Option (List Nat)
  | [], ys => some ys
  | xs, [] => some xs
  | x :: xs, y :: ys =>
    let d := if x = y then some x else if x = 1 then some y else if y = 1 then some x else none
    match d, broadcastRev xs ys with
    | some d, some r => some (d :: r)
    | _, _ => none

/-- `NDArrayHelper::GetBroadcastShape`. -/
def broadcastShape (s1 s2 : List Nat) : Option (List Nat) :=
  (broadcastRev s1.reverse s2.reverse).map List.reverse

/-- `broadcast_stride` (`ndarray_operator.cc` lines 105-120). -/
def broadcastStride (bdim : Nat) (shape : List Nat) (strides : List Int) : List Int :=
  List.replicate (bdim - shape.length) 0 ++
    List.zipWith (fun d s => if d > 1 then s else 0) shape strides

/-- `Add`, `Sub`, `Mul`, `Div` of two arrays (`ndarray_operator.cc` lines 209-300): `f` is the
operator on elements with its conversions, `dt` the promoted type. -/
def binary (f : α → α → α) (dt : D) (l r : Arr D) (h : Heap α) : Res (Arr D × Heap α) :=
  if l.shape = r.shape ∧ l.isContiguous ∧ r.isContiguous then do
    let (t, h) := empty h l.shape dt
    let h ← flatLoop (bin f (h.mem 0 0)) (prod t.shape) (t.buf, t.base)
      [(l.buf, l.base), (r.buf, r.base)] h
    return (t, h)
  else match broadcastShape l.shape r.shape with
    | none => .error .raise
    | some shape => do
      let (t, h) := empty h shape dt
      let h ← strided (bin f (h.mem 0 0)) shape ⟨t.buf, t.base, t.strides⟩
        [⟨l.buf, l.base, broadcastStride shape.length l.shape l.strides⟩,
         ⟨r.buf, r.base, broadcastStride shape.length r.shape r.strides⟩] h
      return (t, h)

/-- The operators between an array and a number (`ndarray_operator.cc` lines 218-310). -/
def scalarOp (f : α → α) (dt : D) (a : Arr D) (h : Heap α) : Res (Arr D × Heap α) :=
  let (t, h) := empty h a.shape dt
  if a.isContiguous then do
    let h ← flatLoop (una f (h.mem 0 0)) (prod t.shape) (t.buf, t.base) [(a.buf, a.base)] h
    return (t, h)
  else do
    let h ← strided (una f (h.mem 0 0)) t.shape ⟨t.buf, t.base, t.strides⟩
      [⟨a.buf, a.base, a.strides⟩] h
    return (t, h)

/-! ### Concatenation -/

/-- The shape computed by `Concatenate` (`ndarray_helper.cc` lines 251-277). -/
def concatShape (axis : Nat) : List Nat → List (Arr D) → Res (List Nat)
  | shape, [] => .ok shape
  | shape, a :: as =>
    if a.shape.length ≠ shape.length then .error .raise
    else if (List.range shape.length).all fun k =>
        k = axis ∨ shape.getD k 0 = a.shape.getD k 0 then
      concatShape axis (shape.set axis (shape.getD axis 0 + a.shape.getD axis 0)) as
    else .error .raise

/-- The loop of `Concatenate` over the arrays (`ndarray_helper.cc` lines 279-292): `view` is the
sliding view, whose strides pointer is set. -/
def concatLoop [DecidableEq D] (c : Conv D α) (axis : Nat) :
    Arr D → List (Arr D) → Heap α → Res (Heap α)
  | _, [], h => .ok h
  | view, a :: as, h => do
    let n := a.shape.getD axis 0
    let view := { view with shape := view.shape.set axis n }
    let h ← assignNDArray c a view h
    concatLoop c axis { view with boff := view.boff + n * view.strides.getD axis 0 } as h

/-- `NDArrayOperate::Concatenate` (`ndarray_helper.cc` lines 216-295); an axis out of range converts
`None` to an array, which raises. -/
def concatenate [DecidableEq D] (c : Conv D α) (arrays : List (Arr D)) (axis : Int) (h : Heap α) :
    Res (Arr D × Heap α) :=
  match arrays with
  | [] => .error .raise
  | a0 :: rest =>
    if a0.shape.length = 0 then .error .raise
    else
      let ax := indexCorrection axis a0.shape.length
      if ax < 0 ∨ (a0.shape.length : Int) ≤ ax then .error .raise
      else do
        let shape ← concatShape ax.toNat a0.shape rest
        let (r, h) := empty h shape a0.dt
        let h ← concatLoop c ax.toNat { r with compact := false } (a0 :: rest) h
        return (r, h)

/-- The loop of `Stack` over the arrays (`ndarray_helper.cc` lines 355-377). -/
def stackLoop [DecidableEq D] (c : Conv D α) (axis : Nat) (dt : D) (shape : List Nat) (count : Nat)
    (buf : Nat) (axisStride : Int) (strides : List Int) :
    Nat → List (Arr D) → Heap α → Res (Heap α)
  | _, [], h => .ok h
  | i, a :: as, h => do
    let h ← if a.isContiguous ∧ axis = 0 then
        assignFlat c dt a.dt count (buf, i * axisStride) (a.buf, a.base) h
      else
        assignStrided c dt a.dt shape ⟨buf, i * axisStride, strides⟩ ⟨a.buf, a.base, a.strides⟩ h
    stackLoop c axis dt shape count buf axisStride strides (i + 1) as h

/-- `NDArrayOperate::Stack` (`ndarray_helper.cc` lines 297-380). -/
def stack [DecidableEq D] (c : Conv D α) (arrays : List (Arr D)) (axis : Int) (h : Heap α) :
    Res (Arr D × Heap α) :=
  match arrays with
  | [] => .error .raise
  | a0 :: rest =>
    if ¬ rest.all (fun a => a.shape = a0.shape) then .error .raise
    else
      let n := a0.shape.length + 1
      let ax := indexCorrection axis n
      if ax < 0 ∨ (n : Int) ≤ ax then .error .raise
      else do
        let k := ax.toNat
        let shape := a0.shape.take k ++ (rest.length + 1) :: a0.shape.drop k
        let (r, h) := empty h shape a0.dt
        let h ← stackLoop c k a0.dt a0.shape (prod a0.shape) r.buf (r.strides.getD k 0)
          (r.strides.eraseIdx k) 0 (a0 :: rest) h
        return (r, h)

/-! ### Construction from lists -/

/-- The general case of `Kernel_NDArray::make` (`generic_constructor_funcs.cc` lines 706-740).  The
numbers are written to the new buffer as they are visited, before the shape of the rest of the list
is known; `flat` returns them in that order. -/
def makeNested (c : Conv D α) (l : List (Py α)) (shape : List Nat) (dt : D) (h : Heap α) :
    Res (Arr D × Heap α) :=
  match firstShape (.list l) with
  | none => .error .raise
  | some ls =>
    let ok := shape = [] ∨ (ls.length = 1 ∧ ls.headD 0 = prod shape) ∨ ls = shape
    if ¬ ok then .error .raise
    else do
      let (r, h) := empty h (if shape = [] then ls else shape) dt
      let (ok, vs) := flat (.list l) ls []
      let h ← forN vs.length (fun i h => match vs[i]? with
        | some v => h.write r.buf i (c.store dt v)
        | none => .error .bad) h
      if ok then return (r, h) else .error .raise

/-- `Kernel_NDArray::make(list, shape, dtype, ctx)` for a Python list on the CPU
(`generic_constructor_funcs.cc` lines 688-740). -/
def make (c : Conv D α) (l : List (Py α)) (shape : List Nat) (dt : D) (h : Heap α) :
    Res (Arr D × Heap α) :=
  match l, shape with
  | [.num v], _ :: _ => do
    let (r, h) := empty h shape dt
    let h ← forN (prod shape) (fun i h => h.write r.buf i (c.store dt v)) h
    return (r, h)
  | [], _ :: _ => .ok (empty h shape dt)
  | [], [] => .error .raise
  | l, shape => makeNested c l shape dt h

end Verif.NDArray
