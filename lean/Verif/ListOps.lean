import Mathlib.Tactic.Linarith
import Mathlib.Data.List.Basic
import Verif.Slice

/-!
# List objects: method histories over a heap of list references

`List` (`src/runtime/container/list_ref.cc`, `include/matxscript/runtime/container/list_ref.h`,
`list_private.h`) is a reference to a vector, so two variables may name the same list.  The state
is a heap `Nat → List α` from references to contents; operations name references, which may
coincide.  Element equality (`Any::Equal`, `SmartEqualTo`) is an arbitrary Boolean function.
-/

namespace Verif.ListOps

open Verif.Slice (sliceIndexCorrection indexCorrection pyClamp)

variable {α : Type}

/-- References to list objects. -/
abbrev Ref := Nat
abbrev Heap (α : Type) := Ref → List α

/-- What a call shows to its caller. -/
inductive Res (α : Type)
  | unit
  | val (x : α)
  | int (n : Int)
  | bool (b : Bool)
  | raised        -- an exception
  | undefined     -- C++ undefined behaviour
deriving DecidableEq, Repr

/-- Calls of the list API. -/
inductive Op (α : Type)
  | append (a : Ref) (x : α)
  | extend (a b : Ref)
  | insert (a : Ref) (i : Int) (x : α)
  | pop (a : Ref) (i : Int)
  | remove (a : Ref) (x : α)
  | reverse (a : Ref)
  | clear (a : Ref)
  | getItem (a : Ref) (i : Int)
  | setItem (a : Ref) (i : Int) (x : α)
  | setSlice (a : Ref) (s e : Int) (b : Ref)
  | getSlice (dst a : Ref) (s e step : Int)
  | index (a : Ref) (x : α) (s e : Int)
  | count (a : Ref) (x : α)
  | contains (a : Ref) (x : α)
  | repeat_ (dst a : Ref) (n : Int)
  | concat (dst a b : Ref)
  | equal (a b : Ref)
  | len (a : Ref)

/-! ## Code -/

/-- `for (const auto& item : items) d->emplace_back(item)` — `list_ref.cc:362-368`.  The end
iterator is taken once and the space is reserved beforehand, so with `items` being the same list the
loop copies the original elements. -/
def pushAll (dst : List α) : List α → List α
  | [] => dst
  | x :: xs => pushAll (dst ++ [x]) xs

/-- `list_private.h:190-202` `ListNode::insert`. -/
def insertCode (v : List α) (index : Int) (x : α) : List α :=
  let index := indexCorrection index v.length
  let index := if index < 0 then 0 else index
  if index ≥ v.length then v ++ [x]
  else v.insertIdx index.toNat x

/-- `list_private.h:204-219` `ListNode::pop`. -/
def popCode (v : List α) (index : Int) : Option (α × List α) :=
  let index := indexCorrection index v.length
  if index ≥ 0 ∧ index < v.length then
    match v[index.toNat]? with
    | some x => some (x, v.eraseIdx index.toNat)
    | none => none
  else none

/-- `list_private.h:221-231` `ListNode::remove`: the loop with its early return. -/
def removeCode (eq : α → α → Bool) (x : α) : List α → Option (List α)
  | [] => none
  | y :: ys => if eq y x then some ys else (removeCode eq x ys).map (y :: ·)

/-- `std::find_if(begin + start, begin + end, fn) - begin` (`list_ref.cc:224-230`). -/
def findIf (eq : α → α → Bool) (x : α) (v : List α) (start stop : Nat) : Nat :=
  start + (((v.drop start).take (stop - start)).findIdx (fun y => eq y x))

/-- Conversion of a 64-bit value to `int` (32 bits, two's complement). -/
def wrapI32 (x : Int) : Int := (x + 2147483648) % 4294967296 - 2147483648

/-- `list_ref.h:195-217` `List::index`; note the local `int idx`. -/
def indexCode (eq : α → α → Bool) (x : α) (v : List α) (start stop : Int) : Option Int :=
  let len : Int := v.length
  let start := sliceIndexCorrection start len
  let stop := sliceIndexCorrection stop len
  if start ≥ stop then none
  else
    let idx := wrapI32 (findIf eq x v start.toNat stop.toNat)
    if idx = stop then none else some idx

/-- `list_ref.cc:232-245` `count_match_fn`. -/
def countCode (eq : α → α → Bool) (x : α) (v : List α) : Nat :=
  v.foldl (fun c y => if eq y x then c + 1 else c) 0

/-- `list_ref.cc:399-435` `List::repeat`: the empty, single and general branches. -/
def repeatOneLoop (x : α) : Nat → List α → List α
  | 0, acc => acc
  | n + 1, acc => repeatOneLoop x n (acc ++ [x])

/-- The general double loop of `List::repeat`. -/
def repeatLoop (v : List α) : Nat → List α → List α
  | 0, acc => acc
  | n + 1, acc => repeatLoop v n (pushAll acc v)

/-- `list_ref.cc:399-435` `List::repeat`. -/
def repeatCode (v : List α) (times : Int) : List α :=
  if times ≤ 0 then []
  else match v with
    | [] => []
    | [x] => repeatOneLoop x times.toNat []
    | _ => repeatLoop v times.toNat []

/-- `list_ref.cc:641-660` `List::Concat<false>` for two operands. -/
def concatCode (a b : List α) : List α :=
  if a.length + b.length ≤ 0 then [] else pushAll (pushAll [] a) b

/-- `list_ref.cc:608-639` `List::Concat<true>`: operands carry their use count; a first operand
used once is taken over as the result. -/
def concatMoveCode : List (Nat × List α) → List α
  | [] => []
  | (u, a) :: rest =>
    if ((u, a) :: rest).foldl (fun c p => c + p.2.length) 0 ≤ 0 then []
    else if u = 1 then rest.foldl (fun r p => pushAll r p.2) a
    else ((u, a) :: rest).foldl (fun r p => pushAll r p.2) []

/-- `list_ref.cc:143-159` `operator==`: identity shortcut, size test, element loop. -/
def equalLoop (eq : α → α → Bool) : List α → List α → Bool
  | [], _ => true
  | _ :: _, [] => true     -- not reached: sizes are equal
  | x :: xs, y :: ys => if !eq x y then false else equalLoop eq xs ys

/-- `list_ref.cc:306-330` `List::set_slice`, when the right-hand side is another list. -/
def setSliceCode (v rhs : List α) (s e : Int) : Option (List α) :=
  if s ≥ 0 ∧ e ≥ 0 ∧ s ≤ e then
    let s := (sliceIndexCorrection s v.length).toNat
    let e := (sliceIndexCorrection e v.length).toNat
    let v1 := v.take s ++ v.drop e              -- erase
    some (v1.take s ++ rhs ++ v1.drop s)        -- insert
  else none

/-- Update one reference. -/
def upd (h : Heap α) (a : Ref) (v : List α) : Heap α := fun r => if r = a then v else h r

/-- One API call, as the code executes it. -/
def stepCode (eq : α → α → Bool) (h : Heap α) : Op α → Heap α × Res α
  | .append a x => (upd h a (h a ++ [x]), .unit)                          -- list_private.h:165-168, 180-183
  | .extend a b => (upd h a (pushAll (h a) (h b)), .unit)
  | .insert a i x => (upd h a (insertCode (h a) i x), .unit)
  | .pop a i => match popCode (h a) i with
      | some (x, v) => (upd h a v, .val x)
      | none => (h, .raised)
  | .remove a x => match removeCode eq x (h a) with
      | some v => (upd h a v, .unit)
      | none => (h, .raised)
  | .reverse a => (upd h a (h a).reverse, .unit)                          -- std::reverse
  | .clear a => (upd h a [], .unit)
  | .getItem a i => match Verif.Slice.getItem (h a) i with
      | .ok x => (h, .val x)
      | .error .indexOverflow => (h, .raised)
      | .error _ => (h, .undefined)
  | .setItem a i x => match Verif.Slice.setItem (h a) i x with
      | .ok v => (upd h a v, .unit)
      | .error _ => (h, .raised)
  | .setSlice a s e b =>
      -- erase invalidates, and insert forbids, iterators into the same vector
      if a = b ∧ s ≥ 0 ∧ e ≥ 0 ∧ s ≤ e then (h, .undefined)
      else match setSliceCode (h a) (h b) s e with
        | some v => (upd h a v, .unit)
        | none => (h, .raised)
  | .getSlice dst a s e step => match Verif.Slice.listGetSlice (h a) s e step with
      | .ok v => (upd h dst v, .unit)
      | .error .stepNotPositive => (h, .raised)
      | .error _ => (h, .undefined)
  | .index a x s e => match indexCode eq x (h a) s e with
      | some i => (h, .int i)
      | none => (h, .raised)
  | .count a x => (h, .int (countCode eq x (h a)))
  | .contains a x => (h, .bool ((h a).any (fun y => eq y x)))             -- list_ref.cc:216-222
  | .repeat_ dst a n => (upd h dst (repeatCode (h a) n), .unit)
  | .concat dst a b => (upd h dst (concatCode (h a) (h b)), .unit)
  | .equal a b =>
      (h, .bool (if a = b then true else if (h a).length ≠ (h b).length then false
        else equalLoop eq (h a) (h b)))
  | .len a => (h, .int (h a).length)

/-- A history of calls. -/
def runCode (eq : α → α → Bool) : Heap α → List (Op α) → Heap α × List (Res α)
  | h, [] => (h, [])
  | h, op :: ops =>
    let (h', r) := stepCode eq h op
    let (h'', rs) := runCode eq h' ops
    (h'', r :: rs)

/-! ## Lemmas -/

theorem pushAll_eq (dst v : List α) : pushAll dst v = dst ++ v := by
  induction v generalizing dst with
  | nil => simp [pushAll]
  | cons x xs ih => rw [pushAll, ih]; simp

theorem repeatOneLoop_eq (x : α) (n : Nat) (acc : List α) :
    repeatOneLoop x n acc = acc ++ List.replicate n x := by
  induction n generalizing acc with
  | zero => simp [repeatOneLoop]
  | succ n ih => rw [repeatOneLoop, ih, List.replicate_succ]; simp

theorem repeatLoop_eq (v : List α) (n : Nat) (acc : List α) :
    repeatLoop v n acc = acc ++ (List.replicate n v).flatten := by
  induction n generalizing acc with
  | zero => simp [repeatLoop]
  | succ n ih => rw [repeatLoop, ih, pushAll_eq, List.replicate_succ]; simp

theorem repeatCode_eq (v : List α) (n : Int) :
    repeatCode v n = (List.replicate n.toNat v).flatten := by
  unfold repeatCode
  split
  · rw [show n.toNat = 0 by omega]; rfl
  · split
    · simp
    · rename_i x
      rw [repeatOneLoop_eq, List.nil_append]
      induction n.toNat with
      | zero => rfl
      | succ k ih => rw [List.replicate_succ, List.replicate_succ, ih]; simp
    · rw [repeatLoop_eq]; rfl

theorem insertIdx_eq (v : List α) (k : Nat) (x : α) (h : k ≤ v.length) :
    v.insertIdx k x = v.take k ++ x :: v.drop k := by
  induction v generalizing k with
  | nil => simp at h; subst h; rfl
  | cons y ys ih =>
    cases k with
    | zero => simp
    | succ k => simp at h; simp [ih k h]

theorem countCode_eq (eq : α → α → Bool) (x : α) (v : List α) :
    countCode eq x v = v.countP (fun y => eq y x) := by
  have key : ∀ (v : List α) (c : Nat),
      v.foldl (fun c y => if eq y x then c + 1 else c) c = c + v.countP (fun y => eq y x) := by
    intro v
    induction v with
    | nil => intro c; rfl
    | cons y ys ih =>
      intro c
      rw [List.foldl_cons, ih, List.countP_cons]
      split <;> omega
  unfold countCode
  rw [key]; omega

theorem equalLoop_eq (eq : α → α → Bool) (a b : List α) (h : a.length = b.length) :
    equalLoop eq a b = true ↔ List.Forall₂ (fun x y => eq x y = true) a b := by
  induction a generalizing b with
  | nil => cases b with
    | nil => simp [equalLoop]
    | cons => simp at h
  | cons x xs ih => cases b with
    | nil => simp at h
    | cons y ys =>
      simp at h
      simp only [equalLoop, List.forall₂_cons]
      cases hxy : eq x y <;> simp [ih ys h]

end Verif.ListOps
