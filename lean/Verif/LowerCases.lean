import Verif.LowerProps

/-!
A small set of primitives (integers, lists on a heap, two logging functions) that meets all
assumptions, and on it

* functions that are compiled faithfully (the theorems of `LowerProps.lean` apply), and
* functions on which the generated code and Python differ, although left-to-right evaluation of
  C++ arguments is assumed. -/

namespace Verif.Lower

deriving instance DecidableEq, Repr for Res

/-- Heap of lists and a log of calls. -/
abbrev DW := List (List Val) × List String

instance : DecidableEq (Res DW) := inferInstance

/-- Reduction to `int64_t`. -/
def wrap (i : Int) : Int := Int.bmod i (2 ^ 64)

def demoCall (f : String) (vs : List Val) (w : DW) : Except Val Val × DW :=
  if f = "add" then
    match vs with
    | [.int a, .int b] => (.ok (.int (wrap (a + b))), w)
    | _ => (.error (.err "TypeError"), w)
  else if f = "iadd" then
    match vs with
    | [.int a, .int b] => (.ok (.int (wrap (a + b))), w)
    | _ => (.error (.err "TypeError"), w)
  else if f = "lt" then
    match vs with
    | [.int a, .int b] => (.ok (.bool (decide (a < b))), w)
    | _ => (.ok (.bool false), w)
  else if f = "eq" then (.ok (.bool (decide (vs[0]? = vs[1]?))), w)
  else if f = "f" then
    match vs with
    | [] => (.ok (.int 1), (w.1, w.2 ++ ["f"]))
    | _ => (.error (.err "TypeError"), w)
  else if f = "g" then
    match vs with
    | [] => (.ok (.int 2), (w.1, w.2 ++ ["g"]))
    | _ => (.error (.err "TypeError"), w)
  else if f = "list" ∨ f = "tuple" then (.ok (.obj w.1.length), (w.1 ++ [vs], w.2))
  else if f = "len" then
    match vs with
    | [.obj p] => (.ok (.int (wrap (w.1.getD p []).length)), w)
    | _ => (.error (.err "TypeError"), w)
  else if f = "contains" then
    match vs with
    | [.obj p, v] => (.ok (.bool (decide (v ∈ w.1.getD p []))), w)
    | _ => (.error (.err "TypeError"), w)
  else if f = "getitem" then
    match vs with
    | [.obj p, .int i] =>
      match (w.1.getD p [])[i.toNat]? with
      | some v => (.ok v, w)
      | Option.none => (.error (.err "IndexError"), w)
    | _ => (.error (.err "TypeError"), w)
  else if f = "setitem" then
    match vs with
    | [.obj p, .int i, v] => (.ok .none, (w.1.modify p fun l => l.set i.toNat v, w.2))
    | _ => (.error (.err "TypeError"), w)
  else if f = "append" then
    match vs with
    | [.obj p, v] => (.ok .none, (w.1.modify p fun l => l ++ [v], w.2))
    | _ => (.error (.err "TypeError"), w)
  else if f = "ladd" then
    match vs with
    | [.obj p, .obj q] =>
      (.ok (.obj w.1.length), (w.1 ++ [w.1.getD p [] ++ w.1.getD q []], w.2))
    | _ => (.error (.err "TypeError"), w)
  else if f = "iladd" then
    match vs with
    | [.obj p, .obj q] => (.ok (.obj p), (w.1.modify p fun l => l ++ w.1.getD q [], w.2))
    | _ => (.error (.err "TypeError"), w)
  else (.error (.err "TypeError"), w)

def D : Prims DW where
  call := demoCall
  ret f := if f = "add" ∨ f = "f" ∨ f = "g" ∨ f = "len" then .int
    else if f = "lt" ∨ f = "eq" ∨ f = "contains" then .bool else .obj
  sig f := if f = "add" ∨ f = "lt" then [.int, .int] else []
  pure f := f = "add" || f = "lt"
  truthObj w p := !(w.1.getD p []).isEmpty
  items w v := match v with
    | .obj p => w.1[p]?
    | _ => Option.none
  isInst _ _ := false

theorem wrap_range (i : Int) : i64min ≤ wrap i ∧ wrap i ≤ i64max := by
  have h1 := Int.le_bmod (x := i) (m := 2 ^ 64) (by decide)
  have h2 := Int.bmod_lt (x := i) (m := 2 ^ 64) (by decide)
  unfold wrap i64min i64max
  constructor
  · refine Int.le_trans (by decide) h1
  · refine Int.le_of_lt_add_one (Int.lt_of_lt_of_le h2 (by decide))

theorem D_ok : PrimsOk D := by
  refine ⟨?_, ?_, ?_⟩
  · intro f vs w v w' h
    have hobj : HasTy .obj v := hasTy_obj v
    simp only [D] at h
    unfold demoCall at h
    by_cases e : f = "add"
    · rw [if_pos e] at h
      subst e
      revert h
      split <;> intro h <;> simp only [Prod.mk.injEq, Except.ok.injEq, reduceCtorEq, false_and] at h <;>
        exact h.1 ▸ wrap_range _
    rw [if_neg e] at h
    clear e
    by_cases e : f = "iadd"
    · rw [if_pos e] at h
      subst e
      exact hobj
    rw [if_neg e] at h
    clear e
    by_cases e : f = "lt"
    · rw [if_pos e] at h
      subst e
      revert h
      split <;> intro h <;> simp only [Prod.mk.injEq, Except.ok.injEq, reduceCtorEq, false_and] at h <;>
        exact h.1 ▸ trivial
    rw [if_neg e] at h
    clear e
    by_cases e : f = "eq"
    · rw [if_pos e] at h
      subst e
      simp only [Prod.mk.injEq, Except.ok.injEq] at h
      exact h.1 ▸ trivial
    rw [if_neg e] at h
    clear e
    by_cases e : f = "f"
    · rw [if_pos e] at h
      subst e
      revert h
      split <;> intro h <;> simp only [Prod.mk.injEq, Except.ok.injEq, reduceCtorEq, false_and] at h <;>
        exact h.1 ▸ (by decide +kernel : i64min ≤ _ ∧ _ ≤ i64max)
    rw [if_neg e] at h
    clear e
    by_cases e : f = "g"
    · rw [if_pos e] at h
      subst e
      revert h
      split <;> intro h <;> simp only [Prod.mk.injEq, Except.ok.injEq, reduceCtorEq, false_and] at h <;>
        exact h.1 ▸ (by decide +kernel : i64min ≤ _ ∧ _ ≤ i64max)
    rw [if_neg e] at h
    clear e
    by_cases e : f = "list" ∨ f = "tuple"
    · rw [if_pos e] at h
      rcases e with rfl | rfl <;> exact hobj
    rw [if_neg e] at h
    clear e
    by_cases e : f = "len"
    · rw [if_pos e] at h
      subst e
      revert h
      split <;> intro h <;> simp only [Prod.mk.injEq, Except.ok.injEq, reduceCtorEq, false_and] at h <;>
        exact h.1 ▸ wrap_range _
    rw [if_neg e] at h
    clear e
    by_cases e : f = "contains"
    · rw [if_pos e] at h
      subst e
      revert h
      split <;> intro h <;> simp only [Prod.mk.injEq, Except.ok.injEq, reduceCtorEq, false_and] at h <;>
        exact h.1 ▸ trivial
    rw [if_neg e] at h
    clear e
    by_cases e : f = "getitem"
    · rw [if_pos e] at h
      subst e
      exact hobj
    rw [if_neg e] at h
    clear e
    by_cases e : f = "setitem"
    · rw [if_pos e] at h
      subst e
      exact hobj
    rw [if_neg e] at h
    clear e
    by_cases e : f = "append"
    · rw [if_pos e] at h
      subst e
      exact hobj
    rw [if_neg e] at h
    clear e
    by_cases e : f = "ladd"
    · rw [if_pos e] at h
      subst e
      exact hobj
    rw [if_neg e] at h
    clear e
    by_cases e : f = "iladd"
    · rw [if_pos e] at h
      subst e
      exact hobj
    rw [if_neg e] at h
    clear e
    simp at h
  · intro f vs hp hs
    simp only [D, Bool.or_eq_true, decide_eq_true_eq] at hp hs
    rw [if_pos hp] at hs
    cases hs with
    | cons h1 hs =>
    cases hs with
    | cons h2 hs =>
    cases hs
    obtain ⟨a, rfl⟩ := hasTy_int h1
    obtain ⟨b, rfl⟩ := hasTy_int h2
    rcases hp with rfl | rfl
    · exact ⟨.int (wrap (a + b)), by funext w; simp [D, demoCall, pur]⟩
    · exact ⟨.bool (decide (a < b)), by funext w; simp [D, demoCall, pur]⟩
  · intro op a b h
    funext w
    simp only [D] at h
    split at h
    · rename_i hop
      rcases hop with rfl | rfl | rfl | rfl
      · simp [D, demoCall, inplace]
      · simp [D, demoCall, inplace]
      · simp [D, demoCall, inplace]
      · simp [D, demoCall, inplace]
    · split at h <;> cases h

/-- Arguments from left to right. -/
def ltr (l : List IExpr) : List Nat := List.range l.length

theorem ltr_ok : OrdOk ltr := fun _ => List.Perm.refl _

/-- Run the compiled function and the source. -/
def both (f : Fn) (args : List Val) (w : DW) : Option (Res DW × Res DW) :=
  (compile D f).map fun code =>
    (callIR D ltr 20 code f.params.length args w, callPy D 20 f args w)

/-- The compiled function and its source differ. -/
def Differs (f : Fn) (args : List Val) (w : DW) : Prop :=
  ∃ code, compile D f = some code ∧ ArgsOk f args ∧
    callIR D ltr 20 code f.params.length args w ≠ callPy D 20 f args w

theorem differs_of {f : Fn} {args : List Val} {w : DW} {a b : Res DW}
    (h : both f args w = some (a, b)) (hn : ArgsOk f args) (hab : a ≠ b) : Differs f args w := by
  obtain ⟨code, hc, e⟩ := Option.map_eq_some_iff.mp h
  simp only [Prod.mk.injEq] at e
  exact ⟨code, hc, hn, by rw [e.1, e.2]; exact hab⟩

theorem hasInt {i : Int} (h : i64min ≤ i ∧ i ≤ i64max) : HasTy .int (.int i) := h

def seqs : List Stmt → Stmt
  | [] => .skip
  | [s] => s
  | s :: ss => .seq s (seqs ss)

def emptyW : DW := ([], [])

/-! ## A function that is compiled faithfully -/

/-- `def total(n): s = 0; for i in range(0, n): if i < 3: s += i else: s, t = t, s ...`. -/
def total : Fn where
  params := [("n", .int)]
  rty := .int
  body := seqs [
    .assign (.name "s") (.const (.int 0)),
    .assign (.name "t") (.const (.int 100)),
    .forRange "i" (.const (.int 0)) (.name "n") (.const (.int 1))
      (.ifS (.compare [.rel "lt", .rel "lt"] [.const (.int 0), .name "i", .const (.int 4)])
        (.augName "s" "add" (.name "i"))
        (.assignTup [.name "s", .name "t"] [.name "t", .name "s"])) .skip,
    .ret (.name "s")]

example : (compile D total).isSome = true ∧ safeFn D total = true ∧ tame total.body = true ∧
    keepsAll total.body = true := by decide +kernel

example : both total [.int 6] emptyW =
    some (.val (.int 106) emptyW, .val (.int 106) emptyW) := by decide +kernel

/-- The theorems apply to it: for every argument and order of C++ arguments. -/
example (ord : List IExpr → List Nat) (ho : OrdOk ord) (n : Int) (hn : i64min ≤ n ∧ n ≤ i64max)
    (fuel : Nat) (w : DW) (code : IStmt) (hc : compile D total = some code) :
    callIR D ord fuel code 1 [.int n] w = callPy D fuel total [.int n] w :=
  compiled_eq_python_tame D_ok ho hc (by decide +kernel) (by decide +kernel)
    ⟨by decide, .cons (hasInt hn) .nil⟩ fuel w

/-- `def first(l): for x in l: if x: return x; return 0`: a loop over a list. -/
def first : Fn where
  params := [("l", .obj)]
  rty := .obj
  body := seqs [
    .forIn "x" (.name "l") (.ifS (.name "x") (.ret (.name "x")) .skip) .skip,
    .ret (.const (.int 0))]

example : safeFn D first = true ∧ both first [.obj 0] ([[.int 0, .int 7, .int 8]], []) =
    some (.val (.int 7) ([[.int 0, .int 7, .int 8]], []),
      .val (.int 7) ([[.int 0, .int 7, .int 8]], [])) := by decide +kernel

/-- `def late(c): if c: y = 1; return y` is not accepted: `y` may have no value. -/
def late : Fn where
  params := [("c", .bool)]
  rty := .obj
  body := seqs [.ifS (.name "c") (.assign (.name "y") (.const (.int 1))) .skip, .ret (.name "y")]

example : (compile D late).isNone = true := by decide +kernel

example : callPy D 5 late [.bool false] emptyW = .exc (.err "UnboundLocalError") emptyW := by
  decide +kernel

/-- `if l and l[0]: return 1` with an empty list: the condition stops at `l`. -/
def guarded : Fn where
  params := [("l", .obj)]
  rty := .obj
  body := seqs [
    .ifS (.boolop true [.name "l", .call "getitem" [.name "l", .const (.int 0)]])
      (.ret (.const (.int 1))) .skip,
    .ret (.const (.int 2))]

example : safeFn D guarded = true ∧ both guarded [.obj 0] ([[]], []) =
    some (.val (.int 2) ([[]], []), .val (.int 2) ([[]], [])) := by decide +kernel

/-! ## Functions on which they differ -/

/-- `return l and l[0]`: both operands of `and` are evaluated unless they are of type `bool`. -/
def andFn : Fn where
  params := [("l", .obj)]
  rty := .obj
  body := .ret (.boolop true [.name "l", .call "getitem" [.name "l", .const (.int 0)]])

theorem and_or_short_circuit_refuted : Differs andFn [.obj 0] ([[]], []) :=
  differs_of (a := .exc (.err "IndexError") ([[]], [])) (b := .val (.obj 0) ([[]], []))
    (by decide +kernel) ⟨by decide, .cons trivial .nil⟩ (by decide)

/-- `return 0 < f() < 5` calls `f` twice. -/
def chainTwice : Fn where
  params := []
  rty := .bool
  body := .ret (.compare [.rel "lt", .rel "lt"] [.const (.int 0), .call "f" [], .const (.int 5)])

theorem chain_operand_once_refuted : Differs chainTwice [] emptyW :=
  differs_of (a := .val (.bool true) ([], ["f", "f"])) (b := .val (.bool true) ([], ["f"]))
    (by decide +kernel) ⟨by decide, .nil⟩ (by decide)

/-- `return a < b in l` tests only `b in l`. -/
def chainIn : Fn where
  params := [("a", .int), ("b", .int), ("l", .obj)]
  rty := .bool
  body := .ret (.compare [.rel "lt", .isIn] [.name "a", .name "b", .name "l"])

theorem chain_in_drops_refuted : Differs chainIn [.int 2, .int 1, .obj 0] ([[.int 1]], []) :=
  differs_of (a := .val (.bool true) ([[.int 1]], [])) (b := .val (.bool false) ([[.int 1]], []))
    (by decide +kernel)
    ⟨by decide, .cons (hasInt (by decide +kernel)) (.cons (hasInt (by decide +kernel)) (.cons trivial .nil))⟩
    (by decide)

/-- `a[f()] += 1` evaluates the index twice. -/
def augTwice : Fn where
  params := [("a", .obj)]
  rty := .obj
  body := .augStore "setitem" "getitem" [.name "a", .call "f" []] "add" (.const (.int 1))

theorem aug_target_once_refuted : Differs augTwice [.obj 0] ([[.int 5, .int 6]], []) :=
  differs_of (a := .val .none ([[.int 5, .int 7]], ["f", "f"]))
    (b := .val .none ([[.int 5, .int 7]], ["f"]))
    (by decide +kernel) ⟨by decide, .cons trivial .nil⟩ (by decide)

/-- `b = a; a += c; return b`: a new list is made, `b` does not see the elements. -/
def augAlias : Fn where
  params := [("a", .obj), ("c", .obj)]
  rty := .int
  body := seqs [
    .assign (.name "b") (.name "a"),
    .augName "a" "ladd" (.name "c"),
    .ret (.call "len" [.name "b"])]

theorem aug_alias_refuted : Differs augAlias [.obj 0, .obj 1] ([[.int 1], [.int 2]], []) :=
  differs_of (a := .val (.int 1) ([[.int 1], [.int 2], [.int 1, .int 2]], []))
    (b := .val (.int 2) ([[.int 1, .int 2], [.int 2]], []))
    (by decide +kernel) ⟨by decide, .cons trivial (.cons trivial .nil)⟩ (by decide)

/-- `a, b = a`: the second element is taken from the new `a`. -/
def unpackSelf : Fn where
  params := [("a", .obj)]
  rty := .obj
  body := seqs [.unpack [.name "a", .name "b"] (.name "a"), .ret (.name "b")]

theorem unpack_self_refuted :
    Differs unpackSelf [.obj 0] ([[.obj 1, .int 7], [.int 5, .int 6]], []) :=
  differs_of (a := .val (.int 6) ([[.obj 1, .int 7], [.int 5, .int 6]], []))
    (b := .val (.int 7) ([[.obj 1, .int 7], [.int 5, .int 6]], []))
    (by decide +kernel) ⟨by decide, .cons trivial .nil⟩ (by decide)

/-- `x, y = a` with three elements raises another exception. -/
def unpackLen : Fn where
  params := [("a", .obj)]
  rty := .obj
  body := seqs [.unpack [.name "x", .name "y"] (.name "a"), .ret (.name "x")]

theorem unpack_length_refuted : Differs unpackLen [.obj 0] ([[.int 1, .int 2, .int 3]], []) :=
  differs_of (a := .exc (.err "AssertionError") ([[.int 1, .int 2, .int 3]], []))
    (b := .exc (.err "ValueError") ([[.int 1, .int 2, .int 3]], []))
    (by decide +kernel) ⟨by decide, .cons trivial .nil⟩ (by decide)

/-- `for i in range(n): n = n + -1; s = s + 1` reads the changing `n` before every iteration. -/
def rangeStop : Fn where
  params := [("n", .int)]
  rty := .int
  body := seqs [
    .assign (.name "s") (.const (.int 0)),
    .forRange "i" (.const (.int 0)) (.name "n") (.const (.int 1))
      (seqs [.assign (.name "n") (.call "add" [.name "n", .const (.int (-1))]),
        .assign (.name "s") (.call "add" [.name "s", .const (.int 1)])]) .skip,
    .ret (.name "s")]

theorem range_stop_reread_refuted : Differs rangeStop [.int 4] emptyW :=
  differs_of (a := .val (.int 2) emptyW) (b := .val (.int 4) emptyW)
    (by decide +kernel) ⟨by decide, .cons (hasInt (by decide +kernel)) .nil⟩ (by decide)

/-- `for i in range(0, n, 0)` does not raise, it runs forever. -/
def rangeZero : Fn where
  params := [("n", .int)]
  rty := .int
  body := seqs [
    .forRange "i" (.const (.int 0)) (.name "n") (.const (.int 0)) .skip .skip,
    .ret (.const (.int 1))]

theorem range_step_zero_refuted : Differs rangeZero [.int 4] emptyW :=
  differs_of (a := .tmo) (b := .exc (.err "ValueError") emptyW)
    (by decide +kernel) ⟨by decide, .cons (hasInt (by decide +kernel)) .nil⟩ (by decide)

/-- An `else` of a loop inside a `while` is accepted, and dropped. -/
def elseDropped : Fn where
  params := []
  rty := .obj
  body := seqs [
    .whileS (.const (.bool true))
      (seqs [
        .forRange "i" (.const (.int 0)) (.const (.int 1)) (.const (.int 1)) .skip
          (.ret (.const (.int 1))),
        .ret (.const (.int 2))]) .skip,
    .ret (.const (.int 3))]

theorem loop_else_rejected_refuted : Differs elseDropped [] emptyW :=
  differs_of (a := .val (.int 2) emptyW) (b := .val (.int 1) emptyW)
    (by decide +kernel) ⟨by decide, .nil⟩ (by decide)

/-- A `finally` inside a loop over a range is accepted, and dropped. -/
def finallyDropped : Fn where
  params := []
  rty := .obj
  body := seqs [
    .forRange "i" (.const (.int 0)) (.const (.int 1)) (.const (.int 1))
      (.tryS (.ret (.const (.int 1))) Option.none (.ret (.const (.int 2))) .skip
        (.expr (.call "f" []))) .skip,
    .ret (.const (.int 3))]

theorem finally_rejected_refuted : Differs finallyDropped [] emptyW :=
  differs_of (a := .val (.int 1) ([], [])) (b := .val (.int 1) ([], ["f"]))
    (by decide +kernel) ⟨by decide, .nil⟩ (by decide)

/-- `except KeyError` inside a loop over a range catches everything. -/
def catchAll : Fn where
  params := []
  rty := .obj
  body := seqs [
    .forRange "i" (.const (.int 0)) (.const (.int 1)) (.const (.int 1))
      (.tryS (.raiseS (some (.const (.err "ValueError")))) (some "KeyError")
        (.ret (.const (.int 2))) .skip .skip) .skip,
    .ret (.const (.int 3))]

theorem typed_except_rejected_refuted : Differs catchAll [] emptyW :=
  differs_of (a := .val (.int 2) emptyW) (b := .exc (.err "ValueError") emptyW)
    (by decide +kernel) ⟨by decide, .nil⟩ (by decide)

/-- `return not x` for an object converts it to `bool` strictly. -/
def notObj : Fn where
  params := [("x", .obj)]
  rty := .bool
  body := .ret (.notE (.name "x"))

theorem not_object_refuted : Differs notObj [.obj 0] ([[]], []) :=
  differs_of (a := .exc (.err "TypeError") ([[]], [])) (b := .val (.bool true) ([[]], []))
    (by decide +kernel) ⟨by decide, .cons trivial .nil⟩ (by decide)

/-- `x = 1; x = (0 < 1); return x`: the variable keeps its first type. -/
def retype : Fn where
  params := []
  rty := .obj
  body := seqs [
    .assign (.name "x") (.const (.int 1)),
    .assign (.name "x") (.compare [.rel "lt"] [.const (.int 0), .const (.int 1)]),
    .ret (.name "x")]

theorem assigned_value_kept_refuted : Differs retype [] emptyW :=
  differs_of (a := .val (.int 1) emptyW) (b := .val (.bool true) emptyW)
    (by decide +kernel) ⟨by decide, .nil⟩ (by decide)

/-- A list that grows, through another name, while it is iterated: Python visits the new
elements, the generated code uses invalid iterators. -/
def growAlias : Fn where
  params := [("a", .obj), ("b", .obj)]
  rty := .obj
  body := seqs [
    .forIn "x" (.name "a")
      (.ifS (.compare [.rel "lt"] [.call "len" [.name "b"], .const (.int 3)])
        (.expr (.call "append" [.name "b", .const (.int 9)])) .skip) .skip,
    .ret (.call "len" [.name "a"])]

theorem iterate_while_growing_refuted : Differs growAlias [.obj 0, .obj 0] ([[.int 1]], []) :=
  differs_of (a := .ub) (b := .val (.int 3) ([[.int 1, .int 9, .int 9]], []))
    (by decide +kernel) ⟨by decide, .cons trivial (.cons trivial .nil)⟩ (by decide)

/-- Through its own name the same is rejected. -/
example : (compile D ⟨[("a", .obj)], .obj,
    .forIn "x" (.name "a") (.expr (.call "append" [.name "a", .const (.int 9)])) .skip⟩).isNone =
      true := by decide +kernel

/-- `return f() + g()`. -/
def twoCalls : Fn where
  params := []
  rty := .int
  body := .ret (.call "add" [.call "f" [], .call "g" []])

/-- A C++ compiler may evaluate the second operand first. -/
theorem argument_order_refuted : ∃ ord code, OrdOk ord ∧ compile D twoCalls = some code ∧
    callIR D ord 20 code 0 [] emptyW ≠ callPy D 20 twoCalls [] emptyW := by
  refine ⟨fun l => (List.range l.length).reverse, _, fun l => List.reverse_perm _, rfl, ?_⟩
  decide +kernel

end Verif.Lower
