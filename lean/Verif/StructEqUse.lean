import Verif.StructHashEq
import Mathlib.Data.List.GetD
/-
Structural equality and hash on small programs, and what the code gets wrong.
-/
namespace Verif.StructEq

/-- No attributes. -/
def blank {V : Type} : Node V := ⟨0, .plain, [], []⟩

/-- References point to older objects. -/
def older {V : Type} (p : Nat) : List (Item V) → Bool
  | [] => true
  | .ref (some q) _ _ :: xs => decide (q < p) && older p xs
  | _ :: xs => older p xs

theorem older_lt {V : Type} {p : Nat} : ∀ {xs : List (Item V)}, older p xs = true →
    ∀ q d a, Item.ref (some q) d a ∈ xs → q < p := by
  intro xs
  induction xs with
  | nil => intro _ q d a h; cases h
  | cons x xs ih =>
    intro h q d a hm
    rcases x with v | n | ⟨_ | r, e, b⟩ <;> simp only [older, Bool.and_eq_true, decide_eq_true_eq] at h <;>
      rcases List.mem_cons.1 hm with heq | hm
    · cases heq
    · exact ih h q d a hm
    · cases heq
    · exact ih h q d a hm
    · cases heq
    · exact ih h q d a hm
    · cases heq; exact h.1
    · exact ih h.2 q d a hm

/-- A heap with the given objects. -/
def heap {V : Type} (l : List (Node V))
    (h : ((List.range l.length).all fun p => older p (l.getD p blank).es && older p (l.getD p blank).hs) = true) :
    Heap V where
  node p := l.getD p blank
  lt p q d a hm := by
    by_cases hp : p < l.length
    · rw [List.all_eq_true] at h
      have := h p (List.mem_range.2 hp)
      rw [Bool.and_eq_true] at this
      exact older_lt this.1 q d a hm
    · rw [List.getD_eq_default _ _ (by omega)] at hm
      simp [blank] at hm
  lth p q d a hm := by
    by_cases hp : p < l.length
    · rw [List.all_eq_true] at h
      have := h p (List.mem_range.2 hp)
      rw [Bool.and_eq_true] at this
      exact older_lt this.2 q d a hm
    · rw [List.getD_eq_default _ _ (by omega)] at hm
      simp [blank] at hm

theorem heap_all {V : Type} {l : List (Node V)} {h} {P : Node V → Prop} (hl : ∀ n ∈ l, P n) (hb : P blank) (p : Nat) :
    P ((heap l h).node p) := by
  show P (l.getD p blank)
  by_cases hp : p < l.length
  · rw [List.getD_eq_getElem _ _ hp]
    exact hl _ (List.getElem_mem hp)
  · rw [List.getD_eq_default _ _ (by omega)]
    exact hb

/-- The same attributes for comparison and hash. -/
def nd {V : Type} (ty : Nat) (k : Kind) (es : List (Item V)) : Node V := ⟨ty, k, es, es⟩

def r {V : Type} (p : Nat) : Item V := .ref (some p) false false
def dref {V : Type} (p : Nat) : Item V := .ref (some p) true false

/-- The hash of the code, with `std::hash` of numbers the identity; type names, values and addresses are
told apart by an offset. -/
def mix64 : Mix Nat UInt64 where
  comb key value := key ^^^ (value + 0x9e3779b9 + (key <<< (6 : UInt64)) + (key >>> (2 : UInt64)))
  ty n := .ofNat (n + 1000)
  val n := .ofNat n
  size n := .ofNat n
  ctr n := .ofNat n
  ptr n := .ofNat (n * 16 + 4096)
  null := 0

abbrev nateq : Nat → Nat → Bool := fun a b => a == b

/-! ### Functions -/

/-- 0 the type int; 1, 2 variables `x`, `y`; 3, 4 parameter lists; 5, 6 `return x`, `return y`; 7, 8
`fn(x) { return x }`, `fn(y) { return y }`; 9 an operator; 10, 11 calls `op(x)`; 12, 13 the pairs
`(c, c)`, `(c, c')` of the calls. -/
def progNodes : List (Node Nat) :=
  [nd 1 .plain [.val 7], nd 2 .var [r 0], nd 2 .var [r 0],
   ⟨3, .arr, [r 1], [.len 1, r 1]⟩, ⟨3, .arr, [r 2], [.len 1, r 2]⟩,
   nd 4 .plain [r 1], nd 4 .plain [r 2],
   nd 5 .graph [dref 3, r 5], nd 5 .graph [dref 4, r 6],
   nd 6 .op [.val 3],
   nd 7 .graph [r 9, r 1], nd 7 .graph [r 9, r 1],
   nd 8 .plain [r 10, r 10], nd 8 .plain [r 10, r 11]]

def prog : Heap Nat := heap progNodes (by decide)

/-- Functions that differ in the name of a parameter are equal and have the same hash. -/
example : Returns nateq prog (some 7) (some 8) false true ∧
    ∃ w, HashReturns mix64 prog (some 7) false w ∧ HashReturns mix64 prog (some 8) false w :=
  ⟨⟨30, by decide +kernel⟩, hashOf mix64 prog false (some 7), hashReturns_iff.2 rfl, hashReturns_iff.2 (by decide +kernel)⟩

/-- Their bodies are not, unless free variables are mapped. -/
example : Returns nateq prog (some 5) (some 6) false false ∧ Returns nateq prog (some 5) (some 6) true true ∧
    freeVars prog false 5 = [1] ∧ freeVars prog false 7 = [] ∧
    hashOf mix64 prog false (some 5) ≠ hashOf mix64 prog false (some 6) ∧
    hashOf mix64 prog true (some 5) = hashOf mix64 prog true (some 6) :=
  ⟨⟨30, by decide +kernel⟩, ⟨30, by decide +kernel⟩, by decide +kernel, by decide +kernel, by decide +kernel,
    by decide +kernel⟩

/-- A shared call is not two calls. -/
example : Returns nateq prog (some 12) (some 13) false false ∧ Returns nateq prog (some 10) (some 11) false true ∧
    hashOf mix64 prog false (some 12) ≠ hashOf mix64 prog false (some 13) :=
  ⟨⟨40, by decide +kernel⟩, ⟨40, by decide +kernel⟩, by decide +kernel⟩

theorem prog_noYield : NoYield prog :=
  heap_all (P := fun n => n.kind ≠ .yld) (by decide) (by decide)

theorem prog_chosen : Chosen prog := by
  refine ⟨⟨fun ty n => if ty = 3 then none :: (List.range n).map some else (List.range n).map some, ?_⟩, ?_⟩
  · refine heap_all (P := fun n => n.kind ≠ .op → n.hs.map some = ((if n.ty = 3 then none :: (List.range n.es.length).map some
      else (List.range n.es.length).map some) : List (Option Nat)).map (fun o => match o with
        | none => some (.len n.es.length)
        | some i => n.es[i]?)) ?_ ?_
    · intro n hn _
      simp only [progNodes, List.mem_cons, List.not_mem_nil, or_false] at hn
      rcases hn with rfl | rfl | rfl | rfl | rfl | rfl | rfl | rfl | rfl | rfl | rfl | rfl | rfl | rfl <;> rfl
    · intro _; rfl
  · refine heap_all (P := fun n => n.kind = .op → ∀ q d a, Item.ref q d a ∉ n.hs) ?_ ?_
    · intro n hn hk
      simp only [progNodes, List.mem_cons, List.not_mem_nil, or_false] at hn
      rcases hn with rfl | rfl | rfl | rfl | rfl | rfl | rfl | rfl | rfl | rfl | rfl | rfl | rfl | rfl <;>
        first | (intro q d a hm; simp [nd] at hm; done) | cases hk
    · intro h; cases h

theorem prog_ordered (p : Nat) (_ : (prog.node p).kind ≠ .op) : refs (prog.node p).hs = refs (prog.node p).es :=
  heap_all (P := fun n => refs n.hs = refs n.es) (by decide) (by decide) p

theorem prog_laid : Laid prog := by
  have ht : ∀ p, (prog.node p).kind = .arr → (prog.node p).ty = 3 :=
    heap_all (P := fun n => n.kind = .arr → n.ty = 3) (by decide) (by decide)
  refine ⟨fun p q hp hq => by rw [ht p hp, ht q hq], ?_, ?_⟩
  · let sh : Nat → List (Nat × Bool × Bool) := fun t =>
      if t = 1 ∨ t = 6 then [(0, false, false)] else if t = 2 ∨ t = 4 then [(2, false, false)]
      else if t = 5 then [(2, true, false), (2, false, false)] else if t = 0 then []
      else [(2, false, false), (2, false, false)]
    have hs : ∀ p, (prog.node p).kind ≠ .arr → (prog.node p).es.map shape = sh (prog.node p).ty :=
      heap_all (P := fun n => n.kind ≠ .arr → n.es.map shape = sh n.ty) (by decide) (by decide)
    intro p q hty hkd hp
    rw [hs p hp, hs q (hkd ▸ hp), hty]
  · intro p q d hp hm
    have := List.all_eq_true.1 (heap_all (h := by decide) (P := fun n => n.es.all (fun x => decide ((shape x).2.2 = false)) = true)
      (l := progNodes) (by decide) (by decide) p) _ hm
    simp [shape] at this

/-- The theorems apply to these programs. -/
example : (∃ w, HashReturns mix64 prog (some 7) false w ∧ HashReturns mix64 prog (some 8) false w) :=
  hash_ordered_partial (veq := nateq) prog_noYield prog_chosen (fun v w h => by simp at h; rw [h]) prog_ordered
    ⟨30, by decide +kernel⟩

example : FastReturns nateq prog (some 7) (some 8) true :=
  (fast_partial prog_noYield prog_laid _ _ _).2 ⟨30, by decide +kernel⟩

example : Alpha nateq prog false 7 8 ∧ ¬ Alpha nateq prog false 5 6 :=
  ⟨((equal_partial prog_noYield 7 8 false).2.1).1 ⟨30, by decide +kernel⟩,
    ((equal_partial prog_noYield 5 6 false).2.2).1 ⟨30, by decide +kernel⟩⟩

/-! ### Yields -/

/-- 0 the type; 1, 2 variables `x`, `y`; 3, 4 parameters `(x, y)`, `(y, x)`; 5 `yield x`;
6, 7 `fn(x, y) { yield x }` and `fn(y, x) { yield x }`; 8 another `yield x`; 9, 10 the sequences
`yield x; yield x` made of one and of two objects. -/
def yields : Heap Nat := heap
  [nd 1 .plain [.val 7], nd 2 .var [r 0], nd 2 .var [r 0],
   ⟨3, .arr, [r 1, r 2], [.len 2, r 1, r 2]⟩, ⟨3, .arr, [r 2, r 1], [.len 2, r 2, r 1]⟩,
   nd 4 .yld [r 1, .ref none false false],
   nd 5 .graph [dref 3, r 5], nd 5 .graph [dref 4, r 5],
   nd 4 .yld [r 1, .ref none false false],
   nd 6 .plain [r 5, r 5], nd 6 .plain [r 5, r 8]] (by decide)

/-- A function that yields its first parameter is found equal to one that yields its second. -/
theorem yield_refuted : ¬ ∀ (H : Heap Nat) a b f, Returns nateq H (some a) (some b) f true → Alpha nateq H f a b := by
  intro h
  obtain ⟨R, hR, hs, _⟩ := h yields 6 7 false ⟨40, by decide +kernel⟩
  obtain ⟨_, _, _, _, h1⟩ := sim_iff.1 hs
  have h1 := h1 (by decide)
  change List.Forall₂ _ [dref 3, r 5] [dref 4, r 5] at h1
  rw [List.forall₂_cons, List.forall₂_cons] at h1
  obtain ⟨⟨_, ha⟩, ⟨_, hb⟩, _⟩ := h1
  obtain ⟨_, _, _, _, ha⟩ := sim_iff.1 ha
  have ha := ha (by decide)
  change List.Forall₂ _ [r 1, r 2] [r 2, r 1] at ha
  rw [List.forall₂_cons] at ha
  obtain ⟨⟨_, ha⟩, _⟩ := ha
  have hx : R 1 2 := (sim_iff.1 ha).2.2.1 (by decide)
  obtain ⟨_, _, _, _, hb⟩ := sim_iff.1 hb
  have hb := hb (by decide)
  change List.Forall₂ _ [r 1, .ref none false false] [r 1, .ref none false false] at hb
  rw [List.forall₂_cons] at hb
  obtain ⟨⟨_, hb⟩, _⟩ := hb
  have hy : R 1 1 := (sim_iff.1 hb).2.2.1 (by decide)
  have := (hR 1 2 1 1 hx hy).1 rfl
  omega

/-- Sequences that are equal have different hashes: the hash counts yields as nodes of a graph, the
comparison does not. -/
theorem yield_hash_refuted : Returns nateq yields (some 9) (some 10) false true ∧
    ¬ ∃ w, HashReturns mix64 yields (some 9) false w ∧ HashReturns mix64 yields (some 10) false w := by
  refine ⟨⟨40, by decide +kernel⟩, ?_⟩
  rintro ⟨w, h1, h2⟩
  rw [hashReturns_iff] at h1 h2
  have : hashOf mix64 yields false (some 9) ≠ hashOf mix64 yields false (some 10) := by decide +kernel
  exact this (h1.trans h2.symm)

/-! ### Floats -/

/-- `BaseValueEqual` of doubles (structural_equal.h 44-55) on multiples of 2^-30: the difference is less
than 1e-9 (10^9 |v - w| < 2^30). -/
def floatEq (v w : Nat) : Bool := decide (1000000000 * (v - w) < 1073741824 ∧ 1000000000 * (w - v) < 1073741824)

/-- The constants 0, 2^-30 and 2^-29. -/
def floats : Heap Nat := heap [nd 1 .plain [.val 0], nd 1 .plain [.val 1], nd 1 .plain [.val 2]] (by decide)

/-- Equality of constants is not transitive. -/
theorem float_refuted : Returns floatEq floats (some 0) (some 1) false true ∧
    Returns floatEq floats (some 1) (some 2) false true ∧ Returns floatEq floats (some 0) (some 2) false false :=
  ⟨⟨10, by decide +kernel⟩, ⟨10, by decide +kernel⟩, ⟨10, by decide +kernel⟩⟩

/-- Equal constants have different hashes. -/
theorem float_hash_refuted : Returns floatEq floats (some 0) (some 1) false true ∧
    ¬ ∃ w, HashReturns mix64 floats (some 0) false w ∧ HashReturns mix64 floats (some 1) false w := by
  refine ⟨⟨10, by decide +kernel⟩, ?_⟩
  rintro ⟨w, h1, h2⟩
  rw [hashReturns_iff] at h1 h2
  have : hashOf mix64 floats false (some 0) ≠ hashOf mix64 floats false (some 1) := by decide +kernel
  exact this (h1.trans h2.symm)

/-! ### Null arrays -/

/-- 0 an empty array; 1, 2 objects whose array attribute is empty and null. -/
def nulls : Heap Nat := heap
  [⟨3, .arr, [], [.len 0]⟩, nd 4 .plain [.ref (some 0) false true], nd 4 .plain [.ref none false true]] (by decide)

/-- A null array is equal to an empty one in C++ and not in Python. -/
theorem null_array_refuted : FastReturns nateq nulls (some 1) (some 2) true ∧
    Returns nateq nulls (some 1) (some 2) false false :=
  ⟨⟨10, by decide +kernel⟩, ⟨10, by decide +kernel⟩⟩

/-! ### Deep comparison -/

/-- `expr_deep_equal` does not tell a shared call from two calls. -/
theorem deep_refuted : deepEqual nateq prog 12 13 = true ∧ Returns nateq prog (some 12) (some 13) false false :=
  ⟨by decide +kernel, ⟨40, by decide +kernel⟩⟩

/-- 0 the type; 1, 2 variables; 3, 4 sums `x + 1`, `x + 1`; 5 `y + 1`. -/
def sums : Heap Nat := heap
  [nd 1 .plain [.val 7], nd 2 .var [r 0], nd 2 .var [r 0],
   nd 3 .plain [r 1, .val 1], nd 3 .plain [r 1, .val 1], nd 3 .plain [r 2, .val 1]] (by decide)

example : deepEqual nateq sums 3 4 = true ∧ deepEqual nateq sums 3 5 = false ∧
    Returns nateq sums (some 3) (some 4) false true ∧ Returns nateq sums (some 3) (some 5) false false :=
  ⟨by decide +kernel, by decide +kernel, ⟨10, by decide +kernel⟩, ⟨10, by decide +kernel⟩⟩

end Verif.StructEq
