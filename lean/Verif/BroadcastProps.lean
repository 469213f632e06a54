import Verif.Broadcast
import Mathlib.Data.List.GetD

/-!
# Theorems about shape broadcasting
-/

namespace Verif.Broadcast

variable {E : Type}

/-! ### NumPy's rule

Axes are counted from the right and a missing axis counts as one.  Two axes
are compatible when they are equal or one of them is one. -/

/-- The `i`-th axis from the right. -/
def axis (s : List Nat) (i : Nat) : Nat := s.reverse.getD i 1

/-- `r` is the shape NumPy gives for shapes `a` and `b`. -/
structure NumPy (a b r : List Nat) : Prop where
  rank : r.length = max a.length b.length
  ok : ∀ i, axis a i = axis b i ∨ axis a i = 1 ∨ axis b i = 1
  dim : ∀ i < r.length, axis r i = if axis a i = 1 then axis b i else axis a i

/-- The shape a list of axes stands for once the symbols have values. -/
def eval (σ : E → Nat) : List (Dim E) → List Nat
  | [] => []
  | .num n :: s => n :: eval σ s
  | .sym e :: s => σ e :: eval σ s

/-- The contract of sympy: expressions found equal have equal values and
simplification keeps the value. -/
structure Lawful (S : Sym E) (σ : E → Nat) : Prop where
  eqv : ∀ x y, S.eqv x y = true → σ x = σ y
  simp : ∀ x, σ (S.simp x) = σ x

/-- A shape of numbers. -/
def nums (s : List Nat) : List (Dim E) := s.map .num

def dimVal (σ : E → Nat) : Dim E → Nat
  | .num n => n
  | .sym e => σ e

theorem eval_eq_map (σ : E → Nat) (s : List (Dim E)) : eval σ s = s.map (dimVal σ) := by
  induction s with
  | nil => rfl
  | cons d s ih => cases d <;> simp [eval, dimVal, ih]

theorem eval_length (σ : E → Nat) (s : List (Dim E)) : (eval σ s).length = s.length := by
  rw [eval_eq_map, List.length_map]

theorem eval_nums (σ : E → Nat) (s : List Nat) : eval σ (nums s) = s := by
  induction s with
  | nil => rfl
  | cons n s ih => simp only [nums, List.map_cons, eval] at *; rw [ih]

theorem axis_eval (σ : E → Nat) (s : List (Dim E)) (i : Nat) :
    axis (eval σ s) i = ((s.reverse.map (dimVal σ)).getD i 1) := by
  rw [axis, eval_eq_map, List.map_reverse]

/-! ### The rule applied by the loop -/

theorem axes_length (S : Sym E) (a b r : List (Dim E)) (h : axes S a b = some r) :
    r.length = max a.length b.length := by
  induction a, b using axes.induct generalizing r with
  | case1 => rw [axes] at h; cases h; rfl
  | case2 a as ih =>
    simp only [axes, outputAxis, Option.pure_def, Option.bind_eq_bind, Option.bind_some] at h
    cases hr : axes S as [] with
    | none => rw [hr] at h; cases h
    | some r' => rw [hr] at h; cases h; simpa using ih r' hr
  | case3 b bs ih =>
    simp only [axes, outputAxis, Option.pure_def, Option.bind_eq_bind, Option.bind_some] at h
    cases hr : axes S [] bs with
    | none => rw [hr] at h; cases h
    | some r' => rw [hr] at h; cases h; simpa using ih r' hr
  | case4 a as b bs ih =>
    simp only [axes, Option.pure_def, Option.bind_eq_bind] at h
    cases ho : outputAxis S (some a) (some b) with
    | none => rw [ho] at h; cases h
    | some d =>
      cases hr : axes S as bs with
      | none => rw [ho, hr] at h; cases h
      | some r' =>
        rw [ho, hr] at h; cases h
        have := ih r' hr
        simp only [List.length_cons]
        omega

theorem outputAxis_val {S : Sym E} {σ : E → Nat} (hS : Lawful S σ) {a b d : Dim E}
    (h : outputAxis S (some a) (some b) = some d) : dimVal σ a = dimVal σ b ∧ dimVal σ d = dimVal σ a := by
  cases a <;> cases b <;> simp only [outputAxis] at h
  · split at h
    · rename_i h'; cases h; exact ⟨h', rfl⟩
    · cases h
  · cases h
  · cases h
  · split at h
    · rename_i h'; cases h; exact ⟨hS.eqv _ _ h', hS.simp _⟩
    · cases h

theorem axes_val {S : Sym E} {σ : E → Nat} (hS : Lawful S σ) (a b r : List (Dim E))
    (h : axes S a b = some r) (i : Nat) :
    ((a.map (dimVal σ)).getD i 1 = (b.map (dimVal σ)).getD i 1 ∨
      a.length ≤ i ∨ b.length ≤ i) ∧
    (i < r.length → (r.map (dimVal σ)).getD i 1 =
      if a.length ≤ i then (b.map (dimVal σ)).getD i 1 else (a.map (dimVal σ)).getD i 1) := by
  induction a, b using axes.induct generalizing r i with
  | case1 => rw [axes] at h; cases h; simp
  | case2 a as ih =>
    simp only [axes, outputAxis, Option.pure_def, Option.bind_eq_bind, Option.bind_some] at h
    cases hr : axes S as [] with
    | none => rw [hr] at h; cases h
    | some r' =>
      rw [hr] at h; cases h
      cases i with
      | zero => simp
      | succ i =>
        have := ih r' hr i
        refine ⟨.inr (.inr (by simp)), fun hi => ?_⟩
        have h2 := this.2 (by simpa using hi)
        simpa [Nat.succ_le_succ_iff] using h2
  | case3 b bs ih =>
    simp only [axes, outputAxis, Option.pure_def, Option.bind_eq_bind, Option.bind_some] at h
    cases hr : axes S [] bs with
    | none => rw [hr] at h; cases h
    | some r' =>
      rw [hr] at h; cases h
      cases i with
      | zero => simp
      | succ i =>
        have := ih r' hr i
        refine ⟨.inr (.inl (by simp)), fun hi => ?_⟩
        have h2 := this.2 (by simpa using hi)
        simpa using h2
  | case4 a as b bs ih =>
    simp only [axes, Option.pure_def, Option.bind_eq_bind] at h
    cases ho : outputAxis S (some a) (some b) with
    | none => rw [ho] at h; cases h
    | some d =>
      cases hr : axes S as bs with
      | none => rw [ho, hr] at h; cases h
      | some r' =>
        rw [ho, hr] at h; cases h
        obtain ⟨h1, h2⟩ := outputAxis_val hS ho
        cases i with
        | zero => simp [h1, h2]
        | succ i =>
          have := ih r' hr i
          refine ⟨by simpa using this.1, fun hi => ?_⟩
          have h3 := this.2 (by simpa using hi)
          simpa using h3

theorem getD_len (l : List Nat) (i : Nat) (h : l.length ≤ i) : l.getD i 1 = 1 := by
  rw [List.getD_eq_default _ _ h]

/-- **C41, soundness.** When neither shape starts with the number one and
`broadcast` returns a shape, then for all values of the symbols this is the
shape NumPy gives. -/
theorem broadcast_sound_partial (S : Sym E) (σ : E → Nat) (hS : Lawful S σ) (a b r : List (Dim E))
    (ha : isScalarShape a = some false) (hb : isScalarShape b = some false)
    (h : broadcast S a b = some r) : NumPy (eval σ a) (eval σ b) (eval σ r) := by
  unfold broadcast at h
  rw [ha, hb] at h
  simp only [Bool.or_self, Bool.false_eq_true, if_false] at h
  cases hr : axes S a.reverse b.reverse with
  | none => rw [hr] at h; cases h
  | some r' =>
    rw [hr] at h
    cases h
    have hl := axes_length S _ _ _ hr
    have hv := axes_val hS _ _ _ hr
    rw [List.length_reverse, List.length_reverse] at hl
    refine ⟨?_, fun i => ?_, fun i hi => ?_⟩
    · rw [eval_length, eval_length, eval_length, List.length_reverse, hl]
    · rw [axis_eval, axis_eval]
      rcases (hv i).1 with h | h | h
      · exact .inl h
      · exact .inr (.inl (getD_len _ _ (by simpa using h)))
      · exact .inr (.inr (getD_len _ _ (by simpa using h)))
    · rw [eval_length, List.length_reverse] at hi
      have h2 := (hv i).2 hi
      rw [axis_eval, axis_eval, axis_eval, List.reverse_reverse, h2]
      rw [List.length_reverse] at *
      by_cases hai : a.length ≤ i
      · rw [if_pos hai, getD_len (a.reverse.map (dimVal σ)) i (by simpa using hai), if_pos rfl]
      · rw [if_neg hai]
        by_cases h1 : (a.reverse.map (dimVal σ)).getD i 1 = 1
        · rw [if_pos h1]
          rcases (hv i).1 with h | h | h
          · exact h
          · exact absurd (by simpa using h) hai
          · rw [h1, getD_len (b.reverse.map (dimVal σ)) i (by simpa using h)]
        · rw [if_neg h1]

/-- The loop accepts two shapes of numbers when no axis differs. -/
theorem axes_nums (S : Sym E) (a b : List Nat)
    (h : ∀ i, a.getD i 1 = b.getD i 1 ∨ a.length ≤ i ∨ b.length ≤ i) :
    ∃ r, axes S (nums a) (nums b) = some (nums r) := by
  induction a generalizing b with
  | nil =>
    induction b with
    | nil => exact ⟨[], by simp [nums, axes]⟩
    | cons b bs ih =>
      obtain ⟨r, hr⟩ := ih (fun i => .inr (.inl (by simp)))
      exact ⟨b :: r, by simp only [nums, List.map_cons, List.map_nil] at *; simp [axes, outputAxis, hr]⟩
  | cons a as ih =>
    cases b with
    | nil =>
      obtain ⟨r, hr⟩ := ih [] (fun i => .inr (.inr (by simp)))
      exact ⟨a :: r, by simp only [nums, List.map_cons, List.map_nil] at *; simp [axes, outputAxis, hr]⟩
    | cons b bs =>
      have h0 : a = b := by simpa using h 0
      obtain ⟨r, hr⟩ := ih bs (fun i => by simpa using h (i + 1))
      exact ⟨a :: r, by
        simp only [nums, List.map_cons] at *; simp [axes, outputAxis, hr, h0]⟩

theorem numpy_unique {a b r r' : List Nat} (h : NumPy a b r) (h' : NumPy a b r') : r = r' := by
  have hl : r.length = r'.length := by rw [h.rank, h'.rank]
  have : r.reverse = r'.reverse := by
    apply List.ext_getElem (by simpa using hl)
    intro i h1 h2
    rw [List.length_reverse] at h1 h2
    have e1 := h.dim i h1
    have e2 := h'.dim i h2
    rw [← e2] at e1
    simpa [axis, h1, h2] using e1
  simpa using this

theorem scalar_nums (a : List Nat) (hne : a ≠ []) (h1 : 1 ∉ a) :
    isScalarShape (nums a : List (Dim E)) = some false := by
  cases a with
  | nil => exact absurd rfl hne
  | cons n a =>
    have : n ≠ 1 := fun h => h1 (by simp [h])
    simp [nums, isScalarShape, this]

/-- **C41 for shapes without ones.** For non-empty shapes of numbers in which
no axis is one, `broadcast` returns a shape exactly when NumPy does, and the
same one. -/
theorem broadcast_exact_partial (S : Sym E) (a b : List Nat) (ha : a ≠ []) (hb : b ≠ [])
    (ha1 : 1 ∉ a) (hb1 : 1 ∉ b) (r : List Nat) :
    broadcast S (nums a) (nums b) = some (nums r) ↔ NumPy a b r := by
  have sa := scalar_nums (E := E) a ha ha1
  have sb := scalar_nums (E := E) b hb hb1
  have sound : ∀ r', broadcast S (nums a) (nums b) = some (nums r') → NumPy a b r' := by
    intro r' h
    unfold broadcast at h
    rw [sa, sb] at h
    simp only [Bool.or_self, Bool.false_eq_true, if_false] at h
    -- evaluate with any valuation: there are no symbols
    have key := broadcast_sound_partial (E := E) ⟨fun _ _ => false, id⟩ (fun _ => 0)
      ⟨fun _ _ h => (by cases h), fun _ => rfl⟩ (nums a) (nums b) (nums r') sa sb
    have same : ∀ (l1 l2 : List Nat) (S S' : Sym E), axes S (nums l1) (nums l2) = axes S' (nums l1) (nums l2) := by
      intro l1
      induction l1 with
      | nil =>
        intro l2 S S'
        induction l2 with
        | nil => simp [nums, axes]
        | cons x l2 ih => simp only [nums, List.map_cons, List.map_nil] at *; simp [axes, outputAxis, ih]
      | cons y l1 ih =>
        intro l2 S S'
        cases l2 with
        | nil =>
          have := ih [] S S'
          simp only [nums, List.map_cons, List.map_nil] at *; simp [axes, outputAxis, this]
        | cons x l2 =>
          have := ih l2 S S'
          simp only [nums, List.map_cons] at *; simp [axes, outputAxis, this]
    have rev : ∀ l : List Nat, (nums l : List (Dim E)).reverse = nums l.reverse := by
      intro l; simp [nums, List.map_reverse]
    rw [rev, rev, same _ _ S ⟨fun _ _ => false, id⟩, ← rev, ← rev] at h
    have := key (by
      unfold broadcast
      rw [sa, sb]
      simp only [Bool.or_self, Bool.false_eq_true, if_false]
      exact h)
    simpa [eval_nums] using this
  refine ⟨sound r, fun h => ?_⟩
  have mem1 : ∀ (l : List Nat) (i : Nat), 1 ∉ l → l.reverse.getD i 1 = 1 → l.reverse.length ≤ i := by
    intro l i hl hi
    rcases Nat.lt_or_ge i l.reverse.length with hlt | hge
    · rw [List.getD_eq_getElem _ _ hlt] at hi
      exact absurd (List.mem_reverse.1 (hi ▸ List.getElem_mem hlt)) hl
    · exact hge
  obtain ⟨r', hr'⟩ := axes_nums S a.reverse b.reverse (fun i => by
    rcases h.ok i with h | h | h
    · exact .inl h
    · exact .inr (.inl (mem1 a i ha1 h))
    · exact .inr (.inr (mem1 b i hb1 h)))
  have hb : broadcast S (nums a) (nums b) = some (nums r'.reverse) := by
    unfold broadcast
    rw [sa, sb]
    simp only [Bool.or_self, Bool.false_eq_true, if_false]
    have rev : ∀ l : List Nat, (nums l : List (Dim E)).reverse = nums l.reverse := by
      intro l; simp [nums, List.map_reverse]
    rw [rev, rev, hr', Option.map_some, rev]
  rw [hb, numpy_unique (sound _ hb) h]

/-- A shape whose axes are all one, such as that of a scalar argument. -/
theorem axis_ones (n i : Nat) : axis (List.replicate n 1) i = 1 := by
  rw [axis, List.reverse_replicate]
  rcases Nat.lt_or_ge i n with h | h
  · rw [List.getD_eq_getElem _ _ (by simpa using h)]; simp
  · rw [List.getD_eq_default _ _ (by simpa using h)]

theorem axis_pad (n : Nat) (s : List Nat) (i : Nat) : axis (List.replicate n 1 ++ s) i = axis s i := by
  unfold axis
  rw [List.reverse_append, List.reverse_replicate]
  rcases Nat.lt_or_ge i s.reverse.length with h | h
  · rw [List.getD_append _ _ _ _ h]
  · rw [List.getD_append_right _ _ _ _ h, List.getD_eq_default s.reverse _ h]
    rcases Nat.lt_or_ge (i - s.reverse.length) n with h' | h'
    · rw [List.getD_eq_getElem _ _ (by simpa using h')]; simp
    · rw [List.getD_eq_default _ _ (by simpa using h')]

/-- **C41 for scalars.** If one shape consists of ones and the other does not
start with one, the result is NumPy's, whichever argument is the scalar. -/
theorem broadcast_scalar_partial (S : Sym E) (n : Nat) (hn : 0 < n) (b : List Nat) (hb : b ≠ [])
    (h1 : b.head? ≠ some 1) :
    ∃ r, broadcast S (nums (List.replicate n 1)) (nums b) = some (nums r) ∧
      broadcast S (nums b) (nums (List.replicate n 1)) = some (nums r) ∧
      NumPy (List.replicate n 1) b r ∧ NumPy b (List.replicate n 1) r := by
  obtain ⟨m, rfl⟩ : ∃ m, n = m + 1 := ⟨n - 1, by omega⟩
  cases b with
  | nil => exact absurd rfl hb
  | cons x b =>
    have hx : x ≠ 1 := fun h => h1 (by simp [h])
    refine ⟨List.replicate (m + 1 - (x :: b).length) 1 ++ x :: b, ?_, ?_, ?_, ?_⟩
    · simp [broadcast, isScalarShape, nums, withScalar, padTo, List.replicate_succ, hx]
    · simp [broadcast, isScalarShape, nums, withScalar, padTo, List.replicate_succ, hx]
    · refine ⟨by simp; omega, fun i => .inr (.inl (axis_ones _ i)), fun i _ => ?_⟩
      rw [axis_ones, if_pos rfl, axis_pad]
    · refine ⟨by simp; omega, fun i => .inr (.inr (axis_ones _ i)), fun i _ => ?_⟩
      rw [axis_ones, axis_pad]
      split
      · assumption
      · rfl

/-! ### Where it differs from NumPy -/

/-- A sympy that knows syntactic equality only. -/
def plain : Sym Nat := ⟨fun x y => x == y, id⟩

theorem numpy_intro {a b r : List Nat} (h1 : r.length = max a.length b.length)
    (h2 : ∀ i < max a.length b.length, (axis a i = axis b i ∨ axis a i = 1 ∨ axis b i = 1) ∧
      axis r i = if axis a i = 1 then axis b i else axis a i) : NumPy a b r := by
  refine ⟨h1, fun i => ?_, fun i hi => (h2 i (h1 ▸ hi)).2⟩
  rcases Nat.lt_or_ge i (max a.length b.length) with h | h
  · exact (h2 i h).1
  · exact .inr (.inl (getD_len _ _ (by simp; omega)))

/-- **C41 is false: rejection.** `(2, 1)` and `(2, 3)` broadcast to `(2, 3)` in
NumPy; the function raises. -/
theorem inner_one_rejected_refuted :
    NumPy [2, 1] [2, 3] [2, 3] ∧ broadcast plain (nums [2, 1]) (nums [2, 3]) = none :=
  ⟨numpy_intro rfl (by decide), by
    simp [broadcast, isScalarShape, nums, axes, outputAxis, plain, withScalar, padTo]⟩

/-- **C41 is false: wrong shape.** `(1, 3)` and `(2, 1)` broadcast to `(2, 3)`
in NumPy; the function returns `(2, 1)`. -/
theorem leading_one_shape_refuted :
    NumPy [1, 3] [2, 1] [2, 3] ∧
      broadcast plain (nums [1, 3]) (nums [2, 1]) = some (nums [2, 1]) :=
  ⟨numpy_intro rfl (by decide), by
    simp [broadcast, isScalarShape, nums, axes, outputAxis, plain, withScalar, padTo]⟩

/-- **C41 is false: missing error.** NumPy rejects `(1, 3)` with `(4, 5)`; the
function returns `(4, 5)`. -/
theorem leading_one_accepted_refuted :
    (¬ ∃ r, NumPy [1, 3] [4, 5] r) ∧
      broadcast plain (nums [1, 3]) (nums [4, 5]) = some (nums [4, 5]) :=
  ⟨fun ⟨_, h⟩ => by have := h.ok 0; revert this; decide, by
    simp [broadcast, isScalarShape, nums, axes, outputAxis, plain, withScalar, padTo]⟩

/-- **C41 is false: two shapes starting with one.** The longer one is returned
whatever the other axes are. -/
theorem both_leading_one_refuted :
    NumPy [1, 1, 1] [1, 3] [1, 1, 3] ∧
      broadcast plain (nums [1, 1, 1]) (nums [1, 3]) = some (nums [1, 1, 1]) :=
  ⟨numpy_intro rfl (by decide), by
    simp [broadcast, isScalarShape, nums, axes, outputAxis, plain, withScalar, padTo]⟩

/-- **C41 is false: the empty shape.** -/
theorem empty_shape_refuted (S : Sym E) :
    NumPy [] [3] [3] ∧ broadcast S (nums []) (nums [3]) = none :=
  ⟨numpy_intro rfl (by decide), by
    simp [broadcast, isScalarShape, nums, axes, outputAxis, plain, withScalar, padTo]⟩

/-! ### Concrete cases -/

example : broadcast plain [.sym 0, .num 3] [.num 3] = some [.sym 0, .num 3] := by
    simp [broadcast, isScalarShape, nums, axes, outputAxis, plain, withScalar, padTo]
example : broadcast plain (nums [2, 3]) (nums [1]) = some (nums [2, 3]) := rfl
example : NumPy [2, 3] [3] [2, 3] :=
  (broadcast_exact_partial plain [2, 3] [3] (by simp) (by simp) (by decide) (by decide) _).1 (by
    simp [broadcast, isScalarShape, nums, axes, outputAxis, plain, withScalar, padTo])

end Verif.Broadcast
