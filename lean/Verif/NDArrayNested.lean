import Verif.NDArrayBase

/-!
# Nested lists as arrays

`HasShape` and `pyAt` say what a nested list means as an array; the lemmas connect them with the
runtime's `FirstShape` and `IsNDArrayImpl`.
-/

namespace Verif.NDArray

variable {α D : Type}

/-- The value is a nested list of numbers, not empty at any depth, with the given lengths. -/
def HasShape : List Nat → Py α → Prop
  | [], x => ∃ v, x = .num v
  | d :: ds, x => ∃ l, x = .list l ∧ l ≠ [] ∧ l.length = d ∧ ∀ y ∈ l, HasShape ds y

/-- The number at a multi-index of a nested list. -/
def pyAt : List Nat → Py α → Option α
  | [], .num v => some v
  | i :: is, .list l => match l[i]? with
    | some x => pyAt is x
    | none => none
  | _, _ => none

/-- The numbers in row-major order. -/
def vals : List Nat → Py α → List α
  | [], .num v => [v]
  | _ :: ds, .list l => l.flatMap (vals ds)
  | _, _ => []

theorem flatMap_length_const {β γ : Type} (f : β → List γ) (n : Nat) :
    ∀ (l : List β), (∀ x ∈ l, (f x).length = n) → (l.flatMap f).length = l.length * n
  | [], _ => by simp
  | x :: xs, h => by
    rw [List.flatMap_cons, List.length_append, h x (by simp),
      flatMap_length_const f n xs fun y hy => h y (by simp [hy]), List.length_cons]
    ring

theorem flatMap_getElem? {β γ : Type} (f : β → List γ) (n : Nat) (j : Nat) (hj : j < n) :
    ∀ (l : List β), (∀ x ∈ l, (f x).length = n) → ∀ i : Nat, ∀ x, l[i]? = some x →
      (l.flatMap f)[i * n + j]? = (f x)[j]?
  | [], _, i, x, hx => by simp at hx
  | y :: ys, h, i, x, hx => by
    rw [List.flatMap_cons]
    cases i with
    | zero =>
      simp at hx
      subst hx
      rw [Nat.zero_mul, Nat.zero_add, List.getElem?_append_left (by rw [h y (by simp)]; exact hj)]
    | succ i =>
      rw [List.getElem?_cons_succ] at hx
      have e : (i + 1) * n + j = n + (i * n + j) := by ring
      rw [e, List.getElem?_append_right (by rw [h y (by simp)]; omega), h y (by simp),
        Nat.add_sub_cancel_left]
      exact flatMap_getElem? f n j hj ys (fun z hz => h z (by simp [hz])) i x hx

theorem vals_length : ∀ (shape : List Nat) (x : Py α), HasShape shape x →
    (vals shape x).length = prod shape
  | [], x, ⟨v, e⟩ => by subst e; rfl
  | d :: ds, x, ⟨l, e, _, hl, h⟩ => by
    subst e
    rw [vals, flatMap_length_const _ (prod ds) l fun y hy => vals_length ds y (h y hy), hl, prod_cons]

theorem vals_get : ∀ (shape : List Nat) (x : Py α), HasShape shape x → ∀ idx, Valid shape idx →
    ∃ v, pyAt idx x = some v ∧ (vals shape x)[ravel shape idx]? = some v
  | [], x, ⟨v, e⟩, idx, hv => by
    subst e
    cases idx with
    | nil => exact ⟨v, rfl, rfl⟩
    | cons => simp [Valid] at hv
  | d :: ds, x, ⟨l, e, _, hl, h⟩, idx, hv => by
    subst e
    cases idx with
    | nil => simp [Valid] at hv
    | cons i idx =>
      obtain ⟨h1, h2⟩ := hv
      have hi : i < l.length := by omega
      obtain ⟨v, e1, e2⟩ := vals_get ds l[i] (h _ (List.getElem_mem hi)) idx h2
      refine ⟨v, by simp [pyAt, List.getElem?_eq_getElem hi, e1], ?_⟩
      rw [vals, ravel, flatMap_getElem? _ (prod ds) _ h2.ravel_lt l
        (fun y hy => vals_length ds y (h y hy)) i l[i] (List.getElem?_eq_getElem hi)]
      exact e2

theorem hasShape_unique : ∀ (s t : List Nat) (x : Py α), HasShape s x → HasShape t x → s = t
  | [], [], _, _, _ => rfl
  | [], _ :: _, x, ⟨v, e⟩, ⟨l, e', _⟩ => by rw [e] at e'; cases e'
  | _ :: _, [], x, ⟨l, e, _⟩, ⟨v, e'⟩ => by rw [e] at e'; cases e'
  | d :: ds, d' :: ds', x, ⟨l, e, hne, hl, h⟩, ⟨l', e', _, hl', h'⟩ => by
    rw [e] at e'
    cases e'
    cases l with
    | nil => exact absurd rfl hne
    | cons y ys =>
      rw [← hl, ← hl', hasShape_unique ds ds' y (h y (by simp)) (h' y (by simp))]

theorem firstShape_of_hasShape : ∀ (shape : List Nat) (x : Py α), HasShape shape x →
    firstShape x = some shape
  | [], x, ⟨v, e⟩ => by subst e; simp [firstShape]
  | d :: ds, x, ⟨l, e, hne, hl, h⟩ => by
    subst e
    cases l with
    | nil => exact absurd rfl hne
    | cons y ys =>
      have := firstShape_of_hasShape ds y (h y (by simp))
      simp only [List.length_cons] at hl
      cases y with
      | num v =>
        simp [firstShape] at this ⊢
        subst this
        simp [hl]
      | other =>
        have h1 := h .other (by simp)
        cases ds with
        | nil => obtain ⟨v, e⟩ := h1; cases e
        | cons => obtain ⟨l, e, _⟩ := h1; cases e
      | list l' =>
        rw [firstShape, this]
        simp [hl]

/-- What the scan returns, in terms of the meaning of the list. -/
theorem flat_spec : ∀ (shape : List Nat) (x : Py α),
    (HasShape shape x → ∀ acc, flat x shape acc = (true, acc ++ vals shape x)) ∧
    (¬ HasShape shape x → ∀ acc, ∃ vs, flat x shape acc = (false, acc ++ vs) ∧ vs.length ≤ prod shape)
  | [], x => by
    constructor
    · rintro ⟨v, e⟩ acc
      subst e
      simp [flat, vals]
    · intro h acc
      cases x with
      | num v => exact (h ⟨v, rfl⟩).elim
      | list l =>
        refine ⟨[], ?_, by simp⟩
        rw [flat]
        split <;> simp
      | other => exact ⟨[], by simp [flat], by simp⟩
  | d :: ds, x => by
    have ih := fun x => flat_spec ds x
    have hall : ∀ (l : List (Py α)),
        ((∀ y ∈ l, HasShape ds y) → ∀ acc, flatAll l ds acc = (true, acc ++ l.flatMap (vals ds))) ∧
        ((¬ ∀ y ∈ l, HasShape ds y) → ∀ acc, ∃ vs, flatAll l ds acc = (false, acc ++ vs) ∧
          vs.length ≤ l.length * prod ds) := by
      intro l
      induction l with
      | nil => exact ⟨fun _ acc => by simp [flatAll], fun h => (h (by simp)).elim⟩
      | cons y ys ihl =>
        constructor
        · intro h acc
          rw [flatAll, (ih y).1 (h y (by simp))]
          dsimp only
          rw [ihl.1 fun z hz => h z (by simp [hz])]
          simp
        · intro h acc
          by_cases hy : HasShape ds y
          · rw [flatAll, (ih y).1 hy]
            dsimp only
            obtain ⟨vs, h1, h2⟩ := ihl.2 (fun hh => h (by
              intro z hz
              rcases List.mem_cons.1 hz with e | hz
              · exact e ▸ hy
              · exact hh z hz)) (acc ++ vals ds y)
            refine ⟨vals ds y ++ vs, by rw [h1, List.append_assoc], ?_⟩
            rw [List.length_append, vals_length ds y hy, List.length_cons, Nat.add_mul]
            omega
          · obtain ⟨vs, h1, h2⟩ := (ih y).2 hy acc
            refine ⟨vs, by rw [flatAll, h1], ?_⟩
            rw [List.length_cons, Nat.add_mul]
            omega
    constructor
    · rintro ⟨l, e, hne, hl, h⟩ acc
      subst e
      have h0 : l.isEmpty = false := by cases l <;> simp at hne ⊢
      rw [flat, h0]
      simp only [Bool.false_eq_true, if_false]
      rw [if_neg (by simp [hl]), (hall l).1 h]
      rfl
    · intro h acc
      cases x with
      | num v => exact ⟨[], by simp [flat], by simp⟩
      | other => exact ⟨[], by simp [flat], by simp⟩
      | list l =>
        rw [flat]
        by_cases h0 : l.isEmpty = true
        · rw [if_pos h0]; exact ⟨[], by simp, by simp⟩
        · rw [if_neg h0]
          by_cases hl : l.length = d
          · rw [if_neg (by simp [hl])]
            obtain ⟨vs, h1, h2⟩ := (hall l).2 (fun hh => h ⟨l, rfl, by
              intro e; subst e; simp at h0, hl, hh⟩) acc
            exact ⟨vs, h1, by rw [prod_cons, ← hl]; exact h2⟩
          · rw [if_pos (by simp [hl])]; exact ⟨[], by simp, by simp⟩

example : HasShape [2, 3] (.list [.list [.num 1, .num 2, .num 3], .list [.num 4, .num 5, .num 6]] : Py Int) ∧
    pyAt [1, 0] (.list [.list [.num 1, .num 2, .num 3], .list [.num 4, .num 5, .num 6]] : Py Int) =
      some 4 := by
  refine ⟨?_, rfl⟩
  refine ⟨_, rfl, by simp, rfl, ?_⟩
  simp [HasShape]

end Verif.NDArray
