import Verif.NormalizeForms

/-! Tables as search trees, and how to check all their entries. -/

namespace Verif.Normalize

/-- A table by key. -/
inductive Tree
  | nil
  | node (l : Tree) (key val : Nat) (r : Tree)

/-- A table by ranges of keys. -/
inductive RTree
  | nil
  | node (l : RTree) (lo hi val : Nat) (r : RTree)

def Tree.get (c : Nat) : Tree → Option Nat
  | .nil => none
  | .node l key val r =>
    match Nat.blt c key with
    | true => l.get c
    | false =>
      match Nat.blt key c with
      | true => r.get c
      | false => some val

def RTree.get (c : Nat) : RTree → Option Nat
  | .nil => none
  | .node l lo hi val r =>
    match Nat.blt c lo with
    | true => l.get c
    | false =>
      match Nat.blt hi c with
      | true => r.get c
      | false => some val

def Tree.all (p : Nat → Nat → Bool) : Tree → Bool
  | .nil => true
  | .node l key val r => l.all p && (p key val && r.all p)

def RTree.all (p : Nat → Nat → Nat → Bool) : RTree → Bool
  | .nil => true
  | .node l lo hi val r => l.all p && (p lo hi val && r.all p)

theorem blt_true {a b : Nat} (h : a < b) : Nat.blt a b = true := by rw [Nat.blt_eq]; exact h
theorem blt_false {a b : Nat} (h : ¬ a < b) : Nat.blt a b = false := by
  cases e : Nat.blt a b with
  | false => rfl
  | true => rw [Nat.blt_eq] at e; exact absurd e h

theorem Tree.get_all {p : Nat → Nat → Bool} {c v : Nat} {t : Tree} (h : t.get c = some v)
    (ha : t.all p = true) : p c v = true := by
  induction t with
  | nil => cases h
  | node l key val r ihl ihr =>
    rw [Tree.all, Bool.and_eq_true, Bool.and_eq_true] at ha
    rw [Tree.get] at h
    cases h1 : Nat.blt c key with
    | true => rw [h1] at h; exact ihl h ha.1
    | false =>
      rw [h1] at h
      cases h2 : Nat.blt key c with
      | true => rw [h2] at h; exact ihr h ha.2.2
      | false =>
        rw [h2] at h
        have e1 : ¬ c < key := fun h => by rw [blt_true h] at h1; cases h1
        have e2 : ¬ key < c := fun h => by rw [blt_true h] at h2; cases h2
        obtain rfl : c = key := by omega
        cases h
        exact ha.2.1

theorem RTree.get_all {p : Nat → Nat → Nat → Bool} {c v : Nat} {t : RTree} (h : t.get c = some v)
    (ha : t.all p = true) : ∃ lo hi, lo ≤ c ∧ c ≤ hi ∧ p lo hi v = true := by
  induction t with
  | nil => cases h
  | node l lo hi val r ihl ihr =>
    rw [RTree.all, Bool.and_eq_true, Bool.and_eq_true] at ha
    rw [RTree.get] at h
    cases h1 : Nat.blt c lo with
    | true => rw [h1] at h; exact ihl h ha.1
    | false =>
      rw [h1] at h
      cases h2 : Nat.blt hi c with
      | true => rw [h2] at h; exact ihr h ha.2.2
      | false =>
        rw [h2] at h
        have e1 : ¬ c < lo := fun h => by rw [blt_true h] at h1; cases h1
        have e2 : ¬ hi < c := fun h => by rw [blt_true h] at h2; cases h2
        cases h
        exact ⟨lo, hi, by omega, by omega, ha.2.1⟩

/-- Whether one entry covers a range. -/
def RTree.cover (a b v : Nat) : RTree → Bool
  | .nil => false
  | .node l lo hi val r =>
    if b < lo then l.cover a b v else if hi < a then decide (lo ≤ a) && r.cover a b v
    else decide (lo ≤ a) && decide (b ≤ hi) && decide (val = v)

theorem RTree.get_cover {a b v c : Nat} {t : RTree} (h : t.cover a b v = true) (h1 : a ≤ c)
    (h2 : c ≤ b) : t.get c = some v := by
  induction t with
  | nil => cases h
  | node l lo hi val r ihl ihr =>
    rw [RTree.cover] at h
    rw [RTree.get]
    by_cases c1 : b < lo
    · rw [if_pos c1] at h
      rw [blt_true (by omega : c < lo)]
      exact ihl h
    · rw [if_neg c1] at h
      by_cases c2 : hi < a
      · rw [if_pos c2] at h
        rw [Bool.and_eq_true, decide_eq_true_eq] at h
        rw [blt_false (by omega : ¬ c < lo), blt_true (by omega : hi < c)]
        exact ihr h.2
      · rw [if_neg c2] at h
        simp only [Bool.and_eq_true, decide_eq_true_eq] at h
        obtain ⟨⟨g1, g2⟩, g3⟩ := h
        rw [blt_false (by omega : ¬ c < lo), blt_false (by omega : ¬ hi < c), g3]

/-- `find_nfc_index`: the entries `start`, `count`, `index`. -/
def find (c : Nat) : List (Nat × Nat × Nat) → Option Nat
  | [] => none
  | (start, count, index) :: t =>
    if c < start then none
    else if c ≤ start + count then some (index + (c - start))
    else find c t

theorem find_mem {c f : Nat} {t : List (Nat × Nat × Nat)} (h : find c t = some f) :
    ∃ e ∈ t, ∃ d, d ≤ e.2.1 ∧ c = e.1 + d ∧ f = e.2.2 + d := by
  induction t with
  | nil => cases h
  | cons e t ih =>
    obtain ⟨start, count, index⟩ := e
    rw [find] at h
    by_cases h1 : c < start
    · rw [if_pos h1] at h; cases h
    · rw [if_neg h1] at h
      by_cases h2 : c ≤ start + count
      · rw [if_pos h2] at h
        cases h
        exact ⟨_, List.mem_cons_self, c - start, by dsimp only; omega, by dsimp only; omega, rfl⟩
      · rw [if_neg h2] at h
        obtain ⟨e, he, h⟩ := ih h
        exact ⟨e, List.mem_cons_of_mem _ he, h⟩

/-- The characters of a packed mapping. -/
def unpack : Nat → Nat → List Nat
  | 0, _ => []
  | n + 1, v => match Nat.beq v 0 with
    | true => []
    | false => v % 0x200000 :: unpack n (v / 0x200000)

/-- Whether all numbers below `n` satisfy `p`. -/
def below (p : Nat → Bool) : Nat → Bool
  | 0 => true
  | n + 1 => p n && below p n

theorem below_lt {p : Nat → Bool} {n i : Nat} (h : below p n = true) (hi : i < n) : p i = true := by
  induction n with
  | zero => omega
  | succ n ih =>
    rw [below, Bool.and_eq_true] at h
    rcases Nat.lt_succ_iff_lt_or_eq.1 hi with h' | h'
    · exact ih h.2 h'
    · rw [h']; exact h.1

end Verif.Normalize
