import Verif.Cedar
import Mathlib.Data.List.Nodup
import Mathlib.Data.List.Perm.Subperm
/-
Doubly linked rings in two arrays: the rings of empty slots and the lists of blocks.
-/
namespace Verif.Cedar

@[simp] theorem upd_self {β : Type} (f : Nat → β) (i : Nat) (x : β) : upd f i x i = x := by
  simp [upd]

theorem upd_ne {β : Type} (f : Nat → β) {i j : Nat} (x : β) (h : j ≠ i) : upd f i x j = f j := by
  simp [upd, h]

theorem upd_apply {β : Type} (f : Nat → β) (i j : Nat) (x : β) :
    upd f i x j = if j = i then x else f j := rfl

/-- A doubly linked path from `a` through `l` to `b`. -/
def Links (nx pv : Nat → Nat) : Nat → List Nat → Nat → Prop
  | a, [], b => nx a = b ∧ pv b = a
  | a, c :: l, b => nx a = c ∧ pv c = a ∧ Links nx pv c l b

/-- A doubly linked ring with the given members, in order. -/
def Ring (nx pv : Nat → Nat) : List Nat → Prop
  | [] => True
  | a :: t => (a :: t).Nodup ∧ Links nx pv a t a

variable {nx pv nx' pv' : Nat → Nat}

theorem Links.append {a c b : Nat} {l l' : List Nat} :
    Links nx pv a (l ++ c :: l') b ↔ Links nx pv a l c ∧ Links nx pv c l' b := by
  induction l generalizing a with
  | nil => simp [Links, and_assoc]
  | cons x l ih => simp [Links, ih, and_assoc]

theorem Links.congr {a b : Nat} {l : List Nat} (h : Links nx pv a l b)
    (hn : ∀ x ∈ a :: l, nx' x = nx x) (hp : ∀ x, x ∈ l ∨ x = b → pv' x = pv x) :
    Links nx' pv' a l b := by
  induction l generalizing a with
  | nil => exact ⟨by rw [hn a (by simp)]; exact h.1, by rw [hp b (by simp)]; exact h.2⟩
  | cons c l ih =>
    obtain ⟨h1, h2, h3⟩ := h
    refine ⟨by rw [hn a (by simp)]; exact h1, by rw [hp c (by simp)]; exact h2, ih h3 ?_ ?_⟩
    · intro x hx; exact hn x (by simp at hx ⊢; tauto)
    · intro x hx; exact hp x (by simp at hx ⊢; tauto)

/-- The path may be made to end elsewhere. -/
theorem Links.retarget {a b b' : Nat} {l : List Nat} (h : Links nx pv a l b)
    (hd : (a :: l).Nodup) (hb : b' ∉ l) :
    pv b ∈ a :: l ∧ nx (pv b) = b ∧
      Links (upd nx (pv b) b') (upd pv b' (pv b)) a l b' := by
  induction l generalizing a with
  | nil =>
    obtain ⟨h1, h2⟩ := h
    subst h2
    exact ⟨by simp, h1, by simp [Links]⟩
  | cons c l ih =>
    obtain ⟨h1, h2, h3⟩ := h
    obtain ⟨i1, i2, i3⟩ := ih h3 (List.nodup_cons.mp hd).2 (by simp at hb; tauto)
    have hac : pv b ≠ a := by
      rintro e; rw [e] at i1; exact (List.nodup_cons.mp hd).1 i1
    refine ⟨by simp at i1 ⊢; tauto, i2, ?_, ?_, i3⟩
    · rw [upd_ne _ _ (Ne.symm hac)]; exact h1
    · rw [upd_ne _ _ (by simp at hb; tauto)]; exact h2

/-- The path may be made to start elsewhere. -/
theorem Links.resource {a a' b : Nat} {l : List Nat} (h : Links nx pv a l b)
    (hl : a' ∉ l) (hn : l.Nodup) (hb : b ∉ l) :
    Links (upd nx a' (nx a)) (upd pv (nx a) a') a' l b := by
  cases l with
  | nil => obtain ⟨h1, _⟩ := h; simp [Links, h1]
  | cons c l =>
    obtain ⟨h1, h2, h3⟩ := h
    refine ⟨by simp [h1], by simp [h1], h3.congr ?_ ?_⟩
    · intro x hx; rw [upd_ne]; rintro rfl; exact hl hx
    · intro x hx
      rw [h1, upd_ne]
      rintro rfl
      rcases hx with hx | hx
      · exact (List.nodup_cons.mp hn).1 hx
      · exact hb (by simp [hx])

theorem Ring.nodup {l : List Nat} (h : Ring nx pv l) : l.Nodup := by
  cases l with
  | nil => simp
  | cons => exact h.1

theorem Ring.congr {l : List Nat} (h : Ring nx pv l) (hn : ∀ x ∈ l, nx' x = nx x)
    (hp : ∀ x ∈ l, pv' x = pv x) : Ring nx' pv' l := by
  cases l with
  | nil => trivial
  | cons a t =>
    refine ⟨h.1, h.2.congr hn ?_⟩
    intro x hx
    apply hp
    simp
    tauto

theorem Ring.rotate {a : Nat} {t : List Nat} (h : Ring nx pv (a :: t)) : Ring nx pv (t ++ [a]) := by
  cases t with
  | nil => exact h
  | cons c t =>
    obtain ⟨hd, h1, h2, h3⟩ := h
    refine ⟨?_, ?_⟩
    · have : (c :: t ++ [a]).Perm (a :: c :: t) := List.perm_append_comm
      exact this.nodup_iff.mpr hd
    · exact Links.append.mpr ⟨h3, h1, h2⟩

theorem Ring.rotateN {l l' : List Nat} (h : Ring nx pv (l ++ l')) : Ring nx pv (l' ++ l) := by
  induction l generalizing l' with
  | nil => simpa using h
  | cons a l ih =>
    have := Ring.rotate (by simpa using h : Ring nx pv (a :: (l ++ l')))
    rw [List.append_assoc] at this
    have := ih this
    simpa using this

/-- Every member can be seen as the first. -/
theorem Ring.startAt {l : List Nat} {x : Nat} (h : Ring nx pv l) (hx : x ∈ l) :
    ∃ t, Ring nx pv (x :: t) ∧ (x :: t).Perm l := by
  obtain ⟨u, v, rfl⟩ := List.append_of_mem hx
  exact ⟨v ++ u, by simpa using h.rotateN, by
    have : (x :: v ++ u).Perm (u ++ x :: v) := List.perm_append_comm
    simpa using this⟩

theorem Links.head_mem {a b : Nat} {l : List Nat} (h : Links nx pv a l b) :
    nx a ∈ l ∨ nx a = b := by
  cases l with
  | nil => exact Or.inr h.1
  | cons c l => exact Or.inl (by simp [h.1])

theorem Ring.next_mem {l : List Nat} {x : Nat} (h : Ring nx pv l) (hx : x ∈ l) :
    nx x ∈ l ∧ pv (nx x) = x := by
  obtain ⟨t, ht, hp⟩ := h.startAt hx
  cases t with
  | nil => obtain ⟨_, h1, h2⟩ := ht; rw [h1]; exact ⟨hx, h2⟩
  | cons c t =>
    obtain ⟨_, h1, h2, _⟩ := ht
    rw [h1]
    exact ⟨hp.subset (by simp), h2⟩

theorem Ring.prev_mem {l : List Nat} {x : Nat} (h : Ring nx pv l) (hx : x ∈ l) :
    pv x ∈ l ∧ nx (pv x) = x := by
  obtain ⟨t, ht, hp⟩ := h.startAt hx
  have := ht.2.retarget (b' := x) ht.1 (List.nodup_cons.mp ht.1).1
  exact ⟨hp.subset this.1, this.2.1⟩

/-- The next member is another one unless there is only one. -/
theorem Ring.next_eq {t : List Nat} {x : Nat} (h : Ring nx pv (x :: t)) : nx x = x ↔ t = [] := by
  cases t with
  | nil => simp [h.2.1]
  | cons c t =>
    obtain ⟨hd, h1, _⟩ := h
    rw [h1]
    simp at hd ⊢
    tauto

theorem Ring.remove {t : List Nat} {x : Nat} (h : Ring nx pv (x :: t)) (ht : t ≠ []) :
    Ring (upd nx (pv x) (nx x)) (upd pv (nx x) (pv x)) t := by
  cases t with
  | nil => exact absurd rfl ht
  | cons c t =>
    obtain ⟨hd, h1, h2, h3⟩ := h
    have hd' := (List.nodup_cons.mp hd).2
    have := h3.retarget (b' := c) hd' (List.nodup_cons.mp hd').1
    rw [h1]
    exact ⟨hd', this.2.2⟩

/-- Inserting `e` after `p`. -/
theorem Ring.insertAfter {t : List Nat} {p e : Nat} (h : Ring nx pv (p :: t)) (he : e ∉ p :: t) :
    Ring (upd (upd nx e (nx p)) p e) (upd (upd pv (nx p) e) e p) (p :: e :: t) := by
  obtain ⟨hd, h1⟩ := h
  have hpe : p ≠ e := by rintro rfl; exact he (by simp)
  have het : e ∉ t := by simp at he; tauto
  have hpt := (List.nodup_cons.mp hd)
  refine ⟨?_, ?_, ?_, ?_⟩
  · simp at hd he ⊢; tauto
  · simp
  · simp
  · refine (h1.resource (a' := e) het hpt.2 hpt.1).congr ?_ ?_
    · intro x hx
      rw [upd_ne]
      rintro rfl
      simp [hpe] at hx
      exact hpt.1 hx
    · intro x hx
      rw [upd_ne]
      rintro rfl
      rcases hx with hx | hx
      · exact het hx
      · exact hpe hx.symm

theorem Ring.single (e : Nat) : Ring (upd nx e e) (upd pv e e) [e] := by
  simp [Ring, Links]

/-- A ring with the members `P`; `head` is one of them, or 0 if there are none. -/
def Circ (nx pv : Nat → Nat) (P : Nat → Prop) (head : Nat) : Prop :=
  ∃ l, Ring nx pv l ∧ (∀ x, x ∈ l ↔ P x) ∧ ((l = [] ∧ head = 0) ∨ head ∈ l)

theorem length_le_of_lt {l : List Nat} {n : Nat} (hd : l.Nodup) (h : ∀ x ∈ l, x < n) :
    l.length ≤ n := by
  have : l.Subperm (List.range n) := List.subperm_of_subset hd (fun x hx => List.mem_range.mpr (h x hx))
  simpa using this.length_le

end Verif.Cedar
