import Verif.StrCore
import Mathlib.Tactic.ByContra

/-! The invariant of string storage: who owns which buffer, and what it holds. -/

namespace Verif.StrCore

variable {α : Type} {T : Prop} {P : Par α} {H : Heap α}

/-! ## Cells -/

theorem overwrite_length {cells l : List (Option α)} {off : Nat}
    (h : off + l.length ≤ cells.length) : (overwrite cells off l).length = cells.length := by
  simp only [overwrite, List.length_append, List.length_take, List.length_drop]
  omega

theorem overwrite_getElem? {cells l : List (Option α)} {off : Nat}
    (h : off + l.length ≤ cells.length) (i : Nat) :
    (overwrite cells off l)[i]? =
      if i < off then cells[i]? else if i < off + l.length then l[i - off]? else cells[i]? := by
  unfold overwrite
  rw [List.append_assoc, List.getElem?_append]
  simp only [List.length_take]
  by_cases h1 : i < off
  · rw [if_pos (by omega), if_pos h1, List.getElem?_take, if_pos h1]
  · rw [if_neg (by omega), if_neg h1, List.getElem?_append]
    have e : min off cells.length = off := by omega
    rw [e]
    by_cases h2 : i < off + l.length
    · rw [if_pos (by omega), if_pos h2]
    · rw [if_neg (by omega), if_neg h2, List.getElem?_drop]
      congr 1
      omega

theorem overwrite_nil (cells : List (Option α)) (off : Nat) : overwrite cells off [] = cells := by
  simp [overwrite]

/-- Writing inside a prefix. -/
theorem overwrite_take {cells l : List (Option α)} {off n : Nat} (h : off + l.length ≤ n)
    (hn : n ≤ cells.length) : (overwrite cells off l).take n = overwrite (cells.take n) off l := by
  apply List.ext_getElem?
  intro i
  rw [List.getElem?_take, overwrite_getElem? (by omega),
    overwrite_getElem? (by rw [List.length_take]; omega), List.getElem?_take]
  split
  · rfl
  · rw [if_neg (by omega), if_neg (by omega)]

/-- Writing behind a prefix. -/
theorem overwrite_take_of_le {cells l : List (Option α)} {off n : Nat} (h : n ≤ off)
    (hn : off + l.length ≤ cells.length) : (overwrite cells off l).take n = cells.take n := by
  apply List.ext_getElem?
  intro i
  rw [List.getElem?_take, overwrite_getElem? hn, List.getElem?_take]
  split
  · rw [if_pos (by omega)]
  · rfl

theorem overwrite_zero_take {cells l : List (Option α)} (h : l.length ≤ cells.length) :
    (overwrite cells 0 l).take l.length = l := by
  simp [overwrite]

theorem overwrite_append {m j l : List (Option α)} (h : j.length = l.length) :
    overwrite (m ++ j) m.length l = m ++ l := by
  simp [overwrite, ← h]

theorem overwrite_zero {m l : List (Option α)} (h : m.length = l.length) : overwrite m 0 l = l := by
  simp [overwrite, ← h]

/-! ## The invariant -/

def owns (p : Nat) : Core α → Bool
  | .small _ _ => false
  | .medium q _ => q = p
  | .large q _ => q = p

/-- A buffer holds the `n` characters `m`. -/
structure Holds (b : Buf α) (n : Nat) (m : List (Option α)) : Prop where
  len : b.cells.length = b.cap + 1
  size : m.length = n
  fits : n ≤ b.cap
  chars : b.cells.take n = m

/-- An object stands for the characters `m`. -/
def Rep (P : Par α) (H : Heap α) : Core α → List (Option α) → Prop
  | .small cells len, m => cells.length = P.S + 1 ∧ m.length = len ∧ len ≤ P.S ∧
      cells.take len = m ∧ cells[P.S]? = some (some P.nul)
  | .medium p n, m => ∃ b, H.buf p = some b ∧ b.rc = none ∧ Holds b n m
  | .large p n, m => ∃ b, H.buf p = some b ∧ b.rc ≠ none ∧ Holds b n m

/-- The null character follows the characters. -/
def Term (P : Par α) (H : Heap α) : Core α → Prop
  | .small cells len => cells[len]? = some (some P.nul)
  | .medium p n => ∃ b, H.buf p = some b ∧ b.cells[n]? = some (some P.nul)
  | .large p n => ∃ b, H.buf p = some b ∧ b.cells[n]? = some (some P.nul)

abbrev Obj (α : Type) := Core α × List (Option α)

def cnt (p : Nat) (xs : List (Obj α)) : Nat := xs.countP fun x => owns p x.1

/-- `xs` are all objects with their characters. Every buffer has an owner, a medium one exactly
one, a long one as many as its count says, and these agree on the size. With `T`, all strings are
terminated. -/
structure Inv (T : Prop) (P : Par α) (H : Heap α) (xs : List (Obj α)) : Prop where
  fresh : ∀ p b, H.buf p = some b → p < H.next
  rep : ∀ x ∈ xs, Rep P H x.1 x.2
  term : T → ∀ x ∈ xs, Term P H x.1
  count : ∀ p b, H.buf p = some b → cnt p xs = b.rc.getD 1 ∧ 0 < cnt p xs
  same : ∀ p, ∀ x ∈ xs, ∀ y ∈ xs, owns p x.1 = true → owns p y.1 = true → x.1.size = y.1.size

/-- No other object owns the buffer of `c`. -/
def Uniq (xs : List (Obj α)) (c : Core α) : Prop :=
  ∀ p, owns p c = true → ∀ x ∈ xs, owns p x.1 = false

theorem cnt_cons (p : Nat) (x : Obj α) (xs : List (Obj α)) :
    cnt p (x :: xs) = cnt p xs + if owns p x.1 then 1 else 0 := by
  simp [cnt, List.countP_cons]

theorem cnt_zero {p : Nat} {xs : List (Obj α)} :
    cnt p xs = 0 ↔ ∀ x ∈ xs, owns p x.1 = false := by
  simp [cnt, List.countP_eq_zero]

theorem Inv.perm {xs ys : List (Obj α)} (h : Inv T P H xs) (hp : xs.Perm ys) : Inv T P H ys where
  fresh := h.fresh
  rep x hx := h.rep x (hp.mem_iff.mpr hx)
  term ht x hx := h.term ht x (hp.mem_iff.mpr hx)
  count p b hb := by
    have := h.count p b hb
    unfold cnt at *
    rwa [hp.countP_eq] at this
  same p x hx y hy := h.same p x (hp.mem_iff.mpr hx) y (hp.mem_iff.mpr hy)

theorem Rep.size {c : Core α} {m : List (Option α)} (h : Rep P H c m) : m.length = c.size := by
  cases c with
  | small => exact h.2.1
  | medium => obtain ⟨b, _, _, h⟩ := h; exact h.size
  | large => obtain ⟨b, _, _, h⟩ := h; exact h.size

/-- An owner's buffer. -/
theorem Rep.buf {c : Core α} {m : List (Option α)} {p : Nat} (h : Rep P H c m)
    (ho : owns p c = true) : ∃ b, H.buf p = some b ∧ Holds b c.size m := by
  cases c with
  | small => cases ho
  | medium q n =>
    simp only [owns, decide_eq_true_eq] at ho
    subst ho
    obtain ⟨b, h1, _, h2⟩ := h
    exact ⟨b, h1, h2⟩
  | large q n =>
    simp only [owns, decide_eq_true_eq] at ho
    subst ho
    obtain ⟨b, h1, _, h2⟩ := h
    exact ⟨b, h1, h2⟩

/-- Two owners of one buffer stand for the same characters. -/
theorem Inv.shared {xs : List (Obj α)} (h : Inv T P H xs) {p : Nat} {x y : Obj α} (hx : x ∈ xs)
    (hy : y ∈ xs) (ox : owns p x.1 = true) (oy : owns p y.1 = true) : x.2 = y.2 := by
  obtain ⟨b, h1, h2⟩ := (h.rep x hx).buf ox
  obtain ⟨b', h1', h2'⟩ := (h.rep y hy).buf oy
  rw [h1] at h1'
  cases h1'
  rw [← h2.chars, ← h2'.chars, h.same p x hx y hy ox oy]

/-- What does not touch an object's buffer keeps the object. -/
theorem Rep.frame {H' : Heap α} {c : Core α} {m : List (Option α)} (h : Rep P H c m)
    (hf : ∀ p, owns p c = true → H'.buf p = H.buf p) : Rep P H' c m := by
  cases c with
  | small => exact h
  | medium q n =>
    obtain ⟨b, h1, h2⟩ := h
    exact ⟨b, by rw [hf q (by simp [owns]), h1], h2⟩
  | large q n =>
    obtain ⟨b, h1, h2⟩ := h
    exact ⟨b, by rw [hf q (by simp [owns]), h1], h2⟩

theorem Term.frame {H' : Heap α} {c : Core α} (h : Term P H c)
    (hf : ∀ p, owns p c = true → H'.buf p = H.buf p) : Term P H' c := by
  cases c with
  | small => exact h
  | medium q n =>
    obtain ⟨b, h1, h2⟩ := h
    exact ⟨b, by rw [hf q (by simp [owns]), h1], h2⟩
  | large q n =>
    obtain ⟨b, h1, h2⟩ := h
    exact ⟨b, by rw [hf q (by simp [owns]), h1], h2⟩

/-- A change of the reference count keeps the object. -/
theorem Rep.recount {c : Core α} {m : List (Option α)} {p : Nat} {b : Buf α} {k k' : Nat}
    (h : Rep P H c m) (hb : H.buf p = some b) (hk : b.rc = some k) :
    Rep P (H.set p (some { b with rc := some k' })) c m := by
  cases c with
  | small => exact h
  | medium q n =>
    obtain ⟨b1, h1, h2, h3⟩ := h
    have hq : q ≠ p := by
      rintro rfl
      rw [hb] at h1
      cases h1
      rw [hk] at h2
      cases h2
    exact ⟨b1, by simp [Heap.set, hq, h1], h2, h3⟩
  | large q n =>
    obtain ⟨b1, h1, h2, h3⟩ := h
    by_cases hq : q = p
    · subst hq
      rw [hb] at h1
      cases h1
      exact ⟨{ b with rc := some k' }, by simp [Heap.set], by simp,
        ⟨h3.len, h3.size, h3.fits, h3.chars⟩⟩
    · exact ⟨b1, by simp [Heap.set, hq, h1], h2, h3⟩

theorem Term.recount {c : Core α} {p : Nat} {b : Buf α} {k : Option Nat}
    (h : Term P H c) (hb : H.buf p = some b) :
    Term P (H.set p (some { b with rc := k })) c := by
  have key : ∀ q n : Nat, (∃ b, H.buf q = some b ∧ b.cells[n]? = some (some P.nul)) →
      ∃ b', (H.set p (some { b with rc := k })).buf q = some b' ∧
        b'.cells[n]? = some (some P.nul) := by
    rintro q n ⟨b1, h1, h2⟩
    by_cases hq : q = p
    · subst hq
      rw [hb] at h1
      cases h1
      exact ⟨{ b with rc := k }, by simp [Heap.set], h2⟩
    · exact ⟨b1, by simp [Heap.set, hq, h1], h2⟩
  cases c with
  | small => exact h
  | medium q n => exact key q n h
  | large q n => exact key q n h

/-! ## Elementary changes -/

/-- A short string owns nothing. -/
theorem Inv.small {xs : List (Obj α)} (h : Inv T P H xs) {cells : List (Option α)} {len : Nat}
    {m : List (Option α)} (hr : Rep P H (.small cells len) m)
    (ht : T → Term P H (.small cells len)) : Inv T P H ((.small cells len, m) :: xs) where
  fresh := h.fresh
  rep x hx := by
    rcases List.mem_cons.mp hx with rfl | hx
    · exact hr
    · exact h.rep x hx
  term t x hx := by
    rcases List.mem_cons.mp hx with rfl | hx
    · exact ht t
    · exact h.term t x hx
  count p b hb := by
    rw [cnt_cons]
    exact h.count p b hb
  same p x hx y hy ox oy := by
    rcases List.mem_cons.mp hx with rfl | hx
    · cases ox
    rcases List.mem_cons.mp hy with rfl | hy
    · cases oy
    exact h.same p x hx y hy ox oy

theorem Inv.tail_small {xs : List (Obj α)} {cells : List (Option α)} {len : Nat}
    {m : List (Option α)} (h : Inv T P H ((.small cells len, m) :: xs)) : Inv T P H xs where
  fresh := h.fresh
  rep x hx := h.rep x (List.mem_cons_of_mem _ hx)
  term t x hx := h.term t x (List.mem_cons_of_mem _ hx)
  count p b hb := by
    have := h.count p b hb
    rwa [cnt_cons] at this
  same p x hx y hy := h.same p x (List.mem_cons_of_mem _ hx) y (List.mem_cons_of_mem _ hy)

/-- The heap with a new block. -/
def Heap.put (H : Heap α) (b : Buf α) : Heap α :=
  { next := H.next + 1, buf := fun q => if q = H.next then some b else H.buf q }

theorem put_set (b b' : Buf α) : (H.put b).set H.next (some b') = H.put b' := by
  simp only [Heap.put, Heap.set]
  congr 1
  funext q
  split <;> rfl

theorem put_get (b : Buf α) : (H.put b).get H.next = .ok b := by
  simp [Heap.get, Heap.put]

theorem put_buf_ne (b : Buf α) {q : Nat} (h : q ≠ H.next) : (H.put b).buf q = H.buf q := by
  simp [Heap.put, h]

theorem put_read_ne (b : Buf α) {q off n : Nat} (h : q ≠ H.next) :
    (H.put b).read q off n = H.read q off n := by
  simp [Heap.read, Heap.get, Heap.put, h]

theorem put_write (b : Buf α) {off : Nat} {l : List (Option α)}
    (h : off + l.length ≤ b.cells.length) :
    (H.put b).write H.next off l = .ok (H.put { b with cells := overwrite b.cells off l }) := by
  simp only [Heap.write, put_get, bind, Except.bind, if_pos h, put_set]

theorem alloc_eq (rc : Option Nat) (cap : Nat) :
    H.alloc rc cap = (H.put ⟨rc, cap, List.replicate (cap + 1) none⟩, H.next) := rfl

/-- No object owns a block that is not there. -/
theorem Inv.not_owned {xs : List (Obj α)} (h : Inv T P H xs) {p : Nat} (hp : H.buf p = none) :
    ∀ x ∈ xs, owns p x.1 = false := by
  intro x hx
  by_contra ho
  obtain ⟨b, hb, _⟩ := (h.rep x hx).buf (by simpa using ho)
  rw [hp] at hb
  cases hb

theorem Inv.next_none {xs : List (Obj α)} (h : Inv T P H xs) : H.buf H.next = none := by
  rcases hb : H.buf H.next with _ | b
  · rfl
  · exact absurd (h.fresh _ _ hb) (Nat.lt_irrefl _)

/-- A new object in a new block. -/
theorem Inv.put {xs : List (Obj α)} (h : Inv T P H xs) {b : Buf α} {c : Core α}
    {m : List (Option α)} (hrc : b.rc.getD 1 = 1) (ho : owns H.next c = true)
    (hr : Rep P (H.put b) c m) (ht : T → Term P (H.put b) c) :
    Inv T P (H.put b) ((c, m) :: xs) := by
  have hno := h.not_owned h.next_none
  have hf : ∀ x ∈ xs, ∀ p, owns p x.1 = true → (H.put b).buf p = H.buf p := by
    intro x hx p hp
    apply put_buf_ne
    rintro rfl
    rw [hno x hx] at hp
    cases hp
  have ho' : ∀ p, owns p c = true → p = H.next := by
    intro p hp
    cases c <;> simp [owns] at ho hp
    · rw [← hp, ho]
    · rw [← hp, ho]
  refine ⟨?_, ?_, ?_, ?_, ?_⟩
  · intro p b' hb
    simp only [Heap.put] at hb ⊢
    split at hb
    · omega
    · have := h.fresh p b' hb
      omega
  · intro x hx
    rcases List.mem_cons.mp hx with rfl | hx
    · exact hr
    · exact (h.rep x hx).frame (hf x hx)
  · intro t x hx
    rcases List.mem_cons.mp hx with rfl | hx
    · exact ht t
    · exact (h.term t x hx).frame (hf x hx)
  · intro p b' hb
    rw [cnt_cons]
    by_cases hp : p = H.next
    · subst hp
      have : b' = b := by simpa [Heap.put, eq_comm] using hb
      subst this
      rw [cnt_zero.mpr hno, hrc]
      simp [ho]
    · rw [put_buf_ne b hp] at hb
      have : owns p c = false := by
        by_contra hc
        exact hp (ho' p (by simpa using hc))
      simpa [this] using h.count p b' hb
  · intro p x hx y hy ox oy
    rcases List.mem_cons.mp hx with rfl | hx <;> rcases List.mem_cons.mp hy with rfl | hy
    · rfl
    · rw [ho' p ox, hno y hy] at oy
      cases oy
    · rw [ho' p oy, hno x hx] at ox
      cases ox
    · exact h.same p x hx y hy ox oy

/-- Another owner of a long string. -/
theorem Inv.incr {xs : List (Obj α)} (h : Inv T P H xs) {p n : Nat} {m : List (Option α)}
    (hx : (.large p n, m) ∈ xs) :
    ∃ H', incr H p = .ok H' ∧ Inv T P H' ((.large p n, m) :: xs) := by
  obtain ⟨b, hb, hrc, hh⟩ := h.rep _ hx
  obtain ⟨k, hk⟩ := Option.ne_none_iff_exists'.mp hrc
  refine ⟨H.set p (some { b with rc := some (k + 1) }), ?_, ?_⟩
  · simp [StrCore.incr, Heap.get, hb, hk, bind, Except.bind]
  · have hmem : ∀ x ∈ ((.large p n, m) :: xs : List (Obj α)), x ∈ xs := by
      intro x hx'
      rcases List.mem_cons.mp hx' with rfl | hx'
      · exact hx
      · exact hx'
    refine ⟨?_, fun x hx => (h.rep x (hmem x hx)).recount hb hk,
      fun t x hx => (h.term t x (hmem x hx)).recount hb, ?_,
      fun q x hx y hy => h.same q x (hmem x hx) y (hmem y hy)⟩
    · intro q b' hq
      simp only [Heap.set] at hq ⊢
      split at hq
      · rename_i e
        rw [e]
        exact h.fresh p b hb
      · exact h.fresh q b' hq
    · intro q b' hq
      rw [cnt_cons]
      by_cases hqp : q = p
      · subst hqp
        simp only [Heap.set, if_true, Option.some.injEq] at hq
        subst hq
        have := h.count q b hb
        rw [hk] at this
        simp only [Option.getD_some] at this
        simp [owns, this.1]
      · simp only [Heap.set, if_neg hqp] at hq
        have : ¬ p = q := fun e => hqp e.symm
        simpa [owns, this] using h.count q b' hq

/-- The end of an object. -/
theorem Inv.destroy {xs : List (Obj α)} {c : Core α} {m : List (Option α)}
    (h : Inv T P H ((c, m) :: xs)) :
    ∃ H', destroy H c = .ok H' ∧ Inv T P H' xs ∧
      ∀ q, owns q c = false → H'.buf q = H.buf q := by
  have tl : ∀ {x : Obj α}, x ∈ xs → x ∈ (c, m) :: xs := fun hx => List.mem_cons_of_mem _ hx
  -- freeing the only owner's block
  have hfree : ∀ p b, H.buf p = some b → owns p c = true → (∀ q, owns q c = true → q = p) →
      cnt p xs = 0 → Inv T P (H.set p none) xs := by
    intro p b hb ho ho' h0
    have hno := cnt_zero.mp h0
    have hf : ∀ x ∈ xs, ∀ q, owns q x.1 = true → (H.set p none).buf q = H.buf q := by
      intro x hx q hq
      have : q ≠ p := by
        rintro rfl
        rw [hno x hx] at hq
        cases hq
      simp [Heap.set, this]
    refine ⟨?_, fun x hx => (h.rep x (tl hx)).frame (hf x hx),
      fun t x hx => (h.term t x (tl hx)).frame (hf x hx), ?_,
      fun q x hx y hy => h.same q x (tl hx) y (tl hy)⟩
    · intro q b' hq
      simp only [Heap.set] at hq
      split at hq
      · cases hq
      · exact h.fresh q b' hq
    · intro q b' hq
      simp only [Heap.set] at hq
      split at hq
      · cases hq
      · rename_i hqp
        have := h.count q b' hq
        rw [cnt_cons] at this
        have hc : owns q c = false := by
          by_contra hc
          exact hqp (ho' q (by simpa using hc))
        simpa [hc] using this
  cases c with
  | small => exact ⟨H, rfl, h.tail_small, fun _ _ => rfl⟩
  | medium p n =>
    obtain ⟨b, hb, hrc, hh⟩ := h.rep _ (List.mem_cons_self)
    have hc := (h.count p b hb).1
    rw [cnt_cons, hrc] at hc
    simp only [owns, decide_true, if_true, Option.getD_none] at hc
    refine ⟨H.set p none, ?_, hfree p b hb (by simp [owns]) (by simp [owns, eq_comm]) (by omega), ?_⟩
    · simp [StrCore.destroy, destroyM, Heap.free, Heap.get, hb, hrc, bind, Except.bind]
    · intro q hq
      have : q ≠ p := by rintro rfl; simp [owns] at hq
      simp [Heap.set, this]
  | large p n =>
    obtain ⟨b, hb, hrc, hh⟩ := h.rep _ (List.mem_cons_self)
    obtain ⟨k, hk⟩ := Option.ne_none_iff_exists'.mp hrc
    have hc := h.count p b hb
    rw [cnt_cons, hk] at hc
    simp only [owns, decide_true, if_true, Option.getD_some] at hc
    by_cases h1 : k = 1
    · refine ⟨H.set p none, ?_, hfree p b hb (by simp [owns]) (by simp [owns, eq_comm])
        (by omega), ?_⟩
      · simp [StrCore.destroy, decr, Heap.free, Heap.get, hb, hk, h1, bind, Except.bind]
      · intro q hq
        have : q ≠ p := by rintro rfl; simp [owns] at hq
        simp [Heap.set, this]
    · refine ⟨H.set p (some { b with rc := some (k - 1) }), ?_, ?_, ?_⟩
      · simp [StrCore.destroy, decr, Heap.get, hb, hk, h1, bind, Except.bind]
      · refine ⟨?_, fun x hx => (h.rep x (tl hx)).recount hb hk,
          fun t x hx => (h.term t x (tl hx)).recount hb, ?_,
          fun q x hx y hy => h.same q x (tl hx) y (tl hy)⟩
        · intro q b' hq
          simp only [Heap.set] at hq ⊢
          split at hq
          · rename_i e
            rw [e]
            exact h.fresh p b hb
          · exact h.fresh q b' hq
        · intro q b' hq
          by_cases hqp : q = p
          · subst hqp
            simp only [Heap.set, if_true, Option.some.injEq] at hq
            subst hq
            simp only [Option.getD_some]
            omega
          · simp only [Heap.set, if_neg hqp] at hq
            have := h.count q b' hq
            rw [cnt_cons] at this
            have hne : ¬ p = q := fun e => hqp e.symm
            simpa [owns, hne] using this
      · intro q hq
        have : q ≠ p := by rintro rfl; simp [owns] at hq
        simp [Heap.set, this]

/-- A change of the block of the first object, which keeps what other owners see. -/
theorem Inv.modify {xs : List (Obj α)} {c c' : Core α} {m m' : List (Option α)} {p : Nat}
    {b b' : Buf α} (h : Inv T P H ((c, m) :: xs)) (hb : H.buf p = some b)
    (ho : ∀ q, owns q c' = owns q c) (hp : owns p c = true)
    (hrc : b'.rc = b.rc)
    (hr : Rep P (H.set p (some b')) c' m') (ht : T → Term P (H.set p (some b')) c')
    (hu : Uniq xs c ∨ (c' = c ∧ m' = m ∧ b'.cap = b.cap)) :
    Inv T P (H.set p (some b')) ((c', m') :: xs) := by
  have tl : ∀ {x : Obj α}, x ∈ xs → x ∈ (c, m) :: xs := fun hx => List.mem_cons_of_mem _ hx
  have hne : ∀ q, q ≠ p → (H.set p (some b')).buf q = H.buf q := fun q hq => by
    simp [Heap.set, hq]
  have hpp : (H.set p (some b')).buf p = some b' := by simp [Heap.set]
  refine ⟨?_, ?_, ?_, ?_, ?_⟩
  · intro q b1 hq
    by_cases e : q = p
    · rw [e]
      exact h.fresh p b hb
    · rw [hne q e] at hq
      exact h.fresh q b1 hq
  · intro x hx
    rcases List.mem_cons.mp hx with rfl | hx
    · exact hr
    · rcases hu with hu | ⟨rfl, rfl, hcap⟩
      · refine (h.rep x (tl hx)).frame fun q hq => hne q ?_
        rintro rfl
        rw [hu q hp x hx] at hq
        cases hq
      · -- another owner has the same size and kind
        by_cases hox : owns p x.1 = true
        · have hsz := h.same p x (tl hx) _ List.mem_cons_self hox hp
          have hm := h.shared (tl hx) List.mem_cons_self hox hp
          obtain ⟨b1, hb1, hh⟩ := hr.buf hp
          rw [hpp] at hb1
          cases hb1
          have hx' := h.rep x (tl hx)
          rw [hm] at hx' ⊢
          cases hxc : x.1 with
          | small => rw [hxc] at hox; cases hox
          | medium q n =>
            rw [hxc] at hox hx' hsz
            have hq : q = p := by simpa [owns] using hox
            subst hq
            obtain ⟨b2, h1, h2, h3⟩ := hx'
            rw [hb] at h1
            cases h1
            simp only [Core.size] at hsz
            exact ⟨b', hpp, by rw [hrc, h2], by rw [hsz]; exact hh⟩
          | large q n =>
            rw [hxc] at hox hx' hsz
            have hq : q = p := by simpa [owns] using hox
            subst hq
            obtain ⟨b2, h1, h2, h3⟩ := hx'
            rw [hb] at h1
            cases h1
            simp only [Core.size] at hsz
            exact ⟨b', hpp, by rw [hrc]; exact h2, by rw [hsz]; exact hh⟩
        · refine (h.rep x (tl hx)).frame fun q hq => hne q ?_
          rintro rfl
          exact hox hq
  · intro t x hx
    rcases List.mem_cons.mp hx with rfl | hx
    · exact ht t
    · by_cases hox : owns p x.1 = true
      · rcases hu with hu | ⟨rfl, rfl, hcap⟩
        · rw [hu p hp x hx] at hox
          cases hox
        · have hsz := h.same p x (tl hx) _ List.mem_cons_self hox hp
          have key : b'.cells[c'.size]? = some (some P.nul) := by
            have := ht t
            cases c' with
            | small => cases hp
            | medium q n =>
              have hq : q = p := by simpa [owns] using hp
              subst hq
              obtain ⟨b1, h1, h2⟩ := this
              rw [hpp] at h1
              cases h1
              exact h2
            | large q n =>
              have hq : q = p := by simpa [owns] using hp
              subst hq
              obtain ⟨b1, h1, h2⟩ := this
              rw [hpp] at h1
              cases h1
              exact h2
          simp only at hsz
          cases hxc : x.1 with
          | small => rw [hxc] at hox; cases hox
          | medium q n =>
            rw [hxc] at hox hsz
            have hq : q = p := by simpa [owns] using hox
            subst hq
            exact ⟨b', hpp, by rw [show n = c'.size from hsz]; exact key⟩
          | large q n =>
            rw [hxc] at hox hsz
            have hq : q = p := by simpa [owns] using hox
            subst hq
            exact ⟨b', hpp, by rw [show n = c'.size from hsz]; exact key⟩
      · refine (h.term t x (tl hx)).frame fun q hq => hne q ?_
        rintro rfl
        exact hox hq
  · intro q b1 hq
    rw [cnt_cons]
    simp only [ho q]
    by_cases e : q = p
    · subst e
      rw [hpp] at hq
      cases hq
      have := h.count q b hb
      rw [cnt_cons] at this
      rwa [hrc]
    · rw [hne q e] at hq
      have := h.count q b1 hq
      rwa [cnt_cons] at this
  · intro q x hx y hy ox oy
    have hmix : ∀ z ∈ xs, owns q c' = true → owns q z.1 = true → c'.size = z.1.size := by
      intro z hz oc oz
      rcases hu with hu | ⟨rfl, -, -⟩
      · rw [ho q] at oc
        rw [hu q oc z hz] at oz
        cases oz
      · exact h.same q _ List.mem_cons_self z (tl hz) oc oz
    rcases List.mem_cons.mp hx with rfl | hx <;> rcases List.mem_cons.mp hy with rfl | hy
    · rfl
    · exact hmix y hy ox oy
    · exact (hmix x hx oy ox).symm
    · exact h.same q x (tl hx) y (tl hy) ox oy

end Verif.StrCore
