import Verif.StrCoreInv

/-! What the operations of `string_core` do to the objects in memory. -/

namespace Verif.StrCore

variable {α : Type} {T : Prop} {P : Par α} {H : Heap α}

/-- What is asked of the parameters. -/
structure Good (P : Par α) : Prop where
  S_pos : 1 ≤ P.S
  S_le : P.S ≤ P.M
  goodM : ∀ n, n ≤ P.goodM n
  goodL : ∀ n, n ≤ P.goodL n

theorem head_mem {x : Obj α} {xs : List (Obj α)} : x ∈ x :: xs := List.mem_cons_self

/-! ## Short strings -/

theorem rawCells_length : (rawCells P).length = P.S + 1 := by simp [rawCells]

theorem rawCells_zero : (rawCells P)[P.S]? = some (some P.nul) := by
  simp [rawCells]

theorem setSmallSize_spec {cells : List (Option α)} {n : Nat} (hl : cells.length = P.S + 1)
    (hz : cells[P.S]? = some (some P.nul)) (hn : n ≤ P.S) :
    Rep P H (setSmallSize P cells n) (cells.take n) ∧ Term P H (setSmallSize P cells n) := by
  have hb : n + [some P.nul].length ≤ cells.length := by simp; omega
  refine ⟨⟨?_, ?_, hn, ?_, ?_⟩, ?_⟩
  · rw [overwrite_length hb, hl]
  · rw [List.length_take]; omega
  · exact overwrite_take_of_le (Nat.le_refl _) hb
  · rw [overwrite_getElem? hb]
    split
    · exact hz
    · split
      · simp [show P.S - n = 0 by simp at *; omega]
      · exact hz
  · show (overwrite cells n [some P.nul])[n]? = _
    rw [overwrite_getElem? hb]
    simp

theorem overwrite_small {cells l : List (Option α)} {off : Nat} (hl : cells.length = P.S + 1)
    (hz : cells[P.S]? = some (some P.nul)) (hn : off + l.length ≤ P.S) :
    (overwrite cells off l).length = P.S + 1 ∧
      (overwrite cells off l)[P.S]? = some (some P.nul) := by
  refine ⟨by rw [overwrite_length (by omega), hl], ?_⟩
  rw [overwrite_getElem? (by omega)]
  rw [if_neg (by omega), if_neg (by omega), hz]

theorem initSmall_spec {l : List (Option α)} (hn : l.length ≤ P.S) :
    Rep P H (initSmall P l) l ∧ Term P H (initSmall P l) := by
  have h1 := overwrite_small (P := P) (off := 0) (l := l) rawCells_length rawCells_zero (by omega)
  have h2 := setSmallSize_spec (H := H) h1.1 h1.2 hn
  rw [overwrite_zero_take (by rw [rawCells_length]; omega)] at h2
  exact h2

theorem initSmall_inv {xs : List (Obj α)} (h : Inv T P H xs) {l : List (Option α)}
    (hn : l.length ≤ P.S) : Inv T P H ((initSmall P l, l) :: xs) :=
  h.small (initSmall_spec hn).1 fun _ => (initSmall_spec hn).2

theorem empty_eq (hS : 1 ≤ P.S) : empty P = initSmall P [] := by
  simp [empty, initSmall, overwrite_nil]

theorem empty_inv {xs : List (Obj α)} (h : Inv T P H xs) (hS : 1 ≤ P.S) :
    Inv T P H ((empty P, []) :: xs) := by
  rw [empty_eq hS]
  exact initSmall_inv h (by simp)

/-! ## New blocks -/

theorem Inv.block {xs : List (Obj α)} (h : Inv T P H xs) {b : Buf α} {c : Core α} {n : Nat}
    {m : List (Option α)}
    (hc : (c = .medium H.next n ∧ b.rc = none) ∨ (c = .large H.next n ∧ b.rc = some 1))
    (hh : Holds b n m) (ht : T → b.cells[n]? = some (some P.nul)) :
    Inv T P (H.put b) ((c, m) :: xs) := by
  have hb : (H.put b).buf H.next = some b := by simp [Heap.put]
  rcases hc with ⟨rfl, hrc⟩ | ⟨rfl, hrc⟩
  · exact h.put (by simp [hrc]) (by simp [owns]) ⟨b, hb, hrc, hh⟩ fun t => ⟨b, hb, ht t⟩
  · exact h.put (by simp [hrc]) (by simp [owns]) ⟨b, hb, by simp [hrc], hh⟩
      fun t => ⟨b, hb, ht t⟩

/-- A block the characters and the terminator were written to. -/
theorem holds_two {rc : Option Nat} {cap : Nat} {l : List (Option α)} (hl : l.length ≤ cap) :
    let b : Buf α := ⟨rc, cap,
      overwrite (overwrite (List.replicate (cap + 1) none) 0 l) l.length [some P.nul]⟩
    Holds b l.length l ∧ b.cells[l.length]? = some (some P.nul) := by
  have h1 : 0 + l.length ≤ (List.replicate (cap + 1) (none : Option α)).length := by simp; omega
  have h2 : l.length + [some P.nul].length ≤
      (overwrite (List.replicate (cap + 1) (none : Option α)) 0 l).length := by
    rw [overwrite_length h1]; simp; omega
  refine ⟨⟨?_, rfl, hl, ?_⟩, ?_⟩
  · simp only [overwrite_length h2, overwrite_length h1, List.length_replicate]
  · simp only [overwrite_take_of_le (Nat.le_refl _) h2]
    exact overwrite_zero_take (by simpa using h1)
  · simp [overwrite_getElem? h2]

/-- A block the characters were copied to together with the cell that follows them. -/
theorem holds_one {rc : Option Nat} {cap n : Nat} {l : List (Option α)} (hl : l.length = n + 1)
    (hn : n ≤ cap) :
    let b : Buf α := ⟨rc, cap, overwrite (List.replicate (cap + 1) none) 0 l⟩
    Holds b n (l.take n) ∧ b.cells[n]? = l[n]? := by
  have h1 : 0 + l.length ≤ (List.replicate (cap + 1) (none : Option α)).length := by simp; omega
  refine ⟨⟨?_, by simp; omega, hn, ?_⟩, ?_⟩
  · simp only [overwrite_length h1, List.length_replicate]
  · simp [overwrite, List.take_append, List.take_take, hl]
  · simp only [overwrite_getElem? h1]
    simp [hl]

/-- `mk` makes a string of the given characters. -/
theorem mk_spec (hg : Good P) {xs : List (Obj α)} (h : Inv T P H xs) (l : List (Option α)) :
    ∃ H' c, mk P H l = .ok (H', c) ∧ Inv T P H' ((c, l) :: xs) := by
  unfold mk
  split
  · rename_i hn
    exact ⟨_, _, rfl, initSmall_inv h hn⟩
  split
  · have hh := holds_two (P := P) (rc := none) (hg.goodM l.length)
    refine ⟨H.put _, .medium H.next l.length, ?_, h.block (.inl ⟨rfl, rfl⟩) hh.1 fun _ => hh.2⟩
    have h1 := hg.goodM l.length
    simp only [initMedium, createM, alloc_eq]
    rw [put_write _ (by simp; omega)]
    simp only [bind, Except.bind]
    rw [put_write _ (by rw [overwrite_length] <;> simp <;> omega)]
  · have hh := holds_two (P := P) (rc := some 1) (hg.goodL l.length)
    refine ⟨H.put _, .large H.next l.length, ?_, h.block (.inr ⟨rfl, rfl⟩) hh.1 fun _ => hh.2⟩
    have h1 := hg.goodL l.length
    simp only [initLarge, createL, alloc_eq]
    rw [put_write _ (by simp; omega)]
    simp only [bind, Except.bind]
    rw [put_write _ (by rw [overwrite_length] <;> simp <;> omega)]

/-! ## Reading -/

theorem Holds.slice {b : Buf α} {n : Nat} {m : List (Option α)} (h : Holds b n m) {off k : Nat}
    (hk : off + k ≤ m.length) : (b.cells.drop off).take k = (m.drop off).take k := by
  rw [← h.chars]
  apply List.ext_getElem?
  intro i
  have := h.size
  have := h.chars
  simp only [List.getElem?_take, List.getElem?_drop]
  split
  · rw [if_pos (by omega)]
  · rfl

theorem read_spec {p : Nat} {b : Buf α} {n : Nat} {m : List (Option α)} (hb : H.buf p = some b)
    (h : Holds b n m) {off k : Nat} (hk : off + k ≤ m.length) :
    H.read p off k = .ok ((m.drop off).take k) := by
  have h1 := h.len
  have h2 := h.size
  have h3 := h.fits
  simp only [Heap.read, Heap.get, hb, bind, Except.bind]
  rw [if_pos (by omega), h.slice hk]

theorem peek_rep {c : Core α} {m : List (Option α)} (h : Rep P H c m) {off k : Nat}
    (hk : off + k ≤ m.length) : peek H c off k = .ok ((m.drop off).take k) := by
  cases c with
  | small cells len =>
    obtain ⟨h1, h2, h3, h4, h5⟩ := h
    simp only [peek]
    rw [if_pos (by omega)]
    congr 1
    rw [← h4]
    apply List.ext_getElem?
    intro i
    simp only [List.getElem?_take, List.getElem?_drop]
    split
    · rw [if_pos (by omega)]
    · rfl
  | medium p n =>
    obtain ⟨b, hb, _, hh⟩ := h
    exact read_spec hb hh hk
  | large p n =>
    obtain ⟨b, hb, _, hh⟩ := h
    exact read_spec hb hh hk

theorem peek_all {c : Core α} {m : List (Option α)} (h : Rep P H c m) :
    peek H c 0 c.size = .ok m := by
  rw [peek_rep h (by rw [h.size]; omega), ← h.size]
  simp

/-! ## Copying and moving -/

theorem fromView_spec (hg : Good P) {xs : List (Obj α)} (h : Inv T P H xs) {c : Core α}
    {m : List (Option α)} (hx : (c, m) ∈ xs) :
    ∃ H' c', fromView P H c = .ok (H', c') ∧ Inv T P H' ((c', m) :: xs) := by
  have hr := h.rep _ hx
  have hp := peek_all hr
  have hm := mk_spec hg h m
  obtain ⟨H', c', h1, h2⟩ := hm
  cases c with
  | small cells len =>
    refine ⟨H', c', ?_, h2⟩
    simp only [fromView, hp, bind, Except.bind, h1]
  | medium p n =>
    refine ⟨H', c', ?_, h2⟩
    simp only [fromView, hp, bind, Except.bind, h1]
  | large p n =>
    simp only [fromView]
    split
    · refine ⟨H', c', ?_, h2⟩
      simp only [Core.size] at hp
      simp only [hp, bind, Except.bind, h1]
    · obtain ⟨H2, h3, h4⟩ := h.incr hx
      exact ⟨H2, _, by simp only [h3, bind, Except.bind], h4⟩

theorem copy_spec (hg : Good P) {xs : List (Obj α)} (h : Inv T P H xs) {c : Core α}
    {m : List (Option α)} (hx : (c, m) ∈ xs) :
    ∃ H' c', copy P H c = .ok (H', c') ∧ Inv T P H' ((c', m) :: xs) := by
  have hr := h.rep _ hx
  cases c with
  | small cells len => exact ⟨H, _, rfl, h.small hr fun t => h.term t _ hx⟩
  | medium p n =>
    obtain ⟨b, hb, _, hh⟩ := hr
    have hs := hh.size
    have h2 := holds_two (P := P) (rc := none) (hg.goodM m.length)
    refine ⟨H.put _, .medium H.next m.length, ?_, h.block (.inl ⟨rfl, rfl⟩) h2.1 fun _ => h2.2⟩
    have h1 := hg.goodM m.length
    have hrd := read_spec hb hh (off := 0) (k := n) (by omega)
    simp only [List.drop_zero, ← hs, List.take_length] at hrd
    simp only [copy, ← hs, hrd, createM, alloc_eq, bind, Except.bind]
    rw [put_write _ (by simp; omega)]
    simp only
    rw [put_write _ (by rw [overwrite_length] <;> simp <;> omega)]
  | large p n =>
    obtain ⟨H2, h3, h4⟩ := h.incr hx
    exact ⟨H2, _, by simp only [copy, h3, bind, Except.bind], h4⟩

/-- Leaving an object behind empty and continuing it as another variable. -/
theorem moveFrom_rep {c : Core α} {m : List (Option α)} (h : Rep P H c m) :
    Rep P H (moveFrom P c) m := by
  cases c with
  | small cells len =>
    obtain ⟨h1, h2, h3, h4, h5⟩ := h
    have hl : (cells.take len).length = len := by rw [h4, h2]
    by_cases hS : 1 ≤ P.S
    · have ha := overwrite_small (off := 0) (l := [some P.nul]) rawCells_length
        rawCells_zero (by simpa using hS)
      have hb := overwrite_small (off := 0) (l := cells.take len) ha.1 ha.2 (by omega)
      refine ⟨hb.1, h2, h3, ?_, hb.2⟩
      have : ∀ d : List (Option α), len ≤ d.length →
          (overwrite d 0 (cells.take len)).take len = m := by
        intro d hd
        have := overwrite_zero_take (cells := d) (l := cells.take len) (by omega)
        rw [hl] at this
        rw [this, h4]
      exact this _ (by omega)
    · have hS0 : P.S = 0 := by omega
      have h0 : len = 0 := by omega
      subst h0
      have hm : m = [] := List.length_eq_zero_iff.mp h2
      refine ⟨?_, h2, h3, by simp [hm], ?_⟩
      · simp [rawCells, hS0, overwrite]
      · simp [rawCells, hS0, overwrite]
  | medium => exact h
  | large => exact h

theorem owns_moveFrom (c : Core α) (p : Nat) : owns p (moveFrom P c) = owns p c := by
  cases c <;> rfl

/-! ## Unshared storage -/

theorem uniq_small {xs : List (Obj α)} {cells : List (Option α)} {len : Nat} :
    Uniq xs (.small cells len) := by
  intro p hp
  cases hp

theorem Inv.uniq_of_count {xs : List (Obj α)} {c : Core α} {m : List (Option α)}
    (h : Inv T P H ((c, m) :: xs)) {p : Nat} {b : Buf α} (hb : H.buf p = some b)
    (hp : owns p c = true) (hk : b.rc.getD 1 ≤ 1) : Uniq xs c := by
  intro q hq
  have hqp : q = p := by
    cases c <;> simp [owns] at hp hq
    · rw [← hp, hq]
    · rw [← hp, hq]
  subst hqp
  have := (h.count q b hb).1
  rw [cnt_cons] at this
  simp only [hq, if_true] at this
  exact cnt_zero.mp (by omega)

theorem Inv.uniq_medium {xs : List (Obj α)} {p n : Nat} {m : List (Option α)}
    (h : Inv T P H ((.medium p n, m) :: xs)) : Uniq xs (.medium p n : Core α) := by
  obtain ⟨b, hb, hrc, _⟩ := h.rep _ head_mem
  exact h.uniq_of_count hb (by simp [owns]) (by simp [hrc])

/-- A shared long string has another owner. -/
theorem Inv.other_owner {xs : List (Obj α)} {p n k : Nat} {m : List (Option α)}
    (h : Inv T P H ((.large p n, m) :: xs)) {b : Buf α} (hb : H.buf p = some b)
    (hk : b.rc = some k) (h1 : 1 < k) : ∃ x ∈ xs, owns p x.1 = true := by
  have := (h.count p b hb).1
  rw [cnt_cons, hk] at this
  simp only [owns, decide_true, if_true, Option.getD_some] at this
  by_contra hcon
  have : cnt p xs = 0 := cnt_zero.mpr fun x hx => by
    by_contra ho
    exact hcon ⟨x, hx, by simpa using ho⟩
  omega

theorem uniq_next {xs : List (Obj α)} (h : Inv T P H xs) {c : Core α}
    (ho : ∀ q, owns q c = true → q = H.next) : Uniq xs c := by
  intro q hq x hx
  rw [ho q hq]
  exact h.not_owned h.next_none x hx

/-- The capacity is at least `k`. -/
def Room (H : Heap α) (c : Core α) (k : Nat) : Prop :=
  ∀ p b, owns p c = true → H.buf p = some b → k ≤ b.cap

/-- `get` of an owner's block. -/
theorem get_eq {p : Nat} {b : Buf α} (hb : H.buf p = some b) : H.get p = .ok b := by
  simp [Heap.get, hb]

theorem refs_eq {p k : Nat} {b : Buf α} (hb : H.buf p = some b) (hk : b.rc = some k) :
    refs H p = .ok k := by
  simp [refs, Heap.get, hb, hk, bind, Except.bind]

/-- The characters and the cell after them. -/
theorem Holds.read_next {b : Buf α} {n : Nat} {m : List (Option α)} (h : Holds b n m) {p : Nat}
    (hb : H.buf p = some b) : ∃ l, H.read p 0 (n + 1) = .ok l ∧ l.length = n + 1 ∧
      l.take n = m ∧ l[n]? = b.cells[n]? := by
  refine ⟨b.cells.take (n + 1), ?_, ?_, ?_, ?_⟩
  · have := h.len
    have := h.fits
    simp only [Heap.read, get_eq hb, bind, Except.bind]
    rw [if_pos (by omega)]
    simp
  · have := h.len
    have := h.fits
    rw [List.length_take]
    omega
  · rw [List.take_take, ← h.chars]
    congr 1
    omega
  · rw [List.getElem?_take, if_pos (by omega)]

theorem Inv.ne_next {xs : List (Obj α)} (h : Inv T P H xs) {p : Nat} {b : Buf α}
    (hb : H.buf p = some b) : p ≠ H.next := by
  have := h.fresh p b hb
  omega

theorem unshare_spec (hg : Good P) {xs : List (Obj α)} {p n : Nat} {m : List (Option α)}
    (h : Inv T P H ((.large p n, m) :: xs)) (minCap : Nat) :
    ∃ H' q, unshare P H p n minCap = .ok (H', .large q n) ∧
      Inv T P H' ((.large q n, m) :: xs) ∧ Uniq xs (.large q n) ∧
      Room H' (.large q n) minCap := by
  obtain ⟨b, hb, hrc, hh⟩ := h.rep _ head_mem
  have hpn := h.ne_next hb
  have hfit := hh.fits
  have hgl := hg.goodL (max minCap b.cap)
  have hcap : n ≤ P.goodL (max minCap b.cap) := by omega
  obtain ⟨l, hl1, hl2, hl3, hl4⟩ := hh.read_next hb
  have h1 := holds_one (rc := some 1) hl2 hcap
  rw [hl3] at h1
  have hterm : T → (overwrite (List.replicate (P.goodL (max minCap b.cap) + 1) none) 0 l)[n]? =
      some (some P.nul) := by
    intro t
    have := h.term t _ head_mem
    obtain ⟨b', hb', ht⟩ := this
    rw [hb] at hb'
    cases hb'
    rw [← ht, ← hl4]
    exact h1.2
  have hI := (h.block (.inr ⟨rfl, rfl⟩) h1.1 hterm).perm (List.Perm.swap _ _ _)
  have hd := hI.destroy
  obtain ⟨H', hd1, hd2, hd3⟩ := hd
  refine ⟨H', H.next, ?_, hd2, ?_, ?_⟩
  · simp only [StrCore.destroy] at hd1
    simp only [unshare, get_eq hb, bind, Except.bind, createL, alloc_eq]
    rw [put_read_ne _ hpn, hl1]
    simp only
    rw [put_write _ (by simp; omega)]
    simp only [hd1]
  · have := uniq_next h (c := .large H.next n) (by simp [owns, eq_comm])
    intro q hq x hx
    exact this q hq x (List.mem_cons_of_mem _ hx)
  · intro q b' hq hb'
    have hq : q = H.next := by simpa [owns, eq_comm] using hq
    subst hq
    rw [hd3 _ (by simp [owns, hpn])] at hb'
    simp only [Heap.put, if_true, Option.some.injEq] at hb'
    subst hb'
    simp only
    omega

theorem mutableData_spec (hg : Good P) {xs : List (Obj α)} {c : Core α} {m : List (Option α)}
    (h : Inv T P H ((c, m) :: xs)) :
    ∃ H' c', mutableData P H c = .ok (H', c') ∧ Inv T P H' ((c', m) :: xs) ∧ Uniq xs c' ∧
      c'.size = c.size ∧ ((H' = H ∧ c' = c) ∨ ∃ p n, c = .large p n ∧ ∃ x ∈ xs, owns p x.1) := by
  cases c with
  | small => exact ⟨H, _, rfl, h, uniq_small, rfl, .inl ⟨rfl, rfl⟩⟩
  | medium => exact ⟨H, _, rfl, h, h.uniq_medium, rfl, .inl ⟨rfl, rfl⟩⟩
  | large p n =>
    obtain ⟨b, hb, hrc, hh⟩ := h.rep _ head_mem
    obtain ⟨k, hk⟩ := Option.ne_none_iff_exists'.mp hrc
    simp only [mutableData, refs_eq hb hk, bind, Except.bind]
    by_cases h1 : k > 1
    · rw [if_pos h1]
      obtain ⟨H', q, hu1, hu2, hu3, -⟩ := unshare_spec hg h 0
      exact ⟨H', _, hu1, hu2, hu3, rfl, .inr ⟨p, n, rfl, h.other_owner hb hk h1⟩⟩
    · rw [if_neg h1]
      exact ⟨H, _, rfl, h, h.uniq_of_count hb (by simp [owns]) (by simp [hk]; omega), rfl,
        .inl ⟨rfl, rfl⟩⟩

/-! ## Writing -/

def Core.withSize : Core α → Nat → Core α
  | .small cells len, _ => .small cells len
  | .medium p _, n => .medium p n
  | .large p _, n => .large p n

theorem owns_withSize (c : Core α) (n p : Nat) : owns p (c.withSize n) = owns p c := by
  cases c <;> rfl

theorem withSize_size (c : Core α) : c.withSize c.size = c := by
  cases c <;> rfl

theorem Rep.reset {c : Core α} {m m' : List (Option α)} {p n : Nat} {b b' : Buf α}
    (h : Rep P H c m) (hp : owns p c = true) (hb : H.buf p = some b) (hrc : b'.rc = b.rc)
    (hh : Holds b' n m') : Rep P (H.set p (some b')) (c.withSize n) m' := by
  cases c with
  | small => cases hp
  | medium q k =>
    have hq : q = p := by simpa [owns] using hp
    subst hq
    obtain ⟨b1, h1, h2, -⟩ := h
    rw [hb] at h1
    cases h1
    exact ⟨b', by simp [Heap.set], by rw [hrc, h2], hh⟩
  | large q k =>
    have hq : q = p := by simpa [owns] using hp
    subst hq
    obtain ⟨b1, h1, h2, -⟩ := h
    rw [hb] at h1
    cases h1
    exact ⟨b', by simp [Heap.set], by rw [hrc]; exact h2, hh⟩

theorem Term.reset {c : Core α} {p n : Nat} {b' : Buf α} (hp : owns p c = true)
    (ht : b'.cells[n]? = some (some P.nul)) : Term P (H.set p (some b')) (c.withSize n) := by
  cases c with
  | small => cases hp
  | medium q k =>
    have hq : q = p := by simpa [owns] using hp
    subst hq
    exact ⟨b', by simp [Heap.set], ht⟩
  | large q k =>
    have hq : q = p := by simpa [owns] using hp
    subst hq
    exact ⟨b', by simp [Heap.set], ht⟩

theorem Term.get {c : Core α} {p : Nat} {b : Buf α} (h : Term P H c) (hp : owns p c = true)
    (hb : H.buf p = some b) : b.cells[c.size]? = some (some P.nul) := by
  cases c with
  | small => cases hp
  | medium q k =>
    have hq : q = p := by simpa [owns] using hp
    subst hq
    obtain ⟨b1, h1, h2⟩ := h
    rw [hb] at h1
    cases h1
    exact h2
  | large q k =>
    have hq : q = p := by simpa [owns] using hp
    subst hq
    obtain ⟨b1, h1, h2⟩ := h
    rw [hb] at h1
    cases h1
    exact h2

theorem poke_heap {c : Core α} {p : Nat} (hp : owns p c = true) (off : Nat)
    (l : List (Option α)) :
    poke H c off l = (H.write p off l).bind fun H' => .ok (H', c) := by
  cases c with
  | small => cases hp
  | medium q k =>
    have hq : q = p := by simpa [owns] using hp
    subst hq
    rfl
  | large q k =>
    have hq : q = p := by simpa [owns] using hp
    subst hq
    rfl

theorem setSize_heap {c : Core α} {p : Nat} (hp : owns p c = true) (n : Nat) :
    setSize P H c n = (H.write p n [some P.nul]).bind fun H' => .ok (H', c.withSize n) := by
  cases c with
  | small => cases hp
  | medium q k =>
    have hq : q = p := by simpa [owns] using hp
    subst hq
    rfl
  | large q k =>
    have hq : q = p := by simpa [owns] using hp
    subst hq
    rfl

/-- Writing inside the characters of unshared storage. -/
theorem poke_spec {xs : List (Obj α)} {c : Core α} {m l : List (Option α)} {off : Nat}
    (h : Inv T P H ((c, m) :: xs)) (hu : Uniq xs c ∨ l = []) (hl : off + l.length ≤ m.length) :
    ∃ H' c', poke H c off l = .ok (H', c') ∧ Inv T P H' ((c', overwrite m off l) :: xs) ∧
      (Uniq xs c → Uniq xs c') ∧ c'.size = c.size ∧ (∀ q, owns q c' = owns q c) := by
  have hr : Rep P H c m := h.rep _ head_mem
  have hsz := hr.size
  by_cases hown : ∃ p, owns p c = true
  · obtain ⟨p, hp⟩ := hown
    obtain ⟨b, hb, hh⟩ := hr.buf hp
    have h1 := hh.len
    have h2 := hh.fits
    have hw : H.write p off l = .ok (H.set p (some { b with cells := overwrite b.cells off l })) := by
      simp only [Heap.write, get_eq hb, bind, Except.bind]
      rw [if_pos (by omega)]
    have hh' : Holds { b with cells := overwrite b.cells off l } c.size (overwrite m off l) := by
      refine ⟨?_, ?_, h2, ?_⟩
      · simp only [overwrite_length (show off + l.length ≤ b.cells.length by omega), h1]
      · rw [overwrite_length hl, hsz]
      · simp only
        rw [overwrite_take (by omega) (by omega), hh.chars]
    refine ⟨H.set p (some { b with cells := overwrite b.cells off l }), c, ?_, ?_, id, rfl,
      fun _ => rfl⟩
    · rw [poke_heap hp, hw]
      rfl
    · have hR := hr.reset hp hb (b' := { b with cells := overwrite b.cells off l }) rfl hh'
      rw [withSize_size] at hR
      refine h.modify hb (fun _ => rfl) hp rfl hR ?_ ?_
      · intro t
        have ht := (h.term t _ head_mem).get hp hb
        have := Term.reset (P := P) (H := H) (n := c.size)
          (b' := { b with cells := overwrite b.cells off l }) hp (by
            simp only
            rw [overwrite_getElem? (by omega), if_neg (by omega), if_neg (by omega)]
            exact ht)
        rwa [withSize_size] at this
      · rcases hu with hu | rfl
        · exact .inl hu
        · exact .inr ⟨rfl, overwrite_nil _ _, rfl⟩
  · cases c with
    | medium p n => exact absurd ⟨p, by simp [owns]⟩ hown
    | large p n => exact absurd ⟨p, by simp [owns]⟩ hown
    | small cells len =>
      obtain ⟨r1, r2, r3, r4, r5⟩ := hr
      have ho := overwrite_small (l := l) (off := off) r1 r5 (by omega)
      refine ⟨H, .small (overwrite cells off l) len, ?_, ?_, fun _ => uniq_small, rfl,
        fun _ => rfl⟩
      · simp only [poke]
        rw [if_pos (by omega)]
      · refine h.tail_small.small ⟨ho.1, ?_, r3, ?_, ho.2⟩ ?_
        · rw [overwrite_length hl, r2]
        · rw [overwrite_take (by omega) (by omega), r4]
        · intro t
          have ht : cells[len]? = some (some P.nul) := h.term t _ head_mem
          show (overwrite cells off l)[len]? = _
          rw [overwrite_getElem? (by omega), if_neg (by omega), if_neg (by omega), ht]

/-- A new size. -/
theorem setSize_spec {xs : List (Obj α)} {c : Core α} {m : List (Option α)} {p n : Nat}
    (h : Inv T P H ((c, m) :: xs)) (hp : owns p c = true) (hu : Uniq xs c ∨ n = c.size)
    (hroom : Room H c n) :
    ∃ H' m', setSize P H c n = .ok (H', c.withSize n) ∧ Inv T P H' ((c.withSize n, m') :: xs) ∧
      m'.length = n ∧ m'.take m.length = m.take n := by
  have hr : Rep P H c m := h.rep _ head_mem
  have hsz := hr.size
  obtain ⟨b, hb, hh⟩ := hr.buf hp
  have hfit := hroom p b hp hb
  have h1 := hh.len
  have hb1 : n + [some P.nul].length ≤ b.cells.length := by simp; omega
  have hw : H.write p n [some P.nul] =
      .ok (H.set p (some { b with cells := overwrite b.cells n [some P.nul] })) := by
    simp only [Heap.write, get_eq hb, bind, Except.bind]
    rw [if_pos hb1]
  have htake : (overwrite b.cells n [some P.nul]).take n = b.cells.take n :=
    overwrite_take_of_le (Nat.le_refl _) hb1
  have hh' : Holds { b with cells := overwrite b.cells n [some P.nul] } n (b.cells.take n) := by
    refine ⟨?_, by rw [List.length_take]; omega, hfit, htake⟩
    simp only [overwrite_length hb1, h1]
  refine ⟨H.set p (some { b with cells := overwrite b.cells n [some P.nul] }),
    b.cells.take n, ?_, ?_, by rw [List.length_take]; omega, ?_⟩
  · rw [setSize_heap hp, hw]
    rfl
  · have hR := hr.reset hp hb (b' := { b with cells := overwrite b.cells n [some P.nul] }) rfl hh'
    refine h.modify hb (fun q => owns_withSize c n q) hp rfl hR ?_ ?_
    · intro _
      refine Term.reset hp ?_
      simp [overwrite_getElem? hb1]
    · rcases hu with hu | rfl
      · exact .inl hu
      · exact .inr ⟨withSize_size c, hh.chars, rfl⟩
  · rw [← hh.chars, List.length_take, List.take_take, List.take_take]
    congr 1
    have := hh.size
    omega

end Verif.StrCore
