import Verif.StrCoreGrow

/-! What the operations of strings do to the characters. -/

namespace Verif.StrCore

variable {α : Type} {T : Prop} {P : Par α} {H : Heap α}

/-- The argument is the `n` characters `l`, kept by something other than the string itself. -/
def SrcElse (xs : List (Obj α)) (s : Src α) (n : Nat) (l : List (Option α)) : Prop :=
  match s with
  | .ext l0 => n ≤ l0.length ∧ l = l0.take n
  | .self _ => False
  | .heap p off => ∃ x ∈ xs, owns p x.1 = true ∧ off + n ≤ x.2.length ∧ l = (x.2.drop off).take n

/-- The argument is a part of the string itself. -/
def SrcSelf (c : Core α) (m : List (Option α)) (s : Src α) (n : Nat) (l : List (Option α)) : Prop :=
  match s with
  | .ext _ => False
  | .self off => (∃ cells len, c = .small cells len) ∧ off + n ≤ m.length ∧
      l = (m.drop off).take n
  | .heap p off => owns p c = true ∧ off + n ≤ m.length ∧ l = (m.drop off).take n

def SrcIs (c : Core α) (m : List (Option α)) (xs : List (Obj α)) (s : Src α) (n : Nat)
    (l : List (Option α)) : Prop :=
  SrcElse xs s n l ∨ SrcSelf c m s n l

theorem SrcElse.length {xs : List (Obj α)} {s : Src α} {n : Nat} {l : List (Option α)}
    (h : SrcElse xs s n l) : l.length = n := by
  cases s with
  | ext l0 => obtain ⟨h1, rfl⟩ := h; rw [List.length_take]; omega
  | self => cases h
  | heap p off =>
    obtain ⟨x, _, _, h1, rfl⟩ := h
    rw [List.length_take, List.length_drop]
    omega

theorem SrcSelf.length {c : Core α} {m : List (Option α)} {s : Src α} {n : Nat}
    {l : List (Option α)} (h : SrcSelf c m s n l) : l.length = n ∧ n ≤ m.length := by
  cases s with
  | ext l0 => cases h
  | self off =>
    obtain ⟨_, h1, rfl⟩ := h
    rw [List.length_take, List.length_drop]
    omega
  | heap p off =>
    obtain ⟨_, h1, rfl⟩ := h
    rw [List.length_take, List.length_drop]
    omega

theorem SrcIs.length {c : Core α} {m : List (Option α)} {xs : List (Obj α)} {s : Src α} {n : Nat}
    {l : List (Option α)} (h : SrcIs c m xs s n l) : l.length = n := by
  rcases h with h | h
  · exact h.length
  · exact h.length.1

/-- Characters kept elsewhere can be read whatever has become of the string. -/
theorem readSrc_else {xs : List (Obj α)} {c : Core α} {m : List (Option α)} {s : Src α} {n : Nat}
    {l : List (Option α)} (h : Inv T P H ((c, m) :: xs)) (hs : SrcElse xs s n l) :
    readSrc H c s n = .ok l := by
  cases s with
  | ext l0 =>
    obtain ⟨h1, rfl⟩ := hs
    simp only [readSrc, if_pos h1]
  | self => cases hs
  | heap p off =>
    obtain ⟨x, hx, ho, h1, rfl⟩ := hs
    obtain ⟨b, hb, hh⟩ := (h.rep x (List.mem_cons_of_mem _ hx)).buf ho
    exact read_spec hb hh h1

theorem readSrc_spec {xs : List (Obj α)} {c : Core α} {m : List (Option α)} {s : Src α} {n : Nat}
    {l : List (Option α)} (h : Inv T P H ((c, m) :: xs)) (hs : SrcIs c m xs s n l) :
    readSrc H c s n = .ok l := by
  rcases hs with hs | hs
  · exact readSrc_else h hs
  · have hr : Rep P H c m := h.rep _ head_mem
    cases s with
    | ext => cases hs
    | self off =>
      obtain ⟨⟨cells, len, rfl⟩, h1, rfl⟩ := hs
      exact peek_rep hr h1
    | heap p off =>
      obtain ⟨ho, h1, rfl⟩ := hs
      obtain ⟨b, hb, hh⟩ := hr.buf ho
      exact read_spec hb hh h1

/-- The argument after the storage has been made unshared. -/
theorem readSrc_mutable {xs : List (Obj α)} {c c' : Core α} {m : List (Option α)} {s : Src α}
    {n : Nat} {l : List (Option α)} {H' : Heap α} (h : Inv T P H ((c, m) :: xs))
    (h' : Inv T P H' ((c', m) :: xs)) (hs : SrcIs c m xs s n l)
    (hm : (H' = H ∧ c' = c) ∨ ∃ p n, c = .large p n ∧ ∃ x ∈ xs, owns p x.1) :
    readSrc H' c' s n = .ok l := by
  rcases hm with ⟨rfl, rfl⟩ | ⟨p, k, rfl, x, hx, ho⟩
  · exact readSrc_spec h hs
  · refine readSrc_else h' ?_
    rcases hs with hs | hs
    · exact hs
    · cases s with
      | ext => cases hs
      | self off =>
        obtain ⟨⟨cells, len, h0⟩, -⟩ := hs
        cases h0
      | heap q off =>
        obtain ⟨hq, h1, rfl⟩ := hs
        have hq : p = q := by simpa [owns] using hq
        subst hq
        have := h.shared (List.mem_cons_of_mem _ hx) head_mem ho (by simp [owns] : owns p (.large p k : Core α) = true)
        simp only at this
        exact ⟨x, hx, ho, by rw [this]; exact h1, by rw [this]⟩

theorem peek_prefix {c' : Core α} {m j : List (Option α)} (hr : Rep P H c' (m ++ j)) {off n : Nat}
    (h : off + n ≤ m.length) : peek H c' off n = .ok ((m.drop off).take n) := by
  rw [peek_rep hr (by rw [List.length_append]; omega)]
  congr 1
  rw [List.drop_append_of_le_length (by omega), List.take_append_of_le_length]
  rw [List.length_drop]
  omega

theorem append_spec (hg : Good P) {xs : List (Obj α)} {c : Core α} {m : List (Option α)}
    {s : Src α} {n : Nat} {l : List (Option α)} (h : Inv T P H ((c, m) :: xs))
    (hs : SrcIs c m xs s n l) :
    ∃ H' c', append P H c s n = .ok (H', c') ∧ Inv T P H' ((c', m ++ l) :: xs) := by
  have hl := hs.length
  unfold append
  by_cases h0 : n = 0
  · rw [if_pos h0]
    have : l = [] := List.length_eq_zero_iff.mp (by omega)
    subst this
    exact ⟨H, c, rfl, by rw [List.append_nil]; exact h⟩
  rw [if_neg h0]
  have hr : Rep P H c m := h.rep _ head_mem
  have hsz := hr.size
  obtain ⟨H1, c1, j, e1, e2, e3, e4, e5⟩ := expand_spec hg h n true
  have hr1 : Rep P H1 c1 (m ++ j) := e2.rep _ head_mem
  -- what is read
  have hread : readMoved H1 c c1 s n = .ok l := by
    have hheap : ∀ p off, s = .heap p off → ∀ q, owns q c = true → (∀ r, owns r c = true → r = q) →
        (if p = q ∧ off < c.size then peek H1 c1 off n else readSrc H1 c1 s n) = .ok l := by
      intro p off hso q hq hqu
      subst hso
      by_cases hpq : p = q ∧ off < c.size
      · rw [if_pos hpq]
        obtain ⟨rfl, hoff⟩ := hpq
        have key : off + n ≤ m.length ∧ l = (m.drop off).take n := by
          rcases hs with hs | hs
          · obtain ⟨x, hx, ho, h1, h2⟩ := hs
            have := h.shared (List.mem_cons_of_mem _ hx) head_mem ho hq
            simp only at this
            rw [← this]
            exact ⟨h1, h2⟩
          · exact hs.2
        rw [key.2]
        exact peek_prefix hr1 key.1
      · rw [if_neg hpq]
        rcases hs with hs | hs
        · exact readSrc_else e2 hs
        · obtain ⟨ho, h1, -⟩ := hs
          exact absurd ⟨hqu p ho, by omega⟩ hpq
    cases s with
    | ext l0 =>
      rcases hs with hs | hs
      · cases c <;> exact readSrc_else e2 hs
      · cases hs
    | self off =>
      rcases hs with hs | hs
      · cases hs
      · obtain ⟨⟨cells, len, rfl⟩, h1, rfl⟩ := hs
        simp only [readMoved]
        rw [if_pos (by omega)]
        exact peek_prefix hr1 h1
    | heap p off =>
      cases c with
      | small cells len =>
        rcases hs with hs | hs
        · exact readSrc_else e2 hs
        · cases hs.1
      | medium q k => exact hheap p off rfl q (by simp [owns]) (by simp [owns, eq_comm])
      | large q k => exact hheap p off rfl q (by simp [owns]) (by simp [owns, eq_comm])
  obtain ⟨H2, c2, p1, p2, -, -, -⟩ := poke_spec (l := l) (off := m.length) e2
    (.inl (e4 (by omega))) (by rw [List.length_append]; omega)
  refine ⟨H2, c2, ?_, ?_⟩
  · simp only [e1, hread, bind, Except.bind]
    rw [← hsz, p1]
  · rw [overwrite_append (by omega)] at p2
    exact p2

theorem appendFill_spec (hg : Good P) {xs : List (Obj α)} {c : Core α} {m : List (Option α)}
    (h : Inv T P H ((c, m) :: xs)) (n : Nat) (x : α) :
    ∃ H' c', appendFill P H c n x = .ok (H', c') ∧
      Inv T P H' ((c', m ++ List.replicate n (some x)) :: xs) := by
  have hr : Rep P H c m := h.rep _ head_mem
  have hsz := hr.size
  obtain ⟨H1, c1, j, e1, e2, e3, e4, e5⟩ := expand_spec hg h n true
  obtain ⟨H2, c2, p1, p2, -, -, -⟩ := poke_spec (l := List.replicate n (some x)) (off := m.length) e2
    (by
      by_cases h0 : 0 < n
      · exact .inl (e4 h0)
      · right
        rw [show n = 0 by omega]
        rfl) (by rw [List.length_append, List.length_replicate]; omega)
  refine ⟨H2, c2, ?_, ?_⟩
  · simp only [appendFill, e1, bind, Except.bind]
    rw [← hsz, p1]
  · rw [overwrite_append (by rw [List.length_replicate]; omega)] at p2
    exact p2

theorem assign_spec (hg : Good P) {xs : List (Obj α)} {c : Core α} {m : List (Option α)}
    {s : Src α} {n : Nat} {l : List (Option α)} (h : Inv T P H ((c, m) :: xs))
    (hs : SrcIs c m xs s n l) :
    ∃ H' c', assign P H c s n = .ok (H', c') ∧ Inv T P H' ((c', l) :: xs) := by
  have hl := hs.length
  have hr : Rep P H c m := h.rep _ head_mem
  have hsz := hr.size
  unfold assign
  by_cases h0 : n = 0
  · rw [if_pos h0]
    have hl0 : l = [] := List.length_eq_zero_iff.mp (by omega)
    obtain ⟨H', c', e1, e2⟩ := shrink_spec hg h c.size
    refine ⟨H', c', e1, ?_⟩
    rw [hl0]
    rw [show m.length - c.size = 0 by omega, List.take_zero] at e2
    exact e2
  rw [if_neg h0]
  by_cases h1 : c.size ≥ n
  · rw [if_pos h1]
    obtain ⟨H1, c1, e1, e2, e3, e4, e5⟩ := mutableData_spec hg h
    have hrd := readSrc_mutable h e2 hs e5
    obtain ⟨H2, c2, p1, p2, -, p4, -⟩ := poke_spec (l := l) (off := 0) e2 (.inl e3) (by omega)
    obtain ⟨H3, c3, q1, q2⟩ := shrink_spec hg p2 (c2.size - n)
    refine ⟨H3, c3, ?_, ?_⟩
    · simp only [e1, hrd, p1, q1, bind, Except.bind]
    · rw [overwrite_length (by omega)] at q2
      have e : m.length - (c2.size - n) = l.length := by omega
      rw [e, overwrite_zero_take (by omega)] at q2
      exact q2
  rw [if_neg h1]
  have hse : SrcElse xs s n l := by
    rcases hs with hs | hs
    · exact hs
    · have := hs.length.2
      omega
  -- what sharing means
  have hsh : ∃ b, isShared H c = .ok b ∧ (b = false ∨ b = true) := by
    cases c with
    | small => exact ⟨false, rfl, .inl rfl⟩
    | medium => exact ⟨false, rfl, .inl rfl⟩
    | large p k =>
      obtain ⟨b, hb, hrc, hh⟩ := hr
      obtain ⟨r, hk⟩ := Option.ne_none_iff_exists'.mp hrc
      refine ⟨decide (r > 1), by simp only [isShared, refs_eq hb hk, bind, Except.bind], ?_⟩
      cases decide (r > 1) <;> simp
  obtain ⟨b, hb, hb'⟩ := hsh
  rcases hb' with rfl | rfl
  · obtain ⟨H1, c1, j, e1, e2, e3, e4, e5⟩ := expand_spec hg h (n - c.size) false
    have hrd := readSrc_else e2 hse
    obtain ⟨H2, c2, p1, p2, -, -, -⟩ := poke_spec (l := l) (off := 0) e2 (.inl (e4 (by omega)))
      (by rw [List.length_append]; omega)
    refine ⟨H2, c2, ?_, ?_⟩
    · simp only [hb, e1, hrd, p1, bind, Except.bind, Bool.false_eq_true, if_false]
    · rw [overwrite_zero (by rw [List.length_append]; omega)] at p2
      exact p2
  · have hrd := readSrc_else h hse
    obtain ⟨H1, d, e1, e2⟩ := mk_spec hg h l
    obtain ⟨H', d1, d2, -⟩ := (e2.perm (List.Perm.swap _ _ _)).destroy
    refine ⟨H', d, ?_, d2⟩
    simp only [hb, hrd, e1, d1, bind, Except.bind, if_true]

theorem resize_spec (hg : Good P) {xs : List (Obj α)} {c : Core α} {m : List (Option α)}
    (h : Inv T P H ((c, m) :: xs)) (n : Nat) (x : α) :
    ∃ H' c', resize P H c n x = .ok (H', c') ∧
      Inv T P H' ((c', m.take n ++ List.replicate (n - m.length) (some x)) :: xs) := by
  have hr : Rep P H c m := h.rep _ head_mem
  have hsz := hr.size
  unfold resize
  by_cases h1 : n ≤ c.size
  · rw [if_pos h1]
    obtain ⟨H', c', e1, e2⟩ := shrink_spec hg h (c.size - n)
    refine ⟨H', c', e1, ?_⟩
    rw [show n - m.length = 0 by omega, List.replicate_zero, List.append_nil]
    rw [show m.length - (c.size - n) = n by omega] at e2
    exact e2
  · rw [if_neg h1]
    obtain ⟨H1, c1, j, e1, e2, e3, e4, e5⟩ := expand_spec hg h (n - c.size) false
    obtain ⟨H2, c2, p1, p2, -, -, -⟩ := poke_spec
      (l := List.replicate (n - c.size) (some x)) (off := m.length) e2
      (.inl (e4 (by omega))) (by rw [List.length_append, List.length_replicate]; omega)
    refine ⟨H2, c2, ?_, ?_⟩
    · simp only [e1, bind, Except.bind]
      rw [hsz] at p1
      rw [p1]
    · rw [overwrite_append (by rw [List.length_replicate]; omega)] at p2
      rw [List.take_of_length_le (by omega), hsz]
      exact p2

theorem shrinkToFit_spec (hg : Good P) {xs : List (Obj α)} {c : Core α} {m : List (Option α)}
    (h : Inv T P H ((c, m) :: xs)) :
    ∃ H' c', shrinkToFit P H c = .ok (H', c') ∧ Inv T P H' ((c', m) :: xs) := by
  have hr : Rep P H c m := h.rep _ head_mem
  have hcap : ∃ k, capacity P H c = .ok k := by
    cases c with
    | small => exact ⟨_, rfl⟩
    | medium p n =>
      obtain ⟨b, hb, -⟩ := hr
      exact ⟨b.cap, by simp only [capacity, get_eq hb, bind, Except.bind]⟩
    | large p n =>
      obtain ⟨b, hb, hrc, hh⟩ := hr
      obtain ⟨r, hk⟩ := Option.ne_none_iff_exists'.mp hrc
      simp only [capacity, refs_eq hb hk, get_eq hb, bind, Except.bind]
      split
      · exact ⟨_, rfl⟩
      · exact ⟨_, rfl⟩
  obtain ⟨k, hk⟩ := hcap
  simp only [shrinkToFit, hk, bind, Except.bind]
  by_cases h1 : k < c.size * 3 / 2
  · rw [if_pos h1]
    exact ⟨H, c, rfl, h⟩
  · rw [if_neg h1]
    obtain ⟨H1, d, e1, e2⟩ := mk_spec hg h m
    obtain ⟨H', d1, d2, -⟩ := (e2.perm (List.Perm.swap _ _ _)).destroy
    exact ⟨H', d, by simp only [peek_all hr, e1, d1], d2⟩

theorem insert_chars {m j l : List (Option α)} {pos : Nat} (hp : pos ≤ m.length)
    (hj : j.length = l.length) :
    overwrite (overwrite (m ++ j) (pos + l.length) (m.drop pos)) pos l =
      m.take pos ++ l ++ m.drop pos := by
  have h1 : overwrite (m ++ j) (pos + l.length) (m.drop pos) =
      (m ++ j).take (pos + l.length) ++ m.drop pos := by
    unfold overwrite
    rw [List.drop_of_length_le (l := m ++ j) (by rw [List.length_append, List.length_drop]; omega),
      List.append_nil]
  rw [h1]
  have h2 : ((m ++ j).take (pos + l.length)).length = pos + l.length := by
    rw [List.length_take, List.length_append]
    omega
  unfold overwrite
  rw [List.drop_left' h2, List.take_append_of_le_length (by omega), List.take_take,
    show min pos (pos + l.length) = pos by omega, List.take_append_of_le_length hp]

theorem insert_spec (hg : Good P) {xs : List (Obj α)} {c : Core α} {m : List (Option α)}
    {s : Src α} {n pos : Nat} {l : List (Option α)} (h : Inv T P H ((c, m) :: xs))
    (hs : SrcElse xs s n l) (hp : pos ≤ m.length) :
    ∃ H' c', insert P H c pos s n = .ok (H', c') ∧
      Inv T P H' ((c', m.take pos ++ l ++ m.drop pos) :: xs) := by
  have hl := hs.length
  have hr : Rep P H c m := h.rep _ head_mem
  have hsz := hr.size
  obtain ⟨H1, c1, j, e1, e2, e3, e4, e5⟩ := expand_spec hg h n true
  obtain ⟨H2, c2, f1, f2, f3, f4, f5⟩ := mutableData_spec hg e2
  have hr2 : Rep P H2 c2 (m ++ j) := f2.rep _ head_mem
  have hpk : peek H2 c2 pos (c.size - pos) = .ok (m.drop pos) := by
    rw [peek_prefix hr2 (by omega), List.take_of_length_le (by rw [List.length_drop]; omega)]
  obtain ⟨H3, c3, p1, p2, p3, p4, -⟩ := poke_spec (l := m.drop pos) (off := pos + n) f2 (.inl f3)
    (by rw [List.length_append, List.length_drop]; omega)
  have hrd := readSrc_else p2 hs
  obtain ⟨H4, c4, q1, q2, -, -, -⟩ := poke_spec (l := l) (off := pos) p2 (.inl (p3 f3))
    (by rw [overwrite_length] <;> simp only [List.length_append, List.length_drop] <;> omega)
  refine ⟨H4, c4, ?_, ?_⟩
  · simp only [insert, e1, f1, hpk, p1, hrd, q1, bind, Except.bind]
  · rw [← hl] at q2
    rw [insert_chars hp (by omega)] at q2
    exact q2

theorem erase_spec (hg : Good P) {xs : List (Obj α)} {c : Core α} {m : List (Option α)}
    {pos : Nat} (h : Inv T P H ((c, m) :: xs)) (n : Nat) (hp : pos ≤ m.length) :
    ∃ H' c', erase P H c pos n = .ok (H', c') ∧
      Inv T P H' ((c', m.take pos ++ m.drop (pos + n)) :: xs) := by
  have hr : Rep P H c m := h.rep _ head_mem
  have hsz := hr.size
  have hk : ∃ k, min n (c.size - pos) = k := ⟨_, rfl⟩
  obtain ⟨k, hk⟩ := hk
  have hdrop : m.drop (pos + k) = m.drop (pos + n) := by
    by_cases hn : n ≤ c.size - pos
    · rw [show k = n by omega]
    · rw [List.drop_of_length_le (by omega), List.drop_of_length_le (by omega)]
  obtain ⟨H1, c1, f1, f2, f3, f4, f5⟩ := mutableData_spec hg h
  have hr1 : Rep P H1 c1 m := f2.rep _ head_mem
  have hpk : peek H1 c1 (pos + k) (c1.size - (pos + k)) = .ok (m.drop (pos + k)) := by
    rw [peek_rep hr1 (by omega), List.take_of_length_le (by rw [List.length_drop]; omega)]
  have hol : pos + (m.drop (pos + k)).length ≤ m.length := by rw [List.length_drop]; omega
  obtain ⟨H2, c2, p1, p2, p3, p4, -⟩ := poke_spec (l := m.drop (pos + k)) (off := pos) f2 (.inl f3)
    hol
  obtain ⟨H3, c3, q1, q2⟩ := resize_spec hg p2 (c2.size - k) P.nul
  refine ⟨H3, c3, ?_, ?_⟩
  · simp only [erase, hk, f1, hpk, p1, q1, bind, Except.bind]
  · rw [overwrite_length hol, show c2.size - k - m.length = 0 by omega, List.replicate_zero,
      List.append_nil] at q2
    have : (overwrite m pos (m.drop (pos + k))).take (c2.size - k) =
        m.take pos ++ m.drop (pos + n) := by
      unfold overwrite
      rw [List.take_left' (by
        rw [List.length_append, List.length_take, List.length_drop]
        omega), hdrop]
    rw [this] at q2
    exact q2

theorem replace_spec (hg : Good P) {xs : List (Obj α)} {c : Core α} {m : List (Option α)}
    {s : Src α} {n pos : Nat} {l : List (Option α)} (h : Inv T P H ((c, m) :: xs))
    (hs : SrcIs c m xs s n l) (n1 : Nat) (hp : pos ≤ m.length) :
    ∃ H' c', replace P H c pos n1 s n = .ok (H', c') ∧
      Inv T P H' ((c', m.take pos ++ l ++ m.drop (pos + n1)) :: xs) := by
  have hl := hs.length
  have hr : Rep P H c m := h.rep _ head_mem
  have hsz := hr.size
  have hk : ∃ k, min n1 (c.size - pos) = k := ⟨_, rfl⟩
  obtain ⟨k, hk⟩ := hk
  have hdrop : m.drop (pos + k) = m.drop (pos + n1) := by
    by_cases hn : n1 ≤ c.size - pos
    · rw [show k = n1 by omega]
    · rw [List.drop_of_length_le (by omega), List.drop_of_length_le (by omega)]
  obtain ⟨H1, t1, e1, e2, -, -, -, -⟩ := reserve_spec hg (empty_inv h hg.S_pos) (c.size - k + n)
  have hp1 : peek H1 c 0 pos = .ok (m.take pos) := by
    have hr1 : Rep P H1 c m := e2.rep _ (List.mem_cons_of_mem _ head_mem)
    rw [peek_rep hr1 (by omega), List.drop_zero]
  obtain ⟨H2, t2, f1, f2⟩ := append_spec (s := .ext (m.take pos)) (n := pos) (l := m.take pos) hg e2
    (.inl ⟨by rw [List.length_take]; omega, by rw [List.take_take, Nat.min_self]⟩)
  have hI2 := f2.perm (List.Perm.swap _ _ _)
  have hrd := readSrc_spec hI2 (hs.imp (fun h => by
    cases s with
    | ext => exact h
    | self => cases h
    | heap p off =>
      obtain ⟨x, hx, hh⟩ := h
      exact ⟨x, List.mem_cons_of_mem _ hx, hh⟩) id)
  obtain ⟨H3, t3, g1, g2⟩ := append_spec (s := .ext l) (n := n) (l := l) hg f2
    (.inl ⟨by omega, by rw [List.take_of_length_le (by omega)]⟩)
  have hp3 : peek H3 c (pos + k) (c.size - pos - k) = .ok (m.drop (pos + k)) := by
    have hr3 : Rep P H3 c m := g2.rep _ (List.mem_cons_of_mem _ head_mem)
    rw [peek_rep hr3 (by omega), List.take_of_length_le (by rw [List.length_drop]; omega)]
  obtain ⟨H4, t4, k1, k2⟩ := append_spec (s := .ext (m.drop (pos + k))) (n := c.size - pos - k)
    (l := m.drop (pos + k)) hg g2
    (.inl ⟨by rw [List.length_drop]; omega,
      by rw [List.take_of_length_le (by rw [List.length_drop]; omega)]⟩)
  obtain ⟨H', d1, d2, -⟩ := (k2.perm (List.Perm.swap _ _ _)).destroy
  refine ⟨H', t4, ?_, ?_⟩
  · simp only [replace, hk, e1, hp1, f1, hrd, g1, hp3, k1, d1, bind, Except.bind]
  · rw [List.nil_append, hdrop] at d2
    exact d2

theorem overwrite_single {m : List (Option α)} {k : Nat} (x : Option α) (hk : k < m.length) :
    overwrite m k [x] = m.set k x := by
  apply List.ext_getElem?
  intro i
  rw [overwrite_getElem? (by simp; omega), List.getElem?_set]
  simp only [List.length_cons, List.length_nil, Nat.zero_add]
  by_cases h1 : k = i
  · subst h1
    simp [hk]
  · rw [if_neg h1]
    split
    · rfl
    · rw [if_neg (by omega)]

theorem setAt_spec (hg : Good P) {xs : List (Obj α)} {c : Core α} {m : List (Option α)}
    {k : Nat} (h : Inv T P H ((c, m) :: xs)) (x : α) (hk : k < m.length) :
    ∃ H' c', setAt P H c k x = .ok (H', c') ∧ Inv T P H' ((c', m.set k (some x)) :: xs) := by
  obtain ⟨H1, c1, f1, f2, f3, f4, f5⟩ := mutableData_spec hg h
  obtain ⟨H2, c2, p1, p2, -, -, -⟩ := poke_spec (l := [some x]) (off := k) f2 (.inl f3)
    (by simp only [List.length_singleton]; omega)
  refine ⟨H2, c2, by simp only [setAt, f1, p1, bind, Except.bind], ?_⟩
  rw [overwrite_single _ hk] at p2
  exact p2

theorem assignFrom_spec (hg : Good P) {xs : List (Obj α)} {c d : Core α} {m md : List (Option α)}
    {s : Src α} (h : Inv T P H ((c, m) :: xs)) (hd : (d, md) ∈ xs)
    (hs : SrcIs c m xs s d.size md) :
    ∃ H' c', assignFrom P H c d s = .ok (H', c') ∧ Inv T P H' ((c', md) :: xs) := by
  cases d with
  | small => exact assign_spec hg h hs
  | medium => exact assign_spec hg h hs
  | large p n =>
    obtain ⟨H1, e, e1, e2⟩ := copy_spec hg h (List.mem_cons_of_mem _ hd)
    obtain ⟨H', d1, d2, -⟩ := (e2.perm (List.Perm.swap _ _ _)).destroy
    exact ⟨H', e, by simp only [assignFrom, e1, d1, bind, Except.bind], d2⟩

theorem assignView_spec (hg : Good P) {xs : List (Obj α)} {c d : Core α} {m md : List (Option α)}
    {s : Src α} (h : Inv T P H ((c, m) :: xs)) (hd : (d, md) ∈ (c, m) :: xs)
    (hs : SrcIs c m xs s d.size md) :
    ∃ H' c', assignView P H c d s = .ok (H', c') ∧ Inv T P H' ((c', md) :: xs) := by
  cases d with
  | small => exact assign_spec hg h hs
  | medium => exact assign_spec hg h hs
  | large p n =>
    obtain ⟨H1, e, e1, e2⟩ := fromView_spec hg h hd
    obtain ⟨H', d1, d2, -⟩ := (e2.perm (List.Perm.swap _ _ _)).destroy
    exact ⟨H', e, by simp only [assignView, e1, d1, bind, Except.bind], d2⟩

end Verif.StrCore
