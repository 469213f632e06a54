import Verif.StrCoreProps

/-! The cost of building a string by appending, and what `reserve` promises. -/

namespace Verif.StrCore

variable {α : Type} {T : Prop} {P : Par α} {H : Heap α}

/-- The buffer of a string. -/
def ptr : Core α → Option Nat
  | .small _ _ => none
  | .medium p _ => some p
  | .large p _ => some p

/-- The number of characters that fit where the string is. -/
def room (P : Par α) (H : Heap α) : Core α → Nat
  | .small _ _ => P.S
  | .medium p _ => (H.buf p).elim 0 (·.cap)
  | .large p _ => (H.buf p).elim 0 (·.cap)

/-- Append pieces one after the other, counting the characters that are moved to new storage. -/
def appendAll (P : Par α) : Heap α → Core α → List (List α) → Nat →
    Except Err (Heap α × Core α × Nat)
  | H, c, [], k => .ok (H, c, k)
  | H, c, l :: ls, k => do
    let (H', c') ← append P H c (lit l) l.length
    appendAll P H' c' ls (if ptr c' = ptr c then k else k + (c.size + 1))

theorem write_cap {H' : Heap α} {p off : Nat} {l : List (Option α)}
    (h : H.write p off l = .ok H') (q : Nat) :
    (H'.buf q).elim 0 (·.cap) = (H.buf q).elim 0 (·.cap) := by
  unfold Heap.write at h
  cases hb : H.buf p with
  | none => simp [Heap.get, hb, bind, Except.bind] at h
  | some b =>
    simp only [Heap.get, hb, bind, Except.bind] at h
    split at h
    · cases h
      simp only [Heap.set]
      by_cases hq : q = p
      · subst hq
        simp [hb]
      · rw [if_neg hq]
    · cases h

theorem poke_room {H' : Heap α} {c c' : Core α} {off : Nat} {l : List (Option α)}
    (h : poke H c off l = .ok (H', c')) : ptr c' = ptr c ∧ room P H' c' = room P H c := by
  cases c with
  | small cells len =>
    simp only [poke] at h
    split at h
    · cases h
      exact ⟨rfl, rfl⟩
    · cases h
  | medium p n =>
    simp only [poke, bind, Except.bind] at h
    cases hw : H.write p off l with
    | error e => rw [hw] at h; cases h
    | ok H1 =>
      rw [hw] at h
      cases h
      exact ⟨rfl, write_cap hw p⟩
  | large p n =>
    simp only [poke, bind, Except.bind] at h
    cases hw : H.write p off l with
    | error e => rw [hw] at h; cases h
    | ok H1 =>
      rw [hw] at h
      cases h
      exact ⟨rfl, write_cap hw p⟩

theorem setSize_room {H' : Heap α} {c c' : Core α} {n : Nat}
    (h : setSize P H c n = .ok (H', c')) : ptr c' = ptr c ∧ room P H' c' = room P H c := by
  cases c with
  | small cells len => cases h
  | medium p k =>
    simp only [setSize, bind, Except.bind] at h
    cases hw : H.write p n [some P.nul] with
    | error e => rw [hw] at h; cases h
    | ok H1 =>
      rw [hw] at h
      cases h
      exact ⟨rfl, write_cap hw p⟩
  | large p k =>
    simp only [setSize, bind, Except.bind] at h
    cases hw : H.write p n [some P.nul] with
    | error e => rw [hw] at h; cases h
    | ok H1 =>
      rw [hw] at h
      cases h
      exact ⟨rfl, write_cap hw p⟩

/-- Owned storage that has been reserved is large enough. -/
theorem room_of_fits {xs : List (Obj α)} {c : Core α} {m : List (Option α)} {k : Nat}
    (h : Inv T P H ((c, m) :: xs)) (hr : Room H c k) (ho : ∃ p, owns p c = true) :
    k ≤ room P H c := by
  obtain ⟨p, hp⟩ := ho
  have hrep : Rep P H c m := h.rep _ head_mem
  obtain ⟨b, hb, -⟩ := hrep.buf hp
  have hk := hr p b hp hb
  cases c with
  | small => cases hp
  | medium q n =>
    have hq : q = p := by simpa [owns] using hp
    subst hq
    simpa [room, hb] using hk
  | large q n =>
    have hq : q = p := by simpa [owns] using hp
    subst hq
    simpa [room, hb] using hk

/-- Storage that is not shared grows by half, if it has to grow. -/
theorem expand_growth (hg : Good P) {xs : List (Obj α)} {c c' : Core α} {m : List (Option α)}
    {H' : Heap α} {delta : Nat} (h : Inv T P H ((c, m) :: xs)) (hu : Uniq xs c)
    (he : expand P H c delta true = .ok (H', c')) :
    (ptr c' = ptr c ∧ room P H' c' = room P H c) ∨
      (room P H c < c.size + delta ∧ 1 + room P H c * 3 / 2 ≤ room P H' c') := by
  have hS := hg.S_pos
  have hr : Rep P H c m := h.rep _ head_mem
  -- growth of a buffer
  have fin : ∀ p b, H.buf p = some b → owns p c = true → room P H c = b.cap →
      capacity P H c = .ok b.cap → (match c with | .small _ _ => False | _ => True) →
      (ptr c' = ptr c ∧ room P H' c' = room P H c) ∨
      (room P H c < c.size + delta ∧ 1 + room P H c * 3 / 2 ≤ room P H' c') := by
    intro p b hb hp hroom hcap hns
    have hex : (do
        let (H1, c1) ← if c.size + delta > b.cap then
            reserve P H c (max (c.size + delta) (1 + b.cap * 3 / 2))
          else .ok (H, c)
        setSize P H1 c1 (c1.size + delta)) = (.ok (H', c') : Except Err (Heap α × Core α)) := by
      rw [← he]
      cases c with
      | small => exact hns.elim
      | medium => simp only [expand, hcap, bind, Except.bind, if_true]
      | large => simp only [expand, hcap, bind, Except.bind, if_true]
    by_cases h1 : c.size + delta > b.cap
    · right
      rw [if_pos h1] at hex
      obtain ⟨H1, c1, e1, e2, e3, e4, e5, e6⟩ := reserve_spec hg h
        (max (c.size + delta) (1 + b.cap * 3 / 2))
      simp only [e1, bind, Except.bind] at hex
      have hs := setSize_room (P := P) hex
      have hk := room_of_fits e2 e5.1 (e6 ⟨p, hp⟩)
      rw [hs.2, hroom]
      omega
    · left
      rw [if_neg h1] at hex
      simp only [bind, Except.bind] at hex
      exact setSize_room hex
  cases c with
  | small cells sz =>
    simp only [expand] at he
    by_cases h1 : sz + delta ≤ P.S
    · rw [if_pos h1] at he
      cases he
      exact .inl ⟨rfl, rfl⟩
    · rw [if_neg h1] at he
      right
      obtain ⟨H1, c1, e1, e2, e3, e4, e5, e6, -⟩ := reserveSmall_spec hg h
        (max (sz + delta) (2 * P.S)) (by omega)
      simp only [if_true, e1, bind, Except.bind] at he
      have hs := setSize_room (P := P) he
      have hk := room_of_fits e2 e5 (e6 (by omega))
      rw [hs.2]
      have e : room P H (.small cells sz) = P.S := rfl
      rw [e]
      simp only [Core.size]
      omega
  | medium p n =>
    obtain ⟨b, hb, hrc, hh⟩ := hr
    exact fin p b hb (by simp [owns]) (by simp [room, hb])
      (by simp only [capacity, get_eq hb, bind, Except.bind]) trivial
  | large p n =>
    obtain ⟨b, hb, hrc, hh⟩ := hr
    obtain ⟨k, hk⟩ := Option.ne_none_iff_exists'.mp hrc
    have hk1 : ¬ k > 1 := by
      intro h1
      obtain ⟨x, hx, ho⟩ := h.other_owner hb hk h1
      rw [hu p (by simp [owns]) x hx] at ho
      cases ho
    exact fin p b hb (by simp [owns]) (by simp [room, hb])
      (by simp only [capacity, refs_eq hb hk, if_neg hk1, get_eq hb, bind, Except.bind]) trivial

/-- Appending keeps a string unshared, and moves it only to storage half as large again. -/
theorem append_growth (hg : Good P) {xs : List (Obj α)} {c : Core α} {m : List (Option α)}
    (h : Inv T P H ((c, m) :: xs)) (hu : Uniq xs c) (l : List α) :
    ∃ H' c', append P H c (lit l) l.length = .ok (H', c') ∧
      Inv T P H' ((c', m ++ l.map some) :: xs) ∧ Uniq xs c' ∧
      ((ptr c' = ptr c ∧ room P H' c' = room P H c) ∨
        (room P H c < c.size + l.length ∧ 1 + room P H c * 3 / 2 ≤ room P H' c')) := by
  have hlit := lit_spec xs l
  obtain ⟨H', c', h1, h2⟩ := append_spec hg h (.inl hlit)
  refine ⟨H', c', h1, h2, ?_⟩
  by_cases h0 : l.length = 0
  · unfold append at h1
    rw [if_pos h0] at h1
    cases h1
    exact ⟨hu, .inl ⟨rfl, rfl⟩⟩
  · unfold append at h1
    rw [if_neg h0] at h1
    obtain ⟨H1, c1, j, e1, e2, e3, e4, e5⟩ := expand_spec hg h l.length true
    have hgrow := expand_growth hg h hu e1
    have hrd : readMoved H1 c c1 (lit l) l.length = .ok (l.map some) := by
      cases c <;> exact readSrc_else e2 hlit
    simp only [e1, hrd, bind, Except.bind] at h1
    have hpk := poke_room (P := P) h1
    have hr : Rep P H c m := h.rep _ head_mem
    have hsz := hr.size
    obtain ⟨H2, c2, p1, p2, p3, p4, p5⟩ := poke_spec (l := l.map some) (off := c.size) e2
      (.inl (e4 (by omega))) (by rw [List.length_append, List.length_map]; omega)
    rw [h1] at p1
    cases p1
    exact ⟨p3 (e4 (by omega)), by rw [hpk.1, hpk.2]; exact hgrow⟩

theorem appendAll_spec (hg : Good P) (ls : List (List α)) : ∀ {H : Heap α} {xs : List (Obj α)}
    {c : Core α} {m : List (Option α)} {k : Nat}, Inv T P H ((c, m) :: xs) → Uniq xs c →
    k ≤ 2 * room P H c → k ≤ 3 * m.length →
    ∃ H' c' k', appendAll P H c ls k = .ok (H', c', k') ∧
      Inv T P H' ((c', m ++ ls.flatten.map some) :: xs) ∧
      k' ≤ 3 * (m.length + ls.flatten.length) := by
  induction ls with
  | nil => exact fun h hu h1 h2 => ⟨_, _, _, rfl, by simpa using h, by simpa using h2⟩
  | cons l ls ih =>
    intro H xs c m k h hu h1 h2
    have hr : Rep P H c m := h.rep _ head_mem
    have hsz := hr.size
    obtain ⟨H1, c1, e1, e2, e3, e4⟩ := append_growth hg h hu l
    have hk : ∃ k1, (if ptr c1 = ptr c then k else k + (c.size + 1)) = k1 ∧
        k1 ≤ 2 * room P H1 c1 ∧ k1 ≤ 3 * (m ++ l.map some).length := by
      refine ⟨_, rfl, ?_⟩
      rw [List.length_append, List.length_map]
      have hfit : c.size ≤ room P H c := by
        cases c with
        | small => exact hr.2.2.1
        | medium p n =>
          obtain ⟨b, hb, -, hh⟩ := hr
          simpa [room, hb, Core.size] using hh.fits
        | large p n =>
          obtain ⟨b, hb, -, hh⟩ := hr
          simpa [room, hb, Core.size] using hh.fits
      rcases e4 with ⟨g1, g2⟩ | ⟨g1, g2⟩
      · rw [if_pos g1, g2]
        omega
      · split <;> omega
    obtain ⟨k1, hk1, hk2, hk3⟩ := hk
    obtain ⟨H2, c2, k2, f1, f2, f3⟩ := ih e2 e3 hk2 hk3
    refine ⟨H2, c2, k2, ?_, ?_, ?_⟩
    · simp only [appendAll, e1, bind, Except.bind, hk1, f1]
    · simpa [List.append_assoc] using f2
    · simp only [List.length_append, List.length_map, List.flatten_cons] at f3 ⊢
      omega

/-- **C74.** Building a string by appending pieces moves at most three characters for each
character of the result, whatever the pieces are and whatever else is in memory. -/
theorem appending_is_linear (hg : Good P) {xs : List (Obj α)} (h : Inv T P H xs)
    (ls : List (List α)) :
    ∃ H' c k, appendAll P H (empty P) ls 0 = .ok (H', c, k) ∧
      peek H' c 0 c.size = .ok (ls.flatten.map some) ∧ k ≤ 3 * ls.flatten.length := by
  obtain ⟨H', c, k, h1, h2, h3⟩ := appendAll_spec hg ls (empty_inv h hg.S_pos)
    (show Uniq xs (empty P) from uniq_small) (Nat.zero_le _) (Nat.zero_le _)
  refine ⟨H', c, k, h1, ?_, by simpa using h3⟩
  have := peek_all (h2.rep _ head_mem)
  simpa using this

/-- **C74.** After `reserve(n)` the capacity is at least `n`, and appending up to it does not move
the characters. -/
theorem reserve_then_append (hg : Good P) {xs : List (Obj α)} {c : Core α}
    {m : List (Option α)} (h : Inv T P H ((c, m) :: xs)) (n : Nat) :
    ∃ H1 c1 k, reserve P H c n = .ok (H1, c1) ∧ capacity P H1 c1 = .ok k ∧ n ≤ k ∧
      peek H1 c1 0 c1.size = .ok m ∧
      ∀ l : List α, m.length + l.length ≤ n → ∃ H2 c2,
        append P H1 c1 (lit l) l.length = .ok (H2, c2) ∧ ptr c2 = ptr c1 ∧
        peek H2 c2 0 c2.size = .ok (m ++ l.map some) := by
  obtain ⟨H1, c1, e1, e2, e3, e4, e5, e6⟩ := reserve_spec hg h n
  have hr1 : Rep P H1 c1 m := e2.rep _ head_mem
  have hcap : capacity P H1 c1 = .ok (room P H1 c1) ∧ n ≤ room P H1 c1 := by
    cases c1 with
    | small cells len =>
      refine ⟨rfl, ?_⟩
      rcases e5.2 with ⟨p, hp⟩ | hn
      · cases hp
      · exact hn
    | medium p k =>
      have := room_of_fits e2 e5.1 ⟨p, by simp [owns]⟩
      obtain ⟨b, hb, -⟩ := hr1
      exact ⟨by simp [capacity, get_eq hb, room, hb, bind, Except.bind], this⟩
    | large p k =>
      have := room_of_fits e2 e5.1 ⟨p, by simp [owns]⟩
      obtain ⟨b, hb, hrc, -⟩ := hr1
      obtain ⟨r, hk⟩ := Option.ne_none_iff_exists'.mp hrc
      have hk1 : ¬ r > 1 := by
        intro h1
        obtain ⟨x, hx, ho⟩ := e2.other_owner hb hk h1
        rw [e3 p (by simp [owns]) x hx] at ho
        cases ho
      exact ⟨by simp [capacity, refs_eq hb hk, if_neg hk1, get_eq hb, room, hb, bind, Except.bind],
        this⟩
  refine ⟨H1, c1, _, e1, hcap.1, hcap.2, peek_all hr1, ?_⟩
  intro l hl
  obtain ⟨H2, c2, f1, f2, f3, f4⟩ := append_growth hg e2 e3 l
  refine ⟨H2, c2, f1, ?_, peek_all (f2.rep _ head_mem)⟩
  rcases f4 with f4 | f4
  · exact f4.1
  · have := hr1.size
    omega

end Verif.StrCore
