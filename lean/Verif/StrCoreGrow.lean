import Verif.StrCoreMem

/-! Growing and shrinking. -/

namespace Verif.StrCore

variable {α : Type} {T : Prop} {P : Par α} {H : Heap α}

theorem Inv.destroy_unique {xs : List (Obj α)} {c : Core α} {m : List (Option α)}
    (h : Inv T P H ((c, m) :: xs)) {p : Nat} {b : Buf α} (hb : H.buf p = some b)
    (hp : owns p c = true) (hu : Uniq xs c) : Inv T P (H.set p none) xs := by
  obtain ⟨H', h1, h2, -⟩ := h.destroy
  have hc := (h.count p b hb).1
  rw [cnt_cons, cnt_zero.mpr (hu p hp)] at hc
  simp only [hp, if_true] at hc
  have hr : Rep P H c m := h.rep _ head_mem
  cases c with
  | small => cases hp
  | medium q n =>
    have hq : q = p := by simpa [owns] using hp
    subst hq
    obtain ⟨b1, hb1, hrc, -⟩ := hr
    simp only [StrCore.destroy, destroyM, get_eq hb1, hrc, Heap.free, bind, Except.bind,
      Except.ok.injEq] at h1
    rwa [h1]
  | large q n =>
    have hq : q = p := by simpa [owns] using hp
    subst hq
    obtain ⟨b1, hb1, hrc, -⟩ := hr
    obtain ⟨k, hk⟩ := Option.ne_none_iff_exists'.mp hrc
    rw [hb] at hb1
    cases hb1
    rw [hk] at hc
    simp only [Option.getD_some] at hc
    have hk1 : k = 1 := by omega
    simp only [StrCore.destroy, decr, get_eq hb, hk, Heap.free, bind, Except.bind,
      if_pos hk1, Except.ok.injEq] at h1
    rwa [h1]

/-- Reallocation of unshared storage. -/
theorem realloc_spec {xs : List (Obj α)} {c : Core α} {m : List (Option α)}
    (h : Inv T P H ((c, m) :: xs)) {p : Nat} {b : Buf α} (hb : H.buf p = some b)
    (hp : owns p c = true) (hu : Uniq xs c) {cap : Nat} (hcap : c.size ≤ cap) :
    ∃ H' q, realloc H p c.size cap = .ok (H', q) ∧ H'.buf q = some ⟨b.rc, cap,
      overwrite (List.replicate (cap + 1) none) 0 (b.cells.take (c.size + 1))⟩ ∧ q = H.next ∧
      (∀ c' : Core α, (c' = .medium q c.size ∧ b.rc = none) ∨
        (c' = .large q c.size ∧ b.rc = some 1) → Inv T P H' ((c', m) :: xs)) := by
  have hr : Rep P H c m := h.rep _ head_mem
  obtain ⟨b1, hb1, hh⟩ := hr.buf hp
  rw [hb] at hb1
  cases hb1
  have hI := h.destroy_unique hb hp hu
  have hlen : (b.cells.take (c.size + 1)).length = c.size + 1 := by
    have := hh.len
    have := hh.fits
    rw [List.length_take]
    omega
  have h1 := holds_one (rc := b.rc) (cap := cap) hlen hcap
  have e1 : (b.cells.take (c.size + 1)).take c.size = m := by
    rw [List.take_take, ← hh.chars]
    congr 1
    omega
  rw [e1] at h1
  refine ⟨(H.set p none).put ⟨b.rc, cap,
    overwrite (List.replicate (cap + 1) none) 0 (b.cells.take (c.size + 1))⟩, H.next, ?_, ?_,
    rfl, ?_⟩
  · have hrd : H.read p 0 (c.size + 1) = .ok (b.cells.take (c.size + 1)) := by
      have := hh.len
      have := hh.fits
      simp only [Heap.read, get_eq hb, bind, Except.bind]
      rw [if_pos (by omega)]
      simp
    simp only [realloc, get_eq hb, hrd, bind, Except.bind, Heap.free, alloc_eq]
    have hw := put_write (H := H.set p none) ⟨b.rc, cap, List.replicate (cap + 1) none⟩ (off := 0)
      (l := b.cells.take (c.size + 1)) (by simp only [List.length_replicate]; omega)
    have hn : (H.set p none).next = H.next := rfl
    rw [hn] at hw ⊢
    simp only [hw]
  · simp [Heap.put, Heap.set]
  · intro c' hc'
    refine hI.block hc' h1.1 ?_
    intro t
    have ht := (h.term t _ head_mem).get hp hb
    rw [h1.2, List.getElem?_take, if_pos (by omega), ht]

theorem room_put {b : Buf α} {c : Core α} {k : Nat} (ho : ∀ q, owns q c = true → q = H.next)
    (hk : k ≤ b.cap) : Room (H.put b) c k := by
  intro p b' hp hb
  rw [ho p hp] at hb
  simp only [Heap.put, if_true, Option.some.injEq] at hb
  subst hb
  exact hk

theorem reserveSmall_spec (hg : Good P) {xs : List (Obj α)} {cells : List (Option α)} {len : Nat}
    {m : List (Option α)} (h : Inv T P H ((.small cells len, m) :: xs)) (minCap : Nat)
    (hlen : len ≤ minCap) :
    ∃ H' c', reserveSmall P H cells len minCap = .ok (H', c') ∧ Inv T P H' ((c', m) :: xs) ∧
      Uniq xs c' ∧ c'.size = len ∧ Room H' c' minCap ∧ (P.S < minCap → ∃ p, owns p c' = true) ∧
      (P.M < minCap → ∃ b, c' = .large H.next len ∧ H' = H.put b ∧ b.rc = some 1 ∧
        b.cells.length = b.cap + 1 ∧ minCap ≤ b.cap) := by
  have hSM := hg.S_le
  unfold reserveSmall
  by_cases h1 : minCap ≤ P.S
  · rw [if_pos h1]
    exact ⟨H, _, rfl, h, uniq_small, rfl, fun p b hp => (by cases hp), fun h => by omega,
      fun h => by omega⟩
  rw [if_neg h1]
  have hr : Rep P H (.small cells len) m := h.rep _ head_mem
  obtain ⟨r1, r2, r3, r4, r5⟩ := hr
  have hI := h.tail_small
  have hl : (cells.take (len + 1)).length = len + 1 := by rw [List.length_take]; omega
  have e1 : (cells.take (len + 1)).take len = m := by
    rw [List.take_take, ← r4]
    congr 1
    omega
  have ht : T → (cells.take (len + 1))[len]? = some (some P.nul) := by
    intro t
    have : cells[len]? = some (some P.nul) := h.term t _ head_mem
    rw [List.getElem?_take, if_pos (by omega), this]
  have hpk : ∀ H : Heap α, peek H (.small cells len) 0 (len + 1) = .ok (cells.take (len + 1)) := by
    intro H
    simp only [peek]
    rw [if_pos (by omega)]
    simp
  by_cases h2 : minCap ≤ P.M
  · rw [if_pos h2]
    have hcap := hg.goodM minCap
    have hh := holds_one (rc := none) (cap := P.goodM minCap) hl (by omega)
    rw [e1] at hh
    have ho : ∀ q, owns q (.medium H.next len : Core α) = true → q = H.next := by
      simp [owns, eq_comm]
    refine ⟨H.put _, .medium H.next len, ?_, hI.block (.inl ⟨rfl, rfl⟩) hh.1
      (fun t => by rw [hh.2, ht t]), uniq_next hI ho, rfl, room_put ho (by simpa using hcap),
      fun _ => ⟨H.next, by simp [owns]⟩, fun h => by omega⟩
    simp only [createM, alloc_eq, hpk, bind, Except.bind]
    rw [put_write _ (by simp only [List.length_replicate]; omega)]
  · rw [if_neg h2]
    have hcap := hg.goodL minCap
    have hh := holds_one (rc := some 1) (cap := P.goodL minCap) hl (by omega)
    rw [e1] at hh
    have ho : ∀ q, owns q (.large H.next len : Core α) = true → q = H.next := by
      simp [owns, eq_comm]
    refine ⟨H.put _, .large H.next len, ?_, hI.block (.inr ⟨rfl, rfl⟩) hh.1
      (fun t => by rw [hh.2, ht t]), uniq_next hI ho, rfl, room_put ho (by simpa using hcap),
      fun _ => ⟨H.next, by simp [owns]⟩, fun _ => ⟨_, rfl, rfl, rfl, hh.1.len, by simpa using hcap⟩⟩
    simp only [createL, alloc_eq, hpk, bind, Except.bind]
    rw [put_write _ (by simp only [List.length_replicate]; omega)]

/-- The capacity of short strings counts as well. -/
def Fits (P : Par α) (H : Heap α) (c : Core α) (k : Nat) : Prop :=
  Room H c k ∧ ((∃ p, owns p c = true) ∨ k ≤ P.S)

theorem reserve_spec (hg : Good P) {xs : List (Obj α)} {c : Core α}
    {m : List (Option α)} (h : Inv T P H ((c, m) :: xs)) (minCap : Nat) :
    ∃ H' c', reserve P H c minCap = .ok (H', c') ∧ Inv T P H' ((c', m) :: xs) ∧
      Uniq xs c' ∧ c'.size = c.size ∧ Fits P H' c' minCap ∧
      ((∃ p, owns p c = true) → ∃ p, owns p c' = true) := by
  have hr : Rep P H c m := h.rep _ head_mem
  have hsz := hr.size
  cases c with
  | small cells len =>
    by_cases hlen : len ≤ minCap
    · obtain ⟨H', c', h1, h2, h3, h4, h5, h6, -⟩ := reserveSmall_spec hg h minCap hlen
      refine ⟨H', c', h1, h2, h3, h4, ⟨h5, ?_⟩, fun ⟨p, hp⟩ => by cases hp⟩
      by_cases hS : P.S < minCap
      · exact .inl (h6 hS)
      · exact .inr (by omega)
    · have : minCap ≤ P.S := by
        have := hr.2.2.1
        omega
      refine ⟨H, .small cells len, ?_, h, uniq_small, rfl,
        ⟨fun p b hp => (by cases hp), .inr this⟩, fun ⟨p, hp⟩ => by cases hp⟩
      simp only [reserve, reserveSmall, if_pos this]
  | medium p n =>
    obtain ⟨b, hb, hrc, hh⟩ := hr
    have hu := h.uniq_medium
    have hfit := hh.fits
    simp only [reserve, reserveMedium, get_eq hb, bind, Except.bind]
    by_cases h1 : minCap ≤ b.cap
    · rw [if_pos h1]
      refine ⟨H, _, rfl, h, hu, rfl, ⟨?_, .inl ⟨p, by simp [owns]⟩⟩, id⟩
      intro q b' hq hb'
      have hq : p = q := by simpa [owns] using hq
      subst hq
      rw [hb] at hb'
      cases hb'
      exact h1
    rw [if_neg h1]
    have hcM := hg.goodM minCap
    have hcL := hg.goodL minCap
    by_cases h2 : minCap ≤ P.M
    · rw [if_pos h2]
      obtain ⟨H', q, hq1, hq2, hq3, hq4⟩ := realloc_spec h hb (by simp [owns]) hu
        (cap := P.goodM minCap) (by simp only [Core.size]; omega)
      simp only [Core.size] at hq1
      have hI := hq4 (.medium q n) (.inl ⟨rfl, hrc⟩)
      refine ⟨H', .medium q n, ?_, hI, hI.uniq_medium, rfl, ⟨?_, .inl ⟨q, by simp [owns]⟩⟩,
        fun _ => ⟨q, by simp [owns]⟩⟩
      · simp only [hq1]
      · intro r b' hr hb'
        have hr : q = r := by simpa [owns] using hr
        subst hr
        rw [hq2] at hb'
        cases hb'
        exact hcM
    · rw [if_neg h2]
      -- the nascent string
      have hE : empty P = .small (overwrite (rawCells P) 0 [some P.nul]) 0 := rfl
      have hI0 : Inv T P H ((.small (overwrite (rawCells P) 0 [some P.nul]) 0, []) ::
          (.medium p n, m) :: xs) := empty_inv h hg.S_pos
      obtain ⟨H1, c1, e1, e2, e3, e4, e5, e6, e7⟩ := reserveSmall_spec hg hI0 minCap (by omega)
      obtain ⟨b1, rfl, rfl, hrc1, hlen1, hcap1⟩ := e7 (by omega)
      have hpn := h.ne_next hb
      obtain ⟨l, hl1, hl2, hl3, hl4⟩ := hh.read_next hb
      have hw1 : 0 + l.length ≤ b1.cells.length := by omega
      have hholds : Holds { b1 with cells := overwrite b1.cells 0 l } n m := by
        refine ⟨?_, hsz, by simp only; omega, ?_⟩
        · simp only [overwrite_length hw1, hlen1]
        · rw [← hl3]
          apply List.ext_getElem?
          intro i
          simp only
          rw [List.getElem?_take, overwrite_getElem? hw1, List.getElem?_take]
          split
          · simp only [Nat.not_lt_zero, if_false, Nat.sub_zero]
            rw [if_pos (by omega)]
          · rfl
      have hterm : T → (overwrite b1.cells 0 l)[n]? = some (some P.nul) := by
        intro t
        have ht := (h.term t _ head_mem).get (p := p) (by simp [owns]) hb
        rw [overwrite_getElem? hw1]
        simp only [Nat.not_lt_zero, if_false, Nat.sub_zero]
        rw [if_pos (by omega), hl4]
        exact ht
      have hI2 := (h.block (b := { b1 with cells := overwrite b1.cells 0 l })
        (c := .large H.next n) (.inr ⟨rfl, hrc1⟩) hholds hterm).perm (List.Perm.swap _ _ _)
      obtain ⟨H', hd1, hd2, hd3⟩ := hI2.destroy
      refine ⟨H', .large H.next n, ?_, hd2, ?_, rfl, ⟨?_, .inl ⟨H.next, by simp [owns]⟩⟩,
        fun _ => ⟨H.next, by simp [owns]⟩⟩
      · simp only [hE, e1]
        rw [put_read_ne _ hpn, hl1]
        simp only
        rw [put_write _ hw1]
        simp only [hd1]
      · have := uniq_next h (c := .large H.next n) (by simp [owns, eq_comm])
        intro q hq x hx
        exact this q hq x (List.mem_cons_of_mem _ hx)
      · intro q b' hq hb'
        have hq : H.next = q := by simpa [owns] using hq
        subst hq
        rw [hd3 _ (by simp [owns, hpn])] at hb'
        simp only [Heap.put, if_true, Option.some.injEq] at hb'
        subst hb'
        exact hcap1
  | large p n =>
    obtain ⟨b, hb, hrc, hh⟩ := hr
    obtain ⟨k, hk⟩ := Option.ne_none_iff_exists'.mp hrc
    have hfit := hh.fits
    have hcL := hg.goodL minCap
    simp only [reserve, reserveLarge, refs_eq hb hk, bind, Except.bind]
    by_cases h1 : k > 1
    · rw [if_pos h1]
      obtain ⟨H', q, hu1, hu2, hu3, hu4⟩ := unshare_spec hg h minCap
      exact ⟨H', _, hu1, hu2, hu3, rfl, ⟨hu4, .inl ⟨q, by simp [owns]⟩⟩,
        fun _ => ⟨q, by simp [owns]⟩⟩
    rw [if_neg h1]
    have hk0 := (h.count p b hb)
    rw [hk] at hk0
    simp only [Option.getD_some] at hk0
    have hk1 : k = 1 := by omega
    have hu := h.uniq_of_count hb (by simp [owns]) (by simp [hk]; omega)
    simp only [get_eq hb]
    by_cases h2 : minCap > b.cap
    · rw [if_pos h2]
      obtain ⟨H', q, hq1, hq2, hq3, hq4⟩ := realloc_spec h hb (by simp [owns]) hu
        (cap := P.goodL minCap) (by simp only [Core.size]; omega)
      simp only [Core.size] at hq1
      have hI := hq4 (.large q n) (.inr ⟨rfl, by rw [hk, hk1]⟩)
      refine ⟨H', .large q n, ?_, hI, hI.uniq_of_count hq2 (by simp [owns]) (by simp [hk, hk1]), rfl,
        ⟨?_, .inl ⟨q, by simp [owns]⟩⟩, fun _ => ⟨q, by simp [owns]⟩⟩
      · simp only [hq1]
      · intro r b' hr hb'
        have hr : q = r := by simpa [owns] using hr
        subst hr
        rw [hq2] at hb'
        cases hb'
        exact hcL
    · rw [if_neg h2]
      refine ⟨H, _, rfl, h, hu, rfl, ⟨?_, .inl ⟨p, by simp [owns]⟩⟩, id⟩
      intro q b' hq hb'
      have hq : p = q := by simpa [owns] using hq
      subst hq
      rw [hb] at hb'
      cases hb'
      omega

/-- What `expandNoinit` guarantees: the old characters, then as many others as asked for. -/
theorem expand_spec (hg : Good P) {xs : List (Obj α)} {c : Core α}
    {m : List (Option α)} (h : Inv T P H ((c, m) :: xs)) (delta : Nat) (e : Bool) :
    ∃ H' c' j, expand P H c delta e = .ok (H', c') ∧ Inv T P H' ((c', m ++ j) :: xs) ∧
      j.length = delta ∧ (0 < delta → Uniq xs c') ∧ c'.size = c.size + delta := by
  have hr : Rep P H c m := h.rep _ head_mem
  have hsz := hr.size
  -- the last step
  have fin : ∀ (H1 : Heap α) (c1 : Core α), Inv T P H1 ((c1, m) :: xs) → c1.size = c.size →
      (∃ p, owns p c1 = true) → Room H1 c1 (c.size + delta) → (Uniq xs c1 ∨ delta = 0) →
      ∃ H' c' j, setSize P H1 c1 (c.size + delta) = .ok (H', c') ∧
        Inv T P H' ((c', m ++ j) :: xs) ∧
        j.length = delta ∧ (0 < delta → Uniq xs c') ∧ c'.size = c.size + delta := by
    intro H1 c1 hI hc1 ⟨p, hp⟩ hroom hu
    obtain ⟨H', m', e1, e2, e3, e4⟩ := setSize_spec hI hp
      (hu.imp id (fun h0 => by rw [hc1, h0]; rfl)) hroom
    have hm' : m' = m ++ m'.drop m.length := by
      have := List.take_append_drop m.length m'
      rw [e4, List.take_of_length_le (by omega)] at this
      exact this.symm
    rw [hm'] at e2
    refine ⟨H', _, m'.drop m.length, e1, e2, by rw [List.length_drop]; omega, ?_, ?_⟩
    · intro hd q hq
      rw [owns_withSize] at hq
      rcases hu with hu | hu
      · exact hu q hq
      · omega
    · cases c1 with
      | small => cases hp
      | medium => rfl
      | large => rfl
  cases c with
  | small cells sz =>
    simp only [expand]
    by_cases h1 : sz + delta ≤ P.S
    · rw [if_pos h1]
      obtain ⟨r1, r2, r3, r4, r5⟩ := hr
      have hs := setSmallSize_spec (H := H) r1 r5 h1
      refine ⟨H, _, (cells.drop sz).take delta, rfl, ?_, ?_, fun _ => uniq_small, rfl⟩
      · have e1 : m ++ (cells.drop sz).take delta = cells.take (sz + delta) := by
          rw [← r4, List.take_add]
        rw [e1]
        exact h.tail_small.small hs.1 fun _ => hs.2
      · rw [List.length_take, List.length_drop]
        omega
    · rw [if_neg h1]
      have hx : ∃ k, (if e = true then max (sz + delta) (2 * P.S) else sz + delta) = k ∧
          sz + delta ≤ k := ⟨_, rfl, by split <;> omega⟩
      obtain ⟨k, hk1, hk2⟩ := hx
      rw [hk1]
      obtain ⟨H1, c1, e1, e2, e3, e4, e5, e6, -⟩ := reserveSmall_spec hg h k (by omega)
      simp only [e1, bind, Except.bind]
      exact fin H1 c1 e2 e4 (e6 (by omega))
        (fun p b hp hb => Nat.le_trans hk2 (e5 p b hp hb)) (.inl e3)
  | medium p n =>
    obtain ⟨b, hb, hrc, hh⟩ := hr
    simp only [expand, capacity, get_eq hb, bind, Except.bind]
    by_cases h1 : (Core.medium p n : Core α).size + delta > b.cap
    · rw [if_pos h1]
      have hx : ∃ k, (if e = true then max ((Core.medium p n : Core α).size + delta)
          (1 + b.cap * 3 / 2) else (Core.medium p n : Core α).size + delta) = k ∧
          n + delta ≤ k := ⟨_, rfl, by simp only [Core.size]; split <;> omega⟩
      obtain ⟨k, hk1, hk2⟩ := hx
      rw [hk1]
      obtain ⟨H1, c1, e1, e2, e3, e4, e5, e6⟩ := reserve_spec hg h k
      simp only [e1]
      rw [e4]
      exact fin H1 c1 e2 e4 (e6 ⟨p, by simp [owns]⟩)
        (fun p b hp hb => Nat.le_trans hk2 (e5.1 p b hp hb)) (.inl e3)
    · rw [if_neg h1]
      refine fin H _ h rfl ⟨p, by simp [owns]⟩ ?_ (.inl h.uniq_medium)
      intro q b' hq hb'
      have hq : p = q := by simpa [owns] using hq
      subst hq
      rw [hb] at hb'
      cases hb'
      omega
  | large p n =>
    obtain ⟨b, hb, hrc, hh⟩ := hr
    obtain ⟨k0, hk0⟩ := Option.ne_none_iff_exists'.mp hrc
    have hfit := hh.fits
    simp only [expand, capacity, refs_eq hb hk0, get_eq hb, bind, Except.bind]
    have hcap : ∃ cap, (if k0 > 1 then (.ok n : Except Err Nat) else .ok b.cap) = .ok cap ∧
        (cap = n ∧ k0 > 1 ∨ cap = b.cap ∧ ¬ k0 > 1) := by
      by_cases hk : k0 > 1
      · exact ⟨n, by rw [if_pos hk], .inl ⟨rfl, hk⟩⟩
      · exact ⟨b.cap, by rw [if_neg hk], .inr ⟨rfl, hk⟩⟩
    obtain ⟨cap, hc1, hc2⟩ := hcap
    rw [hc1]
    simp only
    by_cases h1 : (Core.large p n : Core α).size + delta > cap
    · rw [if_pos h1]
      have hx : ∃ k, (if e = true then max ((Core.large p n : Core α).size + delta)
          (1 + cap * 3 / 2) else (Core.large p n : Core α).size + delta) = k ∧
          n + delta ≤ k := ⟨_, rfl, by simp only [Core.size]; split <;> omega⟩
      obtain ⟨k, hk1, hk2⟩ := hx
      rw [hk1]
      obtain ⟨H1, c1, e1, e2, e3, e4, e5, e6⟩ := reserve_spec hg h k
      simp only [e1]
      rw [e4]
      exact fin H1 c1 e2 e4 (e6 ⟨p, by simp [owns]⟩)
        (fun p b hp hb => Nat.le_trans hk2 (e5.1 p b hp hb)) (.inl e3)
    · rw [if_neg h1]
      simp only [Core.size] at h1
      refine fin H _ h rfl ⟨p, by simp [owns]⟩ ?_ ?_
      · intro q b' hq hb'
        have hq : p = q := by simpa [owns] using hq
        subst hq
        rw [hb] at hb'
        cases hb'
        simp only [Core.size]
        omega
      · rcases hc2 with ⟨rfl, _⟩ | ⟨rfl, hk⟩
        · exact .inr (by omega)
        · exact .inl (h.uniq_of_count hb (by simp [owns]) (by simp [hk0]; omega))

theorem shrink_spec (hg : Good P) {xs : List (Obj α)} {c : Core α}
    {m : List (Option α)} (h : Inv T P H ((c, m) :: xs)) (delta : Nat) :
    ∃ H' c', shrink P H c delta = .ok (H', c') ∧
      Inv T P H' ((c', m.take (m.length - delta)) :: xs) := by
  have hr : Rep P H c m := h.rep _ head_mem
  have hsz := hr.size
  -- a new size in place
  have fin : ∀ p, owns p c = true → (Uniq xs c ∨ delta = 0) → ∃ H' c',
      setSize P H c (c.size - delta) = .ok (H', c') ∧
      Inv T P H' ((c', m.take (m.length - delta)) :: xs) := by
    intro p hp hu
    obtain ⟨H', m', e1, e2, e3, e4⟩ := setSize_spec (n := c.size - delta) h hp
      (hu.imp id (fun h0 => by rw [h0]; rfl)) (by
        intro q b hq hb
        obtain ⟨b', hb', hh⟩ := hr.buf hq
        rw [hb] at hb'
        cases hb'
        have := hh.fits
        omega)
    refine ⟨H', _, e1, ?_⟩
    rw [List.take_of_length_le (by omega)] at e4
    rw [hsz, ← e4]
    exact e2
  cases c with
  | small cells len =>
    obtain ⟨r1, r2, r3, r4, r5⟩ := hr
    have hs := setSmallSize_spec (H := H) (n := len - delta) r1 r5 (by omega)
    refine ⟨H, _, rfl, ?_⟩
    have e1 : m.take (m.length - delta) = cells.take (len - delta) := by
      rw [← r4, List.take_take, List.length_take]
      congr 1
      omega
    rw [e1]
    exact h.tail_small.small hs.1 fun _ => hs.2
  | medium p n => exact fin p (by simp [owns]) (.inl h.uniq_medium)
  | large p n =>
    have hr' := hr
    obtain ⟨b, hb, hrc, hh⟩ := hr
    obtain ⟨k, hk⟩ := Option.ne_none_iff_exists'.mp hrc
    simp only [shrink, refs_eq hb hk, bind, Except.bind]
    by_cases h1 : k = 1
    · rw [if_pos h1]
      exact fin p (by simp [owns]) (.inl (h.uniq_of_count hb (by simp [owns]) (by simp [hk, h1])))
    rw [if_neg h1]
    by_cases h2 : delta = 0
    · rw [if_pos h2]
      refine ⟨H, _, rfl, ?_⟩
      rw [h2, Nat.sub_zero, List.take_length]
      exact h
    · rw [if_neg h2]
      rw [peek_rep hr' (by simp only [Core.size] at hsz; omega)]
      simp only [List.drop_zero]
      obtain ⟨H1, d, e1, e2⟩ := mk_spec hg h (m.take (n - delta))
      simp only [e1]
      obtain ⟨H', d1, d2, -⟩ := (e2.perm (List.Perm.swap _ _ _)).destroy
      simp only [d1]
      refine ⟨H', d, rfl, ?_⟩
      rw [hsz]
      exact d2

end Verif.StrCore
