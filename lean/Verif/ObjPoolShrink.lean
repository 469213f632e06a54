import Verif.ObjPoolThms

/-! How far the pool of handlers can shrink (C136). -/
namespace Verif.ObjPool

open Verif.Mpmc (State Pc next upd Reach Inv inv_reach upd_self upd_ne)

theorem ne_mod {n t u : Nat} (h1 : t < u) (h3 : u < t + n) : t % n ≠ u % n := by
  intro e; have := Mpmc.spaced e h1; omega

/-- A borrow that nobody disturbs. -/
theorem borrow_run {n : Nat} {s : PSt} (I : Inv n s.q) {i : Nat} (hp : s.q.pc i = .idle) (hh : s.hold i = none)
    (hs : s.q.seq (s.q.deq % n) = s.q.deq + 1) :
    ∃ v s', (pnext n s i .borrow).bind (solo n i 6) = some s' ∧ s'.q.seq = upd s.q.seq (s.q.deq % n) (s.q.deq + n) ∧
      s'.q.deq = s.q.deq + 1 ∧ s'.q.enq = s.q.enq ∧ s'.hold = upd s.hold i (some v) ∧ s'.lost = s.lost ∧
      ∀ j, s'.q.pc j = s.q.pc j := by
  obtain ⟨v, hv, _⟩ := (I.full _ hs).2 (Nat.le_refl _)
  refine ⟨v, ?_⟩
  simp only [pnext, hh, next, hp, Option.map_some, Option.bind_some, solo, upd_self, hs, hv, and_self, if_true,
    Option.some.injEq, exists_eq_left', true_and]
  intro j
  by_cases e : j = i
  · subst e; simp only [upd_self, hp]
  · simp only [upd_ne _ _ e]

/-- A return that succeeds. -/
theorem give_run {n : Nat} {s : PSt} {i v : Nat} (hp : s.q.pc i = .idle) (hh : s.hold i = some v)
    (hs : s.q.seq (s.q.enq % n) = s.q.enq) :
    ∃ s', (pnext n s i .giveBack).bind (solo n i 6) = some s' ∧ s'.q.seq = upd s.q.seq (s.q.enq % n) (s.q.enq + 1) ∧
      s'.q.deq = s.q.deq ∧ s'.q.enq = s.q.enq + 1 ∧ s'.hold = upd s.hold i none ∧ s'.lost = s.lost ∧
      ∀ j, s'.q.pc j = s.q.pc j := by
  simp only [pnext, hh, next, hp, Option.map_some, Option.bind_some, solo, upd_self, hs, and_self, if_true,
    Option.some.injEq, exists_eq_left', true_and]
  intro j
  by_cases e : j = i
  · subst e; simp only [upd_self, hp]
  · simp only [upd_ne _ _ e]

/-- A return that fails. -/
theorem give_fail {n : Nat} {s : PSt} {i v : Nat} (hp : s.q.pc i = .idle) (hh : s.hold i = some v)
    (hs : s.q.seq (s.q.enq % n) < s.q.enq) :
    ∃ s', (pnext n s i .giveBack).bind (solo n i 4) = some s' ∧ s'.q.seq = s.q.seq ∧
      s'.q.deq = s.q.deq ∧ s'.q.enq = s.q.enq ∧ s'.hold = upd s.hold i none ∧ s'.lost = s.lost ++ [v] ∧
      ∀ j, s'.q.pc j = s.q.pc j := by
  have hne : s.q.seq (s.q.enq % n) ≠ s.q.enq := by omega
  simp only [pnext, hh, next, hp, Option.map_some, Option.bind_some, solo, upd_self, hs, hne, if_false, or_true,
    if_true, Option.some.injEq, exists_eq_left', true_and, Bool.false_eq_true, Option.toList_some]
  intro j
  by_cases e : j = i
  · subst e; simp only [upd_self, hp]
  · simp only [upd_ne _ _ e]

/-- The start of a borrow, up to its ticket. -/
theorem claim_run {n : Nat} {s : PSt} {i : Nat} (hp : s.q.pc i = .idle) (hh : s.hold i = none)
    (hs : s.q.seq (s.q.deq % n) = s.q.deq + 1) :
    ∃ s', (pnext n s i .borrow).bind (solo n i 3) = some s' ∧ s'.q.seq = s.q.seq ∧
      s'.q.deq = s.q.deq + 1 ∧ s'.q.enq = s.q.enq ∧ s'.hold = s.hold ∧ s'.lost = s.lost ∧
      s'.q.pc i = .dRead s.q.deq ∧ ∀ j, j ≠ i → s'.q.pc j = s.q.pc j := by
  simp only [pnext, hh, next, hp, Option.map_some, Option.bind_some, solo, upd_self, hs, and_self, if_true,
    Option.some.injEq, exists_eq_left', true_and]
  intro j e
  simp only [upd_ne _ _ e]

/-- The rest of the borrow. -/
theorem rest_run {n : Nat} {s : PSt} (I : Inv n s.q) {i d : Nat} (hp : s.q.pc i = .dRead d) :
    ∃ v s', solo n i 3 s = some s' ∧ s'.q.seq = upd s.q.seq (d % n) (d + n) ∧
      s'.q.deq = s.q.deq ∧ s'.q.enq = s.q.enq ∧ s'.hold = upd s.hold i (some v) ∧ s'.lost = s.lost ∧
      s'.q.pc i = .idle ∧ ∀ j, j ≠ i → s'.q.pc j = s.q.pc j := by
  have hi := I.thr i
  rw [hp] at hi
  obtain ⟨v, hv, _⟩ := hi.2.2.1
  refine ⟨v, ?_⟩
  simp only [pnext, next, hp, Option.map_some, Option.bind_some, solo, upd_self, hv,
    Option.some.injEq, exists_eq_left', true_and]
  intro j e
  simp only [upd_ne _ _ e]

/-- Between calls, with `k` objects in the queue and `n - k` lost. -/
structure Calm (n k : Nat) (s : PSt) : Prop where
  reach : PReach n n s
  pc : ∀ j, s.q.pc j = .idle
  hold : ∀ j, s.hold j = none
  enq : s.q.enq = s.q.deq + k
  lost : s.lost.length + k = n
  full : ∀ t, s.q.deq ≤ t → t < s.q.deq + k → s.q.seq (t % n) = t + 1
  free : ∀ t, s.q.deq + k ≤ t → t < s.q.deq + n → s.q.seq (t % n) = t

/-- Thread 0 is suspended with ticket `d`, and thread 1 has been round `r` times. -/
structure Stuck (n k d r : Nat) (s : PSt) : Prop where
  reach : PReach n n s
  pc : ∀ j, j ≠ 0 → s.q.pc j = .idle
  pc0 : s.q.pc 0 = .dRead d
  hold : ∀ j, s.hold j = none
  deq : s.q.deq = d + 1 + r
  enq : s.q.enq = d + k + r
  lost : s.lost.length + k = n
  mine : s.q.seq (d % n) = d + 1
  full : ∀ t, s.q.deq ≤ t → t < s.q.enq → s.q.seq (t % n) = t + 1
  done : ∀ t, d + 1 ≤ t → t < s.q.deq → s.q.seq (t % n) = t + n
  free : ∀ t, s.q.enq ≤ t → t < d + n → s.q.seq (t % n) = t

theorem upd_none {f : Nat → Option Nat} {i : Nat} {v : Option Nat} (h : ∀ j, f j = none) (j : Nat) :
    upd (upd f i v) i none j = none := by
  by_cases e : j = i
  · subst e; rw [upd_self]
  · rw [upd_ne _ _ e, upd_ne _ _ e, h]

theorem stuck_start {n k : Nat} {s : PSt} (hk : 1 ≤ k) (C : Calm n k s) :
    ∃ s', Stuck n k s.q.deq 0 s' := by
  obtain ⟨s', e, h1, h3, h4, h5, h6, h7, h8⟩ := claim_run (n := n) (C.pc 0) (C.hold 0) (C.full _ (Nat.le_refl _) (by omega))
  have he := C.enq
  refine ⟨s', reach_act C.reach e, fun j hj => by rw [h8 j hj, C.pc], h7, by rw [h5]; exact C.hold, by omega, by omega,
    by rw [h6]; exact C.lost, by rw [h1]; exact C.full _ (Nat.le_refl _) (by omega), ?_, ?_, ?_⟩
  · intro t a b; rw [h1]; exact C.full t (by omega) (by omega)
  · intro t a b; omega
  · intro t a b; rw [h1]; exact C.free t (by omega) (by omega)

theorem stuck_round {n k d r : Nat} (h2 : 2 ≤ n) (hk : 2 ≤ k) (hkn : k ≤ n) {s : PSt} (S : Stuck n k d r s)
    (hr : k + r < n) : ∃ s', Stuck n k d (r + 1) s' := by
  have hd := S.deq
  have he := S.enq
  have I := inv_reach h2 (pinv h2 (Nat.le_refl n) S.reach).reach
  obtain ⟨v, s1, e1, a1, a2, a3, a4, a5, a6⟩ := borrow_run I (S.pc 1 (by omega)) (S.hold 1) (S.full _ (Nat.le_refl _) (by omega))
  have hfree : s1.q.seq (s1.q.enq % n) = s1.q.enq := by
    rw [a1, a3, upd_ne _ _ (Ne.symm (ne_mod (by omega) (by omega)))]
    exact S.free _ (Nat.le_refl _) (by omega)
  obtain ⟨s2, e2, b1, b2, b3, b4, b5, b6⟩ := give_run (n := n) (i := 1) (v := v) (by rw [a6, S.pc 1 (by omega)])
    (by rw [a4, upd_self]) hfree
  have hseq : s2.q.seq = upd (upd s.q.seq (s.q.deq % n) (s.q.deq + n)) (s.q.enq % n) (s.q.enq + 1) := by
    rw [b1, a1, a3]
  refine ⟨s2, reach_act (reach_act S.reach e1) e2, fun j hj => by rw [b6, a6, S.pc j hj], by rw [b6, a6, S.pc0],
    fun j => by rw [b4, a4]; exact upd_none S.hold j, by omega, by omega, by rw [b5, a5]; exact S.lost, ?_, ?_, ?_, ?_⟩
  · rw [hseq, upd_ne _ _ (ne_mod (by omega) (by omega)), upd_ne _ _ (ne_mod (by omega) (by omega))]
    exact S.mine
  · intro t x y
    rw [hseq]
    by_cases e : t = s.q.enq
    · subst e; rw [upd_self]
    · rw [upd_ne _ _ (ne_mod (by omega) (by omega)), upd_ne _ _ (Ne.symm (ne_mod (by omega) (by omega)))]
      exact S.full t (by omega) (by omega)
  · intro t x y
    rw [hseq, upd_ne _ _ (ne_mod (by omega) (by omega))]
    by_cases e : t = s.q.deq
    · subst e; rw [upd_self]
    · rw [upd_ne _ _ (ne_mod (by omega) (by omega))]
      exact S.done t x (by omega)
  · intro t x y
    rw [hseq, upd_ne _ _ (Ne.symm (ne_mod (by omega) (by omega))), upd_ne _ _ (Ne.symm (ne_mod (by omega) (by omega)))]
    exact S.free t (by omega) y

theorem stuck_rounds {n k d : Nat} (h2 : 2 ≤ n) (hk : 2 ≤ k) (hkn : k ≤ n) {s : PSt} (S : Stuck n k d 0 s) :
    ∀ r, k + r ≤ n → ∃ s', Stuck n k d r s'
  | 0, _ => ⟨s, S⟩
  | r + 1, h => by
    obtain ⟨s', S'⟩ := stuck_rounds h2 hk hkn S r (by omega)
    exact stuck_round h2 hk hkn S' (by omega)

/-- One more object is lost. -/
theorem lose_one {n k : Nat} (h2 : 2 ≤ n) (hk : 2 ≤ k) (hkn : k ≤ n) {s : PSt} (C : Calm n k s) :
    ∃ s', Calm n (k - 1) s' := by
  obtain ⟨s0, S0⟩ := stuck_start (by omega) C
  obtain ⟨s1, S⟩ := stuck_rounds h2 hk hkn S0 (n - k) (by omega)
  generalize s.q.deq = d at S
  clear S0 C
  have hd := S.deq
  have he := S.enq
  have en : (d + n) % n = d % n := Nat.add_mod_right d n
  have I1 := inv_reach h2 (pinv h2 (Nat.le_refl n) S.reach).reach
  obtain ⟨v, s2, e1, a1, a2, a3, a4, a5, a6⟩ := borrow_run I1 (S.pc 1 (by omega)) (S.hold 1) (S.full _ (Nat.le_refl _) (by omega))
  have h1d : s1.q.enq = d + n := by omega
  have hfail : s2.q.seq (s2.q.enq % n) < s2.q.enq := by
    rw [a1, a3, h1d, en, upd_ne _ _ (ne_mod (by omega) (by omega)), S.mine]; omega
  obtain ⟨s3, e2, b1, b2, b3, b4, b5, b6⟩ := give_fail (n := n) (i := 1) (v := v) (by rw [a6, S.pc 1 (by omega)])
    (by rw [a4, upd_self]) hfail
  have R3 := reach_act (reach_act S.reach e1) e2
  have I3 := inv_reach h2 (pinv h2 (Nat.le_refl n) R3).reach
  obtain ⟨w, s4, e3, c1, c2, c3, c4, c5, c6, c7⟩ := rest_run I3 (i := 0) (d := d) (by rw [b6, a6, S.pc0])
  have R4 := reach_solo R3 e3
  have h4 : s4.q.seq (s4.q.enq % n) = s4.q.enq := by
    rw [c1, c3, b3, a3, h1d, en, upd_self]
  obtain ⟨s5, e4, d1, d2, d3, d4, d5, d6⟩ := give_run (n := n) (i := 0) (v := w) c6 (by rw [c4, upd_self]) h4
  have hseq : s5.q.seq = upd (upd (upd s1.q.seq (s1.q.deq % n) (s1.q.deq + n)) (d % n) (d + n)) (d % n) (d + n + 1) := by
    rw [d1, c1, b1, a1, c3, b3, a3, h1d, en]
  have hl := S.lost
  refine ⟨s5, reach_act R4 e4, ?_, ?_, by omega, ?_, ?_, ?_⟩
  · intro j
    rw [d6]
    by_cases e : j = 0
    · subst e; exact c6
    · rw [c7 j e, b6, a6, S.pc j e]
  · intro j
    rw [d4, c4]
    apply upd_none
    intro j
    rw [b4, a4]; exact upd_none S.hold j
  · rw [d5, c5, b5, a5, List.length_append, List.length_singleton]; omega
  · intro t x y
    rw [hseq]
    by_cases e : t = d + n
    · subst e; rw [en, upd_self]
    · rw [upd_ne _ _ (Ne.symm (ne_mod (by omega) (by omega))), upd_ne _ _ (Ne.symm (ne_mod (by omega) (by omega))),
        upd_ne _ _ (Ne.symm (ne_mod (by omega) (by omega)))]
      exact S.full t (by omega) (by omega)
  · intro t x y
    have et : t % n = (t - n) % n := by rw [← Nat.mod_eq_sub_mod (by omega)]
    rw [hseq, et, upd_ne _ _ (Ne.symm (ne_mod (by omega) (by omega))), upd_ne _ _ (Ne.symm (ne_mod (by omega) (by omega)))]
    by_cases e : t - n = s1.q.deq
    · rw [e, upd_self]; omega
    · rw [upd_ne _ _ (ne_mod (by omega) (by omega))]
      have := S.done (t - n) (by omega) (by omega)
      omega

theorem calm_start (n : Nat) : Calm n n (start n) where
  reach := .start
  pc := fun _ => rfl
  hold := fun _ => rfl
  enq := by simp [start, filled]
  lost := by simp [start]
  full := by
    intro t a b
    have b : t < n := by simpa [start, filled] using b
    simp [start, filled, Nat.mod_eq_of_lt b, b]
  free := by intro t a b; simp [start, filled] at a b; omega

/-- C136 fails: two threads, in a pool of any size that the ops accept, can lose all handlers but one, and then every
other thread of the op waits for that one. -/
theorem shrinks_refuted (n : Nat) (h2 : 2 ≤ n) (m : Nat) (hm : m < n) :
    ∃ s, PReach n n s ∧ s.lost.length = m ∧ (∀ j, s.q.pc j = .idle ∧ s.hold j = none) ∧ s.q.enq = s.q.deq + (n - m) := by
  have : ∀ m, m < n → ∃ s, Calm n (n - m) s := by
    intro m
    induction m with
    | zero => intro _; exact ⟨_, calm_start n⟩
    | succ m ih =>
      intro h
      obtain ⟨s, C⟩ := ih (by omega)
      obtain ⟨s', C'⟩ := lose_one h2 (by omega) (by omega) C
      exact ⟨s', by rwa [Nat.sub_sub] at C'⟩
  obtain ⟨s, C⟩ := this m hm
  have := C.lost
  exact ⟨s, C.reach, by omega, fun j => ⟨C.pc j, C.hold j⟩, C.enq⟩

end Verif.ObjPool
