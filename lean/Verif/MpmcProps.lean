import Verif.Mpmc
import Mathlib.Tactic.ByContra

/-! The bounded queue under all interleavings (C33). -/
namespace Verif.Mpmc

variable {α : Type}

/-! ### Helpers -/

theorem upd_self {β : Type} (f : Nat → β) (i : Nat) (x : β) : upd f i x i = x := by simp [upd]

theorem upd_ne {β : Type} (f : Nat → β) {i j : Nat} (x : β) (h : j ≠ i) : upd f i x j = f j := by
  simp [upd, h]

theorem spaced {n t u : Nat} (h : t % n = u % n) (hl : t < u) : t + n ≤ u := by
  have h1 : (u - t) % n = 0 := Nat.sub_mod_eq_zero_of_mod_eq h.symm
  have h2 : n ≤ u - t := Nat.le_of_dvd (by omega) (Nat.dvd_of_mod_eq_zero h1)
  omega

theorem not_next {n t u : Nat} (h2 : 2 ≤ n) (h : t % n = u % n) : t ≠ u + 1 := by
  intro e
  have := spaced h.symm (by omega)
  omega

/-- Ticket of an enqueue between its compare-exchange and its release store. -/
def ePos : Pc α → Option Nat
  | .eWrite _ pos => some pos
  | .eStore _ pos => some pos
  | _ => none

/-- Ticket of a dequeue between its compare-exchange and its release store. -/
def dPos : Pc α → Option Nat
  | .dRead pos => some pos
  | .dStore _ pos => some pos
  | _ => none

/-- What holds of a thread. -/
def PcOk (n : Nat) (s : State α) : Pc α → Prop
  | .eSeq _ _ pos => pos ≤ s.enq
  | .eCas _ _ pos q => pos ≤ s.enq ∧ (s.enq = pos → q = pos → s.seq (pos % n) = pos)
  | .eWrite v pos => pos < s.enq ∧ s.seq (pos % n) = pos ∧ s.hist[pos]? = some v
  | .eStore v pos => pos < s.enq ∧ s.seq (pos % n) = pos ∧ s.hist[pos]? = some v ∧
      s.data (pos % n) = some v
  | .dSeq _ pos => pos ≤ s.deq
  | .dCas _ pos q => pos ≤ s.deq ∧ (s.deq = pos → q = pos + 1 → s.seq (pos % n) = pos + 1)
  | .dRead pos => pos < s.deq ∧ s.seq (pos % n) = pos + 1 ∧
      (∃ v, s.data (pos % n) = some v ∧ s.hist[pos]? = some v) ∧ pos ∉ s.got.map Prod.fst
  | .dStore v pos => pos < s.deq ∧ s.seq (pos % n) = pos + 1 ∧ (pos, v) ∈ s.got
  | .dRet (some v) => ∃ pos, (pos, v) ∈ s.got
  | _ => True

structure Inv (n : Nat) (s : State α) : Prop where
  thr : ∀ i, PcOk n s (s.pc i)
  eUniq : ∀ i j t, ePos (s.pc i) = some t → ePos (s.pc j) = some t → i = j
  dUniq : ∀ i j t, dPos (s.pc i) = some t → dPos (s.pc j) = some t → i = j
  len : s.hist.length = s.enq
  le : s.deq ≤ s.enq
  cap : s.enq ≤ s.deq + n
  cls : ∀ i < n, ∃ t, t % n = i ∧ (s.seq i = t ∨ s.seq i = t + 1)
  full : ∀ t, s.seq (t % n) = t + 1 →
    t < s.enq ∧ (s.deq ≤ t → ∃ v, s.data (t % n) = some v ∧ s.hist[t]? = some v)
  gotOk : ∀ t v, (t, v) ∈ s.got → t < s.deq ∧ ∃ x, v = some x ∧ s.hist[t]? = some x
  nodup : (s.got.map Prod.fst).Nodup
  past : ∀ t, t + 1 < s.seq (t % n) → t ∈ s.got.map Prod.fst
  claimE : ∀ t, t < s.enq → (∃ i, ePos (s.pc i) = some t) ∨ t + 1 ≤ s.seq (t % n)
  claimD : ∀ t, t < s.deq → (∃ i, s.pc i = .dRead t) ∨ t ∈ s.got.map Prod.fst
  relD : ∀ t, t < s.deq → (∃ i, dPos (s.pc i) = some t) ∨ t + 1 < s.seq (t % n)

theorem inv_init {n : Nat} (h2 : 2 ≤ n) : Inv n (init : State α) where
  thr := fun _ => trivial
  eUniq := by intro i j t h; simp [init, ePos] at h
  dUniq := by intro i j t h; simp [init, dPos] at h
  len := rfl
  le := Nat.le_refl _
  cap := by simp [init]
  cls := fun i hi => ⟨i, Nat.mod_eq_of_lt hi, Or.inl rfl⟩
  full := by
    intro t h
    have : t % n ≤ t := Nat.mod_le _ _
    simp only [init] at h; omega
  gotOk := by intro t v h; simp [init] at h
  nodup := by simp [init]
  past := by
    intro t h
    have : t % n ≤ t := Nat.mod_le _ _
    simp only [init] at h; omega
  claimE := by intro t h; simp [init] at h
  claimD := by intro t h; simp [init] at h
  relD := by intro t h; simp [init] at h

/-- A step that only moves thread `i` outside the claimed sections. -/
theorem inv_move {n : Nat} {s : State α} (I : Inv n s) {i : Nat} {p : Pc α}
    (h1 : ePos (s.pc i) = none) (h2 : dPos (s.pc i) = none) (h3 : ePos p = none)
    (h4 : dPos p = none) (h5 : PcOk n s p) : Inv n { s with pc := upd s.pc i p } where
  thr := by
    intro j
    by_cases hj : j = i
    · subst hj
      simp only [upd_self]
      revert h5
      cases p with
      | dRet r => cases r <;> exact id
      | _ => exact id
    · simp only [upd_ne _ _ hj]
      have := I.thr j
      revert this
      cases s.pc j with
      | dRet r => cases r <;> exact id
      | _ => exact id
  eUniq := by
    intro a b t ha hb
    by_cases ea : a = i
    · subst ea; simp [upd_self, h3] at ha
    · by_cases eb : b = i
      · subst eb; simp [upd_self, h3] at hb
      · simp only [upd_ne _ _ ea] at ha; simp only [upd_ne _ _ eb] at hb; exact I.eUniq a b t ha hb
  dUniq := by
    intro a b t ha hb
    by_cases ea : a = i
    · subst ea; simp [upd_self, h4] at ha
    · by_cases eb : b = i
      · subst eb; simp [upd_self, h4] at hb
      · simp only [upd_ne _ _ ea] at ha; simp only [upd_ne _ _ eb] at hb; exact I.dUniq a b t ha hb
  len := I.len
  le := I.le
  cap := I.cap
  cls := I.cls
  full := I.full
  gotOk := I.gotOk
  nodup := I.nodup
  past := I.past
  claimE := by
    intro t ht
    rcases I.claimE t ht with ⟨j, hj⟩ | h
    · left
      refine ⟨j, ?_⟩
      have : j ≠ i := by rintro rfl; rw [h1] at hj; cases hj
      simp only [upd_ne _ _ this]; exact hj
    · exact Or.inr h
  claimD := by
    intro t ht
    rcases I.claimD t ht with ⟨j, hj⟩ | h
    · left
      refine ⟨j, ?_⟩
      have : j ≠ i := by rintro rfl; rw [hj] at h2; cases h2
      simp only [upd_ne _ _ this]; exact hj
    · exact Or.inr h
  relD := by
    intro t ht
    rcases I.relD t ht with ⟨j, hj⟩ | h
    · left
      refine ⟨j, ?_⟩
      have : j ≠ i := by rintro rfl; rw [h2] at hj; cases hj
      simp only [upd_ne _ _ this]; exact hj
    · exact Or.inr h

theorem getElem?_snoc {l : List α} {t : Nat} {v x : α} (h : l[t]? = some v) :
    (l ++ [x])[t]? = some v := by
  have := (List.getElem?_eq_some_iff.1 h).1
  rw [List.getElem?_append_left this]; exact h

/-- The compare-exchange of an enqueue. -/
theorem inv_eCas {n : Nat} (h2 : 2 ≤ n) {s : State α} (I : Inv n s) {i : Nat} {v : α} {once : Bool}
    (hp : s.pc i = .eCas v once s.enq s.enq) :
    Inv n { s with enq := s.enq + 1, hist := s.hist ++ [v],
                   pc := upd s.pc i (.eWrite v s.enq) } := by
  have hi := I.thr i
  rw [hp] at hi
  have hseq := hi.2 rfl rfl
  have he : ePos (s.pc i) = none := by rw [hp]; rfl
  have hd : dPos (s.pc i) = none := by rw [hp]; rfl
  have hlt : ∀ j t, ePos (s.pc j) = some t → t < s.enq := by
    intro j t h
    have := I.thr j
    revert this h
    cases s.pc j <;> simp only [ePos, PcOk, Option.some.injEq, reduceCtorEq, false_imp_iff] <;>
      rintro rfl h <;> exact h.1
  exact
  { thr := by
      intro j
      by_cases hj : j = i
      · subst hj; simp only [upd_self]
        exact ⟨Nat.lt_succ_self _, hseq, by rw [← I.len]; simp⟩
      · simp only [upd_ne _ _ hj]
        have h := I.thr j
        revert h
        cases s.pc j with
        | eSeq => intro h; exact Nat.le_succ_of_le h
        | eCas => intro h; exact ⟨Nat.le_succ_of_le h.1, fun e => absurd h.1 (by simp only at e; omega)⟩
        | eWrite => intro h; exact ⟨Nat.lt_succ_of_lt h.1, h.2.1, getElem?_snoc h.2.2⟩
        | eStore =>
          intro h; exact ⟨Nat.lt_succ_of_lt h.1, h.2.1, getElem?_snoc h.2.2.1, h.2.2.2⟩
        | dRead =>
          rintro ⟨a, b, ⟨x, c, d⟩, e⟩
          exact ⟨a, b, ⟨x, c, getElem?_snoc d⟩, e⟩
        | dRet r => cases r <;> exact id
        | _ => exact id
    eUniq := by
      intro a b t ha hb
      by_cases ea : a = i
      · subst ea
        simp only [upd_self, ePos, Option.some.injEq] at ha
        by_cases eb : b = a
        · exact eb.symm
        · simp only [upd_ne _ _ eb] at hb
          have := hlt b t hb; omega
      · simp only [upd_ne _ _ ea] at ha
        by_cases eb : b = i
        · subst eb
          simp only [upd_self, ePos, Option.some.injEq] at hb
          have := hlt a t ha; omega
        · simp only [upd_ne _ _ eb] at hb; exact I.eUniq a b t ha hb
    dUniq := by
      intro a b t ha hb
      by_cases ea : a = i
      · subst ea; simp [upd_self, dPos] at ha
      · by_cases eb : b = i
        · subst eb; simp [upd_self, dPos] at hb
        · simp only [upd_ne _ _ ea] at ha; simp only [upd_ne _ _ eb] at hb
          exact I.dUniq a b t ha hb
    len := by simp [I.len]
    le := by have := I.le; simp only; omega
    cap := by
      simp only
      by_cases hn : s.enq < n
      · omega
      · have e : (s.enq - n) % n = s.enq % n := by
          rw [← Nat.mod_eq_sub_mod (by omega)]
        have := I.past (s.enq - n) (by rw [e, hseq]; omega)
        obtain ⟨⟨t, w⟩, hm, ht⟩ := List.mem_map.1 this
        have := (I.gotOk t w hm).1
        simp only at ht
        omega
    cls := I.cls
    full := by
      intro t ht
      obtain ⟨a, b⟩ := I.full t ht
      refine ⟨by simp only; omega, fun h => ?_⟩
      obtain ⟨x, c, d⟩ := b h
      exact ⟨x, c, getElem?_snoc d⟩
    gotOk := by
      intro t w h
      obtain ⟨a, x, b, c⟩ := I.gotOk t w h
      exact ⟨a, x, b, getElem?_snoc c⟩
    nodup := I.nodup
    past := I.past
    claimE := by
      intro t ht
      simp only at ht
      by_cases e : t = s.enq
      · exact Or.inl ⟨i, by simp only [upd_self, ePos, e]⟩
      · rcases I.claimE t (by omega) with ⟨j, hj⟩ | h
        · left
          refine ⟨j, ?_⟩
          have : j ≠ i := by rintro rfl; rw [he] at hj; cases hj
          simp only [upd_ne _ _ this]; exact hj
        · exact Or.inr h
    claimD := by
      intro t ht
      rcases I.claimD t ht with ⟨j, hj⟩ | h
      · left
        refine ⟨j, ?_⟩
        have : j ≠ i := by rintro rfl; rw [hj] at hd; cases hd
        simp only [upd_ne _ _ this]; exact hj
      · exact Or.inr h
    relD := by
      intro t ht
      rcases I.relD t ht with ⟨j, hj⟩ | h
      · left
        refine ⟨j, ?_⟩
        have : j ≠ i := by rintro rfl; rw [hd] at hj; cases hj
        simp only [upd_ne _ _ this]; exact hj
      · exact Or.inr h }

theorem ePos_of_eq {p : Pc α} {t : Nat} (n : Nat) (s : State α) (h : ePos p = some t)
    (hk : PcOk n s p) : t < s.enq ∧ s.seq (t % n) = t := by
  cases p <;> simp only [ePos, Option.some.injEq, reduceCtorEq] at h <;> subst h <;>
    exact ⟨hk.1, hk.2.1⟩

theorem dPos_of_eq {p : Pc α} {t : Nat} (n : Nat) (s : State α) (h : dPos p = some t)
    (hk : PcOk n s p) : t < s.deq ∧ s.seq (t % n) = t + 1 := by
  cases p <;> simp only [dPos, Option.some.injEq, reduceCtorEq] at h <;> subst h <;>
    exact ⟨hk.1, hk.2.1⟩

/-- Moving thread `i` inside its section keeps the claims of all threads. -/
theorem upd_claim {β : Type} {f : Nat → β} {i j : Nat} {p : β} {g : β → Option Nat}
    (h : g p = g (f i)) : g (upd f i p j) = g (f j) := by
  by_cases e : j = i
  · subst e; rw [upd_self, h]
  · rw [upd_ne _ _ e]

/-- The write of an enqueue. -/
theorem inv_eWrite {n : Nat} (h2 : 2 ≤ n) {s : State α} (I : Inv n s) {i : Nat} {v : α} {pos : Nat}
    (hp : s.pc i = .eWrite v pos) :
    Inv n { s with data := upd s.data (pos % n) (some v), pc := upd s.pc i (.eStore v pos) } := by
  have hi := I.thr i
  rw [hp] at hi
  obtain ⟨hlt, hseq, hh⟩ := hi
  have ce : ∀ j, ePos (upd s.pc i (.eStore v pos) j) = ePos (s.pc j) := fun j =>
    upd_claim (g := ePos) (by rw [hp]; rfl)
  have cd : ∀ j, dPos (upd s.pc i (.eStore v pos) j) = dPos (s.pc j) := fun j =>
    upd_claim (g := dPos) (by rw [hp]; rfl)
  exact
  { thr := by
      intro j
      by_cases hj : j = i
      · subst hj; simp only [upd_self]
        exact ⟨hlt, hseq, hh, upd_self _ _ _⟩
      · simp only [upd_ne _ _ hj]
        have h := I.thr j
        have hu := I.eUniq j i
        rw [hp] at hu
        revert h hu
        cases s.pc j with
        | eStore w t =>
          intro h hu
          refine ⟨h.1, h.2.1, h.2.2.1, ?_⟩
          by_cases e : t % n = pos % n
          · have h3 := h.2.1
            rw [e, hseq] at h3
            exact absurd (hu t rfl (by simp [ePos, h3])) hj
          · simp only [upd_ne _ _ e]; exact h.2.2.2
        | dRead t =>
          rintro ⟨a, b, ⟨x, c, d⟩, e⟩ _
          refine ⟨a, b, ⟨x, ?_, d⟩, e⟩
          by_cases e : t % n = pos % n
          · rw [e, hseq] at b; exact absurd b (not_next h2 e.symm)
          · simp only [upd_ne _ _ e]; exact c
        | dRet r => cases r <;> (intro h _; exact h)
        | _ => intro h _; exact h
    eUniq := by
      intro a b t ha hb
      rw [ce] at ha hb; exact I.eUniq a b t ha hb
    dUniq := by
      intro a b t ha hb
      rw [cd] at ha hb; exact I.dUniq a b t ha hb
    len := I.len
    le := I.le
    cap := I.cap
    cls := I.cls
    full := by
      intro t ht
      obtain ⟨a, b⟩ := I.full t ht
      refine ⟨a, fun h => ?_⟩
      obtain ⟨x, c, d⟩ := b h
      refine ⟨x, ?_, d⟩
      by_cases e : t % n = pos % n
      · simp only at ht; rw [e, hseq] at ht; exact absurd ht (not_next h2 e.symm)
      · simp only [upd_ne _ _ e]; exact c
    gotOk := I.gotOk
    nodup := I.nodup
    past := I.past
    claimE := by
      intro t ht
      rcases I.claimE t ht with ⟨j, hj⟩ | h
      · exact Or.inl ⟨j, by rw [ce]; exact hj⟩
      · exact Or.inr h
    claimD := by
      intro t ht
      rcases I.claimD t ht with ⟨j, hj⟩ | h
      · left
        refine ⟨j, ?_⟩
        have : j ≠ i := by rintro rfl; rw [hj] at hp; cases hp
        simp only [upd_ne _ _ this]; exact hj
      · exact Or.inr h
    relD := by
      intro t ht
      rcases I.relD t ht with ⟨j, hj⟩ | h
      · exact Or.inl ⟨j, by rw [cd]; exact hj⟩
      · exact Or.inr h }

/-- The release store of an enqueue. -/
theorem inv_eStore {n : Nat} (h2 : 2 ≤ n) {s : State α} (I : Inv n s) {i : Nat} {v : α} {pos : Nat}
    (hp : s.pc i = .eStore v pos) :
    Inv n { s with seq := upd s.seq (pos % n) (pos + 1), pc := upd s.pc i (.eRet true) } := by
  have hi := I.thr i
  rw [hp] at hi
  obtain ⟨hlt, hseq, hh, hdat⟩ := hi
  have ne_of : ∀ {t}, s.seq (t % n) = t → t ≠ pos → t % n ≠ pos % n := by
    intro t h1 h3 e
    rw [e, hseq] at h1; exact h3 h1.symm
  have cd : ∀ j, dPos (upd s.pc i (.eRet true) j) = dPos (s.pc j) := fun j =>
    upd_claim (g := dPos) (by rw [hp]; rfl)
  have ce : ∀ j t, ePos (upd s.pc i (.eRet true) j) = some t → ePos (s.pc j) = some t ∧ j ≠ i := by
    intro j t h
    by_cases e : j = i
    · subst e; simp [upd_self, ePos] at h
    · rw [upd_ne _ _ e] at h; exact ⟨h, e⟩
  exact
  { thr := by
      intro j
      by_cases hj : j = i
      · subst hj; simp only [upd_self]; trivial
      · simp only [upd_ne _ _ hj]
        have h := I.thr j
        have hu := I.eUniq j i
        rw [hp] at hu
        revert h hu
        cases s.pc j with
        | eCas w o t q =>
          rintro ⟨a, b⟩ _
          refine ⟨a, fun e1 e2 => ?_⟩
          have h3 := b e1 e2
          simp only at e1
          have : t % n ≠ pos % n := ne_of h3 (by omega)
          simp only [upd_ne _ _ this]; exact h3
        | eWrite w t =>
          rintro ⟨a, b, c⟩ hu
          have : t ≠ pos := by rintro rfl; exact hj (hu t rfl rfl)
          exact ⟨a, by simp only [upd_ne _ _ (ne_of b this)]; exact b, c⟩
        | eStore w t =>
          rintro ⟨a, b, c⟩ hu
          have : t ≠ pos := by rintro rfl; exact hj (hu t rfl rfl)
          exact ⟨a, by simp only [upd_ne _ _ (ne_of b this)]; exact b, c⟩
        | dCas o t q =>
          rintro ⟨a, b⟩ _
          refine ⟨a, fun e1 e2 => ?_⟩
          have h3 := b e1 e2
          have : t % n ≠ pos % n := by
            intro e; rw [e, hseq] at h3; exact not_next h2 e.symm h3
          simp only [upd_ne _ _ this]; exact h3
        | dRead t =>
          rintro ⟨a, b, c⟩ _
          have : t % n ≠ pos % n := by
            intro e; rw [e, hseq] at b; exact not_next h2 e.symm b
          exact ⟨a, by simp only [upd_ne _ _ this]; exact b, c⟩
        | dStore w t =>
          rintro ⟨a, b, c⟩ _
          have : t % n ≠ pos % n := by
            intro e; rw [e, hseq] at b; exact not_next h2 e.symm b
          exact ⟨a, by simp only [upd_ne _ _ this]; exact b, c⟩
        | dRet r => cases r <;> (intro h _; exact h)
        | _ => intro h _; exact h
    eUniq := by
      intro a b t ha hb
      exact I.eUniq a b t (ce a t ha).1 (ce b t hb).1
    dUniq := by
      intro a b t ha hb
      rw [cd] at ha hb; exact I.dUniq a b t ha hb
    len := I.len
    le := I.le
    cap := I.cap
    cls := by
      intro k hk
      by_cases e : k = pos % n
      · exact ⟨pos, e.symm, Or.inr (by simp only [e, upd_self])⟩
      · simp only [upd_ne _ _ e]; exact I.cls k hk
    full := by
      intro t ht
      by_cases e : t % n = pos % n
      · simp only [e, upd_self] at ht
        have : t = pos := by omega
        subst this
        exact ⟨hlt, fun _ => ⟨v, hdat, hh⟩⟩
      · simp only [upd_ne _ _ e] at ht; exact I.full t ht
    gotOk := I.gotOk
    nodup := I.nodup
    past := by
      intro t ht
      by_cases e : t % n = pos % n
      · simp only [e, upd_self] at ht
        have := spaced e (by omega)
        exact I.past t (by rw [e, hseq]; omega)
      · simp only [upd_ne _ _ e] at ht; exact I.past t ht
    claimE := by
      intro t ht
      by_cases e : t % n = pos % n
      · simp only [e, upd_self]
        by_cases ht' : t ≤ pos
        · right; omega
        · rcases I.claimE t ht with ⟨j, hj⟩ | h
          · have := (ePos_of_eq n s hj (I.thr j)).2
            rw [e, hseq] at this; omega
          · rw [e, hseq] at h; omega
      · simp only [upd_ne _ _ e]
        rcases I.claimE t ht with ⟨j, hj⟩ | h
        · left
          refine ⟨j, ?_⟩
          have : j ≠ i := by
            rintro rfl
            rw [hp] at hj; simp only [ePos, Option.some.injEq] at hj
            exact e (by rw [hj])
          rw [upd_ne _ _ this]; exact hj
        · exact Or.inr h
    claimD := by
      intro t ht
      rcases I.claimD t ht with ⟨j, hj⟩ | h
      · left
        refine ⟨j, ?_⟩
        have : j ≠ i := by rintro rfl; rw [hj] at hp; cases hp
        simp only [upd_ne _ _ this]; exact hj
      · exact Or.inr h
    relD := by
      intro t ht
      rcases I.relD t ht with ⟨j, hj⟩ | h
      · exact Or.inl ⟨j, by rw [cd]; exact hj⟩
      · right
        by_cases e : t % n = pos % n
        · simp only [e, upd_self]; rw [e, hseq] at h; omega
        · simp only [upd_ne _ _ e]; exact h }

/-- The compare-exchange of a dequeue. -/
theorem inv_dCas {n : Nat} {s : State α} (I : Inv n s) {i : Nat} {once : Bool}
    (hp : s.pc i = .dCas once s.deq (s.deq + 1)) :
    Inv n { s with deq := s.deq + 1, pc := upd s.pc i (.dRead s.deq) } := by
  have hi := I.thr i
  rw [hp] at hi
  have hseq := hi.2 rfl rfl
  obtain ⟨hf1, hf2⟩ := I.full _ hseq
  have ce : ∀ j, ePos (upd s.pc i (.dRead s.deq) j) = ePos (s.pc j) := fun j =>
    upd_claim (g := ePos) (by rw [hp]; rfl)
  have hlt : ∀ j t, dPos (s.pc j) = some t → t < s.deq := fun j t h =>
    (dPos_of_eq n s h (I.thr j)).1
  have hng : s.deq ∉ s.got.map Prod.fst := by
    intro h
    obtain ⟨⟨t, w⟩, hm, ht⟩ := List.mem_map.1 h
    have := (I.gotOk t w hm).1
    simp only at ht; omega
  exact
  { thr := by
      intro j
      by_cases hj : j = i
      · subst hj; simp only [upd_self]
        exact ⟨Nat.lt_succ_self _, hseq, hf2 (Nat.le_refl _), hng⟩
      · simp only [upd_ne _ _ hj]
        have h := I.thr j
        revert h
        cases s.pc j with
        | dSeq => intro h; exact Nat.le_succ_of_le h
        | dCas => intro h; exact ⟨Nat.le_succ_of_le h.1, fun e => absurd h.1 (by simp only at e; omega)⟩
        | dRead => intro h; exact ⟨Nat.lt_succ_of_lt h.1, h.2⟩
        | dStore => intro h; exact ⟨Nat.lt_succ_of_lt h.1, h.2⟩
        | dRet r => cases r <;> exact id
        | _ => exact id
    eUniq := by
      intro a b t ha hb
      rw [ce] at ha hb; exact I.eUniq a b t ha hb
    dUniq := by
      intro a b t ha hb
      by_cases ea : a = i
      · subst ea
        simp only [upd_self, dPos, Option.some.injEq] at ha
        by_cases eb : b = a
        · exact eb.symm
        · simp only [upd_ne _ _ eb] at hb
          have := hlt b t hb; omega
      · simp only [upd_ne _ _ ea] at ha
        by_cases eb : b = i
        · subst eb
          simp only [upd_self, dPos, Option.some.injEq] at hb
          have := hlt a t ha; omega
        · simp only [upd_ne _ _ eb] at hb; exact I.dUniq a b t ha hb
    len := I.len
    le := hf1
    cap := by have := I.cap; simp only; omega
    cls := I.cls
    full := by
      intro t ht
      obtain ⟨a, b⟩ := I.full t ht
      exact ⟨a, fun h => b (by simp only at h; omega)⟩
    gotOk := by
      intro t w h
      obtain ⟨a, b⟩ := I.gotOk t w h
      exact ⟨Nat.lt_succ_of_lt a, b⟩
    nodup := I.nodup
    past := I.past
    claimE := by
      intro t ht
      rcases I.claimE t ht with ⟨j, hj⟩ | h
      · exact Or.inl ⟨j, by rw [ce]; exact hj⟩
      · exact Or.inr h
    claimD := by
      intro t ht
      simp only at ht
      by_cases e : t = s.deq
      · exact Or.inl ⟨i, by simp only [upd_self, e]⟩
      · rcases I.claimD t (by omega) with ⟨j, hj⟩ | h
        · left
          refine ⟨j, ?_⟩
          have : j ≠ i := by rintro rfl; rw [hj] at hp; cases hp
          simp only [upd_ne _ _ this]; exact hj
        · exact Or.inr h
    relD := by
      intro t ht
      simp only at ht
      by_cases e : t = s.deq
      · exact Or.inl ⟨i, by simp only [upd_self, dPos, e]⟩
      · rcases I.relD t (by omega) with ⟨j, hj⟩ | h
        · left
          refine ⟨j, ?_⟩
          have : j ≠ i := by rintro rfl; rw [hp] at hj; cases hj
          simp only [upd_ne _ _ this]; exact hj
        · exact Or.inr h }

/-- The move of a dequeue. -/
theorem inv_dRead {n : Nat} (h2 : 2 ≤ n) {s : State α} (I : Inv n s) {i : Nat} {pos : Nat}
    (hp : s.pc i = .dRead pos) :
    Inv n { s with data := upd s.data (pos % n) none, got := s.got ++ [(pos, s.data (pos % n))],
                   pc := upd s.pc i (.dStore (s.data (pos % n)) pos) } := by
  have hi := I.thr i
  rw [hp] at hi
  obtain ⟨hlt, hseq, ⟨v, hv, hh⟩, hng⟩ := hi
  have ce : ∀ j, ePos (upd s.pc i (.dStore (s.data (pos % n)) pos) j) = ePos (s.pc j) := fun j =>
    upd_claim (g := ePos) (by rw [hp]; rfl)
  have cd : ∀ j, dPos (upd s.pc i (.dStore (s.data (pos % n)) pos) j) = dPos (s.pc j) := fun j =>
    upd_claim (g := dPos) (by rw [hp]; rfl)
  exact
  { thr := by
      intro j
      by_cases hj : j = i
      · subst hj; simp only [upd_self]
        exact ⟨hlt, hseq, by simp⟩
      · simp only [upd_ne _ _ hj]
        have h := I.thr j
        have hu := I.dUniq j i
        rw [hp] at hu
        revert h hu
        cases s.pc j with
        | eStore w t =>
          rintro ⟨a, b, c, d⟩ _
          refine ⟨a, b, c, ?_⟩
          have : t % n ≠ pos % n := by
            intro e; rw [e, hseq] at b; exact not_next h2 e b.symm
          simp only [upd_ne _ _ this]; exact d
        | dRead t =>
          rintro ⟨a, b, ⟨x, c, d⟩, e⟩ hu
          have hne : t ≠ pos := by rintro rfl; exact hj (hu t rfl rfl)
          have : t % n ≠ pos % n := by
            intro e; rw [e, hseq] at b; omega
          refine ⟨a, b, ⟨x, by simp only [upd_ne _ _ this]; exact c, d⟩, ?_⟩
          simp only [List.map_append, List.mem_append, not_or]
          exact ⟨e, by simpa using hne⟩
        | dStore w t =>
          rintro ⟨a, b, c⟩ _
          exact ⟨a, b, List.mem_append_left _ c⟩
        | dRet r =>
          cases r with
          | none => intro _ _; trivial
          | some w => rintro ⟨t, h⟩ _; exact ⟨t, List.mem_append_left _ h⟩
        | _ => intro h _; exact h
    eUniq := by
      intro a b t ha hb
      rw [ce] at ha hb; exact I.eUniq a b t ha hb
    dUniq := by
      intro a b t ha hb
      rw [cd] at ha hb; exact I.dUniq a b t ha hb
    len := I.len
    le := I.le
    cap := I.cap
    cls := I.cls
    full := by
      intro t ht
      obtain ⟨a, b⟩ := I.full t ht
      refine ⟨a, fun h => ?_⟩
      obtain ⟨x, c, d⟩ := b h
      refine ⟨x, ?_, d⟩
      by_cases e : t % n = pos % n
      · simp only at ht h; rw [e, hseq] at ht; omega
      · simp only [upd_ne _ _ e]; exact c
    gotOk := by
      intro t w h
      rcases List.mem_append.1 h with h | h
      · exact I.gotOk t w h
      · simp only [List.mem_cons, Prod.mk.injEq, List.not_mem_nil, or_false] at h
        rw [h.1, h.2]
        exact ⟨hlt, v, hv, hh⟩
    nodup := by
      simp only [List.map_append]
      refine List.nodup_append.2 ⟨I.nodup, by simp, ?_⟩
      intro a ha b hb
      simp only [List.map_cons, List.map_nil, List.mem_cons, List.not_mem_nil, or_false] at hb
      rintro rfl
      rw [hb] at ha; exact hng ha
    past := by
      intro t ht
      simp only [List.map_append, List.mem_append]
      exact Or.inl (I.past t ht)
    claimE := by
      intro t ht
      rcases I.claimE t ht with ⟨j, hj⟩ | h
      · exact Or.inl ⟨j, by rw [ce]; exact hj⟩
      · exact Or.inr h
    claimD := by
      intro t ht
      simp only [List.map_append, List.mem_append]
      by_cases e : t = pos
      · right; right; simp [e]
      · rcases I.claimD t ht with ⟨j, hj⟩ | h
        · left
          refine ⟨j, ?_⟩
          have : j ≠ i := by
            rintro rfl; rw [hj] at hp; injection hp with hp; exact e hp
          rw [upd_ne _ _ this]; exact hj
        · exact Or.inr (Or.inl h)
    relD := by
      intro t ht
      rcases I.relD t ht with ⟨j, hj⟩ | h
      · exact Or.inl ⟨j, by rw [cd]; exact hj⟩
      · exact Or.inr h }

/-- The release store of a dequeue. -/
theorem inv_dStore {n : Nat} (h2 : 2 ≤ n) {s : State α} (I : Inv n s) {i : Nat} {v : Option α}
    {pos : Nat} (hp : s.pc i = .dStore v pos) :
    Inv n { s with seq := upd s.seq (pos % n) (pos + n), pc := upd s.pc i (.dRet (some v)) } := by
  have hi := I.thr i
  rw [hp] at hi
  obtain ⟨hlt, hseq, hg⟩ := hi
  have ce : ∀ j, ePos (upd s.pc i (.dRet (some v)) j) = ePos (s.pc j) := fun j =>
    upd_claim (g := ePos) (by rw [hp]; rfl)
  have cd : ∀ j t, dPos (upd s.pc i (.dRet (some v)) j) = some t → dPos (s.pc j) = some t ∧ j ≠ i := by
    intro j t h
    by_cases e : j = i
    · subst e; simp [upd_self, dPos] at h
    · rw [upd_ne _ _ e] at h; exact ⟨h, e⟩
  have ne1 : ∀ {t}, s.seq (t % n) = t → t % n ≠ pos % n := by
    intro t h e; rw [e, hseq] at h; exact not_next h2 e h.symm
  have ne2 : ∀ {t}, s.seq (t % n) = t + 1 → t ≠ pos → t % n ≠ pos % n := by
    intro t h h3 e; rw [e, hseq] at h; omega
  exact
  { thr := by
      intro j
      by_cases hj : j = i
      · subst hj; simp only [upd_self]; exact ⟨pos, hg⟩
      · simp only [upd_ne _ _ hj]
        have h := I.thr j
        have hu := I.dUniq j i
        rw [hp] at hu
        revert h hu
        cases s.pc j with
        | eCas w o t q =>
          rintro ⟨a, b⟩ _
          refine ⟨a, fun e1 e2 => ?_⟩
          have h3 := b e1 e2
          simp only [upd_ne _ _ (ne1 h3)]; exact h3
        | eWrite w t =>
          rintro ⟨a, b, c⟩ _
          exact ⟨a, by simp only [upd_ne _ _ (ne1 b)]; exact b, c⟩
        | eStore w t =>
          rintro ⟨a, b, c⟩ _
          exact ⟨a, by simp only [upd_ne _ _ (ne1 b)]; exact b, c⟩
        | dCas o t q =>
          rintro ⟨a, b⟩ _
          refine ⟨a, fun e1 e2 => ?_⟩
          have h3 := b e1 e2
          simp only at e1
          simp only [upd_ne _ _ (ne2 h3 (by omega))]; exact h3
        | dRead t =>
          rintro ⟨a, b, c⟩ hu
          have : t ≠ pos := by rintro rfl; exact hj (hu t rfl rfl)
          exact ⟨a, by simp only [upd_ne _ _ (ne2 b this)]; exact b, c⟩
        | dStore w t =>
          rintro ⟨a, b, c⟩ hu
          have : t ≠ pos := by rintro rfl; exact hj (hu t rfl rfl)
          exact ⟨a, by simp only [upd_ne _ _ (ne2 b this)]; exact b, c⟩
        | dRet r => cases r <;> (intro h _; exact h)
        | _ => intro h _; exact h
    eUniq := by
      intro a b t ha hb
      rw [ce] at ha hb; exact I.eUniq a b t ha hb
    dUniq := by
      intro a b t ha hb
      exact I.dUniq a b t (cd a t ha).1 (cd b t hb).1
    len := I.len
    le := I.le
    cap := I.cap
    cls := by
      intro k hk
      by_cases e : k = pos % n
      · exact ⟨pos + n, by rw [Nat.add_mod_right, e], Or.inl (by simp only [e, upd_self])⟩
      · simp only [upd_ne _ _ e]; exact I.cls k hk
    full := by
      intro t ht
      by_cases e : t % n = pos % n
      · simp only [e, upd_self] at ht
        exact absurd ht (not_next h2 (by rw [Nat.add_mod_right, e]))
      · simp only [upd_ne _ _ e] at ht; exact I.full t ht
    gotOk := I.gotOk
    nodup := I.nodup
    past := by
      intro t ht
      by_cases e : t % n = pos % n
      · simp only [e, upd_self] at ht
        by_cases h : t = pos
        · subst h; exact List.mem_map.2 ⟨_, hg, rfl⟩
        · by_cases hl : t < pos
          · exact I.past t (by rw [e, hseq]; omega)
          · have := spaced e.symm (by omega)
            omega
      · simp only [upd_ne _ _ e] at ht; exact I.past t ht
    claimE := by
      intro t ht
      rcases I.claimE t ht with ⟨j, hj⟩ | h
      · exact Or.inl ⟨j, by rw [ce]; exact hj⟩
      · right
        by_cases e : t % n = pos % n
        · simp only [e, upd_self]; rw [e, hseq] at h; omega
        · simp only [upd_ne _ _ e]; exact h
    claimD := by
      intro t ht
      rcases I.claimD t ht with ⟨j, hj⟩ | h
      · left
        refine ⟨j, ?_⟩
        have : j ≠ i := by rintro rfl; rw [hj] at hp; cases hp
        simp only [upd_ne _ _ this]; exact hj
      · exact Or.inr h
    relD := by
      intro t ht
      by_cases e : t % n = pos % n
      · simp only [e, upd_self]
        by_cases hl : t ≤ pos
        · right; omega
        · rcases I.relD t ht with ⟨j, hj⟩ | h
          · have := (dPos_of_eq n s hj (I.thr j)).2
            rw [e, hseq] at this; omega
          · rw [e, hseq] at h; omega
      · simp only [upd_ne _ _ e]
        rcases I.relD t ht with ⟨j, hj⟩ | h
        · left
          refine ⟨j, ?_⟩
          have : j ≠ i := by
            rintro rfl
            rw [hp] at hj; simp only [dPos, Option.some.injEq] at hj
            exact e (by rw [hj])
          rw [upd_ne _ _ this]; exact hj
        · exact Or.inr h }

theorem inv_next {n : Nat} (h2 : 2 ≤ n) {s s' : State α} {i : Nat} {c : Choice α} (I : Inv n s)
    (h : next n s i c = some s') : Inv n s' := by
  have hi := I.thr i
  unfold next at h
  cases hp : s.pc i with
  | idle =>
    rw [hp] at h
    cases c with
    | startE v once =>
      simp only [Option.some.injEq] at h; subst h
      exact inv_move I (by rw [hp]; rfl) (by rw [hp]; rfl) rfl rfl trivial
    | startD once =>
      simp only [Option.some.injEq] at h; subst h
      exact inv_move I (by rw [hp]; rfl) (by rw [hp]; rfl) rfl rfl trivial
    | go b => simp at h
  | eTop v once =>
    rw [hp] at h
    cases c with
    | go b =>
      simp only [Option.some.injEq] at h; subst h
      exact inv_move I (by rw [hp]; rfl) (by rw [hp]; rfl) rfl rfl (Nat.le_refl _)
    | _ => simp at h
  | eSeq v once pos =>
    rw [hp] at h hi
    cases c with
    | go b =>
      simp only [Option.some.injEq] at h; subst h
      exact inv_move I (by rw [hp]; rfl) (by rw [hp]; rfl) rfl rfl ⟨hi, fun _ e => e⟩
    | _ => simp at h
  | eCas v once pos q =>
    rw [hp] at h hi
    cases c with
    | go b =>
      simp only at h
      by_cases hq : q = pos
      · rw [if_pos hq] at h
        by_cases he : s.enq = pos ∧ b = false
        · rw [if_pos he] at h
          simp only [Option.some.injEq] at h; subst h
          subst hq
          obtain ⟨he, _⟩ := he
          rw [← he] at hp ⊢
          exact inv_eCas h2 I hp
        · rw [if_neg he] at h
          split at h
          · simp only [Option.some.injEq] at h; subst h
            exact inv_move I (by rw [hp]; rfl) (by rw [hp]; rfl) rfl rfl trivial
          · simp only [Option.some.injEq] at h; subst h
            exact inv_move I (by rw [hp]; rfl) (by rw [hp]; rfl) rfl rfl (Nat.le_refl _)
      · rw [if_neg hq] at h
        split at h
        · simp only [Option.some.injEq] at h; subst h
          exact inv_move I (by rw [hp]; rfl) (by rw [hp]; rfl) rfl rfl trivial
        · simp only [Option.some.injEq] at h; subst h
          exact inv_move I (by rw [hp]; rfl) (by rw [hp]; rfl) rfl rfl (Nat.le_refl _)
    | _ => simp at h
  | eWrite v pos =>
    rw [hp] at h
    cases c with
    | go b => simp only [Option.some.injEq] at h; subst h; exact inv_eWrite h2 I hp
    | _ => simp at h
  | eStore v pos =>
    rw [hp] at h
    cases c with
    | go b => simp only [Option.some.injEq] at h; subst h; exact inv_eStore h2 I hp
    | _ => simp at h
  | dTop once =>
    rw [hp] at h
    cases c with
    | go b =>
      simp only [Option.some.injEq] at h; subst h
      exact inv_move I (by rw [hp]; rfl) (by rw [hp]; rfl) rfl rfl (Nat.le_refl _)
    | _ => simp at h
  | dSeq once pos =>
    rw [hp] at h hi
    cases c with
    | go b =>
      simp only [Option.some.injEq] at h; subst h
      exact inv_move I (by rw [hp]; rfl) (by rw [hp]; rfl) rfl rfl ⟨hi, fun _ e => e⟩
    | _ => simp at h
  | dCas once pos q =>
    rw [hp] at h hi
    cases c with
    | go b =>
      simp only at h
      by_cases hq : q = pos + 1
      · rw [if_pos hq] at h
        by_cases he : s.deq = pos ∧ b = false
        · rw [if_pos he] at h
          simp only [Option.some.injEq] at h; subst h
          subst hq
          obtain ⟨he, _⟩ := he
          rw [← he] at hp ⊢
          exact inv_dCas I hp
        · rw [if_neg he] at h
          split at h
          · simp only [Option.some.injEq] at h; subst h
            exact inv_move I (by rw [hp]; rfl) (by rw [hp]; rfl) rfl rfl trivial
          · simp only [Option.some.injEq] at h; subst h
            exact inv_move I (by rw [hp]; rfl) (by rw [hp]; rfl) rfl rfl (Nat.le_refl _)
      · rw [if_neg hq] at h
        split at h
        · simp only [Option.some.injEq] at h; subst h
          exact inv_move I (by rw [hp]; rfl) (by rw [hp]; rfl) rfl rfl trivial
        · simp only [Option.some.injEq] at h; subst h
          exact inv_move I (by rw [hp]; rfl) (by rw [hp]; rfl) rfl rfl (Nat.le_refl _)
    | _ => simp at h
  | dRead pos =>
    rw [hp] at h
    cases c with
    | go b => simp only [Option.some.injEq] at h; subst h; exact inv_dRead h2 I hp
    | _ => simp at h
  | dStore v pos =>
    rw [hp] at h
    cases c with
    | go b => simp only [Option.some.injEq] at h; subst h; exact inv_dStore h2 I hp
    | _ => simp at h
  | eRet ok =>
    rw [hp] at h
    cases c with
    | go b =>
      simp only [Option.some.injEq] at h; subst h
      exact inv_move I (by rw [hp]; rfl) (by rw [hp]; rfl) rfl rfl trivial
    | _ => simp at h
  | dRet r =>
    rw [hp] at h
    cases c with
    | go b =>
      simp only [Option.some.injEq] at h; subst h
      exact inv_move I (by rw [hp]; rfl) (by rw [hp]; rfl) rfl rfl trivial
    | _ => simp at h

theorem inv_reach {n : Nat} (h2 : 2 ≤ n) {s : State α} (h : Reach n s) : Inv n s := by
  induction h with
  | init => exact inv_init h2
  | step _ hs ih => exact inv_next h2 ih hs

/-! ### What users rely on -/

/-- C33: under every interleaving, tickets are handed out once, and the item delivered for a ticket
is the one enqueued under it; the number of claimed places never exceeds the capacity. -/
theorem mpmc_delivery {n : Nat} (h2 : 2 ≤ n) {s : State α} (h : Reach n s) :
    (∀ t v, (t, v) ∈ s.got → t < s.deq ∧ ∃ x, v = some x ∧ s.hist[t]? = some x) ∧
    (s.got.map Prod.fst).Nodup ∧
    s.hist.length = s.enq ∧ s.deq ≤ s.enq ∧ s.enq ≤ s.deq + n := by
  have I := inv_reach h2 h
  exact ⟨I.gotOk, I.nodup, I.len, I.le, I.cap⟩

/-- C33: a dequeue that returns true returns an enqueued item. -/
theorem dequeue_returns_item {n : Nat} (h2 : 2 ≤ n) {s : State α} (h : Reach n s) {i : Nat}
    {r : Option α} (hp : s.pc i = .dRet (some r)) : ∃ x ∈ s.hist, r = some x := by
  have I := inv_reach h2 h
  have hi := I.thr i
  rw [hp] at hi
  obtain ⟨t, ht⟩ := hi
  obtain ⟨_, x, e, hx⟩ := I.gotOk t r ht
  exact ⟨x, List.mem_of_getElem? hx, e⟩

/-- C33: when an enqueue is about to write a cell, the item written there before has been
delivered. -/
theorem mpmc_no_overwrite {n : Nat} (h2 : 2 ≤ n) {s : State α} (h : Reach n s) {i : Nat} {v : α}
    {pos : Nat} (hp : s.pc i = .eWrite v pos) (t : Nat) (ht : t < pos) (he : t % n = pos % n) :
    ∃ x, (t, some x) ∈ s.got ∧ s.hist[t]? = some x := by
  have I := inv_reach h2 h
  have hi := I.thr i
  rw [hp] at hi
  have := spaced he ht
  have hm := I.past t (by rw [he, hi.2.1]; omega)
  obtain ⟨⟨u, w⟩, hg, hu⟩ := List.mem_map.1 hm
  simp only at hu; subst hu
  obtain ⟨_, x, e, hx⟩ := I.gotOk u w hg
  exact ⟨x, by rw [← e]; exact hg, hx⟩

/-- Cell a thread reads or writes without synchronisation. -/
def touches (n : Nat) : Pc α → Option Nat
  | .eWrite _ pos => some (pos % n)
  | .dRead pos => some (pos % n)
  | _ => none

/-- C33: no two threads touch the data of one cell at the same time. -/
theorem mpmc_race_free {n : Nat} (h2 : 2 ≤ n) {s : State α} (h : Reach n s) {i j k : Nat}
    (hi : touches n (s.pc i) = some k) (hj : touches n (s.pc j) = some k) : i = j := by
  have I := inv_reach h2 h
  have ti := I.thr i
  have tj := I.thr j
  have ue := I.eUniq i j
  have ud := I.dUniq i j
  revert hi hj ti tj ue ud
  cases s.pc i with
  | eWrite v t =>
    cases s.pc j with
    | eWrite w u =>
      simp only [touches, Option.some.injEq, PcOk, ePos]
      rintro e1 e2 ⟨_, a, _⟩ ⟨_, b, _⟩ ue _
      rw [e1] at a; rw [e2] at b
      exact ue t rfl (by omega)
    | dRead u =>
      simp only [touches, Option.some.injEq, PcOk]
      rintro e1 e2 ⟨_, a, _⟩ ⟨_, b, _⟩ _ _
      rw [e1] at a; rw [e2] at b
      exact absurd (a.symm.trans b) (not_next h2 (e1.trans e2.symm))
    | _ => simp [touches]
  | dRead t =>
    cases s.pc j with
    | eWrite w u =>
      simp only [touches, Option.some.injEq, PcOk]
      rintro e1 e2 ⟨_, a, _⟩ ⟨_, b, _⟩ _ _
      rw [e1] at a; rw [e2] at b
      exact absurd (b.symm.trans a) (not_next h2 (e2.trans e1.symm))
    | dRead u =>
      simp only [touches, Option.some.injEq, PcOk, dPos]
      rintro e1 e2 ⟨_, a, _⟩ ⟨_, b, _⟩ _ ud
      rw [e1] at a; rw [e2] at b
      exact ud t rfl (by omega)
    | _ => simp [touches]
  | _ => simp [touches]

/-- Steps never take back a ticket: what was enqueued or delivered stays so, in order. -/
inductive Run (n : Nat) : State α → State α → Prop
  | refl (s : State α) : Run n s s
  | tail {s t u : State α} {i : Nat} {c : Choice α} : Run n s t → next n t i c = some u → Run n s u

theorem next_grows {n : Nat} {s s' : State α} {i : Nat} {c : Choice α}
    (h : next n s i c = some s') : s.hist <+: s'.hist ∧ s.got <+: s'.got ∧ s.deq ≤ s'.deq := by
  unfold next at h
  split at h
  all_goals first
    | (simp only [Option.some.injEq] at h; subst h; simp)
    | cases h
    | skip
  · split at h
    · split at h
      · simp only [Option.some.injEq] at h; subst h; simp
      · split at h <;> (simp only [Option.some.injEq] at h; subst h; simp)
    · split at h <;> (simp only [Option.some.injEq] at h; subst h; simp)
  · split at h
    · split at h
      · rename_i hc
        simp only [Option.some.injEq] at h; subst h; simp only [List.prefix_rfl, true_and]; omega
      · split at h <;> (simp only [Option.some.injEq] at h; subst h; simp)
    · split at h <;> (simp only [Option.some.injEq] at h; subst h; simp)

/-- C33, order: an item enqueued before `s` keeps its place in front of every item enqueued after
`s`. -/
theorem mpmc_order {n : Nat} {s s' : State α} (h : Run n s s') :
    s.hist <+: s'.hist ∧ s.got <+: s'.got ∧ s.deq ≤ s'.deq := by
  induction h with
  | refl => simp
  | tail _ hs ih =>
    have := next_grows hs
    exact ⟨ih.1.trans this.1, ih.2.1.trans this.2.1, Nat.le_trans ih.2.2 this.2.2⟩

/-- No thread is inside a call. -/
def Quiet (s : State α) : Prop := ∀ i, s.pc i = .idle

theorem quiet_e {s : State α} (q : Quiet s) (t : Nat) : ¬ ∃ i, ePos (s.pc i) = some t := by
  rintro ⟨i, h⟩; rw [q i] at h; cases h

theorem quiet_d {s : State α} (q : Quiet s) (t : Nat) : ¬ ∃ i, dPos (s.pc i) = some t := by
  rintro ⟨i, h⟩; rw [q i] at h; cases h

/-- Sequence number of the next cell to fill and of the next cell to empty, between calls. -/
theorem quiet_cells {n : Nat} (h2 : 2 ≤ n) {s : State α} (h : Reach n s) (q : Quiet s) :
    (s.enq < s.deq + n → s.seq (s.enq % n) = s.enq) ∧
    (s.enq = s.deq + n → s.seq (s.enq % n) < s.enq) ∧
    (∀ t, s.deq ≤ t → t < s.enq → s.seq (t % n) = t + 1) ∧
    (s.deq = s.enq → s.seq (s.deq % n) < s.deq + 1) := by
  have I := inv_reach h2 h
  have hmid : ∀ t, s.deq ≤ t → t < s.enq → s.seq (t % n) = t + 1 := by
    intro t h1 h3
    have a := (I.claimE t h3).resolve_left (quiet_e q t)
    have b : ¬ t + 1 < s.seq (t % n) := by
      intro hc
      obtain ⟨⟨u, w⟩, hm, hu⟩ := List.mem_map.1 (I.past t hc)
      have := (I.gotOk u w hm).1
      simp only at hu; omega
    omega
  have hfree : s.enq < s.deq + n → s.seq (s.enq % n) = s.enq := by
    intro hlt
    obtain ⟨t, ht, hs⟩ := I.cls (s.enq % n) (Nat.mod_lt _ (by omega))
    rcases hs with hs | hs
    · rcases Nat.lt_trichotomy t s.enq with hl | hl | hl
      · have := (I.claimE t hl).resolve_left (quiet_e q t)
        rw [ht, hs] at this; omega
      · rw [hs, hl]
      · have hsp := spaced ht.symm hl
        have e : (t - n) % n = s.enq % n := by rw [← Nat.mod_eq_sub_mod (by omega), ht]
        obtain ⟨⟨u, w⟩, hm, hu⟩ := List.mem_map.1 (I.past (t - n) (by rw [e, hs]; omega))
        have := (I.gotOk u w hm).1
        have := I.le
        simp only at hu; omega
    · have hl := (I.full t (by rw [ht, hs])).1
      have hsp := spaced ht hl
      have := (I.relD t (by omega)).resolve_left (quiet_d q t)
      rw [ht, hs] at this; omega
  refine ⟨hfree, ?_, hmid, ?_⟩
  · intro he
    have := hmid s.deq (Nat.le_refl _) (by omega)
    rw [he, Nat.add_mod_right, this]; omega
  · intro he
    have := hfree (by omega)
    rw [← he] at this; omega

/-- C33, nothing lost: between calls, the delivered items are exactly the first `deq` items
enqueued, and all later items are stored in their cells. -/
theorem mpmc_quiescent {n : Nat} (h2 : 2 ≤ n) {s : State α} (h : Reach n s) (q : Quiet s) :
    (s.got.map Prod.snd).Perm ((s.hist.take s.deq).map some) ∧
    ∀ t, s.deq ≤ t → t < s.enq → ∃ x, s.hist[t]? = some x ∧ s.data (t % n) = some x := by
  have I := inv_reach h2 h
  constructor
  · have hp : (s.got.map Prod.fst).Perm (List.range s.deq) := by
      refine (List.perm_ext_iff_of_nodup I.nodup List.nodup_range).2 ?_
      intro t
      rw [List.mem_range]
      constructor
      · intro hm
        obtain ⟨⟨u, w⟩, hm, hu⟩ := List.mem_map.1 hm
        have := (I.gotOk u w hm).1
        simp only at hu; omega
      · intro ht
        refine (I.claimD t ht).resolve_left ?_
        rintro ⟨i, hi⟩; rw [q i] at hi; cases hi
    have e1 : s.got.map Prod.snd = (s.got.map Prod.fst).map (fun t => s.hist[t]?) := by
      rw [List.map_map]
      apply List.map_congr_left
      rintro ⟨t, w⟩ hm
      obtain ⟨_, x, e, hx⟩ := I.gotOk t w hm
      simp only [Function.comp, hx, e]
    have e2 : (s.hist.take s.deq).map some = (List.range s.deq).map (fun t => s.hist[t]?) := by
      apply List.ext_getElem?
      intro k
      have hle := I.le
      have hlen := I.len
      by_cases hk : k < s.deq
      · have : k < s.hist.length := by omega
        simp [hk, this, List.getElem?_take]
      · simp [hk, List.getElem?_take]
    rw [e1, e2]
    exact hp.map _
  · intro t h1 h3
    obtain ⟨x, a, b⟩ := (I.full t ((quiet_cells h2 h q).2.2.1 t h1 h3)).2 h1
    exact ⟨x, b, a⟩

/-- Thread `i` runs `k` steps on its own. -/
def alone (n : Nat) (i : Nat) : Nat → State α → Option (State α)
  | 0, s => some s
  | k + 1, s => (next n s i (.go false)).bind (alone n i k)

/-- C33, one call at a time: an enqueue succeeds exactly when fewer than `n` items are in the
queue. -/
theorem enqueue_alone {n : Nat} (h2 : 2 ≤ n) {s : State α} (h : Reach n s) (q : Quiet s) (i : Nat)
    (v : α) (once : Bool) :
    ∃ s0, next n s i (.startE v once) = some s0 ∧
      (s.enq - s.deq < n → ∃ s', alone n i 5 s0 = some s' ∧ s'.pc i = .eRet true ∧
        s'.hist = s.hist ++ [v] ∧ s'.deq = s.deq ∧ s'.got = s.got) ∧
      (¬ s.enq - s.deq < n → ∃ s', alone n i 3 s0 = some s' ∧ s'.pc i = .eRet false ∧
        s'.hist = s.hist ∧ s'.deq = s.deq ∧ s'.got = s.got) := by
  have I := inv_reach h2 h
  have hle := I.le
  have hcap := I.cap
  have hc := quiet_cells h2 h q
  refine ⟨{ s with pc := upd s.pc i (.eTop v once) }, by simp [next, q i], ?_, ?_⟩
  · intro hlt
    have hseq := hc.1 (by omega)
    simp [alone, next, upd_self, hseq]
  · intro hge
    have hseq := hc.2.1 (by omega)
    have hne : s.seq (s.enq % n) ≠ s.enq := by omega
    simp [alone, next, upd_self, hseq, hne]

/-- C33, one call at a time: a dequeue returns the oldest item, and fails exactly on an empty
queue. -/
theorem dequeue_alone {n : Nat} (h2 : 2 ≤ n) {s : State α} (h : Reach n s) (q : Quiet s) (i : Nat)
    (once : Bool) :
    ∃ s0, next n s i (.startD once) = some s0 ∧
      (s.deq < s.enq → ∃ s' x, alone n i 5 s0 = some s' ∧ s'.pc i = .dRet (some (some x)) ∧
        s.hist[s.deq]? = some x ∧ s'.deq = s.deq + 1 ∧ s'.hist = s.hist) ∧
      (¬ s.deq < s.enq → ∃ s', alone n i 3 s0 = some s' ∧ s'.pc i = .dRet none ∧
        s'.deq = s.deq ∧ s'.hist = s.hist) := by
  have I := inv_reach h2 h
  have hle := I.le
  have hc := quiet_cells h2 h q
  refine ⟨{ s with pc := upd s.pc i (.dTop once) }, by simp [next, q i], ?_, ?_⟩
  · intro hlt
    have hseq := hc.2.2.1 s.deq (Nat.le_refl _) hlt
    obtain ⟨x, hx, hd⟩ := (mpmc_quiescent h2 h q).2 s.deq (Nat.le_refl _) hlt
    simp [alone, next, upd_self, hseq, hd, hx]
  · intro hge
    have hseq := hc.2.2.2 (by omega)
    have hne : s.seq (s.deq % n) ≠ s.deq + 1 := by omega
    simp [alone, next, upd_self, hseq, hne]

/-- An enqueue that sees a smaller sequence number and fails: the slot is still taken by an item of
at least one round earlier. -/
theorem enqueue_fails_taken {n : Nat} (h2 : 2 ≤ n) {s : State α} (h : Reach n s) {pos : Nat}
    (hs : s.seq (pos % n) < pos) : n ≤ pos ∧ s.seq (pos % n) ≤ pos - n + 1 := by
  have I := inv_reach h2 h
  obtain ⟨t, ht, hq⟩ := I.cls (pos % n) (Nat.mod_lt _ (by omega))
  have := spaced ht (by omega)
  omega

/-- The cell of the next enqueue is never ahead of it, nor that of the next dequeue. -/
theorem heads_not_passed {n : Nat} (h2 : 2 ≤ n) {s : State α} (h : Reach n s) :
    s.seq (s.enq % n) ≤ s.enq ∧ s.seq (s.deq % n) ≤ s.deq + 1 := by
  have I := inv_reach h2 h
  have hb : ∀ t, s.deq ≤ t → s.seq (t % n) ≤ t + 1 := by
    intro t ht
    by_contra hc
    obtain ⟨⟨u, w⟩, hm, hu⟩ := List.mem_map.1 (I.past t (by omega))
    have := (I.gotOk u w hm).1
    simp only at hu; omega
  refine ⟨?_, hb _ (Nat.le_refl _)⟩
  by_contra hc
  have := hb s.enq I.le
  have := (I.full s.enq (by omega)).1
  omega

/-- C33, progress: whatever the other threads were doing when they were suspended, a call that runs
on its own from its start returns within five steps. -/
theorem mpmc_obstruction_free {n : Nat} (h2 : 2 ≤ n) {s : State α} (h : Reach n s) (i : Nat) :
    (∀ v once, s.pc i = .eTop v once →
      ∃ k s' b, k ≤ 5 ∧ alone n i k s = some s' ∧ s'.pc i = .eRet b) ∧
    (∀ once, s.pc i = .dTop once →
      ∃ k s' r, k ≤ 5 ∧ alone n i k s = some s' ∧ s'.pc i = .dRet r) := by
  obtain ⟨he, hd⟩ := heads_not_passed h2 h
  constructor
  · intro v once hp
    by_cases hs : s.seq (s.enq % n) = s.enq
    · refine ⟨5, ?_⟩
      simp [alone, next, hp, upd_self, hs]
    · have hl : s.seq (s.enq % n) < s.enq := by omega
      refine ⟨3, ?_⟩
      simp [alone, next, hp, upd_self, hs, hl]
  · intro once hp
    by_cases hs : s.seq (s.deq % n) = s.deq + 1
    · refine ⟨5, ?_⟩
      simp [alone, next, hp, upd_self, hs]
    · have hl : s.seq (s.deq % n) < s.deq + 1 := by omega
      refine ⟨3, ?_⟩
      simp [alone, next, hp, upd_self, hs, hl]

/-! ### `enqueue_bulk` -/

/-- A queue of two cells with one item. -/
def oneItem : State Nat :=
  ((next 2 init 0 (.startE 1 false)).bind (alone 2 0 6)).getD init

theorem reach_alone {n i : Nat} : ∀ {k : Nat} {s s' : State α}, Reach n s →
    alone n i k s = some s' → Reach n s'
  | 0, _, _, h, e => by cases e; exact h
  | k + 1, s, s', h, e => by
    unfold alone at e
    cases hn : next n s i (.go false) with
    | none => rw [hn] at e; cases e
    | some t => rw [hn] at e; exact reach_alone (.step h hn) e

/-- C33 fails for `enqueue_bulk`: it checks the first cell only.  With one item in a queue of two
cells, adding two more reports success, overwrites the item not yet consumed, and from then on a
dequeue loops for ever. -/
theorem enqueue_bulk_refuted :
    Reach 2 oneItem ∧ oneItem.hist = [1] ∧ oneItem.got = [] ∧ oneItem.data 0 = some 1 ∧
    ∃ s, enqueueBulk 2 [2, 3] oneItem = some s ∧ s.hist = [1, 2, 3] ∧ s.got = [] ∧
      s.data 0 = some 3 ∧ s.data 1 = some 2 ∧
      ∃ s1, (next 2 s 0 (.startD false)).bind (alone 2 0 1) = some s1 ∧
        ∀ k, ∃ s2, alone 2 0 (2 * k) s1 = some s2 ∧ s2.pc 0 = .dSeq false 0 := by
  refine ⟨?_, rfl, rfl, rfl, _, rfl, rfl, rfl, rfl, rfl, _, rfl, ?_⟩
  · have e : next 2 (init : State Nat) 0 (.startE 1 false) =
        some { init with pc := upd init.pc 0 (.eTop 1 false) } := rfl
    exact reach_alone (k := 6) (i := 0) (.step .init e) rfl
  · have loop : ∀ (k : Nat) (s : State Nat), s.pc 0 = .dSeq false 0 → s.seq 0 = 3 → s.deq = 0 →
        ∃ s2, alone 2 0 (2 * k) s = some s2 ∧ s2.pc 0 = .dSeq false 0 := by
      intro k
      induction k with
      | zero => intro s h1 _ _; exact ⟨s, rfl, h1⟩
      | succ k ih =>
        intro s h1 h3 h4
        rw [show 2 * (k + 1) = (2 * k + 1) + 1 by omega]
        simp only [alone, next, h1, h3, h4, Option.bind_some, upd_self, Nat.zero_mod]
        exact ih _ (by simp [upd_self]) h3 rfl
    intro k
    exact loop k _ rfl rfl rfl

/-- Two producers racing for the same ticket: one wins, the other retries and gets the next. -/
example : (((((((next 2 (init : State Nat) 0 (.startE 7 false)).bind
    (next 2 · 1 (.startE 8 false))).bind (alone 2 0 2)).bind (alone 2 1 5)).bind
    (alone 2 0 5)).map fun s => (s.hist, s.data 0, s.data 1, s.seq 0, s.seq 1))) =
    some ([8, 7], some 8, some 7, 1, 2) := by decide

end Verif.Mpmc
