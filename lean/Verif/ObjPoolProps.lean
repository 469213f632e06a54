import Verif.ObjPool
import Verif.MpmcProps
import Mathlib.Tactic.ByContra

/-! The pool of handlers under all interleavings (C136): helpers and the invariant. -/
namespace Verif.ObjPool

open Verif.Mpmc (State Pc Choice next upd Reach Inv inv_reach upd_self upd_ne)

/-- The object a thread has in its hands. -/
def ownPc (hist : List Nat) (h : Option Nat) : Pc Nat → Option Nat
  | .idle => h
  | .eTop v _ => some v
  | .eSeq v _ _ => some v
  | .eCas v _ _ _ => some v
  | .eRet ok => if ok then none else h
  | .dRead pos => hist[pos]?
  | .dStore v _ => v
  | .dRet (some v) => v
  | _ => none

def own (s : PSt) (i : Nat) : Option Nat := ownPc s.q.hist (s.hold i) (s.q.pc i)

/-- The return of the object has failed, or is bound to. -/
def doomed : Pc Nat → Prop
  | .eCas _ _ pos seq => seq < pos
  | .eRet ok => ok = false
  | _ => False

def HoldOk (h : Option Nat) : Pc Nat → Prop
  | .idle => True
  | .eTop v once => h = some v ∧ once = false
  | .eSeq v once _ => h = some v ∧ once = false
  | .eCas v once _ _ => h = some v ∧ once = false
  | .eWrite v _ => h = some v
  | .eStore v _ => h = some v
  | .eRet _ => ∃ v, h = some v
  | _ => h = none

/-- What a step does to the places of the objects. -/
inductive Kind (n : Nat) (s s' : PSt) (i : Nat) : Prop
  | same : s'.q.hist = s.q.hist → s'.q.deq = s.q.deq → s'.lost = s.lost → (∀ j, own s' j = own s j) →
      (∀ j, doomed (s'.q.pc j) → doomed (s.q.pc j) ∨
        ∃ v once pos, s.q.pc i = .eSeq v once pos ∧ s.q.seq (pos % n) < pos ∧ ∀ j, j ≠ i → s'.q.pc j = s.q.pc j) →
      Kind n s s' i
  | push (v : Nat) : own s i = some v → own s' i = none → s'.q.hist = s.q.hist ++ [v] → s'.q.deq = s.q.deq →
      s'.lost = s.lost → (∀ j, j ≠ i → own s' j = own s j ∧ s'.q.pc j = s.q.pc j) → Kind n s s' i
  | pop (v : Nat) : own s i = none → own s' i = some v → ¬ doomed (s'.q.pc i) → s.q.hist[s.q.deq]? = some v →
      s'.q.hist = s.q.hist → s'.q.deq = s.q.deq + 1 →
      s'.lost = s.lost → (∀ j, j ≠ i → own s' j = own s j ∧ s'.q.pc j = s.q.pc j) → Kind n s s' i
  | drop (v : Nat) : own s i = some v → own s' i = none → doomed (s.q.pc i) → s'.q.hist = s.q.hist →
      s'.q.deq = s.q.deq → s'.lost = s.lost ++ [v] →
      (∀ j, j ≠ i → own s' j = own s j ∧ s'.q.pc j = s.q.pc j) → Kind n s s' i

/-- A step that moves thread `i` only. -/
theorem kind_move {n : Nat} {s : PSt} {i : Nat} {p : Pc Nat} {seq : Nat → Nat} {data : Nat → Option Nat}
    {got : List (Nat × Option Nat)} {h : Option Nat}
    (ho : ownPc s.q.hist h p = ownPc s.q.hist (s.hold i) (s.q.pc i))
    (hd : doomed p → doomed (s.q.pc i) ∨
        ∃ v once pos, s.q.pc i = .eSeq v once pos ∧ s.q.seq (pos % n) < pos) :
    Kind n s ⟨⟨seq, data, s.q.enq, s.q.deq, upd s.q.pc i p, s.q.hist, got⟩, upd s.hold i h, s.lost⟩ i := by
  refine .same rfl rfl rfl ?_ ?_
  · intro j
    by_cases e : j = i
    · subst e; simp only [own, upd_self]; exact ho
    · simp only [own, upd_ne _ _ e]
  · intro j hj
    by_cases e : j = i
    · subst e
      simp only [upd_self] at hj
      rcases hd hj with h1 | ⟨v, o, pos, h1, h3⟩
      · exact .inl h1
      · exact .inr ⟨v, o, pos, h1, h3, fun k hk => upd_ne _ _ hk⟩
    · simp only [upd_ne _ _ e] at hj; exact .inl hj

theorem upd_same {β : Type} (f : Nat → β) (i : Nat) : upd f i (f i) = f := by
  funext j; unfold upd; split
  · subst j; rfl
  · rfl

theorem kind_move' {n : Nat} {s : PSt} {i : Nat} {p : Pc Nat} {seq : Nat → Nat} {data : Nat → Option Nat}
    {got : List (Nat × Option Nat)}
    (ho : ownPc s.q.hist (s.hold i) p = ownPc s.q.hist (s.hold i) (s.q.pc i))
    (hd : doomed p → doomed (s.q.pc i) ∨
        ∃ v once pos, s.q.pc i = .eSeq v once pos ∧ s.q.seq (pos % n) < pos) :
    Kind n s ⟨⟨seq, data, s.q.enq, s.q.deq, upd s.q.pc i p, s.q.hist, got⟩, s.hold, s.lost⟩ i := by
  have := kind_move (n := n) (seq := seq) (data := data) (got := got) ho hd
  rwa [upd_same] at this

theorem kind_step {n : Nat} {s s' : PSt} {i : Nat} {a : Act} (I : Inv n s.q)
    (H : ∀ j, HoldOk (s.hold j) (s.q.pc j)) (h : pnext n s i a = some s') : Kind n s s' i := by
  have hi := I.thr i
  have Hi := H i
  cases a with
  | borrow =>
    cases hh : s.hold i with
    | some v => simp [pnext, hh] at h
    | none =>
      cases hp : s.q.pc i <;> simp [pnext, hh, next, hp] at h
      subst h
      exact kind_move' (by simp [hp, hh, ownPc]) (by simp [doomed])
  | giveBack =>
    cases hh : s.hold i with
    | none => simp [pnext, hh] at h
    | some v =>
      cases hp : s.q.pc i <;> simp [pnext, hh, next, hp] at h
      subst h
      exact kind_move' (by simp [hp, hh, ownPc]) (by simp [doomed])
  | go b =>
    cases hp : s.q.pc i with
    | idle => simp [pnext, next, hp] at h
    | eTop v once =>
      simp [pnext, next, hp] at h; subst h
      exact kind_move' (by simp [hp, ownPc]) (by simp [doomed])
    | eSeq v once pos =>
      simp [pnext, next, hp] at h; subst h
      exact kind_move' (by simp [hp, ownPc]) (fun hd => .inr ⟨v, once, pos, hp, hd⟩)
    | eCas v once pos q =>
      rw [hp] at hi Hi
      obtain ⟨Hv, rfl⟩ := Hi
      simp only [pnext, next, hp] at h
      by_cases hq : q = pos
      · rw [if_pos hq] at h
        by_cases he : s.q.enq = pos ∧ b = false
        · rw [if_pos he] at h
          simp only [Option.map_some, Option.some.injEq] at h; subst h
          refine .push v (by simp [own, hp, ownPc]) (by simp [own, upd_self, ownPc]) rfl rfl rfl ?_
          intro j hj
          refine ⟨?_, upd_ne _ _ hj⟩
          simp only [own, upd_ne _ _ hj]
          have hjo := I.thr j
          cases hpj : s.q.pc j with
          | dRead t =>
            rw [hpj] at hjo
            have := hjo.1; have := I.le; have := I.len
            simp only [ownPc]
            rw [List.getElem?_append_left (by omega)]
          | dRet r => cases r <;> rfl
          | _ => rfl
        · rw [if_neg he] at h
          simp at h; subst h
          exact kind_move' (by simp [hp, ownPc]) (by simp [doomed])
      · rw [if_neg hq] at h
        by_cases hl : q < pos
        · simp [hl] at h; subst h
          exact kind_move' (by simp [hp, ownPc, Hv]) (fun _ => .inl (by rw [hp]; exact hl))
        · simp [hl] at h; subst h
          exact kind_move' (by simp [hp, ownPc]) (by simp [doomed])
    | eWrite v pos =>
      simp [pnext, next, hp] at h; subst h
      exact kind_move' (by simp [hp, ownPc]) (by simp [doomed])
    | eStore v pos =>
      simp [pnext, next, hp] at h; subst h
      exact kind_move' (by simp [hp, ownPc]) (by simp [doomed])
    | dTop once =>
      simp [pnext, next, hp] at h; subst h
      exact kind_move' (by simp [hp, ownPc]) (by simp [doomed])
    | dSeq once pos =>
      simp [pnext, next, hp] at h; subst h
      exact kind_move' (by simp [hp, ownPc]) (by simp [doomed])
    | dCas once pos q =>
      rw [hp] at hi
      simp only [pnext, next, hp] at h
      by_cases hq : q = pos + 1
      · rw [if_pos hq] at h
        by_cases he : s.q.deq = pos ∧ b = false
        · rw [if_pos he] at h
          simp only [Option.map_some, Option.some.injEq] at h; subst h
          obtain ⟨he, _⟩ := he
          obtain ⟨v, _, hv⟩ := (I.full pos (hi.2 he hq)).2 (by omega)
          refine .pop v (by simp [own, hp, ownPc]) (by simp [own, upd_self, ownPc, hv]) (by simp [upd_self, doomed])
            (by rw [he]; exact hv) rfl (by simp [he]) rfl ?_
          intro j hj
          exact ⟨by simp only [own, upd_ne _ _ hj], upd_ne _ _ hj⟩
        · rw [if_neg he] at h
          cases once <;> simp at h <;> subst h <;>
            exact kind_move' (by simp [hp, ownPc]) (by simp [doomed])
      · rw [if_neg hq] at h
        split at h <;> simp at h <;> subst h <;>
          exact kind_move' (by simp [hp, ownPc]) (by simp [doomed])
    | dRead pos =>
      rw [hp] at hi
      obtain ⟨_, _, ⟨v, hv, hv'⟩, _⟩ := hi
      simp [pnext, next, hp] at h; subst h
      exact kind_move' (by simp [hp, ownPc, hv, hv']) (by simp [doomed])
    | dStore v pos =>
      simp [pnext, next, hp] at h; subst h
      exact kind_move' (by simp [hp, ownPc]) (by simp [doomed])
    | eRet ok =>
      rw [hp] at Hi
      obtain ⟨v, hv⟩ := Hi
      simp [pnext, next, hp] at h; subst h
      cases ok with
      | true => exact kind_move (by simp [hp, ownPc]) (by simp [doomed])
      | false =>
        refine .drop v (by simp [own, hp, ownPc, hv]) (by simp [own, upd_self, ownPc]) (by simp [hp, doomed]) rfl rfl
          (by simp [hv]) ?_
        intro j hj
        exact ⟨by simp only [own, upd_ne _ _ hj], upd_ne _ _ hj⟩
    | dRet r =>
      rw [hp] at Hi
      cases r with
      | none =>
        simp [pnext, next, hp] at h; subst h
        exact kind_move' (by simp only [hp, ownPc]; exact Hi) (by simp [doomed])
      | some r =>
        simp [pnext, next, hp] at h; subst h
        exact kind_move (by simp [hp, ownPc]) (by simp [doomed])

theorem hold_step {n : Nat} {s s' : PSt} {i : Nat} {a : Act}
    (H : ∀ j, HoldOk (s.hold j) (s.q.pc j)) (h : pnext n s i a = some s') : ∀ j, HoldOk (s'.hold j) (s'.q.pc j) := by
  have Hi := H i
  have mv : ∀ {p : Pc Nat} {g : Option Nat}, HoldOk g p → ∀ j, HoldOk (upd s.hold i g j) (upd s.q.pc i p j) := by
    intro p g hg j
    by_cases e : j = i
    · subst e; simpa only [upd_self] using hg
    · simpa only [upd_ne _ _ e] using H j
  have mv' : ∀ {p : Pc Nat}, HoldOk (s.hold i) p → ∀ j, HoldOk (s.hold j) (upd s.q.pc i p j) := by
    intro p hg
    have := mv hg
    rwa [upd_same] at this
  cases a with
  | borrow =>
    cases hh : s.hold i with
    | some v => simp [pnext, hh] at h
    | none =>
      cases hp : s.q.pc i <;> simp [pnext, hh, next, hp] at h
      subst h; exact mv' hh
  | giveBack =>
    cases hh : s.hold i with
    | none => simp [pnext, hh] at h
    | some v =>
      cases hp : s.q.pc i <;> simp [pnext, hh, next, hp] at h
      subst h; exact mv' ⟨hh, rfl⟩
  | go b =>
    cases hp : s.q.pc i with
    | idle => simp [pnext, next, hp] at h
    | eCas v once pos q =>
      rw [hp] at Hi
      obtain ⟨Hv, rfl⟩ := Hi
      simp only [pnext, next, hp] at h
      repeat' split at h
      all_goals simp at h; subst h
      all_goals first | exact mv' Hv | exact mv' ⟨Hv, rfl⟩ | exact mv' ⟨v, Hv⟩
    | dCas once pos q =>
      rw [hp] at Hi
      simp only [pnext, next, hp] at h
      repeat' split at h
      all_goals simp at h; subst h; exact mv' Hi
    | eRet ok =>
      simp [pnext, next, hp] at h; subst h
      exact mv trivial
    | dRet r =>
      cases r with
      | none => simp [pnext, next, hp] at h; subst h; exact mv' trivial
      | some r => simp [pnext, next, hp] at h; subst h; exact mv trivial
    | eTop v once => rw [hp] at Hi; simp [pnext, next, hp] at h; subst h; exact mv' Hi
    | eSeq v once pos => rw [hp] at Hi; simp [pnext, next, hp] at h; subst h; exact mv' Hi
    | eWrite v pos => rw [hp] at Hi; simp [pnext, next, hp] at h; subst h; exact mv' Hi
    | eStore v pos => rw [hp] at Hi; simp [pnext, next, hp] at h; subst h; exact mv' ⟨v, Hi⟩
    | dTop once => rw [hp] at Hi; simp [pnext, next, hp] at h; subst h; exact mv' Hi
    | dSeq once pos => rw [hp] at Hi; simp [pnext, next, hp] at h; subst h; exact mv' Hi
    | dRead pos => rw [hp] at Hi; simp [pnext, next, hp] at h; subst h; exact mv' Hi
    | dStore v pos => rw [hp] at Hi; simp [pnext, next, hp] at h; subst h; exact mv' Hi

/-- A step of the pool is a step of the queue. -/
theorem queue_step {n : Nat} {s s' : PSt} {i : Nat} {a : Act} (h : pnext n s i a = some s') :
    ∃ c, next n s.q i c = some s'.q := by
  have aux : ∀ {c : Choice Nat} {f : State Nat → PSt}, (∀ q, (f q).q = q) →
      (next n s.q i c).map f = some s' → ∃ c, next n s.q i c = some s'.q := by
    intro c f hf e
    cases hn : next n s.q i c with
    | none => rw [hn] at e; cases e
    | some q =>
      rw [hn] at e
      simp only [Option.map_some, Option.some.injEq] at e
      exact ⟨c, by rw [hn, ← e, hf]⟩
  unfold pnext at h
  split at h
  · split at h
    · exact aux (fun _ => rfl) h
    · cases h
  · split at h
    · cases h
    · exact aux (fun _ => rfl) h
  · split at h <;> exact aux (fun _ => rfl) h

end Verif.ObjPool
