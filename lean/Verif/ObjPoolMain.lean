import Verif.ObjPoolProps
import Mathlib.Data.List.Basic

/-! The pool of handlers under all interleavings (C136). -/
namespace Verif.ObjPool

open Verif.Mpmc (State Pc Choice next upd Reach Inv inv_reach upd_self upd_ne alone reach_alone)

/-! ### The constructor -/

/-- Adding one more object. -/
theorem fill_one {n c : Nat} (h : c < n) :
    (next n (filled c) 0 (.startE c false)).bind (alone n 0 6) = some (filled (c + 1)) := by
  have hm : c % n = c := Nat.mod_eq_of_lt h
  have e1 : upd (fun j => if j < c then j + 1 else j) c (c + 1) = fun j => if j < c + 1 then j + 1 else j := by
    funext j; unfold upd; split
    · subst j; simp
    · beta_reduce; split
      · split
        · rfl
        · omega
      · split
        · omega
        · rfl
  have e2 : upd (fun j => if j < c then some j else none) c (some c) =
      fun j => if j < c + 1 then some j else none := by
    funext j; unfold upd; split
    · subst j; simp
    · beta_reduce; split
      · split
        · rfl
        · omega
      · split
        · omega
        · rfl
  have e3 : ∀ p1 p2 p3 p4 p5 p6 : Pc Nat, upd (upd (upd (upd (upd (upd (upd (fun _ => Pc.idle) 0 p1) 0 p2) 0 p3) 0 p4)
      0 p5) 0 p6) 0 Pc.idle = fun _ => Pc.idle := by
    intros; funext j; unfold upd; repeat' split
    all_goals rfl
  simp [next, alone, filled, upd_self, hm, e1, e2, e3, List.range_succ]

theorem filled_reach {n : Nat} : ∀ {c : Nat}, c ≤ n → Reach n (filled c)
  | 0, _ => by
    have : filled 0 = (Mpmc.init : State Nat) := by simp [filled, Mpmc.init]
    rw [this]; exact .init
  | c + 1, h => by
    have ih := filled_reach (n := n) (c := c) (by omega)
    have e := fill_one (n := n) (c := c) (by omega)
    cases hn : next n (filled c) 0 (.startE c false) with
    | none => rw [hn] at e; cases e
    | some t => rw [hn] at e; exact reach_alone (.step ih hn) e

/-! ### The invariant -/

inductive Place
  | queue (t : Nat)
  | thread (i : Nat)
  | lost

structure PInv (n c : Nat) (s : PSt) : Prop where
  reach : Reach n s.q
  hold : ∀ i, HoldOk (s.hold i) (s.q.pc i)
  place : ∃ f : Nat → Place, ∀ v, v < c →
    (∀ t, f v = .queue t ↔ (s.q.deq ≤ t ∧ s.q.hist[t]? = some v)) ∧
    (∀ i, f v = .thread i ↔ own s i = some v) ∧ (f v = .lost ↔ v ∈ s.lost)
  inHist : ∀ v ∈ s.q.hist, v < c
  inOwn : ∀ i v, own s i = some v → v < c
  safe : 1 ≤ c → ∃ w, w < c ∧ ((∃ t, s.q.deq ≤ t ∧ s.q.hist[t]? = some w) ∨
    ∃ i, own s i = some w ∧ ¬ doomed (s.q.pc i))

theorem pinv_start {n c : Nat} (h : c ≤ n) : PInv n c (start c) where
  reach := filled_reach h
  hold := fun _ => trivial
  place := by
    refine ⟨.queue, fun v hv => ⟨?_, ?_, ?_⟩⟩
    · intro t
      simp only [start, filled, Place.queue.injEq]
      constructor
      · rintro rfl; exact ⟨Nat.zero_le _, by simp [hv]⟩
      · rintro ⟨_, e⟩
        obtain ⟨hl, e⟩ := List.getElem?_eq_some_iff.1 e
        simpa using e.symm
    · intro i; simp [start, filled, own, ownPc]
    · simp [start]
  inHist := by intro v hv; simpa [start, filled] using hv
  inOwn := by intro i v h; simp [start, filled, own, ownPc] at h
  safe := fun h1 => ⟨0, h1, .inl ⟨0, by simp [start, filled], List.getElem?_range h1⟩⟩

/-- Whoever sees a cell that is behind shows that some other object is on its way. -/
theorem witness {n : Nat} (h2 : 2 ≤ n) {s : PSt} (I : Inv n s.q) (R : Reach n s.q) {i : Nat} {v : Nat} {once : Bool}
    {pos : Nat} (hp : s.q.pc i = .eSeq v once pos) (hl : s.q.seq (pos % n) < pos) :
    ∃ w, (∃ t, s.q.deq ≤ t ∧ s.q.hist[t]? = some w) ∨ ∃ j, j ≠ i ∧ own s j = some w ∧ ¬ doomed (s.q.pc j) := by
  obtain ⟨h3, h4⟩ := Mpmc.enqueue_fails_taken h2 R hl
  have hpos := I.thr i
  rw [hp] at hpos
  have hpos : pos ≤ s.q.enq := hpos
  have hmod : (pos - n) % n = pos % n := by rw [← Nat.mod_eq_sub_mod h3]
  have hlt : pos - n < s.q.hist.length := by rw [I.len]; omega
  obtain ⟨w, hw⟩ : ∃ w, s.q.hist[pos - n]? = some w := ⟨_, List.getElem?_eq_getElem hlt⟩
  by_cases hd : s.q.deq ≤ pos - n
  · exact ⟨w, .inl ⟨_, hd, hw⟩⟩
  · rcases I.relD (pos - n) (by omega) with ⟨j, hj⟩ | hc
    · have hji : j ≠ i := by rintro rfl; rw [hp] at hj; simp [Mpmc.dPos] at hj
      have hjo := I.thr j
      cases hpj : s.q.pc j <;> rw [hpj] at hj hjo <;> simp only [Mpmc.dPos, Option.some.injEq, reduceCtorEq] at hj
      · subst hj
        exact ⟨w, .inr ⟨j, hji, by simp [own, hpj, ownPc, hw], by simp [hpj, doomed]⟩⟩
      · subst hj
        obtain ⟨_, x, hx, _⟩ := I.gotOk _ _ hjo.2.2
        exact ⟨x, .inr ⟨j, hji, by simp [own, hpj, ownPc, hx], by simp [hpj, doomed]⟩⟩
    · rw [hmod] at hc; omega

theorem pinv_step {n c : Nat} (h2 : 2 ≤ n) {s s' : PSt} {i : Nat} {a : Act} (P : PInv n c s)
    (h : pnext n s i a = some s') : PInv n c s' := by
  have I := inv_reach h2 P.reach
  have K := kind_step I P.hold h
  have R' : Reach n s'.q := by
    obtain ⟨ch, hc⟩ := queue_step h
    exact .step P.reach hc
  have H' := hold_step P.hold h
  obtain ⟨f, hf⟩ := P.place
  cases K with
  | same hh hd hl ho hdm =>
    refine ⟨R', H', ⟨f, ?_⟩, by rw [hh]; exact P.inHist, ?_, ?_⟩
    · intro v hv; rw [hh, hd, hl]
      refine ⟨(hf v hv).1, ?_, (hf v hv).2.2⟩
      intro j; rw [ho]; exact (hf v hv).2.1 j
    · intro j v; rw [ho]; exact P.inOwn j v
    · intro h1
      rw [hh, hd]
      obtain ⟨w, hw, hq | ⟨j, hj, hnd⟩⟩ := P.safe h1
      · exact ⟨w, hw, .inl hq⟩
      · by_cases hdj : doomed (s'.q.pc j)
        · rcases hdm j hdj with h3 | ⟨v, once, pos, hp, hlt, hsame⟩
          · exact absurd h3 hnd
          · obtain ⟨x, hx | ⟨k, hk, hox, hndx⟩⟩ := witness h2 I P.reach hp hlt
            · obtain ⟨t, ht, hx'⟩ := hx
              exact ⟨x, P.inHist x (List.mem_of_getElem? hx'), .inl ⟨t, ht, hx'⟩⟩
            · exact ⟨x, P.inOwn k x hox, .inr ⟨k, by rw [ho]; exact hox, by rw [hsame k hk]; exact hndx⟩⟩
        · exact ⟨w, hw, .inr ⟨j, by rw [ho]; exact hj, hdj⟩⟩
  | push v hov hov' hh hd hl ho =>
    have hvc := P.inOwn i v hov
    have hlen := I.len
    have hle := I.le
    refine ⟨R', H', ⟨fun x => if x = v then .queue s.q.enq else f x, ?_⟩, ?_, ?_, ?_⟩
    · intro x hx
      have fx := hf x hx
      have gx : ∀ t, s'.q.hist[t]? = some x ↔ (s.q.hist[t]? = some x ∨ (t = s.q.enq ∧ x = v)) := by
        intro t
        rw [hh]
        by_cases ht : t < s.q.hist.length
        · rw [List.getElem?_append_left ht]
          constructor
          · exact .inl
          · rintro (h | ⟨h, _⟩)
            · exact h
            · omega
        · rw [List.getElem?_append_right (by omega), List.getElem?_eq_none (l := s.q.hist) (by omega)]
          by_cases e : t = s.q.enq
          · have : t - s.q.hist.length = 0 := by omega
            simp [e, hlen, eq_comm]
          · have : t - s.q.hist.length ≠ 0 := by omega
            obtain ⟨k, hk⟩ := Nat.exists_eq_succ_of_ne_zero this
            simp [hk, e]
      by_cases e : x = v
      · subst e
        have fv : f x = .thread i := (fx.2.1 i).2 hov
        have nq : ∀ t, s.q.deq ≤ t → s.q.hist[t]? = some x → False := by
          intro t h1 h3
          have := (fx.1 t).2 ⟨h1, h3⟩
          rw [fv] at this; cases this
        simp only [if_true]
        refine ⟨?_, ?_, ?_⟩
        · intro t
          rw [gx, hd]
          constructor
          · intro e; cases e; exact ⟨by omega, .inr ⟨rfl, rfl⟩⟩
          · rintro ⟨h1, h3 | ⟨h3, _⟩⟩
            · exact (nq t h1 h3).elim
            · rw [h3]
        · intro j
          constructor
          · intro e; cases e
          · intro e
            by_cases hj : j = i
            · subst hj; rw [hov'] at e; cases e
            · rw [(ho j hj).1] at e
              have := (fx.2.1 j).2 e
              rw [fv] at this; cases this; exact absurd rfl hj
        · constructor
          · intro e; cases e
          · intro e; rw [hl] at e
            have := fx.2.2.2 e
            rw [fv] at this; cases this
      · simp only [if_neg e]
        refine ⟨?_, ?_, ?_⟩
        · intro t; rw [gx, hd]; simp only [e, and_false, or_false]; exact fx.1 t
        · intro j
          by_cases hj : j = i
          · subst hj; rw [hov', fx.2.1 j, hov]; simp [Ne.symm e]
          · rw [(ho j hj).1]; exact fx.2.1 j
        · rw [hl]; exact fx.2.2
    · intro x hx; rw [hh] at hx
      rcases List.mem_append.1 hx with h | h
      · exact P.inHist x h
      · simp at h; omega
    · intro j x hj
      by_cases e : j = i
      · subst e; rw [hov'] at hj; cases hj
      · rw [(ho j e).1] at hj; exact P.inOwn j x hj
    · intro h1
      obtain ⟨w, hw, ⟨t, ht, hq⟩ | ⟨j, hj, hnd⟩⟩ := P.safe h1
      · refine ⟨w, hw, .inl ⟨t, by rw [hd]; exact ht, ?_⟩⟩
        obtain ⟨hl', _⟩ := List.getElem?_eq_some_iff.1 hq
        rw [hh, List.getElem?_append_left hl']; exact hq
      · by_cases e : j = i
        · subst e
          refine ⟨v, hvc, .inl ⟨s.q.hist.length, by rw [hd]; omega, ?_⟩⟩
          rw [hh]; simp
        · exact ⟨w, hw, .inr ⟨j, by rw [(ho j e).1]; exact hj, by rw [(ho j e).2]; exact hnd⟩⟩
  | pop v hov hov' hnd' hv hh hd hl ho =>
    have hvc := P.inHist v (List.mem_of_getElem? hv)
    refine ⟨R', H', ⟨fun x => if x = v then .thread i else f x, ?_⟩, by rw [hh]; exact P.inHist, ?_, ?_⟩
    · intro x hx
      have fx := hf x hx
      by_cases e : x = v
      · subst e
        have fv : f x = .queue s.q.deq := (fx.1 _).2 ⟨Nat.le_refl _, hv⟩
        simp only [if_true]
        refine ⟨?_, ?_, ?_⟩
        · intro t
          constructor
          · intro e; cases e
          · rintro ⟨h1, h3⟩
            rw [hh] at h3; rw [hd] at h1
            have := (fx.1 t).2 ⟨by omega, h3⟩
            rw [fv] at this; cases this; omega
        · intro j
          by_cases hj : j = i
          · subst hj; simp [hov']
          · rw [(ho j hj).1, ← fx.2.1 j, fv]
            simp [Ne.symm hj]
        · rw [hl, ← fx.2.2, fv]; simp
      · simp only [if_neg e]
        refine ⟨?_, ?_, ?_⟩
        · intro t
          rw [fx.1 t, hh, hd]
          constructor
          · rintro ⟨h1, h3⟩
            refine ⟨?_, h3⟩
            have : t ≠ s.q.deq := by
              rintro rfl; rw [hv] at h3; cases h3; exact e rfl
            omega
          · rintro ⟨h1, h3⟩; exact ⟨by omega, h3⟩
        · intro j
          by_cases hj : j = i
          · subst hj; rw [hov', fx.2.1 j, hov]; simp [Ne.symm e]
          · rw [(ho j hj).1]; exact fx.2.1 j
        · rw [hl]; exact fx.2.2
    · intro j x hj
      by_cases e : j = i
      · subst e; rw [hov'] at hj; cases hj; exact hvc
      · rw [(ho j e).1] at hj; exact P.inOwn j x hj
    · intro h1
      obtain ⟨w, hw, ⟨t, ht, hq⟩ | ⟨j, hj, hnd⟩⟩ := P.safe h1
      · exact ⟨v, hvc, .inr ⟨i, hov', hnd'⟩⟩
      · by_cases e : j = i
        · subst e; rw [hov] at hj; cases hj
        · exact ⟨w, hw, .inr ⟨j, by rw [(ho j e).1]; exact hj, by rw [(ho j e).2]; exact hnd⟩⟩
  | drop v hov hov' hdm hh hd hl ho =>
    have hvc := P.inOwn i v hov
    refine ⟨R', H', ⟨fun x => if x = v then .lost else f x, ?_⟩, by rw [hh]; exact P.inHist, ?_, ?_⟩
    · intro x hx
      have fx := hf x hx
      by_cases e : x = v
      · subst e
        have fv : f x = .thread i := (fx.2.1 i).2 hov
        simp only [if_true]
        refine ⟨?_, ?_, ?_⟩
        · intro t; rw [hh, hd, ← fx.1 t, fv]; simp
        · intro j
          by_cases hj : j = i
          · subst hj; simp [hov']
          · rw [(ho j hj).1, ← fx.2.1 j, fv]
            simp [Ne.symm hj]
        · simp [hl]
      · simp only [if_neg e]
        refine ⟨?_, ?_, ?_⟩
        · intro t; rw [hh, hd]; exact fx.1 t
        · intro j
          by_cases hj : j = i
          · subst hj; rw [hov', fx.2.1 j, hov]; simp [Ne.symm e]
          · rw [(ho j hj).1]; exact fx.2.1 j
        · rw [hl, List.mem_append, fx.2.2]; simp [e]
    · intro j x hj
      by_cases e : j = i
      · subst e; rw [hov'] at hj; cases hj
      · rw [(ho j e).1] at hj; exact P.inOwn j x hj
    · intro h1
      obtain ⟨w, hw, ⟨t, ht, hq⟩ | ⟨j, hj, hnd⟩⟩ := P.safe h1
      · exact ⟨w, hw, .inl ⟨t, by rw [hd]; exact ht, by rw [hh]; exact hq⟩⟩
      · by_cases e : j = i
        · subst e; exact absurd hdm hnd
        · exact ⟨w, hw, .inr ⟨j, by rw [(ho j e).1]; exact hj, by rw [(ho j e).2]; exact hnd⟩⟩

theorem pinv {n c : Nat} (h2 : 2 ≤ n) (hc : c ≤ n) {s : PSt} (h : PReach n c s) : PInv n c s := by
  induction h with
  | start => exact pinv_start hc
  | step _ hs ih => exact pinv_step h2 ih hs

end Verif.ObjPool
