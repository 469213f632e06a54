import Verif.ObjPoolMain
import Mathlib.Data.List.Nodup
import Mathlib.Data.List.Perm.Subperm

/-! What users of the pool of handlers rely on (C136). -/
namespace Verif.ObjPool

open Verif.Mpmc (State Pc next upd Reach Inv inv_reach upd_self upd_ne Quiet)

/-- C136: an object is used by one thread at a time, and while it is used it is neither in the queue nor lost. -/
theorem exclusive {n c : Nat} (h2 : 2 ≤ n) (hc : c ≤ n) {s : PSt} (h : PReach n c s) {i v : Nat} (hu : Uses s i v) :
    v < c ∧ (∀ j, Uses s j v → j = i) ∧ (∀ t, s.q.deq ≤ t → s.q.hist[t]? ≠ some v) ∧ v ∉ s.lost := by
  have P := pinv h2 hc h
  have ho : ∀ {j}, Uses s j v → own s j = some v := by
    rintro j ⟨h1, h3⟩; simp [own, h1, ownPc, h3]
  have hv := P.inOwn i v (ho hu)
  obtain ⟨f, hf⟩ := P.place
  obtain ⟨fq, ft, fl⟩ := hf v hv
  have fv := (ft i).2 (ho hu)
  refine ⟨hv, ?_, ?_, ?_⟩
  · intro j hj
    have := (ft j).2 (ho hj)
    rw [fv] at this; cases this; rfl
  · intro t h1 h3
    have := (fq t).2 ⟨h1, h3⟩
    rw [fv] at this; cases this
  · intro hl
    have := fl.2 hl
    rw [fv] at this; cases this

/-- C136: between calls every object is in use, in the queue, or lost. -/
theorem accounted {n c : Nat} (h2 : 2 ≤ n) (hc : c ≤ n) {s : PSt} (h : PReach n c s) (q : Quiet s.q) {v : Nat}
    (hv : v < c) : (∃ i, Uses s i v) ∨ (∃ t, s.q.deq ≤ t ∧ s.q.hist[t]? = some v) ∨ v ∈ s.lost := by
  obtain ⟨f, hf⟩ := (pinv h2 hc h).place
  obtain ⟨fq, ft, fl⟩ := hf v hv
  cases e : f v with
  | queue t => exact .inr (.inl ⟨t, (fq t).1 e⟩)
  | thread i =>
    have := (ft i).1 e
    simp only [own, q i, ownPc] at this
    exact .inl ⟨i, q i, this⟩
  | lost => exact .inr (.inr (fl.1 e))

/-- C136: whatever happens, some object is not lost. -/
theorem one_left {n c : Nat} (h2 : 2 ≤ n) (hc : c ≤ n) (h1 : 1 ≤ c) {s : PSt} (h : PReach n c s) :
    ∃ w, w < c ∧ w ∉ s.lost := by
  have P := pinv h2 hc h
  obtain ⟨w, hw, hs⟩ := P.safe h1
  obtain ⟨f, hf⟩ := P.place
  obtain ⟨fq, ft, fl⟩ := hf w hw
  refine ⟨w, hw, fun hl => ?_⟩
  have hl := fl.2 hl
  rcases hs with ⟨t, ht⟩ | ⟨i, hi, _⟩
  · have := (fq t).2 ht
    rw [hl] at this; cases this
  · have := (ft i).2 hi
    rw [hl] at this; cases this

/-- Fewer than `n` objects are in the queue while one is in use. -/
theorem room {n c : Nat} (h2 : 2 ≤ n) (hc : c ≤ n) {s : PSt} (h : PReach n c s) {i v : Nat} (hu : Uses s i v) :
    s.q.enq - s.q.deq < n := by
  have P := pinv h2 hc h
  have I := inv_reach h2 P.reach
  obtain ⟨hv, _, hq, _⟩ := exclusive h2 hc h hu
  obtain ⟨f, hf⟩ := P.place
  have hget : ∀ {k : Nat} {x : Nat}, (s.q.hist.drop s.q.deq)[k]? = some x →
      s.q.deq ≤ s.q.deq + k ∧ s.q.hist[s.q.deq + k]? = some x := by
    intro k x e; rw [List.getElem?_drop] at e; exact ⟨by omega, e⟩
  have nd : (v :: s.q.hist.drop s.q.deq).Nodup := by
    rw [List.nodup_cons]
    constructor
    · intro hm
      obtain ⟨k, hk⟩ := List.mem_iff_getElem?.1 hm
      exact hq _ (hget hk).1 (hget hk).2
    · rw [List.nodup_iff_getElem?_ne_getElem?]
      intro a b hab hb e
      obtain ⟨x, hx⟩ : ∃ x, (s.q.hist.drop s.q.deq)[b]? = some x := ⟨_, List.getElem?_eq_getElem hb⟩
      rw [hx] at e
      have hxc := P.inHist x (List.mem_of_getElem? (hget hx).2)
      have e1 := ((hf x hxc).1 _).2 (hget hx)
      have e2 := ((hf x hxc).1 _).2 (hget e)
      rw [e1] at e2
      simp only [Place.queue.injEq] at e2
      omega
  have sub : (v :: s.q.hist.drop s.q.deq) ⊆ List.range c := by
    intro x hx
    rw [List.mem_range]
    rcases List.mem_cons.1 hx with rfl | hx
    · exact hv
    · exact P.inHist x (List.mem_of_mem_drop hx)
  have := (List.subperm_of_subset nd sub).length_le
  simp only [List.length_cons, List.length_drop, List.length_range] at this
  have := I.len
  omega

/-- C136, one call at a time: an object that is given back while no other call is going on is in the queue
again, behind the others, and nothing is lost. -/
theorem give_back_partial {n c : Nat} (h2 : 2 ≤ n) (hc : c ≤ n) {s : PSt} (h : PReach n c s) (q : Quiet s.q)
    {i v : Nat} (hu : Uses s i v) :
    ∃ s', (pnext n s i .giveBack).bind (solo n i 6) = some s' ∧ s'.q.hist = s.q.hist ++ [v] ∧ s'.q.deq = s.q.deq ∧
      s'.lost = s.lost ∧ s'.hold i = none ∧ Quiet s'.q := by
  have P := pinv h2 hc h
  have hr := room h2 hc h hu
  have I := inv_reach h2 P.reach
  have hle := I.le
  have hseq := (Mpmc.quiet_cells h2 P.reach q).1 (by omega)
  simp only [pnext, hu.2, next, q i, Option.map_some, Option.bind_some, solo, upd_self, hseq, and_self, if_true,
    Option.some.injEq, exists_eq_left', true_and]
  intro j
  by_cases e : j = i
  · subst e; simp only [upd_self]
  · simp only [upd_ne _ _ e]; exact q j

/-- C136, one call at a time: a borrow gets the object that has been in the queue longest, if there is any. -/
theorem borrow_alone {n c : Nat} (h2 : 2 ≤ n) (hc : c ≤ n) {s : PSt} (h : PReach n c s) (q : Quiet s.q)
    {i : Nat} (hn : s.hold i = none) {w : Nat} (hw : w < c) (hfree : ∀ j, ¬ Uses s j w) (hl : w ∉ s.lost) :
    ∃ s' v, (pnext n s i .borrow).bind (solo n i 6) = some s' ∧ s.q.hist[s.q.deq]? = some v ∧ Uses s' i v := by
  have P := pinv h2 hc h
  have I := inv_reach h2 P.reach
  obtain ⟨t, ht, hx⟩ : ∃ t, s.q.deq ≤ t ∧ s.q.hist[t]? = some w := by
    rcases accounted h2 hc h q hw with ⟨j, hj⟩ | h3 | h3
    · exact absurd hj (hfree j)
    · exact h3
    · exact absurd h3 hl
  obtain ⟨hlt, _⟩ := List.getElem?_eq_some_iff.1 hx
  rw [I.len] at hlt
  have hd : s.q.deq < s.q.enq := by omega
  have hseq := (Mpmc.quiet_cells h2 P.reach q).2.2.1 s.q.deq (Nat.le_refl _) hd
  obtain ⟨x, hxx, hdat⟩ := (Mpmc.mpmc_quiescent h2 P.reach q).2 s.q.deq (Nat.le_refl _) hd
  simp only [pnext, hn, next, q i, Option.map_some, Option.bind_some, solo, upd_self, hseq, hdat, and_self, if_true,
    Option.some.injEq, exists_and_left, exists_eq_left', hxx, Uses, true_and]

/-- C136: a lost object stays lost. -/
theorem lost_stays {n : Nat} {s s' : PSt} (h : PRun n s s') : s.lost <+: s'.lost := by
  induction h with
  | refl => exact List.prefix_rfl
  | @tail t u i a _ hs ih =>
    refine ih.trans ?_
    unfold pnext at hs
    have aux : ∀ {o : Option (State Nat)} {f : State Nat → PSt}, (∀ q, t.lost <+: (f q).lost) →
        o.map f = some u → t.lost <+: u.lost := by
      intro o f hf e
      cases o with
      | none => cases e
      | some q => simp only [Option.map_some, Option.some.injEq] at e; rw [← e]; exact hf q
    split at hs
    · split at hs
      · exact aux (fun _ => by exact List.prefix_rfl) hs
      · cases hs
    · split at hs
      · cases hs
      · exact aux (fun _ => by exact List.prefix_rfl) hs
    · split at hs
      · exact aux (fun _ => by exact List.prefix_rfl) hs
      · refine aux (fun _ => ?_) hs
        dsimp only; split
        · exact List.prefix_rfl
        · exact List.prefix_append _ _
      · exact aux (fun _ => by exact List.prefix_rfl) hs

theorem reach_run {n c : Nat} {s s' : PSt} (h : PReach n c s) (r : PRun n s s') : PReach n c s' := by
  induction r with
  | refl => exact h
  | tail _ hs ih => exact .step ih hs

/-- C136: a lost object is never used again. -/
theorem lost_unused {n c : Nat} (h2 : 2 ≤ n) (hc : c ≤ n) {s s' : PSt} (h : PReach n c s) (r : PRun n s s') {v : Nat}
    (hl : v ∈ s.lost) (i : Nat) : ¬ Uses s' i v := by
  intro hu
  exact (exclusive h2 hc (reach_run h r) hu).2.2.2 ((lost_stays r).subset hl)

theorem reach_solo {n c i : Nat} : ∀ {k : Nat} {s s' : PSt}, PReach n c s → solo n i k s = some s' → PReach n c s'
  | 0, _, _, h, e => by cases e; exact h
  | k + 1, s, s', h, e => by
    unfold solo at e
    cases hn : pnext n s i (.go false) with
    | none => rw [hn] at e; cases e
    | some t => rw [hn] at e; exact reach_solo (.step h hn) e

theorem reach_act {n c i k : Nat} {a : Act} {s s' : PSt} (h : PReach n c s)
    (e : (pnext n s i a).bind (solo n i k) = some s') : PReach n c s' := by
  cases hn : pnext n s i a with
  | none => rw [hn] at e; cases e
  | some t => rw [hn] at e; exact reach_solo (.step h hn) e

/-- C136 fails: with two threads, in a pool of any size that the ops accept, a return fails while another thread is
in the middle of its borrow, and the object is lost although its user gave it back. -/
theorem lost_refuted (n : Nat) (h2 : 2 ≤ n) :
    ∃ s, PReach n n s ∧ 1 ∈ s.lost ∧ s.hold 1 = none := by
  have h0 : (0 : Nat) % n = 0 := Nat.zero_mod _
  have h1 : 1 % n = 1 := Nat.mod_eq_of_lt (by omega)
  have p0 : 0 < n := by omega
  have p1 : 1 < n := by omega
  have n0 : n ≠ 0 := by omega
  have n1 : 1 ≠ n := by omega
  -- thread 0 has its ticket, and is suspended
  obtain ⟨s1, e1, q1⟩ : ∃ s1, (pnext n (start n) 0 .borrow).bind (solo n 0 3) = some s1 ∧
      (s1.q.pc 0 = .dRead 0 ∧ s1.q.pc 1 = .idle ∧ s1.q.deq = 1 ∧ s1.q.enq = n ∧ s1.q.seq 0 = 1 ∧ s1.q.seq 1 = 2 ∧
        s1.q.data 1 = some 1 ∧ s1.hold 1 = none ∧ s1.lost = []) := by
    simp [pnext, start, filled, next, solo, upd_self, p0, p1, upd]
  obtain ⟨a1, a2, a3, a4, a5, a6, a7, a8, a9⟩ := q1
  -- thread 1 borrows
  obtain ⟨s2, e2, q2⟩ : ∃ s2, (pnext n s1 1 .borrow).bind (solo n 1 6) = some s2 ∧
      (s2.q.pc 1 = .idle ∧ s2.q.enq = n ∧ s2.q.seq 0 = 1 ∧ s2.hold 1 = some 1 ∧ s2.lost = []) := by
    simp [pnext, a2, a3, a4, a5, a6, a7, a8, a9, next, solo, upd_self, h1, upd]
  obtain ⟨b1, b2, b3, b4, b5⟩ := q2
  -- and gives back
  obtain ⟨s3, e3, q3⟩ : ∃ s3, (pnext n s2 1 .giveBack).bind (solo n 1 4) = some s3 ∧
      (1 ∈ s3.lost ∧ s3.hold 1 = none) := by
    simp [pnext, b1, b2, b3, b4, b5, next, solo, upd_self, n1, p1]
  exact ⟨s3, reach_act (reach_act (reach_act .start e1) e2) e3, q3⟩

/-! ### Sizes -/

theorem capLoop_ge : ∀ (fuel l cap : Nat), 1 ≤ l → cap ≤ l + fuel → cap ≤ capLoop fuel l cap
  | 0, l, cap, _, h => by simp [capLoop]; omega
  | fuel + 1, l, cap, h1, h => by
    unfold capLoop
    split
    · exact capLoop_ge fuel _ _ (by omega) (by omega)
    · omega

theorem capLoop_pow : ∀ (fuel j k : Nat), j ≤ k → 2 ^ k ≤ 2 ^ j + fuel → capLoop fuel (2 ^ j) (2 ^ k) = 2 ^ k
  | 0, j, k, h, hf => by
    have := Nat.pow_le_pow_right (n := 2) (by omega) h
    simp only [capLoop]; omega
  | fuel + 1, j, k, h, hf => by
    unfold capLoop
    have hp : 1 ≤ 2 ^ j := Nat.one_le_two_pow
    split
    · rename_i hl
      have hjk : j < k := (Nat.pow_lt_pow_iff_right (by omega)).1 hl
      rw [← Nat.pow_succ]
      exact capLoop_pow fuel (j + 1) k hjk (by rw [Nat.pow_succ]; omega)
    · have := Nat.pow_le_pow_right (n := 2) (by omega) h
      omega

/-- C136: with a size the ops accept the queue can be built and has just as many places as there are objects; the
pool itself makes room for all its objects whatever their number. -/
theorem sizes (p : Nat) : p ≤ capOf p ∧ (sizeOk p = true → queueOk (capOf p) = true ∧ capOf p = p ∧ 2 ≤ p) := by
  refine ⟨capLoop_ge p 1 p (Nat.le_refl _) (by omega), fun h => ?_⟩
  simp only [sizeOk, Bool.and_eq_true, decide_eq_true_eq] at h
  obtain ⟨k, hk⟩ := (Nat.and_sub_one_eq_zero_iff_isPowerOfTwo (by omega : p ≠ 0)).1 h.2
  have e : capOf p = p := by
    have := capLoop_pow p 0 k (Nat.zero_le _) (by omega)
    rw [← hk] at this
    simpa [capOf] using this
  refine ⟨?_, e, h.1⟩
  rw [e]; simp only [queueOk, Bool.and_eq_true, decide_eq_true_eq]
  exact ⟨h.1, h.2⟩

/-- C136 fails for a pool of one object, which the ops reject but the pool does not: the process ends. -/
theorem one_object_refuted : queueOk (capOf 1) = false ∧ sizeOk 1 = false := by decide

/-- Three objects on four places. -/
example : capOf 3 = 4 ∧ queueOk (capOf 3) = true ∧ sizeOk 3 = false := by decide

/-- In a pool of two, both threads get an object each, and not the same. -/
example : ((((pnext 2 (start 2) 0 .borrow).bind (solo 2 0 6)).bind fun s => (pnext 2 s 1 .borrow).bind (solo 2 1 6)).map
    fun s => (s.hold 0, s.hold 1, s.lost)) = some (some 0, some 1, []) := by decide

/-- One after the other, an object comes back behind the one that is left. -/
example : ((((pnext 2 (start 2) 0 .borrow).bind (solo 2 0 6)).bind fun s => (pnext 2 s 0 .giveBack).bind (solo 2 0 6)).map
    fun s => (s.hold 0, s.q.hist.drop s.q.deq, s.lost)) = some (none, [1, 0], []) := by decide

end Verif.ObjPool
