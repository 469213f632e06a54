/-
The invariant of the arena: new chunks, splitting, merging, marking.
-/
import Verif.BfcInv
import Mathlib.Tactic.Tauto

namespace Verif.Bfc

theorem Geo.congr {cs cs' : Nat → Chunk} {g : Region × List Nat} (G0 : Geo cs g)
    (hc : ∀ h ∈ g.2, SameGeo (cs h) (cs' h)) : Geo cs' g := by
  refine ⟨G0.pos, G0.size, G0.top, G0.chain.congr hc, ?_, ?_⟩
  · intro h hh; rw [← (hc h hh).1]; exact G0.hset h hh
  · intro i h hh
    have := G0.hget i h hh
    rw [← (hc h this.1).1]; exact this

theorem FreeChain.congr {cs cs' : Nat → Chunk} : ∀ {l f}, FreeChain cs f l → (∀ h ∈ l, (cs h).next = (cs' h).next) →
    FreeChain cs' f l := by
  intro l
  induction l with
  | nil => intro f h _; exact h
  | cons a l ih =>
    intro f h hc
    exact ⟨h.1, by rw [← hc a (by simp)]; exact ih h.2 (fun x hx => hc x (by simp [hx]))⟩

theorem SameGeo.refl (c : Chunk) : SameGeo c c := ⟨rfl, rfl, rfl, rfl⟩

theorem SameGeo.of_eq {c d : Chunk} (h : d = c) : SameGeo c d := by subst h; exact ⟨rfl, rfl, rfl, rfl⟩

/-- The part of an in-use chunk in the sum. -/
def weight (cs : Nat → Chunk) (h : Nat) : Nat := if (cs h).id = -1 then 0 else (cs h).size

/-- A chunk record that belongs to no region. -/
structure Spare (σ : Arena) (G : Ghost) (fl : List Nat) (k : Nat) : Prop where
  lt : k < σ.n
  out : k ∉ hsOf G ++ fl
  bin : (σ.chunks k).bin = none

theorem allocateChunk_ok {σ G fl X} (I : Inv σ G fl X) : ∃ k σ1 fl1, allocateChunk σ = .ok (k, σ1) ∧ Inv σ1 G fl1 X ∧
    Spare σ1 G fl1 k ∧ (∀ j ∈ hsOf G, σ1.chunks j = σ.chunks j) ∧ σ1.regions = σ.regions ∧ σ1.nextId = σ.nextId ∧
    σ1.used = σ.used ∧ σ1.total = σ.total ∧ σ1.cur = σ.cur ∧ σ1.bins = σ.bins ∧ σ1.extensions = σ.extensions := by
  cases hf : σ.free with
  | some k =>
    have hfl := I.flist
    rw [hf] at hfl
    cases fl with
    | nil => simp [FreeChain] at hfl
    | cons k' fl1 =>
      obtain ⟨e, hch⟩ := hfl
      injection e with e
      subst e
      have hk : k < σ.n := I.bound k (by simp)
      have hnd := I.nodup
      rw [List.nodup_append] at hnd
      obtain ⟨n1, n2, n3⟩ := hnd
      rw [List.nodup_cons] at n2
      refine ⟨k, { σ with free := (σ.chunks k).next }, fl1, ?_, ?_, ?_, fun _ _ => rfl, rfl, rfl, rfl, rfl, rfl, rfl, rfl⟩
      · unfold allocateChunk
        rw [hf]
        simp only
        rw [chunkAt_ok hk]
        rfl
      · exact {
          regs := I.regs, order := I.order, geo := I.geo
          nodup := by
            rw [List.nodup_append]
            exact ⟨n1, n2.2, fun a ha b hb => n3 a ha b (by simp [hb])⟩
          bound := fun h hh => I.bound h (by
            rw [List.mem_append] at hh ⊢
            rcases hh with hh | hh
            · exact .inl hh
            · exact .inr (by simp [hh]))
          flist := hch
          flbin := fun h hh => I.flbin h (by simp [hh])
          binmem := I.binmem, binof := I.binof, xs := I.xs, sorted := I.sorted, next := I.next, ids := I.ids, req := I.req
          used := I.used, total := I.total }
      · refine ⟨hk, ?_, I.flbin k (by simp)⟩
        rw [List.mem_append]
        rintro (h | h)
        · exact n3 k h k (by simp) rfl
        · exact n2.1 h
  | none =>
    have hfl := I.flist
    rw [hf] at hfl
    have hfl0 : fl = [] := by
      cases fl with
      | nil => rfl
      | cons a l => exact absurd hfl.1 (by simp)
    subst hfl0
    have hout : ∀ j ∈ hsOf G, j ≠ σ.n := fun j hj => Nat.ne_of_lt (I.lt hj)
    have hch : ∀ j ∈ hsOf G, ({ σ.set σ.n {} with n := σ.n + 1 } : Arena).chunks j = σ.chunks j :=
      fun j hj => if_neg (hout j hj)
    refine ⟨σ.n, { σ.set σ.n {} with n := σ.n + 1 }, [], ?_, ?_, ?_, hch, rfl, rfl, rfl, rfl, rfl, rfl, rfl⟩
    · unfold allocateChunk
      rw [hf]
      rfl
    · exact {
        regs := I.regs, order := I.order
        geo := fun g hg => (I.geo g hg).congr (fun h hh => SameGeo.of_eq (hch h (mem_hsOf.2 ⟨g, hg, hh⟩)))
        nodup := I.nodup
        bound := fun h hh => Nat.lt_succ_of_lt (I.bound h hh)
        flist := hf
        flbin := fun h hh => by simp at hh
        binmem := by
          intro b h
          rw [show ({ σ.set σ.n {} with n := σ.n + 1 } : Arena).bins = σ.bins from rfl, I.binmem]
          constructor
          · rintro ⟨a1, a2⟩; rw [hch h a1]; exact ⟨a1, a2⟩
          · rintro ⟨a1, a2⟩; rw [hch h a1] at a2; exact ⟨a1, a2⟩
        binof := fun h hh => by rw [hch h hh]; exact I.binof h hh
        xs := fun h hh => by rw [hch h (I.xs h hh).1]; exact I.xs h hh
        sorted := by
          intro b
          refine (I.sorted b).imp_of_mem ?_
          intro a c ha hc hac
          have e1 := hch a ((I.binmem b a).1 ha).1
          have e2 := hch c ((I.binmem b c).1 hc).1
          unfold less at hac ⊢
          rw [e1, e2]
          exact hac
        next := I.next
        ids := fun h hh => by rw [hch h hh]; exact I.ids h hh
        req := fun h hh => by rw [hch h hh]; exact I.req h hh
        used := by
          rw [show ({ σ.set σ.n {} with n := σ.n + 1 } : Arena).used = σ.used from rfl, I.used]
          congr 1
          apply List.map_congr_left
          intro h hh
          rw [hch h hh]
        total := I.total }
    · refine ⟨Nat.lt_succ_self _, ?_, ?_⟩
      · simp only [List.append_nil]
        intro h
        exact hout _ h rfl
      · simp [Arena.set]

/-- One region is changed: its chunks are either as before or not yet in a bin. -/
theorem Inv.reshape {σ σ' : Arena} {P Q : Ghost} {R R' : Region} {hs hs' fl fl' X X' : List Nat}
    (I : Inv σ (P ++ (R, hs) :: Q) fl X) (hX : ∀ j ∈ X, j ∈ hs) (hX' : ∀ j ∈ X', j ∈ hs')
    (hreg : σ'.regions = (P ++ (R', hs') :: Q).map (·.1)) (hbase : R'.base = R.base) (hsize : R'.size = R.size)
    (geo : Geo σ'.chunks (R', hs')) (same : ∀ j ∈ hsOf P ++ hsOf Q, σ'.chunks j = σ.chunks j)
    (nodup : (hsOf (P ++ (R', hs') :: Q) ++ fl').Nodup)
    (bound : ∀ h ∈ hsOf (P ++ (R', hs') :: Q) ++ fl', h < σ'.n)
    (flist : FreeChain σ'.chunks σ'.free fl') (flbin : ∀ h ∈ fl', (σ'.chunks h).bin = none)
    (hbins : σ'.bins = σ.bins) (hid : σ'.nextId = σ.nextId) (hused : σ'.used = σ.used) (htot : σ'.total = σ.total)
    (hnew : ∀ j ∈ hs', (j ∈ hs ∧ j ∉ X ∧ j ∉ X' ∧ (σ'.chunks j).id = (σ.chunks j).id ∧ (σ'.chunks j).size = (σ.chunks j).size ∧
        (σ'.chunks j).ptr = (σ.chunks j).ptr ∧ (σ'.chunks j).bin = (σ.chunks j).bin ∧ (σ'.chunks j).req = (σ.chunks j).req) ∨
      (j ∈ X' ∧ (σ'.chunks j).id = -1 ∧ (σ'.chunks j).bin = none ∧ (j ∈ hs → j ∈ X)))
    (hold : ∀ j ∈ hs, j ∉ X → j ∈ hs' ∧ j ∉ X')
    (hsum : (hs'.map (weight σ'.chunks)).sum = (hs.map (weight σ.chunks)).sum) :
    Inv σ' (P ++ (R', hs') :: Q) fl' X' := by
  have hO : ∀ j, j ∈ hsOf (P ++ (R, hs) :: Q) ↔ j ∈ hsOf P ++ hsOf Q ∨ j ∈ hs := by
    intro j; rw [hsOf_append, hsOf_cons]; simp only [List.mem_append]; tauto
  have hN : ∀ j, j ∈ hsOf (P ++ (R', hs') :: Q) ↔ j ∈ hsOf P ++ hsOf Q ∨ j ∈ hs' := by
    intro j; rw [hsOf_append, hsOf_cons]; simp only [List.mem_append]; tauto
  have dj : ∀ j ∈ hsOf P ++ hsOf Q, j ∉ hs := by
    intro j hj hh
    have hnd := (List.nodup_append.1 I.nodup).1
    rw [hsOf_append, hsOf_cons] at hnd
    simp only [List.nodup_append, List.mem_append] at hnd hj
    rcases hj with hj | hj
    · exact hnd.2.2 j hj j (.inl hh) rfl
    · exact hnd.2.1.2.2 j hh j hj rfl
  have dj' : ∀ j ∈ hsOf P ++ hsOf Q, j ∉ hs' := by
    intro j hj hh
    have hnd := (List.nodup_append.1 nodup).1
    rw [hsOf_append, hsOf_cons] at hnd
    simp only [List.nodup_append, List.mem_append] at hnd hj
    rcases hj with hj | hj
    · exact hnd.2.2 j hj j (.inl hh) rfl
    · exact hnd.2.1.2.2 j hh j hj rfl
  have keep : ∀ j, j ∈ hsOf (P ++ (R', hs') :: Q) → j ∉ X' → j ∈ hsOf (P ++ (R, hs) :: Q) ∧ j ∉ X ∧
      (σ'.chunks j).id = (σ.chunks j).id ∧ (σ'.chunks j).size = (σ.chunks j).size ∧
        (σ'.chunks j).ptr = (σ.chunks j).ptr ∧ (σ'.chunks j).bin = (σ.chunks j).bin ∧ (σ'.chunks j).req = (σ.chunks j).req := by
    intro j hj hx
    rcases (hN j).1 hj with h | h
    · rw [same j h]
      exact ⟨(hO j).2 (.inl h), fun hx => dj j h (hX j hx), rfl, rfl, rfl, rfl, rfl⟩
    · rcases hnew j h with ⟨a1, a2, _, a3⟩ | ⟨a1, _⟩
      · exact ⟨(hO j).2 (.inr a1), a2, a3⟩
      · exact absurd a1 hx
  have keep' : ∀ j, j ∈ hsOf (P ++ (R, hs) :: Q) → j ∉ X → j ∈ hsOf (P ++ (R', hs') :: Q) ∧ j ∉ X' := by
    intro j hj hx
    rcases (hO j).1 hj with h | h
    · exact ⟨(hN j).2 (.inl h), fun hx => dj' j h (hX' j hx)⟩
    · exact ⟨(hN j).2 (.inr (hold j h hx).1), (hold j h hx).2⟩
  have xid : ∀ j ∈ X', (σ'.chunks j).id = -1 ∧ (σ'.chunks j).bin = none := by
    intro j hj
    rcases hnew j (hX' j hj) with ⟨_, _, h, _⟩ | ⟨_, h1, h2, _⟩
    · exact absurd hj h
    · exact ⟨h1, h2⟩
  refine { regs := hreg, order := ?_, geo := ?_, nodup := nodup, bound := bound, flist := flist, flbin := flbin, binmem := ?_
           binof := ?_, xs := ?_, sorted := ?_, next := by rw [hid]; exact I.next, ids := ?_, req := ?_, used := ?_, total := ?_ }
  · have ho := I.order
    rw [List.pairwise_append, List.pairwise_cons] at ho ⊢
    simp only [List.mem_cons, forall_eq_or_imp, hbase, hsize] at ho ⊢
    exact ho
  · intro g hg
    rw [List.mem_append, List.mem_cons] at hg
    have aux : ∀ g, g ∈ P ∨ g ∈ Q → Geo σ'.chunks g := by
      intro g hg
      have hg0 : g ∈ P ++ (R, hs) :: Q := by rcases hg with h | h <;> simp [h]
      refine (I.geo g hg0).congr ?_
      intro j hj
      refine SameGeo.of_eq (same j ?_)
      rw [List.mem_append]
      rcases hg with h | h
      · exact .inl (mem_hsOf.2 ⟨g, h, hj⟩)
      · exact .inr (mem_hsOf.2 ⟨g, h, hj⟩)
    rcases hg with h | rfl | h
    · exact aux g (.inl h)
    · exact geo
    · exact aux g (.inr h)
  · intro b j
    rw [hbins, I.binmem]
    constructor
    · rintro ⟨a1, a2, a3, a4⟩
      obtain ⟨b1, b2⟩ := keep' j a1 a2
      obtain ⟨_, _, c1, c2, _⟩ := keep j b1 b2
      exact ⟨b1, b2, by rw [c1, a3], by rw [c2, a4]⟩
    · rintro ⟨a1, a2, a3, a4⟩
      obtain ⟨c, d, c1, c2, _⟩ := keep j a1 a2
      exact ⟨c, d, by rw [← c1, a3], by rw [← c2, a4]⟩
  · intro j hj
    by_cases hx : j ∈ X'
    · rw [if_pos (.inl hx)]
      exact (xid j hx).2
    · obtain ⟨c, d, c1, c2, _, c4, _⟩ := keep j hj hx
      rw [c4, I.binof j c, c1, c2]
      simp [hx, d]
  · intro j hj
    exact ⟨(hN j).2 (.inr (hX' j hj)), (xid j hj).1⟩
  · intro b
    rw [hbins]
    refine (I.sorted b).imp_of_mem ?_
    intro a c ha hc hac
    have key : ∀ j, j ∈ σ.bins b → (σ.chunks j).size = (σ'.chunks j).size ∧ (σ.chunks j).ptr = (σ'.chunks j).ptr := by
      intro j hj
      obtain ⟨a1, a2, _⟩ := (I.binmem b j).1 hj
      obtain ⟨b1, b2⟩ := keep' j a1 a2
      obtain ⟨_, _, _, c2, c3, _⟩ := keep j b1 b2
      exact ⟨c2.symm, c3.symm⟩
    rw [← less_congr (key a ha) (key c hc)]
    exact hac
  · intro j hj
    by_cases hx : j ∈ X'
    · exact .inl (xid j hx).1
    · obtain ⟨c, d, c1, _⟩ := keep j hj hx
      rw [c1, hid]
      exact I.ids j c
  · intro j hj hi
    by_cases hx : j ∈ X'
    · exact absurd (xid j hx).1 hi
    · obtain ⟨c, d, c1, c2, _, _, c5⟩ := keep j hj hx
      rw [c5, c2]
      exact I.req j c (by rw [← c1]; exact hi)
  · rw [hused, I.used]
    change ((hsOf _).map (weight σ.chunks)).sum = ((hsOf _).map (weight σ'.chunks)).sum
    rw [hsOf_append, hsOf_cons, hsOf_append, hsOf_cons]
    simp only [List.map_append, List.sum_append]
    rw [hsum]
    have e1 : (hsOf P).map (weight σ.chunks) = (hsOf P).map (weight σ'.chunks) := by
      apply List.map_congr_left
      intro j hj
      unfold weight
      rw [same j (by simp [hj])]
    have e2 : (hsOf Q).map (weight σ.chunks) = (hsOf Q).map (weight σ'.chunks) := by
      apply List.map_congr_left
      intro j hj
      unfold weight
      rw [same j (by simp [hj])]
    rw [e1, e2]
  · rw [htot, I.total]
    simp [hsize]

end Verif.Bfc
