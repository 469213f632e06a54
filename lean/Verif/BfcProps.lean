/-
Properties of the arena: the blocks handed out, the use of the memory, the numbers reported.
-/
import Verif.BfcAlloc

namespace Verif.Bfc

/-! ## Runs -/

/-- The runs of an arena: calls of `Alloc` that give a pointer or fail, calls of `Free` with a pointer that is live. `L` are
the live pointers with the sizes asked for; `D` says which devices there are. -/
inductive Reach (cf : Conf) (ic : Nat) (D : (Nat → Nat → Ans) → Prop) : Arena → List (Nat × Nat) → Prop
  | init : Reach cf ic D (cf.init ic) []
  | alloc {σ L dev num p σ'} : Reach cf ic D σ L → D dev → DevOk dev σ → 0 < num → num + 255 < 2 ^ 64 →
      alloc cf dev σ num = .ok (.ptr p, σ') → Reach cf ic D σ' ((p, num) :: L)
  | failed {σ L dev num σ'} : Reach cf ic D σ L → D dev → DevOk dev σ → 0 < num → num + 255 < 2 ^ 64 →
      alloc cf dev σ num = .ok (.noMemory, σ') → Reach cf ic D σ' L
  | free {σ L p num σ'} : Reach cf ic D σ L → (p, num) ∈ L → freePtr σ p = .ok σ' → Reach cf ic D σ' (L.erase (p, num))

/-- The place and the requested size of a block. -/
abbrev pn (x : Nat × Nat × Nat) : Nat × Nat := (x.1, x.2.1)

theorem init_st (cf : Conf) (ic : Nat) : St cf (cf.init ic) [] [] where
  good := {
    inv := {
      regs := rfl, order := List.Pairwise.nil, geo := by simp, nodup := by simp [hsOf], bound := by simp [hsOf], flist := rfl
      flbin := by simp, binmem := by simp [Conf.init, hsOf], binof := by simp [hsOf], xs := by simp
      sorted := fun b => by simp [Conf.init], next := by simp [Conf.init], ids := by simp [hsOf], req := by simp [hsOf]
      used := rfl, total := rfl }
    coal := fun g hg => by simp at hg }
  total := Nat.zero_le _
  cur := by simp only [Conf.init, rounded]; exact Nat.dvd_mul_right _ _
  waste := by simp [liveOf, liveL, hsOf]

/-- The invariant of all runs. -/
structure RInv (cf : Conf) (D : (Nat → Nat → Ans) → Prop) (σ : Arena) (L : List (Nat × Nat)) (G : Ghost) (fl : List Nat) : Prop where
  st : St cf σ G fl
  live : L.Perm ((liveOf σ.chunks G).map pn)
  given : ∀ x ∈ shape G, ∃ dev k, D dev ∧ dev k x.2.1 = .mem x.1

theorem st_cur {cf : Conf} {σ G fl} (S : St cf σ G fl) {c : Nat} (hc : 256 ∣ c) : St cf { σ with cur := c } G fl where
  good := ⟨{
    regs := S.good.inv.regs, order := S.good.inv.order, geo := S.good.inv.geo, nodup := S.good.inv.nodup
    bound := S.good.inv.bound, flist := S.good.inv.flist, flbin := S.good.inv.flbin, binmem := S.good.inv.binmem
    binof := S.good.inv.binof, xs := S.good.inv.xs, sorted := S.good.inv.sorted, next := S.good.inv.next
    ids := S.good.inv.ids, req := S.good.inv.req, used := S.good.inv.used, total := S.good.inv.total }, S.good.coal⟩
  total := S.total
  cur := hc
  waste := S.waste

theorem reach_inv {cf : Conf} (hcf : cf.Ok) {ic D σ L} (h : Reach cf ic D σ L) : ∃ G fl, RInv cf D σ L G fl := by
  induction h with
  | init => exact ⟨[], [], init_st cf ic, by simp [liveOf, liveL, hsOf], by simp [shape]⟩
  | @alloc σ L dev num p σ' _ hD hd h0 hn e ih =>
    obtain ⟨G, fl, I⟩ := ih
    rcases alloc_cases hcf I.st hd h0 hn with ⟨σ1, G', fl', p', s, e1, S, ⟨X, Y, l1, l2⟩, _, hc⟩ | ⟨c, e1, _⟩ | ⟨e1, _⟩
    · rw [e1] at e
      simp only [Out.ok.injEq, Prod.mk.injEq, Got.ptr.injEq] at e
      obtain ⟨rfl, rfl⟩ := e
      refine ⟨G', fl', S, ?_, ?_⟩
      · rw [l2, List.map_append, List.map_cons]
        refine List.Perm.trans (List.Perm.cons _ ?_) List.perm_middle.symm
        have := I.live
        rw [l1, List.map_append] at this
        exact this
      · intro x hx
        rcases hc with ⟨hs, _⟩ | ⟨_, b, k, hb, _, _, _, hs, _⟩
        · rw [hs] at hx; exact I.given x hx
        · rw [hs.mem_iff, List.mem_cons] at hx
          rcases hx with rfl | hx
          · exact ⟨dev, k, hD, hb⟩
          · exact I.given x hx
    · rw [e1] at e; simp at e
    · rw [e1] at e; simp at e
  | @failed σ L dev num σ' _ hD hd h0 hn e ih =>
    obtain ⟨G, fl, I⟩ := ih
    rcases alloc_cases hcf I.st hd h0 hn with ⟨σ1, G', fl', p', s, e1, _⟩ | ⟨c, e1, hc, _⟩ | ⟨e1, _⟩
    · rw [e1] at e; simp at e
    · rw [e1] at e
      simp only [Out.ok.injEq, Prod.mk.injEq, true_and] at e
      subst e
      exact ⟨G, fl, st_cur I.st hc, I.live, I.given⟩
    · rw [e1] at e; simp at e
  | @free σ L p num σ' _ hp e ih =>
    obtain ⟨G, fl, I⟩ := ih
    have hm := I.live.mem_iff.1 hp
    rw [List.mem_map] at hm
    obtain ⟨⟨p', n', s⟩, hx, e1⟩ := hm
    simp only [pn, Prod.mk.injEq] at e1
    obtain ⟨rfl, rfl⟩ := e1
    obtain ⟨σ1, G', fl', f1, f2, f3, ⟨X, Y, l1, l2⟩, _⟩ := free_ok I.st hx (Nat.le_refl _) (by omega : p' < p' + 256)
    rw [f1] at e
    simp only [Out.ok.injEq] at e
    subst e
    refine ⟨G', fl', f2, ?_, by rw [f3]; exact I.given⟩
    have := I.live
    rw [l1, List.map_append, List.map_cons] at this
    have h2 := (this.trans List.perm_middle).erase (p', n')
    rw [List.erase_cons_head] at h2
    rw [l2, List.map_append]
    exact h2

/-! ## Places -/

theorem Inv.sortedAll {σ G fl X} (I : Inv σ G fl X) :
    (hsOf G).Pairwise fun a b => (σ.chunks a).ptr + (σ.chunks a).size ≤ (σ.chunks b).ptr := by
  have ho := I.order
  have hg := I.geo
  clear I
  induction G with
  | nil => simp [hsOf]
  | cons g G ih =>
    obtain ⟨o1, o2⟩ := List.pairwise_cons.1 ho
    rw [hsOf_cons, List.pairwise_append]
    refine ⟨(hg g (by simp)).chain.disjoint, ih o2 (fun x hx => hg x (by simp [hx])), ?_⟩
    intro a ha b hb
    obtain ⟨g', hg', hb'⟩ := mem_hsOf.1 hb
    have r1 := (hg g (by simp)).chain.range a ha
    have r2 := (hg g' (by simp [hg'])).chain.range b hb'
    have := o1 g' hg'
    omega

theorem Inv.apart {σ G fl X} (I : Inv σ G fl X) {h k : Nat} (hh : h ∈ hsOf G) (hk : k ∈ hsOf G) (hne : h ≠ k) :
    (σ.chunks h).ptr + (σ.chunks h).size ≤ (σ.chunks k).ptr ∨ (σ.chunks k).ptr + (σ.chunks k).size ≤ (σ.chunks h).ptr := by
  have := I.sortedAll
  generalize hsOf G = l at this hh hk
  clear I
  induction l with
  | nil => simp at hh
  | cons a l ih =>
    obtain ⟨p1, p2⟩ := List.pairwise_cons.1 this
    rcases List.mem_cons.1 hh with rfl | hh1 <;> rcases List.mem_cons.1 hk with rfl | hk1
    · exact absurd rfl hne
    · exact .inl (p1 k hk1)
    · exact .inr (p1 h hh1)
    · exact ih p2 hh1 hk1

theorem Inv.place {σ G fl X} (I : Inv σ G fl X) {h : Nat} (hh : h ∈ hsOf G) : ∃ g ∈ G, h ∈ g.2 ∧ g.1.base ≤ (σ.chunks h).ptr ∧
    (σ.chunks h).ptr + (σ.chunks h).size ≤ g.1.base + g.1.size ∧ 0 < (σ.chunks h).size ∧ 256 ∣ (σ.chunks h).size ∧
    256 ∣ (σ.chunks h).ptr - g.1.base := by
  obtain ⟨g, hg, hm⟩ := mem_hsOf.1 hh
  obtain ⟨a, b, c, d, e⟩ := (I.geo g hg).chain.range h hm
  exact ⟨g, hg, hm, a, b, c, d, e⟩

/-- The live blocks, from the list of the user. -/
theorem RInv.block {cf D σ L G fl} (I : RInv cf D σ L G fl) {p n : Nat} (h : (p, n) ∈ L) :
    ∃ k ∈ hsOf G, (σ.chunks k).id ≠ -1 ∧ (σ.chunks k).ptr = p ∧ (σ.chunks k).req = n := by
  have hm := I.live.mem_iff.1 h
  rw [List.mem_map] at hm
  obtain ⟨x, hx, e1⟩ := hm
  obtain ⟨k, hk, hid, rfl⟩ := mem_liveOf.1 hx
  simp only [pn, Prod.mk.injEq] at e1
  exact ⟨k, hk, hid, e1.1, e1.2⟩

theorem RInv.block' {cf D σ L G fl} (I : RInv cf D σ L G fl) {k : Nat} (hk : k ∈ hsOf G) (hid : (σ.chunks k).id ≠ -1) :
    ((σ.chunks k).ptr, (σ.chunks k).req) ∈ L := by
  rw [I.live.mem_iff, List.mem_map]
  exact ⟨_, mem_liveOf.2 ⟨k, hk, hid, rfl⟩, rfl⟩

theorem liveL_pairwise {cs : Nat → Chunk} {l : List Nat} (h : l.Pairwise fun a b => (cs a).ptr + (cs a).size ≤ (cs b).ptr)
    (hr : ∀ j ∈ l, (cs j).id ≠ -1 → (cs j).req ≤ (cs j).size) :
    ((liveL cs l).map pn).Pairwise fun a b => a.1 + a.2 ≤ b.1 ∨ b.1 + b.2 ≤ a.1 := by
  unfold liveL
  rw [List.map_map, List.pairwise_map]
  refine (h.sublist List.filter_sublist).imp_of_mem ?_
  intro a b ha hb hab
  rw [List.mem_filter] at ha
  have := hr a ha.1 (by simpa [Chunk.inUse] using ha.2)
  simp only [Function.comp]
  left
  omega

/-- **C90.** Live blocks do not overlap. -/
theorem live_disjoint {cf : Conf} (hcf : cf.Ok) {ic D σ L} (h : Reach cf ic D σ L) :
    L.Pairwise fun a b => a.1 + a.2 ≤ b.1 ∨ b.1 + b.2 ≤ a.1 := by
  obtain ⟨G, fl, I⟩ := reach_inv hcf h
  rw [I.live.pairwise_iff (fun {x y} hxy => hxy.symm)]
  exact liveL_pairwise I.st.good.inv.sortedAll (fun j hj hi => (I.st.good.inv.req j hj hi).2)

/-- **C90.** A live block is inside of one piece of memory that the device gave, at a multiple of 256 from its start. -/
theorem live_inside {cf : Conf} (hcf : cf.Ok) {ic D σ L} (h : Reach cf ic D σ L) {p n : Nat} (hp : (p, n) ∈ L) :
    ∃ dev k a b, D dev ∧ dev k b = .mem a ∧ a ≤ p ∧ p + n ≤ a + b ∧ 256 ∣ p - a ∧ 0 < n ∧ 0 < p := by
  obtain ⟨G, fl, I⟩ := reach_inv hcf h
  obtain ⟨k, hk, hid, rfl, rfl⟩ := I.block hp
  obtain ⟨g, hg, _, a1, a2, a3, _, a5⟩ := I.st.good.inv.place hk
  obtain ⟨dev, i, d1, d2⟩ := I.given (g.1.base, g.1.size, g.1.id) (List.mem_map.2 ⟨g, hg, rfl⟩)
  have hq := I.st.good.inv.req k hk hid
  have := (I.st.good.inv.geo g hg).pos
  exact ⟨dev, i, g.1.base, g.1.size, d1, d2, a1, by omega, a5, hq.1, by omega⟩

theorem alloc_zero (cf : Conf) (dev : Nat → Nat → Ans) (σ : Arena) : alloc cf dev σ 0 = .ok (.null, σ) := by
  unfold alloc
  rw [if_pos (Eq.refl 0)]
  rfl

/-- **C90.** `Alloc` gives a pointer or says that there is no memory; no check of its own fails and no invalid access happens. -/
theorem alloc_total {cf : Conf} (hcf : cf.Ok) {ic D σ L dev} (h : Reach cf ic D σ L) (hd : DevOk dev σ) {num : Nat}
    (hn : num + 255 < 2 ^ 64) :
    (∃ g σ', alloc cf dev σ num = .ok (g, σ') ∧ (g = .null ↔ num = 0)) ∨ alloc cf dev σ num = .hang := by
  obtain ⟨G, fl, I⟩ := reach_inv hcf h
  by_cases h0 : num = 0
  · subst h0
    exact .inl ⟨.null, σ, alloc_zero cf dev σ, by simp⟩
  · rcases alloc_cases hcf I.st hd (by omega) hn with ⟨σ1, G', fl', p', s, e1, _⟩ | ⟨c, e1, _⟩ | ⟨e1, _⟩
    · exact .inl ⟨_, _, e1, by simp [h0]⟩
    · exact .inl ⟨_, _, e1, by simp [h0]⟩
    · exact .inr e1

/-- **C90.** `Free` of a live pointer succeeds. -/
theorem free_total {cf : Conf} (hcf : cf.Ok) {ic D σ L} (h : Reach cf ic D σ L) {p n : Nat} (hp : (p, n) ∈ L) :
    ∃ σ', freePtr σ p = .ok σ' := by
  obtain ⟨G, fl, I⟩ := reach_inv hcf h
  obtain ⟨k, hk, hid, rfl, rfl⟩ := I.block hp
  obtain ⟨σ1, _, _, f1, _⟩ := free_ok I.st (mem_liveOf.2 ⟨k, hk, hid, rfl⟩) (Nat.le_refl _) (by omega)
  exact ⟨σ1, f1⟩

/-! ## Sizes that are reported -/

theorem sizes_of {σ G fl} (I : Inv σ G fl []) {k : Nat} (hk : k ∈ hsOf G) :
    requestedSize σ (σ.chunks k).ptr = .ok (σ.chunks k).req ∧ allocatedSize σ (σ.chunks k).ptr = .ok (σ.chunks k).size := by
  unfold requestedSize allocatedSize
  rw [I.handleOf hk (Nat.le_refl _) (by omega)]
  simp only [ok_bind]
  rw [chunkAt_ok (I.lt hk)]
  exact ⟨rfl, rfl⟩

/-- **C93.** `RequestedSize` gives back the size asked for, and `AllocatedSize` a size that is not smaller: the next multiple of
256, or a block that is less than twice that and less than `max_dead_bytes_per_chunk` larger. -/
theorem sizes_reported {cf : Conf} (hcf : cf.Ok) {ic D σ L} (h : Reach cf ic D σ L) {p n : Nat} (hp : (p, n) ∈ L) :
    requestedSize σ p = .ok n ∧ ∃ s, allocatedSize σ p = .ok s ∧ n ≤ s ∧ 256 ∣ s ∧
      (s < 2 * ((n + 255) / 256 * 256) ∨ s = (n + 255) / 256 * 256) ∧
      ((s : Int) - ((n + 255) / 256 * 256 : Nat) < cf.maxDead) := by
  obtain ⟨G, fl, I⟩ := reach_inv hcf h
  obtain ⟨k, hk, hid, rfl, rfl⟩ := I.block hp
  obtain ⟨s1, s2⟩ := sizes_of I.st.good.inv hk
  obtain ⟨g, hg, _, _, _, _, a4, _⟩ := I.st.good.inv.place hk
  have w := I.st.waste _ (mem_liveOf.2 ⟨k, hk, hid, rfl⟩)
  simp only at w
  exact ⟨s1, _, s2, (I.st.good.inv.req k hk hid).2, a4, w.2⟩

theorem sum_liveL (cs : Nat → Chunk) (l : List Nat) : ((liveL cs l).map fun x => x.2.2).sum = (l.map (weight cs)).sum := by
  induction l with
  | nil => rfl
  | cons a l ih =>
    by_cases e : (cs a).id = -1
    · rw [liveL_free e, ih]; simp [weight, e]
    · rw [liveL_used e]
      simp only [List.map_cons, List.sum_cons, ih]
      simp [weight, e]

/-- What `AllocatedSize` gives, 0 when it fails. -/
def sizeOr0 (σ : Arena) (p : Nat) : Nat :=
  match allocatedSize σ p with
  | .ok s => s
  | _ => 0

/-- **C93.** The bytes in use are the sum of the sizes of the live blocks, and the memory held is the sum of what the device gave
and never more than the limit. -/
theorem used_is_sum {cf : Conf} (hcf : cf.Ok) {ic D σ L} (h : Reach cf ic D σ L) :
    σ.used = (L.map fun x => sizeOr0 σ x.1).sum ∧ σ.total = (σ.regions.map (·.size)).sum ∧ σ.used ≤ σ.total ∧ σ.total ≤ cf.limit := by
  obtain ⟨G, fl, I⟩ := reach_inv hcf h
  have hu : σ.used = ((hsOf G).map (weight σ.chunks)).sum := I.st.good.inv.used
  have key : ((liveOf σ.chunks G).map fun x => sizeOr0 σ x.1) = (liveOf σ.chunks G).map fun x => x.2.2 := by
    apply List.map_congr_left
    intro x hx
    obtain ⟨k, hk, hid, rfl⟩ := mem_liveOf.1 hx
    simp only [sizeOr0, (sizes_of I.st.good.inv hk).2]
  have ht : σ.total = (σ.regions.map (·.size)).sum := by
    rw [I.st.good.inv.total, I.st.good.inv.regs, List.map_map]
    rfl
  refine ⟨?_, ht, ?_, I.st.total⟩
  · have h1 := (I.live.map (fun x : Nat × Nat => sizeOr0 σ x.1)).sum_nat
    rw [h1, List.map_map, hu, ← sum_liveL]
    exact congrArg List.sum key.symm
  · rw [hu, I.st.good.inv.total]
    have hg := I.st.good.inv.geo
    have hb : ∀ G : Ghost, (∀ g ∈ G, Geo σ.chunks g) → ((hsOf G).map (weight σ.chunks)).sum ≤ (G.map (·.1.size)).sum := by
      intro G
      induction G with
      | nil => intro _; simp [hsOf]
      | cons g G ih =>
        intro hg
        rw [hsOf_cons, List.map_append, List.sum_append, List.map_cons, List.sum_cons]
        refine Nat.add_le_add ?_ (ih (fun x hx => hg x (by simp [hx])))
        have hc := (hg g (by simp)).chain
        have : ∀ (hs : List Nat) (p : Nat) pr nx e, Chain σ.chunks p pr hs nx e → p + (hs.map (weight σ.chunks)).sum ≤ e := by
          intro hs
          induction hs with
          | nil => intro p pr nx e h; simp; exact Nat.le_of_eq h
          | cons a hs ih =>
            intro p pr nx e h
            have := ih _ _ _ _ h.2.2.2.2.2
            have hw : weight σ.chunks a ≤ (σ.chunks a).size := by unfold weight; split <;> omega
            simp only [List.map_cons, List.sum_cons]
            omega
        have := this _ _ _ _ _ hc
        omega
    exact hb G hg

/-! ## Memory that is used again -/

/-- An interval of memory that the arena holds and in which there is no live block. -/
def Vacant (σ : Arena) (L : List (Nat × Nat)) (x y : Nat) : Prop :=
  ∃ r ∈ σ.regions, r.base ≤ x ∧ x < y ∧ y ≤ r.base + r.size ∧
    ∀ p n s, (p, n) ∈ L → allocatedSize σ p = .ok s → p + s ≤ x ∨ y ≤ p

theorem chain_vacant {cs : Nat → Chunk} {x y : Nat} : ∀ {hs p pr nx e}, Chain cs p pr hs nx e → Adj cs hs → p ≤ x → x < y → y ≤ e →
    (∀ h ∈ hs, (cs h).id ≠ -1 → (cs h).ptr + (cs h).size ≤ x ∨ y ≤ (cs h).ptr) →
    ∃ h ∈ hs, (cs h).id = -1 ∧ (cs h).ptr ≤ x ∧ y ≤ (cs h).ptr + (cs h).size := by
  intro hs
  induction hs with
  | nil => intro p pr nx e h _ h1 h2 h3 _; have : p = e := h; omega
  | cons a hs ih =>
    intro p pr nx e h hA h1 h2 h3 hv
    obtain ⟨c1, c2, c3, c4, c5, c6⟩ := h
    unfold Adj at hA
    by_cases hx : p + (cs a).size ≤ x
    · obtain ⟨h, b1, b2⟩ := ih c6 hA.tail hx h2 h3 (fun k hk => hv k (by simp [hk]))
      exact ⟨h, by simp [b1], b2⟩
    · have hid : (cs a).id = -1 := by
        by_contra hid
        have := hv a (by simp) hid
        omega
      refine ⟨a, by simp, hid, by omega, ?_⟩
      by_contra hy
      cases hs with
      | nil =>
        have : p + (cs a).size = e := c6
        omega
      | cons b hs =>
        rw [List.isChain_cons_cons] at hA
        obtain ⟨d1, _, _, d4, _⟩ := c6
        rcases hA.1 with h | h
        · exact h hid
        · have := hv b (by simp) h
          omega

/-- An interval without live blocks is inside of one free chunk. -/
theorem vacant_chunk {cf D σ L G fl} (I : RInv cf D σ L G fl) {x y : Nat} (hv : Vacant σ L x y) :
    ∃ h ∈ hsOf G, (σ.chunks h).id = -1 ∧ (σ.chunks h).ptr ≤ x ∧ y ≤ (σ.chunks h).ptr + (σ.chunks h).size := by
  obtain ⟨r, hr, h1, h2, h3, h4⟩ := hv
  rw [I.st.good.inv.regs, List.mem_map] at hr
  obtain ⟨g, hg, rfl⟩ := hr
  obtain ⟨h, a1, a2⟩ := chain_vacant (I.st.good.inv.geo g hg).chain (I.st.good.coal g hg) h1 h2 h3 (by
    intro k hk hid
    have hkG := mem_hsOf.2 ⟨g, hg, hk⟩
    exact h4 _ _ _ (I.block' hkG hid) (sizes_of I.st.good.inv hkG).2)
  exact ⟨h, mem_hsOf.2 ⟨g, hg, a1⟩, a2⟩

theorem chunk_vacant {cf D σ L G fl} (I : RInv cf D σ L G fl) {h : Nat} (hh : h ∈ hsOf G) (hid : (σ.chunks h).id = -1) :
    Vacant σ L (σ.chunks h).ptr ((σ.chunks h).ptr + (σ.chunks h).size) := by
  obtain ⟨g, hg, _, a1, a2, a3, _⟩ := I.st.good.inv.place hh
  refine ⟨g.1, by rw [I.st.good.inv.regs]; exact List.mem_map.2 ⟨g, hg, rfl⟩, a1, by omega, a2, ?_⟩
  intro p n s hp hs
  obtain ⟨k, hk, hkid, rfl, rfl⟩ := I.block hp
  rw [(sizes_of I.st.good.inv hk).2] at hs
  simp only [Out.ok.injEq] at hs
  subst hs
  have hne : h ≠ k := fun e => hkid (by rw [← e]; exact hid)
  have := I.st.good.inv.apart hh hk hne
  omega

/-- When a free chunk is large enough the device is not asked. -/
theorem alloc_nodev {cf : Conf} (hcf : cf.Ok) {σ G fl} (S : St cf σ G fl) {num : Nat} (h0 : 0 < num) (hn : num + 255 < 2 ^ 64) {h : Nat}
    (hh : h ∈ hsOf G) (hid : (σ.chunks h).id = -1) (hs : rounded num ≤ (σ.chunks h).size) (dev dev' : Nat → Nat → Ans) :
    alloc cf dev σ num = alloc cf dev' σ num := by
  obtain ⟨r1, r2, r3⟩ := rounded_facts hn
  rcases findChunk_cases hcf S.good r3 h0 r1 with ⟨e1, e2⟩ | ⟨k, σ', G', fl', s, e1, _⟩
  · have := e2 h hh hid
    omega
  · rw [alloc_take h0 e1, alloc_take h0 e1]

theorem alloc_vacant {cf : Conf} (hcf : cf.Ok) {D σ L G fl} (I : RInv cf D σ L G fl) {num : Nat} (h0 : 0 < num) (hn : num + 255 < 2 ^ 64)
    {x y : Nat} (hv : Vacant σ L x y) (hs : (num + 255) / 256 * 256 ≤ y - x) (dev : Nat → Nat → Ans) :
    ∃ p σ', alloc cf dev σ num = .ok (.ptr p, σ') ∧ σ'.extensions = σ.extensions ∧ σ'.total = σ.total ∧
      (∃ h ∈ hsOf G, (σ.chunks h).id = -1 ∧ (σ.chunks h).ptr = p ∧ rounded num ≤ (σ.chunks h).size ∧
          ∀ h' ∈ hsOf G, (σ.chunks h').id = -1 → rounded num ≤ (σ.chunks h').size →
            (σ.chunks h).size < (σ.chunks h').size ∨ ((σ.chunks h).size = (σ.chunks h').size ∧ (σ.chunks h).ptr ≤ (σ.chunks h').ptr)) := by
  obtain ⟨h, a1, a2, a3, a4⟩ := vacant_chunk I hv
  have req := rounded_eq hn
  have hfit : rounded num ≤ (σ.chunks h).size := by omega
  rw [alloc_nodev hcf I.st h0 hn a1 a2 hfit dev (fun _ _ => .raises)]
  have hd : DevOk (fun _ _ => .raises) σ := ⟨by simp, by simp⟩
  rcases alloc_cases hcf I.st hd h0 hn with ⟨σ1, G', fl', p', s, e1, _, _, _, hc⟩ | ⟨c, e1, _, hc, _⟩ | ⟨e1, _, _, _, hc⟩
  · rcases hc with ⟨_, _, c3, c4, c5⟩ | ⟨hc, _⟩
    · exact ⟨p', σ1, e1, c3, c4, c5⟩
    · have := hc h a1 a2; omega
  · have := hc h a1 a2; omega
  · have := hc h a1 a2; omega

/-- **C91.** When an interval of the memory held is without live blocks and as long as the request rounded up to 256, the request
succeeds without asking the device, whatever the history of calls. -/
theorem vacant_reused {cf : Conf} (hcf : cf.Ok) {ic D σ L} (h : Reach cf ic D σ L) {num : Nat} (h0 : 0 < num) (hn : num + 255 < 2 ^ 64)
    {x y : Nat} (hv : Vacant σ L x y) (hs : (num + 255) / 256 * 256 ≤ y - x) (dev : Nat → Nat → Ans) :
    ∃ p σ', alloc cf dev σ num = .ok (.ptr p, σ') ∧ σ'.extensions = σ.extensions ∧ σ'.total = σ.total := by
  obtain ⟨G, fl, I⟩ := reach_inv hcf h
  obtain ⟨p, σ', e1, e2, e3, _⟩ := alloc_vacant hcf I h0 hn hv hs dev
  exact ⟨p, σ', e1, e2, e3⟩

/-- **C91.** A region without live blocks can be handed out whole: freed neighbours have been joined. -/
theorem region_reused {cf : Conf} (hcf : cf.Ok) {ic D σ L} (h : Reach cf ic D σ L) {r : Region} (hr : r ∈ σ.regions)
    (hfree : ∀ p n, (p, n) ∈ L → p < r.base ∨ r.base + r.size ≤ p) {num : Nat} (h0 : 0 < num) (hn : num ≤ r.size)
    (dev : Nat → Nat → Ans) : ∃ p σ', alloc cf dev σ num = .ok (.ptr p, σ') ∧ σ'.extensions = σ.extensions ∧ σ'.total = σ.total := by
  obtain ⟨G, fl, I⟩ := reach_inv hcf h
  have hr' := hr
  rw [I.st.good.inv.regs, List.mem_map] at hr'
  obtain ⟨g, hg, rfl⟩ := hr'
  have G0 := I.st.good.inv.geo g hg
  have hd : 256 ∣ g.1.size := by
    have hc : ∀ (hs : List Nat) (p : Nat) pr nx e, Chain σ.chunks p pr hs nx e → 256 ∣ e - p := by
      intro hs
      induction hs with
      | nil => intro p pr nx e h; have : p = e := h; subst this; simp
      | cons a hs ih =>
        intro p pr nx e h
        have := ih _ _ _ _ h.2.2.2.2.2
        have h5 := h.2.2.2.2.1
        have hle := h.2.2.2.2.2.le
        omega
    have := hc _ _ _ _ _ G0.chain
    rwa [Nat.add_sub_cancel_left] at this
  have htop := G0.top
  refine vacant_reused hcf h h0 (by omega) (x := g.1.base) (y := g.1.base + g.1.size) ⟨g.1, hr, Nat.le_refl _, ?_, Nat.le_refl _, ?_⟩
    (by omega) dev
  · have := G0.size; omega
  · intro p n s hp hs
    obtain ⟨k, hk, hkid, rfl, rfl⟩ := I.block hp
    rw [(sizes_of I.st.good.inv hk).2] at hs
    simp only [Out.ok.injEq] at hs
    subst hs
    obtain ⟨g', hg', _, a1, a2, a3, _⟩ := I.st.good.inv.place hk
    by_cases e : g' = g
    · subst e
      have := hfree _ _ hp
      omega
    · have key : ∀ G : Ghost, G.Pairwise (fun a b => a.1.base + a.1.size ≤ b.1.base) → g ∈ G → g' ∈ G →
          g.1.base + g.1.size ≤ g'.1.base ∨ g'.1.base + g'.1.size ≤ g.1.base := by
        intro G
        induction G with
        | nil => intro _ h; simp at h
        | cons a G ih =>
          intro ho h1 h2
          obtain ⟨o1, o2⟩ := List.pairwise_cons.1 ho
          rcases List.mem_cons.1 h1 with h1 | h1 <;> rcases List.mem_cons.1 h2 with h2 | h2
          · exact absurd (h2.trans h1.symm) e
          · left; rw [h1]; exact o1 g' h2
          · right; rw [h2]; exact o1 g h1
          · exact ih o2 h1 h2
      have := key G I.st.good.inv.order hg hg'
      omega

/-- A largest interval without live blocks. -/
def Gap (σ : Arena) (L : List (Nat × Nat)) (x y : Nat) : Prop :=
  Vacant σ L x y ∧ ∀ x' y', Vacant σ L x' y' → x' ≤ x → y ≤ y' → x' = x ∧ y' = y

theorem gap_iff {cf D σ L G fl} (I : RInv cf D σ L G fl) {x y : Nat} :
    Gap σ L x y ↔ ∃ h ∈ hsOf G, (σ.chunks h).id = -1 ∧ (σ.chunks h).ptr = x ∧ (σ.chunks h).ptr + (σ.chunks h).size = y := by
  constructor
  · rintro ⟨hv, hm⟩
    obtain ⟨h, a1, a2, a3, a4⟩ := vacant_chunk I hv
    obtain ⟨e1, e2⟩ := hm _ _ (chunk_vacant I a1 a2) a3 a4
    exact ⟨h, a1, a2, e1, e2⟩
  · rintro ⟨h, a1, a2, rfl, rfl⟩
    refine ⟨chunk_vacant I a1 a2, ?_⟩
    intro x' y' hv h1 h2
    obtain ⟨k, b1, b2, b3, b4⟩ := vacant_chunk I hv
    have hpos : 0 < (σ.chunks h).size := by
      obtain ⟨_, _, _, _, _, h, _⟩ := I.st.good.inv.place a1
      exact h
    by_cases e : h = k
    · subst e; omega
    · have := I.st.good.inv.apart a1 b1 e
      omega

/-- **C91.** Best fit: a block is taken from the start of the smallest gap that is large enough, of those of one size from the
lowest; the device is asked only when there is no such gap, and the block is then the start of what it gave. -/
theorem best_fit {cf : Conf} (hcf : cf.Ok) {ic D σ L dev} (h : Reach cf ic D σ L) (hd : DevOk dev σ) {num p : Nat} {σ' : Arena}
    (h0 : 0 < num) (hn : num + 255 < 2 ^ 64) (e : alloc cf dev σ num = .ok (.ptr p, σ')) :
    (∃ y, Gap σ L p y ∧ (num + 255) / 256 * 256 ≤ y - p ∧ σ'.extensions = σ.extensions ∧
      ∀ x' y', Gap σ L x' y' → (num + 255) / 256 * 256 ≤ y' - x' → y - p < y' - x' ∨ (y - p = y' - x' ∧ p ≤ x')) ∨
    ((∀ x y, Vacant σ L x y → y - x < (num + 255) / 256 * 256) ∧ σ'.extensions = σ.extensions + 1 ∧
      ∃ k b, dev k b = .mem p ∧ num ≤ b) := by
  obtain ⟨G, fl, I⟩ := reach_inv hcf h
  have req := rounded_eq hn
  have r1 := (rounded_facts hn).1
  rcases alloc_cases hcf I.st hd h0 hn with ⟨σ1, G', fl', p', s, e1, _, _, _, hc⟩ | ⟨c, e1, _, hc, _⟩ | ⟨e1, _, _, _, hc⟩
  · rw [e1] at e
    simp only [Out.ok.injEq, Prod.mk.injEq, Got.ptr.injEq] at e
    obtain ⟨rfl, rfl⟩ := e
    rcases hc with ⟨_, _, c3, _, k, hk, k1, k2, k3, k4⟩ | ⟨hc, b, k, c1, c2, _, _, _, _, c6, _⟩
    · left
      subst k2
      refine ⟨(σ.chunks k).ptr + (σ.chunks k).size, (gap_iff I).2 ⟨k, hk, k1, rfl, rfl⟩, by omega, c3, ?_⟩
      intro x' y' hg hl
      obtain ⟨k', m1, m2, rfl, rfl⟩ := (gap_iff I).1 hg
      have := k4 k' m1 m2 (by omega)
      omega
    · right
      refine ⟨?_, c6, k, b, c1, by omega⟩
      intro x y hv
      obtain ⟨k', m1, m2, m3, m4⟩ := vacant_chunk I hv
      have := hc k' m1 m2
      omega
  · rw [e1] at e; simp at e
  · rw [e1] at e; simp at e

/-- **C91.** `Alloc` fails only when there is no gap that is large enough and either the limit does not allow it or the device
refused; nothing is lost by a failure. -/
theorem failure_justified {cf : Conf} (hcf : cf.Ok) {ic D σ L dev} (h : Reach cf ic D σ L) (hd : DevOk dev σ) {num : Nat} {σ' : Arena}
    (h0 : 0 < num) (hn : num + 255 < 2 ^ 64) (e : alloc cf dev σ num = .ok (.noMemory, σ')) :
    (∀ x y, Vacant σ L x y → y - x < (num + 255) / 256 * 256) ∧
    (cf.limit - σ.total < (num + 255) / 256 * 256 ∨ ∃ k b, num ≤ b ∧ b + σ.total ≤ cf.limit ∧ ∀ a, dev k b ≠ .mem a) ∧
    ∃ c, σ' = { σ with cur := c } := by
  obtain ⟨G, fl, I⟩ := reach_inv hcf h
  have req := rounded_eq hn
  have r1 := (rounded_facts hn).1
  rcases alloc_cases hcf I.st hd h0 hn with ⟨σ1, G', fl', p', s, e1, _⟩ | ⟨c, e1, _, hc, hw⟩ | ⟨e1, _⟩
  · rw [e1] at e; simp at e
  · rw [e1] at e
    simp only [Out.ok.injEq, Prod.mk.injEq, true_and] at e
    subst e
    refine ⟨?_, ?_, c, rfl⟩
    · intro x y hv
      obtain ⟨k', m1, m2, m3, m4⟩ := vacant_chunk I hv
      have := hc k' m1 m2
      omega
    · have hS := I.st.total
      have h256 := (rounded_facts hn).2.2
      rcases hw with ⟨hw, _⟩ | ⟨k, b, w1, w2, _, w4⟩
      · left
        unfold Arena.avail at hw
        omega
      · right
        unfold Arena.avail at w2
        exact ⟨k, b, by omega, by omega, w4⟩
  · rw [e1] at e; simp at e

/-! ## Pointers that are not live -/

/-- **C92 (partial).** Within the memory held, `Free` of a pointer that is not in the first 256 bytes of a live block fails and so
changes nothing: in particular the second `Free` of a pointer, as long as the place has not been handed out again. -/
theorem free_dead_partial {cf : Conf} (hcf : cf.Ok) {ic D σ L} (h : Reach cf ic D σ L) {p : Nat} {r : Region} (hr : r ∈ σ.regions)
    (h1 : r.base ≤ p) (h2 : p < r.base + r.size) (hno : ∀ q n, (q, n) ∈ L → p < q ∨ q + 256 ≤ p) :
    freePtr σ p = .throws := by
  obtain ⟨G, fl, I⟩ := reach_inv hcf h
  rw [I.st.good.inv.regs, List.mem_map] at hr
  obtain ⟨g, hg, rfl⟩ := hr
  have G0 := I.st.good.inv.geo g hg
  have hp := G0.pos
  unfold freePtr
  rw [if_neg (by omega), I.st.good.inv.getHandle hg h1 h2]
  simp only [ok_bind]
  cases hh : g.1.handles ((p - g.1.base) / 256) with
  | none => rfl
  | some k =>
    obtain ⟨k1, k2⟩ := G0.hget _ _ hh
    have hkG := mem_hsOf.2 ⟨g, hg, k1⟩
    have hid : (σ.chunks k).id = -1 := by
      by_contra hid
      have := hno _ _ (I.block' hkG hid)
      omega
    simp only
    unfold freeChunk
    rw [chunkAt_ok (I.st.good.inv.lt hkG)]
    simp only [ok_bind]
    rw [if_pos (by simp [Chunk.inUse, hid])]

/-- **C92 (refuted).** A pointer into the first 256 bytes of a live block frees that block. -/
theorem interior_pointer_refuted {cf : Conf} (hcf : cf.Ok) {ic D σ L} (h : Reach cf ic D σ L) {p n d : Nat} (hp : (p, n) ∈ L)
    (hd : d < 256) : ∃ σ', freePtr σ (p + d) = .ok σ' ∧ Reach cf ic D σ' (L.erase (p, n)) := by
  obtain ⟨G, fl, I⟩ := reach_inv hcf h
  obtain ⟨k, hk, hid, rfl, rfl⟩ := I.block hp
  obtain ⟨g, hg, hkg, a1, a2, a3, a4, _⟩ := I.st.good.inv.place hk
  have hpos := (I.st.good.inv.geo g hg).pos
  have e : freePtr σ ((σ.chunks k).ptr + d) = freePtr σ (σ.chunks k).ptr := by
    unfold freePtr
    rw [if_neg (by omega), if_neg (by omega), I.st.good.inv.handleOf hk (by omega) (by omega),
      I.st.good.inv.handleOf hk (Nat.le_refl _) (by omega)]
  obtain ⟨σ', e'⟩ := free_total hcf h hp
  exact ⟨σ', by rw [e, e'], .free h hp e'⟩

/-! ## A call that does not return -/

/-- What the size of the next region is when the device never refuses. -/
theorem never_refused {cf : Conf} (hcf : cf.Ok) {ic D σ L} (hic : 0 < ic) (hl : 0 < cf.limit)
    (hD : ∀ dev, D dev → ∀ k b, b ≤ cf.limit → ∃ a, dev k b = .mem a) (h : Reach cf ic D σ L) :
    cf.pow2 = false ∨ (0 < σ.cur ∧ σ.cur ≤ 2 ^ 63) ∨ cf.limit - σ.total < 256 := by
  have hlim := hcf.limit
  induction h with
  | init =>
    by_cases hi : min cf.limit ic + 255 < 2 ^ 64
    · obtain ⟨r1, r2, _⟩ := rounded_facts hi
      right; left
      simp only [Conf.init]
      omega
    · omega
  | @alloc σ L dev num p σ' hR hDd hd h0 hn e ih =>
    obtain ⟨G, fl, I⟩ := reach_inv hcf hR
    obtain ⟨r1, r2, r3⟩ := rounded_facts hn
    rcases alloc_cases hcf I.st hd h0 hn with ⟨σ1, G', fl', p', s, e1, _, _, _, hc⟩ | ⟨c, e1, _⟩ | ⟨e1, _⟩
    · rw [e1] at e
      simp only [Out.ok.injEq, Prod.mk.injEq, Got.ptr.injEq] at e
      obtain ⟨rfl, rfl⟩ := e
      rcases hc with ⟨_, c2, _, c4, _⟩ | ⟨_, b, k, c1, c2, c3, _, _, c5, _, c7⟩
      · rw [c2, c4]; exact ih
      · have hav : σ.avail cf ≤ cf.limit - σ.total := by unfold Arena.avail; omega
        have hav2 : cf.limit - σ.total < σ.avail cf + 256 := by unfold Arena.avail; omega
        rcases c7 (hD dev hDd) with ⟨a, _⟩ | ⟨a, b'⟩ | ⟨a, b'⟩
        · exact .inl a
        · right; left; omega
        · rcases ih with ih | ih | ih
          · exact .inl ih
          · by_cases hle : σ.cur ≤ σ.avail cf
            · right; left
              rw [a, Nat.mod_eq_of_lt (by omega)]
              omega
            · right; right
              rw [c5, b', Nat.min_eq_right (by omega)]
              omega
          · omega
    · rw [e1] at e; simp at e
    · rw [e1] at e; simp at e
  | @failed σ L dev num σ' hR hDd hd h0 hn e ih =>
    obtain ⟨G, fl, I⟩ := reach_inv hcf hR
    rcases alloc_cases hcf I.st hd h0 hn with ⟨σ1, G', fl', p', s, e1, _⟩ | ⟨c, e1, _, _, hw⟩ | ⟨e1, _⟩
    · rw [e1] at e; simp at e
    · rw [e1] at e
      simp only [Out.ok.injEq, Prod.mk.injEq, true_and] at e
      subst e
      rcases hw with ⟨_, hw⟩ | ⟨k, b, _, w2, _, w4⟩
      · rw [hw]; exact ih
      · obtain ⟨a, ha⟩ := hD dev hDd k b (by unfold Arena.avail at w2; omega)
        exact absurd ha (w4 a)
    · rw [e1] at e; simp at e
  | @free σ L p num σ' hR hp e ih =>
    obtain ⟨G, fl, I⟩ := reach_inv hcf hR
    obtain ⟨k, hk, hid, rfl, rfl⟩ := I.block hp
    obtain ⟨σ1, _, _, f1, _, _, _, _, f6, f7, _⟩ := free_ok I.st (mem_liveOf.2 ⟨k, hk, hid, rfl⟩) (Nat.le_refl _) (by omega)
    rw [f1] at e
    simp only [Out.ok.injEq] at e
    subst e
    rw [f6, f7]
    exact ih

/-- **C90 (partial).** With a device that never refuses a request below the limit, every call returns. -/
theorem alloc_returns_partial {cf : Conf} (hcf : cf.Ok) {ic D σ L dev} (hic : 0 < ic) (hl : 0 < cf.limit)
    (hD : ∀ dev, D dev → ∀ k b, b ≤ cf.limit → ∃ a, dev k b = .mem a) (h : Reach cf ic D σ L) (hd : DevOk dev σ) {num : Nat}
    (hn : num + 255 < 2 ^ 64) : ∃ g σ', alloc cf dev σ num = .ok (g, σ') ∧ (g = .null ↔ num = 0) := by
  obtain ⟨G, fl, I⟩ := reach_inv hcf h
  rcases alloc_total hcf h hd hn with h1 | h1
  · exact h1
  · exfalso
    by_cases h0 : num = 0
    · subst h0
      rw [alloc_zero] at h1
      simp at h1
    · obtain ⟨r1, r2, r3⟩ := rounded_facts hn
      rcases alloc_cases hcf I.st hd (by omega) hn with ⟨σ1, G', fl', p', s, e1, _⟩ | ⟨c, e1, _⟩ | ⟨_, a1, a2, a3, _⟩
      · rw [e1] at h1; simp at h1
      · rw [e1] at h1; simp at h1
      · unfold Arena.avail at a3
        rcases never_refused hcf hic hl hD h with b | b | b
        · rw [b] at a1; simp at a1
        · omega
        · omega

/-- The arena before anything was handed out, after `k` requests that the device refused. -/
def starved (cf : Conf) (k : Nat) : Arena := { cf.init (2 ^ 20) with cur := 2 ^ (20 + k) % 2 ^ 64 }

theorem search_empty (σ : Arena) (hb : ∀ b, σ.bins b = []) (r : Nat) : ∀ bs, searchBins σ r bs = .ok none := by
  intro bs
  induction bs with
  | nil => rfl
  | cons b bs ih =>
    rw [searchBins, hb b]
    exact ih

theorem starved_find (cf : Conf) (k : Nat) : findChunk cf (starved cf k) (rounded 1) 1 = .ok (none, starved cf k) := by
  unfold findChunk
  rw [search_empty _ (fun _ => rfl)]
  rfl

theorem starved_avail {cf : Conf} (hcf : cf.Ok) (k : Nat) :
    (cf.limit + 2 ^ 64 - (starved cf k).total % 2 ^ 64) % 2 ^ 64 / 256 * 256 = cf.limit / 256 * 256 := by
  have hlim := hcf.limit
  have : (starved cf k).total = 0 := rfl
  rw [this]
  omega

theorem attempts_raises (cf : Conf) (need f k b : Nat) : attempts cf (fun _ _ => .raises) need (f + 1) k b = .ok none := rfl

theorem starved_step {cf : Conf} (hcf : cf.Ok) (hp : cf.pow2 = true) (hl : 256 ≤ cf.limit) {k : Nat} (hk : k < 44) :
    alloc cf (fun _ _ => .raises) (starved cf k) 1 = .ok (.noMemory, starved cf (k + 1)) := by
  have hr : rounded 1 = 256 := by decide
  have hcur : (starved cf k).cur = 2 ^ (20 + k) := by
    simp only [starved]
    exact Nat.mod_eq_of_lt (Nat.pow_lt_pow_right (by omega) (by omega))
  have hbig : 256 ≤ 2 ^ (20 + k) := by
    have : 2 ^ 8 ≤ 2 ^ (20 + k) := Nat.pow_le_pow_right (by omega) (by omega)
    omega
  refine alloc_no (by omega) (starved_find cf k) ?_
  rw [hr]
  unfold extend
  rw [starved_avail hcf, if_neg (by omega), hp]
  simp only [if_true]
  rw [hcur, doubling, if_neg (by omega)]
  simp only [ok_bind, pure_ok, Bool.false_eq_true, if_false]
  rw [attempts_raises]
  have e : 2 ^ (20 + (k + 1)) = 2 ^ (20 + k) * 2 := by rw [← Nat.add_assoc, Nat.pow_succ]
  simp only [ok_bind, starved, e]

/-- **C90 (refuted).** After 44 requests that the device refused, `Alloc` no longer returns, whatever the device then does: the size
of the next region has been doubled to 0 modulo `2^64`. -/
theorem hang_refuted {cf : Conf} (hcf : cf.Ok) (hp : cf.pow2 = true) (hl : 2 ^ 20 ≤ cf.limit) (D : (Nat → Nat → Ans) → Prop)
    (hD : D fun _ _ => .raises) : ∃ σ, Reach cf (2 ^ 20) D σ [] ∧ ∀ dev, alloc cf dev σ 1 = .hang := by
  have hlim := hcf.limit
  have hreach : ∀ k, k ≤ 44 → Reach cf (2 ^ 20) D (starved cf k) [] := by
    intro k
    induction k with
    | zero =>
      intro _
      have : starved cf 0 = cf.init (2 ^ 20) := by
        have hr : rounded (min cf.limit (2 ^ 20)) = 2 ^ (20 + 0) % 2 ^ 64 := by
          rw [Nat.min_eq_right hl]
          decide
        simp only [starved, Conf.init, hr]
      rw [this]
      exact .init
    | succ k ih =>
      intro hk
      exact .failed (ih (by omega)) hD ⟨by simp, by simp⟩ (by omega) (by omega) (starved_step hcf hp (by omega) (by omega))
  refine ⟨starved cf 44, hreach 44 (Nat.le_refl _), ?_⟩
  intro dev
  have hr : rounded 1 = 256 := by decide
  refine alloc_stuck (by omega) (starved_find cf 44) ?_
  rw [hr]
  unfold extend
  rw [starved_avail hcf, if_neg (by omega), hp]
  simp only [if_true]
  have hz : (starved cf 44).cur = 0 := by simp [starved]
  rw [hz, doubling_zero 256 (by omega)]
  rfl

end Verif.Bfc
