import Verif.CedarAllocProps
/-
Taking, giving back and finding empty slots.
-/
namespace Verif.Cedar

def snx (s : St) (e : Nat) : Nat := (-(s.arr e).check).toNat
def spv (s : St) (e : Nat) : Nat := (-(s.arr e).base).toNat

/-- Which blocks belong to which list. -/
def member (s : St) : Lst → Nat → Prop
  | .full, b => b = 0 ∨ (b < s.size / 256 ∧ (s.blk b).num = 0)
  | .closed, b => 0 < b ∧ b < s.size / 256 ∧
      ((s.blk b).num = 1 ∨ (2 ≤ (s.blk b).num ∧ (s.blk b).trial = 1))
  | .opened, b => 0 < b ∧ b < s.size / 256 ∧ 2 ≤ (s.blk b).num ∧ (s.blk b).trial = 0

/-- The empty slots of a block form a ring, and `num` counts them (in the first block, with the
root). -/
def BlockOK (s : St) (b : Nat) : Prop :=
  ∃ l, Ring (snx s) (spv s) l ∧ (∀ e, e ∈ l ↔ e ≠ 0 ∧ e / 256 = b ∧ (s.arr e).check < 0) ∧
    (s.blk b).num = l.length + (if b = 0 then 1 else 0) ∧ (0 < b → l ≠ [] → (s.blk b).ehead ∈ l)

structure AInv (s : St) : Prop where
  size_mod : s.size % 256 = 0
  size_pos : 256 ≤ s.size
  blocks : ∀ b < s.size / 256, BlockOK s b
  trial : ∀ b, (s.blk b).trial ≤ 1
  lists : Lists s (member s)
  fresh : ∀ b, s.size / 256 ≤ b → (s.blk b).num = 256 ∧ (s.blk b).trial = 0

theorem AInv.lt_size {s : St} (h : AInv s) {e : Nat} : e / 256 < s.size / 256 ↔ e < s.size := by
  have := h.size_mod; omega

theorem BlockOK.congr {s s' : St} {b : Nat} (h : BlockOK s b)
    (ha : ∀ m, m ≠ 0 → m / 256 = b → s'.arr m = s.arr m)
    (hn : (s'.blk b).num = (s.blk b).num) (he : (s'.blk b).ehead = (s.blk b).ehead) :
    BlockOK s' b := by
  obtain ⟨l, r, m, n, e⟩ := h
  refine ⟨l, ?_, ?_, by rw [hn, n], by rw [he]; exact e⟩
  · refine r.congr ?_ ?_ <;>
    · intro x hx
      have := (m x).mp hx
      simp only [snx, spv, ha x this.1 this.2.1]
  · intro x
    rw [m x]
    constructor
    · rintro ⟨h1, h2, h3⟩; exact ⟨h1, h2, by rw [ha x h1 h2]; exact h3⟩
    · rintro ⟨h1, h2, h3⟩; exact ⟨h1, h2, by rw [ha x h1 h2] at h3; exact h3⟩

/-- A change inside one block. -/
theorem AInv.change {s s' : St} (h : AInv s) {b : Nat} (hs : s'.size = s.size)
    (ha : ∀ m, m ≠ 0 → m / 256 ≠ b → s'.arr m = s.arr m)
    (hn : ∀ c, c ≠ b → (s'.blk c).num = (s.blk c).num)
    (he : ∀ c, c ≠ b → (s'.blk c).ehead = (s.blk c).ehead)
    (ht : ∀ c, c ≠ b → (s'.blk c).trial = (s.blk c).trial)
    (htb : (s'.blk b).trial ≤ 1) (hb : b < s.size / 256)
    (hok : BlockOK s' b) (hl : Lists s' (member s')) : AInv s' := by
  refine ⟨by rw [hs]; exact h.size_mod, by rw [hs]; exact h.size_pos, ?_, ?_, hl, ?_⟩
  · intro c hc
    by_cases hcb : c = b
    · rw [hcb]; exact hok
    · rw [hs] at hc
      exact (h.blocks c hc).congr (fun m hm hm' => ha m hm (by omega)) (hn c hcb) (he c hcb)
  · intro c
    by_cases hcb : c = b
    · rw [hcb]; exact htb
    · rw [ht c hcb]; exact h.trial c
  · intro c hc
    rw [hs] at hc
    have hcb : c ≠ b := by omega
    rw [hn c hcb, ht c hcb]; exact h.fresh c hc

/-- The lists only depend on links and heads. -/
theorem Lists.congr {s s' : St} {P : Lst → Nat → Prop} (h : Lists s P) (hn : bnx s' = bnx s)
    (hp : bpv s' = bpv s) (hh : s'.head = s.head) : Lists s' P :=
  ⟨fun l => by rw [hn, hp, hh]; exact h.circ l, h.disj⟩

section fields
variable (s : St) (b c x : Nat) (z : Int) (i : Nat) (n : Node)

theorem blk_setNum : (s.setNum b z).blk c = if c = b then { s.blk b with num := z } else s.blk c := rfl
theorem blk_setEhead : (s.setEhead b x).blk c =
    if c = b then { s.blk b with ehead := x } else s.blk c := rfl
theorem blk_setTrial : (s.setTrial b x).blk c =
    if c = b then { s.blk b with trial := x } else s.blk c := rfl
theorem blk_setReject : (s.setReject b z).blk c =
    if c = b then { s.blk b with reject := z } else s.blk c := rfl

theorem num_setEhead : ((s.setEhead b x).blk c).num = (s.blk c).num := by
  simp only [blk_setEhead]; split <;> simp_all
theorem trial_setEhead : ((s.setEhead b x).blk c).trial = (s.blk c).trial := by
  simp only [blk_setEhead]; split <;> simp_all
theorem bnx_setNum : bnx (s.setNum b z) = bnx s := by
  funext i; simp only [bnx, blk_setNum]; split <;> simp_all
theorem bpv_setNum : bpv (s.setNum b z) = bpv s := by
  funext i; simp only [bpv, blk_setNum]; split <;> simp_all
theorem bnx_setEhead : bnx (s.setEhead b x) = bnx s := by
  funext i; simp only [bnx, blk_setEhead]; split <;> simp_all
theorem bpv_setEhead : bpv (s.setEhead b x) = bpv s := by
  funext i; simp only [bpv, blk_setEhead]; split <;> simp_all
theorem bnx_setTrial : bnx (s.setTrial b x) = bnx s := by
  funext i; simp only [bnx, blk_setTrial]; split <;> simp_all
theorem bpv_setTrial : bpv (s.setTrial b x) = bpv s := by
  funext i; simp only [bpv, blk_setTrial]; split <;> simp_all
theorem bnx_setReject : bnx (s.setReject b z) = bnx s := by
  funext i; simp only [bnx, blk_setReject]; split <;> simp_all
theorem bpv_setReject : bpv (s.setReject b z) = bpv s := by
  funext i; simp only [bpv, blk_setReject]; split <;> simp_all
end fields

/-- Unlinking an empty slot: lines 530-531. -/
def unlink (s : St) (e : Nat) : St :=
  (s.setCheck (spv s e) (s.arr e).check).setBase (snx s e) (s.arr e).base

theorem unlink_base (s : St) (e m : Nat) :
    ((unlink s e).arr m).base = if m = snx s e then (s.arr e).base else (s.arr m).base := by
  simp only [unlink, St.setBase, St.setCheck, upd_apply]
  by_cases h : m = snx s e
  · simp [h]
  · simp only [h, if_false]; split <;> simp_all

theorem unlink_check (s : St) (e m : Nat) :
    ((unlink s e).arr m).check = if m = spv s e then (s.arr e).check else (s.arr m).check := by
  simp only [unlink, St.setBase, St.setCheck, upd_apply]
  by_cases h : m = snx s e
  · simp only [h, if_true]; split <;> simp_all
  · simp only [h, if_false]; split <;> simp_all

theorem node_ext {a b : Node} (h1 : a.base = b.base) (h2 : a.check = b.check) : a = b := by
  cases a; cases b; simp_all

/-- The ring without the slot `e`, for any state whose slots are those of `unlink` but for `e`. -/
theorem unlink_block {s s' : St} {b e : Nat} {t : List Nat} {nd : Node} {l : List Nat}
    (r : Ring (snx s) (spv s) (e :: t)) (hp : (e :: t).Perm l)
    (hm : ∀ x, x ∈ l ↔ x ≠ 0 ∧ x / 256 = b ∧ (s.arr x).check < 0)
    (ha : s'.arr = upd (unlink s e).arr e nd) (hnd : 0 ≤ nd.check) (ht : t ≠ []) :
    Ring (snx s') (spv s') t ∧
      (∀ x, x ∈ t ↔ x ≠ 0 ∧ x / 256 = b ∧ (s'.arr x).check < 0) := by
  have hd := List.nodup_cons.mp r.nodup
  have hme : ∀ x, x ∈ e :: t ↔ x ≠ 0 ∧ x / 256 = b ∧ (s.arr x).check < 0 :=
    fun x => hp.mem_iff.trans (hm x)
  have hne : ∀ x ∈ t, x ≠ e := by rintro x hx rfl; exact hd.1 hx
  refine ⟨(r.remove ht).congr ?_ ?_, ?_⟩
  · intro x hx
    simp only [snx, ha, upd_ne _ _ (hne x hx), unlink_check, upd_apply]
    split <;> simp_all [snx]
  · intro x hx
    simp only [spv, ha, upd_ne _ _ (hne x hx), unlink_base, upd_apply]
    split <;> simp_all [spv]
  · intro x
    by_cases hxe : x = e
    · subst hxe
      simp only [ha, upd_self]
      constructor
      · intro c; exact absurd c hd.1
      · rintro ⟨_, _, c⟩; omega
    · have hx := hme x
      simp only [List.mem_cons, hxe, false_or] at hx
      rw [hx, ha, upd_ne _ _ hxe, unlink_check]
      have hpm := (r.prev_mem (x := e) (by simp)).1
      have he := (hme e).mp (by simp)
      split
      · rename_i hxp
        have := (hme _).mp hpm
        rw [← hxp] at this
        tauto
      · rfl

/-- What an operation leaves alone: `ni` and all slots in use but those of `X`. -/
structure Keep (s s' : St) (X : Nat → Prop) : Prop where
  size : s'.size = s.size
  arr : ∀ m, ¬ X m → (m = 0 ∨ 0 ≤ (s.arr m).check) → s'.arr m = s.arr m
  empty : ∀ m, ¬ X m → ((s'.arr m).check < 0 ↔ (s.arr m).check < 0)

theorem takeSlot_spec {s : St} (h : AInv s) {e : Nat} (label src : Nat) (he0 : e ≠ 0)
    (hes : e < s.size) (hc : (s.arr e).check < 0) :
    AInv (takeSlot s e label src) ∧ Keep s (takeSlot s e label src) (· = e) ∧
      (takeSlot s e label src).ni = s.ni ∧
      (takeSlot s e label src).arr e = ⟨if label ≠ 0 then -1 else 0, src⟩ := by
  have hb := h.lt_size.mpr hes
  obtain ⟨l, r, hm, hnum, heh⟩ := h.blocks _ hb
  have hel : e ∈ l := (hm e).mpr ⟨he0, rfl, hc⟩
  obtain ⟨t, rt, pt⟩ := r.startAt hel
  have hlen : l.length = t.length + 1 := by rw [← pt.length_eq]; simp
  have hd := List.nodup_cons.mp rt.nodup
  have hme : ∀ x, x ∈ e :: t ↔ x ≠ 0 ∧ x / 256 = e / 256 ∧ (s.arr x).check < 0 :=
    fun x => pt.mem_iff.trans (hm x)
  have hpm := (hme _).mp (rt.prev_mem (x := e) (by simp)).1
  have hnm := (hme _).mp (rt.next_mem (x := e) (by simp)).1
  have hmem0 : ∀ x, s.head .closed = 0 → ¬ member s .closed x := by
    obtain ⟨L, _, m, c⟩ := h.lists.circ .closed
    intro x hx hc'
    rcases c with ⟨c, _⟩ | c
    · have := (m x).mpr hc'; simp [c] at this
    · have := (m _).mp c; rw [hx] at this; exact absurd this.1 (by simp)
  generalize hnd : (⟨if label ≠ 0 then -1 else 0, (src : Int)⟩ : Node) = nd
  have hndc : 0 ≤ nd.check := by rw [← hnd]; exact Int.natCast_nonneg src
  -- the slots do not depend on what happens to the lists
  have slots : ∀ s' : St, s'.size = s.size →
      (s'.arr = upd (unlink s e).arr e nd ∨ (t = [] ∧ s'.arr = upd s.arr e nd)) →
      Keep s s' (· = e) ∧ (∀ m, m ≠ 0 → m / 256 ≠ e / 256 → s'.arr m = s.arr m) := by
    rintro s' h1 (h2 | ⟨_, h2⟩)
    · refine ⟨⟨h1, ?_, ?_⟩, ?_⟩
      · intro m hme hm'
        rw [h2, upd_ne _ _ hme]
        refine node_ext ?_ ?_
        · rw [unlink_base, if_neg]
          rintro rfl
          rcases hm' with hm' | hm'
          · exact hnm.1 hm'
          · have := hnm.2.2; omega
        · rw [unlink_check, if_neg]
          rintro rfl
          rcases hm' with hm' | hm'
          · exact hpm.1 hm'
          · have := hpm.2.2; omega
      · intro m hme
        rw [h2, upd_ne _ _ hme, unlink_check]
        split
        · rename_i hx
          rw [hx]
          constructor
          · intro _; exact hpm.2.2
          · intro _; exact hc
        · rfl
      · intro m hm0 hmb
        have hme : m ≠ e := by rintro rfl; exact hmb rfl
        rw [h2, upd_ne _ _ hme]
        refine node_ext ?_ ?_
        · rw [unlink_base, if_neg]; rintro rfl; exact hmb hnm.2.1
        · rw [unlink_check, if_neg]; rintro rfl; exact hmb hpm.2.1
    · refine ⟨⟨h1, ?_, ?_⟩, ?_⟩
      · intro m hme _; rw [h2, upd_ne _ _ hme]
      · intro m hme; rw [h2, upd_ne _ _ hme]
      · intro m _ hmb
        have hme : m ≠ e := by rintro rfl; exact hmb rfl
        rw [h2, upd_ne _ _ hme]
  have ok : ∀ s' : St,
      (s'.arr = upd (unlink s e).arr e nd ∨ (t = [] ∧ s'.arr = upd s.arr e nd)) →
      (s'.blk (e / 256)).num = (s.blk (e / 256)).num - 1 →
      (0 < e / 256 → t ≠ [] → (s'.blk (e / 256)).ehead ∈ t) → BlockOK s' (e / 256) := by
    intro s' h2 h3 h4
    by_cases ht : t = []
    · refine ⟨[], trivial, ?_, ?_, fun _ c => absurd rfl c⟩
      · intro x
        simp only [List.not_mem_nil, false_iff]
        rintro ⟨hx0, hxb, hxc⟩
        have hxe : x ≠ e := by
          rintro rfl
          rcases h2 with h2 | ⟨_, h2⟩ <;> (rw [h2, upd_self] at hxc; omega)
        have : (s.arr x).check < 0 := by
          rcases h2 with h2 | ⟨_, h2⟩
          · rw [h2, upd_ne _ _ hxe, unlink_check] at hxc
            split at hxc
            · rename_i hx; rw [hx]; exact hpm.2.2
            · exact hxc
          · rwa [h2, upd_ne _ _ hxe] at hxc
        have := (hme x).mpr ⟨hx0, hxb, this⟩
        rw [ht] at this
        simp at this
        exact hxe this
      · rw [h3, hnum, hlen, ht]; simp; omega
    · rcases h2 with h2 | ⟨c, _⟩
      · have := unlink_block rt pt hm h2 hndc ht
        refine ⟨t, this.1, this.2, ?_, h4⟩
        rw [h3, hnum, hlen]; push_cast; omega
      · exact absurd c ht
  unfold takeSlot
  dsimp only
  rw [hnd]
  by_cases hn0 : (s.blk (e / 256)).num - 1 = 0
  · -- the block becomes full
    have hbpos : e / 256 ≠ 0 := by
      intro c
      rw [c] at hnum hn0
      simp at hnum
      omega
    have ht : t = [] := by
      have h1 : (if e / 256 = 0 then (1 : Int) else 0) = 0 := by simp [hbpos]
      rw [h1] at hnum
      have : t.length = 0 := by omega
      exact List.length_eq_zero_iff.mp this
    rw [if_pos (by simp [blk_setNum, hn0]), if_pos hbpos]
    generalize hs1 : s.setNum (e / 256) ((s.blk (e / 256)).num - 1) = s1
    have l1 : Lists s1 (member s) := by
      rw [← hs1]; exact h.lists.congr (bnx_setNum ..) (bpv_setNum ..) rfl
    have n1 : ∀ c, (s1.blk c).num = if c = e / 256 then 0 else (s.blk c).num := by
      intro c; rw [← hs1, blk_setNum]; split <;> simp_all
    have t1 : ∀ c, (s1.blk c).trial = (s.blk c).trial := by
      intro c; rw [← hs1, blk_setNum]; split <;> simp_all
    have e1 : ∀ c, (s1.blk c).ehead = (s.blk c).ehead := by
      intro c; rw [← hs1, blk_setNum]; split <;> simp_all
    have hmemb : member s .closed (e / 256) :=
      ⟨by omega, hb, Or.inl (by omega)⟩
    have l2 := transfer_lists l1 hmemb (dst := .full) (by simp)
      (fun c => absurd (Or.inl rfl) (c 0)) (fun _ => Or.inr (by rw [n1]; simp))
    have same := transfer_same s1 (e / 256) .closed .full
    generalize hs2 : transfer s1 (e / 256) .closed .full = s2 at l2 same
    have harr : s2.arr = s.arr := by rw [same.arr, ← hs1]; rfl
    have hsz : s2.size = s.size := by rw [same.size, ← hs1]; rfl
    have hfin : (s2.setNode e nd).arr = upd s.arr e nd := by simp [St.setNode, harr]
    obtain ⟨k1, k2⟩ := slots (s2.setNode e nd) hsz (Or.inr ⟨ht, hfin⟩)
    refine ⟨?_, k1, by show s2.ni = _; rw [same.ni, ← hs1]; rfl, by rw [hfin]; simp⟩
    refine h.change (b := e / 256) hsz k2 ?_ ?_ ?_ ?_ hb ?_ ?_
    · intro c hc; show (s2.blk c).num = _; rw [same.num, n1, if_neg hc]
    · intro c hc; show (s2.blk c).ehead = _; rw [same.ehead, e1]
    · intro c hc; show (s2.blk c).trial = _; rw [same.trial, t1]
    · show (s2.blk _).trial ≤ 1; rw [same.trial, t1]; exact h.trial _
    · refine ok _ (Or.inr ⟨ht, hfin⟩) ?_ (fun _ c => absurd ht c)
      show (s2.blk _).num = _; rw [same.num, n1, if_pos rfl, hn0]
    · have l3 : Lists (s2.setNode e nd) (moved (member s) (e / 256) .closed .full) := ⟨l2.1, l2.2⟩
      refine l3.congrP ?_
      intro l x
      have hnx : ((s2.setNode e nd).blk x).num = if x = e / 256 then 0 else (s.blk x).num := by
        show (s2.blk x).num = _; rw [same.num, n1]
      have htx : ((s2.setNode e nd).blk x).trial = (s.blk x).trial := by
        show (s2.blk x).trial = _; rw [same.trial, t1]
      have hszx : (s2.setNode e nd).size = s.size := hsz
      by_cases hx : x = e / 256
      · subst hx
        cases l <;> simp [member, moved, hnx, hszx, hb, hbpos] <;> (intros; omega)
      · cases l <;> simp [member, moved, hnx, htx, hszx, hx]
  · -- the block stays in use
    rw [if_neg (by simpa [blk_setNum] using hn0)]
    generalize hs1 : s.setNum (e / 256) ((s.blk (e / 256)).num - 1) = s1
    have a1 : s1.arr = s.arr := by rw [← hs1]; rfl
    have hun : (s1.setCheck (-(s.arr e).base).toNat (s.arr e).check).setBase
        (-(s.arr e).check).toNat (s.arr e).base = unlink s1 e := by
      simp only [unlink, snx, spv, a1]
    rw [hun]
    have n1 : ∀ c, ((unlink s1 e).blk c).num =
        if c = e / 256 then (s.blk (e / 256)).num - 1 else (s.blk c).num := by
      intro c; show (s1.blk c).num = _; rw [← hs1, blk_setNum]; split <;> simp_all
    have t1 : ∀ c, ((unlink s1 e).blk c).trial = (s.blk c).trial := by
      intro c; show (s1.blk c).trial = _; rw [← hs1, blk_setNum]; split <;> simp_all
    have e1 : ∀ c, ((unlink s1 e).blk c).ehead = (s.blk c).ehead := by
      intro c; show (s1.blk c).ehead = _; rw [← hs1, blk_setNum]; split <;> simp_all
    have ua : (unlink s1 e).arr = (unlink s e).arr := by
      funext m
      refine node_ext ?_ ?_
      · have : snx s1 e = snx s e := by simp only [snx, a1]
        rw [unlink_base, unlink_base, this, a1]
      · have : spv s1 e = spv s e := by simp only [spv, a1]
        rw [unlink_check, unlink_check, this, a1]
    have l1 : Lists (unlink s1 e) (member s) := by
      have : Lists s1 (member s) := by
        rw [← hs1]; exact h.lists.congr (bnx_setNum ..) (bpv_setNum ..) rfl
      exact ⟨this.1, this.2⟩
    have usz : (unlink s1 e).size = s.size := by rw [← hs1]; rfl
    have uni : (unlink s1 e).ni = s.ni := by rw [← hs1]; rfl
    generalize hs2 : unlink s1 e = s2 at *
    -- the new head of the ring
    generalize hs3 : (if e = (s2.blk (e / 256)).ehead then
      s2.setEhead (e / 256) (-(s.arr e).check).toNat else s2) = s3
    have n3 : ∀ c, (s3.blk c).num =
        if c = e / 256 then (s.blk (e / 256)).num - 1 else (s.blk c).num := by
      intro c; rw [← n1 c, ← hs3]; split
      · rw [num_setEhead]
      · rfl
    have t3 : ∀ c, (s3.blk c).trial = (s.blk c).trial := by
      intro c; rw [← t1 c, ← hs3]; split
      · rw [trial_setEhead]
      · rfl
    have e3 : ∀ c, c ≠ e / 256 → (s3.blk c).ehead = (s.blk c).ehead := by
      intro c hcb; rw [← e1 c, ← hs3]; split
      · rw [blk_setEhead, if_neg hcb]
      · rfl
    have e3b : 0 < e / 256 → t ≠ [] → (s3.blk (e / 256)).ehead ∈ t := by
      intro hb0 ht
      rw [← hs3]
      split
      · rename_i hee
        rw [blk_setEhead, if_pos rfl]
        have h1 := (rt.next_mem (x := e) (by simp)).1
        simp only [List.mem_cons] at h1
        exact h1.resolve_left (fun c => ht (rt.next_eq.mp c))
      · rename_i hee
        have h1 := heh hb0 (by intro c; rw [c] at hel; simp at hel)
        have h2 := pt.symm.subset h1
        rw [e1] at hee ⊢
        simp only [List.mem_cons] at h2
        exact h2.resolve_left (fun c => hee c.symm)
    have l3 : Lists s3 (member s) := by
      rw [← hs3]; split
      · exact l1.congr (bnx_setEhead ..) (bpv_setEhead ..) rfl
      · exact l1
    have a3 : s3.arr = (unlink s e).arr := by rw [← hs3, ← ua]; split <;> rfl
    have z3 : s3.size = s.size := by rw [← hs3, ← usz]; split <;> rfl
    have i3 : s3.ni = s.ni := by rw [← hs3, ← uni]; split <;> rfl
    -- the lists
    generalize hs4 : (if e / 256 ≠ 0 ∧ (s3.blk (e / 256)).num = 1 ∧ (s3.blk (e / 256)).trial ≠ 1
      then transfer s3 (e / 256) .opened .closed else s3) = s4
    have same : SameSlots s3 s4 := by
      rw [← hs4]; split
      · exact transfer_same ..
      · exact .refl _
    have hfin : (s4.setNode e nd).arr = upd (unlink s e).arr e nd := by
      simp [St.setNode, same.arr, a3]
    have hsz : s4.size = s.size := by rw [same.size, z3]
    obtain ⟨k1, k2⟩ := slots (s4.setNode e nd) hsz (Or.inl hfin)
    refine ⟨?_, k1, by show s4.ni = _; rw [same.ni, i3], by rw [hfin]; simp⟩
    have hnpos : 0 ≤ (s.blk (e / 256)).num - 1 := by
      rw [hnum, hlen]; split <;> (push_cast; omega)
    refine h.change (b := e / 256) hsz k2 ?_ ?_ ?_ ?_ hb ?_ ?_
    · intro c hc; show (s4.blk c).num = _; rw [same.num, n3, if_neg hc]
    · intro c hc; show (s4.blk c).ehead = _; rw [same.ehead, e3 c hc]
    · intro c hc; show (s4.blk c).trial = _; rw [same.trial, t3]
    · show (s4.blk _).trial ≤ 1; rw [same.trial, t3]; exact h.trial _
    · refine ok _ (Or.inl hfin) ?_ ?_
      · show (s4.blk _).num = _; rw [same.num, n3, if_pos rfl]
      · show _ → _ → (s4.blk _).ehead ∈ t; rw [same.ehead]; exact e3b
    · have hnx : ∀ x, ((s4.setNode e nd).blk x).num =
          if x = e / 256 then (s.blk (e / 256)).num - 1 else (s.blk x).num := by
        intro x; show (s4.blk x).num = _; rw [same.num, n3]
      have htx : ∀ x, ((s4.setNode e nd).blk x).trial = (s.blk x).trial := by
        intro x; show (s4.blk x).trial = _; rw [same.trial, t3]
      have hszx : (s4.setNode e nd).size = s.size := hsz
      have htr := h.trial (e / 256)
      by_cases hcond : e / 256 ≠ 0 ∧ (s3.blk (e / 256)).num = 1 ∧ (s3.blk (e / 256)).trial ≠ 1
      · have hc' := hcond
        rw [n3, if_pos rfl, t3] at hc'
        obtain ⟨hb0, hnum1, htr1⟩ := hc'
        have hmemb : member s .opened (e / 256) := ⟨by omega, hb, by omega, by omega⟩
        have l4 : Lists s4 (moved (member s) (e / 256) .opened .closed) := by
          rw [← hs4, if_pos hcond]
          refine transfer_lists l3 hmemb (by simp) ?_ ?_
          · intro c
            obtain ⟨L, _, m, d⟩ := l3.circ .closed
            rcases d with ⟨_, d⟩ | d
            · exact ⟨d, by rw [n3]; simp; omega⟩
            · exact absurd ((m _).mp d) (c _)
          · rintro ⟨x, hx⟩
            left
            intro c
            refine hmem0 x ?_ hx
            rw [← c, ← hs3]; split <;> (rw [← hs2, ← hs1]; rfl)
        have l5 : Lists (s4.setNode e nd) (moved (member s) (e / 256) .opened .closed) :=
          ⟨l4.1, l4.2⟩
        refine l5.congrP ?_
        intro l x
        by_cases hx : x = e / 256
        · subst hx
          cases l <;> simp [member, moved, hnx, htx, hszx, hb, hb0, hnum1] <;> omega
        · cases l <;> simp [member, moved, hnx, htx, hszx, hx]
      · have hc' := hcond
        rw [n3, if_pos rfl, t3] at hc'
        have l4 : Lists s4 (member s) := by rw [← hs4, if_neg hcond]; exact l3
        have l5 : Lists (s4.setNode e nd) (member s) := ⟨l4.1, l4.2⟩
        refine l5.congrP ?_
        intro l x
        by_cases hx : x = e / 256
        · subst hx
          cases l <;> simp only [member, hnx, htx, hszx, if_true] <;> omega
        · cases l <;> simp [member, hnx, htx, hszx, hx]

end Verif.Cedar
