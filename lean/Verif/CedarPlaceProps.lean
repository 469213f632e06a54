import Verif.CedarSlotProps
/-
Giving back slots, new blocks and the search for places.
-/
namespace Verif.Cedar

section fields
variable (s : St) (b c x : Nat) (z : Int)
theorem num_setTrial : ((s.setTrial b x).blk c).num = (s.blk c).num := by
  simp only [blk_setTrial]; split <;> simp_all
theorem ehead_setTrial : ((s.setTrial b x).blk c).ehead = (s.blk c).ehead := by
  simp only [blk_setTrial]; split <;> simp_all
theorem trial_setTrial : ((s.setTrial b x).blk c).trial = if c = b then x else (s.blk c).trial := by
  simp only [blk_setTrial]; split <;> simp_all
theorem num_setReject : ((s.setReject b z).blk c).num = (s.blk c).num := by
  simp only [blk_setReject]; split <;> simp_all
theorem ehead_setReject : ((s.setReject b z).blk c).ehead = (s.blk c).ehead := by
  simp only [blk_setReject]; split <;> simp_all
theorem trial_setReject : ((s.setReject b z).blk c).trial = (s.blk c).trial := by
  simp only [blk_setReject]; split <;> simp_all
theorem next_setReject : ((s.setReject b z).blk c).next = (s.blk c).next := by
  simp only [blk_setReject]; split <;> simp_all
theorem num_setNum : ((s.setNum b z).blk c).num = if c = b then z else (s.blk c).num := by
  simp only [blk_setNum]; split <;> simp_all
theorem trial_setNum : ((s.setNum b z).blk c).trial = (s.blk c).trial := by
  simp only [blk_setNum]; split <;> simp_all
theorem ehead_setNum : ((s.setNum b z).blk c).ehead = (s.blk c).ehead := by
  simp only [blk_setNum]; split <;> simp_all
theorem ehead_setEhead : ((s.setEhead b x).blk c).ehead = if c = b then x else (s.blk c).ehead := by
  simp only [blk_setEhead]; split <;> simp_all
end fields

theorem AInv.headClosed {s : St} (h : AInv s) :
    (s.head .closed = 0 ∧ ∀ x, ¬ member s .closed x) ∨ member s .closed (s.head .closed) := by
  obtain ⟨L, _, m, c⟩ := h.lists.circ .closed
  rcases c with ⟨c, d⟩ | c
  · left; exact ⟨d, fun x hx => by have := (m x).mpr hx; simp [c] at this⟩
  · right; exact (m _).mp c

theorem AInv.headOpened {s : St} (h : AInv s) :
    (s.head .opened = 0 ∧ ∀ x, ¬ member s .opened x) ∨ member s .opened (s.head .opened) := by
  obtain ⟨L, _, m, c⟩ := h.lists.circ .opened
  rcases c with ⟨c, d⟩ | c
  · left; exact ⟨d, fun x hx => by have := (m x).mpr hx; simp [c] at this⟩
  · right; exact (m _).mp c

/-- Moving a block to the list of open or of closed blocks: the flag of `_push_block`. -/
theorem flag_ok {s s1 : St} (h : AInv s) (dst : Lst) (hd : dst ≠ .full) (bi : Nat)
    (hh : s1.head dst = s.head dst) (hn : (s1.blk bi).num ≠ 0) :
    ((∀ x, ¬ member s dst x) → s1.head dst = 0 ∧ (s1.blk bi).num ≠ 0) ∧
    ((∃ x, member s dst x) → s1.head dst ≠ 0 ∨ (s1.blk bi).num = 0) := by
  have : (s.head dst = 0 ∧ ∀ x, ¬ member s dst x) ∨
      (member s dst (s.head dst) ∧ s.head dst ≠ 0) := by
    cases dst with
    | full => exact absurd rfl hd
    | closed =>
      rcases h.headClosed with c | c
      · exact Or.inl c
      · exact Or.inr ⟨c, by have := c.1; omega⟩
    | opened =>
      rcases h.headOpened with c | c
      · exact Or.inl c
      · exact Or.inr ⟨c, by have := c.1; omega⟩
  rw [hh]
  constructor
  · intro c
    rcases this with ⟨d, _⟩ | ⟨d, _⟩
    · exact ⟨d, hn⟩
    · exact absurd d (c _)
  · rintro ⟨x, hx⟩
    rcases this with ⟨_, d⟩ | ⟨_, d⟩
    · exact absurd hx (d x)
    · exact Or.inl d

theorem pushEnode_spec {s : St} (h : AInv s) {e : Nat} (he : 256 ≤ e) (hes : e < s.size)
    (hc : 0 ≤ (s.arr e).check) :
    AInv (pushEnode s e) ∧ Keep s (pushEnode s e) (· = e) ∧
      ((pushEnode s e).arr e).check < 0 ∧ (pushEnode s e).ni = upd s.ni e ⟨0, 0⟩ := by
  have hb := h.lt_size.mpr hes
  have hb0 : e / 256 ≠ 0 := by omega
  obtain ⟨l, r, hm, hnum, heh⟩ := h.blocks _ hb
  rw [if_neg hb0] at hnum
  have hel : e ∉ l := by intro c; have := (hm e).mp c; omega
  unfold pushEnode
  dsimp only
  generalize hs1 : s.setNum (e / 256) ((s.blk (e / 256)).num + 1) = s1
  have a1 : s1.arr = s.arr := by rw [← hs1]; rfl
  have z1 : s1.size = s.size := by rw [← hs1]; rfl
  have i1 : s1.ni = s.ni := by rw [← hs1]; rfl
  have h1 : s1.head = s.head := by rw [← hs1]; rfl
  have n1 : ∀ c, (s1.blk c).num = if c = e / 256 then (s.blk (e / 256)).num + 1 else (s.blk c).num := by
    intro c; rw [← hs1, num_setNum]
  have t1 : ∀ c, (s1.blk c).trial = (s.blk c).trial := by intro c; rw [← hs1, trial_setNum]
  have e1 : ∀ c, (s1.blk c).ehead = (s.blk c).ehead := by intro c; rw [← hs1, ehead_setNum]
  have l1 : Lists s1 (member s) := by
    rw [← hs1]; exact h.lists.congr (bnx_setNum ..) (bpv_setNum ..) rfl
  -- the last two assignments do not matter
  have last : ∀ s2 : St, AInv s2 → Keep s s2 (· = e) → (s2.arr e).check < 0 → s2.ni = s.ni →
      ∀ s3, s3 = (if (s2.blk (e / 256)).reject < s2.rej ((s2.blk (e / 256)).num.toNat) then
        s2.setReject (e / 256) (s2.rej ((s2.blk (e / 256)).num.toNat)) else s2) →
      AInv (s3.setInfo e ⟨0, 0⟩) ∧ Keep s (s3.setInfo e ⟨0, 0⟩) (· = e) ∧
      ((s3.setInfo e ⟨0, 0⟩).arr e).check < 0 ∧
      (s3.setInfo e ⟨0, 0⟩).ni = upd s.ni e ⟨0, 0⟩ := by
    intro s2 p1 p2 p3 p4 s3 hs3
    have a3 : s3.arr = s2.arr := by rw [hs3]; split <;> rfl
    have z3 : s3.size = s2.size := by rw [hs3]; split <;> rfl
    have i3 : s3.ni = s2.ni := by rw [hs3]; split <;> rfl
    have n3 : ∀ c, (s3.blk c).num = (s2.blk c).num := by
      intro c; rw [hs3]; split
      · rw [num_setReject]
      · rfl
    have t3 : ∀ c, (s3.blk c).trial = (s2.blk c).trial := by
      intro c; rw [hs3]; split
      · rw [trial_setReject]
      · rfl
    have e3 : ∀ c, (s3.blk c).ehead = (s2.blk c).ehead := by
      intro c; rw [hs3]; split
      · rw [ehead_setReject]
      · rfl
    have l3 : Lists s3 (member s2) := by
      rw [hs3]; split
      · exact p1.lists.congr (bnx_setReject ..) (bpv_setReject ..) rfl
      · exact p1.lists
    have hb2 : e / 256 < s2.size / 256 := by rw [p2.size]; exact hb
    refine ⟨?_, ⟨by rw [show (s3.setInfo e ⟨0, 0⟩).size = s3.size from rfl, z3, p2.size], ?_, ?_⟩,
      by rw [show (s3.setInfo e ⟨0, 0⟩).arr = s3.arr from rfl, a3]; exact p3,
      by simp [St.setInfo, i3, p4]⟩
    · refine p1.change (b := e / 256) z3 (fun m _ _ => by
          rw [show (s3.setInfo e ⟨0, 0⟩).arr = s3.arr from rfl, a3]) (fun c _ => n3 c)
        (fun c _ => e3 c) (fun c _ => t3 c) (by rw [show ((s3.setInfo e ⟨0, 0⟩).blk (e / 256)).trial =
          (s3.blk (e / 256)).trial from rfl, t3]; exact p1.trial _) hb2 ?_ ?_
      · exact (p1.blocks _ hb2).congr (fun m _ _ => by
          rw [show (s3.setInfo e ⟨0, 0⟩).arr = s3.arr from rfl, a3]) (n3 _) (e3 _)
      · have l4 : Lists (s3.setInfo e ⟨0, 0⟩) (member s2) := ⟨l3.1, l3.2⟩
        refine l4.congrP ?_
        intro l x
        have q1 : ((s3.setInfo e ⟨0, 0⟩).blk x).num = (s2.blk x).num := n3 x
        have q2 : ((s3.setInfo e ⟨0, 0⟩).blk x).trial = (s2.blk x).trial := t3 x
        have q3 : (s3.setInfo e ⟨0, 0⟩).size = s2.size := z3
        cases l <;> simp only [member, q1, q2, q3]
    · intro m hm hm'
      rw [show (s3.setInfo e ⟨0, 0⟩).arr = s3.arr from rfl, a3]; exact p2.arr m hm hm'
    · intro m hm
      rw [show (s3.setInfo e ⟨0, 0⟩).arr = s3.arr from rfl, a3]; exact p2.empty m hm
  by_cases hn0 : (s.blk (e / 256)).num + 1 = 1
  · -- the block was full
    have hl : l = [] := by
      have : l.length = 0 := by omega
      exact List.length_eq_zero_iff.mp this
    have hc1 : (s1.blk (e / 256)).num = 1 := by rw [n1, if_pos rfl]; exact hn0
    simp only [if_pos hc1, if_pos hb0]
    generalize hs2 : (s1.setEhead (e / 256) e).setNode e ⟨-(e : Int), -(e : Int)⟩ = s2
    have l2 : Lists s2 (member s) := by
      rw [← hs2]
      have : Lists (s1.setEhead (e / 256) e) (member s) :=
        l1.congr (bnx_setEhead ..) (bpv_setEhead ..) rfl
      exact ⟨this.1, this.2⟩
    have a2 : s2.arr = upd s.arr e ⟨-(e : Int), -(e : Int)⟩ := by
      rw [← hs2, ← a1]; rfl
    have n2 : ∀ c, (s2.blk c).num = (s1.blk c).num := by
      intro c; rw [← hs2]; exact num_setEhead ..
    have t2 : ∀ c, (s2.blk c).trial = (s1.blk c).trial := by
      intro c; rw [← hs2]; exact trial_setEhead ..
    have e2 : ∀ c, (s2.blk c).ehead = if c = e / 256 then e else (s1.blk c).ehead := by
      intro c; rw [← hs2]; exact ehead_setEhead ..
    have fo := flag_ok (s1 := s2) h .closed (by simp) (e / 256)
      (by rw [← hs2]; exact congrFun h1 _) (by rw [n2, n1, if_pos rfl]; omega)
    have l3 := transfer_lists l2 (bi := e / 256) (src := .full) (dst := .closed)
      (Or.inr ⟨hb, by omega⟩) (by simp) fo.1 fo.2
    have same := transfer_same s2 (e / 256) .full .closed
    generalize hs3 : transfer s2 (e / 256) .full .closed = s3 at l3 same
    have a3 : s3.arr = upd s.arr e ⟨-(e : Int), -(e : Int)⟩ := by rw [same.arr, a2]
    have z3 : s3.size = s.size := by rw [same.size, ← hs2]; exact z1
    have k : Keep s s3 (· = e) := by
      refine ⟨z3, ?_, ?_⟩
      · intro m hm _; rw [a3, upd_ne _ _ hm]
      · intro m hm; rw [a3, upd_ne _ _ hm]
    refine last s3 ?_ k (by rw [a3]; simp; omega) (by rw [same.ni, ← hs2]; exact i1) _ rfl
    refine h.change (b := e / 256) z3 ?_ ?_ ?_ ?_ ?_ hb ?_ ?_
    · intro m _ hmb; rw [a3, upd_ne]; rintro rfl; exact hmb rfl
    · intro c hc; rw [same.num, n2, n1, if_neg hc]
    · intro c hc; rw [same.ehead, e2, if_neg hc, e1]
    · intro c hc; rw [same.trial, t2, t1]
    · rw [same.trial, t2, t1]; exact h.trial _
    · refine ⟨[e], ?_, ?_, ?_, ?_⟩
      · simp [Ring, Links, snx, spv, a3]
      · intro x
        by_cases hx : x = e
        · subst hx; simp [a3]; omega
        · simp only [List.mem_singleton, hx, false_iff, a3, upd_ne _ _ hx]
          intro c
          have := (hm x).mpr c
          rw [hl] at this; simp at this
      · rw [same.num, n2, n1, if_pos rfl, hn0]; simp; omega
      · intro _ _; rw [same.ehead, e2, if_pos rfl]; simp
    · refine l3.congrP ?_
      intro l x
      have q1 : (s3.blk x).num = if x = e / 256 then 1 else (s.blk x).num := by
        rw [same.num, n2, n1, hn0]
      have q2 : (s3.blk x).trial = (s.blk x).trial := by rw [same.trial, t2, t1]
      by_cases hx : x = e / 256
      · subst hx
        cases l <;> simp [member, moved, q1, z3, hb0] <;> (try intros) <;> omega
      · cases l <;> simp [member, moved, q1, q2, z3, hx]
  · have hc1 : ¬ (s1.blk (e / 256)).num = 1 := by rw [n1, if_pos rfl]; exact hn0
    simp only [if_neg hc1]
    have hlne : l ≠ [] := by rintro rfl; simp at hnum; omega
    have hpl : (s.blk (e / 256)).ehead ∈ l := heh (by omega) hlne
    generalize hpr : (s.blk (e / 256)).ehead = p at hpl
    have hpr1 : (s1.blk (e / 256)).ehead = p := by rw [e1, hpr]
    rw [hpr1]
    have hnx : (-(s1.arr p).check).toNat = snx s p := by rw [a1]; rfl
    rw [hnx]
    obtain ⟨t, rt, pt⟩ := r.startAt hpl
    have hnl := r.next_mem hpl
    have hpe : p ≠ e := by rintro rfl; exact hel hpl
    have hne : snx s p ≠ e := by intro c; rw [c] at hnl; exact hel hnl.1
    have ins := rt.insertAfter (e := e) (fun c => hel (pt.subset c))
    generalize hq : snx s p = q at *
    generalize hs2 : ((s1.setNode e ⟨-(p : Int), -(q : Int)⟩).setBase q (-(e : Int))).setCheck p
      (-(e : Int)) = s2
    have hpm := (hm p).mp hpl
    have hqm := (hm q).mp hnl.1
    have a2b : ∀ m, (s2.arr m).base =
        if m = q then -(e : Int) else if m = e then -(p : Int) else (s.arr m).base := by
      intro m
      rw [← hs2, ← a1]
      simp only [St.setNode, St.setBase, St.setCheck, upd_apply]
      by_cases hm1 : m = p
      · subst hm1; by_cases hm2 : m = q
        · simp [hm2]
        · simp [hm2]; split <;> simp_all
      · simp only [hm1, if_false]
        by_cases hm2 : m = q
        · simp [hm2]
        · simp only [hm2, if_false]; split <;> rfl
    have a2c : ∀ m, (s2.arr m).check =
        if m = p then -(e : Int) else if m = e then -(q : Int) else (s.arr m).check := by
      intro m
      rw [← hs2, ← a1]
      simp only [St.setNode, St.setBase, St.setCheck, upd_apply]
      by_cases hm1 : m = p
      · simp [hm1]
      · simp only [hm1, if_false]
        by_cases hm2 : m = q
        · subst hm2; simp only [if_true]; split <;> simp_all
        · simp only [hm2, if_false]; split <;> rfl
    have n2 : ∀ c, (s2.blk c).num = (s1.blk c).num := by intro c; rw [← hs2]; rfl
    have t2 : ∀ c, (s2.blk c).trial = (s1.blk c).trial := by intro c; rw [← hs2]; rfl
    have e2 : ∀ c, (s2.blk c).ehead = (s1.blk c).ehead := by intro c; rw [← hs2]; rfl
    have z2 : s2.size = s.size := by rw [← hs2]; exact z1
    have i2 : s2.ni = s.ni := by rw [← hs2]; exact i1
    have h2 : s2.head = s.head := by rw [← hs2]; exact h1
    have l2 : Lists s2 (member s) := by rw [← hs2]; exact ⟨l1.1, l1.2⟩
    generalize hs3 : (if ((s2.blk (e / 256)).num = 2 ∨ (s2.blk (e / 256)).trial = 1) ∧ e / 256 ≠ 0
      then transfer s2 (e / 256) .closed .opened else s2) = s3
    have same : SameSlots s2 s3 := by
      rw [← hs3]; split
      · exact transfer_same ..
      · exact .refl _
    generalize hs4 : s3.setTrial (e / 256) 0 = s4
    have a4 : s4.arr = s2.arr := by rw [← hs4]; exact same.arr
    have z4 : s4.size = s.size := by rw [← hs4, ← z2]; exact same.size
    have n4 : ∀ c, (s4.blk c).num =
        if c = e / 256 then (s.blk (e / 256)).num + 1 else (s.blk c).num := by
      intro c; rw [← hs4, num_setTrial, same.num, n2, n1]
    have t4 : ∀ c, (s4.blk c).trial = if c = e / 256 then 0 else (s.blk c).trial := by
      intro c; rw [← hs4, trial_setTrial, same.trial, t2, t1]
    have e4 : ∀ c, (s4.blk c).ehead = (s.blk c).ehead := by
      intro c; rw [← hs4, ehead_setTrial, same.ehead, e2, e1]
    have k : Keep s s4 (· = e) := by
      refine ⟨z4, ?_, ?_⟩
      · intro m hme hm'
        rw [a4]
        refine node_ext ?_ ?_
        · rw [a2b, if_neg, if_neg hme]
          rintro rfl; rcases hm' with hm' | hm' <;> omega
        · rw [a2c, if_neg, if_neg hme]
          rintro rfl; rcases hm' with hm' | hm' <;> omega
      · intro m hme
        rw [a4, a2c, if_neg hme]
        split
        · rename_i hx; rw [hx]; omega
        · rfl
    refine last s4 ?_ k (by rw [a4, a2c, if_neg (Ne.symm hpe), if_pos rfl]; omega)
      (by rw [← hs4, ← i2]; exact same.ni) _ rfl
    refine h.change (b := e / 256) z4 ?_ ?_ ?_ ?_ ?_ hb ?_ ?_
    · intro m _ hmb
      rw [a4]
      have hme : m ≠ e := by rintro rfl; exact hmb rfl
      refine node_ext ?_ ?_
      · rw [a2b, if_neg, if_neg hme]; rintro rfl; exact hmb hqm.2.1
      · rw [a2c, if_neg, if_neg hme]; rintro rfl; exact hmb hpm.2.1
    · intro c hc; rw [n4, if_neg hc]
    · intro c hc; rw [e4]
    · intro c hc; rw [t4, if_neg hc]
    · rw [t4, if_pos rfl]; omega
    · refine ⟨p :: e :: t, ins.congr ?_ ?_, ?_, ?_, ?_⟩
      · intro x hx
        simp only [snx, a4, a2c, upd_apply]
        by_cases hx1 : x = p
        · simp [hx1]
        · simp only [hx1, if_false]
          by_cases hx2 : x = e
          · simp [hx2]
          · simp [hx2]
      · intro x hx
        simp only [spv, a4, a2b, upd_apply]
        by_cases hx1 : x = q
        · have : x ≠ e := by rw [hx1]; exact hne
          simp [hx1, hne]
        · simp only [hx1, if_false]
          by_cases hx2 : x = e
          · simp [hx2]
          · simp [hx2]
      · intro x
        have hx : x ∈ p :: t ↔ _ := pt.mem_iff.trans (hm x)
        by_cases hx2 : x = e
        · subst hx2
          simp only [List.mem_cons, true_or, or_true, true_iff]
          refine ⟨by omega, trivial, ?_⟩
          rw [a4, a2c, if_neg (Ne.symm hpe), if_pos rfl]; omega
        · have : x ∈ p :: e :: t ↔ x ∈ p :: t := by simp [hx2]
          rw [this, hx, a4, a2c, if_neg hx2]
          split
          · rename_i hx1; rw [hx1]; omega
          · rfl
      · rw [n4, if_pos rfl, hnum, ← pt.length_eq]; simp [hb0]
      · intro _ _; rw [e4, hpr]; simp
    · have hn1 : 1 ≤ (s.blk (e / 256)).num := by
        rw [hnum]
        have : 0 < l.length := List.length_pos_iff.mpr hlne
        omega
      have htr := h.trial (e / 256)
      by_cases hcond : ((s2.blk (e / 256)).num = 2 ∨ (s2.blk (e / 256)).trial = 1) ∧ e / 256 ≠ 0
      · have hc' := hcond.1
        rw [n2, n1, if_pos rfl, t2, t1] at hc'
        have hmemb : member s .closed (e / 256) := ⟨by omega, hb, by omega⟩
        have fo := flag_ok (s1 := s2) h .opened (by simp) (e / 256) (by rw [h2])
          (by rw [n2, n1, if_pos rfl]; omega)
        have l3 : Lists s3 (moved (member s) (e / 256) .closed .opened) := by
          rw [← hs3, if_pos hcond]
          exact transfer_lists l2 hmemb (by simp) fo.1 fo.2
        have l4 : Lists s4 (moved (member s) (e / 256) .closed .opened) := by
          rw [← hs4]; exact l3.congr (bnx_setTrial ..) (bpv_setTrial ..) rfl
        refine l4.congrP ?_
        intro l x
        by_cases hx : x = e / 256
        · subst hx
          cases l <;> simp [member, moved, n4, t4, z4, hb0, hb] <;> (try intros) <;> omega
        · cases l <;> simp [member, moved, n4, t4, z4, hx]
      · have hc' := hcond
        rw [n2, n1, if_pos rfl, t2, t1] at hc'
        have l3 : Lists s3 (member s) := by rw [← hs3, if_neg hcond]; exact l2
        have l4 : Lists s4 (member s) := by
          rw [← hs4]; exact l3.congr (bnx_setTrial ..) (bpv_setTrial ..) rfl
        refine l4.congrP ?_
        intro l x
        by_cases hx : x = e / 256
        · subst hx
          have q1 := n4 (e / 256)
          have q2 := t4 (e / 256)
          rw [if_pos rfl] at q1 q2
          have hc2 : 2 ≤ (s.blk (e / 256)).num ∧ (s.blk (e / 256)).trial = 0 := by omega
          have hc3 := hc2.1
          have hc4 := hc2.2
          clear * - q1 q2 z4 hc3 hc4 hb
          cases l <;> simp [member, q1, q2, z4, hc4, hb] <;> omega
        · cases l <;> simp [member, n4, t4, z4, hx]

theorem links_range {nx pv : Nat → Nat} {b : Nat} : ∀ (k a : Nat), (∀ i < k, nx (a + i) = a + i + 1) →
    (∀ i < k, pv (a + i + 1) = a + i) → nx (a + k) = b → pv b = a + k →
    Links nx pv a (List.range' (a + 1) k) b
  | 0, a, _, _, h3, h4 => ⟨h3, h4⟩
  | k + 1, a, h1, h2, h3, h4 => by
    rw [List.range'_succ]
    refine ⟨h1 0 (by omega), h2 0 (by omega), links_range k (a + 1) ?_ ?_ ?_ ?_⟩
    · intro i hi; rw [show a + 1 + i = a + (i + 1) by omega]; exact h1 (i + 1) (by omega)
    · intro i hi; rw [show a + 1 + i = a + (i + 1) by omega]; exact h2 (i + 1) (by omega)
    · rw [show a + 1 + k = a + (k + 1) by omega]; exact h3
    · rw [show a + 1 + k = a + (k + 1) by omega]; exact h4

theorem ring_range {nx pv : Nat → Nat} (a k : Nat) (h1 : ∀ i < k, nx (a + i) = a + i + 1)
    (h2 : ∀ i < k, pv (a + i + 1) = a + i) (h3 : nx (a + k) = a) (h4 : pv a = a + k) :
    Ring nx pv (List.range' a (k + 1)) := by
  rw [List.range'_succ]
  refine ⟨?_, links_range k a h1 h2 h3 h4⟩
  have := List.nodup_range' (s := a) (n := k + 1) 1
  rwa [List.range'_succ] at this

theorem AInv_init : AInv init := by
  refine ⟨rfl, by decide, ?_, ?_, ?_, ?_⟩
  · intro b hb
    have hb0 : b = 0 := by simp [init] at hb; omega
    subst hb0
    refine ⟨List.range' 1 255, ring_range 1 254 ?_ ?_ ?_ ?_, ?_, ?_, ?_⟩
    · intro i hi
      have h1 : ¬ 1 + i = 0 := by omega
      have h2 : ¬ 1 + i = 255 := by omega
      simp only [snx, init, firstSlot, h1, h2, if_false]; omega
    · intro i hi
      have h1 : ¬ 1 + i + 1 = 0 := by omega
      have h2 : ¬ 1 + i + 1 = 1 := by omega
      simp only [spv, init, firstSlot, h1, h2, if_false]; omega
    · simp [snx, init, firstSlot]
    · simp [spv, init, firstSlot]
    · intro e
      simp only [List.mem_range'_1, init, firstSlot]
      by_cases h : e = 0
      · simp [h]
      · simp only [h, if_false]
        constructor
        · intro h'; refine ⟨h, by omega, ?_⟩; split <;> omega
        · rintro ⟨_, h', _⟩; omega
    · simp [init]
    · intro h; omega
  · intro b; simp [init]
  · refine ⟨?_, ?_⟩
    · intro l
      cases l with
      | full =>
        refine ⟨[0], ?_, ?_, Or.inr (by simp [init])⟩
        · simp [Ring, Links, bnx, bpv, init]
        · intro x; simp [member, init]
      | closed =>
        refine ⟨[], trivial, ?_, Or.inl ⟨rfl, rfl⟩⟩
        intro x; simp [member, init]
      | opened =>
        refine ⟨[], trivial, ?_, Or.inl ⟨rfl, rfl⟩⟩
        intro x; simp [member, init]; omega
    · intro a b x ha hb
      cases a <;> cases b <;> simp [member, init] at ha hb ⊢ <;> omega
  · intro b hb; simp [init]

/-- The blocks may have been rearranged and new ones added. -/
structure Ext (s s' : St) : Prop where
  inv : AInv s'
  ni : s'.ni = s.ni
  le : s.size ≤ s'.size
  arr : ∀ m, m < s.size → s'.arr m = s.arr m
  new : ∀ m, s.size ≤ m → m < s'.size → (s'.arr m).check < 0

theorem Ext.trans {s s' s'' : St} (h : Ext s s') (h' : Ext s' s'') : Ext s s'' := by
  refine ⟨h'.inv, h'.ni.trans h.ni, Nat.le_trans h.le h'.le, ?_, ?_⟩
  · intro m hm; rw [h'.arr m (Nat.lt_of_lt_of_le hm h.le), h.arr m hm]
  · intro m h1 h2
    by_cases hm : m < s'.size
    · rw [h'.arr m hm]; exact h.new m h1 hm
    · exact h'.new m (by omega) h2

theorem Ext.refl {s : St} (h : AInv s) : Ext s s :=
  ⟨h, rfl, Nat.le_refl _, fun _ _ => rfl, fun m h1 h2 => by omega⟩

theorem AInv.head_iff {s : St} (h : AInv s) {l : Lst} (hl : l ≠ .full) :
    s.head l = 0 ↔ ∀ x, ¬ member s l x := by
  cases l with
  | full => exact absurd rfl hl
  | closed =>
    rcases h.headClosed with c | c
    · exact ⟨fun _ => c.2, fun _ => c.1⟩
    · exact ⟨fun d => by have := c.1; omega, fun d => absurd c (d _)⟩
  | opened =>
    rcases h.headOpened with c | c
    · exact ⟨fun _ => c.2, fun _ => c.1⟩
    · exact ⟨fun d => by have := c.1; omega, fun d => absurd c (d _)⟩

theorem freshSlot_check (z i : Nat) (h : 256 ≤ z) : (freshSlot z i).check < 0 := by
  unfold freshSlot; dsimp only; split <;> omega

theorem addBlock_spec {s : St} (h : AInv s) :
    Ext s (addBlock s).1 ∧ (addBlock s).1.size = s.size + 256 ∧ (addBlock s).2 = s.size := by
  have hz := h.size_mod
  have hp := h.size_pos
  have hf := h.fresh (s.size / 256) (Nat.le_refl _)
  unfold addBlock
  dsimp only
  generalize hs1 : s.setEhead (s.size / 256) s.size = s1
  generalize hs2 : ({ arr := fun i => if s.size ≤ i ∧ i < s.size + 256 then freshSlot s.size i else s1.arr i,
                      ni := s1.ni, blk := s1.blk, head := s1.head, size := s1.size, rej := s1.rej } : St) = s2
  have a2 : ∀ m, s2.arr m = if s.size ≤ m ∧ m < s.size + 256 then freshSlot s.size m else s.arr m := by
    intro m; rw [← hs2, ← hs1]; rfl
  have b2 : s2.blk = s1.blk := by rw [← hs2]
  have hq : s1.head = s2.head := by rw [← hs2]
  rw [hq]
  have l2 : Lists s2 (member s) := by
    have : Lists s1 (member s) := by
      rw [← hs1]; exact h.lists.congr (bnx_setEhead ..) (bpv_setEhead ..) rfl
    rw [← hs2]; exact ⟨this.1, this.2⟩
  have hd2 : s2.head = s.head := by rw [← hs2, ← hs1]; rfl
  have l3 := pushBlock_lists l2 (bi := s.size / 256) (l := .opened)
    (empty := s2.head .opened == 0) (by
      intro l' c; cases l' <;> simp only [member] at c <;> omega)
    (by rw [beq_iff_eq, hd2]; exact h.head_iff (by simp))
  have same := pushBlock_same s2 (s.size / 256) .opened (s2.head .opened == 0)
  generalize hs3 : pushBlock s2 (s.size / 256) .opened (s2.head .opened == 0) = s3 at l3 same
  have n3 : ∀ c, (s3.blk c).num = (s.blk c).num := by
    intro c; rw [same.num, b2, ← hs1, num_setEhead]
  have t3 : ∀ c, (s3.blk c).trial = (s.blk c).trial := by
    intro c; rw [same.trial, b2, ← hs1, trial_setEhead]
  have e3 : ∀ c, (s3.blk c).ehead = if c = s.size / 256 then s.size else (s.blk c).ehead := by
    intro c; rw [same.ehead, b2, ← hs1, ehead_setEhead]
  have a3 : ∀ m, s3.arr m = if s.size ≤ m ∧ m < s.size + 256 then freshSlot s.size m else s.arr m := by
    intro m; rw [same.arr, a2]
  have hsz : (s.size + 256) / 256 = s.size / 256 + 1 := by omega
  refine ⟨⟨?_, ?_, by show _ ≤ s.size + 256; omega, ?_, ?_⟩, rfl, rfl⟩
  · refine ⟨by show (s.size + 256) % 256 = 0; omega, by show _ ≤ s.size + 256; omega, ?_, ?_, ?_, ?_⟩
    · intro b hb
      have hb' : b < s.size / 256 + 1 := by rw [← hsz]; exact hb
      by_cases hbz : b = s.size / 256
      · subst hbz
        refine ⟨List.range' s.size 256, ring_range s.size 255 ?_ ?_ ?_ ?_, ?_, ?_, ?_⟩
        · intro i hi
          have h1 : s.size ≤ s.size + i ∧ s.size + i < s.size + 256 := by omega
          have h2 : ¬ s.size + i = s.size + 255 := by omega
          simp only [snx, a3, if_pos h1, freshSlot, h2, if_false]; omega
        · intro i hi
          have h1 : s.size ≤ s.size + i + 1 ∧ s.size + i + 1 < s.size + 256 := by omega
          have h2 : ¬ s.size + i + 1 = s.size := by omega
          simp only [spv, a3, if_pos h1, freshSlot, h2, if_false]; omega
        · simp [snx, a3, freshSlot]
        · simp [spv, a3, freshSlot]; omega
        · intro e
          rw [List.mem_range'_1]
          constructor
          · intro he
            refine ⟨by omega, by omega, ?_⟩
            show (s3.arr e).check < 0
            rw [a3, if_pos he]; exact freshSlot_check _ _ hp
          · rintro ⟨_, he, _⟩; omega
        · show (s3.blk _).num = _
          rw [n3, hf.1, if_neg (by omega)]; simp
        · intro _ _
          show (s3.blk _).ehead ∈ _
          rw [e3, if_pos rfl, List.mem_range'_1]; omega
      · refine (h.blocks b (by omega)).congr ?_ (n3 b) ?_
        · intro m _ hm
          show s3.arr m = _
          rw [a3, if_neg (by omega)]
        · show (s3.blk b).ehead = _
          rw [e3, if_neg hbz]
    · intro b; show (s3.blk b).trial ≤ 1; rw [t3]; exact h.trial b
    · refine Lists.congrP (P := fun l' x => member s l' x ∨ (l' = .opened ∧ x = s.size / 256))
        ⟨l3.1, l3.2⟩ ?_
      intro l x
      by_cases hx : x = s.size / 256
      · subst hx
        cases l <;> simp [member, n3, t3, hsz, hf.1, hf.2]
        omega
      · have : x < s.size / 256 + 1 ↔ x < s.size / 256 := by omega
        cases l <;> simp [member, n3, t3, hsz, hx, this]
    · intro b hb
      have : s.size / 256 + 1 ≤ b := by rw [← hsz]; exact hb
      show (s3.blk b).num = 256 ∧ (s3.blk b).trial = 0
      rw [n3, t3]; exact h.fresh b (by omega)
  · show s3.ni = s.ni
    rw [same.ni, ← hs2, ← hs1]; rfl
  · intro m hm
    show s3.arr m = _
    rw [a3, if_neg (by omega)]
  · intro m h1 h2
    show (s3.arr m).check < 0
    have h2' : m < s.size + 256 := h2
    rw [a3, if_pos ⟨h1, h2'⟩]; exact freshSlot_check _ _ hp

/-- The head of the ring of a block of one of the two lists. -/
theorem AInv.ehead {s : St} (h : AInv s) {b : Nat} (hb : 0 < b) (hbs : b < s.size / 256)
    (hn : 1 ≤ (s.blk b).num) :
    (s.arr (s.blk b).ehead).check < 0 ∧ (s.blk b).ehead / 256 = b := by
  obtain ⟨l, _, hm, hnum, he⟩ := h.blocks b hbs
  have : l ≠ [] := by rintro rfl; simp at hnum; omega
  have := (hm _).mp (he hb this)
  exact ⟨this.2.2, this.2.1⟩

theorem findPlace_spec {s : St} (h : AInv s) :
    Ext s (findPlace s).1 ∧ 256 ≤ (findPlace s).2 ∧ (findPlace s).2 < (findPlace s).1.size ∧
      ((findPlace s).1.arr (findPlace s).2).check < 0 := by
  unfold findPlace
  split
  · rename_i hc
    have : member s .closed (s.head .closed) := h.headClosed.resolve_left (fun c => hc c.1)
    obtain ⟨h1, h2⟩ := h.ehead this.1 this.2.1 (by have := this.2.2; omega)
    have h3 := this.2.1
    have h4 := this.1
    have h5 := h.size_mod
    exact ⟨.refl h, by dsimp only; omega, by dsimp only; omega, h1⟩
  · split
    · rename_i hc
      have : member s .opened (s.head .opened) := h.headOpened.resolve_left (fun c => hc c.1)
      obtain ⟨h1, h2⟩ := h.ehead this.1 this.2.1 (by have := this.2.2.1; omega)
      have h3 := this.2.1
      have h4 := this.1
      have h5 := h.size_mod
      exact ⟨.refl h, by dsimp only; omega, by dsimp only; omega, h1⟩
    · obtain ⟨h1, h2, h3⟩ := addBlock_spec h
      have h4 := h.size_pos
      exact ⟨h1, by omega, by omega, h1.new _ (by omega) (by omega)⟩

theorem xor_div (e c : Nat) (hc : c < 256) : (e ^^^ c) / 256 = e / 256 := by
  have : (e ^^^ c) >>> 8 = e >>> 8 ^^^ c >>> 8 := Nat.shiftRight_xor_distrib
  simp only [Nat.shiftRight_eq_div_pow] at this
  have h0 : c / 2 ^ 8 = 0 := by omega
  rw [h0, Nat.xor_zero] at this
  exact this

/-- All labels fit at `e`. -/
def Fits (s : St) (e first : Nat) (rest : List Nat) : Prop :=
  ∀ p ∈ rest, (s.arr ((e ^^^ first) ^^^ p)).check < 0

theorem scanRing_spec {s : St} {ehead first : Nat} {rest : List Nat} :
    ∀ (u : List Nat) (fuel e : Nat), u.length < fuel → Links (snx s) (spv s) e u ehead →
      (∃ e', e' ∈ e :: u ∧ scanRing s ehead first rest fuel e = some (some e') ∧
        Fits s e' first rest) ∨ scanRing s ehead first rest fuel e = some none
  | u, 0, e, h, _ => by omega
  | u, fuel + 1, e, h, lk => by
    unfold scanRing
    by_cases hf : rest.all (fun p => (s.arr ((e ^^^ first) ^^^ p)).check < 0) = true
    · rw [if_pos hf]
      refine Or.inl ⟨e, by simp, rfl, ?_⟩
      intro p hp
      have := List.all_eq_true.mp hf p hp
      simpa using this
    · rw [if_neg hf]
      dsimp only
      split
      · exact Or.inr rfl
      · rename_i hne
        cases u with
        | nil => exact absurd lk.1 hne
        | cons c u =>
          have hc : (-(s.arr e).check).toNat = c := lk.1
          rw [hc]
          rcases scanRing_spec u fuel c (by simp at h; omega) lk.2.2 with ⟨e', h1, h2⟩ | h1
          · exact Or.inl ⟨e', List.mem_cons_of_mem _ h1, h2⟩
          · exact Or.inr h1

/-- Closing an open block after a search in vain. -/
theorem close_spec {s s1 : St} (h : AInv s) {bi : Nat} (hb : member s .opened bi)
    (ha : s1.arr = s.arr) (hi : s1.ni = s.ni) (hz : s1.size = s.size) (hh : s1.head = s.head)
    (hbn : bnx s1 = bnx s) (hbp : bpv s1 = bpv s) (hn : ∀ c, (s1.blk c).num = (s.blk c).num)
    (he : ∀ c, (s1.blk c).ehead = (s.blk c).ehead)
    (ht : ∀ c, (s1.blk c).trial = if c = bi then 1 else (s.blk c).trial) :
    Ext s (transfer s1 bi .opened .closed) ∧ (transfer s1 bi .opened .closed).size = s.size ∧
      (transfer s1 bi .opened .closed).arr = s.arr ∧
      ∀ x, member (transfer s1 bi .opened .closed) .opened x ↔ member s .opened x ∧ x ≠ bi := by
  have l1 : Lists s1 (member s) := h.lists.congr hbn hbp hh
  have fo := flag_ok (s1 := s1) h .closed (by simp) bi (by rw [hh])
    (by rw [hn]; have := hb.2.2.1; omega)
  have l2 := transfer_lists l1 hb (by simp) fo.1 fo.2
  have same := transfer_same s1 bi .opened .closed
  generalize transfer s1 bi .opened .closed = s2 at l2 same
  have n2 : ∀ c, (s2.blk c).num = (s.blk c).num := fun c => by rw [same.num, hn]
  have e2 : ∀ c, (s2.blk c).ehead = (s.blk c).ehead := fun c => by rw [same.ehead, he]
  have t2 : ∀ c, (s2.blk c).trial = if c = bi then 1 else (s.blk c).trial :=
    fun c => by rw [same.trial, ht]
  have a2 : s2.arr = s.arr := by rw [same.arr, ha]
  have z2 : s2.size = s.size := by rw [same.size, hz]
  obtain ⟨hb1, hb2, hb3, hb4⟩ := hb
  refine ⟨⟨?_, by rw [same.ni, hi], by omega, fun m _ => by rw [a2], fun m _ _ => by omega⟩, z2, a2, ?_⟩
  · refine h.change (b := bi) z2 (fun m _ _ => by rw [a2]) (fun c _ => n2 c) (fun c _ => e2 c)
      (fun c hc => by rw [t2, if_neg hc]) (by rw [t2, if_pos rfl]; exact Nat.le_refl _) hb2
      ((h.blocks _ hb2).congr (fun m _ _ => by rw [a2]) (n2 _) (e2 _)) (l2.congrP ?_)
    intro l x
    by_cases hx : x = bi
    · subst hx
      cases l <;> simp [member, moved, n2, t2, z2] <;> omega
    · cases l <;> simp [member, moved, n2, t2, z2, hx]
  · intro x
    by_cases hx : x = bi
    · subst hx; simp [member, t2]
    · simp [member, n2, t2, z2, hx]

theorem scanBlocks_spec {bz first : Nat} {rest : List Nat} :
    ∀ (fuel : Nat) (s : St) (bi : Nat) (L : List Nat), AInv s → member s .opened bi →
      member s .opened bz → L.Nodup → (∀ x, member s .opened x → x ∈ L) → L.length ≤ fuel →
      ∃ s' r, scanBlocks bz first rest fuel s bi = some (s', r) ∧ Ext s s' ∧ s'.size = s.size ∧
        ∀ e, r = some e → 256 ≤ e ∧ e < s'.size ∧ (s'.arr e).check < 0 ∧ Fits s' e first rest
  | 0, s, bi, L, _, hbi, _, _, hL, hl => by
    have := hL bi hbi
    have : L = [] := List.length_eq_zero_iff.mp (by omega)
    simp_all
  | fuel + 1, s, bi, L, h, hbi, hbz, hd, hL, hl => by
    obtain ⟨ring, rg, hm, hnum, heh⟩ := h.blocks bi hbi.2.1
    have hb0 : bi ≠ 0 := by have := hbi.1; omega
    rw [if_neg hb0] at hnum
    have hn2 := hbi.2.2.1
    have hrne : ring ≠ [] := by rintro rfl; simp at hnum; omega
    have hel : (s.blk bi).ehead ∈ ring := heh hbi.1 hrne
    obtain ⟨t, rt, pt⟩ := rg.startAt hel
    have hsz := h.size_mod
    have hlen : (t.length) < 256 := by
      have h1 : ∀ x ∈ ((s.blk bi).ehead :: t).map (· % 256), x < 256 := by
        intro x hx; simp only [List.mem_map] at hx; obtain ⟨y, _, rfl⟩ := hx; omega
      have h2 : (((s.blk bi).ehead :: t).map (· % 256)).Nodup := by
        refine List.Nodup.map_on ?_ rt.nodup
        intro x hx y hy hxy
        have := (hm x).mp (pt.subset hx)
        have := (hm y).mp (pt.subset hy)
        omega
      have := length_le_of_lt h2 h1
      simp at this; omega
    unfold scanBlocks
    dsimp only
    have hscan : (∃ e', e' ∈ ring ∧
        (if (rest.length : Int) + 1 ≤ (s.blk bi).num ∧ (rest.length : Int) + 1 < (s.blk bi).reject then
          scanRing s (s.blk bi).ehead first rest 256 (s.blk bi).ehead else some none) =
          some (some e') ∧ Fits s e' first rest) ∨
        (if (rest.length : Int) + 1 ≤ (s.blk bi).num ∧ (rest.length : Int) + 1 < (s.blk bi).reject then
          scanRing s (s.blk bi).ehead first rest 256 (s.blk bi).ehead else some none) = some none := by
      split
      · rcases scanRing_spec (first := first) (rest := rest) t 256 _ hlen rt.2 with ⟨e', h1, h2⟩ | h1
        · exact Or.inl ⟨e', pt.subset h1, h2⟩
        · exact Or.inr h1
      · exact Or.inr rfl
    rcases hscan with ⟨e', h1, h2, h3⟩ | h1
    · rw [h2]
      dsimp only
      have hme := (hm e').mp h1
      refine ⟨_, _, rfl, ⟨?_, rfl, Nat.le_refl _, fun _ _ => rfl, ?_⟩, rfl, ?_⟩
      · refine h.change (b := bi) rfl (fun m _ _ => rfl) (fun c _ => num_setEhead ..)
          (fun c hc => by rw [ehead_setEhead, if_neg hc]) (fun c _ => trial_setEhead ..)
          (by rw [trial_setEhead]; exact h.trial _) hbi.2.1 ?_ ?_
        · refine ⟨ring, rg, hm, ?_, ?_⟩
          · rw [num_setEhead, hnum, if_neg hb0]
          · intro _ _; rw [ehead_setEhead, if_pos rfl]; exact h1
        · refine (h.lists.congr (bnx_setEhead s bi e') (bpv_setEhead s bi e') rfl).congrP ?_
          intro l x
          have hz : (s.setEhead bi e').size = s.size := rfl
          cases l <;> simp only [member, num_setEhead, trial_setEhead, hz]
      · intro m h1 h2
        have : m < s.size := h2
        omega
      · intro e he
        cases he
        have h4 := hbi.2.1
        have h5 := hbi.1
        refine ⟨by omega, ?_, hme.2.2, h3⟩
        show e' < s.size
        omega
    · rw [h1]
      dsimp only
      have htr : (s.blk bi).trial = 0 := hbi.2.2.2
      generalize hs1 : s.setReject bi ((rest.length : Int) + 1) = s1
      have hs1a : s1.arr = s.arr ∧ s1.ni = s.ni ∧ s1.size = s.size ∧ s1.head = s.head ∧
          bnx s1 = bnx s ∧ bpv s1 = bpv s ∧ (∀ c, (s1.blk c).num = (s.blk c).num) ∧
          (∀ c, (s1.blk c).ehead = (s.blk c).ehead) ∧ (∀ c, (s1.blk c).trial = (s.blk c).trial) := by
        rw [← hs1]
        exact ⟨rfl, rfl, rfl, rfl, bnx_setReject .., bpv_setReject .., fun c => num_setReject ..,
          fun c => ehead_setReject .., fun c => trial_setReject ..⟩
      generalize hs2 : (if (rest.length : Int) + 1 < s1.rej ((s1.blk bi).num.toNat) then
        ({ arr := s1.arr, ni := s1.ni, blk := s1.blk, head := s1.head, size := s1.size,
           rej := upd s1.rej ((s1.blk bi).num.toNat) ((rest.length : Int) + 1) } : St) else s1) = s2
      have hs2a : s2.arr = s1.arr ∧ s2.ni = s1.ni ∧ s2.size = s1.size ∧ s2.head = s1.head ∧
          s2.blk = s1.blk := by
        rw [← hs2]; split <;> exact ⟨rfl, rfl, rfl, rfl, rfl⟩
      have ht2 : (s2.blk bi).trial = 0 := by rw [hs2a.2.2.2.2, hs1a.2.2.2.2.2.2.2.2, htr]
      generalize hs3 : s2.setTrial bi ((s2.blk bi).trial + 1) = s3
      have ht3 : (s3.blk bi).trial = 1 := by rw [← hs3, trial_setTrial, if_pos rfl, ht2]
      rw [if_pos ht3]
      have hnx : (s2.blk bi).next = bnx s bi := by
        rw [hs2a.2.2.2.2, ← hs1a.2.2.2.2.1]; rfl
      rw [hnx]
      obtain ⟨x1, x2, x3, x4⟩ := close_spec (s1 := s3) h hbi
        (by rw [← hs3]; exact hs2a.1.trans hs1a.1)
        (by rw [← hs3]; exact hs2a.2.1.trans hs1a.2.1)
        (by rw [← hs3]; exact hs2a.2.2.1.trans hs1a.2.2.1)
        (by rw [← hs3]; exact hs2a.2.2.2.1.trans hs1a.2.2.2.1)
        (by rw [← hs3, bnx_setTrial, ← hs1a.2.2.2.2.1]; funext c; simp only [bnx, hs2a.2.2.2.2])
        (by rw [← hs3, bpv_setTrial, ← hs1a.2.2.2.2.2.1]; funext c; simp only [bpv, hs2a.2.2.2.2])
        (fun c => by rw [← hs3, num_setTrial, hs2a.2.2.2.2, hs1a.2.2.2.2.2.2.1])
        (fun c => by rw [← hs3, ehead_setTrial, hs2a.2.2.2.2, hs1a.2.2.2.2.2.2.2.1])
        (fun c => by rw [← hs3, trial_setTrial, ht2, hs2a.2.2.2.2, hs1a.2.2.2.2.2.2.2.2])
      generalize transfer s3 bi .opened .closed = s4 at x1 x2 x3 x4
      by_cases hz : bi = bz
      · rw [if_pos hz]
        exact ⟨_, _, rfl, x1, x2, fun e he => by cases he⟩
      · rw [if_neg hz]
        obtain ⟨O, ro, mo, _⟩ := h.lists.circ .opened
        have hbO := (mo bi).mpr hbi
        obtain ⟨u, ru, pu⟩ := ro.startAt hbO
        have hu : u ≠ [] := by
          rintro rfl
          have := pu.mem_iff.mpr ((mo bz).mpr hbz)
          simp at this
          exact hz this.symm
        have hnxt : member s4 .opened (bnx s bi) := by
          rw [x4]
          exact ⟨(mo _).mp (ro.next_mem hbO).1, fun c => hu (ru.next_eq.mp c)⟩
        obtain ⟨s', r, y1, y2, y3, y4⟩ := scanBlocks_spec (bz := bz) (first := first) (rest := rest)
          fuel s4 (bnx s bi) (L.erase bi) x1.inv hnxt ((x4 bz).mpr ⟨hbz, fun c => hz c.symm⟩)
          (hd.erase _) (fun x hx => by
            rw [x4] at hx
            exact (List.mem_erase_of_ne hx.2).mpr (hL x hx.1))
          (by rw [List.length_erase_of_mem (hL bi hbi)]; omega)
        exact ⟨s', r, y1, x1.trans y2, y3.trans x2, y4⟩

theorem findPlaces_spec {s : St} (h : AInv s) {first : Nat} {rest : List Nat} (hf : first < 256)
    (hr : ∀ p ∈ rest, p < 256) :
    ∃ s' e, findPlaces s first rest = some (s', e) ∧ Ext s s' ∧ 256 ≤ e ∧ e < s'.size ∧
      (s'.arr e).check < 0 ∧ Fits s' e first rest := by
  have add : ∀ s0, Ext s s0 → ∃ s' e, some (addBlock s0) = some (s', e) ∧ Ext s s' ∧ 256 ≤ e ∧
      e < s'.size ∧ (s'.arr e).check < 0 ∧ Fits s' e first rest := by
    intro s0 x0
    obtain ⟨x1, x2, x3⟩ := addBlock_spec x0.inv
    have x4 := x0.inv.size_pos
    have x5 := x0.inv.size_mod
    generalize addBlock s0 = q at x1 x2 x3
    obtain ⟨s1, e⟩ := q
    dsimp only at x1 x2 x3
    refine ⟨s1, e, rfl, x0.trans x1, by omega, by omega, x1.new _ (by omega) (by omega), ?_⟩
    intro p hp
    have h1 := xor_div e first hf
    have h2 := xor_div (e ^^^ first) p (hr p hp)
    refine x1.new _ ?_ ?_
    · omega
    · omega
  unfold findPlaces
  split
  · rename_i ho
    have hmem : member s .opened (s.head .opened) := h.headOpened.resolve_left (fun c => ho c.1)
    obtain ⟨O, ro, mo, _⟩ := h.lists.circ .opened
    have hbz : member s .opened (s.blk (s.head .opened)).prev :=
      (mo _).mp (ro.prev_mem ((mo _).mpr hmem)).1
    obtain ⟨s', r, h1, h2, h3, h4⟩ := scanBlocks_spec (first := first) (rest := rest) s.size s
      (s.head .opened) O h hmem hbz ro.nodup (fun x hx => (mo x).mpr hx)
      (length_le_of_lt ro.nodup (fun x hx => by have := ((mo x).mp hx).2.1; omega))
    rw [h1]
    cases r with
    | none => exact add s' h2
    | some e =>
      obtain ⟨y1, y2, y3, y4⟩ := h4 e rfl
      exact ⟨s', e, rfl, h2, y1, y2, y3, y4⟩
  · exact add s (.refl h)

end Verif.Cedar
