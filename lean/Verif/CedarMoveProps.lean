import Verif.CedarTreeProps
/-
Moving the children of a node to a new base: the loop of `_resolve`.
-/
namespace Verif.Cedar

theorem GInv.moved_base {s s' : St} {g : Gh} (h : GInv s g) {ξ : List Nat} {c dst next : Nat}
    (hh : ∀ m, g.hole m ↔ m = dst) (m : Moved s s' g ξ c dst next) (π : List Nat) (hp : g.D π) :
    (s'.arr ((g.move ξ c dst).pos π)).base = (s.arr (g.pos π)).base := by
  by_cases e1 : π = c :: ξ
  · rw [e1, show (g.move ξ c dst).pos (c :: ξ) = dst from updP_self .., m.node]
  · rw [show (g.move ξ c dst).pos π = g.pos π from updP_ne _ _ e1]
    by_cases e2 : ∃ d, π = d :: c :: ξ
    · obtain ⟨d, rfl⟩ := e2
      rw [m.kids d hp]
    · rw [m.arr _ (fun c => h.not_hole hp ((hh _).mpr c))]
      intro d hd' e
      exact e2 ⟨d, h.inj _ _ hp hd' e⟩

theorem GInv.chain {s : St} {g : Gh} (h : GInv s g) (π : List Nat)
    (hd : ∀ c, g.Q π c → g.done π c) : Chain s.ni (s.arr (g.pos π)).base (g.Q π) :=
  ⟨fun c hq => (h.qlt c π hq).1, fun c hq => h.sib c π hq (hd c hq)⟩

/-- Lines 650-664 of the loop. -/
def relocate (s : St) (dst old label nextLabel : Nat) : Option St :=
  let s := s.setSibling dst nextLabel
  let s := s.setBase dst (s.arr old).base
  if 0 < (s.arr dst).base ∧ label ≠ 0 then
    let s := s.setChild dst (s.ni old).child
    adopt (s.arr dst).base dst 257 s (s.ni dst).child
  else some s

theorem relocate_spec {s : St} {g : Gh} (h : GInv s g) {ξ : List Nat} {c dst next : Nat}
    (hh : ∀ m, g.hole m ↔ m = dst) (hd : g.D (c :: ξ)) (hch : (s.ni dst).child = 0)
    (hdone : ∀ d, g.done (c :: ξ) d) :
    ∃ s', relocate s dst (g.pos (c :: ξ)) c next = some s' ∧ Moved s s' g ξ c dst next := by
  have hne : ∀ π, g.D π → g.pos π ≠ dst := fun π hd c => h.not_hole hd ((hh _).mpr c)
  unfold relocate
  dsimp only
  generalize hs1 : s.setSibling dst next = s1
  have a1 : s1.arr = s.arr := by rw [← hs1]; rfl
  have b1 : s1.blk = s.blk := by rw [← hs1]; rfl
  have h1 : s1.head = s.head := by rw [← hs1]; rfl
  have z1 : s1.size = s.size := by rw [← hs1]; rfl
  have n1 : ∀ m, m ≠ dst → s1.ni m = s.ni m := by
    intro m hm; rw [← hs1]; simp only [St.setSibling]; rw [upd_ne _ _ hm]
  have n1d : s1.ni dst = ⟨next, 0⟩ := by
    rw [← hs1]; simp [St.setSibling, hch]
  rw [a1]
  generalize hs2 : s1.setBase dst (s.arr (g.pos (c :: ξ))).base = s2
  have a2 : ∀ m, m ≠ dst → s2.arr m = s.arr m := by
    intro m hm; rw [← hs2, ← a1]; simp only [St.setBase]; rw [upd_ne _ _ hm]
  have a2d : s2.arr dst = ⟨(s.arr (g.pos (c :: ξ))).base, (s.arr dst).check⟩ := by
    rw [← hs2, ← a1]; simp [St.setBase]
  have b2 : s2.blk = s.blk := by rw [← hs2]; exact b1
  have h2 : s2.head = s.head := by rw [← hs2]; exact h1
  have z2 : s2.size = s.size := by rw [← hs2]; exact z1
  have n2 : s2.ni = s1.ni := by rw [← hs2]; rfl
  rw [a2d]
  by_cases hcond : 0 < (s.arr (g.pos (c :: ξ))).base ∧ c ≠ 0
  · rw [if_pos hcond]
    -- the node has children
    have hkid : ∃ d, g.Q (c :: ξ) d := by
      by_contra hc
      have := h.leaf _ hd (by simp) (by simp [Inner]; exact hcond.2) (fun d hq => hc ⟨d, hq⟩)
      omega
    obtain ⟨d0, hd0⟩ := hkid
    have hfirst := h.first d0 _ hd0
    generalize hs3 : s2.setChild dst (s2.ni (g.pos (c :: ξ))).child = s3
    have hold : s2.ni (g.pos (c :: ξ)) = s.ni (g.pos (c :: ξ)) := by rw [n2, n1 _ (hne _ hd)]
    have a3 : s3.arr = s2.arr := by rw [← hs3]; rfl
    have n3 : ∀ m, m ≠ dst → s3.ni m = s.ni m := by
      intro m hm; rw [← hs3]; simp only [St.setChild]; rw [upd_ne _ _ hm, n2, n1 m hm]
    have n3d : s3.ni dst = ⟨next, (s.ni (g.pos (c :: ξ))).child⟩ := by
      rw [← hs3, hold]; simp [St.setChild, n2, n1d]
    rw [a3, a2d, n3d]
    dsimp only
    have hch0 := h.chain (c :: ξ) (fun d _ => hdone d)
    have hcells : ∀ d, g.Q (c :: ξ) d → g.D (d :: c :: ξ) ∧
        slot (s.arr (g.pos (c :: ξ))).base d = g.pos (d :: c :: ξ) := by
      intro d hq
      rcases h.cell hq (hdone d) with h1 | ⟨h1, _⟩
      · exact h1
      · simp at h1
    have hch3 : Chain s3.ni (s.arr (g.pos (c :: ξ))).base (g.Q (c :: ξ)) := by
      refine ⟨hch0.lt, fun d hq => ?_⟩
      obtain ⟨c1, c2⟩ := hcells d hq
      have := hch0.sib d hq
      rw [c2] at this ⊢
      rw [n3 _ (hne _ c1)]; exact this
    obtain ⟨s4, e1, e2⟩ := adopt_spec (dst := dst) 257 s3 _ hch3 hfirst.1 (by omega)
    refine ⟨s4, e1, ?_, ?_, ?_, ?_, ?_, ?_, ?_, ?_⟩
    · rw [e2.blk, ← hs3]; exact b2
    · rw [e2.head, ← hs3]; exact h2
    · rw [e2.size, ← hs3]; exact z2
    · rw [e2.other, a3, a2d]
      rintro d ⟨hq, _⟩ he
      rw [(hcells d hq).2] at he
      exact hne _ (hcells d hq).1 he.symm
    · intro d hdd
      have hq := h.dq d _ hdd
      refine node_ext ?_ ?_
      · rw [e2.base, a3, a2 _ (hne _ hdd)]
      · rw [← (hcells d hq).2, e2.new d ⟨hq, hfirst.2 d hq⟩]
    · intro m hm hm'
      rw [e2.other, a3, a2 m hm]
      rintro d ⟨hq, _⟩ he
      rw [(hcells d hq).2] at he
      exact hm' d (hcells d hq).1 he
    · rw [e2.ni, n3d]
    · intro m hm; rw [e2.ni, n3 m hm]
  · rw [if_neg hcond]
    have hnok : ∀ d, ¬ g.Q (c :: ξ) d := by
      intro d hq
      have h3 := h.big d _ hd (by simp) hq
      have h4 := (h.qlt d _ hq).2.1
      refine hcond ⟨by omega, ?_⟩
      rintro rfl
      exact h4 rfl
    have hnod : ∀ d, ¬ g.D (d :: c :: ξ) := fun d hdd => hnok d (h.dq d _ hdd)
    refine ⟨s2, rfl, b2, h2, z2, a2d, fun d hdd => absurd hdd (hnod d), fun m hm _ => a2 m hm, ?_, ?_⟩
    · rw [n2, n1d, h.nochild _ hd hnok]
    · intro m hm; rw [n2, n1 m hm]

/-- The state of the loop: the labels `todo` of the node `ξ` are still at the old base. -/
structure Loop (s : St) (g : Gh) (ξ : List Nat) (B : Nat) (todo : List Nat) : Prop where
  inv : GInv s g
  hole : ∀ m, ¬ g.hole m
  node : g.D ξ
  ne : ξ ≠ []
  base : (s.arr (g.pos ξ)).base = B
  big : 256 ≤ B
  lt : B < s.size
  done : ∀ π c, g.done π c ↔ (π ≠ ξ ∨ c ∉ todo)
  fits : ∀ c ∈ todo, (s.arr (slot B c)).check < 0
  abig : 256 ≤ g.A
  sorted : ∃ dn, (dn ++ todo).Pairwise (· < ·) ∧ ∀ k, k ∈ dn ++ todo ↔ g.Q ξ k

theorem slot_div (b : Int) (c : Nat) (hc : c < 256) : slot b c / 256 = b.toNat / 256 :=
  xor_div _ _ hc

namespace Loop
variable {s : St} {g : Gh} {ξ : List Nat} {B c : Nat} {todo : List Nat}

theorem clt (h : Loop s g ξ B (c :: todo)) : c < 256 := by
  obtain ⟨dn, _, h2⟩ := h.sorted
  exact (h.inv.qlt c ξ ((h2 c).mp (by simp))).1

theorem next (h : Loop s g ξ B (c :: todo)) : Next (g.Q ξ) c (todo.headD 0) := by
  obtain ⟨dn, h1, h2⟩ := h.sorted
  exact next_of_sorted h1 h2

theorem notin (h : Loop s g ξ B (c :: todo)) : c ∉ todo := by
  obtain ⟨dn, h1, _⟩ := h.sorted
  have := (List.pairwise_cons.mp (List.pairwise_append.mp h1).2.1).1
  intro hc; have := this c hc; omega

theorem tail_sorted (h : Loop s g ξ B (c :: todo)) :
    ∃ dn, (dn ++ todo).Pairwise (· < ·) ∧ ∀ k, k ∈ dn ++ todo ↔ g.Q ξ k := by
  obtain ⟨dn, h1, h2⟩ := h.sorted
  exact ⟨dn ++ [c], by simpa using h1, by simpa using h2⟩

theorem slot_ok (h : Loop s g ξ B (c :: todo)) : slot B c ≠ 0 ∧ slot B c < s.size ∧
    (s.arr (slot B c)).check < 0 := by
  have h1 := slot_div B c h.clt
  have h2 := h.big
  have h3 := h.lt
  have h4 := h.inv.alloc.size_mod
  have h5 : (B : Int).toNat = B := by simp
  rw [h5] at h1
  exact ⟨by intro e; rw [e] at h1; omega, by omega, h.fits c (by simp)⟩

/-- What taking the new slot gives. -/
theorem take (h : Loop s g ξ B (c :: todo)) :
    ∃ s1, takeSlot s (slot B c) c (g.pos ξ) = s1 ∧ GInv s1 { g with hole := (· = slot B c) } ∧
      (∀ π, g.D π → s1.arr (g.pos π) = s.arr (g.pos π)) ∧ s1.ni = s.ni ∧ s1.size = s.size ∧
      s1.arr (slot B c) = ⟨if c ≠ 0 then -1 else 0, g.pos ξ⟩ ∧ (s1.ni (slot B c)).child = 0 ∧
      Used s1 (slot B c) ∧ ∀ d ∈ todo, (s1.arr (slot B d)).check < 0 := by
  obtain ⟨h1, h2, h3⟩ := h.slot_ok
  obtain ⟨t1, t2, t3, t4, t5, t6, t7⟩ := h.inv.take h.hole c (g.pos ξ) h1 h2 h3
  refine ⟨_, rfl, t1, t2, t3, t4, t5, t6, ⟨h1, by rw [t4]; exact h2, by rw [t5]; exact Int.natCast_nonneg _⟩, ?_⟩
  intro d hd
  refine t7 _ ?_ (h.fits d (by simp [hd]))
  intro e
  have := slot_inj e
  exact h.notin (this ▸ hd)

/-- Moving a child: the state before its old slot is given back. -/
theorem move (h : Loop s g ξ B (c :: todo)) (hd : g.D (c :: ξ)) :
    ∃ s1 s2, takeSlot s (slot B c) c (g.pos ξ) = s1 ∧
      relocate s1 (slot B c) (slot g.A c) c (todo.headD 0) = some s2 ∧
      GInv s2 (g.move ξ c (slot B c)) ∧ Used s2 (slot g.A c) ∧ g.pos (c :: ξ) = slot g.A c ∧
      s2.size = s.size ∧
      (∀ π, g.D π → (s2.arr ((g.move ξ c (slot B c)).pos π)).base = (s.arr (g.pos π)).base) ∧
      (∀ d ∈ todo, (s2.arr (slot B d)).check < 0) := by
  obtain ⟨s1, e1, t1, t2, t3, t4, t5, t6, t7, t8⟩ := h.take
  have hold : g.pos (c :: ξ) = slot g.A c := by
    refine h.inv.old c ξ hd ?_
    rw [h.done]; simp
  have hdone : ∀ d, g.done (c :: ξ) d := by
    intro d; rw [h.done]; exact Or.inl (cons_ne c ξ)
  obtain ⟨s2, r1, r2⟩ := relocate_spec (g := { g with hole := (· = slot B c) }) (next := todo.headD 0) t1
    (fun m => Iff.rfl) hd t6 hdone
  have hb := t1.moved_base (fun m => Iff.rfl) r2
  have hm := t1.moved (fun m => Iff.rfl) hd t7
    (by show slot B c = slot (s1.arr (g.pos ξ)).base c; rw [t2 ξ h.node, h.base])
    (by rw [t5]) h.next r2
  have hpos : (({ g with hole := (· = slot B c) } : Gh).pos (c :: ξ)) = g.pos (c :: ξ) := rfl
  rw [hpos, hold] at r1
  refine ⟨s1, s2, e1, r1, hm, ?_, hold, by rw [r2.size, t4], ?_, ?_⟩
  · -- the old slot is still in use
    have hu := (t1.used c ξ hd).1
    have hx : s2.arr (g.pos (c :: ξ)) = s1.arr (g.pos (c :: ξ)) := by
      refine r2.arr _ (fun e => t1.not_hole hd e) ?_
      intro d hd' e
      have e' := t1.inj _ _ hd hd' e
      exact cons_ne d (c :: ξ) e'.symm
    rw [← hold]
    exact ⟨hu.1, by rw [r2.size]; exact hu.2.1, by rw [hx]; exact hu.2.2⟩
  · intro π hp
    have := hb π hp
    rw [show (({ g with hole := (· = slot B c) } : Gh).pos π) = g.pos π from rfl, t2 π hp] at this
    exact this
  · intro d hd'
    have h3 := t8 d hd'
    rw [r2.arr]
    · exact h3
    · intro e
      have := slot_inj e
      exact h.notin (this ▸ hd')
    · intro k hk e
      have := (t1.used k _ hk).1.2.2
      have e' : slot B d = g.pos (k :: c :: ξ) := e
      rw [e'] at h3
      have e2 : ({ g with hole := (· = slot B c) } : Gh).pos (k :: c :: ξ) = g.pos (k :: c :: ξ) := rfl
      rw [e2] at this
      omega

theorem pos_of_ne {κ π : List Nat} {x : Nat} (h : π ≠ κ) : updP g.pos κ x π = g.pos π := updP_ne _ _ h

theorem done_tail (h : Loop s g ξ B (c :: todo)) (π : List Nat) (d : Nat) :
    (g.done π d ∨ (π = ξ ∧ d = c)) ↔ (π ≠ ξ ∨ d ∉ todo) := by
  rw [h.done]
  have := h.notin
  by_cases h1 : π = ξ
  · simp only [h1, ne_eq, not_true_eq_false, List.mem_cons, not_or, false_or, true_and]
    by_cases h2 : d = c
    · simp [h2, this]
    · simp [h2]
  · simp [h1]

/-- Moving a child and giving back its old slot. -/
theorem step (h : Loop s g ξ B (c :: todo)) (hd : g.D (c :: ξ)) :
    ∃ s1 s2, takeSlot s (slot B c) c (g.pos ξ) = s1 ∧
      relocate s1 (slot B c) (slot g.A c) c (todo.headD 0) = some s2 ∧
      Loop (pushEnode s2 (slot g.A c)) { g.move ξ c (slot B c) with hole := fun _ => False } ξ B todo ∧
      ∀ π, g.D π → ((pushEnode s2 (slot g.A c)).arr ((g.move ξ c (slot B c)).pos π)).base =
        (s.arr (g.pos π)).base := by
  obtain ⟨s1, s2, e1, e2, m1, m2, m3, m4, m5, m6⟩ := h.move hd
  have ha : 256 ≤ slot g.A c := by
    have h1 := slot_div g.A c h.clt
    have h2 := h.abig
    omega
  obtain ⟨v1, v2, v3, v4⟩ := m1.give (e := slot g.A c)
    (fun m => by show m = g.pos (c :: ξ) ↔ _; rw [m3]) m2 ha
  have hbase : ∀ π, g.D π → ((pushEnode s2 (slot g.A c)).arr ((g.move ξ c (slot B c)).pos π)).base =
        (s.arr (g.pos π)).base := by
    intro π hp; rw [v2 π hp]; exact m5 π hp
  refine ⟨s1, s2, e1, e2, ⟨v1, fun _ c => c, h.node, h.ne, ?_, h.big, by rw [v3, m4]; exact h.lt, ?_, ?_,
    h.abig, h.tail_sorted⟩, hbase⟩
  · exact (hbase ξ h.node).trans h.base
  · exact h.done_tail
  · intro d hd'; exact v4 _ (m6 d hd')

/-- The new node, in the move of its own siblings. -/
theorem stepNew (h : Loop s g ξ B (c :: todo)) (hd : ¬ g.D (c :: ξ)) (hv : c = 0 → g.val (c :: ξ) = 0) :
    ∃ s1, takeSlot s (slot B c) c (g.pos ξ) = s1 ∧
      Loop (s1.setSibling (slot B c) (todo.headD 0)) (g.plant ξ c (slot B c)) ξ B todo := by
  obtain ⟨s1, e1, t1, t2, t3, t4, t5, t6, t7, t8⟩ := h.take
  have hq : g.Q ξ c := by
    obtain ⟨dn, _, h2⟩ := h.sorted
    exact (h2 c).mp (by simp)
  have hQ : (fun k => g.Q ξ k ∨ k = c) = g.Q ξ := by
    funext k; exact propext ⟨fun e => e.elim id (fun e => e ▸ hq), Or.inl⟩
  have hbase : (s1.arr (g.pos ξ)).base = B := by rw [t2 ξ h.node, h.base]
  have hpl : Planted s1 (s1.setSibling (slot B c) (todo.headD 0)) { g with hole := (· = slot B c) } ξ c
      (slot B c) B := by
    refine ⟨rfl, rfl, rfl, t5, node_ext hbase rfl, fun m _ _ => rfl, ?_, ?_, ?_, ?_, ?_⟩
    · rw [child_setSibling]; exact t6
    · intro m _ _; rw [child_setSibling]
    · rw [child_setSibling]
      show First (fun k => g.Q ξ k ∨ k = c) _
      rw [hQ]; exact t1.first c ξ hq
    · intro d hd1 hd2
      show Next (fun k => g.Q ξ k ∨ k = c) _ _
      rw [hQ, sibling_setSibling]
      by_cases hdc : d = c
      · rw [if_pos (by rw [hdc]), hdc]; exact h.next
      · rw [if_neg (fun e => hdc (slot_inj e))]
        have := t1.sib d ξ (hd1.resolve_right hdc) (hd2.resolve_right hdc)
        have hb : (s1.arr (({ g with hole := (· = slot B c) } : Gh).pos ξ)).base = B := hbase
        rw [hb] at this
        exact this
    · intro m hm
      rw [sibling_setSibling, if_neg (hm c (Or.inr rfl) (Or.inr rfl))]
  have hin : Inner ξ := (h.inv.qlt c ξ hq).2.1
  have hP := t1.planted (fun m => Iff.rfl) h.node hin hd h.clt (fun e => absurd e h.ne) t7 rfl
    (Or.inl hbase.symm) (fun _ => by have := h.big; omega) (fun e => absurd e h.ne) hv hpl
  refine ⟨s1, e1, ⟨hP, fun _ c => c, Or.inl h.node, h.ne, ?_, h.big, by show B < s1.size; rw [t4]; exact h.lt, ?_, ?_, h.abig, ?_⟩⟩
  · show (s1.arr (updP g.pos (c :: ξ) (slot B c) ξ)).base = B
    rw [updP_ne _ _ (cons_ne c ξ).symm]; exact hbase
  · exact h.done_tail
  · exact t8
  · obtain ⟨dn, h1, h2⟩ := h.tail_sorted
    refine ⟨dn, h1, fun k => ?_⟩
    show _ ↔ g.Q ξ k ∨ (ξ = ξ ∧ k = c)
    rw [h2]
    exact ⟨Or.inl, fun e => e.elim id (fun e => e.2 ▸ hq)⟩

end Loop

/-- One round, in terms of `relocate`. -/
theorem moveOne_eq (m : Move) (s : St) (srcN label next : Nat) (hb : 0 ≤ m.newBase)
    (hc : ¬ (m.flag = true ∧ slot m.oldBase label = m.toPN)) :
    moveOne m s srcN label next =
      match relocate (takeSlot s (slot m.newBase label) label m.src) (slot m.newBase label)
        (slot m.oldBase label) label next with
      | none => none
      | some s =>
        let srcN := if ¬ m.flag ∧ slot m.oldBase label = srcN then slot m.newBase label else srcN
        if ¬ m.flag ∧ slot m.oldBase label = m.toPN then
          match pushSibling s srcN ((m.toPN ^^^ m.labelN : Nat) : Int) m.labelN true with
          | none => none
          | some s =>
            let s := s.setChild (slot m.oldBase label) 0
            some (s.setNode (slot m.oldBase label) ⟨if m.labelN ≠ 0 then -1 else 0, srcN⟩, srcN)
        else some (pushEnode s (slot m.oldBase label), srcN) := by
  unfold moveOne popEnode relocate
  have h1 : ¬ m.newBase < 0 := by omega
  simp only [if_neg h1, if_neg hc]
  rfl

/-- The loop when the children of the node that gets the new child are moved. -/
theorem moveAll_flag {m : Move} {ξ : List Nat} {B x : Nat} (hf : m.flag = true) (hB : m.newBase = B)
    (hpn : m.toPN = slot m.oldBase x) :
    ∀ (todo : List Nat) (s : St) (g : Gh), Loop s g ξ B todo → g.pos ξ = m.src → g.A = m.oldBase →
      (∀ c ∈ todo, g.D (c :: ξ) ∨ c = x) → (x ∈ todo → ¬ g.D (x :: ξ)) →
      (x = 0 → g.val (x :: ξ) = 0) →
      ∃ s' g', moveAll m todo s m.src = some (s', m.src) ∧ Loop s' g' ξ B [] ∧
        (∀ π, g'.D π ↔ g.D π ∨ (π = x :: ξ ∧ x ∈ todo)) ∧ (∀ π c, g'.Q π c ↔ g.Q π c) ∧
        g'.val = g.val
  | [], s, g, h, _, _, _, _, _ =>
    ⟨s, g, rfl, h, fun π => by simp, fun _ _ => Iff.rfl, rfl⟩
  | c :: todo, s, g, h, hs, hA, hd, hx, hv => by
    have hni := h.notin
    have hslot : slot m.newBase c = slot B c := by rw [hB]
    unfold moveAll
    by_cases hc : c = x
    · subst hc
      obtain ⟨s1, e1, l1⟩ := h.stepNew (hx (by simp)) hv
      have hone : moveOne m s m.src c (todo.headD 0) =
          some (s1.setSibling (slot B c) (todo.headD 0), m.src) := by
        unfold moveOne popEnode
        have h1 : ¬ m.newBase < 0 := by omega
        rw [← e1, hs]
        simp only [if_neg h1, hf, hpn, hslot, and_self, if_true]
      rw [hone]
      dsimp only
      have hcξ : (g.plant ξ c (slot B c)).pos ξ = g.pos ξ := updP_ne _ _ (cons_ne c ξ).symm
      obtain ⟨s', g', r1, r2, r3, r4, r5⟩ := moveAll_flag hf hB hpn todo _ _ l1 (hcξ.trans hs) hA
        (fun d hd' => (hd d (by simp [hd'])).imp Or.inl id) (fun e => absurd e hni) hv
      refine ⟨s', g', r1, r2, ?_, ?_, r5⟩
      · intro π
        rw [r3]
        show ((g.D π ∨ π = c :: ξ) ∨ _) ↔ _
        simp only [List.mem_cons, true_or, and_true]
        constructor
        · rintro ((e | e) | e)
          · exact Or.inl e
          · exact Or.inr e
          · exact Or.inr e.1
        · rintro (e | e)
          · exact Or.inl (Or.inl e)
          · exact Or.inl (Or.inr e)
      · intro π d
        rw [r4]
        show (g.Q π d ∨ (π = ξ ∧ d = c)) ↔ _
        have hq : g.Q ξ c := by
          obtain ⟨dn, _, h2⟩ := h.sorted
          exact (h2 c).mp (by simp)
        constructor
        · rintro (e | ⟨e1, e2⟩)
          · exact e
          · rw [e1, e2]; exact hq
        · exact Or.inl
    · have hdc := (hd c (by simp)).resolve_right hc
      obtain ⟨s1, s2, e1, e2, l1, _⟩ := h.step hdc
      have hne : ¬ (m.flag = true ∧ slot m.oldBase c = m.toPN) := by
        rintro ⟨_, e⟩; rw [hpn] at e; exact hc (slot_inj e)
      have hone : moveOne m s m.src c (todo.headD 0) = some (pushEnode s2 (slot g.A c), m.src) := by
        rw [moveOne_eq m s m.src c _ (by omega) hne, hslot, ← hs, e1, ← hA, e2]
        simp [hf]
      rw [hone]
      dsimp only
      have hcξ : (g.move ξ c (slot B c)).pos ξ = g.pos ξ := updP_ne _ _ (cons_ne c ξ).symm
      obtain ⟨s', g', r1, r2, r3, r4, r5⟩ := moveAll_flag hf hB hpn todo _ _ l1 (hcξ.trans hs) hA
        (fun d hd' => hd d (by simp [hd'])) (fun e => hx (by simp [e])) hv
      refine ⟨s', g', r1, r2, ?_, r4, r5⟩
      intro π
      rw [r3]
      show (g.D π ∨ _) ↔ _
      simp [Ne.symm hc]

/-- The place of a node after the move of `c :: ξ`, as the loop computes it. -/
theorem srcN_eq {s : St} {g : Gh} (h : GInv s g) {ξ ν : List Nat} {c dst : Nat} (hd : g.D (c :: ξ))
    (hν : g.D ν) :
    (if g.pos (c :: ξ) = g.pos ν then dst else g.pos ν) = (g.move ξ c dst).pos ν := by
  by_cases e : ν = c :: ξ
  · rw [e, if_pos rfl]; exact (updP_self ..).symm
  · rw [if_neg (fun c => e (h.inj _ _ hd hν c).symm)]; exact (updP_ne _ _ e).symm

/-- The new node takes the old slot of the moved child. -/
theorem Loop.stepReuse {s : St} {g : Gh} {ξ ν : List Nat} {B c x : Nat} {bN : Int} {todo : List Nat}
    (h : Loop s g ξ B (c :: todo)) (hd : g.D (c :: ξ)) (hν : g.D ν) (hin : Inner ν) (hne : ν ≠ ξ)
    (hx : ¬ g.D (x :: ν)) (hlt : x < 256) (hb : (s.arr (g.pos ν)).base = bN) (hbig : 256 ≤ bN)
    (hroot : ν ≠ []) (hpn : slot g.A c = slot bN x) (hv : x = 0 → g.val (x :: ν) = 0) :
    ∃ s1 s2 s3, takeSlot s (slot B c) c (g.pos ξ) = s1 ∧
      relocate s1 (slot B c) (slot g.A c) c (todo.headD 0) = some s2 ∧
      pushSibling s2 ((g.move ξ c (slot B c)).pos ν) bN x true = some s3 ∧
      Loop ((s3.setChild (slot g.A c) 0).setNode (slot g.A c)
          ⟨if x ≠ 0 then -1 else 0, (g.move ξ c (slot B c)).pos ν⟩)
        ((g.move ξ c (slot B c)).plant ν x (slot g.A c)) ξ B todo ∧
      (((s3.setChild (slot g.A c) 0).setNode (slot g.A c)
          ⟨if x ≠ 0 then -1 else 0, (g.move ξ c (slot B c)).pos ν⟩).arr
        (((g.move ξ c (slot B c)).plant ν x (slot g.A c)).pos ν)).base = bN := by
  obtain ⟨s1, s2, e1, e2, m1, m2, m3, m4, m5, m6⟩ := h.move hd
  generalize hg1 : g.move ξ c (slot B c) = g1 at m1 m5
  have hD1 : g1.D = g.D := by rw [← hg1]; rfl
  have hQ1 : g1.Q = g.Q := by rw [← hg1]; rfl
  have hval1 : g1.val = g.val := by rw [← hg1]; rfl
  have hA1 : g1.A = g.A := by rw [← hg1]; rfl
  have hdone1 : ∀ π d, g1.done π d ↔ (π ≠ ξ ∨ d ∉ todo) := by rw [← hg1]; exact h.done_tail
  have hhole1 : ∀ i, g1.hole i ↔ i = slot g.A c := by
    intro i; rw [← hg1]; show i = g.pos (c :: ξ) ↔ _; rw [m3]
  have hν1 : g1.D ν := by rw [hD1]; exact hν
  have hbase : (s2.arr (g1.pos ν)).base = bN := by rw [m5 ν hν, hb]
  have hdν : ∀ d, g1.done ν d := fun d => (hdone1 ν d).mpr (Or.inl hne)
  have hnQ : ¬ g1.Q ν x := by
    intro hq
    rcases m1.settled x ν hq (hdν x) with e | ⟨e, _⟩
    · rw [hD1] at e; exact hx e
    · exact hroot e
  have hkid : ∃ d, g1.Q ν d := by
    by_contra hc
    have := m1.leaf ν hν1 hroot hin (fun d hq => hc ⟨d, hq⟩)
    omega
  obtain ⟨d0, hd0⟩ := hkid
  have hch := m1.chain ν (fun d _ => hdν d)
  rw [hbase] at hch
  obtain ⟨s3, p1, p2⟩ := pushSibling_spec (x := x) hch (m1.first d0 ν hd0) hnQ
  have hpn' : g1.pos ν ≠ slot g.A c := fun e => m1.not_hole hν1 ((hhole1 _).mpr e)
  have hpl : Planted s2 ((s3.setChild (slot g.A c) 0).setNode (slot g.A c)
      ⟨if x ≠ 0 then -1 else 0, g1.pos ν⟩) g1 ν x (slot g.A c) bN := by
    refine ⟨p2.blk, p2.head, p2.size, ?_, ?_, ?_, ?_, ?_, ?_, ?_, ?_⟩
    · simp [St.setNode]
    · refine node_ext ?_ ?_
      · simp only [St.setNode, St.setChild]; rw [upd_ne _ _ hpn', p2.arr, hbase]
      · simp only [St.setNode, St.setChild]; rw [upd_ne _ _ hpn', p2.arr]
    · intro i hi hi'
      simp only [St.setNode, St.setChild]; rw [upd_ne _ _ hi, p2.arr]
    · simp [St.setNode, St.setChild]
    · intro i hi hi'
      simp only [St.setNode, St.setChild]; rw [upd_ne _ _ hi, p2.child i hi']
    · simp only [St.setNode, St.setChild]; rw [upd_ne _ _ hpn']; exact p2.first
    · intro d hq _
      have := p2.sib d hq
      show Next _ _ ((s3.setChild (slot g.A c) 0).ni (slot bN d)).sibling
      rw [sibling_setChild]; exact this
    · intro i hi
      show ((s3.setChild (slot g.A c) 0).ni i).sibling = _
      rw [sibling_setChild]
      exact p2.other i (fun d hq => hi d hq (Or.inl (hdν d)))
  have hP := m1.planted hhole1 hν1 hin (by rw [hD1]; exact hx) hlt (fun e => absurd e hroot) m2 hpn
    (Or.inl hbase.symm) (fun _ => hbig) (fun e => absurd e hroot) (by rw [hval1]; exact hv) hpl
  have hpos1 : ∀ π, g1.D π → (g1.plant ν x (slot g.A c)).pos π = g1.pos π :=
    fun π hp => updP_ne _ _ (fun e => hx (by rw [← hD1, ← e]; exact hp))
  refine ⟨s1, s2, s3, e1, e2, p1, ⟨hP, fun _ c => c, ?_, h.ne, ?_, h.big, ?_, ?_, ?_, ?_, ?_⟩, ?_⟩
  · left; rw [hD1]; exact h.node
  · have hξ1 : g1.D ξ := by rw [hD1]; exact h.node
    rw [hpos1 ξ hξ1, hpl.arr _ (fun e => m1.not_hole hξ1 ((hhole1 _).mpr e))
      (fun e => hne (m1.inj _ _ hξ1 hν1 e).symm), m5 ξ h.node, h.base]
  · rw [hpl.size, m4]; exact h.lt
  · intro π d
    show (g1.done π d ∨ (π = ν ∧ d = x)) ↔ _
    rw [hdone1]
    constructor
    · rintro (e | ⟨e, _⟩)
      · exact e
      · left; rw [e]; exact hne
    · exact Or.inl
  · intro d hd'
    have h3 := m6 d hd'
    rw [hpl.arr]
    · exact h3
    · intro e; rw [e] at h3; have := m2.2.2; omega
    · intro e; rw [e] at h3; have := (m1.usedD hν1 hroot).2.2; omega
  · show 256 ≤ g1.A
    rw [hA1]; exact h.abig
  · obtain ⟨dn, h1, h2⟩ := h.tail_sorted
    refine ⟨dn, h1, fun k => ?_⟩
    show _ ↔ g1.Q ξ k ∨ (ξ = ν ∧ k = x)
    rw [h2, hQ1]
    exact ⟨Or.inl, fun e => e.elim id (fun e => absurd e.1.symm hne)⟩
  · rw [hpos1 ν hν1, hpl.parent]

/-- The loop when the children of the other node are moved. -/
theorem moveAll_other {m : Move} {ξ ν : List Nat} {B x : Nat} {bN : Int} (hf : m.flag = false)
    (hB : m.newBase = B) (hpn : m.toPN = slot bN x) (hl : m.labelN = x) (hin : Inner ν) (hne : ν ≠ ξ)
    (hlt : x < 256) (hbig : 256 ≤ bN) (hroot : ν ≠ []) :
    ∀ (todo : List Nat) (s : St) (g : Gh), Loop s g ξ B todo → g.pos ξ = m.src → g.A = m.oldBase →
      (∀ c ∈ todo, g.D (c :: ξ)) → g.D ν → (s.arr (g.pos ν)).base = bN →
      ((∃ c ∈ todo, slot g.A c = slot bN x) → ¬ g.D (x :: ν)) → (x = 0 → g.val (x :: ν) = 0) →
      ∃ s' g', moveAll m todo s (g.pos ν) = some (s', g'.pos ν) ∧ Loop s' g' ξ B [] ∧
        (∀ π, g'.D π ↔ g.D π ∨ (π = x :: ν ∧ ∃ c ∈ todo, slot g.A c = slot bN x)) ∧
        (∀ π c, g'.Q π c ↔ g.Q π c ∨ (π = ν ∧ c = x ∧ ∃ c ∈ todo, slot g.A c = slot bN x)) ∧
        g'.val = g.val ∧ (s'.arr (g'.pos ν)).base = bN
  | [], s, g, h, _, _, _, _, hb, _, _ =>
    ⟨s, g, rfl, h, fun π => by simp, fun _ _ => by simp, rfl, hb⟩
  | c :: todo, s, g, h, hs, hA, hd, hν, hb, hx, hv => by
    have hni := h.notin
    have hslot : slot m.newBase c = slot B c := by rw [hB]
    have hdc := hd c (by simp)
    have hold : g.pos (c :: ξ) = slot g.A c := h.inv.old c ξ hdc (by rw [h.done]; simp)
    have hne' : ¬ (m.flag = true ∧ slot m.oldBase c = m.toPN) := by rw [hf]; simp
    have hcξ : (g.move ξ c (slot B c)).pos ξ = g.pos ξ := updP_ne _ _ (cons_ne c ξ).symm
    have hsrc := srcN_eq h.inv (dst := slot B c) hdc hν
    rw [hold] at hsrc
    unfold moveAll
    by_cases hc : slot g.A c = slot bN x
    · obtain ⟨s1, s2, s3, e1, e2, e3, l1, l2⟩ := h.stepReuse hdc hν hin hne (hx ⟨c, by simp, hc⟩) hlt hb hbig
        hroot hc hv
      have hxor : ((m.toPN ^^^ m.labelN : Nat) : Int) = bN := by
        rw [hpn, hl]
        unfold slot
        rw [Nat.xor_assoc, Nat.xor_self, Nat.xor_zero]
        omega
      have hone : moveOne m s (g.pos ν) c (todo.headD 0) =
          some ((s3.setChild (slot g.A c) 0).setNode (slot g.A c)
            ⟨if x ≠ 0 then -1 else 0, (g.move ξ c (slot B c)).pos ν⟩,
            (g.move ξ c (slot B c)).pos ν) := by
        rw [moveOne_eq m s (g.pos ν) c _ (by omega) hne', hslot, ← hs, e1, ← hA, e2]
        have hc' : slot g.A c = m.toPN := hc.trans hpn.symm
        rw [hl] at hxor
        simp only [hf, hsrc, if_pos hc', hl, hxor, e3, Bool.false_eq_true, not_false_eq_true, true_and]
      rw [hone]
      dsimp only
      have hpν : ((g.move ξ c (slot B c)).plant ν x (slot g.A c)).pos ν = (g.move ξ c (slot B c)).pos ν :=
        updP_ne _ _ (cons_ne x ν).symm
      have hpξ : ((g.move ξ c (slot B c)).plant ν x (slot g.A c)).pos ξ = (g.move ξ c (slot B c)).pos ξ :=
        updP_ne _ _ (fun e => (hx ⟨c, by simp, hc⟩) (by rw [← e]; exact h.node))
      have hno : ¬ ∃ d ∈ todo, slot g.A d = slot bN x := by
        rintro ⟨d, hd1, hd2⟩
        rw [← hc] at hd2
        exact hni (slot_inj hd2 ▸ hd1)
      obtain ⟨s', g', r1, r2, r3, r4, r5, r6⟩ := moveAll_other hf hB hpn hl hin hne hlt hbig hroot todo _ _ l1
        (hpξ.trans (hcξ.trans hs)) hA (fun d hd' => Or.inl (hd d (by simp [hd']))) (Or.inl hν) l2
        (fun e => absurd e hno) hv
      rw [hpν] at r1
      refine ⟨s', g', r1, r2, ?_, ?_, r5, r6⟩
      · intro π
        rw [r3]
        show ((g.D π ∨ π = x :: ν) ∨ (_ ∧ ∃ d ∈ todo, slot g.A d = slot bN x)) ↔ _
        have hyes : ∃ d ∈ c :: todo, slot g.A d = slot bN x := ⟨c, by simp, hc⟩
        constructor
        · rintro ((e | e) | e)
          · exact Or.inl e
          · exact Or.inr ⟨e, hyes⟩
          · exact absurd e.2 hno
        · rintro (e | e)
          · exact Or.inl (Or.inl e)
          · exact Or.inl (Or.inr e.1)
      · intro π d
        rw [r4]
        show ((g.Q π d ∨ (π = ν ∧ d = x)) ∨ (_ ∧ _ ∧ ∃ d ∈ todo, slot g.A d = slot bN x)) ↔ _
        have hyes : ∃ d ∈ c :: todo, slot g.A d = slot bN x := ⟨c, by simp, hc⟩
        constructor
        · rintro ((e | e) | e)
          · exact Or.inl e
          · exact Or.inr ⟨e.1, e.2, hyes⟩
          · exact absurd e.2.2 hno
        · rintro (e | e)
          · exact Or.inl (Or.inl e)
          · exact Or.inl (Or.inr ⟨e.1, e.2.1⟩)
    · obtain ⟨s1, s2, e1, e2, l1, l2⟩ := h.step hdc
      have hpnc : ¬ slot m.oldBase c = m.toPN := by rw [hpn, ← hA]; exact hc
      have hone : moveOne m s (g.pos ν) c (todo.headD 0) =
          some (pushEnode s2 (slot g.A c), (g.move ξ c (slot B c)).pos ν) := by
        rw [moveOne_eq m s (g.pos ν) c _ (by omega) hne', hslot, ← hs, e1, ← hA, e2]
        have hpnc' : ¬ slot g.A c = m.toPN := by rw [hA]; exact hpnc
        simp only [hf, hsrc, hpnc', if_false, Bool.false_eq_true, not_false_eq_true, true_and]
      rw [hone]
      dsimp only
      obtain ⟨s', g', r1, r2, r3, r4, r5, r6⟩ := moveAll_other hf hB hpn hl hin hne hlt hbig hroot todo _ _ l1
        (hcξ.trans hs) hA (fun d hd' => hd d (by simp [hd'])) hν ((l2 ν hν).trans hb)
        (fun ⟨d, h1, h2⟩ => hx ⟨d, by simp [h1], h2⟩) hv
      have hiff : (∃ d ∈ c :: todo, slot g.A d = slot bN x) ↔ ∃ d ∈ todo, slot g.A d = slot bN x := by
        constructor
        · rintro ⟨d, h1, h2⟩
          rcases List.mem_cons.mp h1 with rfl | h1
          · exact absurd h2 hc
          · exact ⟨d, h1, h2⟩
        · rintro ⟨d, h1, h2⟩; exact ⟨d, by simp [h1], h2⟩
      refine ⟨s', g', r1, r2, ?_, ?_, r5, r6⟩
      · intro π; rw [r3, hiff]; exact Iff.rfl
      · intro π d; rw [r4, hiff]; exact Iff.rfl

end Verif.Cedar
