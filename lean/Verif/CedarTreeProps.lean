import Verif.CedarChainProps
/-
The tree in the double array.  Nodes are named by the path from the root, last label first; `pos`
says in which slot a node is.
-/
namespace Verif.Cedar

def Used (s : St) (m : Nat) : Prop := m ≠ 0 ∧ m < s.size ∧ 0 ≤ (s.arr m).check

/-- The tree behind a state.  `D`: the nodes; `Q`: the labels in the chain of a node; `val`: the
values of the ends of keys; `done`, `A`: in the middle of a move, which children are at their new
place, and the old base; `hole`: slots in use that are not in the tree. -/
structure Gh where
  D : List Nat → Prop
  Q : List Nat → Nat → Prop
  pos : List Nat → Nat
  val : List Nat → Int
  done : List Nat → Nat → Prop
  A : Int
  hole : Nat → Prop

/-- Not the end of a key. -/
def Inner (π : List Nat) : Prop := π.head? ≠ some 0

structure GInv (s : St) (g : Gh) : Prop where
  alloc : AInv s
  rootD : g.D []
  rootPos : g.pos [] = 0
  rootBase : (s.arr 0).base = 0
  rootQ : g.Q [] 0
  clos : ∀ c π, g.D (c :: π) → g.D π ∧ c < 256 ∧ Inner π ∧ (π = [] → c ≠ 0)
  inj : ∀ π π', g.D π → g.D π' → g.pos π = g.pos π' → π = π'
  used : ∀ c π, g.D (c :: π) → Used s (g.pos (c :: π)) ∧ (s.arr (g.pos (c :: π))).check = g.pos π ∧
    ¬ g.hole (g.pos (c :: π))
  only : ∀ m, Used s m → g.hole m ∨ ∃ c π, g.D (c :: π) ∧ g.pos (c :: π) = m
  place : ∀ c π, g.D (c :: π) → g.done π c → g.pos (c :: π) = slot (s.arr (g.pos π)).base c
  old : ∀ c π, g.D (c :: π) → ¬ g.done π c → g.pos (c :: π) = slot g.A c
  big : ∀ c π, g.D π → π ≠ [] → g.Q π c → 256 ≤ (s.arr (g.pos π)).base
  leaf : ∀ π, g.D π → π ≠ [] → Inner π → (∀ c, ¬ g.Q π c) → (s.arr (g.pos π)).base = -1
  value : ∀ π, g.D (0 :: π) → (s.arr (g.pos (0 :: π))).base = g.val (0 :: π)
  dq : ∀ c π, g.D (c :: π) → g.Q π c
  qlt : ∀ c π, g.Q π c → c < 256 ∧ Inner π ∧ g.D π
  settled : ∀ c π, g.Q π c → g.done π c → g.D (c :: π) ∨ (π = [] ∧ c = 0)
  first : ∀ c π, g.Q π c → First (g.Q π) (s.ni (g.pos π)).child
  nochild : ∀ π, g.D π → (∀ c, ¬ g.Q π c) → (s.ni (g.pos π)).child = 0
  sib : ∀ c π, g.Q π c → g.done π c →
    Next (g.Q π) c (s.ni (slot (s.arr (g.pos π)).base c)).sibling
  free : ∀ m, ¬ Used s m → m ≠ 0 → (s.ni m).child = 0
  hole0 : ¬ g.hole 0

/-- The allocator only looks at the empty slots. -/
theorem AInv.frame {s s' : St} (h : AInv s) (hb : s'.blk = s.blk) (hh : s'.head = s.head)
    (hs : s'.size = s.size) (he : ∀ m, m ≠ 0 → (s.arr m).check < 0 → s'.arr m = s.arr m)
    (hu : ∀ m, m ≠ 0 → 0 ≤ (s.arr m).check → 0 ≤ (s'.arr m).check) : AInv s' := by
  have hm : ∀ l x, member s' l x ↔ member s l x := by
    intro l x; cases l <;> simp only [member, hb, hs]
  refine ⟨by rw [hs]; exact h.size_mod, by rw [hs]; exact h.size_pos, ?_, by rw [hb]; exact h.trial, ?_,
    by rw [hb, hs]; exact h.fresh⟩
  · intro b hbs
    rw [hs] at hbs
    obtain ⟨l, r, m, n, e⟩ := h.blocks b hbs
    refine ⟨l, ?_, ?_, by rw [hb, n], by rw [hb]; exact e⟩
    · refine r.congr ?_ ?_ <;>
      · intro x hx
        have := (m x).mp hx
        simp only [snx, spv, he x this.1 this.2.2]
    · intro x
      rw [m x]
      constructor
      · rintro ⟨h1, h2, h3⟩; exact ⟨h1, h2, by rw [he x h1 h3]; exact h3⟩
      · rintro ⟨h1, h2, h3⟩
        refine ⟨h1, h2, ?_⟩
        have := hu x h1
        omega
  · refine Lists.congrP (P := member s) ?_ hm
    refine h.lists.congr ?_ ?_ hh
    · funext x; simp only [bnx, hb]
    · funext x; simp only [bpv, hb]

namespace GInv
variable {s s' : St} {g : Gh}

theorem usedD (h : GInv s g) {π : List Nat} (hd : g.D π) (hn : π ≠ []) : Used s (g.pos π) := by
  cases π with
  | nil => exact absurd rfl hn
  | cons c π => exact (h.used c π hd).1

theorem pos_ne_zero (h : GInv s g) {π : List Nat} (hd : g.D π) (hn : π ≠ []) : g.pos π ≠ 0 :=
  (h.usedD hd hn).1

/-- The slot of a label of a chain. -/
theorem cell (h : GInv s g) {c : Nat} {π : List Nat} (hq : g.Q π c) (hd : g.done π c) :
    (g.D (c :: π) ∧ slot (s.arr (g.pos π)).base c = g.pos (c :: π)) ∨
      (π = [] ∧ c = 0 ∧ slot (s.arr (g.pos π)).base c = g.pos []) := by
  rcases h.settled c π hq hd with h1 | ⟨h1, h2⟩
  · exact Or.inl ⟨h1, (h.place c π h1 hd).symm⟩
  · subst h1 h2
    refine Or.inr ⟨rfl, rfl, ?_⟩
    rw [h.rootPos, h.rootBase]; rfl

theorem not_hole (h : GInv s g) {π : List Nat} (hd : g.D π) : ¬ g.hole (g.pos π) := by
  cases π with
  | nil => rw [h.rootPos]; exact h.hole0
  | cons c π => exact (h.used c π hd).2.2

/-- A change of the slots that are not in the tree. -/
theorem reslot (h : GInv s g) (hole' : Nat → Prop) (ha : AInv s')
    (harr : ∀ π, g.D π → s'.arr (g.pos π) = s.arr (g.pos π))
    (hni : ∀ π, g.D π → s'.ni (g.pos π) = s.ni (g.pos π)) (hsz : s.size ≤ s'.size)
    (honly : ∀ m, Used s' m → hole' m ∨ (Used s m ∧ ¬ g.hole m))
    (hh : ∀ π, g.D π → ¬ hole' (g.pos π))
    (hfree : ∀ m, ¬ Used s' m → m ≠ 0 → (s'.ni m).child = 0) :
    GInv s' { g with hole := hole' } := by
  have h0 : s'.arr 0 = s.arr 0 := by have := harr [] h.rootD; rwa [h.rootPos] at this
  refine ⟨ha, h.rootD, h.rootPos, by rw [h0]; exact h.rootBase, h.rootQ, h.clos, h.inj, ?_, ?_, ?_, h.old,
    ?_, ?_, ?_, h.dq, h.qlt, h.settled, ?_, ?_, ?_, hfree, by
      have := hh [] h.rootD; rwa [h.rootPos] at this⟩
  · intro c π hd
    obtain ⟨⟨h1, h2, h3⟩, h4, _⟩ := h.used c π hd
    refine ⟨⟨h1, Nat.lt_of_lt_of_le h2 hsz, ?_⟩, ?_, hh _ hd⟩
    · show 0 ≤ (s'.arr (g.pos (c :: π))).check
      rw [harr _ hd]; exact h3
    · show (s'.arr (g.pos (c :: π))).check = _
      rw [harr _ hd]; exact h4
  · intro m hm
    rcases honly m hm with h1 | ⟨h1, h2⟩
    · exact Or.inl h1
    · exact Or.inr ((h.only m h1).resolve_left h2)
  · intro c π hd hdone
    show g.pos (c :: π) = slot (s'.arr (g.pos π)).base c
    rw [harr _ (h.clos c π hd).1]; exact h.place c π hd hdone
  · intro c π hd; show _ → _ → _ ≤ (s'.arr (g.pos π)).base; rw [harr _ hd]; exact h.big c π hd
  · intro π hd; show _ → _ → _ → (s'.arr (g.pos π)).base = _; rw [harr _ hd]; exact h.leaf π hd
  · intro π hd
    show (s'.arr (g.pos (0 :: π))).base = g.val (0 :: π)
    rw [harr _ hd]; exact h.value π hd
  · intro c π hq
    show First (g.Q π) (s'.ni (g.pos π)).child
    rw [hni _ (h.qlt c π hq).2.2]; exact h.first c π hq
  · intro π hd
    show _ → (s'.ni (g.pos π)).child = 0
    rw [hni _ hd]; exact h.nochild π hd
  · intro c π hq hdone
    show Next (g.Q π) c (s'.ni (slot (s'.arr (g.pos π)).base c)).sibling
    rw [harr _ (h.qlt c π hq).2.2]
    have := h.sib c π hq hdone
    rcases h.cell hq hdone with ⟨h1, h2⟩ | ⟨_, _, h2⟩
    · rw [h2] at this ⊢; rw [hni _ h1]; exact this
    · rw [h2] at this ⊢; rw [hni _ h.rootD]; exact this

theorem posD_lt (h : GInv s g) {π : List Nat} (hd : g.D π) : g.pos π < s.size := by
  by_cases hn : π = []
  · rw [hn, h.rootPos]; have := h.alloc.size_pos; omega
  · exact (h.usedD hd hn).2.1

theorem check_nonneg (h : GInv s g) {π : List Nat} (hd : g.D π) :
    g.pos π = 0 ∨ 0 ≤ (s.arr (g.pos π)).check := by
  by_cases hn : π = []
  · rw [hn, h.rootPos]; exact Or.inl rfl
  · exact Or.inr (h.usedD hd hn).2.2

/-- New blocks. -/
theorem ext (h : GInv s g) (hx : Ext s s') : GInv s' g := by
  have := h.reslot (s' := s') g.hole hx.inv (fun π hd => hx.arr _ (h.posD_lt hd))
    (fun π hd => by rw [hx.ni]) hx.le ?_ ?_ ?_
  · exact this
  · rintro m ⟨h1, h2, h3⟩
    have hlt : m < s.size := by
      by_contra hc
      have := hx.new m (by omega) h2
      omega
    rw [hx.arr m hlt] at h3
    by_cases hh : g.hole m
    · exact Or.inl hh
    · exact Or.inr ⟨⟨h1, hlt, h3⟩, hh⟩
  · intro π hd; exact h.not_hole hd
  · intro m hm h0
    rw [hx.ni]
    refine h.free m ?_ h0
    rintro ⟨_, h2, h3⟩
    exact hm ⟨h0, Nat.lt_of_lt_of_le h2 hx.le, by rw [hx.arr m h2]; exact h3⟩

/-- Taking an empty slot. -/
theorem take (h : GInv s g) (hh : ∀ m, ¬ g.hole m) {e : Nat} (label src : Nat) (he0 : e ≠ 0)
    (hes : e < s.size) (hc : (s.arr e).check < 0) :
    GInv (takeSlot s e label src) { g with hole := (· = e) } ∧
      (∀ π, g.D π → (takeSlot s e label src).arr (g.pos π) = s.arr (g.pos π)) ∧
      (takeSlot s e label src).ni = s.ni ∧ (takeSlot s e label src).size = s.size ∧
      (takeSlot s e label src).arr e = ⟨if label ≠ 0 then -1 else 0, src⟩ ∧
      ((takeSlot s e label src).ni e).child = 0 ∧
      ∀ m, m ≠ e → (s.arr m).check < 0 → ((takeSlot s e label src).arr m).check < 0 := by
  obtain ⟨a1, a2, a3, a4⟩ := takeSlot_spec h.alloc label src he0 hes hc
  generalize takeSlot s e label src = s' at a1 a2 a3 a4
  have hne : ∀ π, g.D π → g.pos π ≠ e := by
    rintro π hd rfl
    have := h.check_nonneg hd
    omega
  have harr : ∀ π, g.D π → s'.arr (g.pos π) = s.arr (g.pos π) :=
    fun π hd => a2.arr _ (hne π hd) (h.check_nonneg hd)
  refine ⟨?_, harr, a3, a2.size, a4, ?_, fun m hm h1 => (a2.empty m hm).mpr h1⟩
  · refine h.reslot _ a1 harr (fun π _ => by rw [a3]) (by rw [a2.size]; exact Nat.le_refl _) ?_ ?_ ?_
    · rintro m ⟨h1, h2, h3⟩
      by_cases hm : m = e
      · exact Or.inl hm
      · refine Or.inr ⟨⟨h1, by rw [a2.size] at h2; exact h2, ?_⟩, hh m⟩
        have := a2.empty m hm
        omega
    · exact hne
    · intro m hm h0
      rw [a3]
      refine h.free m ?_ h0
      rintro ⟨h1, h2, h3⟩
      refine hm ⟨h1, by rw [a2.size]; exact h2, ?_⟩
      have hme : m ≠ e := by rintro rfl; omega
      have := a2.empty m hme
      omega
  · rw [a3]
    refine h.free e ?_ he0
    rintro ⟨_, _, h3⟩
    omega

/-- Giving back a slot. -/
theorem give (h : GInv s g) {e : Nat} (hh : ∀ m, g.hole m ↔ m = e) (hu : Used s e) (he : 256 ≤ e) :
    GInv (pushEnode s e) { g with hole := fun _ => False } ∧
      (∀ π, g.D π → (pushEnode s e).arr (g.pos π) = s.arr (g.pos π)) ∧
      (pushEnode s e).size = s.size ∧
      ∀ m, (s.arr m).check < 0 → ((pushEnode s e).arr m).check < 0 := by
  obtain ⟨a1, a2, a3, a4⟩ := pushEnode_spec h.alloc he hu.2.1 hu.2.2
  generalize pushEnode s e = s' at a1 a2 a3 a4
  have hne : ∀ π, g.D π → g.pos π ≠ e := fun π hd c => h.not_hole hd ((hh _).mpr c)
  have harr : ∀ π, g.D π → s'.arr (g.pos π) = s.arr (g.pos π) :=
    fun π hd => a2.arr _ (hne π hd) (h.check_nonneg hd)
  refine ⟨?_, harr, a2.size, ?_⟩
  · refine h.reslot _ a1 harr (fun π hd => by rw [a4, upd_ne _ _ (hne π hd)])
      (by rw [a2.size]; exact Nat.le_refl _) ?_ ?_ ?_
    · rintro m ⟨h1, h2, h3⟩
      have hme : m ≠ e := by rintro rfl; omega
      refine Or.inr ⟨⟨h1, by rw [a2.size] at h2; exact h2, ?_⟩, fun c => hme ((hh m).mp c)⟩
      have := a2.empty m hme
      omega
    · intro _ _ c; exact c
    · intro m hm h0
      rw [a4, upd_apply]
      split
      · rfl
      · rename_i hme
        refine h.free m ?_ h0
        rintro ⟨h1, h2, h3⟩
        refine hm ⟨h1, by rw [a2.size]; exact h2, ?_⟩
        have := a2.empty m hme
        omega
  · intro m hm
    by_cases hme : m = e
    · rw [hme]; exact a3
    · exact (a2.empty m hme).mpr hm

end GInv

/-- A function of paths with another value at one path. -/
def updP {β : Type} (f : List Nat → β) (κ : List Nat) (x : β) (π : List Nat) : β :=
  if π = κ then x else f π

theorem updP_self {β : Type} (f : List Nat → β) (κ : List Nat) (x : β) : updP f κ x κ = x := by
  simp [updP]
theorem updP_ne {β : Type} (f : List Nat → β) {κ π : List Nat} (x : β) (h : π ≠ κ) :
    updP f κ x π = f π := by simp [updP, h]

theorem cons_ne (c : Nat) (π : List Nat) : c :: π ≠ π := fun h => by
  have := congrArg List.length h; simp at this

/-- How the state changes when the node `c :: ξ` moves to the slot `dst`. -/
structure Moved (s s' : St) (g : Gh) (ξ : List Nat) (c dst next : Nat) : Prop where
  blk : s'.blk = s.blk
  head : s'.head = s.head
  size : s'.size = s.size
  node : s'.arr dst = ⟨(s.arr (g.pos (c :: ξ))).base, (s.arr dst).check⟩
  kids : ∀ d, g.D (d :: c :: ξ) →
    s'.arr (g.pos (d :: c :: ξ)) = ⟨(s.arr (g.pos (d :: c :: ξ))).base, dst⟩
  arr : ∀ m, m ≠ dst → (∀ d, g.D (d :: c :: ξ) → m ≠ g.pos (d :: c :: ξ)) → s'.arr m = s.arr m
  info : s'.ni dst = ⟨next, (s.ni (g.pos (c :: ξ))).child⟩
  ni : ∀ m, m ≠ dst → s'.ni m = s.ni m

/-- The tree after the move. -/
def Gh.move (g : Gh) (ξ : List Nat) (c dst : Nat) : Gh :=
  { g with
    pos := updP g.pos (c :: ξ) dst
    done := fun π d => g.done π d ∨ (π = ξ ∧ d = c)
    hole := (· = g.pos (c :: ξ)) }

theorem GInv.moved {s s' : St} {g : Gh} (h : GInv s g) {ξ : List Nat} {c dst next : Nat}
    (hh : ∀ m, g.hole m ↔ m = dst) (hd : g.D (c :: ξ)) (hu : Used s dst)
    (hdst : dst = slot (s.arr (g.pos ξ)).base c) (hck : (s.arr dst).check = g.pos ξ)
    (hnext : Next (g.Q ξ) c next) (m : Moved s s' g ξ c dst next) : GInv s' (g.move ξ c dst) := by
  have hcl := h.clos c ξ hd
  have hne : ∀ π, g.D π → g.pos π ≠ dst := fun π hd c => h.not_hole hd ((hh _).mpr c)
  have hκ : c :: ξ ≠ ξ := cons_ne c ξ
  -- where the nodes are
  have pos_other : ∀ π, π ≠ c :: ξ → (g.move ξ c dst).pos π = g.pos π := fun π hp => updP_ne _ _ hp
  have pos_self : (g.move ξ c dst).pos (c :: ξ) = dst := updP_self ..
  have arr_other : ∀ π, g.D π → (∀ d, π ≠ d :: c :: ξ) → s'.arr (g.pos π) = s.arr (g.pos π) := by
    intro π hp hp'
    refine m.arr _ (hne π hp) ?_
    intro d hd' e
    exact hp' d (h.inj _ _ hp hd' e)
  have base_eq : ∀ π, g.D π →
      (s'.arr ((g.move ξ c dst).pos π)).base = (s.arr (g.pos π)).base := by
    intro π hp
    by_cases e1 : π = c :: ξ
    · rw [e1, pos_self, m.node]
    · rw [pos_other π e1]
      by_cases e2 : ∃ d, π = d :: c :: ξ
      · obtain ⟨d, rfl⟩ := e2
        rw [m.kids d hp]
      · rw [arr_other π hp (fun d e => e2 ⟨d, e⟩)]
  have ni_other : ∀ π, g.D π → s'.ni (g.pos π) = s.ni (g.pos π) := fun π hp => m.ni _ (hne π hp)
  have child_eq : ∀ π, g.D π →
      (s'.ni ((g.move ξ c dst).pos π)).child = (s.ni (g.pos π)).child := by
    intro π hp
    by_cases e1 : π = c :: ξ
    · rw [e1, pos_self, m.info]
    · rw [pos_other π e1, ni_other π hp]
  have chk : ∀ i, 0 ≤ (s'.arr i).check ↔ 0 ≤ (s.arr i).check := by
    intro i
    by_cases e1 : i = dst
    · rw [e1, m.node]
    · by_cases e2 : ∃ d, g.D (d :: c :: ξ) ∧ i = g.pos (d :: c :: ξ)
      · obtain ⟨d, hd', rfl⟩ := e2
        rw [m.kids d hd']
        have := (h.used d _ hd').1.2.2
        constructor
        · intro _; exact this
        · intro _; dsimp only; omega
      · rw [m.arr i e1 (fun d hd' e => e2 ⟨d, hd', e⟩)]
  have used_iff : ∀ i, Used s' i ↔ Used s i := by
    intro i; simp only [Used, m.size, chk]
  have hroot : ([] : List Nat) ≠ c :: ξ := by simp
  refine ⟨?_, h.rootD, ?_, ?_, h.rootQ, h.clos, ?_, ?_, ?_, ?_, ?_, ?_, ?_, ?_, h.dq, h.qlt, ?_, ?_, ?_, ?_, ?_, ?_⟩
  · refine h.alloc.frame m.blk m.head m.size ?_ ?_
    · intro i hi hc
      refine m.arr i ?_ ?_
      · rintro rfl; have := hu.2.2; omega
      · rintro d hd' rfl; have := (h.used d _ hd').1.2.2; omega
    · intro i _ hc; exact (chk i).mpr hc
  · rw [pos_other _ hroot]; exact h.rootPos
  · have := base_eq [] h.rootD
    rw [pos_other _ hroot, h.rootPos] at this
    rw [this]; exact h.rootBase
  · intro π π' h1 h2 h3
    by_cases e1 : π = c :: ξ
    · by_cases e2 : π' = c :: ξ
      · rw [e1, e2]
      · rw [e1, pos_self, pos_other π' e2] at h3
        exact absurd h3.symm (hne π' h2)
    · by_cases e2 : π' = c :: ξ
      · rw [e2, pos_self, pos_other π e1] at h3
        exact absurd h3 (hne π h1)
      · rw [pos_other π e1, pos_other π' e2] at h3
        exact h.inj _ _ h1 h2 h3
  · intro d π hp
    show Used s' _ ∧ (s'.arr _).check = _ ∧ ¬ _ = g.pos (c :: ξ)
    rw [used_iff]
    by_cases e1 : d :: π = c :: ξ
    · have e2 : π = ξ := (List.cons.inj e1).2
      rw [e1, pos_self, m.node, e2, pos_other ξ (Ne.symm hκ)]
      exact ⟨hu, hck, fun e => hne _ hd e.symm⟩
    · rw [pos_other _ e1]
      obtain ⟨u1, u2, _⟩ := h.used d π hp
      refine ⟨u1, ?_, fun e => e1 (h.inj _ _ hp hd e)⟩
      by_cases e2 : π = c :: ξ
      · rw [e2] at hp ⊢
        rw [pos_self, m.kids d hp]
      · rw [pos_other _ e2, arr_other _ hp (fun d' e => e2 (List.cons.inj e).2)]
        exact u2
  · intro i hi
    rw [used_iff] at hi
    rcases h.only i hi with h1 | ⟨d, π, h1, h2⟩
    · rw [hh] at h1
      exact Or.inr ⟨c, ξ, hd, by rw [pos_self, h1]⟩
    · by_cases e1 : d :: π = c :: ξ
      · left; show i = _; rw [← h2, e1]
      · exact Or.inr ⟨d, π, h1, by rw [pos_other _ e1]; exact h2⟩
  · intro d π hp hdn
    rw [base_eq π (h.clos d π hp).1]
    by_cases e1 : d :: π = c :: ξ
    · rw [e1, pos_self]
      obtain ⟨e2, e3⟩ := List.cons.inj e1
      rw [e2, e3]; exact hdst
    · rw [pos_other _ e1]
      refine h.place d π hp (hdn.resolve_right ?_)
      rintro ⟨e2, e3⟩; exact e1 (by rw [e2, e3])
  · intro d π hp hdn
    have hdn' : ¬ (g.done π d ∨ (π = ξ ∧ d = c)) := hdn
    have e1 : d :: π ≠ c :: ξ := by
      intro e
      obtain ⟨e2, e3⟩ := List.cons.inj e
      exact hdn' (Or.inr ⟨e3, e2⟩)
    rw [pos_other _ e1]
    exact h.old d π hp (fun e => hdn' (Or.inl e))
  · intro d π hp
    rw [base_eq π hp]; exact h.big d π hp
  · intro π hp
    rw [base_eq π hp]; exact h.leaf π hp
  · intro π hp
    rw [base_eq _ hp]; exact h.value π hp
  · intro d π hq hdn
    rcases hdn with hdn | ⟨e2, e3⟩
    · exact h.settled d π hq hdn
    · subst e2 e3; exact Or.inl hd
  · intro d π hq
    rw [child_eq π (h.qlt d π hq).2.2]; exact h.first d π hq
  · intro π hp
    rw [child_eq π hp]; exact h.nochild π hp
  · intro d π hq hdn
    rw [base_eq π (h.qlt d π hq).2.2]
    by_cases e1 : π = ξ ∧ d = c
    · obtain ⟨e2, e3⟩ := e1
      rw [e2, e3, ← hdst, m.info]
      exact hnext
    · have hdn' := hdn.resolve_right e1
      have := h.sib d π hq hdn'
      rcases h.cell hq hdn' with ⟨h1, h2⟩ | ⟨_, _, h2⟩
      · rw [h2] at this ⊢; rw [ni_other _ h1]; exact this
      · rw [h2] at this ⊢; rw [ni_other _ h.rootD]; exact this
  · intro i hi h0
    rw [used_iff] at hi
    rw [m.ni i (by rintro rfl; exact hi hu)]
    exact h.free i hi h0
  · show ¬ 0 = g.pos (c :: ξ)
    exact fun e => (h.used c ξ hd).1.1 e.symm

/-- How the state changes when the slot `e` becomes the child `x` of the node `ν`, whose base is
now `b`. -/
structure Planted (s s' : St) (g : Gh) (ν : List Nat) (x e : Nat) (b : Int) : Prop where
  blk : s'.blk = s.blk
  head : s'.head = s.head
  size : s'.size = s.size
  node : s'.arr e = ⟨if x ≠ 0 then -1 else 0, g.pos ν⟩
  parent : s'.arr (g.pos ν) = ⟨b, (s.arr (g.pos ν)).check⟩
  arr : ∀ m, m ≠ e → m ≠ g.pos ν → s'.arr m = s.arr m
  childE : (s'.ni e).child = 0
  child : ∀ m, m ≠ e → m ≠ g.pos ν → (s'.ni m).child = (s.ni m).child
  first : First (fun k => g.Q ν k ∨ k = x) (s'.ni (g.pos ν)).child
  sib : ∀ d, (g.Q ν d ∨ d = x) → (g.done ν d ∨ d = x) →
    Next (fun k => g.Q ν k ∨ k = x) d (s'.ni (slot b d)).sibling
  other : ∀ m, (∀ d, (g.Q ν d ∨ d = x) → (g.done ν d ∨ d = x) → m ≠ slot b d) →
    (s'.ni m).sibling = (s.ni m).sibling

/-- The tree with the new node. -/
def Gh.plant (g : Gh) (ν : List Nat) (x e : Nat) : Gh :=
  { g with
    D := fun π => g.D π ∨ π = x :: ν
    Q := fun π c => g.Q π c ∨ (π = ν ∧ c = x)
    pos := updP g.pos (x :: ν) e
    done := fun π d => g.done π d ∨ (π = ν ∧ d = x)
    hole := fun _ => False }

theorem GInv.planted {s s' : St} {g : Gh} (h : GInv s g) {ν : List Nat} {x e : Nat} {b : Int}
    (hh : ∀ m, g.hole m ↔ m = e) (hν : g.D ν) (hin : Inner ν) (hx : ¬ g.D (x :: ν)) (hlt : x < 256)
    (h0 : ν = [] → x ≠ 0) (hu : Used s e) (he : e = slot b x)
    (hb : b = (s.arr (g.pos ν)).base ∨ ∀ c, ¬ g.D (c :: ν)) (hb1 : ν ≠ [] → 256 ≤ b)
    (hb0 : ν = [] → b = 0) (hv : x = 0 → g.val (x :: ν) = 0) (m : Planted s s' g ν x e b) :
    GInv s' (g.plant ν x e) := by
  have hne : ∀ π, g.D π → g.pos π ≠ e := fun π hd c => h.not_hole hd ((hh _).mpr c)
  have pos_other : ∀ π, g.D π → (g.plant ν x e).pos π = g.pos π :=
    fun π hp => updP_ne _ _ (fun c => hx (c ▸ hp))
  have pos_self : (g.plant ν x e).pos (x :: ν) = e := updP_self ..
  have arr_other : ∀ π, g.D π → π ≠ ν → s'.arr (g.pos π) = s.arr (g.pos π) := by
    intro π hp hn
    exact m.arr _ (hne π hp) (fun c => hn (h.inj _ _ hp hν c))
  have check_eq : ∀ π, g.D π → (s'.arr (g.pos π)).check = (s.arr (g.pos π)).check := by
    intro π hp
    by_cases hn : π = ν
    · rw [hn, m.parent]
    · rw [arr_other π hp hn]
  have chk : ∀ i, 0 ≤ (s'.arr i).check ↔ 0 ≤ (s.arr i).check := by
    intro i
    by_cases e1 : i = e
    · rw [e1, m.node]
      have := hu.2.2
      constructor
      · intro _; exact this
      · intro _; dsimp only; omega
    · by_cases e2 : i = g.pos ν
      · rw [e2, m.parent]
      · rw [m.arr i e1 e2]
  have used_iff : ∀ i, Used s' i ↔ Used s i := by
    intro i; simp only [Used, m.size, chk]
  have noQ : ∀ c, ¬ (g.plant ν x e).Q (x :: ν) c := by
    rintro c (hc | ⟨hc, _⟩)
    · exact hx (h.qlt c _ hc).2.2
    · exact cons_ne x ν hc
  have child_other : ∀ π, g.D π → π ≠ ν → (s'.ni (g.pos π)).child = (s.ni (g.pos π)).child := by
    intro π hp hn
    exact m.child _ (hne π hp) (fun c => hn (h.inj _ _ hp hν c))
  have Q_other : ∀ π, π ≠ ν → (g.plant ν x e).Q π = g.Q π := by
    intro π hn
    funext c
    exact propext ⟨fun c => c.resolve_right (fun d => hn d.1), Or.inl⟩
  have Q_self : (g.plant ν x e).Q ν = fun k => g.Q ν k ∨ k = x := by
    funext c
    exact propext ⟨fun c => c.imp id (fun d => d.2), fun c => c.imp id (fun d => ⟨rfl, d⟩)⟩
  have slot_b : ∀ d, g.Q ν d → g.done ν d →
      (g.D (d :: ν) ∧ slot b d = g.pos (d :: ν)) ∨ (ν = [] ∧ slot b d = g.pos []) := by
    intro d hq hd
    rcases h.cell hq hd with ⟨h1, h2⟩ | ⟨h1, h2, h3⟩
    · rcases hb with hb | hb
      · exact Or.inl ⟨h1, by rw [hb]; exact h2⟩
      · exact absurd h1 (hb d)
    · refine Or.inr ⟨h1, ?_⟩
      rw [hb0 h1, h.rootPos, h2]; rfl
  refine ⟨?_, Or.inl h.rootD, ?_, ?_, Or.inl h.rootQ, ?_, ?_, ?_, ?_, ?_, ?_, ?_, ?_, ?_, ?_, ?_, ?_, ?_, ?_, ?_,
    ?_, fun c => c⟩
  · refine h.alloc.frame m.blk m.head m.size ?_ ?_
    · intro i hi hc
      refine m.arr i ?_ ?_
      · rintro rfl; have := hu.2.2; omega
      · rintro rfl; have := h.check_nonneg hν; omega
    · intro i _ hc; exact (chk i).mpr hc
  · rw [pos_other [] h.rootD]; exact h.rootPos
  · by_cases hn : ν = []
    · have := m.parent
      rw [hn, h.rootPos] at this
      rw [this, hb0 hn]
    · have := arr_other [] h.rootD (Ne.symm hn)
      rw [h.rootPos] at this
      rw [this]; exact h.rootBase
  · rintro c π (hp | hp)
    · obtain ⟨h1, h2⟩ := h.clos c π hp
      exact ⟨Or.inl h1, h2⟩
    · obtain ⟨rfl, rfl⟩ := List.cons.inj hp
      exact ⟨Or.inl hν, hlt, hin, h0⟩
  · rintro π π' (h1 | h1) (h2 | h2) h3
    · rw [pos_other π h1, pos_other π' h2] at h3
      exact h.inj _ _ h1 h2 h3
    · rw [h2, pos_self, pos_other π h1] at h3
      exact absurd h3 (hne π h1)
    · rw [h1, pos_self, pos_other π' h2] at h3
      exact absurd h3.symm (hne π' h2)
    · rw [h1, h2]
  · rintro d π (hp | hp)
    · obtain ⟨u1, u2, _⟩ := h.used d π hp
      rw [pos_other _ hp, used_iff, check_eq _ hp, pos_other π (h.clos d π hp).1]
      exact ⟨u1, u2, fun c => c⟩
    · obtain ⟨rfl, rfl⟩ := List.cons.inj hp
      rw [pos_self, used_iff, m.node, pos_other π hν]
      exact ⟨hu, rfl, fun c => c⟩
  · intro i hi
    rw [used_iff] at hi
    right
    rcases h.only i hi with h1 | ⟨d, π, h1, h2⟩
    · rw [hh] at h1
      exact ⟨x, ν, Or.inr rfl, by rw [pos_self, h1]⟩
    · exact ⟨d, π, Or.inl h1, by rw [pos_other _ h1]; exact h2⟩
  · rintro d π (hp | hp) hdn
    · have hπ := (h.clos d π hp).1
      rw [pos_other _ hp, pos_other π hπ]
      have hdn' : g.done π d := hdn.resolve_right (by
        rintro ⟨e1, e2⟩; subst e1 e2; exact hx hp)
      by_cases hn : π = ν
      · subst hn
        rw [m.parent]
        rcases hb with hb | hb
        · dsimp only; rw [hb]; exact h.place d π hp hdn'
        · exact absurd hp (hb d)
      · rw [arr_other π hπ hn]
        exact h.place d π hp hdn'
    · obtain ⟨rfl, rfl⟩ := List.cons.inj hp
      rw [pos_self, pos_other π hν, m.parent]
      exact he
  · rintro d π (hp | hp) hdn
    · rw [pos_other _ hp]
      exact h.old d π hp (fun c => hdn (Or.inl c))
    · obtain ⟨rfl, rfl⟩ := List.cons.inj hp
      exact absurd (Or.inr ⟨rfl, rfl⟩) hdn
  · rintro d π (hp | hp) hn hq
    · rw [pos_other _ hp]
      by_cases hn' : π = ν
      · subst hn'; rw [m.parent]; exact hb1 hn
      · rw [arr_other π hp hn']
        rw [Q_other π hn'] at hq
        exact h.big d π hp hn hq
    · subst hp; exact absurd hq (noQ d)
  · rintro π (hp | hp) hn hi hq
    · have hn' : π ≠ ν := by
        rintro rfl
        exact hq x (Or.inr ⟨rfl, rfl⟩)
      rw [pos_other _ hp, arr_other π hp hn']
      rw [Q_other π hn'] at hq
      exact h.leaf π hp hn hi hq
    · subst hp
      have hx0 : x ≠ 0 := by rintro rfl; exact hi rfl
      rw [pos_self, m.node, if_pos hx0]
  · rintro π (hp | hp)
    · have hn' : 0 :: π ≠ ν := by
        rintro rfl; exact hin rfl
      rw [pos_other _ hp, arr_other _ hp hn']
      exact h.value π hp
    · have hx0 : x = 0 := (List.cons.inj hp).1.symm
      rw [hp, pos_self, m.node, if_neg (by rw [hx0]; simp)]
      exact (hv hx0).symm
  · rintro c π (hp | hp)
    · exact Or.inl (h.dq c π hp)
    · obtain ⟨e1, e2⟩ := List.cons.inj hp
      exact Or.inr ⟨e2, e1⟩
  · rintro c π (hq | ⟨e1, e2⟩)
    · obtain ⟨h1, h2, h3⟩ := h.qlt c π hq
      exact ⟨h1, h2, Or.inl h3⟩
    · subst e1 e2; exact ⟨hlt, hin, Or.inl hν⟩
  · intro c π hq hdn
    by_cases e1 : π = ν ∧ c = x
    · rw [e1.1, e1.2]; exact Or.inl (Or.inr rfl)
    · rcases h.settled c π (hq.resolve_right e1) (hdn.resolve_right e1) with h1 | h1
      · exact Or.inl (Or.inl h1)
      · exact Or.inr h1
  · intro c π hq
    by_cases hn : π = ν
    · subst hn
      rw [pos_other π hν, Q_self]
      exact m.first
    · rw [Q_other π hn] at hq ⊢
      have hp := (h.qlt c π hq).2.2
      rw [pos_other π hp, child_other π hp hn]
      exact h.first c π hq
  · rintro π (hp | hp) hq
    · have hn' : π ≠ ν := by
        rintro rfl
        exact hq x (Or.inr ⟨rfl, rfl⟩)
      rw [pos_other _ hp, child_other π hp hn']
      rw [Q_other π hn'] at hq
      exact h.nochild π hp hq
    · rw [hp, pos_self]; exact m.childE
  · intro d π hq hdn
    by_cases hn : π = ν
    · subst hn
      rw [Q_self] at hq ⊢
      rw [pos_other π hν, m.parent]
      exact m.sib d hq (hdn.imp id (fun c => c.2))
    · rw [Q_other π hn] at hq ⊢
      have hdn' : g.done π d := hdn.resolve_right (fun c => hn c.1)
      have hp := (h.qlt d π hq).2.2
      rw [pos_other π hp, arr_other π hp hn, m.other]
      · exact h.sib d π hq hdn'
      · intro d' hq' hd' hc
        have cell_ne : slot (s.arr (g.pos π)).base d ≠ e := by
          rcases h.cell hq hdn' with ⟨c1, c2⟩ | ⟨_, _, c2⟩
          · rw [c2]; exact hne _ c1
          · rw [c2]; exact hne _ h.rootD
        by_cases e1 : d' = x
        · rw [e1, ← he] at hc; exact cell_ne hc
        · rcases slot_b d' (hq'.resolve_right e1) (hd'.resolve_right e1) with ⟨c3, c4⟩ | ⟨c3, c4⟩
          · rw [c4] at hc
            rcases h.cell hq hdn' with ⟨c1, c2⟩ | ⟨_, _, c2⟩
            · rw [c2] at hc
              exact hn (List.cons.inj (h.inj _ _ c1 c3 hc)).2
            · rw [c2] at hc
              have := h.inj _ _ h.rootD c3 hc
              simp at this
          · rw [c4] at hc
            rcases h.cell hq hdn' with ⟨c1, c2⟩ | ⟨c1, _, c2⟩
            · rw [c2] at hc
              have := h.inj _ _ c1 h.rootD hc
              simp at this
            · exact hn (by rw [c1, c3])
  · intro i hi h0
    rw [used_iff] at hi
    have hie : i ≠ e := by rintro rfl; exact hi hu
    have hip : i ≠ g.pos ν := by
      rintro rfl
      exact hi ⟨h0, h.posD_lt hν, (h.check_nonneg hν).resolve_left h0⟩
    rw [m.child i hie hip]
    exact h.free i hi h0

end Verif.Cedar
