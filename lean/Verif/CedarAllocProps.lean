import Verif.CedarRing
/-
The free slots and the lists of blocks of the double array.
-/
namespace Verif.Cedar

def bnx (s : St) (b : Nat) : Nat := (s.blk b).next
def bpv (s : St) (b : Nat) : Nat := (s.blk b).prev

/-- Everything but the links and heads of the lists of blocks. -/
structure SameSlots (s s' : St) : Prop where
  arr : s'.arr = s.arr
  ni : s'.ni = s.ni
  size : s'.size = s.size
  rej : s'.rej = s.rej
  num : ∀ b, (s'.blk b).num = (s.blk b).num
  reject : ∀ b, (s'.blk b).reject = (s.blk b).reject
  trial : ∀ b, (s'.blk b).trial = (s.blk b).trial
  ehead : ∀ b, (s'.blk b).ehead = (s.blk b).ehead

theorem SameSlots.refl (s : St) : SameSlots s s :=
  ⟨rfl, rfl, rfl, rfl, fun _ => rfl, fun _ => rfl, fun _ => rfl, fun _ => rfl⟩

theorem SameSlots.trans {s s' s'' : St} (h : SameSlots s s') (h' : SameSlots s' s'') :
    SameSlots s s'' :=
  ⟨h'.arr.trans h.arr, h'.ni.trans h.ni, h'.size.trans h.size, h'.rej.trans h.rej,
    fun b => (h'.num b).trans (h.num b), fun b => (h'.reject b).trans (h.reject b),
    fun b => (h'.trial b).trans (h.trial b), fun b => (h'.ehead b).trans (h.ehead b)⟩

theorem SameSlots.setHead (s : St) (l : Lst) (b : Nat) : SameSlots s (s.setHead l b) :=
  ⟨rfl, rfl, rfl, rfl, fun _ => rfl, fun _ => rfl, fun _ => rfl, fun _ => rfl⟩

theorem SameSlots.setNext (s : St) (b x : Nat) : SameSlots s (s.setNext b x) := by
  refine ⟨rfl, rfl, rfl, rfl, ?_, ?_, ?_, ?_⟩ <;>
    (intro i; simp only [St.setNext, upd_apply]; split <;> simp_all)

theorem SameSlots.setPrev (s : St) (b x : Nat) : SameSlots s (s.setPrev b x) := by
  refine ⟨rfl, rfl, rfl, rfl, ?_, ?_, ?_, ?_⟩ <;>
    (intro i; simp only [St.setPrev, upd_apply]; split <;> simp_all)

theorem bnx_setNext (s : St) (b x : Nat) : bnx (s.setNext b x) = upd (bnx s) b x := by
  funext i; simp only [bnx, St.setNext, upd_apply]; split <;> simp_all
theorem bpv_setNext (s : St) (b x : Nat) : bpv (s.setNext b x) = bpv s := by
  funext i; simp only [bpv, St.setNext, upd_apply]; split <;> simp_all
theorem bnx_setPrev (s : St) (b x : Nat) : bnx (s.setPrev b x) = bnx s := by
  funext i; simp only [bnx, St.setPrev, upd_apply]; split <;> simp_all
theorem bpv_setPrev (s : St) (b x : Nat) : bpv (s.setPrev b x) = upd (bpv s) b x := by
  funext i; simp only [bpv, St.setPrev, upd_apply]; split <;> simp_all
theorem bnx_setHead (s : St) (l : Lst) (x : Nat) : bnx (s.setHead l x) = bnx s := rfl
theorem bpv_setHead (s : St) (l : Lst) (x : Nat) : bpv (s.setHead l x) = bpv s := rfl
theorem head_setNext (s : St) (b x : Nat) : (s.setNext b x).head = s.head := rfl
theorem head_setPrev (s : St) (b x : Nat) : (s.setPrev b x).head = s.head := rfl
theorem head_setHead (s : St) (l l' : Lst) (x : Nat) :
    (s.setHead l x).head l' = if l' = l then x else s.head l' := rfl

theorem popBlock_same (s : St) (bi : Nat) (l : Lst) (last : Bool) :
    SameSlots s (popBlock s bi l last) := by
  unfold popBlock
  split
  · exact .setHead ..
  · dsimp only
    have h := (SameSlots.setNext s (s.blk bi).prev (s.blk bi).next).trans
      (SameSlots.setPrev _ (s.blk bi).next (s.blk bi).prev)
    split
    · exact h.trans (.setHead ..)
    · exact h

theorem pushBlock_same (s : St) (bi : Nat) (l : Lst) (empty : Bool) :
    SameSlots s (pushBlock s bi l empty) := by
  unfold pushBlock
  split
  · exact ((SameSlots.setPrev ..).trans (.setNext ..)).trans (.setHead ..)
  · exact ((((SameSlots.setPrev ..).trans (.setNext ..)).trans (.setNext ..)).trans
      (.setPrev ..)).trans (.setHead ..)

theorem transfer_same (s : St) (bi : Nat) (src dst : Lst) :
    SameSlots s (transfer s bi src dst) :=
  (popBlock_same ..).trans (pushBlock_same ..)

/-- The lists of blocks with their members. -/
structure Lists (s : St) (P : Lst → Nat → Prop) : Prop where
  circ : ∀ l, Circ (bnx s) (bpv s) (P l) (s.head l)
  disj : ∀ l l' x, P l x → P l' x → l = l'

theorem Lists.congrP {s : St} {P Q : Lst → Nat → Prop} (h : Lists s P)
    (hq : ∀ l x, Q l x ↔ P l x) : Lists s Q := by
  have : Q = P := by funext l x; exact propext (hq l x)
  rwa [this]

theorem Circ.congr {nx pv nx' pv' : Nat → Nat} {P : Nat → Prop} {h : Nat} (c : Circ nx pv P h)
    (hn : ∀ x, P x → nx' x = nx x) (hp : ∀ x, P x → pv' x = pv x) : Circ nx' pv' P h := by
  obtain ⟨l, r, m, e⟩ := c
  exact ⟨l, r.congr (fun x hx => hn x ((m x).mp hx)) (fun x hx => hp x ((m x).mp hx)), m, e⟩

theorem popBlock_lists {s : St} {P : Lst → Nat → Prop} (h : Lists s P) {bi : Nat} {l : Lst}
    (hb : P l bi) :
    Lists (popBlock s bi l (bi == (s.blk bi).next))
      (fun l' x => P l' x ∧ ¬ (l' = l ∧ x = bi)) := by
  refine ⟨?_, fun a b x ha hb => h.disj a b x ha.1 hb.1⟩
  obtain ⟨L, r, m, e⟩ := h.circ l
  obtain ⟨t, rt, pt⟩ := r.startAt ((m bi).mpr hb)
  have mt : ∀ x, x ∈ bi :: t ↔ P l x := fun x => (pt.mem_iff).trans (m x)
  have hnd := (List.nodup_cons.mp rt.nodup)
  have hnext : (bi == (s.blk bi).next) = true ↔ t = [] := by
    rw [beq_iff_eq, ← rt.next_eq]; exact eq_comm
  have hmem' : ∀ x, x ∈ t ↔ P l x ∧ x ≠ bi := by
    intro x
    rw [← mt x]
    constructor
    · intro hx; exact ⟨by simp [hx], by rintro rfl; exact hnd.1 hx⟩
    · rintro ⟨h1, h2⟩; simpa [h2] using h1
  by_cases ht : t = []
  · have hl : (bi == (s.blk bi).next) = true := hnext.mpr ht
    rw [popBlock, if_pos hl]
    intro l'
    by_cases hl' : l' = l
    · subst hl'
      refine ⟨[], trivial, ?_, Or.inl ⟨rfl, by simp [head_setHead]⟩⟩
      intro x
      have := hmem' x
      rw [ht] at this
      simp at this ⊢
      tauto
    · obtain ⟨L', r', m', e'⟩ := h.circ l'
      refine ⟨L', r', ?_, by simpa [head_setHead, hl'] using e'⟩
      intro x; rw [m']; simp [hl']
  · have hl : ¬ (bi == (s.blk bi).next) = true := fun c => ht (hnext.mp c)
    have rr := rt.remove ht
    have hp := (rt.prev_mem (x := bi) (by simp))
    have hn := (rt.next_mem (x := bi) (by simp))
    have nb : bnx s bi ∈ t := by
      have h1 := hn.1
      simp only [List.mem_cons] at h1
      rcases h1 with h1 | h1
      · exact absurd (rt.next_eq.mp h1) ht
      · exact h1
    rw [popBlock, if_neg hl]
    dsimp only
    have key : ∀ (s' : St), bnx s' = upd (bnx s) (bpv s bi) (bnx s bi) →
        bpv s' = upd (bpv s) (bnx s bi) (bpv s bi) →
        (∀ l', l' ≠ l → s'.head l' = s.head l') →
        s'.head l ∈ t →
        ∀ l', Circ (bnx s') (bpv s') (fun x => P l' x ∧ ¬ (l' = l ∧ x = bi)) (s'.head l') := by
      intro s' h1 h2 h3 h4 l'
      rw [h1, h2]
      by_cases hl' : l' = l
      · subst hl'
        exact ⟨t, rr, fun x => by rw [hmem']; simp, Or.inr h4⟩
      · rw [h3 l' hl']
        have hc := h.circ l'
        have : (fun x => P l' x ∧ ¬ (l' = l ∧ x = bi)) = P l' := by
          funext x; simp [hl']
        rw [this]
        refine hc.congr ?_ ?_
        · intro x hx
          rw [upd_ne]
          rintro rfl
          exact hl' (h.disj _ _ _ hx ((mt _).mp hp.1))
        · intro x hx
          rw [upd_ne]
          rintro rfl
          exact hl' (h.disj _ _ _ hx ((mt _).mp hn.1))
    by_cases hh : bi = s.head l
    · rw [if_pos (by simpa [head_setNext, head_setPrev] using hh)]
      refine key _ ?_ ?_ ?_ ?_
      · rw [bnx_setHead, bnx_setPrev, bnx_setNext]; rfl
      · rw [bpv_setHead, bpv_setPrev, bpv_setNext]; rfl
      · intro l' hl'; simp [head_setHead, hl', head_setPrev, head_setNext]
      · simp only [head_setHead, if_true]; exact nb
    · rw [if_neg (by simpa [head_setNext, head_setPrev] using hh)]
      refine key _ ?_ ?_ ?_ ?_
      · rw [bnx_setPrev, bnx_setNext]; rfl
      · rw [bpv_setPrev, bpv_setNext]; rfl
      · intro l' hl'; simp [head_setPrev, head_setNext]
      · rw [head_setPrev, head_setNext]
        rcases e with ⟨e, _⟩ | e
        · rw [e] at pt; simp at pt
        · have := pt.symm.subset e
          simp only [List.mem_cons] at this
          exact this.resolve_left (fun c => hh c.symm)

theorem pushBlock_lists {s : St} {P : Lst → Nat → Prop} (h : Lists s P) {bi : Nat} {l : Lst}
    {empty : Bool} (hb : ∀ l', ¬ P l' bi) (he : empty = true ↔ ∀ x, ¬ P l x) :
    Lists (pushBlock s bi l empty) (fun l' x => P l' x ∨ (l' = l ∧ x = bi)) := by
  refine ⟨?_, ?_⟩
  swap
  · rintro a b x (ha | ⟨ha, hx⟩) (hb' | ⟨hb', hx'⟩)
    · exact h.disj a b x ha hb'
    · exact absurd (hx' ▸ ha) (hb a)
    · exact absurd (hx ▸ hb') (hb b)
    · rw [ha, hb']
  unfold pushBlock
  by_cases hem : empty = true
  · rw [if_pos hem]
    have hP := he.mp hem
    intro l'
    rw [bnx_setHead, bpv_setHead, bnx_setNext, bpv_setNext, bnx_setPrev, bpv_setPrev]
    by_cases hl' : l' = l
    · subst hl'
      refine ⟨[bi], Ring.single bi, ?_, Or.inr (by simp [head_setHead])⟩
      intro x
      have := hP x
      simp
      tauto
    · have : (fun x => P l' x ∨ (l' = l ∧ x = bi)) = P l' := by funext x; simp [hl']
      rw [this]
      have hc := h.circ l'
      rw [head_setHead, if_neg hl']
      refine hc.congr ?_ ?_ <;>
        (intro x hx; rw [upd_ne]; rintro rfl; exact hb l' hx)
  · rw [if_neg hem]
    dsimp only
    obtain ⟨L, r, m, e⟩ := h.circ l
    have hhead : s.head l ∈ L := by
      rcases e with ⟨e, _⟩ | e
      · exfalso
        apply hem
        rw [he]
        intro x hx
        have := (m x).mpr hx
        rw [e] at this
        simp at this
      · exact e
    have hp := r.prev_mem hhead
    obtain ⟨t, rt, pt⟩ := r.startAt hp.1
    have hbi : bi ∉ L := fun c => hb l ((m bi).mp c)
    have ins := rt.insertAfter (e := bi) (fun c => hbi (pt.subset c))
    rw [hp.2] at ins
    have hhb : s.head l ≠ bi := fun c => hbi (c ▸ hhead)
    have hcomm : upd (upd (bpv s) (s.head l) bi) bi (bpv s (s.head l)) =
        upd (upd (bpv s) bi (bpv s (s.head l))) (s.head l) bi := by
      funext x
      simp only [upd_apply]
      by_cases h1 : x = bi
      · rw [if_pos h1, if_neg (by rw [h1]; exact fun c => hhb c.symm), if_pos h1]
      · simp [h1]
    rw [hcomm] at ins
    intro l'
    rw [bnx_setHead, bpv_setHead, bnx_setPrev, bpv_setPrev, bnx_setNext, bpv_setNext, bnx_setNext,
      bpv_setNext, bnx_setPrev, bpv_setPrev]
    have : (s.blk (s.head l)).prev = bpv s (s.head l) := rfl
    rw [this]
    by_cases hl' : l' = l
    · subst hl'
      refine ⟨_, ins, ?_, Or.inr (by simp [head_setHead])⟩
      intro x
      show _ ↔ P l' x ∨ _
      rw [← m x, ← pt.mem_iff]
      simp
      tauto
    · have : (fun x => P l' x ∨ (l' = l ∧ x = bi)) = P l' := by funext x; simp [hl']
      rw [this]
      have hc := h.circ l'
      rw [head_setHead, if_neg hl']
      simp only [head_setNext, head_setPrev]
      have hne : ∀ x, P l' x → x ≠ bi := by rintro x hx rfl; exact hb l' hx
      have hne2 : ∀ x y, P l' x → y ∈ L → x ≠ y := by
        rintro x y hx hy rfl; exact hl' (h.disj _ _ _ hx ((m x).mp hy))
      refine hc.congr ?_ ?_
      · intro x hx
        rw [upd_ne _ _ (hne2 x _ hx hp.1), upd_ne _ _ (hne x hx)]
      · intro x hx
        rw [upd_ne _ _ (hne2 x _ hx hhead), upd_ne _ _ (hne x hx)]

/-- Members of the lists after moving `bi` from `src` to `dst`. -/
def moved (P : Lst → Nat → Prop) (bi : Nat) (src dst : Lst) (l : Lst) (x : Nat) : Prop :=
  (P l x ∧ ¬ (l = src ∧ x = bi)) ∨ (l = dst ∧ x = bi)

theorem transfer_lists {s : St} {P : Lst → Nat → Prop} (h : Lists s P) {bi : Nat} {src dst : Lst}
    (hb : P src bi) (hne : src ≠ dst)
    (he : ((∀ x, ¬ P dst x) → s.head dst = 0 ∧ (s.blk bi).num ≠ 0))
    (he' : (∃ x, P dst x) → s.head dst ≠ 0 ∨ (s.blk bi).num = 0) :
    Lists (transfer s bi src dst) (moved P bi src dst) := by
  have h1 := popBlock_lists h hb
  unfold transfer
  have hs := popBlock_same s bi src (bi == (s.blk bi).next)
  have hhd : (popBlock s bi src (bi == (s.blk bi).next)).head dst = s.head dst := by
    have hne' : dst ≠ src := Ne.symm hne
    unfold popBlock
    split
    · simp [head_setHead, hne']
    · dsimp only
      split
      · simp [head_setHead, hne', head_setNext, head_setPrev]
      · simp [head_setNext, head_setPrev]
  refine pushBlock_lists h1 ?_ ?_
  · rintro l' ⟨hl, hn⟩
    exact hn ⟨h.disj _ _ _ hl hb, rfl⟩
  · rw [hs.num, hhd]
    have hP : (∀ x, ¬ (P dst x ∧ ¬ (dst = src ∧ x = bi))) ↔ ∀ x, ¬ P dst x := by
      constructor
      · intro hx x hp; exact hx x ⟨hp, fun c => hne c.1.symm⟩
      · intro hx x hp; exact hx x hp.1
    rw [hP]
    simp only [Bool.and_eq_true, beq_iff_eq, bne_iff_ne, ne_eq]
    constructor
    · rintro ⟨a, b⟩
      by_contra c
      have c' : ∃ x, P dst x := by
        by_contra c2; exact c (fun x hx => c2 ⟨x, hx⟩)
      rcases he' c' with d | d
      · exact d a
      · exact b d
    · exact he

end Verif.Cedar
