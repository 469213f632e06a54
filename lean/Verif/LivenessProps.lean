import Verif.Liveness
import Mathlib.Algebra.BigOperators.Group.Finset.Basic
import Mathlib.Algebra.Order.BigOperators.Group.Finset

/-!
# Theorems about the live-variable analysis
-/

namespace Verif.Liveness

/-- Along the statement sequence `l`, the name `v` is read before it is
assigned. -/
def ReadFirst (v : Nat) : List Stmt → Prop
  | [] => False
  | s :: l => v ∈ s.loads ∨ (v ∉ s.stores ∧ ReadFirst v l)

/-- `p` is a sequence of blocks control can run through after block `b`. -/
def Walk (g : Graph) : Nat → List Nat → Prop
  | _, [] => True
  | b, c :: p => c ∈ g.next b ∧ Walk g c p

/-- The meaning of "live at the end of block `b`": control can continue from
`b` through blocks whose statements read `v` before assigning it. -/
def Live (g : Graph) (b v : Nat) : Prop :=
  ∃ p, Walk g b p ∧ ReadFirst v (p.flatMap g.code)

/-- Edges stay inside the block list. -/
def Closed (g : Graph) : Prop := ∀ b < g.n, ∀ c ∈ g.next b, c < g.n

/-! ### `init_var_life_info` -/

theorem lifeInfo_read (v : Nat) (code rest : List Stmt) (ue kill : Finset Nat) :
    (v ∈ (code.foldl lifeStep (ue, kill)).1 ∨
      (v ∉ (code.foldl lifeStep (ue, kill)).2 ∧ ReadFirst v rest)) ↔
    (v ∈ ue ∨ (v ∉ kill ∧ ReadFirst v (code ++ rest))) := by
  induction code generalizing ue kill with
  | nil => simp
  | cons s code ih =>
    rw [List.foldl_cons]
    show (v ∈ (code.foldl lifeStep (ue ∪ (s.loads \ kill), kill ∪ s.stores)).1 ∨ _) ↔ _
    unfold lifeStep at *
    rw [ih]
    simp only [Finset.mem_union, Finset.mem_sdiff, List.cons_append, ReadFirst]
    by_cases h1 : v ∈ ue <;> by_cases h2 : v ∈ kill <;> by_cases h3 : v ∈ s.loads <;>
      by_cases h4 : v ∈ s.stores <;> simp [h1, h2, h3, h4]

/-- `ue_var` and `var_kill` summarise a block: a name is read first along the
block followed by `rest` iff it is in `ue_var`, or is not in `var_kill` and is
read first along `rest`. -/
theorem readFirst_block (g : Graph) (b v : Nat) (rest : List Stmt) :
    ReadFirst v (g.code b ++ rest) ↔
      (v ∈ g.ue b ∨ (v ∉ g.kill b ∧ ReadFirst v rest)) := by
  have := lifeInfo_read v (g.code b) rest ∅ ∅
  simp only [Finset.notMem_empty, not_false_eq_true, true_and, false_or] at this
  exact this.symm

/-! ### The equation solved -/

theorem mem_foldl_liveAcc (g : Graph) (lo : Lo) (v : Nat) (l : List Nat) (acc : Finset Nat) :
    v ∈ l.foldl (liveAcc g lo) acc ↔
      v ∈ acc ∨ ∃ c ∈ l, v ∈ g.ue c ∨ (v ∈ lo c ∧ v ∉ g.kill c) := by
  induction l generalizing acc with
  | nil => simp
  | cons c l ih =>
    rw [List.foldl_cons, ih]
    simp only [liveAcc, Finset.mem_union, Finset.mem_sdiff, Finset.mem_inter, List.mem_cons,
      exists_eq_or_imp]
    constructor
    · rintro (((h | h) | h) | h)
      · exact .inl h
      · exact .inr (.inl (.inl h))
      · exact .inr (.inl (.inr ⟨h.1, fun hk => h.2 ⟨h.1, hk⟩⟩))
      · exact .inr (.inr h)
    · rintro (h | (h | h) | h)
      · exact .inl (.inl (.inl h))
      · exact .inl (.inl (.inr h))
      · exact .inl (.inr ⟨h.1, fun hk => h.2 hk.2⟩)
      · exact .inr h

theorem mem_newLiveOut (g : Graph) (lo : Lo) (b v : Nat) :
    v ∈ newLiveOut g lo b ↔ ∃ c ∈ g.next b, v ∈ g.ue c ∨ (v ∈ lo c ∧ v ∉ g.kill c) := by
  simp [newLiveOut, mem_foldl_liveAcc]

theorem put_self {α : Type} (f : Nat → α) (b : Nat) (x : α) : put f b x b = x := by simp [put]

theorem put_ne {α : Type} (f : Nat → α) {b i : Nat} (x : α) (h : i ≠ b) :
    put f b x i = f i := by simp [put, h]

/-! ### Invariants of the iteration -/

/-- What holds of `live_out` throughout: only live names, and each set is
contained in the one that recomputation would produce. -/
structure Inv (g : Graph) (lo : Lo) : Prop where
  sound : ∀ b v, v ∈ lo b → Live g b v
  post : ∀ b, lo b ⊆ newLiveOut g lo b
  names : ∀ b < g.n, lo b ⊆ g.names

theorem newLiveOut_mono (g : Graph) {lo lo' : Lo} (h : ∀ b, lo b ⊆ lo' b) (b : Nat) :
    newLiveOut g lo b ⊆ newLiveOut g lo' b := by
  intro v hv
  obtain ⟨c, hc, hv⟩ := (mem_newLiveOut ..).1 hv
  exact (mem_newLiveOut ..).2 ⟨c, hc, hv.imp_right fun ⟨h1, h2⟩ => ⟨h c h1, h2⟩⟩

theorem newLiveOut_sound (g : Graph) {lo : Lo} (h : ∀ b v, v ∈ lo b → Live g b v) (b v : Nat)
    (hv : v ∈ newLiveOut g lo b) : Live g b v := by
  obtain ⟨c, hc, hv⟩ := (mem_newLiveOut ..).1 hv
  rcases hv with hv | ⟨h1, h2⟩
  · refine ⟨[c], ⟨hc, trivial⟩, ?_⟩
    have := (readFirst_block g c v []).2 (.inl hv)
    simpa using this
  · obtain ⟨p, hp, hr⟩ := h c v h1
    refine ⟨c :: p, ⟨hc, hp⟩, ?_⟩
    rw [List.flatMap_cons]
    exact (readFirst_block g c v _).2 (.inr ⟨h2, hr⟩)

theorem newLiveOut_names (g : Graph) (hg : Closed g) {lo : Lo}
    (h : ∀ b < g.n, lo b ⊆ g.names) (b : Nat) (hb : b < g.n) :
    newLiveOut g lo b ⊆ g.names := by
  intro v hv
  obtain ⟨c, hc, hv⟩ := (mem_newLiveOut ..).1 hv
  have hcn := hg b hb c hc
  rcases hv with hv | ⟨h1, _⟩
  · exact Finset.mem_biUnion.2 ⟨c, Finset.mem_range.2 hcn, hv⟩
  · exact h c hcn h1

theorem recompute_false {g : Graph} {lo : Lo} {b : Nat} (h : (recompute g lo b).2 = false) :
    (recompute g lo b).1 = lo ∧ newLiveOut g lo b ⊆ lo b := by
  unfold recompute at *
  split at h
  · rename_i he
    exact ⟨by rw [if_pos he], Finset.sdiff_eq_empty_iff_subset.1 he⟩
  · cases h

theorem recompute_le {g : Graph} {lo : Lo} (I : Inv g lo) (b i : Nat) :
    lo i ⊆ (recompute g lo b).1 i := by
  unfold recompute
  split
  · exact Finset.Subset.refl _
  · dsimp only
    by_cases hi : i = b
    · subst hi; rw [put_self]; exact I.post i
    · rw [put_ne _ _ hi]

theorem recompute_inv {g : Graph} (hg : Closed g) {lo : Lo} (I : Inv g lo) {b : Nat}
    (hb : b < g.n) : Inv g (recompute g lo b).1 := by
  have hle := recompute_le I b
  unfold recompute at *
  split
  · exact I
  · rename_i hne
    rw [if_neg hne] at hle
    dsimp only at hle ⊢
    refine ⟨fun i v hv => ?_, fun i => ?_, fun i hi => ?_⟩
    · by_cases h : i = b
      · subst h; rw [put_self] at hv; exact newLiveOut_sound g I.sound i v hv
      · rw [put_ne _ _ h] at hv; exact I.sound i v hv
    · refine Finset.Subset.trans ?_ (newLiveOut_mono g hle i)
      by_cases h : i = b
      · subst h; rw [put_self]
      · rw [put_ne _ _ h]; exact I.post i
    · by_cases h : i = b
      · subst h; rw [put_self]; exact newLiveOut_names g hg I.names i hi
      · rw [put_ne _ _ h]; exact I.names i hi

/-- The quantity that grows: total size of the live-out sets. -/
def weight (g : Graph) (lo : Lo) : Nat := ∑ b ∈ Finset.range g.n, (lo b).card

theorem weight_le {g : Graph} {lo : Lo} (I : Inv g lo) : weight g lo ≤ g.n * g.names.card := by
  have := Finset.sum_le_card_nsmul (Finset.range g.n) (fun b => (lo b).card) g.names.card
    (fun b hb => Finset.card_le_card (I.names b (Finset.mem_range.1 hb)))
  simpa [weight] using this

theorem weight_mono {g : Graph} {lo lo' : Lo} (h : ∀ b, lo b ⊆ lo' b) :
    weight g lo ≤ weight g lo' :=
  Finset.sum_le_sum fun b _ => Finset.card_le_card (h b)

theorem weight_recompute {g : Graph} {lo : Lo} (I : Inv g lo) {b : Nat} (hb : b < g.n)
    (h : (recompute g lo b).2 = true) : weight g lo < weight g (recompute g lo b).1 := by
  have hle := recompute_le I b
  unfold recompute at *
  split at h
  · cases h
  · rename_i hne
    rw [if_neg hne] at hle ⊢
    dsimp only at hle ⊢
    refine Finset.sum_lt_sum (fun i _ => Finset.card_le_card (hle i)) ⟨b, Finset.mem_range.2 hb, ?_⟩
    refine Finset.card_lt_card ⟨hle b, fun hsub => hne ?_⟩
    show newLiveOut g lo b \ lo b = ∅
    rw [put_self] at hsub
    exact Finset.sdiff_eq_empty_iff_subset.2 hsub

theorem foldl_pass {g : Graph} (hg : Closed g) (l : List Nat) (hl : ∀ b ∈ l, b < g.n) (lo : Lo)
    (fl : Bool) (I : Inv g lo) :
    let r := l.foldl (passStep g) (lo, fl)
    Inv g r.1 ∧ weight g lo ≤ weight g r.1 ∧
      (r.2 = true → fl = false → weight g lo < weight g r.1) ∧
      (r.2 = false → r.1 = lo ∧ fl = false ∧ ∀ b ∈ l, newLiveOut g lo b ⊆ lo b) := by
  induction l generalizing lo fl with
  | nil =>
    refine ⟨I, Nat.le_refl _, fun h1 h2 => ?_, fun h => ⟨rfl, h, by simp⟩⟩
    simp only [List.foldl_nil] at h1
    rw [h1] at h2; cases h2
  | cons b l ih =>
    have hb := hl b (by simp)
    have I' := recompute_inv hg I hb
    obtain ⟨h1, h2, h3, h4⟩ := ih (fun c hc => hl c (by simp [hc])) (recompute g lo b).1
      (fl || (recompute g lo b).2) I'
    have hw := weight_mono (g := g) (recompute_le I b)
    refine ⟨h1, Nat.le_trans hw h2, fun hr hfl => ?_, fun hr => ?_⟩
    · cases hc : (recompute g lo b).2 with
      | true => exact Nat.lt_of_lt_of_le (weight_recompute I hb hc) h2
      | false => exact Nat.lt_of_le_of_lt hw (h3 hr (by rw [hfl, hc]; rfl))
    · obtain ⟨e1, e2, e3⟩ := h4 hr
      have ⟨e4, e5⟩ := Bool.or_eq_false_iff.1 e2
      obtain ⟨e6, e7⟩ := recompute_false e5
      rw [e6] at e3
      refine ⟨e1.trans e6, e4, fun c hc => ?_⟩
      rcases List.mem_cons.1 hc with rfl | hc
      · exact e7
      · exact e3 c hc

theorem liveLoop_some {g : Graph} (hg : Closed g) (fuel : Nat) (lo : Lo) (I : Inv g lo)
    (hf : g.n * g.names.card < weight g lo + fuel) :
    ∃ r, liveLoop g fuel lo = some r ∧ Inv g r ∧ ∀ b < g.n, newLiveOut g r b ⊆ r b := by
  induction fuel generalizing lo with
  | zero => have := weight_le I; omega
  | succ fuel ih =>
    obtain ⟨h1, -, h3, h4⟩ := foldl_pass hg (List.range g.n)
      (fun b hb => List.mem_range.1 hb) lo false I
    unfold liveLoop
    cases hc : (pass g lo).2 with
    | true =>
      simp only [hc, if_true]
      refine ih _ h1 ?_
      have := h3 hc rfl
      unfold pass
      omega
    | false =>
      simp only [hc]
      obtain ⟨e1, -, e3⟩ := h4 hc
      exact ⟨_, rfl, h1, fun b hb => by
        rw [show (pass g lo).1 = lo from e1]; exact e3 b (List.mem_range.2 hb)⟩

theorem inv_init (g : Graph) : Inv g (fun _ => ∅) :=
  ⟨by simp, by simp, by simp⟩

theorem live_complete {g : Graph} (hg : Closed g) {lo : Lo}
    (hfix : ∀ b < g.n, newLiveOut g lo b ⊆ lo b) (v : Nat) (p : List Nat) :
    ∀ b < g.n, Walk g b p → ReadFirst v (p.flatMap g.code) → v ∈ lo b := by
  induction p with
  | nil => intro b _ _ h; exact h.elim
  | cons c p ih =>
    intro b hb hw hr
    refine hfix b hb ((mem_newLiveOut ..).2 ⟨c, hw.1, ?_⟩)
    rw [List.flatMap_cons] at hr
    rcases (readFirst_block g c v _).1 hr with h | ⟨h1, h2⟩
    · exact .inl h
    · exact .inr ⟨ih c (hg b hb c hw.1) hw.2 h2, h1⟩

/-! ### The property -/

/-- **C37, termination.** On every control-flow graph the iteration stops: it
makes at most `n * k + 1` passes over the `n` blocks, `k` being the number of
names that are read. -/
theorem live_terminates (g : Graph) (hg : Closed g) : ∃ lo, computeLiveOut g = some lo := by
  obtain ⟨r, h, -, -⟩ := liveLoop_some hg (g.n * g.names.card + 1) _ (inv_init g) (by omega)
  exact ⟨r, h⟩

/-- **C37, exactness.** When the iteration stops, a name is in a block's
live-out set exactly when control can continue from the end of the block
through statements that read the name before assigning it. -/
theorem live_exact (g : Graph) (hg : Closed g) (lo : Lo) (h : computeLiveOut g = some lo)
    (b : Nat) (hb : b < g.n) (v : Nat) : v ∈ lo b ↔ Live g b v := by
  obtain ⟨r, hr, I, hfix⟩ := liveLoop_some hg (g.n * g.names.card + 1) _ (inv_init g) (by omega)
  have : r = lo := Option.some.inj (hr.symm.trans h)
  subst this
  exact ⟨I.sound b v, fun ⟨p, hp, hrd⟩ => live_complete hg hfix v p b hb hp hrd⟩

/-- More passes do not change the result: any number of passes at which the
loop stops gives the same sets on the blocks of the graph. -/
theorem live_fuel_irrelevant (g : Graph) (hg : Closed g) (fuel : Nat) (lo : Lo)
    (h : liveLoop g fuel (fun _ => ∅) = some lo) (b : Nat) (hb : b < g.n) (v : Nat) :
    v ∈ lo b ↔ Live g b v := by
  have key : ∀ (fuel : Nat) (l0 : Lo), Inv g l0 → liveLoop g fuel l0 = some lo →
      Inv g lo ∧ ∀ b < g.n, newLiveOut g lo b ⊆ lo b := by
    intro fuel
    induction fuel with
    | zero => intro l0 _ h; cases h
    | succ fuel ih =>
      intro l0 I h
      obtain ⟨h1, -, -, h4⟩ := foldl_pass hg (List.range g.n)
        (fun b hb => List.mem_range.1 hb) l0 false I
      unfold liveLoop at h
      cases hc : (pass g l0).2 with
      | true => simp only [hc, if_true] at h; exact ih _ h1 h
      | false =>
        simp only [hc] at h
        have e := Option.some.inj h
        obtain ⟨e1, -, e3⟩ := h4 hc
        have e5 : lo = l0 := by rw [← e]; exact e1
        subst e5
        exact ⟨I, fun b hb => e3 b (List.mem_range.2 hb)⟩
  obtain ⟨I, hfix⟩ := key fuel _ (inv_init g) h
  exact ⟨I.sound b v, fun ⟨p, hp, hrd⟩ => live_complete hg hfix v p b hb hp hrd⟩

/-- **C37, as reported per name node.** The answer recorded for a name node of
block `b` (the answer the compiler consults when a name is rebound to another
type) is `True` exactly when the name is live at the end of `b`. -/
theorem node_live_exact (g : Graph) (hg : Closed g) (lo : Lo) (h : computeLiveOut g = some lo)
    (b : Nat) (hb : b < g.n) (v : Nat) : nodeLiveOut lo b v = true ↔ Live g b v := by
  rw [← live_exact g hg lo h b hb v]; simp [nodeLiveOut]

/-! ### A concrete case

`x = a; while x: x = y; y = a` and then `return x`, as blocks
0: `x = a`, 1: `x`, 2: `x = y; y = a`, 3: `return x`, with `a,x,y = 0,1,2`. -/

def demo : Graph where
  n := 4
  code := fun
    | 0 => [⟨{0}, {1}⟩]
    | 1 => [⟨{1}, ∅⟩]
    | 2 => [⟨{2}, {1}⟩, ⟨{0}, {2}⟩]
    | 3 => [⟨{1}, ∅⟩]
    | _ => []
  next := fun
    | 0 => [1]
    | 1 => [2, 3]
    | 2 => [1]
    | _ => []

example : (computeLiveOut demo).map (fun lo => (List.range 4).map lo)
    = some [{0, 1, 2}, {0, 1, 2}, {0, 1, 2}, ∅] := by decide +kernel

example : Closed demo := by unfold Closed; decide

/-- `y` is live at the end of block 2: control goes back through the test to
block 2, whose first statement reads it. -/
example : Live demo 2 2 :=
  ⟨[1, 2], ⟨by decide, by decide, trivial⟩, by
    show (2 ∈ ({1} : Finset Nat) ∨ _ ∧ (2 ∈ ({2} : Finset Nat) ∨ _))
    exact .inr ⟨by decide, .inl (by decide)⟩⟩

end Verif.Liveness
