import Verif.StructEqSpec
/-
Structural equality is an equivalence; it agrees with the comparison without path tracing and follows
from the deep comparison of expressions.
-/
namespace Verif.StructEq

section
variable {V : Type} {veq : V → V → Bool} {H : Heap V}

/-- **C123** `structural_equal` always answers, and answers yes exactly for objects that are equal up to a
one-to-one renaming of variables (and graph nodes) that fixes the free variables. -/
theorem equal_partial (hy : NoYield H) (a b : Nat) (f : Bool) :
    (∃ r, Returns veq H (some a) (some b) f r) ∧
    (Returns veq H (some a) (some b) f true ↔ Alpha veq H f a b) ∧
    (Returns veq H (some a) (some b) f false ↔ ¬ Alpha veq H f a b) := by
  refine ⟨⟨_, returns_iff.2 rfl⟩, ?_, ?_⟩
  · rw [returns_iff, ← cmp_iff hy]
    rfl
  · rw [returns_iff, ← cmp_iff hy]
    simp [verdict]

/-- Deferring failures, as `get_first_structural_mismatch` does, does not change the answer. -/
theorem deferred_same (lhs rhs : Option Nat) (f r : Bool) :
    ReturnsDeferred veq H lhs rhs f r ↔ Returns veq H lhs rhs f r := by
  rw [returns_iff, returnsDeferred_iff]

/-! ### The traversals of two equal objects -/

theorem forall2_mem_iff {R : Nat → Nat → Prop} (hR : OneR R) {l l' : List Nat} {a b : Nat}
    (h : List.Forall₂ R l l') (hab : R a b) : a ∈ l ↔ b ∈ l' := by
  induction h with
  | nil => simp
  | @cons x y l l' h1 _ ih =>
    simp only [List.mem_cons, ih]
    rw [hR a b x y hab h1]

/-- The states of two traversals correspond, and only renamed nodes have been recorded. -/
def Sync (H : Heap V) (R : Nat → Nat → Prop) (s t : List Nat × List Nat) : Prop :=
  List.Forall₂ R s.1 t.1 ∧ List.Forall₂ R s.2 t.2 ∧ (∀ x ∈ s.1, (H.node x).kind.marked = true) ∧
    ∀ x ∈ t.1, (H.node x).kind.marked = true

theorem walkItems_sync {R : Nat → Nat → Prop} {k k' a b : Nat} {f : Bool}
    (hc : ∀ f p q s t, p < a → q < b → Sim veq H R p q → Sync H R s t →
      Sync H R (walk H k f p s) (walk H k' f q t)) :
    ∀ (xs ys : List (Item V)) s t, (∀ q d r, Item.ref (some q) d r ∈ xs → q < a) →
      (∀ q d r, Item.ref (some q) d r ∈ ys → q < b) →
      List.Forall₂ (ItemRel veq (Sim veq H R)) xs ys → Sync H R s t →
      Sync H R (walkItems (walk H k) f xs s) (walkItems (walk H k') f ys t) := by
  intro xs
  induction xs with
  | nil => intro ys s t _ _ hf hs; cases hf; exact hs
  | cons x xs ih =>
    intro ys s t hx hy hf hs
    cases hf with
    | @cons _ y _ ys h1 hf =>
      have hx' := fun q d r h => hx q d r (List.mem_cons_of_mem _ h)
      have hy' := fun q d r h => hy q d r (List.mem_cons_of_mem _ h)
      rcases x with v | n | ⟨_ | p, d, r⟩ <;> rcases y with w | n' | ⟨_ | q, e, r'⟩ <;>
        simp only [ItemRel] at h1 <;> simp only [walkItems] <;> try exact ih ys s t hx' hy' hf hs
      obtain ⟨rfl, hs1⟩ := h1
      exact ih ys _ _ hx' hy' hf
        (hc _ p q s t (hx p _ _ List.mem_cons_self) (hy q _ _ List.mem_cons_self) hs1 hs)

theorem walk_sync {R : Nat → Nat → Prop} (hR : OneR R) (k : Nat) : ∀ k' f a b s t, a < k → b < k' →
    Sim veq H R a b → Sync H R s t → Sync H R (walk H k f a s) (walk H k' f b t) := by
  induction k with
  | zero => intro k' f a b s t h; omega
  | succ k ih =>
    intro k' f a b s t hak hbk hsim hs
    cases k' with
    | zero => omega
    | succ k' =>
      have hsim' := hsim
      rw [sim_iff] at hsim
      obtain ⟨hty, hkd, hm, ho, hi⟩ := hsim
      have hmem : a ∈ s.1 ↔ b ∈ t.1 := by
        by_cases hmk : (H.node a).kind.marked = true
        · exact forall2_mem_iff hR hs.1 (hm hmk)
        · constructor
          · intro h; exact absurd (hs.2.2.1 a h) hmk
          · intro h; have := hs.2.2.2 b h; rw [← hkd] at this; exact absurd this hmk
      have hI := fun hh => walkItems_sync (veq := veq) (H := H) (R := R) (k := k) (k' := k') (a := a) (b := b) (f := f)
        (fun f p q s t hp hq h1 h2 => ih k' f p q s t (by omega) (by omega) h1 h2)
        (H.node a).es (H.node b).es s t (fun q d r hq => H.lt a q d r hq) (fun q d r hq => H.lt b q d r hq) hh hs
      rw [walk, walk]
      by_cases ha : a ∈ s.1
      · rw [if_pos ha, if_pos (hmem.1 ha)]; exact hs
      · rw [if_neg ha, if_neg (fun h => ha (hmem.2 h))]
        have hadd : (H.node a).kind.marked = true → ∀ u v, Sync H R u v → Sync H R (a :: u.1, u.2) (b :: v.1, v.2) := by
          intro hmk u v hu
          refine ⟨.cons (hm hmk) hu.1, hu.2.1, ?_, ?_⟩
          · intro x hx
            rcases List.mem_cons.1 hx with rfl | hx
            · exact hmk
            · exact hu.2.2.1 x hx
          · intro x hx
            rcases List.mem_cons.1 hx with rfl | hx
            · rw [← hkd]; exact hmk
            · exact hu.2.2.2 x hx
        cases hka : (H.node a).kind <;> rw [hka] at hkd hi <;> rw [← hkd] <;> dsimp only
        · exact hI (hi (by simp))
        · exact hadd (by rw [hka]; rfl) _ _ (hI (hi (by simp)))
        · have h1 := hI (hi (by simp))
          have h2 := hadd (by rw [hka]; rfl) _ _ h1
          cases f
          · exact ⟨h2.1, .cons (hm (by rw [hka]; rfl)) h1.2.1, h2.2.2⟩
          · exact h2
        · exact hs
        · exact hadd (by rw [hka]; rfl) _ _ (hI (hi (by simp)))
        · exact hI (hi (by simp))

/-- Equal objects have corresponding free variables, in the same order. -/
theorem freeVars_sync {R : Nat → Nat → Prop} (hR : OneR R) {f : Bool} {a b : Nat} (h : Sim veq H R a b) :
    List.Forall₂ R (freeVars H f a) (freeVars H f b) :=
  (walk_sync hR (a + 1) (b + 1) f a b ([], []) ([], []) (Nat.lt_succ_self _) (Nat.lt_succ_self _) h
    ⟨.nil, .nil, by simp, by simp⟩).2.1

theorem forall2_fixed {R : Nat → Nat → Prop} (hR : OneR R) {l l' : List Nat} (h : List.Forall₂ R l l')
    (hf : ∀ x ∈ l, R x x) : l = l' := by
  induction h with
  | nil => rfl
  | @cons x y l l' h1 _ ih =>
    rw [(hR x x x y (hf x List.mem_cons_self) h1).1 rfl, ih (fun z hz => hf z (List.mem_cons_of_mem _ hz))]

/-- Objects that are equal have the same free variables. -/
theorem alpha_freeVars {f : Bool} {a b : Nat} (h : Alpha veq H f a b) : freeVars H f a = freeVars H f b := by
  obtain ⟨R, hR, hs, hf⟩ := h
  exact forall2_fixed hR (freeVars_sync hR hs) hf

/-! ### An equivalence -/

theorem forall2_refl {S : Nat → Nat → Prop} (hv : ∀ v, veq v v = true) {a : Nat} :
    ∀ xs : List (Item V), (∀ q d r, Item.ref (some q) d r ∈ xs → q < a) → (∀ p, p < a → S p p) →
      List.Forall₂ (ItemRel veq S) xs xs := by
  intro xs
  induction xs with
  | nil => intro _ _; exact .nil
  | cons x xs ih =>
    intro hx h
    refine .cons ?_ (ih (fun q d r h => hx q d r (List.mem_cons_of_mem _ h)) h)
    rcases x with v | n | ⟨_ | p, d, r⟩ <;> simp only [ItemRel]
    · exact hv v
    · exact ⟨trivial, h p (hx p _ _ List.mem_cons_self)⟩

theorem sim_refl (hv : ∀ v, veq v v = true) (a : Nat) : Sim veq H Eq a a := by
  induction a using Nat.strongRecOn with
  | ind a ih =>
    rw [sim_iff]
    exact ⟨rfl, rfl, fun _ => rfl, fun _ => rfl, fun _ =>
      forall2_refl hv _ (fun q d r hq => H.lt a q d r hq) ih⟩

theorem forall2_symm {S T : Nat → Nat → Prop} (hv : ∀ v w, veq v w = true → veq w v = true) {a : Nat} :
    ∀ xs ys : List (Item V), (∀ q d r, Item.ref (some q) d r ∈ xs → q < a) →
      (∀ p q, p < a → S p q → T q p) →
      List.Forall₂ (ItemRel veq S) xs ys → List.Forall₂ (ItemRel veq T) ys xs := by
  intro xs ys hx h hf
  induction hf with
  | nil => exact .nil
  | @cons x y xs ys h1 _ ih =>
    refine .cons ?_ (ih (fun q d r h => hx q d r (List.mem_cons_of_mem _ h)))
    rcases x with v | n | ⟨_ | p, d, r⟩ <;> rcases y with w | n' | ⟨_ | q, e, r'⟩ <;>
      simp only [ItemRel] at h1 ⊢
    · exact hv _ _ h1
    · exact h1.symm
    · exact h1.symm
    · exact ⟨h1.1.symm, h p q (hx p _ _ List.mem_cons_self) h1.2⟩

theorem sim_symm (hv : ∀ v w, veq v w = true → veq w v = true) {R : Nat → Nat → Prop} :
    ∀ a b, Sim veq H R a b → Sim veq H (fun x y => R y x) b a := by
  intro a
  induction a using Nat.strongRecOn with
  | ind a ih =>
    intro b h
    rw [sim_iff] at h ⊢
    obtain ⟨hty, hkd, hm, ho, hi⟩ := h
    refine ⟨hty.symm, hkd.symm, fun h => hm (by rw [hkd]; exact h), fun h => (ho (by rw [hkd]; exact h)).symm,
      fun h => ?_⟩
    exact forall2_symm hv _ _ (fun q d r hq => H.lt a q d r hq) (fun p q hp h => ih p hp q h)
      (hi (by rw [hkd]; exact h))

theorem forall2_trans {S T U : Nat → Nat → Prop} (hv : ∀ u v w, veq u v = true → veq v w = true → veq u w = true)
    {a : Nat} : ∀ xs ys zs : List (Item V), (∀ q d r, Item.ref (some q) d r ∈ xs → q < a) →
      (∀ p q r, p < a → S p q → T q r → U p r) →
      List.Forall₂ (ItemRel veq S) xs ys → List.Forall₂ (ItemRel veq T) ys zs →
      List.Forall₂ (ItemRel veq U) xs zs := by
  intro xs ys zs hx h hf hg
  induction hf generalizing zs with
  | nil => cases hg; exact .nil
  | @cons x y xs ys h1 _ ih =>
    cases hg with
    | @cons _ z _ zs h2 hg =>
      refine .cons ?_ (ih zs (fun q d r h => hx q d r (List.mem_cons_of_mem _ h)) hg)
      rcases x with v | n | ⟨_ | p, d, r⟩ <;> rcases y with w | n' | ⟨_ | q, e, r'⟩ <;>
        rcases z with u | n'' | ⟨_ | s, e', r''⟩ <;> simp only [ItemRel] at h1 h2 ⊢
      · exact hv _ _ _ h1 h2
      · exact h1.trans h2
      · exact h1.trans h2
      · exact ⟨h1.1.trans h2.1, h p q s (hx p _ _ List.mem_cons_self) h1.2 h2.2⟩

theorem sim_trans (hv : ∀ u v w, veq u v = true → veq v w = true → veq u w = true) {R S : Nat → Nat → Prop} :
    ∀ a b c, Sim veq H R a b → Sim veq H S b c → Sim veq H (fun x z => ∃ y, R x y ∧ S y z) a c := by
  intro a
  induction a using Nat.strongRecOn with
  | ind a ih =>
    intro b c h1 h2
    rw [sim_iff] at h1 h2 ⊢
    obtain ⟨hty, hkd, hm, ho, hi⟩ := h1
    obtain ⟨hty', hkd', hm', ho', hi'⟩ := h2
    refine ⟨hty.trans hty', hkd.trans hkd', fun h => ⟨b, hm h, hm' (by rw [← hkd]; exact h)⟩,
      fun h => (ho h).trans (ho' (by rw [← hkd]; exact h)), fun h => ?_⟩
    exact forall2_trans hv _ _ _ (fun q d r hq => H.lt a q d r hq) (fun p q r hp h h' => ih p hp q r h h')
      (hi h) (hi' (by rw [← hkd]; exact h))

theorem alpha_refl (hv : ∀ v, veq v v = true) (f : Bool) (a : Nat) : Alpha veq H f a a :=
  ⟨Eq, fun _ _ _ _ h1 h2 => by rw [h1, h2], sim_refl hv a, fun _ _ => rfl⟩

theorem alpha_symm (hv : ∀ v w, veq v w = true → veq w v = true) {f : Bool} {a b : Nat}
    (h : Alpha veq H f a b) : Alpha veq H f b a := by
  have hfv := alpha_freeVars h
  obtain ⟨R, hR, hs, hf⟩ := h
  refine ⟨fun x y => R y x, fun x y x' y' h1 h2 => (hR y x y' x' h1 h2).symm, sim_symm hv a b hs, ?_⟩
  rw [← hfv]
  exact hf

theorem alpha_trans (hv : ∀ u v w, veq u v = true → veq v w = true → veq u w = true) {f : Bool} {a b c : Nat}
    (h1 : Alpha veq H f a b) (h2 : Alpha veq H f b c) : Alpha veq H f a c := by
  have hfv := alpha_freeVars h1
  obtain ⟨R, hR, hs, hf⟩ := h1
  obtain ⟨S, hS, hs', hf'⟩ := h2
  refine ⟨fun x z => ∃ y, R x y ∧ S y z, ?_, sim_trans hv a b c hs hs', ?_⟩
  · rintro x z x' z' ⟨y, r1, s1⟩ ⟨y', r2, s2⟩
    rw [hR x y x' y' r1 r2, hS y z y' z' s1 s2]
  · intro x hx
    exact ⟨x, hf x hx, hf' x (by rw [← hfv]; exact hx)⟩

/-- **C124** `structural_equal` is an equivalence relation as far as the comparison of values is one
(integers, strings, data types, enums). -/
theorem equivalence_partial (hy : NoYield H) (f : Bool)
    (hr : ∀ v, veq v v = true) (hs : ∀ v w, veq v w = true → veq w v = true)
    (ht : ∀ u v w, veq u v = true → veq v w = true → veq u w = true) :
    (∀ a, Returns veq H (some a) (some a) f true) ∧
    (∀ a b r, Returns veq H (some a) (some b) f r → Returns veq H (some b) (some a) f r) ∧
    (∀ a b c, Returns veq H (some a) (some b) f true → Returns veq H (some b) (some c) f true →
      Returns veq H (some a) (some c) f true) := by
  refine ⟨fun a => ((equal_partial hy a a f).2.1).2 (alpha_refl hr f a), fun a b r h => ?_, fun a b c h1 h2 => ?_⟩
  · cases r
    · rw [(equal_partial hy _ _ f).2.2] at h ⊢
      exact fun h' => h (alpha_symm hs h')
    · rw [(equal_partial hy _ _ f).2.1] at h ⊢
      exact alpha_symm hs h
  · rw [(equal_partial hy _ _ f).2.1] at h1 h2 ⊢
    exact alpha_trans ht h1 h2

theorem walk_free_true (k : Nat) : ∀ a st, (walk H k true a st).2 = st.2 := by
  have hI : ∀ w : Bool → Nat → List Nat × List Nat → List Nat × List Nat, (∀ p st, (w true p st).2 = st.2) →
      ∀ (xs : List (Item V)) st, (walkItems w true xs st).2 = st.2 := by
    intro w hw xs
    induction xs with
    | nil => intro st; rfl
    | cons x xs ih =>
      intro st
      rcases x with v | n | ⟨_ | p, d, r⟩ <;> simp only [walkItems, Bool.true_or] <;> rw [ih]
      exact hw p st
  induction k with
  | zero => intro a st; rfl
  | succ k ih =>
    intro a st
    rw [walk]
    split
    · rfl
    · split <;> first | rfl | exact hI _ ih _ _

/-- Allowing free variables to be renamed only makes more objects equal. -/
theorem map_free_vars_more (hy : NoYield H) (a b : Nat)
    (h : Returns veq H (some a) (some b) false true) : Returns veq H (some a) (some b) true true := by
  rw [(equal_partial hy _ _ _).2.1] at h ⊢
  obtain ⟨R, hR, hs, _⟩ := h
  refine ⟨R, hR, hs, fun x hx => ?_⟩
  rw [freeVars, walk_free_true] at hx
  simp at hx

/-- For an object without free variables `map_free_vars` makes no difference. -/
theorem closed_same (hy : NoYield H) (a b : Nat) (hc : freeVars H false a = []) :
    Returns veq H (some a) (some b) true true → Returns veq H (some a) (some b) false true := by
  intro h
  rw [(equal_partial hy _ _ _).2.1] at h ⊢
  obtain ⟨R, hR, hs, _⟩ := h
  exact ⟨R, hR, hs, fun x hx => by rw [hc] at hx; simp at hx⟩

end

end Verif.StructEq
