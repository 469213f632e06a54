import Verif.StructEqRel
/-
The comparison without path tracing and the deep comparison of expressions.
-/
namespace Verif.StructEq

section
variable {V : Type} {veq : V → V → Bool} {H : Heap V}

/-- The form of an attribute, which is fixed by the type of the node. -/
def shape : Item V → Nat × Bool × Bool
  | .val _ => (0, false, false)
  | .len _ => (1, false, false)
  | .ref _ d a => (2, d, a)

/-- The heap is laid out by node types: nodes of one type have the same attributes, all arrays have the
same type, and an attribute declared as an array is an array that is not null. -/
structure Laid (H : Heap V) : Prop where
  arr : ∀ p q, (H.node p).kind = .arr → (H.node q).kind = .arr → (H.node p).ty = (H.node q).ty
  same : ∀ p q, (H.node p).ty = (H.node q).ty → (H.node p).kind = (H.node q).kind →
    (H.node p).kind ≠ .arr → (H.node p).es.map shape = (H.node q).es.map shape
  attr : ∀ p q d, (H.node p).kind ≠ .arr → Item.ref q d true ∈ (H.node p).es →
    d = false ∧ ∃ r, q = some r ∧ (H.node r).kind = .arr

theorem forall2_append_iff {α : Type} {R : α → α → Prop} {a c : List α} :
    ∀ {b d : List α}, a.length = b.length →
      (List.Forall₂ R (a ++ c) (b ++ d) ↔ List.Forall₂ R a b ∧ List.Forall₂ R c d) := by
  induction a with
  | nil =>
    intro b d h
    have : b = [] := List.length_eq_zero_iff.1 h.symm
    subst this
    simp
  | cons x a ih =>
    intro b d h
    cases b with
    | nil => simp at h
    | cons y b =>
      simp only [List.cons_append, List.forall₂_cons]
      rw [ih (by simpa using h), and_assoc]

theorem itemRel_congr {S T : Nat → Nat → Prop} {a : Nat} {x y : Item V}
    (hx : ∀ q d r, Item.ref (some q) d r = x → q < a) (h : ∀ p q, p < a → (S p q ↔ T p q)) :
    ItemRel veq S x y ↔ ItemRel veq T x y := by
  rcases x with v | n | ⟨_ | p, d, r⟩ <;> rcases y with w | n' | ⟨_ | q, e, r'⟩ <;> simp only [ItemRel]
  rw [h p q (hx p d r rfl)]

theorem items_congr {S T : Nat → Nat → Prop} {a : Nat} (h : ∀ p q, p < a → (S p q ↔ T p q)) :
    ∀ (xs ys : List (Item V)), (∀ q d r, Item.ref (some q) d r ∈ xs → q < a) →
    (List.Forall₂ (ItemRel veq S) xs ys ↔ List.Forall₂ (ItemRel veq T) xs ys) := by
  intro xs ys hx
  constructor
  · exact itemRel_mono hx (fun p q hp => (h p q hp).1)
  · exact itemRel_mono hx (fun p q hp => (h p q hp).2)

theorem inline_other {node : Nat → Node V} {x : Item V} (h : ∀ q, x ≠ .ref q false true) :
    inline node x = [x] := by
  unfold inline
  split
  · exact absurd rfl (h _)
  · exact absurd rfl (h _)
  · rfl

theorem items_expand {R : Nat → Nat → Prop} {a : Nat} (hl : Laid H)
    (h : ∀ p q, p < a → (Sim veq H R p q ↔ Sim veq (expand H) R p q)) :
    ∀ (xs ys : List (Item V)), xs.map shape = ys.map shape →
    (∀ q d r, Item.ref (some q) d r ∈ xs → q < a) →
    (∀ q d, Item.ref q d true ∈ xs → d = false ∧ ∃ r, q = some r ∧ (H.node r).kind = .arr) →
    (∀ q d, Item.ref q d true ∈ ys → d = false ∧ ∃ r, q = some r ∧ (H.node r).kind = .arr) →
    (List.Forall₂ (ItemRel veq (Sim veq H R)) xs ys ↔
      List.Forall₂ (ItemRel veq (Sim veq (expand H) R)) (xs.flatMap (inline H.node)) (ys.flatMap (inline H.node))) := by
  intro xs
  induction xs with
  | nil =>
    intro ys hs _ _ _
    cases ys with
    | nil => simp
    | cons y ys => simp at hs
  | cons x xs ih =>
    intro ys hs hx ax ay
    cases ys with
    | nil => simp at hs
    | cons y ys =>
      simp only [List.map_cons, List.cons.injEq] at hs
      have ih' := ih ys hs.2 (fun q d r h => hx q d r (List.mem_cons_of_mem _ h))
        (fun q d h => ax q d (List.mem_cons_of_mem _ h)) (fun q d h => ay q d (List.mem_cons_of_mem _ h))
      rw [List.forall₂_cons, List.flatMap_cons, List.flatMap_cons, ih']
      by_cases hex : ∃ q, x = .ref q false true
      · obtain ⟨q, rfl⟩ := hex
        obtain ⟨_, p, rfl, hp⟩ := ax q false List.mem_cons_self
        have hy' : ∃ q', y = .ref q' false true := by
          rcases y with w | n' | ⟨q', e, r'⟩ <;> simp [shape] at hs
          exact ⟨q', by rw [hs.1.1, hs.1.2]⟩
        obtain ⟨q', rfl⟩ := hy'
        obtain ⟨_, p', rfl, hp'⟩ := ay q' false List.mem_cons_self
        have hpa := hx p _ _ List.mem_cons_self
        have i1 : inline H.node (.ref (some p) false true) = .len (H.node p).es.length :: (H.node p).es := by
          simp [inline, hp]
        have i2 : inline H.node (.ref (some p') false true) = .len (H.node p').es.length :: (H.node p').es := by
          simp [inline, hp']
        have hsim : Sim veq H R p p' ↔
            List.Forall₂ (ItemRel veq (Sim veq (expand H) R)) (H.node p).es (H.node p').es := by
          rw [sim_iff, ← items_congr (fun r q hr => h r q (Nat.lt_trans hr hpa)) (H.node p).es (H.node p').es
            (fun q d r hq => H.lt p q d r hq)]
          constructor
          · intro hs; exact hs.2.2.2.2 (by rw [hp]; simp)
          · intro hf
            exact ⟨hl.arr p p' hp hp', by rw [hp, hp'], by rw [hp]; simp [Kind.marked], by rw [hp]; simp,
              fun _ => hf⟩
        simp only [ItemRel, i1, i2, hsim, List.cons_append, List.forall₂_cons, true_and]
        by_cases hlen : (H.node p).es.length = (H.node p').es.length
        · rw [forall2_append_iff hlen]
          simp [hlen]
        · constructor
          · intro hh; exact absurd hh.1.length_eq hlen
          · intro hh; exact absurd hh.1 hlen
      · have hox : ∀ q, x ≠ .ref q false true := fun q hq => hex ⟨q, hq⟩
        have hoy : ∀ q, y ≠ .ref q false true := by
          rintro q rfl
          rcases x with v | n | ⟨p, d, r⟩ <;> simp [shape] at hs
          exact hox p (by rw [hs.1.1, hs.1.2])
        rw [inline_other hox, inline_other hoy]
        simp only [List.singleton_append, List.forall₂_cons]
        rw [itemRel_congr (fun q d r hq => hx q d r (hq ▸ List.mem_cons_self)) h]

theorem sim_expand (hl : Laid H) {R : Nat → Nat → Prop} : ∀ a b, Sim veq H R a b ↔ Sim veq (expand H) R a b := by
  intro a
  induction a using Nat.strongRecOn with
  | ind a ih =>
    intro b
    rw [sim_iff, sim_iff]
    by_cases hty : (H.node a).ty = (H.node b).ty
    swap
    · constructor <;> intro h <;> exact absurd h.1 hty
    by_cases hkd : (H.node a).kind = (H.node b).kind
    swap
    · constructor <;> intro h <;> exact absurd h.2.1 hkd
    by_cases ha : (H.node a).kind = .arr
    · have e1 : ((expand H).node a).es = (H.node a).es := by simp [expand, ha]
      have e2 : ((expand H).node b).es = (H.node b).es := by simp [expand, ← hkd, ha]
      rw [e1, e2, items_congr (fun p q hp => ih p hp q) (H.node a).es (H.node b).es (fun q d r hq => H.lt a q d r hq)]
      exact Iff.rfl
    · have e1 : ((expand H).node a).es = (H.node a).es.flatMap (inline H.node) := by
        simp only [expand]
      have e2 : ((expand H).node b).es = (H.node b).es.flatMap (inline H.node) := by
        rw [hkd] at ha
        simp only [expand]
      rw [e1, e2, items_expand hl (fun p q hp => ih p hp q) (H.node a).es (H.node b).es (hl.same a b hty hkd ha)
        (fun q d r hq => H.lt a q d r hq) (fun q d => hl.attr a q d ha)
        (fun q d => hl.attr b q d (by rw [← hkd]; exact ha))]
      exact Iff.rfl

/-! ### Free variables -/

theorem walkItems_append (w : Bool → Nat → List Nat × List Nat → List Nat × List Nat) (f : Bool)
    (xs ys : List (Item V)) (st : List Nat × List Nat) :
    walkItems w f (xs ++ ys) st = walkItems w f ys (walkItems w f xs st) := by
  induction xs generalizing st with
  | nil => rfl
  | cons x xs ih =>
    rcases x with v | n | ⟨_ | p, d, r⟩ <;> simp only [List.cons_append, walkItems] <;> exact ih _

/-- Only renamed nodes have been recorded. -/
def Marked (H : Heap V) (st : List Nat × List Nat) : Prop := ∀ x ∈ st.1, (H.node x).kind.marked = true

theorem walk_marked {k : Nat} {f : Bool} {a : Nat} {st : List Nat × List Nat} (ha : a < k)
    (h : Marked H st) : Marked H (walk H k f a st) := by
  have hr : ∀ l : List Nat, List.Forall₂ Eq l l := fun l => by
    induction l with
    | nil => exact .nil
    | cons x l ih => exact .cons rfl ih
  exact (walk_sync (veq := fun _ _ => true) (H := H) (R := Eq)
    (fun _ _ _ _ h1 h2 => by rw [h1, h2]) k k f a a st st ha ha (sim_refl (fun _ => rfl) a)
    ⟨hr _, hr _, h, h⟩).2.2.1

theorem walkItems_congr {w w' : Bool → Nat → List Nat × List Nat → List Nat × List Nat} {f : Bool} {a : Nat}
    (hw : ∀ f p st, p < a → Marked H st → w f p st = w' f p st ∧ Marked H (w' f p st)) :
    ∀ (xs : List (Item V)) st, (∀ q d r, Item.ref (some q) d r ∈ xs → q < a) → Marked H st →
      walkItems w f xs st = walkItems w' f xs st ∧ Marked H (walkItems w' f xs st) := by
  intro xs
  induction xs with
  | nil => intro st _ h; exact ⟨rfl, h⟩
  | cons x xs ih =>
    intro st hx hm
    have hx' := fun q d r h => hx q d r (List.mem_cons_of_mem _ h)
    rcases x with v | n | ⟨_ | p, d, r⟩ <;> simp only [walkItems] <;> try exact ih st hx' hm
    obtain ⟨h1, h2⟩ := hw (f || d) p st (hx p _ _ List.mem_cons_self) hm
    rw [h1]
    exact ih _ hx' h2

theorem walk_fuel : ∀ a k k' f st, a < k → a < k' → Marked H st → walk H k f a st = walk H k' f a st := by
  intro a
  induction a using Nat.strongRecOn with
  | ind a ih =>
    intro k k' f st h1 h2 hm
    cases k with
    | zero => omega
    | succ k =>
      cases k' with
      | zero => omega
      | succ k' =>
        have hI := (walkItems_congr (H := H) (f := f) (a := a) (w := walk H k) (w' := walk H k')
          (fun f p st hp hm => ⟨ih p hp k k' f st (by omega) (by omega) hm, walk_marked (by omega) hm⟩)
          (H.node a).es st (fun q d r hq => H.lt a q d r hq) hm).1
        rw [walk, walk, hI]

theorem walkItems_expand {k k' a : Nat} {f : Bool} (hak : a ≤ k') 
    (hw : ∀ f p st, p < a → Marked H st →
      walk (expand H) k f p st = walk H k' f p st) :
    ∀ (xs : List (Item V)) st, (∀ q d r, Item.ref (some q) d r ∈ xs → q < a) →
      (∀ q d, Item.ref q d true ∈ xs → d = false ∧ ∃ r, q = some r ∧ (H.node r).kind = .arr) →
      Marked H st →
      walkItems (walk (expand H) k) f (xs.flatMap (inline H.node)) st = walkItems (walk H k') f xs st := by
  intro xs
  induction xs with
  | nil => intro st _ _ _; rfl
  | cons x xs ih =>
    intro st hx ax hm
    have hx' := fun q d r h => hx q d r (List.mem_cons_of_mem _ h)
    have ax' := fun q d h => ax q d (List.mem_cons_of_mem _ h)
    rw [List.flatMap_cons, walkItems_append]
    by_cases hex : ∃ q, x = .ref q false true
    · obtain ⟨q, rfl⟩ := hex
      obtain ⟨_, p, rfl, hp⟩ := ax q false List.mem_cons_self
      have hpa := hx p _ _ List.mem_cons_self
      have i1 : inline H.node (.ref (some p) false true) = .len (H.node p).es.length :: (H.node p).es := by
        simp [inline, hp]
      have hnm : p ∉ st.1 := fun h => by have := hm p h; rw [hp] at this; simp [Kind.marked] at this
      have hwp : walk H k' f p st = walkItems (walk H k') f (H.node p).es st := by
        rw [walk_fuel p k' (k' + 1) f st (by omega) (by omega) hm, walk, if_neg hnm, hp]
      have hel := walkItems_congr (H := H) (f := f) (a := p) (w := walk (expand H) k) (w' := walk H k')
        (fun f r st hr hm => ⟨hw f r st (by omega) hm, walk_marked (by omega) hm⟩)
        (H.node p).es st (fun q d r hq => H.lt p q d r hq) hm
      simp only [i1, walkItems, Bool.or_false]
      rw [hel.1, hwp]
      exact ih _ hx' ax' hel.2
    · rw [inline_other (fun q hq => hex ⟨q, hq⟩)]
      rcases x with v | n | ⟨_ | p, d, r⟩ <;> simp only [walkItems] <;> try exact ih st hx' ax' hm
      have hpa := hx p _ _ List.mem_cons_self
      rw [hw _ p st hpa hm]
      exact ih _ hx' ax' (walk_marked (by omega) hm)

theorem walk_expand (hl : Laid H) : ∀ a k f st, a < k → Marked H st →
    walk (expand H) k f a st = walk H k f a st := by
  intro a
  induction a using Nat.strongRecOn with
  | ind a ih =>
    intro k f st h1 hm
    cases k with
    | zero => omega
    | succ k =>
      rw [walk, walk]
      by_cases ha : a ∈ st.1
      · rw [if_pos ha, if_pos ha]
      rw [if_neg ha, if_neg ha]
      have hk : ((expand H).node a).kind = (H.node a).kind := rfl
      by_cases hka : (H.node a).kind = .arr
      · have e1 : ((expand H).node a).es = (H.node a).es := by simp [expand, hka]
        rw [hk, e1, hka]
        exact (walkItems_congr (H := H) (f := f) (a := a)
          (fun f p st hp hm => ⟨ih p hp k f st (by omega) hm, walk_marked (by omega) hm⟩)
          (H.node a).es st (fun q d r hq => H.lt a q d r hq) hm).1
      · have e1 : ((expand H).node a).es = (H.node a).es.flatMap (inline H.node) := by
          simp only [expand]
        have hI := walkItems_expand (H := H) (k := k) (k' := k) (a := a) (f := f) (by omega)
          (fun f p st hp hm => ih p hp k f st (by omega) hm)
          (H.node a).es st (fun q d r hq => H.lt a q d r hq) (fun q d => hl.attr a q d hka) hm
        rw [hk, e1, hI]

theorem alpha_expand (hl : Laid H) (f : Bool) (a b : Nat) : Alpha veq (expand H) f a b ↔ Alpha veq H f a b := by
  have hfv : freeVars (expand H) f a = freeVars H f a := by
    unfold freeVars
    rw [walk_expand hl a (a + 1) f _ (Nat.lt_succ_self a) (by intro x hx; simp at hx)]
  unfold Alpha
  rw [hfv]
  simp only [sim_expand hl]

/-- **C125** The C++ comparison, which does not trace paths and compares arrays on the spot, gives the
same answer as `structural_equal`. -/
theorem fast_partial (hy : NoYield H) (hl : Laid H) (lhs rhs : Option Nat) (r : Bool) :
    FastReturns veq H lhs rhs r ↔ Returns veq H lhs rhs false r := by
  have h1 : FastReturns veq H lhs rhs r ↔ verdict veq (expand H) lhs rhs false = r :=
    returns_iff (veq := veq) (H := expand H)
  rw [h1, returns_iff]
  have hye : NoYield (expand H) := hy
  cases lhs with
  | none => cases rhs <;> exact Iff.rfl
  | some a =>
    cases rhs with
    | none => exact Iff.rfl
    | some b =>
      have : verdict veq (expand H) (some a) (some b) false = verdict veq H (some a) (some b) false := by
        rw [Bool.eq_iff_iff]
        exact ((cmp_iff hye false a b).trans (alpha_expand hl false a b)).trans (cmp_iff hy false a b).symm
      rw [this]

/-! ### Deep comparison -/

theorem deepItems_rel {c : Nat → Nat → Bool} {S : Nat → Nat → Prop} {a : Nat} 
    (hc : ∀ p q, p < a → c p q = true → S p q) :
    ∀ (xs ys : List (Item V)), (∀ q d r, Item.ref (some q) d r ∈ xs → q < a) →
      deepItems veq c xs ys = true → List.Forall₂ (ItemRel veq S) xs ys := by
  intro xs
  induction xs with
  | nil =>
    intro ys _ h
    cases ys with
    | nil => exact .nil
    | cons y ys => simp [deepItems] at h
  | cons x xs ih =>
    intro ys hx h
    have hx' := fun q d r h => hx q d r (List.mem_cons_of_mem _ h)
    cases ys with
    | nil => rcases x with v | n | ⟨_ | p, d, r⟩ <;> simp [deepItems] at h
    | cons y ys =>
      rcases x with v | n | ⟨_ | p, d, r⟩ <;> rcases y with w | n' | ⟨_ | q, e, r'⟩ <;>
        simp [deepItems] at h
      · exact .cons h.1 (ih ys hx' h.2)
      · exact .cons h.1 (ih ys hx' h.2)
      · exact .cons h.1 (ih ys hx' h.2)
      · exact .cons ⟨h.1.1, hc p q (hx p _ _ List.mem_cons_self) h.1.2⟩ (ih ys hx' h.2)

theorem deep_sim (hv : ∀ v, veq v v = true) (hg : ∀ p, (H.node p).kind ≠ .graph ∧ (H.node p).kind ≠ .yld)
    (k : Nat) : ∀ a b, a < k → deep veq H k a b = true → Sim veq H Eq a b := by
  induction k with
  | zero => intro a b h; omega
  | succ k ih =>
    intro a b hak h
    rw [deep] at h
    by_cases hab : a = b
    · subst hab; exact sim_refl hv a
    rw [if_neg hab] at h
    split at h
    · simp at h
    rename_i hh
    simp only [ne_eq, not_or, not_not] at hh
    rw [sim_iff]
    have hI := deepItems_rel (veq := veq) (c := deep veq H k) (S := Sim veq H Eq) (a := a)
      (fun p q hp h => ih p q (by omega) h) (H.node a).es (H.node b).es (fun q d r hq => H.lt a q d r hq)
    cases hka : (H.node a).kind <;> rw [hka] at h <;> dsimp only at h
    · exact ⟨hh.1, by rw [← hh.2, hka], by simp [Kind.marked], by simp, fun _ => hI h⟩
    · exact absurd hka (hg a).1
    · simp [hab] at h
    · simp [hab] at h
    · exact absurd hka (hg a).2
    · exact ⟨hh.1, by rw [← hh.2, hka], by simp [Kind.marked], by simp, fun _ => hI h⟩

/-- **C126** Expressions that `expr_deep_equal` finds equal are structurally equal, as long as no node is
compared as a node of a graph. -/
theorem deep_partial (hl : Laid H) (hv : ∀ v, veq v v = true)
    (hg : ∀ p, (H.node p).kind ≠ .graph ∧ (H.node p).kind ≠ .yld) (a b : Nat)
    (h : deepEqual veq H a b = true) (f : Bool) : Returns veq H (some a) (some b) f true := by
  rw [(equal_partial (fun p => (hg p).2) a b f).2.1, ← alpha_expand hl]
  exact ⟨Eq, fun _ _ _ _ h1 h2 => by rw [h1, h2],
    deep_sim (H := expand H) hv hg (a + 1) a b (Nat.lt_succ_self a) h, fun _ _ => rfl⟩

theorem rel_deepItems {c : Nat → Nat → Bool} {S : Nat → Nat → Prop} {a : Nat}
    (hc : ∀ p q, p < a → S p q → c p q = true) :
    ∀ (xs ys : List (Item V)), (∀ q d r, Item.ref (some q) d r ∈ xs → q < a) →
      List.Forall₂ (ItemRel veq S) xs ys → deepItems veq c xs ys = true := by
  intro xs ys hx hf
  induction hf with
  | nil => rfl
  | @cons x y xs ys h1 _ ih =>
    have ih := ih (fun q d r h => hx q d r (List.mem_cons_of_mem _ h))
    rcases x with v | n | ⟨_ | p, d, r⟩ <;> rcases y with w | n' | ⟨_ | q, e, r'⟩ <;>
      simp only [ItemRel] at h1
    · simp [deepItems, h1, ih]
    · simp [deepItems, h1, ih]
    · simp [deepItems, h1, ih]
    · simp [deepItems, h1.1, hc p q (hx p _ _ List.mem_cons_self) h1.2, ih]

theorem sim_deep (k : Nat) : ∀ a b, a < k → Sim veq H Eq a b → deep veq H k a b = true := by
  induction k with
  | zero => intro a b h; omega
  | succ k ih =>
    intro a b hak h
    rw [deep]
    by_cases hab : a = b
    · rw [if_pos hab]
    rw [if_neg hab]
    obtain ⟨hty, hkd, hm, ho, hi⟩ := sim_iff.1 h
    rw [if_neg (by rintro (h | h) <;> contradiction)]
    have hop : (H.node a).kind ≠ .op := fun hh => hab (ho hh)
    have hd := rel_deepItems (c := deep veq H k) (a := a) (fun p q hp h => ih p q (by omega) h) _ _
      (fun q d r hq => H.lt a q d r hq) (hi hop)
    cases hk : (H.node a).kind with
    | op => exact absurd hk hop
    | var => exact absurd (hm (by rw [hk]; rfl)) hab
    | yld => simp [hd]
    | _ => exact hd

/-- **C126** `expr_deep_equal` holds exactly when the two expressions are the same tree over the very same
variables. -/
theorem deep_iff_partial (hl : Laid H) (hv : ∀ v, veq v v = true)
    (hg : ∀ p, (H.node p).kind ≠ .graph ∧ (H.node p).kind ≠ .yld) (a b : Nat) :
    deepEqual veq H a b = true ↔ Sim veq H Eq a b := by
  rw [sim_expand hl]
  exact ⟨deep_sim (H := expand H) hv hg (a + 1) a b (Nat.lt_succ_self a), sim_deep (H := expand H) (a + 1) a b (Nat.lt_succ_self a)⟩

end

end Verif.StructEq
