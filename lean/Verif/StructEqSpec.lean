import Verif.StructEqProps
/-
Structural equality is equality up to a one-to-one renaming.
-/
namespace Verif.StructEq

section
variable {V : Type} (veq : V → V → Bool) (H : Heap V)

/-- Attributes that agree: equal values, both null, or objects related by `S`. -/
def ItemRel (S : Nat → Nat → Prop) : Item V → Item V → Prop
  | .val v, .val w => veq v w = true
  | .len n, .len k => n = k
  | .ref none d _, .ref none e _ => d = e
  | .ref (some p) d _, .ref (some q) e _ => d = e ∧ S p q
  | _, _ => False

/-- The nodes that are renamed: variables, and the nodes compared as nodes of a graph. -/
def Kind.marked : Kind → Bool
  | .graph => true
  | .var => true
  | .yld => true
  | _ => false

/-- `Sim` to depth `k`. -/
def SimN (R : Nat → Nat → Prop) : Nat → Nat → Nat → Prop
  | 0, _, _ => False
  | k + 1, a, b =>
    (H.node a).ty = (H.node b).ty ∧ (H.node a).kind = (H.node b).kind ∧
    ((H.node a).kind.marked = true → R a b) ∧
    ((H.node a).kind = .op → a = b) ∧
    ((H.node a).kind ≠ .op → List.Forall₂ (ItemRel veq (SimN R k)) (H.node a).es (H.node b).es)

/-- `a` and `b` are the same tree when the renamed nodes correspond under `R`.  See `sim_iff`. -/
def Sim (R : Nat → Nat → Prop) (a b : Nat) : Prop := SimN veq H R (a + 1) a b

/-- `R` is one-to-one. -/
def OneR (R : Nat → Nat → Prop) : Prop := ∀ x y x' y', R x y → R x' y' → (x = x' ↔ y = y')

/-- The attributes of a node, from left to right. -/
def walkItems (w : Bool → Nat → List Nat × List Nat → List Nat × List Nat) (f : Bool) :
    List (Item V) → List Nat × List Nat → List Nat × List Nat
  | [], st => st
  | .ref (some p) d _ :: xs, st => walkItems w f xs (w (f || d) p st)
  | _ :: xs, st => walkItems w f xs st

/-- The traversal of one object from left to right: `st.1` the renamed nodes met so far, `st.2` the
variables that were met for the first time outside a definition. -/
def walk : Nat → Bool → Nat → List Nat × List Nat → List Nat × List Nat
  | 0, _, _, st => st
  | k + 1, f, a, st =>
    if a ∈ st.1 then st
    else match (H.node a).kind with
      | .op => st
      | .plain => walkItems (walk k) f (H.node a).es st
      | .arr => walkItems (walk k) f (H.node a).es st
      | .var =>
        let s := walkItems (walk k) f (H.node a).es st
        (a :: s.1, if f then s.2 else a :: s.2)
      | .graph =>
        let s := walkItems (walk k) f (H.node a).es st
        (a :: s.1, s.2)
      | .yld =>
        let s := walkItems (walk k) f (H.node a).es st
        (a :: s.1, s.2)

/-- The free variables of `a`: the ones whose first occurrence is not a definition.  With
`map_free_vars` everything counts as a definition. -/
def freeVars (f : Bool) (a : Nat) : List Nat := (walk H (a + 1) f a ([], [])).2

/-- There is no yield node. -/
def NoYield : Prop := ∀ a, (H.node a).kind ≠ .yld

/-- `a` and `b` are equal up to a one-to-one renaming that fixes the free variables. -/
def Alpha (f : Bool) (a b : Nat) : Prop :=
  ∃ R, OneR R ∧ Sim veq H R a b ∧ ∀ x ∈ freeVars H f a, R x x

end

section
variable {V : Type} {veq : V → V → Bool} {H : Heap V}

theorem itemRel_mono {S T : Nat → Nat → Prop} {xs ys : List (Item V)} {a : Nat}
    (hx : ∀ q d r, Item.ref (some q) d r ∈ xs → q < a) (h : ∀ p q, p < a → S p q → T p q)
    (hf : List.Forall₂ (ItemRel veq S) xs ys) : List.Forall₂ (ItemRel veq T) xs ys := by
  induction hf with
  | nil => exact .nil
  | @cons x y xs ys h1 _ ih =>
    refine .cons ?_ (ih (fun q d r h => hx q d r (List.mem_cons_of_mem _ h)))
    rcases x with v | n | ⟨_ | p, d, r⟩ <;> rcases y with w | n' | ⟨_ | q, e, r'⟩ <;>
      simp only [ItemRel] at h1 ⊢ <;> try exact h1
    exact ⟨h1.1, h p q (hx p _ _ List.mem_cons_self) h1.2⟩

theorem simN_fuel {R : Nat → Nat → Prop} : ∀ k k' a b, a < k → a < k' → SimN veq H R k a b →
    SimN veq H R k' a b := by
  intro k
  induction k with
  | zero => intro k' a b h; omega
  | succ k ih =>
    intro k' a b h h' hs
    cases k' with
    | zero => omega
    | succ k' =>
      rw [SimN] at hs ⊢
      refine ⟨hs.1, hs.2.1, hs.2.2.1, hs.2.2.2.1, fun ho => ?_⟩
      exact itemRel_mono (fun q d r hq => H.lt a q d r hq)
        (fun p q hp h1 => ih k' p q (by omega) (by omega) h1) (hs.2.2.2.2 ho)

theorem simN_iff {R : Nat → Nat → Prop} {k a b : Nat} (h : a < k) :
    SimN veq H R k a b ↔ Sim veq H R a b :=
  ⟨simN_fuel _ _ _ _ h (Nat.lt_succ_self a), simN_fuel _ _ _ _ (Nat.lt_succ_self a) h⟩

/-- The defining equation of `Sim`: same type and kind, renamed nodes correspond, operators are the very
same object, and the attributes agree. -/
theorem sim_iff {R : Nat → Nat → Prop} {a b : Nat} :
    Sim veq H R a b ↔
      (H.node a).ty = (H.node b).ty ∧ (H.node a).kind = (H.node b).kind ∧
      ((H.node a).kind.marked = true → R a b) ∧
      ((H.node a).kind = .op → a = b) ∧
      ((H.node a).kind ≠ .op → List.Forall₂ (ItemRel veq (Sim veq H R)) (H.node a).es (H.node b).es) := by
  unfold Sim
  rw [SimN]
  constructor
  · rintro ⟨h1, h2, h3, h4, h5⟩
    exact ⟨h1, h2, h3, h4, fun h => itemRel_mono (fun q d r hq => H.lt a q d r hq)
      (fun p q hp hs => (simN_iff hp).1 hs) (h5 h)⟩
  · rintro ⟨h1, h2, h3, h4, h5⟩
    exact ⟨h1, h2, h3, h4, fun h => itemRel_mono (fun q d r hq => H.lt a q d r hq)
      (fun p q hp hs => (simN_iff hp).2 hs) (h5 h)⟩

theorem sim_mono {R S : Nat → Nat → Prop} (h : ∀ x y, R x y → S x y) : ∀ a b, Sim veq H R a b →
    Sim veq H S a b := by
  intro a
  induction a using Nat.strongRecOn with
  | ind a ih =>
    intro b hs
    rw [sim_iff] at hs ⊢
    refine ⟨hs.1, hs.2.1, fun h1 => h _ _ (hs.2.2.1 h1), hs.2.2.2.1, fun ho => ?_⟩
    exact itemRel_mono (fun q d r hq => H.lt a q d r hq) (fun p q hp h1 => ih p hp q h1) (hs.2.2.2.2 ho)

/-! ### Soundness -/

/-- Every pair in the map has been compared completely. -/
def Good (veq : V → V → Bool) (H : Heap V) (m : List (Nat × Nat)) : Prop :=
  ∀ x y, (x, y) ∈ m → Sim veq H (fun x y => (x, y) ∈ m) x y

theorem good_mono {m m' : List (Nat × Nat)} (hs : m ⊆ m') {x y : Nat}
    (h : Sim veq H (fun x y => (x, y) ∈ m) x y) : Sim veq H (fun x y => (x, y) ∈ m') x y :=
  sim_mono (fun _ _ h => hs h) _ _ h

/-- Facts about a comparison of two objects that returned `m'`. -/
def Sound (veq : V → V → Bool) (H : Heap V) (k : Nat) (f : Bool) (a b : Nat) (m m' : List (Nat × Nat)) : Prop :=
  Good veq H m' ∧ Sim veq H (fun x y => (x, y) ∈ m') a b ∧
  ∀ fr, (∀ x ∈ fr, (x, x) ∈ m) → (walk H k f a (m.map Prod.fst, fr)).1 = m'.map Prod.fst ∧
    ∀ x ∈ (walk H k f a (m.map Prod.fst, fr)).2, (x, x) ∈ m'

theorem cmpItems_sound {k a : Nat} {f : Bool}
    (hc : ∀ f p q m m', p < a → One m → Good veq H m → cmp veq H k f p q m = some m' →
      Sound veq H k f p q m m') :
    ∀ (xs ys : List (Item V)) (m m' : List (Nat × Nat)),
      (∀ q d r, Item.ref (some q) d r ∈ xs → q < a) → One m → Good veq H m →
      cmpItems veq (cmp veq H k) f xs ys m = some m' →
      Good veq H m' ∧ m ⊆ m' ∧
      List.Forall₂ (ItemRel veq (Sim veq H (fun x y => (x, y) ∈ m'))) xs ys ∧
      ∀ fr, (∀ x ∈ fr, (x, x) ∈ m) →
        (walkItems (walk H k) f xs (m.map Prod.fst, fr)).1 = m'.map Prod.fst ∧
        ∀ x ∈ (walkItems (walk H k) f xs (m.map Prod.fst, fr)).2, (x, x) ∈ m' := by
  intro xs
  induction xs with
  | nil =>
    intro ys m m' hx h1 hg h
    cases ys with
    | nil =>
      have := Option.some.inj h
      subst this
      exact ⟨hg, fun _ h => h, .nil, fun fr hfr => ⟨rfl, hfr⟩⟩
    | cons y ys => simp [cmpItems] at h
  | cons x xs ih =>
    intro ys m m' hx h1 hg h
    have hx' := fun q d r h => hx q d r (List.mem_cons_of_mem _ h)
    cases ys with
    | nil => rcases x with v | n | ⟨_ | p, d, r⟩ <;> simp [cmpItems] at h
    | cons y ys =>
      rw [cmpItems_cons] at h
      rcases x with v | n | ⟨_ | p, d, r⟩ <;> rcases y with w | n' | ⟨_ | q, e, r'⟩ <;>
        simp only [cmpItem, Option.bind_none, reduceCtorEq] at h
      · by_cases hv : veq v w = true
        · simp only [hv, if_true, Option.bind_some] at h
          obtain ⟨g, s, i, wk⟩ := ih ys m m' hx' h1 hg h
          exact ⟨g, s, .cons hv i, wk⟩
        · simp [hv] at h
      · by_cases hv : n = n'
        · simp only [hv, if_true, Option.bind_some] at h
          obtain ⟨g, s, i, wk⟩ := ih ys m m' hx' h1 hg h
          exact ⟨g, s, .cons hv i, wk⟩
        · simp [hv] at h
      · by_cases hv : d = e
        · simp only [hv, if_true, Option.bind_some] at h
          obtain ⟨g, s, i, wk⟩ := ih ys m m' hx' h1 hg h
          exact ⟨g, s, .cons hv i, wk⟩
        · simp [hv] at h
      · by_cases hv : d = e
        · subst hv
          simp only [if_true] at h
          cases hcm : cmp veq H k (f || d) p q m with
          | none => rw [hcm] at h; simp at h
          | some m1 =>
            rw [hcm] at h
            simp only [Option.bind_some] at h
            have hp := hx p _ _ List.mem_cons_self
            obtain ⟨g1, si1, w1⟩ := hc _ p q m m1 hp h1 hg hcm
            obtain ⟨o1, s1, _⟩ := cmp_grows k p q _ _ _ h1 hcm
            obtain ⟨g, s, i, wk⟩ := ih ys m1 m' hx' o1 g1 h
            refine ⟨g, fun z hz => s (s1 hz), .cons ⟨rfl, good_mono s si1⟩ i, fun fr hfr => ?_⟩
            have w1' := w1 fr hfr
            simp only [walkItems]
            have := wk _ w1'.2
            rw [← w1'.1] at this
            exact this
        · simp [hv] at h

theorem cmp_sound (hy : NoYield H) (k : Nat) : ∀ f a b m m', a < k → One m → Good veq H m →
    cmp veq H k f a b m = some m' → Sound veq H k f a b m m' := by
  induction k with
  | zero => intro f a b m m' h; omega
  | succ k ih =>
    intro f a b m m' hak h1 hg h
    have hgr := cmp_grows (k + 1) a b f m m' h1 h
    rw [cmp.eq_def] at h
    dsimp only at h
    by_cases hty : (H.node a).ty = (H.node b).ty
    swap
    · simp [hty] at h
    simp only [hty, ne_eq, not_true_eq_false, if_false] at h
    have hdom : a ∈ m.map Prod.fst ↔ m.lookup a ≠ none := by
      rw [Ne, lookup_none]
      constructor
      · intro h2 h3
        obtain ⟨⟨x, y⟩, h4, h5⟩ := List.mem_map.1 h2
        cases h5
        exact h3 y h4
      · intro h2
        by_contra h3
        exact h2 (fun y hy => h3 (List.mem_map.2 ⟨(a, y), hy, rfl⟩))
    cases e : m.lookup a with
    | some r =>
      rw [e] at h
      dsimp only at h
      by_cases hr : r = b
      · subst hr
        simp only [if_true, Option.some.injEq] at h
        subst h
        refine ⟨hg, hg _ _ (lookup_mem e), fun fr hfr => ?_⟩
        have : a ∈ m.map Prod.fst := hdom.2 (by rw [e]; simp)
        rw [walk, if_pos this]
        exact ⟨rfl, hfr⟩
      · simp [hr] at h
    | none =>
      rw [e] at h
      dsimp only at h
      have hnd : a ∉ m.map Prod.fst := fun hd => (hdom.1 hd) e
      by_cases hb : ((m.map Prod.swap).lookup b).isSome = true
      · simp [hb] at h
      simp only [hb, Bool.false_eq_true, if_false] at h
      by_cases hkd : (H.node a).kind = (H.node b).kind
      swap
      · simp [hkd] at h
      simp only [hkd, not_true_eq_false, if_false] at h
      have hI := fun m1 h => cmpItems_sound (veq := veq) (H := H) (k := k) (f := f) (a := a)
        (fun f p q m m' hp o g hc => ih f p q m m' (by omega) o g hc)
        (H.node a).es (H.node b).es m m1 (fun q d r hq => H.lt a q d r hq) h1 hg h
      have hwalk : ∀ fr, walk H (k + 1) f a (m.map Prod.fst, fr) = match (H.node a).kind with
          | .op => (m.map Prod.fst, fr)
          | .plain => walkItems (walk H k) f (H.node a).es (m.map Prod.fst, fr)
          | .arr => walkItems (walk H k) f (H.node a).es (m.map Prod.fst, fr)
          | .var =>
            (a :: (walkItems (walk H k) f (H.node a).es (m.map Prod.fst, fr)).1,
              if f then (walkItems (walk H k) f (H.node a).es (m.map Prod.fst, fr)).2
              else a :: (walkItems (walk H k) f (H.node a).es (m.map Prod.fst, fr)).2)
          | .graph => (a :: (walkItems (walk H k) f (H.node a).es (m.map Prod.fst, fr)).1,
              (walkItems (walk H k) f (H.node a).es (m.map Prod.fst, fr)).2)
          | .yld => (a :: (walkItems (walk H k) f (H.node a).es (m.map Prod.fst, fr)).1,
              (walkItems (walk H k) f (H.node a).es (m.map Prod.fst, fr)).2) := by
        intro fr
        rw [walk, if_neg hnd]
      have hplain : (H.node a).kind = .plain ∨ (H.node a).kind = .arr →
          cmpItems veq (cmp veq H k) f (H.node a).es (H.node b).es m = some m' →
          Sound veq H (k + 1) f a b m m' := by
        intro hk h
        obtain ⟨g, s, i, wk⟩ := hI m' h
        refine ⟨g, ?_, fun fr hfr => ?_⟩
        · rw [sim_iff]
          refine ⟨hty, hkd, fun hm => ?_, fun ho => ?_, fun _ => i⟩
          · rcases hk with hk | hk <;> rw [hk] at hm <;> simp [Kind.marked] at hm
          · rcases hk with hk | hk <;> rw [hk] at ho <;> simp at ho
        · rw [hwalk]
          rcases hk with hk | hk <;> rw [hk] <;> exact wk fr hfr
      have hadd : (H.node a).kind = .graph ∨ ((H.node a).kind = .var ∧ (a = b ∨ f = true)) →
          (cmpItems veq (cmp veq H k) f (H.node a).es (H.node b).es m).map ((a, b) :: ·) = some m' →
          Sound veq H (k + 1) f a b m m' := by
        intro hk h
        cases hc : cmpItems veq (cmp veq H k) f (H.node a).es (H.node b).es m with
        | none => rw [hc] at h; simp at h
        | some m1 =>
          rw [hc] at h
          have h2 : (a, b) :: m1 = m' := Option.some.inj h
          subst h2
          obtain ⟨g, s, i, wk⟩ := hI m1 hc
          have hsub : m1 ⊆ (a, b) :: m1 := fun z hz => List.mem_cons_of_mem _ hz
          have hsim : Sim veq H (fun x y => (x, y) ∈ (a, b) :: m1) a b := by
            rw [sim_iff]
            refine ⟨hty, hkd, fun _ => List.mem_cons_self, fun ho => ?_, fun _ => ?_⟩
            · rcases hk with hk | ⟨hk, _⟩ <;> rw [hk] at ho <;> simp at ho
            · exact itemRel_mono (fun q d r hq => H.lt a q d r hq) (fun p q _ h => good_mono hsub h) i
          refine ⟨?_, hsim, fun fr hfr => ?_⟩
          · intro x y hxy
            rcases List.mem_cons.1 hxy with h3 | h3
            · cases h3; exact hsim
            · exact good_mono hsub (g x y h3)
          · rw [hwalk]
            obtain ⟨w1, w2⟩ := wk fr hfr
            rcases hk with hk | ⟨hk, hf⟩ <;> rw [hk] <;> dsimp only
            · exact ⟨by rw [w1]; rfl, fun x hx => hsub (w2 x hx)⟩
            · refine ⟨by rw [w1]; rfl, fun x hx => ?_⟩
              by_cases hff : f = true
              · rw [if_pos hff] at hx
                exact hsub (w2 x hx)
              · rw [if_neg hff] at hx
                rcases List.mem_cons.1 hx with h3 | h3
                · subst h3
                  rcases hf with hf | hf
                  · subst hf; exact List.mem_cons_self
                  · exact absurd hf hff
                · exact hsub (w2 x h3)
      rw [← hkd] at h
      cases hka : (H.node a).kind <;> rw [hka] at h <;> dsimp only at h
      · exact hplain (Or.inl hka) h
      · exact hadd (Or.inl hka) h
      · by_cases hf : a = b ∨ f = true
        · rw [if_pos hf] at h
          exact hadd (Or.inr ⟨hka, hf⟩) h
        · rw [if_neg hf] at h; simp at h
      · by_cases hf : a = b
        · rw [if_pos hf] at h
          have := Option.some.inj h
          subst this
          refine ⟨hg, ?_, fun fr hfr => ?_⟩
          · rw [sim_iff]
            refine ⟨hty, hkd, fun hm => ?_, fun _ => hf, fun hn => absurd hka hn⟩
            rw [hka] at hm; simp [Kind.marked] at hm
          · rw [hwalk, hka]
            exact ⟨rfl, hfr⟩
        · rw [if_neg hf] at h; simp at h
      · exact absurd hka (hy a)
      · exact hplain (Or.inr hka) h

/-! ### Completeness -/

theorem walkItems_mono {w : Bool → Nat → List Nat × List Nat → List Nat × List Nat} {f : Bool}
    (hw : ∀ f p st, st.1 ⊆ (w f p st).1 ∧ st.2 ⊆ (w f p st).2) :
    ∀ (xs : List (Item V)) st, st.1 ⊆ (walkItems w f xs st).1 ∧ st.2 ⊆ (walkItems w f xs st).2 := by
  intro xs
  induction xs with
  | nil => intro st; exact ⟨fun _ h => h, fun _ h => h⟩
  | cons x xs ih =>
    intro st
    rcases x with v | n | ⟨_ | p, d, r⟩ <;> simp only [walkItems] <;> try exact ih st
    obtain ⟨a1, a2⟩ := hw (f || d) p st
    obtain ⟨b1, b2⟩ := ih (w (f || d) p st)
    exact ⟨fun z hz => b1 (a1 hz), fun z hz => b2 (a2 hz)⟩

theorem walk_mono (k : Nat) : ∀ f a st, st.1 ⊆ (walk H k f a st).1 ∧ st.2 ⊆ (walk H k f a st).2 := by
  induction k with
  | zero => intro f a st; exact ⟨fun _ h => h, fun _ h => h⟩
  | succ k ih =>
    intro f a st
    have hi := walkItems_mono (f := f) ih (H.node a).es st
    rw [walk]
    split
    · exact ⟨fun _ h => h, fun _ h => h⟩
    · split
      · exact ⟨fun _ h => h, fun _ h => h⟩
      · exact hi
      · exact hi
      · refine ⟨fun z hz => List.mem_cons_of_mem _ (hi.1 hz), fun z hz => ?_⟩
        dsimp only
        split
        · exact hi.2 hz
        · exact List.mem_cons_of_mem _ (hi.2 hz)
      · exact ⟨fun z hz => List.mem_cons_of_mem _ (hi.1 hz), hi.2⟩
      · exact ⟨fun z hz => List.mem_cons_of_mem _ (hi.1 hz), hi.2⟩

/-- Every pair in the map is related by `R` and consists of renamed nodes of the same kind. -/
def Under (H : Heap V) (R : Nat → Nat → Prop) (m : List (Nat × Nat)) : Prop :=
  ∀ x y, (x, y) ∈ m → R x y ∧ (H.node x).kind.marked = true ∧ (H.node x).kind = (H.node y).kind

theorem Under.one {R : Nat → Nat → Prop} {m : List (Nat × Nat)} (hR : OneR R) (h : Under H R m) : One m :=
  fun x y x' y' h1 h2 => hR x y x' y' (h x y h1).1 (h x' y' h2).1

theorem cmpItems_complete {R : Nat → Nat → Prop} (hR : OneR R) {k a : Nat} {f : Bool}
    (hc : ∀ f p q m fr, p < a → Under H R m → Good veq H m → (∀ x ∈ fr, (x, x) ∈ m) → Sim veq H R p q →
      (∀ x ∈ (walk H k f p (m.map Prod.fst, fr)).2, R x x) →
      ∃ m', cmp veq H k f p q m = some m' ∧ Under H R m' ∧ Sound veq H k f p q m m') :
    ∀ (xs ys : List (Item V)) (m : List (Nat × Nat)) (fr : List Nat),
      (∀ q d r, Item.ref (some q) d r ∈ xs → q < a) → Under H R m → Good veq H m → (∀ x ∈ fr, (x, x) ∈ m) →
      List.Forall₂ (ItemRel veq (Sim veq H R)) xs ys →
      (∀ x ∈ (walkItems (walk H k) f xs (m.map Prod.fst, fr)).2, R x x) →
      ∃ m', cmpItems veq (cmp veq H k) f xs ys m = some m' ∧ Under H R m' := by
  intro xs
  induction xs with
  | nil =>
    intro ys m fr _ hu hg _ hf _
    cases hf
    exact ⟨m, rfl, hu⟩
  | cons x xs ih =>
    intro ys m fr hx hu hg hfr hf hw
    have hx' := fun q d r h => hx q d r (List.mem_cons_of_mem _ h)
    cases hf with
    | @cons _ y _ ys h1 hf =>
      rw [cmpItems_cons]
      rcases x with v | n | ⟨_ | p, d, r⟩ <;> rcases y with w | n' | ⟨_ | q, e, r'⟩ <;>
        simp only [ItemRel] at h1
      · simp only [cmpItem, h1, if_true, Option.bind_some]
        exact ih ys m fr hx' hu hg hfr hf hw
      · simp only [cmpItem, h1, if_true, Option.bind_some]
        exact ih ys m fr hx' hu hg hfr hf hw
      · simp only [cmpItem, h1, if_true, Option.bind_some]
        exact ih ys m fr hx' hu hg hfr hf hw
      · obtain ⟨rfl, hs⟩ := h1
        simp only [walkItems] at hw
        have hp := hx p _ _ List.mem_cons_self
        obtain ⟨m1, hm1, hu1, hs1⟩ := hc (f || d) p q m fr hp hu hg hfr hs
          (fun x hx => hw x ((walkItems_mono (walk_mono (H := H) k) xs _).2 hx))
        obtain ⟨g1, si1, w1⟩ := hs1
        obtain ⟨w2, w3⟩ := w1 fr hfr
        simp only [cmpItem, if_true, hm1, Option.bind_some]
        refine ih ys m1 (walk H k (f || d) p (m.map Prod.fst, fr)).2 hx' hu1 g1 w3 hf ?_
        rw [← w2]
        exact hw

theorem cmp_complete (hy : NoYield H) {R : Nat → Nat → Prop} (hR : OneR R) (k : Nat) :
    ∀ f a b m fr, a < k → Under H R m → Good veq H m → (∀ x ∈ fr, (x, x) ∈ m) → Sim veq H R a b →
      (∀ x ∈ (walk H k f a (m.map Prod.fst, fr)).2, R x x) →
      ∃ m', cmp veq H k f a b m = some m' ∧ Under H R m' := by
  induction k with
  | zero => intro f a b m fr h; omega
  | succ k ih =>
    intro f a b m fr hak hu hg hfr hs hw
    have hI := cmpItems_complete (veq := veq) (H := H) hR (k := k) (a := a) (f := f)
      (fun f p q m fr hp hu hg hfr hs hw => by
        obtain ⟨m', h1, h2⟩ := ih f p q m fr (by omega) hu hg hfr hs hw
        exact ⟨m', h1, h2, cmp_sound hy k f p q m m' (by omega) (hu.one hR) hg h1⟩)
      (H.node a).es (H.node b).es m fr (fun q d r hq => H.lt a q d r hq) hu hg hfr
    rw [sim_iff] at hs
    obtain ⟨hty, hkd, hm, ho, hi⟩ := hs
    rw [cmp.eq_def]
    dsimp only
    simp only [hty, ne_eq, not_true_eq_false, if_false]
    cases e : m.lookup a with
    | some r =>
      dsimp only
      obtain ⟨u1, u2, u3⟩ := hu a r (lookup_mem e)
      have : r = b := (hR _ _ _ _ u1 (hm u2)).1 rfl
      rw [if_pos this]
      exact ⟨m, rfl, hu⟩
    | none =>
      dsimp only
      have hnd : a ∉ m.map Prod.fst := by
        intro h2
        obtain ⟨⟨x, y⟩, h4, h5⟩ := List.mem_map.1 h2
        cases h5
        exact lookup_none.1 e y h4
      have hb : ¬ ((m.map Prod.swap).lookup b).isSome = true := by
        rw [swap_some]
        rintro ⟨x, hx⟩
        obtain ⟨u1, u2, u3⟩ := hu x b hx
        rw [u3, ← hkd] at u2
        have : x = a := (hR _ _ _ _ u1 (hm u2)).2 rfl
        subst this
        exact lookup_none.1 e b hx
      simp only [hb, Bool.false_eq_true, if_false, hkd, not_true_eq_false]
      rw [walk] at hw
      simp only [hnd, if_false] at hw
      have hadd : (H.node a).kind.marked = true → (∃ m', cmpItems veq (cmp veq H k) f (H.node a).es (H.node b).es m = some m' ∧ Under H R m') →
          ∃ m', (cmpItems veq (cmp veq H k) f (H.node a).es (H.node b).es m).map ((a, b) :: ·) = some m' ∧
            Under H R m' := by
        rintro hmk ⟨m', h1, h2⟩
        refine ⟨(a, b) :: m', by rw [h1]; rfl, fun x y hxy => ?_⟩
        rcases List.mem_cons.1 hxy with h3 | h3
        · cases h3
          exact ⟨hm hmk, hmk, hkd⟩
        · exact h2 x y h3
      cases hka : (H.node a).kind <;> rw [hka] at hw hi hkd <;> rw [← hkd] <;> dsimp only at hw ⊢
      · exact hI (hi (by simp)) hw
      · exact hadd (by rw [hka]; rfl) (hI (hi (by simp)) hw)
      · have hab : a = b ∨ f = true := by
          by_cases hf : f = true
          · exact Or.inr hf
          · rw [if_neg hf] at hw
            exact Or.inl ((hR _ _ _ _ (hw a List.mem_cons_self) (hm (by rw [hka]; rfl))).1 rfl)
        rw [if_pos hab]
        refine hadd (by rw [hka]; rfl) (hI (hi (by simp)) (fun x hx => hw x ?_))
        split
        · exact hx
        · exact List.mem_cons_of_mem _ hx
      · rw [if_pos (ho hka)]
        exact ⟨m, rfl, hu⟩
      · exact absurd hka (hy a)
      · exact hI (hi (by simp)) hw

/-- The recursive comparison decides equality up to renaming. -/
theorem cmp_iff (hy : NoYield H) (f : Bool) (a b : Nat) :
    (cmp veq H (a + 1) f a b []).isSome = true ↔ Alpha veq H f a b := by
  have h1 : One [] := by intro x y x' y' h; simp at h
  have hg : Good veq H [] := by intro x y h; simp at h
  constructor
  · intro h
    obtain ⟨m', hm'⟩ := Option.isSome_iff_exists.1 h
    obtain ⟨g, s, w⟩ := cmp_sound hy (a + 1) f a b [] m' (Nat.lt_succ_self a) h1 hg hm'
    have ho := (cmp_grows (a + 1) a b f [] m' h1 hm').1
    exact ⟨fun x y => (x, y) ∈ m', ho, s, (w [] (by simp)).2⟩
  · rintro ⟨R, hR, hs, hf⟩
    obtain ⟨m', h2, _⟩ := cmp_complete (veq := veq) hy hR (a + 1) f a b [] [] (Nat.lt_succ_self a)
      (by intro x y h; simp at h) hg (by simp) hs hf
    rw [h2]; rfl

end

end Verif.StructEq
