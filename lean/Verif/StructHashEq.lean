import Verif.StructHashProps
import Verif.StructEqFast
/-
Equal objects have equal hashes.
-/
namespace Verif.StructEq

section
variable {V W : Type}

/-- The heap seen through the attributes of `SHashReduce`. -/
def hashed (H : Heap V) : Heap V where
  node p := { H.node p with es := (H.node p).hs }
  lt := H.lth
  lth := H.lth

/-- What `SHashReduce` hands over is chosen by the type of the object from what `SEqualReduce` compares:
the attribute number `i`, or the number of attributes (an array).  An operator hands over values only. -/
structure Chosen (H : Heap V) : Prop where
  pick : ∃ pick : Nat → Nat → List (Option Nat), ∀ p, (H.node p).kind ≠ .op →
    (H.node p).hs.map some = (pick (H.node p).ty (H.node p).es.length).map
      (fun o => match o with
        | none => some (.len (H.node p).es.length)
        | some i => (H.node p).es[i]?)
  op : ∀ p, (H.node p).kind = .op → ∀ q d a, Item.ref q d a ∉ (H.node p).hs

variable {M : Mix V W} {H : Heap V} {veq : V → V → Bool}

theorem forall2_length {α β : Type} {R : α → β → Prop} {l : List α} {l' : List β} (h : List.Forall₂ R l l') :
    l.length = l'.length := by
  induction h with
  | nil => rfl
  | cons _ _ ih => simp [ih]

theorem forall2_getElem {α β : Type} {R : α → β → Prop} {l : List α} {l' : List β} (h : List.Forall₂ R l l')
    {i : Nat} {x : α} {y : β} (hx : l[i]? = some x) (hy : l'[i]? = some y) : R x y := by
  induction h generalizing i with
  | nil => simp at hx
  | cons h1 _ ih =>
    cases i with
    | zero => simp at hx hy; subst hx hy; exact h1
    | succ i => simp at hx hy; exact ih hx hy

theorem picked {S : Nat → Nat → Prop} {es es' : List (Item V)} (h : List.Forall₂ (ItemRel veq S) es es') :
    ∀ (l : List (Option Nat)) (hs hs' : List (Item V)),
      hs.map some = l.map (fun o => match o with | none => some (.len es.length) | some i => es[i]?) →
      hs'.map some = l.map (fun o => match o with | none => some (.len es'.length) | some i => es'[i]?) →
      List.Forall₂ (ItemRel veq S) hs hs' := by
  intro l
  induction l with
  | nil =>
    intro hs hs' h1 h2
    simp at h1 h2
    subst h1 h2
    exact .nil
  | cons o l ih =>
    intro hs hs' h1 h2
    cases hs with
    | nil => simp at h1
    | cons x hs =>
      cases hs' with
      | nil => simp at h2
      | cons y hs' =>
        rw [List.map_cons, List.map_cons, List.cons.injEq] at h1 h2
        refine .cons ?_ (ih hs hs' h1.2 h2.2)
        cases o with
        | none =>
          have a1 := Option.some.inj h1.1
          have a2 := Option.some.inj h2.1
          subst a1 a2
          exact forall2_length h
        | some i => exact forall2_getElem h h1.1.symm h2.1.symm

/-- Objects that agree for the comparison agree for the hash. -/
theorem sim_hashed (hc : Chosen H) {R : Nat → Nat → Prop} : ∀ a b, Sim veq H R a b → Sim veq (hashed H) R a b := by
  intro a
  induction a using Nat.strongRecOn with
  | ind a ih =>
    intro b h
    rw [sim_iff] at h ⊢
    obtain ⟨hty, hkd, hm, ho, hi⟩ := h
    refine ⟨hty, hkd, hm, ho, fun hop => ?_⟩
    have hop' : (H.node a).kind ≠ .op := hop
    obtain ⟨pick, hp⟩ := hc.pick
    have hes := hi hop'
    have e1 := hp a hop'
    have e2 := hp b (hkd ▸ hop')
    rw [← hty, ← forall2_length hes] at e2
    have e2' : (H.node b).hs.map some = (pick (H.node a).ty (H.node a).es.length).map
      (fun o => match o with
        | none => some (.len (H.node b).es.length)
        | some i => (H.node b).es[i]?) := by
      rw [← forall2_length hes]; exact e2
    exact itemRel_mono (fun q d r hq => H.lth a q d r hq) (fun p q hpa h => ih p hpa q h) (picked hes _ _ _ e1 e2')

/-! ### Two hashes side by side -/

/-- Corresponding states: the same hashes for corresponding nodes, the same counters. -/
structure Twin (H : Heap V) (R : Nat → Nat → Prop) (s t : HS W) : Prop where
  memo : List.Forall₂ (fun p q => R p.1 q.1 ∧ p.2 = q.2) s.memo t.memo
  ms : ∀ p ∈ s.memo, (H.node p.1).kind.marked = true
  mt : ∀ p ∈ t.memo, (H.node p.1).kind.marked = true
  fv : s.fv = t.fv
  gn : s.gn = t.gn

theorem lookup_twin {R : Nat → Nat → Prop} (hR : OneR R) {m m' : List (Nat × W)} {a b : Nat} (hab : R a b)
    (h : List.Forall₂ (fun p q => R p.1 q.1 ∧ p.2 = q.2) m m') : m.lookup a = m'.lookup b := by
  induction h with
  | nil => rfl
  | @cons p q m m' h1 _ ih =>
    obtain ⟨x, v⟩ := p
    obtain ⟨y, w⟩ := q
    obtain ⟨h1, h2⟩ := h1
    dsimp only at h1 h2
    subst h2
    by_cases hx : a = x
    · have hy := (hR a b x y hab h1).1 hx
      subst hx hy
      rw [lookup_cons_self, lookup_cons_self]
    · have hy : b ≠ y := fun hh => hx ((hR a b x y hab h1).2 hh)
      rw [lookup_cons_ne hx, lookup_cons_ne hy, ih]

theorem lookup_unmarked {m : List (Nat × W)} (h : ∀ p ∈ m, (H.node p.1).kind.marked = true) {a : Nat}
    (ha : (H.node a).kind.marked = false) : m.lookup a = none := by
  induction m with
  | nil => rfl
  | cons p m ih =>
    obtain ⟨x, w⟩ := p
    rw [lookup_cons_ne]
    · exact ih (fun p hp => h p (List.mem_cons_of_mem _ hp))
    · rintro rfl
      have := h _ List.mem_cons_self
      dsimp only at this
      rw [ha] at this
      cases this

theorem lookup_none_mem {m : List (Nat × W)} {a : Nat} : m.lookup a = none ↔ a ∉ m.map Prod.fst := by
  induction m with
  | nil => simp
  | cons p m ih =>
    obtain ⟨x, w⟩ := p
    by_cases h : a = x
    · subst h; simp
    · rw [lookup_cons_ne h, ih]; simp [h]

/-- The traversal that the hash makes. -/
abbrev hwalk (H : Heap V) := walk (hashed H)

theorem walk_free_mono {k : Nat} : ∀ {f : Bool} {a : Nat} {st : List Nat × List Nat} {x : Nat}, x ∈ st.2 →
    x ∈ (walk H k f a st).2 := by
  induction k with
  | zero => intro f a st x h; exact h
  | succ k ih =>
    intro f a st x h
    have hit : ∀ (xs : List (Item V)) st, x ∈ st.2 → x ∈ (walkItems (walk H k) f xs st).2 := by
      intro xs
      induction xs with
      | nil => intro st h; exact h
      | cons y xs ih' =>
        intro st h
        rcases y with v | n | ⟨_ | p, d, r⟩ <;> simp only [walkItems] <;> apply ih' <;> first | exact h | exact ih h
    rw [walk]
    split
    · exact h
    · have := hit (H.node a).es st h
      split <;> try dsimp only
      all_goals first | exact h | exact this | skip
      split
      · exact this
      · exact List.mem_cons_of_mem _ this

theorem walkItems_free_mono {k : Nat} {f : Bool} {x : Nat} : ∀ (xs : List (Item V)) st, x ∈ st.2 →
    x ∈ (walkItems (walk H k) f xs st).2 := by
  intro xs
  induction xs with
  | nil => intro st h; exact h
  | cons y xs ih' =>
    intro st h
    rcases y with v | n | ⟨_ | p, d, r⟩ <;> simp only [walkItems] <;> apply ih' <;>
      first | exact h | exact walk_free_mono h

/-- One object, its counterpart, and the traversal that tells its free variables. -/
structure Lock (M : Mix V W) (H : Heap V) (R : Nat → Nat → Prop) (r r' : W × HS W) (st : List Nat × List Nat) :
    Prop where
  same : r.1 = r'.1
  twin : Twin H R r.2 r'.2
  seen : r.2.memo.map Prod.fst = st.1

structure LockL (M : Mix V W) (H : Heap V) (R : Nat → Nat → Prop) (r r' : List W × HS W) (st : List Nat × List Nat) :
    Prop where
  same : r.1 = r'.1
  twin : Twin H R r.2 r'.2
  seen : r.2.memo.map Prod.fst = st.1

theorem hgoItems_lock (hv : ∀ v w, veq v w = true → M.val v = M.val w) {R : Nat → Nat → Prop} {k k' a b : Nat} {f : Bool}
    (hc : ∀ f p q (s t : HS W) fr, p < a → q < b → Sim veq (hashed H) R p q → Twin H R s t →
      (∀ x ∈ (hwalk H k f p (s.memo.map Prod.fst, fr)).2, R x x) →
      Lock M H R (hgo M H k f p s) (hgo M H k' f q t) (hwalk H k f p (s.memo.map Prod.fst, fr))) :
    ∀ (xs ys : List (Item V)) (s t : HS W) fr, (∀ q d r, Item.ref (some q) d r ∈ xs → q < a) →
      (∀ q d r, Item.ref (some q) d r ∈ ys → q < b) →
      List.Forall₂ (ItemRel veq (Sim veq (hashed H) R)) xs ys → Twin H R s t →
      (∀ x ∈ (walkItems (hwalk H k) f xs (s.memo.map Prod.fst, fr)).2, R x x) →
      LockL M H R (hgoItems M (hgo M H k) f xs s) (hgoItems M (hgo M H k') f ys t)
        (walkItems (hwalk H k) f xs (s.memo.map Prod.fst, fr)) := by
  intro xs
  induction xs with
  | nil => intro ys s t fr _ _ hf ht _; cases hf; exact ⟨rfl, ht, rfl⟩
  | cons x xs ih =>
    intro ys s t fr hx hy hf ht hfr
    cases hf with
    | @cons _ y _ ys h1 hf =>
      have hx' := fun q d r h => hx q d r (List.mem_cons_of_mem _ h)
      have hy' := fun q d r h => hy q d r (List.mem_cons_of_mem _ h)
      rcases x with v | n | ⟨_ | p, d, r⟩ <;> rcases y with w | n' | ⟨_ | q, e, r'⟩ <;>
        simp only [ItemRel] at h1 <;> simp only [hgoItems, walkItems] at hfr ⊢
      · obtain ⟨i1, i2, i3⟩ := ih ys s t fr hx' hy' hf ht hfr
        exact ⟨by rw [i1, hv _ _ h1], i2, i3⟩
      · obtain ⟨i1, i2, i3⟩ := ih ys s t fr hx' hy' hf ht hfr
        exact ⟨by rw [i1, h1], i2, i3⟩
      · obtain ⟨i1, i2, i3⟩ := ih ys s t fr hx' hy' hf ht hfr
        exact ⟨by rw [i1], i2, i3⟩
      · obtain ⟨rfl, h1⟩ := h1
        obtain ⟨j1, j2, j3⟩ := hc (f || d) p q s t fr (hx p _ _ List.mem_cons_self) (hy q _ _ List.mem_cons_self) h1 ht
          (fun x hx => hfr x (walkItems_free_mono xs _ hx))
        have hst : hwalk H k (f || d) p (s.memo.map Prod.fst, fr) =
            ((hgo M H k (f || d) p s).2.memo.map Prod.fst, (hwalk H k (f || d) p (s.memo.map Prod.fst, fr)).2) := by
          rw [j3]
        rw [hst] at hfr ⊢
        obtain ⟨i1, i2, i3⟩ := ih ys _ _ _ hx' hy' hf j2 hfr
        exact ⟨by rw [i1, j1], i2, i3⟩

/-- Attributes without objects do not look at the state. -/
theorem hgoItems_flat {c c' : Bool → Nat → HS W → W × HS W} {f : Bool} :
    ∀ (xs : List (Item V)) (s t : HS W), (∀ q d a, Item.ref q d a ∉ xs) →
      (hgoItems M c f xs s).1 = (hgoItems M c' f xs t).1 ∧ (hgoItems M c f xs s).2 = s := by
  intro xs
  induction xs with
  | nil => intro s t _; exact ⟨rfl, rfl⟩
  | cons x xs ih =>
    intro s t h
    have h' := fun q d a hm => h q d a (List.mem_cons_of_mem _ hm)
    rcases x with v | n | ⟨p, d, r⟩
    · simp only [hgoItems]; exact ⟨by rw [(ih s t h').1], (ih s t h').2⟩
    · simp only [hgoItems]; exact ⟨by rw [(ih s t h').1], (ih s t h').2⟩
    · exact absurd List.mem_cons_self (h p d r)

theorem hgo_lock (hch : Chosen H) (hv : ∀ v w, veq v w = true → M.val v = M.val w) {R : Nat → Nat → Prop}
    (hR : OneR R) (k : Nat) : ∀ k' f a b (s t : HS W) fr, a < k → b < k' → Sim veq (hashed H) R a b → Twin H R s t →
      (∀ x ∈ (hwalk H k f a (s.memo.map Prod.fst, fr)).2, R x x) →
      Lock M H R (hgo M H k f a s) (hgo M H k' f b t) (hwalk H k f a (s.memo.map Prod.fst, fr)) := by
  induction k with
  | zero => intro k' f a b s t fr h; omega
  | succ k ih =>
    intro k' f a b s t fr hak hbk hsim ht hfr
    cases k' with
    | zero => omega
    | succ k' =>
      rw [sim_iff] at hsim
      obtain ⟨hty, hkd, hm, ho, hi⟩ := hsim
      have hty : (H.node a).ty = (H.node b).ty := hty
      have hkd : (H.node a).kind = (H.node b).kind := hkd
      have hm : (H.node a).kind.marked = true → R a b := hm
      have hla : s.memo.lookup a = t.memo.lookup b := by
        by_cases hmk : (H.node a).kind.marked = true
        · exact lookup_twin hR (hm hmk) ht.memo
        · rw [lookup_unmarked ht.ms (by simpa using hmk), lookup_unmarked ht.mt (by rw [← hkd]; simpa using hmk)]
      rw [hgo, hgo, ← hla]
      cases hl : s.memo.lookup a with
      | some w =>
        have hin : a ∈ s.memo.map Prod.fst := by
          by_contra hn
          rw [lookup_none_mem.2 hn] at hl
          cases hl
        refine ⟨rfl, ht, ?_⟩
        rw [hwalk, walk, if_pos hin]
      | none =>
        have hin : a ∉ s.memo.map Prod.fst := lookup_none_mem.1 hl
        dsimp only
        have hgr : isGraph H a = isGraph H b := by unfold isGraph; rw [hkd]
        have hnf : nextFv H s.fv f a = nextFv H t.fv f b := by unfold nextFv; rw [hkd, ht.fv]
        by_cases hop : (H.node a).kind = .op
        · have hab : a = b := ho hop
          subst hab
          have hnm : (H.node a).kind.marked = false := by rw [hop]; rfl
          have f1 := hgoItems_flat (M := M) (f := f) (c := hgo M H k) (c' := hgo M H k') (H.node a).hs
            ⟨s.memo, nextFv H s.fv f a, s.gn⟩ ⟨t.memo, nextFv H t.fv f a, t.gn⟩ (hch.op a hop)
          have f2 := hgoItems_flat (M := M) (f := f) (c := hgo M H k') (c' := hgo M H k) (H.node a).hs
            ⟨t.memo, nextFv H t.fv f a, t.gn⟩ ⟨s.memo, nextFv H s.fv f a, s.gn⟩ (hch.op a hop)
          rw [f1.2, f2.2, f1.1, varVal_plain hnm, varVal_plain hnm, stamp, stamp, marked_graph hnm, hnm,
            nextFv_plain hnm, nextFv_plain hnm]
          refine ⟨rfl, ⟨ht.memo, ht.ms, ht.mt, ht.fv, ht.gn⟩, ?_⟩
          rw [hwalk, walk, if_neg hin]
          have : ((hashed H).node a).kind = .op := hop
          rw [this]
          rfl
        have hw : hwalk H (k + 1) f a (s.memo.map Prod.fst, fr) =
            let st := walkItems (hwalk H k) f (H.node a).hs (s.memo.map Prod.fst, fr)
            (if (H.node a).kind.marked then a :: st.1 else st.1,
              if (H.node a).kind = .var ∧ f = false then a :: st.2 else st.2) := by
          rw [hwalk, walk, if_neg hin]
          have e : ((hashed H).node a).kind = (H.node a).kind := rfl
          have e' : ((hashed H).node a).es = (H.node a).hs := rfl
          rw [e, e']
          cases hk : (H.node a).kind with
          | op => exact absurd hk hop
          | var => cases f <;> simp [Kind.marked]
          | _ => simp [Kind.marked]
        rw [hw] at hfr ⊢
        dsimp only at hfr ⊢
        have hI := hgoItems_lock (M := M) (H := H) (veq := veq) hv (R := R) (k := k) (k' := k') (a := a) (b := b) (f := f)
          (fun f p q s t fr hp hq h1 h2 h3 => ih k' f p q s t fr (by omega) (by omega) h1 h2 h3)
          (H.node a).hs (H.node b).hs ⟨s.memo, nextFv H s.fv f a, s.gn⟩ ⟨t.memo, nextFv H t.fv f b, t.gn⟩ fr
          (fun q d r hq => H.lth a q d r hq) (fun q d r hq => H.lth b q d r hq) (hi hop)
          ⟨ht.memo, ht.ms, ht.mt, hnf, ht.gn⟩
          (fun x hx => hfr x (by split <;> first | exact List.mem_cons_of_mem _ hx | exact hx))
        generalize hgoItems M (hgo M H k) f (H.node a).hs ⟨s.memo, nextFv H s.fv f a, s.gn⟩ = r at hI ⊢
        generalize hgoItems M (hgo M H k') f (H.node b).hs ⟨t.memo, nextFv H t.fv f b, t.gn⟩ = r' at hI ⊢
        generalize walkItems (hwalk H k) f (H.node a).hs (s.memo.map Prod.fst, fr) = st at hI hfr ⊢
        obtain ⟨h1, h2, h3⟩ := hI
        have hvv : varVal M H s.fv f a = varVal M H t.fv f b := by
          unfold varVal
          rw [← hkd, ht.fv]
          by_cases hk : (H.node a).kind = .var
          · rw [if_pos hk, if_pos hk]
            cases f with
            | true => rfl
            | false =>
              have haa := hfr a (by rw [if_pos ⟨hk, rfl⟩]; exact List.mem_cons_self)
              have := (hR a a a b haa (hm (by rw [hk]; rfl))).1 rfl
              rw [this]
          · rw [if_neg hk, if_neg hk]
        have hww : stamp M H a r.2.gn (finish M H a (r.1 ++ varVal M H s.fv f a)) =
            stamp M H b r'.2.gn (finish M H b (r'.1 ++ varVal M H t.fv f b)) := by
          unfold stamp finish
          rw [hgr, h2.gn, h1, hvv, hty]
        rw [hww]
        refine ⟨rfl, ⟨?_, ?_, ?_, h2.fv, by dsimp only; rw [hgr, h2.gn]⟩, ?_⟩
        · dsimp only
          rw [← hkd]
          split
          · exact .cons ⟨hm (by assumption), rfl⟩ h2.memo
          · exact h2.memo
        · dsimp only
          split
          · intro p hp
            rcases List.mem_cons.1 hp with rfl | hp
            · assumption
            · exact h2.ms p hp
          · exact h2.ms
        · dsimp only
          split
          · intro p hp
            rcases List.mem_cons.1 hp with rfl | hp
            · assumption
            · exact h2.mt p hp
          · exact h2.mt
        · dsimp only
          split
          · rw [List.map_cons, h3]
          · exact h3

theorem hash_alpha (hch : Chosen H) (hv : ∀ v w, veq v w = true → M.val v = M.val w) {f : Bool} {a b : Nat}
    {R : Nat → Nat → Prop} (hR : OneR R) (hs : Sim veq H R a b) (hf : ∀ x ∈ freeVars (hashed H) f a, R x x) :
    hashOf M H f (some a) = hashOf M H f (some b) :=
  (hgo_lock hch hv hR (a + 1) (b + 1) f a b ⟨[], 0, 0⟩ ⟨[], 0, 0⟩ [] (Nat.lt_succ_self a) (Nat.lt_succ_self b)
    (sim_hashed hch a b hs) ⟨.nil, by simp, by simp, rfl, rfl⟩ hf).same

/-- The objects among the attributes. -/
def refs : List (Item V) → List (Nat × Bool)
  | [] => []
  | .ref (some p) d _ :: xs => (p, d) :: refs xs
  | _ :: xs => refs xs

theorem walkItems_refs {w : Bool → Nat → List Nat × List Nat → List Nat × List Nat} {f : Bool} :
    ∀ (xs : List (Item V)) st, walkItems w f xs st = (refs xs).foldl (fun st p => w (f || p.2) p.1 st) st := by
  intro xs
  induction xs with
  | nil => intro st; rfl
  | cons x xs ih =>
    intro st
    rcases x with v | n | ⟨_ | p, d, r⟩ <;> simp only [walkItems, refs, List.foldl_cons] <;> exact ih _

/-- When hash and comparison meet the objects in the same order, they have the same free variables. -/
theorem freeVars_hashed (h : ∀ p, (H.node p).kind ≠ .op → refs (H.node p).hs = refs (H.node p).es) (f : Bool) (a : Nat) :
    freeVars (hashed H) f a = freeVars H f a := by
  have key : ∀ k f a st, walk (hashed H) k f a st = walk H k f a st := by
    intro k
    induction k with
    | zero => intro f a st; rfl
    | succ k ih =>
      intro f a st
      rw [walk, walk]
      have e : ((hashed H).node a).kind = (H.node a).kind := rfl
      have hi : (H.node a).kind ≠ .op → walkItems (walk (hashed H) k) f ((hashed H).node a).es st =
          walkItems (walk H k) f (H.node a).es st := by
        intro hop
        have hw : walk (hashed H) k = walk H k := by
          funext f a st; exact ih f a st
        rw [hw, walkItems_refs, walkItems_refs]
        have : ((hashed H).node a).es = (H.node a).hs := rfl
        rw [this, h a hop]
      rw [e]
      cases hk : (H.node a).kind with
      | op => rfl
      | _ => rw [hi (by rw [hk]; simp)]
  unfold freeVars
  rw [key]

theorem freeVars_true (a : Nat) : freeVars H true a = [] := by
  have key : ∀ k a st, (walk H k true a st).2 = st.2 := by
    intro k
    induction k with
    | zero => intro a st; rfl
    | succ k ih =>
      intro a st
      have hit : ∀ (xs : List (Item V)) st, (walkItems (walk H k) true xs st).2 = st.2 := by
        intro xs
        induction xs with
        | nil => intro st; rfl
        | cons x xs ih' =>
          intro st
          rcases x with v | n | ⟨_ | p, d, r⟩ <;> simp only [walkItems, Bool.true_or] <;> rw [ih']
          exact ih p st
      rw [walk]
      split
      · rfl
      · split <;> (try dsimp only) <;> first | rfl | exact hit _ _
  unfold freeVars
  rw [key]

/-- **C127** Objects that `structural_equal` finds equal have the same `structural_hash`. -/
theorem hash_partial (hy : NoYield H) (hch : Chosen H) (hv : ∀ v w, veq v w = true → M.val v = M.val w)
    {a b : Nat} {f : Bool}
    (hfree : f = true ∨ ∀ x ∈ freeVars (hashed H) f a, x ∈ freeVars H f a)
    (h : Returns veq H (some a) (some b) f true) :
    ∃ w, HashReturns M H (some a) f w ∧ HashReturns M H (some b) f w := by
  obtain ⟨R, hR, hs, hf⟩ := ((equal_partial hy a b f).2.1).1 h
  refine ⟨_, hashReturns_iff.2 rfl, hashReturns_iff.2 (hash_alpha hch hv hR hs ?_).symm⟩
  rcases hfree with rfl | hfree
  · intro x hx
    rw [freeVars_true] at hx
    cases hx
  · exact fun x hx => hf x (hfree x hx)

/-- The same with `map_free_vars` false when hash and comparison meet the objects in the same order. -/
theorem hash_ordered_partial (hy : NoYield H) (hch : Chosen H) (hv : ∀ v w, veq v w = true → M.val v = M.val w)
    (ho : ∀ p, (H.node p).kind ≠ .op → refs (H.node p).hs = refs (H.node p).es) {a b : Nat} {f : Bool}
    (h : Returns veq H (some a) (some b) f true) :
    ∃ w, HashReturns M H (some a) f w ∧ HashReturns M H (some b) f w :=
  hash_partial hy hch hv (Or.inr (fun x hx => by rw [freeVars_hashed ho] at hx; exact hx)) h

end

end Verif.StructEq
