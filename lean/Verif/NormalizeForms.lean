import Verif.NormalizeComp
import Mathlib.Tactic.Tauto
import Mathlib.Data.List.Chain

/-! The four forms: composition keeps the decomposition, so that NFC and NFKC are idempotent and
compare equal exactly when NFD and NFKD do. -/

namespace Verif.Normalize

variable {db : DB} {k : Bool}

/-! ## Characters of decompositions -/

theorem full_self {x : Nat} (h1 : isS x = false) (h2 : leaf db k x = true) : full db k x = [x] := by
  rw [full, fullD, if_neg (by rw [h1]; decide), if_pos h2]

theorem full_syll {x : Nat} (h1 : isS x = true) : full db k x = hangul x := by
  rw [full, fullD, if_pos h1]

theorem jamo_leaf (hl : Laws db) {x : Nat} (h1 : 0x1100 ≤ x) (h2 : x < 0x1200) :
    isS x = false ∧ leaf db k x = true := by
  refine ⟨?_, (leaf_iff x).2 (.inl (hl.jamo x h1 h2).1)⟩
  cases h : isS x with
  | false => rfl
  | true => rw [isS_iff] at h; omega

theorem fullD_mem (hl : Laws db) (n : Nat) : ∀ c, height db k n c = true → ∀ x ∈ fullD db k n c,
    isS x = false ∧ leaf db k x = true := by
  have hh : ∀ c, isS c = true → ∀ x ∈ hangul c, isS x = false ∧ leaf db k x = true := by
    intro c hc x hx
    rw [isS_iff] at hc
    rw [hangul] at hx
    simp only [List.mem_append, List.mem_cons, List.not_mem_nil, or_false] at hx
    rcases hx with (hx | hx) | hx
    · exact jamo_leaf hl (by omega) (by omega)
    · exact jamo_leaf hl (by omega) (by omega)
    · split at hx
      · rw [List.mem_singleton] at hx
        exact jamo_leaf hl (by omega) (by omega)
      · cases hx
  induction n with
  | zero =>
    intro c h x hx
    rw [fullD] at hx
    by_cases hs : isS c = true
    · rw [if_pos hs] at hx; exact hh c hs x hx
    · rw [if_neg hs, List.mem_singleton] at hx
      rw [height, Bool.or_eq_true] at h
      subst hx
      exact ⟨by simpa using hs, h.resolve_left hs⟩
  | succ n ih =>
    intro c h x hx
    rw [fullD] at hx
    by_cases hs : isS c = true
    · rw [if_pos hs] at hx; exact hh c hs x hx
    · rw [if_neg hs] at hx
      by_cases hlf : leaf db k c = true
      · rw [if_pos hlf, List.mem_singleton] at hx
        subst hx
        exact ⟨by simpa using hs, hlf⟩
      · rw [if_neg hlf, List.mem_flatMap] at hx
        rw [height, Bool.or_eq_true, Bool.or_eq_true] at h
        obtain ⟨y, hy, hx⟩ := hx
        exact ih y (List.all_eq_true.1 (h.resolve_left fun h => h.elim hs hlf) y hy) x hx

theorem fullS_mem (hl : Laws db) {s : List Nat} {x : Nat} (h : x ∈ fullS db k s) :
    isS x = false ∧ leaf db k x = true := by
  rw [fullS, List.mem_flatMap] at h
  obtain ⟨c, -, h⟩ := h
  exact fullD_mem hl 5 c (hl.deep k c) x h

theorem fullS_append (s t : List Nat) : fullS db k (s ++ t) = fullS db k s ++ fullS db k t := by
  rw [fullS, fullS, fullS, List.flatMap_append]

theorem fullS_cons (c : Nat) (t : List Nat) : fullS db k (c :: t) = full db k c ++ fullS db k t := by
  rw [fullS, fullS, List.flatMap_cons]

theorem fullS_self {s : List Nat} (h : ∀ x ∈ s, full db k x = [x]) : fullS db k s = s := by
  induction s with
  | nil => rfl
  | cons x s ih =>
    rw [fullS_cons, h x List.mem_cons_self, ih fun y hy => h y (List.mem_cons_of_mem _ hy)]
    rfl

theorem reorder_mem {s t : List Nat} (h : Relation.ReflTransGen (Reorder db) s t) (x : Nat) :
    x ∈ t ↔ x ∈ s := by
  induction h with
  | refl => exact Iff.rfl
  | tail _ h ih =>
    rw [← ih]
    cases h with
    | swap p q a b => simp only [List.mem_append, List.mem_cons]; tauto

theorem order_mem (s : List Nat) (x : Nat) : x ∈ order db s ↔ x ∈ s := reorder_mem (order_reach s) x

/-- NFD or NFKD. -/
def NFD (db : DB) (k : Bool) (s : List Nat) : List Nat := order db (fullS db k s)
/-- NFC or NFKC. -/
def NFC (db : DB) (k : Bool) (s : List Nat) : List Nat := compose db [] (NFD db k s)

theorem NFD_self (hl : Laws db) (s : List Nat) : ∀ x ∈ NFD db k s, full db k x = [x] := by
  intro x hx
  rw [NFD, order_mem] at hx
  have := fullS_mem hl hx
  exact full_self this.1 this.2

theorem NFD_noS (hl : Laws db) (s : List Nat) : NoS (NFD db k s) := by
  intro x hx
  rw [NFD, order_mem] at hx
  exact (fullS_mem hl hx).1

/-- NFD is idempotent. -/
theorem NFD_idem (hl : Laws db) (s : List Nat) : NFD db k (NFD db k s) = NFD db k s := by
  rw [NFD, fullS_self (NFD_self hl s), NFD, order_fix _ (order_canon _)]

/-! ## Composition -/

/-- A primary composite is a starter and decomposes like its parts. -/
theorem primary_full (hl : Laws db) {a b p : Nat} (h : primary db a b = some p) :
    full db k p = full db k a ++ full db k b ∧ db.ccc p = 0 := by
  rw [primary] at h
  split at h
  · rename_i hc
    rw [Bool.and_eq_true] at hc
    obtain ⟨hL, hV⟩ := hc
    obtain ⟨s1, s2, -, s4⟩ := lv_props hL hV
    have h := Option.some.inj h
    subst h
    refine ⟨?_, (hl.syll _ s1).1⟩
    have ja := jamo_leaf (k := k) hl (isL_jamo hL).1 (isL_jamo hL).2
    have jb := jamo_leaf (k := k) hl (isV_jamo hV).1 (isV_jamo hV).2
    rw [full_self ja.1 ja.2, full_self jb.1 jb.2, full_syll s1, hangul]
    rw [isL_iff] at hL
    rw [isV_iff] at hV
    generalize lv a b = x at *
    have e1 : (x - 0xAC00) / (21 * 28) = a - 0x1100 := by omega
    have e2 : (x - 0xAC00) % (21 * 28) / 28 = b - 0x1161 := by omega
    rw [e1, e2, s2, if_neg (by simp), show 0x1100 + (a - 0x1100) = a by omega,
      show 0x1161 + (b - 0x1161) = b by omega]
    rfl
  · split at h
    · rename_i hc
      rw [Bool.and_eq_true, Bool.and_eq_true, beq_iff_eq] at hc
      obtain ⟨⟨hS, h28⟩, hT⟩ := hc
      have h := Option.some.inj h
      subst h
      have jb := jamo_leaf (k := k) hl (isT_jamo hT).1 (isT_jamo hT).2
      have hS' := hS
      rw [isS_iff] at hS
      rw [isT_iff] at hT
      have hp : isS (a + (b - 0x11A7)) = true := by rw [isS_iff]; omega
      refine ⟨?_, (hl.syll _ hp).1⟩
      rw [full_self jb.1 jb.2, full_syll hp, full_syll hS', hangul, hangul]
      rw [if_pos (by omega), if_neg (by omega)]
      have e1 : (a + (b - 0x11A7) - 0xAC00) / (21 * 28) = (a - 0xAC00) / (21 * 28) := by omega
      have e2 : (a + (b - 0x11A7) - 0xAC00) % (21 * 28) / 28 = (a - 0xAC00) % (21 * 28) / 28 := by omega
      have e3 : 0x11A7 + (a + (b - 0x11A7) - 0xAC00) % 28 = b := by omega
      rw [e1, e2, e3]
      rfl
    · cases hf : db.first a with
      | none => rw [hf] at h; cases h
      | some f =>
        cases hla : db.last b with
        | none => rw [hf, hla] at h; cases h
        | some l =>
          rw [hf, hla] at h
          dsimp only at h
          by_cases hp : db.pair f l = 0
          · rw [if_pos hp] at h; cases h
          · rw [if_neg hp] at h
            cases h
            obtain ⟨p1, p2, p3⟩ := hl.prim a b f l hf hla hp
            exact ⟨full_two hl p1 p3, p2⟩

/-- The last starter. -/
theorem last_starter (out : List Nat) : (∀ m ∈ out, db.ccc m ≠ 0) ∨
    ∃ ms a before, out = ms ++ a :: before ∧ (∀ m ∈ ms, db.ccc m ≠ 0) ∧ db.ccc a = 0 := by
  induction out with
  | nil => exact .inl (by simp)
  | cons x out ih =>
    by_cases hx : db.ccc x = 0
    · exact .inr ⟨[], x, out, rfl, by simp, hx⟩
    · rcases ih with h | ⟨ms, a, before, rfl, h1, h2⟩
      · refine .inl fun m hm => ?_
        rcases List.mem_cons.1 hm with h' | h'
        · exact h' ▸ hx
        · exact h m h'
      · refine .inr ⟨x :: ms, a, before, rfl, fun m hm => ?_, h2⟩
        rcases List.mem_cons.1 hm with h' | h'
        · exact h' ▸ hx
        · exact h1 m h'

/-- An invariant that composition of one pair keeps and that reading a character keeps holds of the
result. -/
theorem compose_inv (I : List Nat → List Nat → Prop)
    (push : ∀ out c r, I out (c :: r) → I (c :: out) r)
    (comb : ∀ ms a before c r p, (∀ m ∈ ms, db.ccc m ≠ 0) → db.ccc a = 0 → primary db a c = some p →
      (∀ b ∈ ms, db.ccc b < db.ccc c) → I (ms ++ a :: before) (c :: r) → I (ms ++ p :: before) r) :
    ∀ (r out : List Nat), I out r → I (compose db out r).reverse [] := by
  intro r
  induction r with
  | nil => intro out h; rw [compose, List.reverse_reverse]; exact h
  | cons c r ih =>
    intro out h
    rcases last_starter (db := db) out with hm | ⟨ms, a, before, rfl, hm, ha⟩
    · rw [compose_marks hm]
      exact ih _ (push _ _ _ h)
    · rw [compose_step ha hm]
      cases hp : primary db a c with
      | none => exact ih _ (push _ _ _ h)
      | some p =>
        dsimp only
        by_cases hb : ∀ b ∈ ms, db.ccc b < db.ccc c
        · rw [if_pos hb]; exact ih _ (comb _ _ _ _ _ _ hm ha hp hb h)
        · rw [if_neg hb]; exact ih _ (push _ _ _ h)

/-- Composition does not change the decomposition. -/
theorem compose_full (hl : Laws db) (s : List Nat) (hs : ∀ x ∈ s, full db k x = [x]) :
    NFD db k (compose db [] s) = order db s := by
  have key := compose_inv (db := db) (fun out r => (∀ x ∈ r, full db k x = [x]) ∧
      (∀ x ∈ out, db.ccc x ≠ 0 → full db k x = [x]) ∧
      order db (fullS db k (out.reverse ++ r)) = order db s)
    (fun out c r h => ⟨fun x hx => h.1 x (List.mem_cons_of_mem _ hx), fun x hx h0 => by
        rcases List.mem_cons.1 hx with rfl | hx
        · exact h.1 _ List.mem_cons_self
        · exact h.2.1 x hx h0,
      by rw [← h.2.2, List.reverse_cons, List.append_assoc]; rfl⟩)
    (fun ms a before c r p hm ha hp hb h => by
      obtain ⟨h1, h2, h3⟩ := h
      obtain ⟨f1, f2⟩ := primary_full (k := k) hl hp
      refine ⟨fun x hx => h1 x (List.mem_cons_of_mem _ hx), fun x hx h0 => ?_, ?_⟩
      · rcases List.mem_append.1 hx with hx | hx
        · exact h2 x (List.mem_append_left _ hx) h0
        · rcases List.mem_cons.1 hx with hx | hx
          · rw [hx] at h0; exact absurd f2 h0
          · exact h2 x (List.mem_append_right _ (List.mem_cons_of_mem _ hx)) h0
      · have hc := h1 c List.mem_cons_self
        have hms : fullS db k ms.reverse = ms.reverse := fullS_self fun x hx =>
          h2 x (List.mem_append_left _ (List.mem_reverse.1 hx)) (hm x (List.mem_reverse.1 hx))
        rw [← h3]
        simp only [List.reverse_append, List.reverse_cons, List.append_assoc, fullS_append, fullS_cons,
          List.singleton_append, hms, f1, hc]
        have := order_move (db := db) (fullS db k before.reverse ++ full db k a) (fullS db k r) ms.reverse c
          (fun m h' => ⟨Nat.pos_of_ne_zero (hm m (List.mem_reverse.1 h')), hb m (List.mem_reverse.1 h')⟩)
        simpa [fullS] using this)
    s [] ⟨hs, by simp, by rw [List.reverse_nil, List.nil_append, fullS_self hs]⟩
  have h3 := key.2.2
  rw [List.reverse_reverse, List.append_nil] at h3
  exact h3

/-- The result of composition is in canonical order. -/
theorem compose_canon (hl : Laws db) (s : List Nat) (hs : Canon db s) : Canon db (compose db [] s) := by
  have key := compose_inv (db := db) (fun out r => Canon db (out.reverse ++ r))
    (fun out c r h => by rw [List.reverse_cons, List.append_assoc]; exact h)
    (fun ms a before c r p hm ha hp hb h => by
      have f2 := (primary_full (k := false) hl hp).2
      unfold Canon at h ⊢
      simp only [List.reverse_append, List.reverse_cons, List.append_assoc, List.singleton_append] at h ⊢
      rw [List.isChain_append] at h ⊢
      obtain ⟨g1, g2, g3⟩ := h
      refine ⟨g1, ?_, fun x _ y hy => .inl (by simp at hy; exact hy ▸ f2)⟩
      have g4 : (ms.reverse ++ c :: r).IsChain (fun a b => db.ccc b = 0 ∨ db.ccc a ≤ db.ccc b) :=
        (List.isChain_cons.1 g2).2
      rw [List.isChain_append] at g4
      obtain ⟨k1, k2, k3⟩ := g4
      rw [List.cons_append, List.isChain_cons]
      refine ⟨fun y _ => .inr (by omega), ?_⟩
      rw [List.isChain_append]
      refine ⟨k1, (List.isChain_cons.1 k2).2, fun x hx y hy => ?_⟩
      have hx' : x ∈ ms := List.mem_reverse.1 (List.mem_of_getLast? hx)
      have := hb x hx'
      rcases (List.isChain_cons.1 k2).1 y hy with h | h
      · exact .inl h
      · exact .inr (by omega))
    s [] hs
  rw [List.reverse_reverse, List.append_nil] at key
  exact key

/-- Characters of the result are those of the string or composites of them. -/
theorem compose_mem (I : Nat → Prop) (hI : ∀ a c p, primary db a c = some p → I a → I c → I p)
    (s : List Nat) (hs : ∀ x ∈ s, I x) : ∀ x ∈ compose db [] s, I x := by
  have key := compose_inv (db := db) (fun out r => ∀ x, x ∈ out ∨ x ∈ r → I x)
    (fun out c r h x hx => h x (by simp only [List.mem_cons] at hx ⊢; tauto))
    (fun ms a before c r p _ _ hp _ h x hx => by
      simp only [List.mem_append, List.mem_cons] at hx h
      by_cases hxp : x = p
      · subst hxp
        exact hI a c x hp (h a (by simp)) (h c (by simp))
      · exact h x (by tauto))
    s [] (fun x hx => hs x (by simpa using hx))
  intro x hx
  exact key x (.inl (List.mem_reverse.2 hx))

theorem compose_length : ∀ (r out : List Nat), (compose db out r).length ≤ out.length + r.length ∧
    ((compose db out r).length = out.length + r.length → compose db out r = out.reverse ++ r) := by
  intro r
  induction r with
  | nil => intro out; rw [compose]; simp
  | cons c r ih =>
    intro out
    have push : (compose db (c :: out) r).length ≤ out.length + (c :: r).length ∧
        ((compose db (c :: out) r).length = out.length + (c :: r).length →
          compose db (c :: out) r = out.reverse ++ c :: r) := by
      obtain ⟨h1, h2⟩ := ih (c :: out)
      rw [List.length_cons] at h1 h2 ⊢
      refine ⟨by omega, fun h => ?_⟩
      rw [h2 (by omega), List.reverse_cons, List.append_assoc]
      rfl
    rcases last_starter (db := db) out with hm | ⟨ms, a, before, rfl, hm, ha⟩
    · rw [compose_marks hm]; exact push
    · rw [compose_step ha hm]
      cases hp : primary db a c with
      | none => exact push
      | some p =>
        dsimp only
        by_cases hb : ∀ b ∈ ms, db.ccc b < db.ccc c
        · rw [if_pos hb]
          have := (ih (ms ++ p :: before)).1
          simp only [List.length_append, List.length_cons] at this ⊢
          exact ⟨by omega, fun h => by omega⟩
        · rw [if_neg hb]; exact push

/-! ## The forms -/

/-- `nfc_nfkc` is the composition of Unicode of the decomposition: no write leaves an array. -/
theorem nfc_ok (hl : Laws db) (s : List Nat) : ∃ N, ∀ fuel, N ≤ fuel →
    nfc db k fuel s = .ok (NFC db k s) := by
  obtain ⟨N, hN⟩ := nfd_ok (k := k) hl s
  refine ⟨N, fun fuel hf => ?_⟩
  have hc : comp db (NFD db k s) 0 [] = .ok (NFC db k s) := by
    rw [comp_ok hl, compL_compose hl _ (NFD_noS hl s)]; rfl
  rw [nfc, hN fuel hf]
  change (match comp db (NFD db k s) 0 [] with
    | .ok r => Res.ok (if r.length = (NFD db k s).length then NFD db k s else r)
    | e => e) = _
  rw [hc]
  dsimp only
  split
  · rename_i h
    have := (compose_length (db := db) (NFD db k s) []).2 (by simpa [NFC] using h)
    rw [NFC, this]
    rfl
  · rfl

theorem NFD_NFC (hl : Laws db) (s : List Nat) : NFD db k (NFC db k s) = NFD db k s := by
  rw [NFC, compose_full hl _ (NFD_self hl s), NFD, order_fix _ (order_canon _)]

/-- NFC and NFKC are idempotent. -/
theorem NFC_idem (hl : Laws db) (s : List Nat) : NFC db k (NFC db k s) = NFC db k s := by
  rw [NFC, NFD_NFC hl]
  rfl

theorem NFC_NFD (hl : Laws db) (s : List Nat) : NFC db k (NFD db k s) = NFC db k s := by
  rw [NFC, NFD_idem hl]
  rfl

/-- Composed forms are equal exactly when decomposed forms are. -/
theorem NFC_eq_iff (hl : Laws db) (s t : List Nat) : NFC db k s = NFC db k t ↔ NFD db k s = NFD db k t := by
  constructor
  · intro h
    rw [← NFD_NFC hl s, h, NFD_NFC hl]
  · intro h
    rw [NFC, h]
    rfl

theorem NFC_canon (hl : Laws db) (s : List Nat) : Canon db (NFC db k s) :=
  compose_canon hl _ (order_canon _)

/-! ## The quick check -/

/-- Composing the characters `ds` with `a` one after the other. -/
def chain (db : DB) : Nat → List Nat → Option Nat
  | a, [] => some a
  | a, d :: ds =>
    match primary db a d with
    | none => none
    | some p => chain db p ds

/-- Not the second of a composite. -/
def NotLast (db : DB) (x : Nat) : Prop := db.last x = none ∧ isV x = false ∧ isT x = false

/-- What the database must satisfy for the quick check. -/
structure QLaws (db : DB) : Prop where
  /-- Characters that combine with one before are not `YES`. -/
  last : ∀ k x, bits db true k x = 0 → NotLast db x
  /-- Marks that are `YES` do not decompose. -/
  mark : ∀ k x, bits db true k x = 0 → db.ccc x ≠ 0 → full db k x = [x]
  /-- Starters that are `YES` are composed again. -/
  starter : ∀ k x, bits db true k x = 0 → db.ccc x = 0 → ∃ a ds, full db k x = a :: ds ∧
    db.ccc a = 0 ∧ NotLast db a ∧ chain db a ds = some x ∧ Canon db (a :: ds)
  /-- Characters that decompose are not `YES` for the decomposed forms. -/
  dec : ∀ k x, bits db false k x = 0 → full db k x = [x]
  /-- `NO` characters decompose, -/
  no : ∀ c k x, bits db c k x = 2 → full db k x ≠ [x]
  /-- and are not composed again. -/
  noC : ∀ k a b p, primary db a b = some p → bits db true k a ≠ 2 → bits db true k p ≠ 2
  /-- There is no fourth answer. -/
  le : ∀ c k x, bits db c k x ≠ 3

theorem notLast_primary {x : Nat} (h : NotLast db x) (a : Nat) : primary db a x = none := by
  rw [primary, h.1, h.2.1, h.2.2, Bool.and_false, Bool.and_false, if_neg (by decide), if_neg (by decide)]
  cases db.first a <;> rfl

/-- `w` is the characters of `ds` and the marks `ms`, each of `ds` behind marks of smaller classes only
(`acc` are those before `w`). -/
inductive Inter (db : DB) : List Nat → List Nat → List Nat → List Nat → Prop
  | nil {acc} : Inter db acc [] [] []
  | mark {acc m w ds ms} : Inter db (m :: acc) w ds ms → Inter db acc (m :: w) ds (m :: ms)
  | part {acc d w ds ms} : (∀ b ∈ acc, db.ccc b < db.ccc d) → Inter db acc w ds ms →
      Inter db acc (d :: w) (d :: ds) ms

/-- All parts are composed, all marks remain. -/
theorem inter_compose (hl : Laws db) {acc w ds ms : List Nat} (h : Inter db acc w ds ms) :
    ∀ (a x : Nat) (before r : List Nat), chain db a ds = some x → db.ccc a = 0 →
      (∀ m ∈ acc, db.ccc m ≠ 0) → (∀ m ∈ ms, db.ccc m ≠ 0 ∧ NotLast db m) →
      compose db (acc ++ a :: before) (w ++ r) = compose db (ms.reverse ++ acc ++ x :: before) r := by
  induction h with
  | nil =>
    intro a x before r hc _ _ _
    cases hc
    rfl
  | @mark acc m w ds ms _ ih =>
    intro a x before r hc ha hacc hm
    have h1 := hm m List.mem_cons_self
    rw [List.cons_append, compose_step ha hacc, notLast_primary h1.2]
    dsimp only
    have := ih a x before r hc ha (fun y hy => by
      rcases List.mem_cons.1 hy with h | h
      · exact h ▸ h1.1
      · exact hacc y h) fun y hy => hm y (List.mem_cons_of_mem _ hy)
    rw [List.cons_append] at this
    rw [this]
    simp
  | @part acc d w ds ms hb _ ih =>
    intro a x before r hc ha hacc hm
    rw [chain] at hc
    rw [List.cons_append, compose_step ha hacc]
    cases hp : primary db a d with
    | none => rw [hp] at hc; cases hc
    | some p =>
      rw [hp] at hc
      dsimp only at hc ⊢
      rw [if_pos hb]
      exact ih p x before r hc (primary_full (k := false) hl hp).2 hacc hm

theorem inter_parts {acc ds : List Nat} (h : ∀ d ∈ ds, ∀ b ∈ acc, db.ccc b < db.ccc d) :
    Inter db acc ds ds [] := by
  induction ds with
  | nil => exact .nil
  | cons d ds ih =>
    exact .part (h d List.mem_cons_self) (ih fun x hx => h x (List.mem_cons_of_mem _ hx))

theorem inter_nil (ds : List Nat) : Inter db [] ds ds [] := inter_parts (by simp)

theorem inter_mem {acc w ds ms : List Nat} (h : Inter db acc w ds ms) : ∀ m ∈ ms, m ∈ w := by
  induction h with
  | nil => exact fun m h => h
  | mark _ ih =>
    intro x hx
    rcases List.mem_cons.1 hx with h | h
    · exact h ▸ List.mem_cons_self
    · exact List.mem_cons_of_mem _ (ih x h)
  | part _ _ ih => exact fun x hx => List.mem_cons_of_mem _ (ih x hx)

theorem inter_big {acc w ds ms : List Nat} (h : Inter db acc w ds ms) (hms : ms = []) :
    w = ds ∧ ∀ d ∈ ds, ∀ b ∈ acc, db.ccc b < db.ccc d := by
  induction h with
  | nil => exact ⟨rfl, by simp⟩
  | mark => cases hms
  | part hb _ ih =>
    obtain ⟨h1, h2⟩ := ih hms
    refine ⟨by rw [h1], fun d hd => ?_⟩
    rcases List.mem_cons.1 hd with h | h
    · exact h ▸ hb
    · exact h2 d h

/-- A mark moved over larger ones. -/
theorem inter_insert {m : Nat} (e : List Nat) (he : ∀ y ∈ e, db.ccc m < db.ccc y) :
    ∀ (w acc ds ms : List Nat), (∀ y ∈ ms, db.ccc y ≤ db.ccc m) → Inter db acc (w ++ e) ds ms →
      Inter db acc (w ++ m :: e) ds (ms ++ [m]) := by
  intro w
  induction w with
  | nil =>
    intro acc ds ms hms h
    have hnil : ms = [] := by
      cases ms with
      | nil => rfl
      | cons y ms =>
        have h1 := inter_mem h y List.mem_cons_self
        have h2 := he y h1
        have h3 := hms y List.mem_cons_self
        omega
    subst hnil
    obtain ⟨h1, h2⟩ := inter_big h rfl
    rw [List.nil_append] at h1
    subst h1
    refine .mark (inter_parts fun d hd b hb => ?_)
    rcases List.mem_cons.1 hb with h | h
    · exact h ▸ he d hd
    · exact h2 d hd b h
  | cons x w ih =>
    intro acc ds ms hms h
    rw [List.cons_append] at h ⊢
    generalize hv : x :: (w ++ e) = v at h
    cases h with
    | nil => cases hv
    | mark h =>
      cases hv
      exact .mark (ih _ _ _ (fun y hy => hms y (List.mem_cons_of_mem _ hy)) h)
    | part hb h =>
      cases hv
      exact .part hb (ih _ _ _ hms h)

theorem ins_split (m : Nat) : ∀ d : List Nat, ∃ e r, d = e ++ r ∧ ins db m d = e ++ m :: r ∧
    ∀ y ∈ e, db.ccc y ≠ 0 ∧ db.ccc m < db.ccc y
  | [] => ⟨[], [], rfl, rfl, by simp⟩
  | y :: d => by
    rw [ins]
    split
    · exact ⟨[], y :: d, rfl, rfl, by simp⟩
    · rename_i h
      obtain ⟨e, r, h1, h2, h3⟩ := ins_split m d
      refine ⟨y :: e, r, by rw [h1]; rfl, by rw [h2]; rfl, fun z hz => ?_⟩
      rcases List.mem_cons.1 hz with h' | h'
      · subst h'; omega
      · exact h3 z h'

/-- A starter with its marks. -/
theorem order_segment (a : Nat) (ds ms : List Nat) (ha : db.ccc a = 0) (hc : Canon db (a :: ds))
    (hm : ∀ m ∈ ms, db.ccc m ≠ 0) (hs : ms.Pairwise (fun x y => db.ccc x ≤ db.ccc y)) :
    ∃ w, order db (a :: ds ++ ms) = a :: w ∧ Inter db [] w ds ms := by
  induction ms using List.reverseRecOn with
  | nil =>
    rw [List.append_nil]
    exact ⟨ds, order_fix _ hc, inter_nil ds⟩
  | append_singleton ms m ih =>
    rw [List.pairwise_append] at hs
    obtain ⟨w, h1, h2⟩ := ih (fun x hx => hm x (List.mem_append_left _ hx)) hs.1
    have e1 : order db (a :: ds ++ (ms ++ [m])) = (ins db m (a :: w).reverse).reverse := by
      rw [← h1, order, order, List.reverse_reverse, ← List.append_assoc, List.foldl_append,
        List.foldl_cons, List.foldl_nil, place_eq, if_neg (hm m (by simp))]
    obtain ⟨e, r, g1, g2, g3⟩ := ins_split (db := db) m (a :: w).reverse
    have g1' : a :: w = r.reverse ++ e.reverse := by
      rw [← List.reverse_append, ← g1, List.reverse_reverse]
    rw [e1, g2]
    cases hr : r.reverse with
    | nil =>
      rw [hr, List.nil_append] at g1'
      have : a ∈ e := List.mem_reverse.1 (g1' ▸ List.mem_cons_self)
      exact absurd ha (g3 a this).1
    | cons x w1 =>
      rw [hr, List.cons_append, List.cons.injEq] at g1'
      obtain ⟨rfl, rfl⟩ := g1'
      refine ⟨w1 ++ m :: e.reverse, by simp [hr], ?_⟩
      exact inter_insert e.reverse (fun y hy => (g3 y (List.mem_reverse.1 hy)).2) w1 [] ds ms
        (fun y hy => hs.2.2 y hy m (by simp)) h2

theorem ins_append (x a : Nat) (ha : db.ccc a = 0) (d0 : List Nat) : ∀ w : List Nat,
    ins db x (w ++ a :: d0) = ins db x (w ++ [a]) ++ d0
  | [] => by rw [List.nil_append, List.nil_append, ins, ins, if_pos (.inl ha), if_pos (.inl ha)]; rfl
  | y :: w => by
    rw [List.cons_append, List.cons_append, ins, ins, ins_append x a ha d0 w]
    split <;> simp

theorem ins_last (x a : Nat) (ha : db.ccc a = 0) : ∀ w : List Nat, ∃ w', ins db x (w ++ [a]) = w' ++ [a]
  | [] => ⟨[x], by rw [List.nil_append, ins, if_pos (.inl ha)]; rfl⟩
  | y :: w => by
    obtain ⟨w', h⟩ := ins_last x a ha w
    rw [List.cons_append, ins, h]
    split
    · exact ⟨x :: y :: w, rfl⟩
    · exact ⟨y :: w', rfl⟩

/-- Nothing moves over a starter. -/
theorem order_append (p q : List Nat) (a : Nat) (ha : db.ccc a = 0) :
    order db (p ++ a :: q) = order db p ++ order db (a :: q) := by
  have key : ∀ (q w d0 : List Nat), q.foldl (place db) (w ++ a :: d0) =
      q.foldl (place db) (w ++ [a]) ++ d0 := by
    intro q
    induction q with
    | nil => intro w d0; simp
    | cons x q ih =>
      intro w d0
      rw [List.foldl_cons, List.foldl_cons, place_eq, place_eq]
      by_cases hx : db.ccc x = 0
      · rw [if_pos hx, if_pos hx]; exact ih (x :: w) d0
      · rw [if_neg hx, if_neg hx, ins_append x a ha]
        obtain ⟨w', h⟩ := ins_last (db := db) x a ha w
        rw [h, List.append_assoc]
        exact ih w' d0
  rw [order, order, order, List.foldl_append, List.foldl_cons, List.foldl_cons, place_eq, if_pos ha]
  have := key q [] (p.foldl (place db) [])
  rw [List.nil_append, List.nil_append] at this
  rw [this, List.reverse_append]
  rfl

theorem quickYes_mem {c : Bool} : ∀ (s : List Nat) (prev : Nat), quickYes db c k prev s = true →
    (∀ x ∈ s, bits db c k x = 0) ∧ Canon db s ∧ ∀ x ∈ s.head?, db.ccc x = 0 ∨ prev ≤ db.ccc x := by
  intro s
  induction s with
  | nil => intro prev _; exact ⟨by simp, List.isChain_nil, by simp⟩
  | cons x s ih =>
    intro prev h
    rw [quickYes] at h
    by_cases h1 : db.ccc x ≠ 0 ∧ db.ccc x < prev
    · rw [if_pos h1] at h; cases h
    · rw [if_neg h1] at h
      by_cases h2 : bits db c k x ≠ 0
      · rw [if_pos h2] at h; cases h
      · rw [if_neg h2] at h
        obtain ⟨g1, g2, g3⟩ := ih _ h
        refine ⟨fun y hy => ?_, List.isChain_cons.2 ⟨g3, g2⟩, fun y hy => ?_⟩
        · rcases List.mem_cons.1 hy with h | h
          · rw [h]; omega
          · exact g1 y h
        · simp only [List.head?_cons, Option.mem_def, Option.some.injEq] at hy
          subst hy; omega

theorem canon_marks {ms : List Nat} (hm : ∀ m ∈ ms, db.ccc m ≠ 0) (h : Canon db ms) :
    ms.Pairwise (fun x y => db.ccc x ≤ db.ccc y) := by
  induction ms with
  | nil => exact .nil
  | cons a ms ih =>
    obtain ⟨h1, h2⟩ := List.isChain_cons.1 h
    have h2' := ih (fun x hx => hm x (List.mem_cons_of_mem _ hx)) h2
    refine List.pairwise_cons.2 ⟨fun y hy => ?_, h2'⟩
    cases ms with
    | nil => cases hy
    | cons b ms =>
      have := (h1 b (by simp)).resolve_left (hm b (by simp))
      rcases List.mem_cons.1 hy with h | h
      · exact h ▸ this
      · exact Nat.le_trans this ((List.pairwise_cons.1 h2').1 y h)

/-- The marks at the beginning. -/
theorem lead_marks (s : List Nat) : ∃ ms r, s = ms ++ r ∧ (∀ m ∈ ms, db.ccc m ≠ 0) ∧
    ∀ x ∈ r.head?, db.ccc x = 0 := by
  induction s with
  | nil => exact ⟨[], [], rfl, by simp, by simp⟩
  | cons x s ih =>
    by_cases hx : db.ccc x = 0
    · exact ⟨[], x :: s, rfl, by simp, by simpa using hx⟩
    · obtain ⟨ms, r, h1, h2, h3⟩ := ih
      refine ⟨x :: ms, r, by rw [h1]; rfl, fun m hm => ?_, h3⟩
      rcases List.mem_cons.1 hm with h | h
      · exact h ▸ hx
      · exact h2 m h

theorem compose_push_marks : ∀ (ms out r : List Nat), (∀ m ∈ ms, db.ccc m ≠ 0) →
    (∀ m ∈ out, db.ccc m ≠ 0) → compose db out (ms ++ r) = compose db (ms.reverse ++ out) r
  | [], _, _, _, _ => rfl
  | m :: ms, out, r, h1, h2 => by
    rw [List.cons_append, compose_marks h2,
      compose_push_marks ms (m :: out) r (fun x hx => h1 x (List.mem_cons_of_mem _ hx))]
    · simp
    · intro x hx
      rcases List.mem_cons.1 hx with h | h
      · exact h ▸ h1 m List.mem_cons_self
      · exact h2 x h

/-- A string beginning with a starter. -/
theorem yes_starter (hl : Laws db) (hq : QLaws db) : ∀ (n : Nat) (s out : List Nat), s.length ≤ n →
    (∀ x ∈ s, bits db true k x = 0) → Canon db s → (∀ x ∈ s.head?, db.ccc x = 0) →
    compose db out (order db (fullS db k s)) = out.reverse ++ s ∧
      (∀ a ∈ (fullS db k s).head?, db.ccc a = 0) := by
  intro n
  induction n with
  | zero =>
    intro s out hn _ _ _
    obtain rfl := List.length_eq_zero_iff.1 (by omega : s.length = 0)
    refine ⟨?_, by simp [fullS]⟩
    change compose db out [] = _
    rw [compose, List.append_nil]
  | succ n ih =>
    intro s out hn hy hc hh
    cases s with
    | nil =>
      refine ⟨?_, by simp [fullS]⟩
      change compose db out [] = _
      rw [compose, List.append_nil]
    | cons x s =>
      have hx0 := hh x (by simp)
      obtain ⟨a, ds, f1, f2, f3, f4, f5⟩ := hq.starter k x (hy x List.mem_cons_self) hx0
      obtain ⟨ms, r, rfl, hm, hr⟩ := lead_marks (db := db) s
      have hyr : ∀ y ∈ r, bits db true k y = 0 := fun y h => hy y (by simp [h])
      have hym : ∀ y ∈ ms, bits db true k y = 0 := fun y h => hy y (by simp [h])
      have hc' : Canon db (ms ++ r) := (List.isChain_cons.1 hc).2
      have hcm : Canon db ms := (List.isChain_append.1 hc').1
      have hcr : Canon db r := (List.isChain_append.1 hc').2.1
      rw [List.length_cons, List.length_append] at hn
      have hms : fullS db k ms = ms := fullS_self fun y h => hq.mark k y (hym y h) (hm y h)
      obtain ⟨w, w1, w2⟩ := order_segment a ds ms f2 f5 hm (canon_marks hm hcm)
      refine ⟨?_, ?_⟩
      · have hr' := fun out => (ih r out (by omega) hyr hcr hr).1
        have hd := (ih r [] (by omega) hyr hcr hr).2
        have e : order db (fullS db k (x :: (ms ++ r))) = a :: w ++ order db (fullS db k r) := by
          rw [fullS_cons, fullS_append, f1, hms, ← List.append_assoc, ← w1]
          cases hfr : fullS db k r with
          | nil => rw [List.append_nil]; simp [order]
          | cons b t => exact order_append _ _ _ (hd b (by rw [hfr]; rfl))
        rw [e, List.cons_append]
        have e2 : compose db out (a :: (w ++ order db (fullS db k r))) =
            compose db (a :: out) (w ++ order db (fullS db k r)) := by
          rcases last_starter (db := db) out with h | ⟨ms', a', before, rfl, h1, h2⟩
          · rw [compose_marks h]
          · rw [compose_step h2 h1, notLast_primary f3]
        have := inter_compose hl w2 a x out (order db (fullS db k r)) f4 f2 (by simp)
          (fun m h => ⟨hm m h, hq.last k m (hym m h)⟩)
        rw [List.nil_append, List.append_nil] at this
        rw [e2, this, hr']
        simp
      · rw [fullS_cons, f1]
        simpa using f2

/-- A string that the quick check accepts is not changed. -/
theorem quickYes_sound (hl : Laws db) (hq : QLaws db) (c : Bool) (s : List Nat)
    (h : quickYes db c k 0 s = true) : (if c then NFC db k s else NFD db k s) = s := by
  obtain ⟨h1, h2, -⟩ := quickYes_mem s 0 h
  cases c with
  | false =>
    rw [if_neg (by decide), NFD, fullS_self fun x hx => hq.dec k x (h1 x hx), order_fix s h2]
  | true =>
    rw [if_pos rfl, NFC, NFD]
    obtain ⟨ms, r, rfl, hm, hr⟩ := lead_marks (db := db) s
    have hcm : Canon db ms := (List.isChain_append.1 h2).1
    have hcr : Canon db r := (List.isChain_append.1 h2).2.1
    have hyr : ∀ y ∈ r, bits db true k y = 0 := fun y h => h1 y (by simp [h])
    have hms : fullS db k ms = ms := fullS_self fun y h => hq.mark k y (h1 y (by simp [h])) (hm y h)
    have hr' := fun out => (yes_starter (k := k) hl hq r.length r out (Nat.le_refl _) hyr hcr hr).1
    have hd := (yes_starter (k := k) hl hq r.length r [] (Nat.le_refl _) hyr hcr hr).2
    have e : order db (fullS db k (ms ++ r)) = ms ++ order db (fullS db k r) := by
      rw [fullS_append, hms]
      cases hfr : fullS db k r with
      | nil => rw [List.append_nil, order_fix ms hcm]; simp [order]
      | cons b t => rw [order_append _ _ _ (hd b (by rw [hfr]; rfl)), order_fix ms hcm]
    rw [e, compose_push_marks ms [] _ hm (by simp), hr']
    simp

/-- `normalize` computes the four forms. -/
theorem normalize_ok (hl : Laws db) (hq : QLaws db) (c : Bool) (s : List Nat) : ∃ N, ∀ fuel, N ≤ fuel →
    normalize db c k fuel s = .ok (if c then NFC db k s else NFD db k s) := by
  by_cases h0 : s = []
  · subst h0
    refine ⟨0, fun fuel _ => ?_⟩
    rw [normalize, if_pos rfl]
    have e : NFD db k [] = [] := rfl
    have e' : NFC db k [] = [] := by rw [NFC, e, compose]; rfl
    rw [e, e']
    cases c <;> rfl
  by_cases h1 : quickYes db c k 0 s = true
  · refine ⟨0, fun fuel _ => ?_⟩
    rw [normalize, if_neg h0, if_pos h1, quickYes_sound hl hq c s h1]
  · cases c with
    | true =>
      obtain ⟨N, hN⟩ := nfc_ok (k := k) hl s
      refine ⟨N, fun fuel hf => ?_⟩
      rw [normalize, if_neg h0, if_neg h1, if_pos rfl, if_pos rfl, hN fuel hf]
    | false =>
      obtain ⟨N, hN⟩ := nfd_ok (k := k) hl s
      refine ⟨N, fun fuel hf => ?_⟩
      rw [normalize, if_neg h0, if_neg h1, if_neg (by decide), if_neg (by decide), hN fuel hf]
      rfl

/-! ## `is_normalized` -/

theorem quick_spec (hq : QLaws db) {c : Bool} : ∀ (s : List Nat) (prev : Nat) (res : Quick),
    (quick db c k prev res s = .yes → res = .yes ∧ quickYes db c k prev s = true) ∧
    (quick db c k prev res s = Quick.no → res = Quick.no ∨ (∃ x ∈ s, bits db c k x = 2) ∨ ¬ Canon db s ∨
      ∃ x ∈ s.head?, db.ccc x ≠ 0 ∧ db.ccc x < prev) := by
  intro s
  induction s with
  | nil => intro prev res; exact ⟨fun h => ⟨h, rfl⟩, fun h => .inl h⟩
  | cons x s ih =>
    intro prev res
    rw [quick, quickYes]
    by_cases h1 : db.ccc x ≠ 0 ∧ db.ccc x < prev
    · rw [if_pos h1, if_pos h1]
      exact ⟨fun h => (by cases h), fun _ => .inr (.inr (.inr ⟨x, by simp, h1⟩))⟩
    rw [if_neg h1, if_neg h1]
    have hrec : ∀ res, res ≠ .no → quick db c k (db.ccc x) res s = .no →
        (∃ y ∈ x :: s, bits db c k y = 2) ∨ ¬ Canon db (x :: s) := by
      intro res hres h
      rcases (ih (db.ccc x) res).2 h with h | ⟨y, hy, h⟩ | h | ⟨y, hy, h⟩
      · exact absurd h hres
      · exact .inl ⟨y, List.mem_cons_of_mem _ hy, h⟩
      · exact .inr fun hc => h (List.isChain_cons.1 hc).2
      · refine .inr fun hc => ?_
        have := (List.isChain_cons.1 hc).1 y hy
        omega
    by_cases h2 : bits db c k x = 2
    · rw [if_pos h2]
      exact ⟨fun h => (by cases h), fun _ => .inr (.inl ⟨x, List.mem_cons_self, h2⟩)⟩
    rw [if_neg h2]
    by_cases h3 : bits db c k x = 1
    · rw [if_pos h3]
      refine ⟨fun h => ?_, fun h => ?_⟩
      · have := ((ih _ _).1 h).1; cases this
      · rcases hrec .maybe (by decide) h with h | h
        · exact .inr (.inl h)
        · exact .inr (.inr (.inl h))
    · rw [if_neg h3]
      have h4 : bits db c k x = 0 := by
        have hlt : bits db c k x < 2 ^ 2 := by
          rw [bits]
          exact Nat.and_lt_two_pow _ (by decide)
        have := hq.le c k x
        omega
      refine ⟨fun h => ?_, fun h => ?_⟩
      · obtain ⟨g1, g2⟩ := (ih _ _).1 h
        exact ⟨g1, by rw [if_neg (by rw [h4]; simp)]; exact g2⟩
      · by_cases hres : res = .no
        · exact .inl hres
        · rcases hrec res hres h with h | h
          · exact .inr (.inl h)
          · exact .inr (.inr (.inl h))

/-- A string with a `NO` character is not normalized. -/
theorem no_sound (hl : Laws db) (hq : QLaws db) (c : Bool) (s : List Nat) {x : Nat} (hx : x ∈ s)
    (h : bits db c k x = 2) : (if c then NFC db k s else NFD db k s) ≠ s := by
  intro he
  cases c with
  | false =>
    rw [if_neg (by decide)] at he
    exact hq.no false k x h (NFD_self hl s x (by rw [he]; exact hx))
  | true =>
    rw [if_pos rfl, NFC] at he
    have hfix : ∀ y ∈ NFD db k s, bits db true k y ≠ 2 := fun y hy h =>
      hq.no true k y h (NFD_self hl s y hy)
    exact compose_mem (fun y => bits db true k y ≠ 2) (fun a b p hp ha _ => hq.noC k a b p hp ha) _ hfix x
      (by rw [he]; exact hx) h

/-- `is_normalized` tells whether `normalize` changes the string. -/
theorem isNormalized_ok (hl : Laws db) (hq : QLaws db) (c : Bool) (s : List Nat) : ∃ N, ∀ fuel, N ≤ fuel →
    isNormalized db c k fuel s = .ok (decide (s = if c then NFC db k s else NFD db k s)) := by
  by_cases h0 : s = []
  · subst h0
    refine ⟨0, fun fuel _ => ?_⟩
    have := (normalize_ok (k := k) hl hq c []).choose_spec _ (Nat.le_refl _)
    rw [normalize, if_pos rfl, Res.ok.injEq] at this
    rw [isNormalized, if_pos rfl, ← this]
    simp
  obtain ⟨s1, s2⟩ := quick_spec (k := k) hq (c := c) s 0 .yes
  cases hqk : quick db c k 0 .yes s with
  | yes =>
    refine ⟨0, fun fuel _ => ?_⟩
    rw [isNormalized, if_neg h0, hqk, quickYes_sound hl hq c s (s1 hqk).2]
    simp
  | no =>
    refine ⟨0, fun fuel _ => ?_⟩
    rw [isNormalized, if_neg h0, hqk]
    have hne : ¬ s = if c then NFC db k s else NFD db k s := by
      intro he
      rcases s2 hqk with h | ⟨x, hx, h⟩ | h | ⟨x, hx, h⟩
      · cases h
      · exact no_sound hl hq c s hx h he.symm
      · apply h
        rw [he]
        cases c
        · exact order_canon _
        · exact NFC_canon hl s
      · omega
    simp only [decide_eq_false hne]
  | maybe =>
    cases c with
    | true =>
      obtain ⟨N, hN⟩ := nfc_ok (k := k) hl s
      refine ⟨N, fun fuel hf => ?_⟩
      rw [isNormalized, if_neg h0, hqk]
      dsimp only
      rw [if_pos rfl, if_pos rfl, hN fuel hf]
    | false =>
      obtain ⟨N, hN⟩ := nfd_ok (k := k) hl s
      refine ⟨N, fun fuel hf => ?_⟩
      rw [isNormalized, if_neg h0, hqk]
      dsimp only
      rw [if_neg (by decide), if_neg (by decide), hN fuel hf]
      rfl

end Verif.Normalize
