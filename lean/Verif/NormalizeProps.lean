import Verif.Normalize
import Mathlib.Logic.Relation
import Mathlib.Data.List.Chain
import Mathlib.Tactic.Tauto

/-! Decomposition and canonical order. -/

namespace Verif.Normalize

/-! ## What Unicode says

Section 3.11 and 3.12 of the Unicode Standard (D68, D65, D108, D109, D115, D117). -/

/-- Full decomposition: mappings (canonical ones, and all with `k`) and the arithmetic of Hangul
syllables are applied until none applies. -/
inductive FullDec (db : DB) (k : Bool) : List Nat → List Nat → Prop
  | nil : FullDec db k [] []
  | syllable {c s t} : 0xAC00 ≤ c → c ≤ 0xD7A3 → FullDec db k s t →
      FullDec db k (c :: s) (hangul c ++ t)
  | step {c s t} : ¬ (0xAC00 ≤ c ∧ c ≤ 0xD7A3) → (db.dec c).2 ≠ [] → ((db.dec c).1 → k) →
      FullDec db k ((db.dec c).2 ++ s) t → FullDec db k (c :: s) t
  | keep {c s t} : ¬ (0xAC00 ≤ c ∧ c ≤ 0xD7A3) → ((db.dec c).2 = [] ∨ ((db.dec c).1 ∧ ¬ k)) →
      FullDec db k s t → FullDec db k (c :: s) (c :: t)

/-- One exchange of a reorderable pair. -/
inductive Reorder (db : DB) : List Nat → List Nat → Prop
  | swap (p q : List Nat) (a b : Nat) : db.ccc b < db.ccc a → 0 < db.ccc b →
      Reorder db (p ++ a :: b :: q) (p ++ b :: a :: q)

/-- No reorderable pair is left. -/
def Canon (db : DB) (s : List Nat) : Prop :=
  s.IsChain (fun a b => db.ccc b = 0 ∨ db.ccc a ≤ db.ccc b)

/-! ## Full decomposition of a character, by depth -/

def height (db : DB) (k : Bool) : Nat → Nat → Bool
  | 0, c => isS c || leaf db k c
  | n + 1, c => isS c || leaf db k c || (db.dec c).2.all (height db k n)

def fullD (db : DB) (k : Bool) : Nat → Nat → List Nat
  | 0, c => if isS c then hangul c else [c]
  | n + 1, c =>
    if isS c then hangul c else if leaf db k c then [c] else (db.dec c).2.flatMap (fullD db k n)

def needL (f : Nat → Nat) : List Nat → Nat
  | [] => 0
  | x :: r => max (f x + r.length) (needL f r)

/-- The room a character needs on the stack. -/
def need (db : DB) (k : Bool) : Nat → Nat → Nat
  | 0, _ => 1
  | n + 1, c => if isS c || leaf db k c then 1 else needL (need db k n) (db.dec c).2

/-- The decomposition of a character, mappings being nested five deep at most. -/
def full (db : DB) (k : Bool) (c : Nat) : List Nat := fullD db k 5 c

/-- `<a, b>` as table entry or Hangul syllable. -/
def primary (db : DB) (a b : Nat) : Option Nat :=
  if isL a && isV b then some (lv a b)
  else if isS a && (a - 0xAC00) % 28 == 0 && isT b then some (a + (b - 0x11A7))
  else
    match db.first a, db.last b with
    | some f, some l => if db.pair f l = 0 then none else some (db.pair f l)
    | _, _ => none

/-- What the database must satisfy; `NormalizeUcd.lean` shows that the repository's does. -/
structure Laws (db : DB) : Prop where
  /-- Mappings end after five levels. -/
  deep : ∀ k c, height db k 5 c = true
  /-- The stack of 20 suffices. -/
  room : ∀ k c, need db k 5 c ≤ 20
  /-- No character becomes more than 20. -/
  short : ∀ c, (full db false c).length ≤ 20
  /-- Jamo are starters without entries. -/
  jamo : ∀ c, 0x1100 ≤ c → c < 0x1200 →
    (db.dec c).2 = [] ∧ db.ccc c = 0 ∧ db.first c = none ∧ db.last c = none
  /-- Hangul syllables are starters without entries. -/
  syll : ∀ c, isS c = true → db.ccc c = 0 ∧ db.first c = none ∧ db.last c = none
  /-- Only starters begin a composite. -/
  start : ∀ c f, db.first c = some f → db.ccc c = 0
  /-- A composite is a starter and decomposes into its two parts. -/
  prim : ∀ a b f l, db.first a = some f → db.last b = some l → db.pair f l ≠ 0 →
    db.dec (db.pair f l) = (false, [a, b]) ∧ db.ccc (db.pair f l) = 0 ∧ isS (db.pair f l) = false

variable {db : DB} {k : Bool}

/-! ## Decomposition -/

theorem isS_iff (c : Nat) : isS c = true ↔ 0xAC00 ≤ c ∧ c ≤ 0xD7A3 := by
  simp only [isS, Bool.and_eq_true, decide_eq_true_eq]
  omega

theorem leaf_iff (c : Nat) :
    leaf db k c = true ↔ (db.dec c).2 = [] ∨ ((db.dec c).1 = true ∧ ¬ k = true) := by
  simp [leaf, List.isEmpty_iff]

theorem need_pos (n c : Nat) : height db k n c = true → 1 ≤ need db k n c := by
  induction n generalizing c with
  | zero => intro _; exact Nat.le_refl 1
  | succ n ih =>
    intro h
    rw [need]
    split
    · exact Nat.le_refl 1
    · rename_i hc
      rw [height] at h
      simp only [hc, Bool.false_or] at h
      cases hd : (db.dec c).2 with
      | nil =>
        exfalso
        apply hc
        rw [Bool.or_eq_true]
        exact .inr ((leaf_iff c).2 (.inl hd))
      | cons x r =>
        rw [hd, List.all_cons, Bool.and_eq_true] at h
        have := ih x h.1
        rw [needL]
        omega

theorem length_le_needL {f : Nat → Nat} : ∀ l : List Nat, (∀ x ∈ l, 1 ≤ f x) → l.length ≤ needL f l
  | [], _ => Nat.zero_le _
  | x :: r, h => by
    have := h x List.mem_cons_self
    rw [needL, List.length_cons]
    omega

/-- The loop replaces the top of the stack by its full decomposition. -/
theorem unwind_full (n : Nat) : ∀ c, height db k n c = true → ∀ st out : List Nat,
    need db k n c + st.length ≤ 20 →
    ∃ m, ∀ j, unwind db k (j + m) (c :: st) out = unwind db k j st (out ++ fullD db k n c) := by
  induction n with
  | zero =>
    intro c h st out _
    refine ⟨1, fun j => ?_⟩
    rw [unwind, fullD]
    rw [height, Bool.or_eq_true] at h
    by_cases hs : isS c = true
    · rw [if_pos hs, if_pos hs]
    · rw [if_neg hs, if_neg hs, if_pos (h.resolve_left hs)]
  | succ n ih =>
    intro c h st out hn
    by_cases hs : isS c = true
    · exact ⟨1, fun j => by rw [unwind, fullD, if_pos hs, if_pos hs]⟩
    by_cases hl : leaf db k c = true
    · exact ⟨1, fun j => by rw [unwind, fullD, if_neg hs, if_neg hs, if_pos hl, if_pos hl]⟩
    have hs' : isS c = false := by simpa using hs
    have hl' : leaf db k c = false := by simpa using hl
    rw [height, hs', hl', Bool.false_or, Bool.false_or] at h
    rw [need, hs', hl', Bool.false_or, if_neg (by decide)] at hn
    have parts : ∀ (l : List Nat), (∀ x ∈ l, height db k n x = true) → ∀ st out : List Nat,
        needL (need db k n) l + st.length ≤ 20 →
        ∃ m, ∀ j, unwind db k (j + m) (l ++ st) out =
          unwind db k j st (out ++ l.flatMap (fullD db k n)) := by
      intro l
      induction l with
      | nil => intro _ st out _; exact ⟨0, fun j => by simp⟩
      | cons x l ihl =>
        intro hx st out hr
        rw [needL] at hr
        obtain ⟨m1, h1⟩ := ih x (hx x List.mem_cons_self) (l ++ st) out (by
          rw [List.length_append]; omega)
        obtain ⟨m2, h2⟩ := ihl (fun y hy => hx y (List.mem_cons_of_mem _ hy)) st
          (out ++ fullD db k n x) (by omega)
        refine ⟨m2 + m1, fun j => ?_⟩
        rw [← Nat.add_assoc, List.cons_append, h1, h2, List.flatMap_cons, List.append_assoc]
    have hall := List.all_eq_true.1 h
    obtain ⟨m, hm⟩ := parts _ hall st out hn
    refine ⟨m + 1, fun j => ?_⟩
    rw [← Nat.add_assoc, unwind, if_neg hs, if_neg hl, if_neg, hm, fullD, if_neg hs, if_neg hl]
    have := length_le_needL (f := need db k n) (db.dec c).2 fun x hx => need_pos n x (hall x hx)
    rw [List.length_append]
    omega

theorem unwind_mono {fuel : Nat} : ∀ {st out r}, unwind db k fuel st out = .ok r →
    ∀ m, unwind db k (fuel + m) st out = .ok r := by
  induction fuel with
  | zero => intro st out r h; cases h
  | succ fuel ih =>
    intro st out r h m
    rw [show fuel + 1 + m = (fuel + m) + 1 by omega]
    cases st with
    | nil => rw [unwind] at h ⊢; exact h
    | cons c st =>
      rw [unwind] at h ⊢
      by_cases hs : isS c = true
      · rw [if_pos hs] at h ⊢; exact ih h m
      · rw [if_neg hs] at h ⊢
        by_cases hl : leaf db k c = true
        · rw [if_pos hl] at h ⊢; exact ih h m
        · rw [if_neg hl] at h ⊢
          by_cases hg : 20 < ((db.dec c).2 ++ st).length
          · rw [if_pos hg] at h; cases h
          · rw [if_neg hg] at h ⊢; exact ih h m

/-- The decomposition of a string. -/
def fullS (db : DB) (k : Bool) (s : List Nat) : List Nat := s.flatMap (full db k)

/-- Decomposition ends, never leaves the stack, and replaces each character by its full
decomposition. -/
theorem decompose_ok (hl : Laws db) (s : List Nat) : ∀ out : List Nat, ∃ N, ∀ fuel, N ≤ fuel →
    decompose db k fuel s out = .ok (out ++ fullS db k s) := by
  induction s with
  | nil => intro out; exact ⟨0, fun _ _ => by rw [decompose, fullS]; simp⟩
  | cons c s ih =>
    intro out
    obtain ⟨m, hm⟩ := unwind_full 5 c (hl.deep k c) [] out (hl.room k c)
    obtain ⟨N, hN⟩ := ih (out ++ full db k c)
    refine ⟨max N (1 + m), fun fuel hf => ?_⟩
    have h1 : unwind db k fuel [c] out = .ok (out ++ full db k c) := by
      have := unwind_mono (r := out ++ full db k c) (by rw [hm 1]; rfl) (fuel - (1 + m))
      rwa [show 1 + m + (fuel - (1 + m)) = fuel by omega] at this
    rw [decompose, h1]
    dsimp only
    rw [hN fuel (by omega), List.append_assoc, fullS, fullS, List.flatMap_cons]

/-- ... which is the full decomposition of Unicode. -/
theorem fullD_spec (n : Nat) : ∀ c, height db k n c = true → ∀ s t,
    FullDec db k s t → FullDec db k (c :: s) (fullD db k n c ++ t) := by
  induction n with
  | zero =>
    intro c h s t ht
    rw [fullD]
    by_cases hs : isS c = true
    · rw [if_pos hs]
      exact .syllable ((isS_iff c).1 hs).1 ((isS_iff c).1 hs).2 ht
    · rw [if_neg hs]
      rw [height, Bool.or_eq_true] at h
      exact .keep (fun x => hs ((isS_iff c).2 x)) ((leaf_iff c).1 (h.resolve_left hs)) ht
  | succ n ih =>
    intro c h s t ht
    rw [fullD]
    by_cases hs : isS c = true
    · rw [if_pos hs]
      exact .syllable ((isS_iff c).1 hs).1 ((isS_iff c).1 hs).2 ht
    · rw [if_neg hs]
      by_cases hl : leaf db k c = true
      · rw [if_pos hl]
        exact .keep (fun x => hs ((isS_iff c).2 x)) ((leaf_iff c).1 hl) ht
      · rw [if_neg hl]
        have hs' : isS c = false := by simpa using hs
        have hl' : leaf db k c = false := by simpa using hl
        rw [height, hs', hl', Bool.false_or, Bool.false_or] at h
        have hall := List.all_eq_true.1 h
        have h1 : ¬ ((db.dec c).2 = [] ∨ ((db.dec c).1 = true ∧ ¬ k = true)) :=
          fun x => hl ((leaf_iff c).2 x)
        refine .step (fun x => hs ((isS_iff c).2 x)) (fun x => h1 (.inl x))
          (fun x => ?_) ?_
        · by_contra hk
          exact h1 (.inr ⟨x, hk⟩)
        · have parts : ∀ l : List Nat, (∀ x ∈ l, height db k n x = true) →
              FullDec db k (l ++ s) (l.flatMap (fullD db k n) ++ t) := by
            intro l
            induction l with
            | nil => intro _; exact ht
            | cons x l ihl =>
              intro hx
              rw [List.cons_append, List.flatMap_cons, List.append_assoc]
              exact ih x (hx x List.mem_cons_self) _ _
                (ihl fun y hy => hx y (List.mem_cons_of_mem _ hy))
          exact parts _ hall

theorem fullS_spec (hl : Laws db) (s : List Nat) : FullDec db k s (fullS db k s) := by
  induction s with
  | nil => exact .nil
  | cons c s ih => exact fullD_spec 5 c (hl.deep k c) s _ ih

/-- Full decompositions are unique. -/
theorem fullDec_unique {s t : List Nat} (h : FullDec db k s t) :
    ∀ {u}, FullDec db k s u → u = t := by
  induction h with
  | nil => intro u hu; cases hu; rfl
  | syllable h1 h2 _ ih =>
    intro u hu
    cases hu with
    | syllable _ _ h => rw [ih h]
    | step h _ _ _ => exact absurd ⟨h1, h2⟩ h
    | keep h _ _ => exact absurd ⟨h1, h2⟩ h
  | step h1 h2 h3 _ ih =>
    intro u hu
    cases hu with
    | syllable a b _ => exact absurd ⟨a, b⟩ h1
    | step _ _ _ h => exact ih h
    | keep _ h _ => rcases h with h | h
                    · exact absurd h h2
                    · exact absurd (h3 h.1) h.2
  | keep h1 h2 _ ih =>
    intro u hu
    cases hu with
    | syllable a b _ => exact absurd ⟨a, b⟩ h1
    | step _ a b _ => rcases h2 with h | h
                      · exact absurd h a
                      · exact absurd (b h.1) h.2
    | keep _ _ h => rw [ih h]

theorem height_succ (n : Nat) : ∀ c, height db k n c = true → height db k (n + 1) c = true := by
  induction n with
  | zero =>
    intro c h
    rw [height] at h
    rw [height, h]
    rfl
  | succ n ih =>
    intro c h
    rw [height, Bool.or_eq_true] at h ⊢
    rcases h with h | h
    · exact .inl h
    · refine .inr (List.all_eq_true.2 fun x hx => ih x (List.all_eq_true.1 h x hx))

theorem fullD_succ (n : Nat) : ∀ c, height db k n c = true → fullD db k (n + 1) c = fullD db k n c := by
  induction n with
  | zero =>
    intro c h
    rw [height, Bool.or_eq_true] at h
    rw [fullD, fullD]
    by_cases hs : isS c = true
    · rw [if_pos hs, if_pos hs]
    · rw [if_neg hs, if_neg hs, if_pos (h.resolve_left hs)]
  | succ n ih =>
    intro c h
    rw [fullD]
    conv => rhs; rw [fullD]
    by_cases hs : isS c = true
    · rw [if_pos hs, if_pos hs]
    · rw [if_neg hs, if_neg hs]
      by_cases hl : leaf db k c = true
      · rw [if_pos hl, if_pos hl]
      · rw [if_neg hl, if_neg hl]
        have hs' : isS c = false := by simpa using hs
        have hl' : leaf db k c = false := by simpa using hl
        rw [height, hs', hl', Bool.false_or, Bool.false_or] at h
        have hall := List.all_eq_true.1 h
        generalize (db.dec c).2 = l at hall
        induction l with
        | nil => rfl
        | cons x l ihl =>
          rw [List.flatMap_cons, List.flatMap_cons, ih x (hall x List.mem_cons_self),
            ihl fun y hy => hall y (List.mem_cons_of_mem _ hy)]

/-- A composite decomposes into the decompositions of its parts. -/
theorem full_two (hl : Laws db) {p a b : Nat} (h1 : db.dec p = (false, [a, b])) (h2 : isS p = false) :
    full db k p = full db k a ++ full db k b := by
  have hlf : leaf db k p = false := by rw [leaf, h1]; rfl
  have hd := hl.deep k p
  rw [height, h2, hlf, h1, Bool.false_or, Bool.false_or] at hd
  simp only [List.all_cons, List.all_nil, Bool.and_true, Bool.and_eq_true] at hd
  rw [full, full, full, fullD_succ 4 a hd.1, fullD_succ 4 b hd.2, fullD, if_neg (by rw [h2]; decide),
    if_neg (by rw [hlf]; decide), h1]
  simp

theorem fullD_ne (n : Nat) : ∀ c, height db k n c = true → fullD db k n c ≠ [] := by
  induction n with
  | zero =>
    intro c _
    rw [fullD]
    split
    · rw [hangul]; simp
    · simp
  | succ n ih =>
    intro c h
    rw [fullD]
    by_cases hs : isS c = true
    · rw [if_pos hs, hangul]; simp
    · rw [if_neg hs]
      by_cases hl : leaf db k c = true
      · rw [if_pos hl]; simp
      · rw [if_neg hl]
        have hs' : isS c = false := by simpa using hs
        have hl' : leaf db k c = false := by simpa using hl
        rw [height, hs', hl', Bool.false_or, Bool.false_or] at h
        cases hd : (db.dec c).2 with
        | nil => exact absurd ((leaf_iff c).2 (.inl hd)) hl
        | cons x l =>
          rw [hd, List.all_cons, Bool.and_eq_true] at h
          rw [List.flatMap_cons]
          exact fun e => ih x h.1 (List.append_eq_nil_iff.1 e).1

theorem full_ne (hl : Laws db) (c : Nat) : full db k c ≠ [] := fullD_ne 5 c (hl.deep k c)

/-! ## Canonical order -/

theorem place_eq (d : List Nat) (x : Nat) :
    place db d x = if db.ccc x = 0 then x :: d else ins db x d := by
  cases d with
  | nil => rw [place, ins]; split <;> rfl
  | cons y d =>
    rw [place]
    by_cases h0 : db.ccc x = 0
    · rw [if_pos h0, if_pos (.inr (.inl h0))]
    · rw [if_neg h0]
      by_cases h : db.ccc y = 0 ∨ db.ccc y ≤ db.ccc x
      · rw [if_pos (by tauto), ins, if_pos h]
      · rw [if_neg (by tauto)]

theorem ins_comm_lt (a b : Nat) (hab : db.ccc a < db.ccc b) (d : List Nat) :
    ins db b (ins db a d) = ins db a (ins db b d) := by
  induction d with
  | nil =>
    rw [ins, ins, ins, if_pos (.inr (by omega)), ins, if_neg (by omega), ins]
  | cons y d ih =>
    rw [ins]
    conv => rhs; rw [ins]
    by_cases h1 : db.ccc y = 0 ∨ db.ccc y ≤ db.ccc a
    · have h2 : db.ccc y = 0 ∨ db.ccc y ≤ db.ccc b := by omega
      rw [if_pos h1, if_pos h2, ins, if_pos (.inr (by omega)), ins,
        if_neg (show ¬ (db.ccc b = 0 ∨ db.ccc b ≤ db.ccc a) by omega), ins, if_pos h1]
    · by_cases h2 : db.ccc y = 0 ∨ db.ccc y ≤ db.ccc b
      · rw [if_neg h1, if_pos h2, ins, if_pos h2, ins,
          if_neg (show ¬ (db.ccc b = 0 ∨ db.ccc b ≤ db.ccc a) by omega), ins, if_neg h1]
      · rw [if_neg h1, if_neg h2, ins, if_neg h2, ins, if_neg h1, ih]

theorem place_comm (a b : Nat) (hab : db.ccc a ≠ db.ccc b) (ha : 0 < db.ccc a) (hb : 0 < db.ccc b)
    (d : List Nat) : place db (place db d a) b = place db (place db d b) a := by
  rw [place_eq, if_neg (by omega), place_eq, if_neg (by omega), place_eq, if_neg (by omega),
    place_eq, if_neg (by omega)]
  rcases Nat.lt_or_gt_of_ne hab with h | h
  · exact ins_comm_lt a b h d
  · exact (ins_comm_lt b a h d).symm

theorem order_swap (p q : List Nat) (a b : Nat) (hab : db.ccc a ≠ db.ccc b) (ha : 0 < db.ccc a)
    (hb : 0 < db.ccc b) : order db (p ++ a :: b :: q) = order db (p ++ b :: a :: q) := by
  unfold order
  rw [List.foldl_append, List.foldl_append, List.foldl_cons, List.foldl_cons, List.foldl_cons,
    List.foldl_cons, place_comm a b hab ha hb]

/-- Moving a mark over marks of smaller classes. -/
theorem order_move (p q ms : List Nat) (c : Nat) (h : ∀ m ∈ ms, 0 < db.ccc m ∧ db.ccc m < db.ccc c) :
    order db (p ++ c :: ms ++ q) = order db (p ++ ms ++ c :: q) := by
  induction ms generalizing p with
  | nil => simp
  | cons m ms ih =>
    have hm := h m List.mem_cons_self
    have e : p ++ c :: (m :: ms) ++ q = p ++ c :: m :: (ms ++ q) := by simp
    rw [e, order_swap p _ c m (by omega) (by omega) hm.1]
    have := ih (p ++ [m]) fun x hx => h x (List.mem_cons_of_mem _ hx)
    simpa using this

theorem order_reorder {s t : List Nat} (h : Relation.ReflTransGen (Reorder db) s t) :
    order db s = order db t := by
  induction h with
  | refl => rfl
  | tail _ h ih =>
    rw [ih]
    cases h with
    | swap p q a b h1 h2 => exact order_swap p q a b (by omega) (by omega) h2

/-- The relation of neighbours, seen from the right. -/
def Back (db : DB) (b a : Nat) : Prop := db.ccc b = 0 ∨ db.ccc a ≤ db.ccc b

theorem ins_back (x : Nat) (hx : db.ccc x ≠ 0) : ∀ d : List Nat, d.IsChain (Back db) →
    (ins db x d).IsChain (Back db) ∧ (∀ z, Back db z x → (∀ y ∈ d.head?, Back db z y) →
      ∀ y ∈ (ins db x d).head?, Back db z y)
  | [], _ => by
    refine ⟨List.isChain_singleton _, fun z hz _ y hy => ?_⟩
    rw [ins] at hy
    simp only [List.head?_cons, Option.mem_def, Option.some.injEq] at hy
    exact hy ▸ hz
  | y :: d, h => by
    rw [ins]
    by_cases hc : db.ccc y = 0 ∨ db.ccc y ≤ db.ccc x
    · rw [if_pos hc]
      refine ⟨List.isChain_cons_cons.2 ⟨.inr (by omega), h⟩, fun z hz _ w hw => ?_⟩
      simp only [List.head?_cons, Option.mem_def, Option.some.injEq] at hw
      exact hw ▸ hz
    · rw [if_neg hc]
      obtain ⟨i1, i2⟩ := ins_back x hx d (List.IsChain.tail h)
      refine ⟨List.isChain_cons.2 ⟨fun w hw => ?_, i1⟩, fun z hz hzy w hw => ?_⟩
      · exact i2 y (.inr (by omega)) (fun u hu => by
          rw [List.isChain_cons] at h
          exact h.1 u hu) w hw
      · simp only [List.head?_cons, Option.mem_def, Option.some.injEq] at hw
        exact hw ▸ hzy y (by simp)

theorem place_back (d : List Nat) (x : Nat) (h : d.IsChain (Back db)) :
    (place db d x).IsChain (Back db) := by
  rw [place_eq]
  split
  · rename_i hx
    exact List.isChain_cons.2 ⟨fun y _ => .inl hx, h⟩
  · rename_i hx
    exact (ins_back x hx d h).1

theorem canon_iff (d : List Nat) : Canon db d.reverse ↔ d.IsChain (Back db) := by
  unfold Canon
  rw [List.isChain_reverse]
  exact Iff.rfl

/-- The result is in canonical order, -/
theorem order_canon (s : List Nat) : Canon db (order db s) := by
  unfold order
  rw [canon_iff]
  suffices h : ∀ (s d : List Nat), d.IsChain (Back db) → (s.foldl (place db) d).IsChain (Back db) from
    h s [] List.isChain_nil
  intro s
  induction s with
  | nil => intro d h; exact h
  | cons x s ih => intro d h; exact ih _ (place_back d x h)

theorem reorder_append {s t : List Nat} (h : Relation.ReflTransGen (Reorder db) s t) (q : List Nat) :
    Relation.ReflTransGen (Reorder db) (s ++ q) (t ++ q) := by
  induction h with
  | refl => exact .refl
  | tail _ h ih =>
    refine ih.tail ?_
    cases h with
    | swap p q' a b h1 h2 =>
      simpa using Reorder.swap (db := db) p (q' ++ q) a b h1 h2

theorem ins_reach (x : Nat) (hx : 0 < db.ccc x) : ∀ d : List Nat,
    Relation.ReflTransGen (Reorder db) (d.reverse ++ [x]) (ins db x d).reverse
  | [] => .refl
  | y :: d => by
    rw [ins]
    split
    · rw [List.reverse_cons (a := x)]
    · rename_i hc
      rw [List.reverse_cons, List.reverse_cons, List.append_assoc]
      refine .head ?_ (reorder_append (ins_reach x hx d) [y])
      have := Reorder.swap (db := db) d.reverse [] y x (by omega) hx
      simpa using this

/-- ... it is reached by exchanging reorderable pairs, -/
theorem order_reach (s : List Nat) : Relation.ReflTransGen (Reorder db) s (order db s) := by
  unfold order
  suffices h : ∀ (s d : List Nat), Relation.ReflTransGen (Reorder db) (d.reverse ++ s)
      (s.foldl (place db) d).reverse from h s []
  intro s
  induction s with
  | nil => intro d; rw [List.append_nil]; exact .refl
  | cons x s ih =>
    intro d
    rw [List.foldl_cons]
    refine .trans ?_ (ih _)
    rw [show d.reverse ++ x :: s = (d.reverse ++ [x]) ++ s by simp]
    refine reorder_append ?_ s
    rw [place_eq]
    split
    · rw [List.reverse_cons]
    · exact ins_reach x (by omega) d

/-- A string in canonical order remains. -/
theorem order_fix (s : List Nat) (h : Canon db s) : order db s = s := by
  have key : ∀ (s d : List Nat), (s.reverse ++ d).IsChain (Back db) →
      s.foldl (place db) d = s.reverse ++ d := by
    intro s
    induction s with
    | nil => intro d _; rfl
    | cons x s ih =>
      intro d h
      rw [List.foldl_cons]
      have hp : place db d x = x :: d := by
        rw [List.reverse_cons, List.append_assoc] at h
        have h' := List.IsChain.right_of_append h
        cases d with
        | nil => rfl
        | cons y d =>
          have := (List.isChain_cons_cons.1 h').1
          rw [place, if_pos]
          rcases this with h | h
          · exact .inr (.inl h)
          · exact .inr (.inr h)
      rw [hp, ih, List.reverse_cons, List.append_assoc]
      · rfl
      · simpa using h
  unfold order
  rw [key s [] (by rw [List.append_nil, ← canon_iff, List.reverse_reverse]; exact h)]
  simp

/-- ... and there is only one such result. -/
theorem order_unique {s t : List Nat} (h : Relation.ReflTransGen (Reorder db) s t)
    (ht : Canon db t) : t = order db s := by
  rw [order_reorder h, order_fix t ht]

/-! ## NFD and NFKD -/

/-- NFD and NFKD: the result is the full decomposition, reordered by exchanging reorderable pairs
until none is left. No write leaves the stack. -/
theorem nfd_ok (hl : Laws db) (s : List Nat) : ∃ N, ∀ fuel, N ≤ fuel →
    nfd db k fuel s = .ok (order db (fullS db k s)) := by
  obtain ⟨N, hN⟩ := decompose_ok (k := k) hl s []
  refine ⟨N, fun fuel hf => ?_⟩
  rw [nfd, hN fuel hf]
  rfl

theorem nfd_spec (hl : Laws db) (s : List Nat) : ∃ d t N, FullDec db k s d ∧
    Relation.ReflTransGen (Reorder db) d t ∧ Canon db t ∧
    (∀ fuel, N ≤ fuel → nfd db k fuel s = .ok t) ∧
    ∀ d' t', FullDec db k s d' → Relation.ReflTransGen (Reorder db) d' t' → Canon db t' → t' = t := by
  obtain ⟨N, hN⟩ := nfd_ok (k := k) hl s
  refine ⟨_, _, N, fullS_spec hl s, order_reach _, order_canon _, hN, ?_⟩
  intro d' t' h1 h2 h3
  rw [order_unique h2 h3, fullDec_unique (fullS_spec hl s) h1]

end Verif.Normalize
