import Verif.Order
import Verif.HashEqProps
import Verif.PdqSortProps

/-!
# Python's order -/

namespace Verif.Order
open HashEq (F ofInt almostEq toF)

/-! ## What Python says -/

inductive Rel
  | lt | le | gt | ge
  deriving DecidableEq

/-- Which outcomes of a comparison make the relation hold. -/
def Rel.holds : Rel → Ordering → Bool
  | .lt, o => o == .lt
  | .le, o => o != .gt
  | .gt, o => o == .gt
  | .ge, o => o != .lt

/-- Comparison of numbers by their exact values. Nothing holds for nan. -/
def Rel.num : Rel → F → F → Bool
  | .lt, x, y => x.lt y
  | .le, x, y => x.le y
  | .gt, x, y => y.lt x
  | .ge, x, y => y.le x

/-- The exact value of an integer. -/
def exact (n : Int) : F := .fin (n * 2 ^ 1074)

/-- Lexicographic order of bytes and text. -/
def Rel.text (r : Rel) (a b : List Nat) : Bool :=
  match r with
  | .lt => decide (a < b)
  | .le => decide (¬ b < a)
  | .gt => decide (b < a)
  | .ge => decide (¬ a < b)

def numEq (x y : F) : Bool := x.le y && y.le x

mutual
/-- `==` in Python. -/
def pyEq : Val → Val → Bool
  | .none, .none => true
  | .int a, .int b => decide (a = b)
  | .int a, .flt y => numEq (exact a) y
  | .flt x, .int b => numEq x (exact b)
  | .flt x, .flt y => numEq x y
  | .bytes a, .bytes b => decide (a = b)
  | .str a, .str b => decide (a = b)
  | .list a, .list b => pyEqs a b
  | .tup a, .tup b => pyEqs a b
  | _, _ => false
def pyEqs : List Val → List Val → Bool
  | [], [] => true
  | x :: xs, y :: ys => pyEq x y && pyEqs xs ys
  | _, _ => false
end

mutual
/-- `<`, `<=`, `>`, `>=` in Python: lists and tuples are compared at the first items that are not
equal. -/
def pyRel (r : Rel) : Val → Val → Except Err Bool
  | .int a, .int b => .ok (r.holds (compare a b))
  | .int a, .flt y => .ok (r.num (exact a) y)
  | .flt x, .int b => .ok (r.num x (exact b))
  | .flt x, .flt y => .ok (r.num x y)
  | .bytes a, .bytes b => .ok (r.text a b)
  | .str a, .str b => .ok (r.text a b)
  | .list a, .list b => pySeq r a b
  | .tup a, .tup b => pySeq r a b
  | _, _ => .error .type
def pySeq (r : Rel) : List Val → List Val → Except Err Bool
  | x :: xs, y :: ys => if pyEq x y then pySeq r xs ys else pyRel r x y
  | [], [] => .ok (r.holds .eq)
  | [], _ :: _ => .ok (r.holds .lt)
  | _ :: _, [] => .ok (r.holds .gt)
end

/-! ## The values for which the runtime agrees -/

/-- Integers of 64 bits, integral floats below `2 ^ 48`, bytes, text and lists of these. -/
inductive Fine : Val → Prop
  | int {n : Int} : -2 ^ 63 ≤ n → n < 2 ^ 63 → Fine (.int n)
  | flt {k : Int} : k.natAbs < 2 ^ 48 → Fine (.flt (exact k))
  | bytes (s : List Nat) : Fine (.bytes s)
  | str (s : List Nat) : Fine (.str s)
  | list {l : List Val} : (∀ x ∈ l, Fine x) → Fine (.list l)

/-- The same, or a tuple of them. -/
inductive Orderable : Val → Prop
  | fine {x : Val} : Fine x → Orderable x
  | tup {l : List Val} : (∀ x ∈ l, Fine x) → Orderable (.tup l)

/-- The integer a number stands for. -/
def num : Val → Option Int
  | .int n => some n
  | .flt (.fin z) => some (z / 2 ^ 1074)
  | _ => Option.none

def tcNum : Option Int → Option Int → Option Ordering
  | some a, some b => some (compare a b)
  | _, _ => Option.none

mutual
/-- Comparison of values, `none` where the types do not fit. -/
def tc : Val → Val → Option Ordering
  | .bytes a, .bytes b => some (cmp a b)
  | .str a, .str b => some (cmp a b)
  | .list a, .list b => tcs a b
  | .tup a, .tup b => tcs a b
  | x, y => tcNum (num x) (num y)
def tcs : List Val → List Val → Option Ordering
  | x :: xs, y :: ys =>
    match tc x y with
    | some .eq => tcs xs ys
    | o => o
  | [], [] => some .eq
  | [], _ :: _ => some .lt
  | _ :: _, [] => some .gt
end

/-! ### Text -/

theorem cmp_lt : ∀ (a b : List Nat), cmp a b = .lt ↔ a < b
  | [], [] => by simp [cmp]
  | [], _ :: _ => by simp [cmp]
  | _ :: _, [] => by simp [cmp]
  | x :: xs, y :: ys => by
    have ih := cmp_lt xs ys
    rw [List.cons_lt_cons_iff]
    simp only [cmp]
    by_cases h : x < y
    · simp [h]
    · rw [if_neg h]
      by_cases h' : y < x
      · have : x ≠ y := by omega
        simp [h', h, this]
      · have : x = y := by omega
        simp [h', ih, this]

theorem cmp_swap : ∀ (a b : List Nat), cmp b a = (cmp a b).swap
  | [], [] => rfl
  | [], _ :: _ => rfl
  | _ :: _, [] => rfl
  | x :: xs, y :: ys => by
    simp only [cmp]
    by_cases h : x < y
    · have : ¬ y < x := by omega
      simp [h, this]
    · by_cases h' : y < x
      · simp [h, h']
      · simp [h, h', cmp_swap xs ys]

theorem cmp_eq : ∀ (a b : List Nat), cmp a b = .eq ↔ a = b
  | [], [] => by simp [cmp]
  | [], _ :: _ => by simp [cmp]
  | _ :: _, [] => by simp [cmp]
  | x :: xs, y :: ys => by
    simp only [cmp]
    by_cases h : x < y
    · have : x ≠ y := by omega
      simp [h, this]
    · by_cases h' : y < x
      · have : x ≠ y := by omega
        simp [h, h', this]
      · have : x = y := by omega
        simp [this, cmp_eq xs ys]

theorem text_holds (r : Rel) (a b : List Nat) : r.text a b = r.holds (cmp a b) := by
  have h1 := cmp_lt a b
  have h2 := cmp_lt b a
  rw [cmp_swap a b] at h2
  cases r <;> simp only [Rel.text, Rel.holds, ← h1, ← h2] <;> cases cmp a b <;> rfl

/-! ### Numbers -/

theorem scale_pos : (0 : Int) < 2 ^ 1074 := by positivity

theorem exact_lt (a b : Int) : (exact a).lt (exact b) = decide (a < b) := by
  simp only [exact, F.lt, decide_eq_decide]
  exact Int.mul_lt_mul_right scale_pos

theorem exact_le (a b : Int) : (exact a).le (exact b) = decide (a ≤ b) := by
  simp only [exact, F.le, decide_eq_decide]
  exact Int.mul_le_mul_right scale_pos

theorem num_exact (k : Int) : num (.flt (exact k)) = some k := by
  simp only [num, exact]
  rw [Int.mul_ediv_cancel _ (by positivity)]

theorem ofInt_exact {k : Int} (h : k.natAbs < 2 ^ 53) : ofInt k = exact k := HashEq.ofInt_small h

/-- Conversion of a 64-bit integer to double does not pass a small integer. -/
theorem ofInt_cmp {n k : Int} (hn : n.natAbs ≤ 2 ^ 63) (hk : k.natAbs < 2 ^ 48) :
    (ofInt n).lt (exact k) = decide (n < k) ∧ (exact k).lt (ofInt n) = decide (k < n) := by
  by_cases h : n.natAbs < 2 ^ 53
  · rw [ofInt_exact h, exact_lt, exact_lt]
    exact ⟨rfl, rfl⟩
  · have e : (n * 2 ^ 1074 : Int).natAbs = n.natAbs * 2 ^ 1074 := by
      rw [Int.natAbs_mul, Int.natAbs_pow]; rfl
    have hfin : HashEq.round53 (n * 2 ^ 1074 : Int).natAbs < 2 ^ 2098 := by
      rw [e]
      refine Nat.lt_of_le_of_lt (HashEq.round53_le (HashEq.rep_pow (63 + 1074))
        (Nat.le_trans (Nat.mul_le_mul_right _ hn) (Nat.le_of_eq (pow_add 2 63 1074).symm))) ?_
      exact Nat.pow_lt_pow_right (by omega) (by omega)
    have hlow : 2 ^ 53 * 2 ^ 1074 ≤ HashEq.round53 (n * 2 ^ 1074 : Int).natAbs := by
      rw [e]
      refine HashEq.le_round53 ?_ (Nat.mul_le_mul_right _ (by omega))
      rw [← Nat.pow_add]
      exact HashEq.rep_pow _
    have eU : ((2 ^ 1074 : Nat) : Int) = 2 ^ 1074 := by rw [Int.natCast_pow, Nat.cast_ofNat]
    have sp := scale_pos
    have hk' : k.natAbs * 2 ^ 1074 ≤ 2 ^ 48 * 2 ^ 1074 := Nat.mul_le_mul_right _ (by omega)
    have ek : (k * 2 ^ 1074 : Int).natAbs = k.natAbs * 2 ^ 1074 := by
      rw [Int.natAbs_mul, Int.natAbs_pow]; rfl
    have hs : (n * 2 ^ 1074 : Int) < 0 ↔ n < 0 := by
      constructor
      · intro h'
        by_contra hc
        have := Int.mul_nonneg (show (0 : Int) ≤ n by omega) (Int.le_of_lt sp)
        omega
      · intro h'
        exact Int.mul_neg_of_neg_of_pos h' sp
    unfold ofInt
    rw [HashEq.toF_fin hfin]
    simp only [exact, F.lt, decide_eq_decide]
    have pU : 0 < (2 ^ 1074 : Nat) := Nat.two_pow_pos _
    generalize hN : (n * 2 ^ 1074 : Int) = N at *
    generalize hK : (k * 2 ^ 1074 : Int) = Kk at *
    generalize HashEq.round53 N.natAbs = r at *
    generalize (2 ^ 1074 : Nat) = U at *
    by_cases hneg : n < 0
    · rw [if_pos (hs.2 hneg)]
      constructor <;> constructor <;> intro _ <;> omega
    · rw [if_neg (fun hh => hneg (hs.1 hh))]
      constructor <;> constructor <;> intro _ <;> omega

theorem almost_exact {n k : Int} (hn : n.natAbs ≤ 2 ^ 63) (hk : k.natAbs < 2 ^ 48) :
    almostEq (ofInt n) (exact k) = decide (n = k) := by
  rw [Bool.eq_iff_iff, decide_eq_true_eq]
  exact HashEq.almost_small hn hk

/-! ### Comparison as one function -/

/-- What a relation makes of a comparison. -/
def res (r : Rel) : Option Ordering → Except Err Bool
  | Option.none => .error .type
  | some o => .ok (r.holds o)

theorem tc_int_int (a b : Int) : tc (.int a) (.int b) = some (compare a b) := by
  simp only [tc, num, tcNum]

theorem tc_int_flt (a k : Int) : tc (.int a) (.flt (exact k)) = some (compare a k) := by
  simp only [tc, num_exact]
  rfl

theorem tc_flt_int (a k : Int) : tc (.flt (exact k)) (.int a) = some (compare k a) := by
  simp only [tc, num_exact]
  rfl

theorem tc_flt_flt (a b : Int) : tc (.flt (exact a)) (.flt (exact b)) = some (compare a b) := by
  simp only [tc, num_exact, tcNum]

theorem swap_compare (a b : Int) : compare b a = (compare a b).swap := by
  simp only [compare, compareOfLessAndEq]
  by_cases h : a < b
  · have h1 : ¬ b < a := by omega
    have h2 : b ≠ a := by omega
    simp [h, h1, h2]
  · by_cases h' : a = b
    · simp [h']
    · have h1 : b < a := by omega
      simp [h, h', h1]

theorem tcNum_swap (a b : Option Int) : tcNum b a = (tcNum a b).map Ordering.swap := by
  cases a <;> cases b <;> simp only [tcNum, Option.map]
  rw [swap_compare]

mutual
theorem tc_swap (x y : Val) : tc y x = (tc x y).map Ordering.swap := by
  cases x <;> cases y <;>
    first
    | (simp only [tc]; exact tcNum_swap _ _)
    | (simp only [tc, Option.map]; rw [cmp_swap])
    | (simp only [tc]; exact tcs_swap _ _)
termination_by sizeOf x + sizeOf y
theorem tcs_swap : ∀ (xs ys : List Val), tcs ys xs = (tcs xs ys).map Ordering.swap
  | x :: xs, y :: ys => by
    simp only [tcs]
    rw [tc_swap x y]
    rcases tc x y with _ | _ | _ | _
    · rfl
    · rfl
    · exact tcs_swap xs ys
    · rfl
  | [], [] => by simp [tcs]
  | [], _ :: _ => by simp [tcs]
  | _ :: _, [] => by simp [tcs]
termination_by xs ys => sizeOf xs + sizeOf ys
end

theorem int_trans {a b c : Int} {o p : Ordering} (h1 : compare a b = o) (h2 : compare b c = p)
    (h : o = .eq ∨ p = .eq ∨ o = p) : compare a c = o.then p := by
  have L : ∀ u v : Int, compare u v = .lt ↔ u < v := fun u v => compare_lt_iff_lt
  have E : ∀ u v : Int, compare u v = .eq ↔ u = v := fun u v => compare_eq_iff_eq
  have G : ∀ u v : Int, compare u v = .gt ↔ v < u := fun u v => compare_gt_iff_gt
  cases o <;> cases p <;> simp only [L, E, G, Ordering.then, reduceCtorEq, or_self] at * <;> omega

theorem cmp_trans : ∀ {a b c : List Nat} {o p : Ordering}, cmp a b = o → cmp b c = p →
    (o = .eq ∨ p = .eq ∨ o = p) → cmp a c = o.then p
  | [], [], [], _, _, h1, h2, _ => by subst h1 h2; rfl
  | [], [], _ :: _, _, _, h1, h2, _ => by subst h1 h2; rfl
  | [], _ :: _, [], _, _, h1, h2, h => by subst h1 h2; simp [cmp] at h
  | [], _ :: _, _ :: _, _, _, h1, _, _ => by subst h1; rfl
  | _ :: _, [], [], _, _, h1, h2, _ => by subst h1 h2; rfl
  | _ :: _, [], _ :: _, _, _, h1, h2, h => by subst h1 h2; simp [cmp] at h
  | x :: xs, y :: ys, [], o, p, h1, h2, h => by
    simp only [cmp] at h2 ⊢
    subst h2
    rcases o with _ | _ | _
    · simp at h
    · rfl
    · rfl
  | x :: xs, y :: ys, z :: zs, o, p, h1, h2, h => by
    simp only [cmp] at h1 h2 ⊢
    by_cases a1 : x < y
    · simp only [a1, if_true] at h1
      subst h1
      have hz : x < z := by
        by_cases b1 : y < z
        · omega
        · by_cases b2 : z < y
          · simp only [b1, b2, if_true, if_false] at h2
            subst h2
            simp at h
          · omega
      simp [hz, Ordering.then]
    · by_cases a2 : y < x
      · simp only [a1, a2, if_true, if_false] at h1
        subst h1
        have hz : z < x := by
          by_cases b1 : y < z
          · simp only [b1, if_true] at h2
            subst h2
            simp at h
          · omega
        have hz' : ¬ x < z := by omega
        simp [hz, hz', Ordering.then]
      · have e : x = y := by omega
        subst e
        simp only [a1, if_false] at h1
        by_cases b1 : x < z
        · simp only [b1, if_true] at h2 ⊢
          subst h2
          rcases o with _ | _ | _
          · rfl
          · rfl
          · simp at h
        · by_cases b2 : z < x
          · simp only [b1, b2, if_true, if_false] at h2 ⊢
            subst h2
            rcases o with _ | _ | _
            · simp at h
            · rfl
            · rfl
          · simp only [b1, b2, if_false] at h2 ⊢
            exact cmp_trans h1 h2 h

theorem tcNum_trans {a b c : Option Int} {o p : Ordering} (h1 : tcNum a b = some o)
    (h2 : tcNum b c = some p) (h : o = .eq ∨ p = .eq ∨ o = p) : tcNum a c = some (o.then p) := by
  cases a <;> cases b <;> cases c <;> simp only [tcNum, Option.some.injEq, reduceCtorEq] at *
  exact int_trans h1 h2 h

mutual
theorem tc_trans (x y z : Val) (o p : Ordering) (h1 : tc x y = some o) (h2 : tc y z = some p)
    (h : o = .eq ∨ p = .eq ∨ o = p) : tc x z = some (o.then p) := by
  cases x <;> cases y <;> cases z <;> simp only [tc] at h1 h2 ⊢ <;>
    first
    | exact tcNum_trans h1 h2 h
    | (simp [num, tcNum] at h1; done)
    | (simp [num, tcNum] at h2; done)
    | (rw [cmp_trans (Option.some.inj h1) (Option.some.inj h2) h])
    | (exact tcs_trans _ _ _ _ _ h1 h2 h)
termination_by sizeOf x
theorem tcs_trans : ∀ (xs ys zs : List Val) (o p : Ordering), tcs xs ys = some o →
    tcs ys zs = some p → (o = .eq ∨ p = .eq ∨ o = p) → tcs xs zs = some (o.then p)
  | [], [], [], o, p, h1, h2, _ => by
    simp only [tcs, Option.some.injEq] at h1 h2 ⊢; subst h1 h2; rfl
  | [], [], _ :: _, o, p, h1, h2, _ => by
    simp only [tcs, Option.some.injEq] at h1 h2 ⊢; subst h1 h2; rfl
  | [], _ :: _, [], o, p, h1, h2, h => by
    simp only [tcs, Option.some.injEq] at h1 h2 ⊢; subst h1 h2; simp at h
  | [], _ :: _, _ :: _, o, p, h1, _, _ => by
    simp only [tcs, Option.some.injEq] at h1 ⊢; subst h1; rfl
  | _ :: _, [], [], o, p, h1, h2, _ => by
    simp only [tcs, Option.some.injEq] at h1 h2 ⊢; subst h1 h2; rfl
  | _ :: _, [], _ :: _, o, p, h1, h2, h => by
    simp only [tcs, Option.some.injEq] at h1 h2 ⊢; subst h1 h2; simp at h
  | _ :: _, _ :: _, [], o, p, h1, h2, h => by
    simp only [tcs, Option.some.injEq] at h2 ⊢
    subst h2
    rcases o with _ | _ | _
    · simp at h
    · rfl
    · rfl
  | x :: xs, y :: ys, z :: zs, o, p, h1, h2, h => by
    simp only [tcs] at h1 h2 ⊢
    cases e1 : tc x y with
    | none => rw [e1] at h1; cases h1
    | some a =>
      cases e2 : tc y z with
      | none => rw [e2] at h2; cases h2
      | some b =>
        rw [e1] at h1
        rw [e2] at h2
        have key := tc_trans x y z a b e1 e2
        cases a <;> cases b <;> simp only [Option.some.injEq] at h1 h2 <;> simp only [reduceCtorEq, or_true, true_or, or_false, forall_const, Ordering.then] at key
        all_goals first
          | (subst h1 h2; simp at h; done)
          | (rw [key]; exact tcs_trans xs ys zs o p h1 h2 h)
          | (rw [key]; subst h1; first | rfl | (subst h2; rfl))
          | (rw [key]; subst h2; rcases o with _ | _ | _ <;> first | rfl | (simp at h; done))
termination_by xs => sizeOf xs
end

/-! ### The runtime -/

theorem holds_compare (r : Rel) (a b : Int) : r.holds (compare a b) = r.num (exact a) (exact b) := by
  have L := @compare_lt_iff_lt Int _ a b
  have G := @compare_gt_iff_gt Int _ a b
  cases r <;> simp only [Rel.holds, Rel.num, exact_lt, exact_le] <;> rw [Bool.eq_iff_iff] <;>
    simp only [beq_iff_eq, bne_iff_ne, decide_eq_true_eq, ne_eq, L, G] <;> omega

theorem fine_int {n : Int} (h : Fine (.int n)) : n.natAbs ≤ 2 ^ 63 := by
  cases h; omega

theorem small53 {k : Int} (h : k.natAbs < 2 ^ 48) : k.natAbs < 2 ^ 53 := by omega

theorem small63 {k : Int} (h : k.natAbs < 2 ^ 48) : k.natAbs ≤ 2 ^ 63 := by omega

theorem decide_holds_gt (a b : Int) : decide (b < a) = Rel.gt.holds (compare a b) := by
  rw [holds_compare]; exact (exact_lt b a).symm

theorem decide_holds_ge (a b : Int) : decide (b ≤ a) = Rel.ge.holds (compare a b) := by
  rw [holds_compare]; exact (exact_le b a).symm

theorem cmp_holds_gt (a b : List Nat) : (cmp b a == .lt) = Rel.gt.holds (cmp a b) := by
  rw [cmp_swap a b]; cases cmp a b <;> rfl

theorem cmp_holds_ge (a b : List Nat) : (!(cmp a b == .lt)) = Rel.ge.holds (cmp a b) := by
  cases cmp a b <;> rfl

mutual
theorem gt_tc {x y : Val} (hx : Fine x) (hy : Fine y) : gt x y = res .gt (tc x y) := by
  cases x <;> cases y
  case int.int a b => simp only [gt, tc_int_int, res, decide_holds_gt]
  case int.flt a f =>
    cases hy with
    | flt hk => rw [tc_int_flt]; simp only [gt, res, (ofInt_cmp (fine_int hx) hk).2, decide_holds_gt]
  case flt.int f a =>
    cases hx with
    | flt hk => rw [tc_flt_int]; simp only [gt, res, (ofInt_cmp (fine_int hy) hk).1, decide_holds_gt]
  case flt.flt f g =>
    cases hx with
    | flt hk =>
      cases hy with
      | flt hk' => rw [tc_flt_flt]; simp only [gt, res, exact_lt, decide_holds_gt]
  case bytes.bytes a b => simp only [gt, tc, res, cmp_holds_gt]
  case str.str a b => simp only [gt, tc, res, cmp_holds_gt]
  case list.list a b =>
    simp only [gt, tc]
    cases hx with
    | list ha => cases hy with | list hb => exact seq_tcs false a b ha hb
  all_goals first
    | (cases hx; done)
    | (cases hy; done)
    | (simp only [gt, tc, num, tcNum, res]; done)
    | (cases hx; simp only [gt, tc, num, tcNum, res]; rfl)
    | (cases hy; simp only [gt, tc, num, tcNum, res]; rfl)
termination_by sizeOf x + sizeOf y
theorem seq_tcs (orEq : Bool) : ∀ (xs ys : List Val), (∀ x ∈ xs, Fine x) → (∀ y ∈ ys, Fine y) →
    seq orEq xs ys = res (if orEq then .ge else .gt) (tcs xs ys)
  | [], [], _, _ => by cases orEq <;> simp [seq, tcs, res, Rel.holds]
  | [], _ :: _, _, _ => by cases orEq <;> simp [seq, tcs, res, Rel.holds]
  | _ :: _, [], _, _ => by cases orEq <;> simp [seq, tcs, res, Rel.holds]
  | x :: xs, y :: ys, hx, hy => by
    simp only [seq, tcs]
    have fx := hx x (by simp)
    have fy := hy y (by simp)
    rw [gt_tc fx fy, gt_tc fy fx, tc_swap x y]
    rcases tc x y with _ | _ | _ | _
    · cases orEq <;> rfl
    · cases orEq <;> rfl
    · exact seq_tcs orEq xs ys (fun z hz => hx z (by simp [hz])) (fun z hz => hy z (by simp [hz]))
    · cases orEq <;> rfl
termination_by xs ys => sizeOf xs + sizeOf ys
end

theorem res_not (r s : Rel) (h : ∀ o, s.holds o = !r.holds o) (t : Option Ordering) :
    (res r t).map (!·) = res s t := by
  cases t with
  | none => rfl
  | some o => simp only [res, Except.map, h]

theorem ge_tc {x y : Val} (hx : Orderable x) (hy : Orderable y) : ge x y = res .ge (tc x y) := by
  cases hx with
  | tup ha =>
    cases hy with
    | tup hb => simp only [ge, tc]; exact seq_tcs true _ _ ha hb
    | fine hy => cases hy <;> simp only [ge, tc, num, tcNum, res]
  | fine hx =>
    cases hy with
    | tup hb =>
      cases hx <;>
        first
        | (simp only [ge, tc, num, tcNum, res]; done)
        | (simp only [ge, tc, num, tcNum, res]; rfl)
    | fine hy =>
      rcases x with _ | a | f | a | a | a | a | _ <;> rcases y with _ | b | g | b | b | b | b | _
      case int.int => simp only [ge, tc_int_int, res, decide_holds_ge]
      case int.flt =>
        cases hy with
        | flt hk =>
          rw [tc_int_flt]
          simp only [ge, res, (ofInt_cmp (fine_int hx) hk).2, almost_exact (fine_int hx) hk,
            ← decide_holds_ge]
          congr 1
          rw [Bool.eq_iff_iff]
          simp only [Bool.or_eq_true, decide_eq_true_eq]
          omega
      case flt.int =>
        cases hx with
        | flt hk =>
          rw [tc_flt_int]
          simp only [ge, res, (ofInt_cmp (fine_int hy) hk).1, HashEq.almostEq_comm (exact _),
            almost_exact (fine_int hy) hk, ← decide_holds_ge]
          congr 1
          rw [Bool.eq_iff_iff]
          simp only [Bool.or_eq_true, decide_eq_true_eq]
          omega
      case flt.flt =>
        cases hx with
        | flt hk =>
          cases hy with
          | flt hk' =>
            rename_i k k'
            rw [tc_flt_flt]
            simp only [ge, res, exact_lt, ← decide_holds_ge]
            rw [← ofInt_exact (small53 hk), almost_exact (small63 hk) hk']
            congr 1
            rw [Bool.eq_iff_iff]
            simp only [Bool.or_eq_true, decide_eq_true_eq]
            omega
      case bytes.bytes => simp only [ge, tc, res, cmp_holds_ge]
      case str.str => simp only [ge, tc, res, cmp_holds_ge]
      case list.list =>
        simp only [ge, tc]
        cases hx with
        | list ha => cases hy with | list hb => exact seq_tcs true a b ha hb
      all_goals first
        | (cases hx; done)
        | (cases hy; done)
        | (simp only [ge, tc, num, tcNum, res]; done)
        | (cases hx; simp only [ge, tc, num, tcNum, res]; rfl)
        | (cases hy; simp only [ge, tc, num, tcNum, res]; rfl)

theorem lt_tc {x y : Val} (hx : Orderable x) (hy : Orderable y) : lt x y = res .lt (tc x y) := by
  unfold lt
  rw [ge_tc hx hy]
  exact res_not _ _ (fun o => by cases o <;> rfl) _

theorem le_tc {x y : Val} (hx : Fine x) (hy : Fine y) : le x y = res .le (tc x y) := by
  unfold le
  rw [gt_tc hx hy]
  exact res_not _ _ (fun o => by cases o <;> rfl) _

/-! ### Python -/

mutual
theorem pyEq_tc {x y : Val} (hx : Fine x) (hy : Fine y) : pyEq x y = (tc x y == some .eq) := by
  have E : ∀ u v : Int, decide (u = v) = (some (compare u v) == some Ordering.eq) := by
    intro u v
    rw [Bool.eq_iff_iff]
    simp
  have N : ∀ u v : Int, numEq (exact u) (exact v) = decide (u = v) := by
    intro u v
    simp only [numEq, exact_le]
    rw [Bool.eq_iff_iff]
    simp only [Bool.and_eq_true, decide_eq_true_eq]
    omega
  have T : ∀ u v : List Nat, decide (u = v) = (some (cmp u v) == some Ordering.eq) := by
    intro u v
    rw [Bool.eq_iff_iff]
    simp [cmp_eq]
  cases x <;> cases y
  case int.int => simp only [pyEq, tc_int_int, E]
  case int.flt => cases hy; rw [tc_int_flt]; simp only [pyEq, N, E]
  case flt.int => cases hx; rw [tc_flt_int]; simp only [pyEq, N, E]
  case flt.flt => cases hx; cases hy; rw [tc_flt_flt]; simp only [pyEq, N, E]
  case bytes.bytes => simp only [pyEq, tc, T]
  case str.str => simp only [pyEq, tc, T]
  case list.list a b =>
    simp only [pyEq, tc]
    cases hx with
    | list ha => cases hy with | list hb => exact pyEqs_tcs a b ha hb
  all_goals first
    | (cases hx; done)
    | (cases hy; done)
    | (simp only [pyEq, tc, num, tcNum]; rfl)
    | (cases hx; simp only [pyEq, tc, num, tcNum]; rfl)
    | (cases hy; simp only [pyEq, tc, num, tcNum]; rfl)
termination_by sizeOf x + sizeOf y
theorem pyEqs_tcs : ∀ (xs ys : List Val), (∀ x ∈ xs, Fine x) → (∀ y ∈ ys, Fine y) →
    pyEqs xs ys = (tcs xs ys == some .eq)
  | [], [], _, _ => by simp [pyEqs, tcs]
  | [], _ :: _, _, _ => by simp [pyEqs, tcs]
  | _ :: _, [], _, _ => by simp [pyEqs, tcs]
  | x :: xs, y :: ys, hx, hy => by
    simp only [pyEqs, tcs]
    rw [pyEq_tc (hx x (by simp)) (hy y (by simp)),
      pyEqs_tcs xs ys (fun z hz => hx z (by simp [hz])) (fun z hz => hy z (by simp [hz]))]
    rcases tc x y with _ | _ | _ | _ <;> simp
termination_by xs ys => sizeOf xs + sizeOf ys
end

mutual
theorem pyRel_tc (r : Rel) {x y : Val} (hx : Fine x) (hy : Fine y) :
    pyRel r x y = res r (tc x y) := by
  cases x <;> cases y
  case int.int => simp only [pyRel, tc_int_int, res]
  case int.flt => cases hy; rw [tc_int_flt]; simp only [pyRel, res, holds_compare]
  case flt.int => cases hx; rw [tc_flt_int]; simp only [pyRel, res, holds_compare]
  case flt.flt => cases hx; cases hy; rw [tc_flt_flt]; simp only [pyRel, res, holds_compare]
  case bytes.bytes => simp only [pyRel, tc, res, text_holds]
  case str.str => simp only [pyRel, tc, res, text_holds]
  case list.list a b =>
    simp only [pyRel, tc]
    cases hx with
    | list ha => cases hy with | list hb => exact pySeq_tcs r a b ha hb
  all_goals first
    | (cases hx; done)
    | (cases hy; done)
    | (simp only [pyRel, tc, num, tcNum, res]; done)
    | (cases hx; simp only [pyRel, tc, num, tcNum, res]; rfl)
    | (cases hy; simp only [pyRel, tc, num, tcNum, res]; rfl)
termination_by sizeOf x + sizeOf y
theorem pySeq_tcs (r : Rel) : ∀ (xs ys : List Val), (∀ x ∈ xs, Fine x) → (∀ y ∈ ys, Fine y) →
    pySeq r xs ys = res r (tcs xs ys)
  | [], [], _, _ => by simp only [pySeq, tcs, res]
  | [], _ :: _, _, _ => by simp only [pySeq, tcs, res]
  | _ :: _, [], _, _ => by simp only [pySeq, tcs, res]
  | x :: xs, y :: ys, hx, hy => by
    have fx := hx x (by simp)
    have fy := hy y (by simp)
    simp only [pySeq, tcs]
    rw [pyEq_tc fx fy, pyRel_tc r fx fy,
      pySeq_tcs r xs ys (fun z hz => hx z (by simp [hz])) (fun z hz => hy z (by simp [hz]))]
    rcases tc x y with _ | _ | _ | _ <;> simp
termination_by xs ys => sizeOf xs + sizeOf ys
end

theorem pyRel_tc' (r : Rel) {x y : Val} (hx : Orderable x) (hy : Orderable y) :
    pyRel r x y = res r (tc x y) := by
  cases hx with
  | tup ha =>
    cases hy with
    | tup hb => simp only [pyRel, tc]; exact pySeq_tcs r _ _ ha hb
    | fine hy => cases hy <;> simp only [pyRel, tc, num, tcNum, res]
  | fine hx =>
    cases hy with
    | tup hb =>
      cases hx <;>
        first
        | (simp only [pyRel, tc, num, tcNum, res]; done)
        | (simp only [pyRel, tc, num, tcNum, res]; rfl)
    | fine hy => exact pyRel_tc r hx hy

end Verif.Order
