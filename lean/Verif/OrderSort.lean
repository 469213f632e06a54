import Verif.OrderProps

/-!
# Comparisons, sorting, minimum and maximum of runtime values -/

namespace Verif.Order
open HashEq (F ofInt almostEq toF)

/-! ## The four relations -/

/-- C106: `<` is Python's, with its exceptions. -/
theorem lt_agrees_partial {x y : Val} (hx : Orderable x) (hy : Orderable y) :
    lt x y = pyRel .lt x y := by rw [lt_tc hx hy, pyRel_tc' .lt hx hy]

/-- C106: `>=` is Python's. -/
theorem ge_agrees_partial {x y : Val} (hx : Orderable x) (hy : Orderable y) :
    ge x y = pyRel .ge x y := by rw [ge_tc hx hy, pyRel_tc' .ge hx hy]

/-- C106: `>` is Python's except on tuples. -/
theorem gt_agrees_partial {x y : Val} (hx : Fine x) (hy : Fine y) : gt x y = pyRel .gt x y := by
  rw [gt_tc hx hy, pyRel_tc .gt hx hy]

/-- C106: `<=` is Python's except on tuples. -/
theorem le_agrees_partial {x y : Val} (hx : Fine x) (hy : Fine y) : le x y = pyRel .le x y := by
  rw [le_tc hx hy, pyRel_tc .le hx hy]

/-- `[1, [2.0, b"a"]] < [1.0, [2, b"b"]]`. -/
example : lt (.list [.int 1, .list [.flt (exact 2), .bytes [97]]])
    (.list [.flt (exact 1), .list [.int 2, .bytes [98]]]) = .ok true := by
  rw [lt_tc]
  · rw [tc, tcs, tc_int_flt]
    simp only [compare, compareOfLessAndEq]
    simp only [tc, tcs, num_exact, cmp]
    rfl
  · refine .fine (.list ?_)
    intro x hx
    simp only [List.mem_cons, List.not_mem_nil, or_false] at hx
    rcases hx with rfl | rfl
    · exact .int (by omega) (by omega)
    · refine .list ?_
      intro x hx
      simp only [List.mem_cons, List.not_mem_nil, or_false] at hx
      rcases hx with rfl | rfl
      · exact .flt (by decide)
      · exact .bytes _
  · refine .fine (.list ?_)
    intro x hx
    simp only [List.mem_cons, List.not_mem_nil, or_false] at hx
    rcases hx with rfl | rfl
    · exact .flt (by decide)
    · refine .list ?_
      intro x hx
      simp only [List.mem_cons, List.not_mem_nil, or_false] at hx
      rcases hx with rfl | rfl
      · exact .int (by omega) (by omega)
      · exact .bytes _

/-- C106: on tuples `>` is Python's `>=` and `<=` is Python's `<`. -/
theorem tuple_gt_is_ge {a b : List Val} (ha : ∀ x ∈ a, Fine x) (hb : ∀ x ∈ b, Fine x) :
    gt (.tup a) (.tup b) = pyRel .ge (.tup a) (.tup b) ∧
    le (.tup a) (.tup b) = pyRel .lt (.tup a) (.tup b) := by
  have e : gt (.tup a) (.tup b) = res .ge (tcs a b) := by
    simp only [gt]; exact seq_tcs true a b ha hb
  have p : ∀ r, pyRel r (.tup a) (.tup b) = res r (tcs a b) := by
    intro r; simp only [pyRel]; exact pySeq_tcs r a b ha hb
  refine ⟨by rw [e, p], ?_⟩
  unfold le
  rw [e, p]
  exact res_not _ _ (fun o => by cases o <;> rfl) _

theorem tc_refl_tuple {l : List Val} (h : ∀ x ∈ l, Fine x) : tcs l l = some .eq := by
  have key : ∀ x : Val, Fine x → tc x x = some .eq := by
    intro x hx
    induction hx with
    | int => rw [tc_int_int]; simp
    | flt => rw [tc_flt_flt]; simp
    | bytes s => simp [tc, (cmp_eq s s).2]
    | str s => simp [tc, (cmp_eq s s).2]
    | @list l hl ih =>
      simp only [tc]
      clear hl h
      induction l with
      | nil => simp [tcs]
      | cons y ys ih' =>
        simp only [tcs]
        rw [ih y (by simp)]
        exact ih' (fun z hz => ih z (by simp [hz]))
  induction l with
  | nil => simp [tcs]
  | cons y ys ih =>
    simp only [tcs]
    rw [key y (h y (by simp))]
    exact ih (fun z hz => h z (by simp [hz]))

/-- C106, false: every tuple is greater than itself and not less or equal. -/
theorem tuple_gt_self_refuted {l : List Val} (h : ∀ x ∈ l, Fine x) :
    gt (.tup l) (.tup l) = .ok true ∧ le (.tup l) (.tup l) = .ok false ∧
    pyRel .gt (.tup l) (.tup l) = .ok false ∧ pyRel .le (.tup l) (.tup l) = .ok true := by
  obtain ⟨h1, h2⟩ := tuple_gt_is_ge h h
  have p : ∀ r, pyRel r (.tup l) (.tup l) = .ok (r.holds .eq) := by
    intro r; simp only [pyRel]; rw [pySeq_tcs r l l h h, tc_refl_tuple h]; rfl
  exact ⟨by rw [h1, p]; rfl, by rw [h2, p]; rfl, by rw [p]; rfl, by rw [p]; rfl⟩

/-- C106, false: after equal tuples in first place the other items are not looked at, so that of two
lists neither is less than the other, whatever follows. -/
theorem nested_tuple_refuted {l : List Val} (h : ∀ x ∈ l, Fine x) (xs ys : List Val) :
    lt (.list (.tup l :: xs)) (.list (.tup l :: ys)) = .ok false ∧
    lt (.list (.tup l :: ys)) (.list (.tup l :: xs)) = .ok false := by
  have e := (tuple_gt_self_refuted h).1
  constructor <;> simp only [lt, ge, seq, e] <;> rfl

/-- Python finds `[(1,), 2]` less than `[(1,), 3]`. -/
example : pyRel .lt (.list [.tup [.int 1], .int 2]) (.list [.tup [.int 1], .int 3]) =
    .ok true := by
  simp only [pyRel, pySeq, pyEq, pyEqs]; rfl

/-- C106, false: `None` in first place of two lists makes every comparison throw; Python skips equal
items. -/
theorem none_items_refuted (xs ys : List Val) :
    lt (.list (.none :: xs)) (.list (.none :: ys)) = .error .type ∧
    gt (.list (.none :: xs)) (.list (.none :: ys)) = .error .type ∧
    ∀ r, pyRel r (.list (.none :: xs)) (.list (.none :: ys)) = pyRel r (.list xs) (.list ys) := by
  refine ⟨?_, ?_, ?_⟩
  · simp only [lt, ge, seq, gt]; rfl
  · simp only [seq, gt]
  · intro r
    simp only [pyRel, pySeq, pyEq, if_true]

/-- C106, false: a list known to be a list is less than everything that is no list; Python raises. -/
theorem typed_list_refuted (a : List Val) (y : Val) (h : ∀ b, y ≠ .list b) :
    ltList a y = .ok true ∧ leList a y = .ok true ∧ lt (.list a) y = .error .type ∧
    pyRel .lt (.list a) y = .error .type := by
  cases y
  case list b => exact absurd rfl (h b)
  all_goals
    exact ⟨rfl, rfl, by simp only [lt, ge]; rfl, by simp only [pyRel]⟩

/-- Against a list the result is that of two lists. -/
theorem typed_list_agrees (a b : List Val) :
    ltList a (.list b) = lt (.list a) (.list b) ∧ leList a (.list b) = le (.list a) (.list b) ∧
    gtList a (.list b) = gt (.list a) (.list b) ∧ geList a (.list b) = ge (.list a) (.list b) := by
  refine ⟨?_, ?_, ?_, ?_⟩
  · simp only [ltList, geList, lt, ge]
  · simp only [leList, gtList, le, gt]
  · simp only [gtList, gt]
  · simp only [geList, ge]

/-! ## All numbers -/

/-- C107: integers are compared exactly, and so is `>` on any two doubles. -/
theorem exact_comparisons (r : Rel) (a b : Int) (x y : F) :
    pyRel .gt (.flt x) (.flt y) = gt (.flt x) (.flt y) ∧
    pyRel r (.int a) (.int b) =
      (match r with
        | .lt => lt (.int a) (.int b)
        | .le => le (.int a) (.int b)
        | .gt => gt (.int a) (.int b)
        | .ge => ge (.int a) (.int b)) := by
  refine ⟨by simp only [pyRel, gt, Rel.num], ?_⟩
  have e : gt (.int a) (.int b) = res .gt (some (compare a b)) := by
    simp only [gt, res, decide_holds_gt]
  have e' : ge (.int a) (.int b) = res .ge (some (compare a b)) := by
    simp only [ge, res, decide_holds_ge]
  cases r
  · simp only [lt, e', pyRel]
    rw [res_not .ge .lt (fun o => by cases o <;> rfl)]; rfl
  · simp only [le, e, pyRel]
    rw [res_not .gt .le (fun o => by cases o <;> rfl)]; rfl
  · simp only [e, pyRel]; rfl
  · simp only [e', pyRel]; rfl

/-- C107: `<=` on doubles is Python's unless one is nan. -/
theorem float_le_partial {x y : F} (hx : x ≠ .nan) (hy : y ≠ .nan) :
    le (.flt x) (.flt y) = pyRel .le (.flt x) (.flt y) := by
  rcases x with a | a | _ <;> rcases y with b | b | _ <;>
    simp only [le, gt, pyRel, Rel.num, Except.map, F.lt, F.le]
  · refine congrArg _ ?_
    rw [Bool.eq_iff_iff]
    simp
  all_goals
    first
    | exact absurd rfl hy
    | exact absurd rfl hx
    | (cases a <;> cases b <;> rfl)
    | (cases a <;> rfl)
    | (cases b <;> rfl)

/-- C107: `<` on finite doubles: Python's, unless they are so close that they count as equal. -/
theorem float_lt_partial (x y : Int) :
    lt (.flt (.fin x)) (.flt (.fin y)) =
      .ok (decide (x < y) && !almostEq (.fin x) (.fin y)) ∧
    ge (.flt (.fin x)) (.flt (.fin y)) =
      .ok (decide (y ≤ x) || almostEq (.fin x) (.fin y)) := by
  have hne : almostEq (.fin x) (.fin y) = false → x ≠ y := by
    rintro h rfl
    have : almostEq (.fin x) (.fin x) = true := by
      simp only [almostEq, F.sub, F.neg, F.add, Int.add_right_neg]
      have z : F.abs (toF 0) = .fin 0 := by decide +kernel
      rw [z]
      simp only [F.lt, Bool.or_eq_true, decide_eq_true_eq]
      exact Or.inr (by omega)
    rw [this] at h
    cases h
  simp only [lt, ge, Except.map, F.lt]
  generalize almostEq (.fin x) (.fin y) = q at *
  constructor <;> refine congrArg _ ?_ <;> rw [Bool.eq_iff_iff] <;> cases q
  · have := hne rfl
    simp only [Bool.false_or, Bool.not_false, Bool.and_true, Bool.not_eq_true', decide_eq_true_eq, decide_eq_false_iff_not]
    omega
  · simp
  · have := hne rfl
    simp only [Bool.or_false, Bool.false_or, decide_eq_true_eq]
    omega
  · simp

/-- C107, false: no finite number is less than infinity, infinity is less than itself, and each is
greater or equal to the other. -/
theorem inf_refuted (z : Int) :
    lt (.flt (.fin z)) (.flt (.inf false)) = .ok false ∧
    lt (.flt (.inf true)) (.flt (.fin z)) = .ok false ∧
    lt (.flt (.inf false)) (.flt (.inf false)) = .ok true ∧
    ge (.flt (.inf false)) (.flt (.inf false)) = .ok false ∧
    pyRel .lt (.flt (.fin z)) (.flt (.inf false)) = .ok true ∧
    pyRel .lt (.flt (.inf true)) (.flt (.fin z)) = .ok true ∧
    pyRel .lt (.flt (.inf false)) (.flt (.inf false)) = .ok false ∧
    pyRel .ge (.flt (.inf false)) (.flt (.inf false)) = .ok true := by
  refine ⟨?_, ?_, ?_, ?_, ?_, ?_, ?_, ?_⟩ <;> first | (simp only [lt, ge]; rfl) | (simp only [pyRel]; rfl)

/-- C107, false: nan is less than, and less or equal to, every number. -/
theorem nan_refuted (y : F) :
    lt (.flt .nan) (.flt y) = .ok true ∧ le (.flt .nan) (.flt y) = .ok true ∧
    lt (.flt y) (.flt .nan) = .ok true ∧ le (.flt y) (.flt .nan) = .ok true ∧
    ∀ r, pyRel r (.flt .nan) (.flt y) = .ok false ∧ pyRel r (.flt y) (.flt .nan) = .ok false := by
  cases y <;> refine ⟨?_, ?_, ?_, ?_, ?_⟩ <;>
    first
    | (simp only [lt, ge]; rfl)
    | (simp only [le, gt]; rfl)
    | (intro r; cases r <;> constructor <;> simp only [pyRel] <;> rfl)

/-- C107, false: the next double after one is not greater by `<`, though it is by `>`. -/
theorem neighbours_refuted :
    lt (.flt HashEq.one) (.flt HashEq.oneNext) = .ok false ∧
    gt (.flt HashEq.oneNext) (.flt HashEq.one) = .ok true := by
  constructor
  · have h : almostEq HashEq.one HashEq.oneNext = true := by decide +kernel
    simp only [lt, ge, h, Bool.true_or]
    rfl
  · have h : HashEq.one.lt HashEq.oneNext = true := by decide +kernel
    simp only [gt, h]

/-- C107, false: an integer beyond `2 ^ 53` is rounded before it is compared with a double. -/
theorem big_int_refuted :
    gt (.int (2 ^ 53 + 1)) (.flt (.fin (2 ^ 53 * 2 ^ 1074))) = .ok false ∧
    pyRel .gt (.int (2 ^ 53 + 1)) (.flt (.fin (2 ^ 53 * 2 ^ 1074))) = .ok true := by
  constructor
  · have h : (F.fin (2 ^ 53 * 2 ^ 1074)).lt (ofInt (2 ^ 53 + 1)) = false := by decide +kernel
    simp only [gt, h]
  · have h : (F.fin (2 ^ 53 * 2 ^ 1074)).lt (exact (2 ^ 53 + 1)) = true := by decide +kernel
    simp only [pyRel, Rel.num, h]

/-! ## Minimum and maximum -/

theorem res_ok {r : Rel} {t : Option Ordering} {b : Bool} :
    res r t = .ok b ↔ ∃ o, t = some o ∧ r.holds o = b := by
  cases t <;> simp [res]

/-- `pick` with a comparison that is decided by an ordering. -/
theorem pick_spec {better : Val → Val → Except Err Bool} {P : Val → Prop} {r : Rel}
    (hr : r = .lt ∨ r = .gt) (hb : ∀ x y, P x → P y → better x y = res r (tc x y)) :
    ∀ (l pre : List Val) (m : Val), P m → (∀ x ∈ l, P x) →
      (∀ x ∈ m :: l, ∀ y ∈ m :: l, ∃ o, tc x y = some o) →
      ∃ m' q post, pick better m l = .ok m' ∧ m :: l = q ++ m' :: post ∧
        (∀ x ∈ q, ∃ o, tc m' x = some o ∧ r.holds o = true) ∧
        (∀ x ∈ m :: l, ∃ o, tc x m' = some o ∧ r.holds o = false)
  | [], _, m, _, _, hc => by
    obtain ⟨o, ho⟩ := hc m (by simp) m (by simp)
    have hs := tc_swap m m
    rw [ho] at hs
    refine ⟨m, [], [], rfl, rfl, by simp, ?_⟩
    intro x hx
    simp only [List.mem_cons, List.not_mem_nil, or_false] at hx
    subst hx
    refine ⟨o, ho, ?_⟩
    cases o
    · simp at hs
    · rcases hr with rfl | rfl <;> rfl
    · simp at hs
  | x :: xs, pre, m, hm, hl, hc => by
    obtain ⟨o, ho⟩ := hc x (by simp) m (by simp)
    have hx : P x := hl x (by simp)
    have hxs : ∀ y ∈ xs, P y := fun y hy => hl y (by simp [hy])
    unfold pick
    rw [hb x m hx hm, ho]
    cases hh : r.holds o with
    | true =>
      obtain ⟨m', q, post, e1, e2, e3, e4⟩ := pick_spec hr hb xs pre x hx hxs
        (fun a ha b hb' => hc a (List.mem_cons_of_mem _ ha) b (List.mem_cons_of_mem _ hb'))
      have hxm : ∃ p, tc m' m = some p ∧ r.holds p = true := by
        obtain ⟨p, hp, hp'⟩ := e4 x (by simp)
        have hp2 := tc_swap x m'
        rw [hp] at hp2
        have ht := tc_trans m' x m p.swap o hp2 ho
        rcases hr with rfl | rfl <;> cases p <;> cases o <;> simp_all [Rel.holds, Ordering.swap, Ordering.then]
      refine ⟨m', m :: q, post, by simp only [res, hh]; exact e1, by rw [e2]; rfl, ?_, ?_⟩
      · intro y hy
        rcases List.mem_cons.1 hy with rfl | hy
        · exact hxm
        · exact e3 y hy
      · intro y hy
        rcases List.mem_cons.1 hy with rfl | hy
        · obtain ⟨p, hp, hp'⟩ := hxm
          refine ⟨p.swap, by rw [tc_swap m' _, hp]; rfl, ?_⟩
          rcases hr with rfl | rfl <;> cases p <;> simp_all [Rel.holds]
        · exact e4 y hy
    | false =>
      obtain ⟨m', q, post, e1, e2, e3, e4⟩ := pick_spec hr hb xs pre m hm hxs
        (fun a ha b hb' => hc a (by rcases List.mem_cons.1 ha with rfl | h <;> simp_all)
          b (by rcases List.mem_cons.1 hb' with rfl | h <;> simp_all))
      have hmx : ∃ p, tc x m' = some p ∧ r.holds p = false := by
        obtain ⟨p, hp, hp'⟩ := e4 m (by simp)
        have ht := tc_trans x m m' o p ho hp
        rcases hr with rfl | rfl <;> cases p <;> cases o <;> simp_all [Rel.holds, Ordering.then]
      cases q with
      | nil =>
        injection e2 with e2 e2'
        subst e2
        refine ⟨m, [], x :: xs, by simp only [res, hh]; exact e1, rfl, by simp, ?_⟩
        intro y hy
        rcases List.mem_cons.1 hy with rfl | hy
        · exact e4 y (by simp)
        · rcases List.mem_cons.1 hy with rfl | hy
          · exact hmx
          · exact e4 y (by simp [hy])
      | cons q0 q =>
        injection e2 with e2 e2'
        subst e2
        obtain ⟨p, hp, hp'⟩ := e3 m (by simp)
        have hxm : ∃ p, tc m' x = some p ∧ r.holds p = true := by
          have h2 : tc m x = some o.swap := by rw [tc_swap x m, ho]; rfl
          have ht := tc_trans m' m x p o.swap hp h2
          rcases hr with rfl | rfl <;> cases p <;> cases o <;> simp_all [Rel.holds, Ordering.swap, Ordering.then]
        refine ⟨m', m :: x :: q, post, by simp only [res, hh]; exact e1, by rw [e2']; rfl, ?_, ?_⟩
        · intro y hy
          simp only [List.mem_cons] at hy
          rcases hy with rfl | rfl | hy
          · exact ⟨p, hp, hp'⟩
          · exact hxm
          · exact e3 y (by simp [hy])
        · intro y hy
          rcases List.mem_cons.1 hy with rfl | hy
          · exact e4 y (by simp)
          · rcases List.mem_cons.1 hy with rfl | hy
            · exact hmx
            · exact e4 y (by simp [hy])

/-- Python compares any two of these items without an exception. -/
def Alike (l : List Val) : Prop := ∀ x ∈ l, ∀ y ∈ l, ∃ b, pyRel .lt x y = .ok b

theorem alike_tc {l : List Val} (h : Alike l) (ho : ∀ x ∈ l, Orderable x) :
    ∀ x ∈ l, ∀ y ∈ l, ∃ o, tc x y = some o := by
  intro x hx y hy
  obtain ⟨b, hb⟩ := h x hx y hy
  rw [pyRel_tc' .lt (ho x hx) (ho y hy), res_ok] at hb
  obtain ⟨o, ho, _⟩ := hb
  exact ⟨o, ho⟩

/-- C108: the minimum of values that can be ordered is the first of the least, by Python's order. -/
theorem min_first_partial {l : List Val} (hne : l ≠ []) (ho : ∀ x ∈ l, Orderable x)
    (hc : Alike l) :
    ∃ m pre post, minOf l = .ok m ∧ l = pre ++ m :: post ∧
      (∀ x ∈ pre, pyRel .lt m x = .ok true) ∧ ∀ x ∈ l, pyRel .lt x m = .ok false := by
  cases l with
  | nil => exact absurd rfl hne
  | cons x xs =>
    obtain ⟨m, q, post, e1, e2, e3, e4⟩ := pick_spec (better := lt) (P := Orderable) (r := .lt)
      (Or.inl rfl) (fun _ _ => lt_tc) xs [] x (ho x (by simp))
      (fun y hy => ho y (by simp [hy])) (alike_tc hc ho)
    have hm : Orderable m := ho m (by rw [e2]; simp)
    refine ⟨m, q, post, e1, e2, ?_, ?_⟩
    · intro y hy
      rw [pyRel_tc' .lt hm (ho y (by rw [e2]; simp [hy])), res_ok]
      exact e3 y hy
    · intro y hy
      rw [pyRel_tc' .lt (ho y hy) hm, res_ok]
      exact e4 y hy

/-- C108: the maximum is the first of the greatest, unless they are tuples. -/
theorem max_first_partial {l : List Val} (hne : l ≠ []) (ho : ∀ x ∈ l, Fine x) (hc : Alike l) :
    ∃ m pre post, maxOf l = .ok m ∧ l = pre ++ m :: post ∧
      (∀ x ∈ pre, pyRel .gt m x = .ok true) ∧ ∀ x ∈ l, pyRel .gt x m = .ok false := by
  cases l with
  | nil => exact absurd rfl hne
  | cons x xs =>
    obtain ⟨m, q, post, e1, e2, e3, e4⟩ := pick_spec (better := gt) (P := Fine) (r := .gt)
      (Or.inr rfl) (fun _ _ => gt_tc) xs [] x (ho x (by simp))
      (fun y hy => ho y (by simp [hy])) (alike_tc hc fun y hy => .fine (ho y hy))
    have hm : Fine m := ho m (by rw [e2]; simp)
    refine ⟨m, q, post, e1, e2, ?_, ?_⟩
    · intro y hy
      rw [pyRel_tc .gt hm (ho y (by rw [e2]; simp [hy])), res_ok]
      exact e3 y hy
    · intro y hy
      rw [pyRel_tc .gt (ho y hy) hm, res_ok]
      exact e4 y hy

/-- C108, false: of two equal tuples `max` returns the second, `(1.0,)` for `(1,)` and `(1.0,)`. -/
theorem max_tuples_refuted {a b : List Val} (ha : ∀ x ∈ a, Fine x) (hb : ∀ x ∈ b, Fine x)
    (h : pyRel .ge (.tup b) (.tup a) = .ok true) : maxOf [.tup a, .tup b] = .ok (.tup b) := by
  simp only [maxOf, pick]
  rw [(tuple_gt_is_ge hb ha).1, h]

example : pyRel .ge (.tup [.flt (exact 1)]) (.tup [.int 1]) = .ok true ∧
    pyRel .gt (.tup [.flt (exact 1)]) (.tup [.int 1]) = .ok false := by
  have h : pyEq (.flt (exact 1)) (.int 1) = true := by
    simp only [pyEq, numEq, exact_le]; rfl
  constructor <;> simp only [pyRel, pySeq, h, if_true] <;> rfl

/-- C108, false: infinity in first place is the minimum of every list of finite floats, as in the
loop that starts from `float("inf")`. -/
theorem min_inf_refuted : ∀ (l : List Int),
    minOf (.flt (.inf false) :: l.map fun z => .flt (.fin z)) = .ok (.flt (.inf false)) := by
  intro l
  simp only [minOf]
  induction l with
  | nil => rfl
  | cons z l ih =>
    simp only [List.map_cons, pick]
    rw [(inf_refuted z).1]
    exact ih

/-- C108, false: an empty iterator is not refused. -/
theorem min_empty_refuted : minOf [] = .error .ub ∧ maxOf [] = .error .ub := ⟨rfl, rfl⟩

/-! ## Sorting -/

/-- The comparison functions given to the sort, where they do not throw. -/
def ltB (x y : Val) : Bool := (lt x y).toOption.getD false
def geB (x y : Val) : Bool := (ge x y).toOption.getD false

theorem ltB_iff {x y : Val} (hx : Orderable x) (hy : Orderable y) (b : Bool)
    (h : ∃ o, tc x y = some o) : ltB x y = b ↔ pyRel .lt x y = .ok b := by
  obtain ⟨o, ho⟩ := h
  unfold ltB
  rw [lt_tc hx hy, pyRel_tc' .lt hx hy, ho]
  simp [res, Except.toOption]

/-- C109: a list whose items Python can compare is sorted by Python's order, and no comparison
throws. -/
theorem sort_partial {l : List Val} (ho : ∀ x ∈ l, Orderable x) (hc : Alike l)
    {hs : List {v // v ∈ l} → List {v // v ∈ l}}
    (H : PdqSort.HeapContract (fun x y : {v // v ∈ l} => ltB x.1 y.1) hs) :
    (∀ x ∈ l, ∀ y ∈ l, lt x y = .ok (ltB x y)) ∧
    ∃ a, PdqSort.listSort hs (fun x y : {v // v ∈ l} => ltB x.1 y.1) (fun x y => geB x.1 y.1)
      false l.attach = .ok a ∧ (a.map Subtype.val).Perm l ∧
      (a.map Subtype.val).Pairwise fun x y => pyRel .lt y x = .ok false := by
  have ht := alike_tc hc ho
  constructor
  · intro x hx y hy
    obtain ⟨o, h⟩ := ht x hx y hy
    unfold ltB
    rw [lt_tc (ho x hx) (ho y hy), h]
    rfl
  · have iff := fun (x y : {v // v ∈ l}) (b : Bool) =>
      ltB_iff (ho x.1 x.2) (ho y.1 y.2) b (ht x.1 x.2 y.1 y.2)
    have iff' : ∀ (x y : {v // v ∈ l}) (b : Bool), ltB x.1 y.1 = b ↔
        ∃ o, tc x.1 y.1 = some o ∧ Rel.lt.holds o = b := by
      intro x y b
      rw [iff, pyRel_tc' .lt (ho x.1 x.2) (ho y.1 y.2), res_ok]
    have S : PdqSort.StrictWeak (fun x y : {v // v ∈ l} => ltB x.1 y.1) := by
      refine ⟨?_, ?_⟩
      · intro x y h
        rw [iff'] at h ⊢
        obtain ⟨o, h1, h2⟩ := h
        refine ⟨o.swap, by rw [tc_swap, h1]; rfl, ?_⟩
        cases o <;> simp_all [Rel.holds]
      · intro x y z h1 h2
        rw [iff'] at h1 h2 ⊢
        obtain ⟨o, h1, h1'⟩ := h1
        obtain ⟨p, h2, h2'⟩ := h2
        have := tc_trans x.1 y.1 z.1 o p h1 h2
        refine ⟨o.then p, this ?_, ?_⟩ <;> cases o <;> cases p <;> simp_all [Rel.holds, Ordering.then]
    obtain ⟨a, e1, e2, e3⟩ := PdqSort.list_sort_correct S H l.attach
      (ge := fun x y => geB x.1 y.1)
    refine ⟨a, e1, ?_, ?_⟩
    · have := e2.map Subtype.val
      rwa [List.attach_map_subtype_val] at this
    · rw [List.pairwise_map]
      exact e3.imp fun {x y} h => (iff y x false).1 h

/-- C109, false: `sort` of 24 or more infinities reads outside the list. -/
theorem sort_inf_refuted (hs : List Val → List Val) (n : Nat) (hn : 24 ≤ n) :
    PdqSort.listSort hs ltB geB false (List.replicate n (.flt (.inf false))) = .error .oob := by
  have h : ltB (.flt (.inf false)) (.flt (.inf false)) = true := by
    unfold ltB; rw [(inf_refuted 0).2.2.1]; rfl
  have := PdqSort.reverse_sort_safe_refuted hs ltB ltB (.flt (.inf false)) h n hn
  simpa [PdqSort.listSort] using this

end Verif.Order
