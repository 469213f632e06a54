import Verif.DocPrintMain
/-
Where the printed text of an expression is read as something else, and concrete cases.
-/
namespace Verif.DocPrint

theorem reads_det {t : List Tok} {a b : Ast} (ha : Reads t a) (hb : Reads t b) : a = b :=
  (Prod.mk.inj (Ev.det (g := .lv 0) ha hb)).1

theorem Claim.reads {t : List Tok} {x : Ast} {m : Nat} (h : Claim t x m) : Reads t x := by
  have := h.lv 0 (Nat.zero_le _) [] (stops_nil 0)
  rw [List.append_nil] at this
  exact this

theorem claim_chain {t u v : List Tok} {x y z : Ast} {m m' m'' : Nat} {o o' : BOp} (h : Claim t x m) (h' : Claim u y m')
    (h'' : Claim v z m'') (ho : o.lvl = 4) (ho' : o'.lvl = 4) (hm : 5 ≤ m) (hm' : 5 ≤ m') (hm'' : 5 ≤ m'') :
    Claim (t ++ .bop o :: u ++ .bop o' :: v) (.node (.cmp [o, o']) [x, y, z]) 4 := by
  have e : t ++ .bop o :: u ++ .bop o' :: v = t ++ .bop o :: (u ++ .bop o' :: v) := by simp
  rw [e]
  refine claim_of (by omega) (h.begins.append.mono (by omega)) ?_ (fun h => by unfold IsLoop at h; omega) (by omega) ?_
  · intro rest hs
    have e : t ++ .bop o :: (u ++ .bop o' :: v) ++ rest = t ++ .bop o :: (u ++ .bop o' :: (v ++ rest)) := by simp
    rw [e]
    refine ev_lv4 (h.lv 5 hm _ (stops_cons (fun c hc => by cases hc; omega))) ?_
    refine ev_chain_op ho (h'.lv 5 hm' _ (stops_cons (fun c hc => by cases hc; omega))) ?_
    exact ev_chain_op ho' (h''.lv 5 hm'' rest (hs.mono (by omega))) (ev_chain_stop hs)
  · intro rest _; exact key_append h rfl (by simp) rest

theorem child_id {p q : Nat} {c : Bool} {t : List Tok} (h : p < q) : child p c q t = t := by
  unfold child
  rw [if_neg]
  omega

/-- A comparison of a comparison prints as a chain: `(a < b) == c`, `(a < b) in c` and `(a in b) in c` are
read as `a < b and b == c` and so on, whatever the operands. -/
theorem chain_refuted (a b c : Doc) (o o' : BOp) (ha : Good a) (hb : Good b) (hc : Good c) (pa : 8 ≤ a.prec)
    (pb : 8 ≤ b.prec) (pc : 8 ≤ c.prec) (ho : o.lvl = 4) (ho' : o'.lvl = 4) (hp : o'.prec ≤ o.prec) :
    Reads (pr (.bin o' (.bin o a b) c)) (.node (.cmp [o, o']) [ast a, ast b, ast c]) ∧
      ¬ Reads (pr (.bin o' (.bin o a b) c)) (ast (.bin o' (.bin o a b) c)) := by
  have h7 : o.prec ≤ 7 := by cases o <;> revert ho <;> decide
  have hr : Reads (pr (.bin o' (.bin o a b) c)) (.node (.cmp [o, o']) [ast a, ast b, ast c]) := by
    have e : pr (.bin o' (.bin o a b) c) = pr a ++ .bop o :: pr b ++ .bop o' :: pr c := by
      rw [pr, pr, child_id (t := pr c) (by omega), child_id (t := pr a) (by omega), child_id (t := pr b) (by omega)]
      rw [child, if_neg (by simp [Doc.prec]; omega)]
    rw [e]
    exact (claim_chain (claim_pr a ha) (claim_pr b hb) (claim_pr c hc) ho ho' (le_lev (p := 8) (by omega) pa)
      (le_lev (p := 8) (by omega) pb) (le_lev (p := 8) (by omega) pc)).reads
  refine ⟨hr, fun h => ?_⟩
  have := reads_det hr h
  rw [ast, binAst, if_pos ho'] at this
  simp at this

/-- `a in (b < c)` prints as a chain too. -/
theorem chain_right_refuted (a b c : Doc) (o o' : BOp) (ha : Good a) (hb : Good b) (hc : Good c) (pa : 8 ≤ a.prec)
    (pb : 8 ≤ b.prec) (pc : 8 ≤ c.prec) (ho : o = .isin ∨ o = .notin) (ho' : o'.prec = 7) :
    Reads (pr (.bin o a (.bin o' b c))) (.node (.cmp [o, o']) [ast a, ast b, ast c]) ∧
      ¬ Reads (pr (.bin o a (.bin o' b c))) (ast (.bin o a (.bin o' b c))) := by
  have h6 : o.prec = 6 ∧ o.lvl = 4 := by rcases ho with rfl | rfl <;> decide
  have h4 : o'.lvl = 4 := by cases o' <;> revert ho' <;> decide
  have hr : Reads (pr (.bin o a (.bin o' b c))) (.node (.cmp [o, o']) [ast a, ast b, ast c]) := by
    have e : pr (.bin o a (.bin o' b c)) = pr a ++ .bop o :: pr b ++ .bop o' :: pr c := by
      rw [pr, pr, child_id (t := pr c) (by omega), child_id (t := pr a) (by omega), child_id (t := pr b) (by omega)]
      rw [child_id (by simp [Doc.prec]; omega)]
      simp
    rw [e]
    exact (claim_chain (claim_pr a ha) (claim_pr b hb) (claim_pr c hc) h6.2 h4 (le_lev (p := 8) (by omega) pa)
      (le_lev (p := 8) (by omega) pb) (le_lev (p := 8) (by omega) pc)).reads
  refine ⟨hr, fun h => ?_⟩
  have := reads_det hr h
  rw [ast, binAst, if_pos h6.2] at this
  simp at this

/-- `(x if c else y) if d else z` prints without the parentheses and is read as
`x if c else (y if d else z)`. -/
theorem cond_refuted (c d x y z : Doc) (hc : Good c) (hd : Good d) (hx : Good x) (hy : Good y) (hz : Good z)
    (pc : 3 ≤ c.prec) (pd : 3 ≤ d.prec) (px : 3 ≤ x.prec) (py : 3 ≤ y.prec) (pz : 3 ≤ z.prec) :
    Reads (pr (.ite d (.ite c x y) z)) (ast (.ite c x (.ite d y z))) ∧
      (ast c ≠ ast d → ¬ Reads (pr (.ite d (.ite c x y) z)) (ast (.ite d (.ite c x y) z))) := by
  have hr : Reads (pr (.ite d (.ite c x y) z)) (ast (.ite c x (.ite d y z))) := by
    have e : pr (.ite d (.ite c x y) z) = pr x ++ .if_ :: pr c ++ .else_ :: (pr y ++ .if_ :: pr d ++ .else_ :: pr z) := by
      rw [pr, pr, child_id (t := pr c) (by omega), child_id (t := pr d) (by omega), child_id (t := pr x) (by omega),
        child_id (t := pr y) (by omega), child_id (t := pr z) (by omega)]
      rw [child, if_neg (by simp [Doc.prec])]
      simp
    rw [e, ast, ast]
    have le (q : Doc) (h : 3 ≤ q.prec) : 1 ≤ lev q := le_lev (p := 3) (by omega) h
    exact (claim_ite (claim_pr x hx) (claim_pr c hc) (claim_ite (claim_pr y hy) (claim_pr d hd) (claim_pr z hz) (le y py)
      (le d pd)) (le x px) (le c pc)).reads
  refine ⟨hr, fun hne h => ?_⟩
  have := reads_det hr h
  rw [ast, ast, ast] at this
  simp at this
  exact hne this.1

/-- A power of a negative number, `(-2) ** b`, is read as `-(2 ** b)`. -/
theorem negpow_refuted (i : Bool) (s : String) (b : Doc) (hb : Good b) :
    Reads (pr (.pow (.num true i s) b)) (.node .neg [.node .pow [.node (.num i s) [], ast b]]) ∧
      ¬ Reads (pr (.pow (.num true i s) b)) (ast (.pow (.num true i s) b)) := by
  have hr : Reads (pr (.pow (.num true i s) b)) (.node .neg [.node .pow [.node (.num i s) [], ast b]]) := by
    obtain ⟨m', h1', _, hc'⟩ := claim_child (p := 14) (prec := b.prec) (c := false) (k := 11) (claim_pr b hb)
      (fun hp => le_lev (p := 14) (by omega) (by simp at hp; exact hp)) (by omega)
    have := (claim_unary .neg (claim_pow (claim_num i s) hc' (by omega) h1') (by decide)).reads
    rw [pr, pr, child_id (by simp [Doc.prec])]
    exact this
  refine ⟨hr, fun h => ?_⟩
  have := reads_det hr h
  rw [ast] at this
  simp at this

/-- An attribute of a negative float is read as the negation of the attribute. -/
theorem negattr_refuted (s n : String) :
    Reads (pr (.attr (.num true false s) n)) (.node .neg [.node (.attr n) [.node (.num false s) []]]) ∧
      ¬ Reads (pr (.attr (.num true false s) n)) (ast (.attr (.num true false s) n)) := by
  have hr : Reads (pr (.attr (.num true false s) n)) (.node .neg [.node (.attr n) [.node (.num false s) []]]) := by
    have := (claim_unary .neg (claim_attr n (claim_num false s) (by simp)) (by decide)).reads
    exact this
  refine ⟨hr, fun h => ?_⟩
  have := reads_det hr h
  rw [ast] at this
  simp at this

/-- An attribute of an integer is not Python. -/
theorem intattr_refuted (s n : String) (a : Ast) : ¬ Reads (pr (.attr (.num false true s) n)) a := by
  have e : pr (.attr (.num false true s) n) = [.num true s, .dot, .id n] := rfl
  rw [e]
  have key : ∀ k l, l + k = 13 → ∀ m r, run m (.lv l) [.num true s, .dot, .id n] ≠ some r := by
    intro k
    induction k with
    | zero =>
      intro l hl m r h
      have : l = 13 := by omega
      subst this
      cases m with
      | zero => cases h
      | succ m => cases h
    | succ k ih =>
      intro l hl m r h
      cases m with
      | zero => cases h
      | succ m =>
        have hn : run m (.lv (l + 1)) [.num true s, .dot, .id n] = none := by
          cases hh : run m (.lv (l + 1)) [.num true s, .dot, .id n] with
          | none => rfl
          | some r => exact absurd hh (ih (l + 1) (by omega) m r)
        have h' : step (run m) (.lv l) [.num true s, .dot, .id n] = some r := h
        have hc : l = 0 ∨ l = 3 ∨ l = 4 ∨ l = 11 ∨ l = 12 ∨ IsLoop l := by unfold IsLoop; omega
        rcases hc with rfl | rfl | rfl | rfl | rfl | hc
        · simp only [step] at h'; rw [hn] at h'; cases h'
        · simp only [step] at h'; rw [hn] at h'; cases h'
        · simp only [step] at h'; rw [hn] at h'; cases h'
        · simp only [step] at h'; rw [hn] at h'; cases h'
        · simp only [step] at h'; rw [hn] at h'; cases h'
        · rw [step_loop_lv hc, hn] at h'; cases h'
  rintro ⟨m, hm⟩
  exact key 13 0 rfl m _ hm

/-- The empty set is read as an empty dict. -/
theorem emptyset_refuted : Reads (pr (.disp .set [])) (.node .dict []) ∧ ¬ Reads (pr (.disp .set [])) (ast (.disp .set [])) := by
  have hr : Reads (pr (.disp .set [])) (.node .dict []) := ⟨20, rfl⟩
  refine ⟨hr, fun h => ?_⟩
  have := reads_det hr h
  rw [ast] at this
  simp [Disp.lab] at this

/-! ### Concrete cases -/

def va : Doc := .id "a"
def vb : Doc := .id "b"
def vc : Doc := .id "c"

/-- `(a + b) * c` keeps its parentheses. -/
example : pr (.bin .mul (.bin .add va vb) vc) = [.lp, .id "a", .bop .add, .id "b", .rp, .bop .mul, .id "c"] := by
  decide
/-- `a - (b - c)` and `a - b - c` differ. -/
example : pr (.bin .sub va (.bin .sub vb vc)) = [.id "a", .bop .sub, .lp, .id "b", .bop .sub, .id "c", .rp] := by decide
example : pr (.bin .sub (.bin .sub va vb) vc) = [.id "a", .bop .sub, .id "b", .bop .sub, .id "c"] := by decide
/-- `a ** -b`, `-a ** b` and `(-a) ** b`. -/
example : pr (.pow va (.un .neg vb)) = [.id "a", .pow, .bop .sub, .id "b"] := by decide
example : pr (.un .neg (.pow va vb)) = [.bop .sub, .id "a", .pow, .id "b"] := by decide
example : pr (.pow (.un .neg va) vb) = [.lp, .bop .sub, .id "a", .rp, .pow, .id "b"] := by decide
/-- `f(a, (b,), k=lambda x: x).g[a, b]` is good and reads back. -/
def big : Doc :=
  .index (.attr (.call (.id "f") [va, .disp .tuple [vb]] ["k"] [.lam ["x"] (.id "x")]) "g") [va, .ite va vb vc]
example : Reads (pr big) (ast big) := reads_partial big (by simp [big, Good, Goods, va, vb, vc, Doc.isNeg, Doc.isInt, Doc.prec])
example : pr big = [.id "f", .lp, .id "a", .comma, .lp, .id "b", .comma, .rp, .comma, .id "k", .assign, .lambda, .id "x",
    .colon, .id "x", .rp, .dot, .id "g", .lb, .id "a", .comma, .id "b", .if_, .id "a", .else_, .id "c", .rb] := by
  decide
/-- `not (a or b) and c in (b if a else c)`. -/
example : Reads (pr (.bin .and (.un .not (.bin .or va vb)) (.bin .isin vc (.ite va vb vc))))
    (.node (.bin .and) [.node .not [.node (.bin .or) [.node (.id "a") [], .node (.id "b") []]],
      .node (.cmp [.isin]) [.node (.id "c") [], .node .ite [.node (.id "a") [], .node (.id "b") [], .node (.id "c") []]]]) :=
  reads_partial _ (by simp [Good, va, vb, vc, Doc.prec, BOp.prec])
/-- The parser distinguishes `a - b - c` from `a - (b - c)`. -/
example : ¬ Reads (pr (.bin .sub (.bin .sub va vb) vc)) (ast (.bin .sub va (.bin .sub vb vc))) := by
  rw [reads_only_partial _ (by simp [Good, va, vb, vc, Doc.prec, BOp.prec])]
  simp [ast, binAst, BOp.lvl, va, vb, vc]
/-- `(a < b) < c`. -/
example : pr (.bin .lt (.bin .lt va vb) vc) = [.id "a", .bop .lt, .id "b", .bop .lt, .id "c"] := by decide

end Verif.DocPrint
