import Verif.ConstFold

/-! # Properties of constant folding (C02) -/

namespace Verif.ConstFold

open DT

theorem wrap_of_inRange {t : DT} {v : Int} (h : InRange t v) : wrap t v = v := by
  cases t <;> simp only [InRange, DT.lo, DT.hi] at h <;> simp only [wrap] <;> omega

theorem wrap_inRange (t : DT) (v : Int) : InRange t (wrap t v) := by
  cases t <;> simp only [InRange, DT.lo, DT.hi, wrap] <;> omega

theorem eval_imm_of_litOK {env : Env} {t : DT} {v : Int} (h : InRange t v) :
    eval env (.imm t v) = .ok v := by
  simp only [eval, wrap_of_inRange h, ite_self]

/-- Values of unsigned expressions are in the range of their type. -/
theorem eval_unsigned_range {env : Env} (hE : env.OK) :
    ∀ (e : Expr) (v : Int), WT e → e.dtype.signed = false → eval env e = .ok v →
      InRange e.dtype v := by
  intro e
  induction e with
  | var t i => intro v _ _ h; simp only [eval, Except.ok.injEq] at h; subst h; exact hE.var t i
  | call t i =>
    intro v _ _ h
    simp only [eval] at h
    split at h
    · rename_i w hw'
      simp only [Except.ok.injEq] at h; subst h; exact hE.call t i _ hw'
    · cases h
  | imm t w =>
    intro v hw hs h
    simp only [eval, Except.ok.injEq] at h
    simp only [Expr.dtype] at *
    split at h
    · rename_i ht; subst ht; simp [DT.signed] at hs
    · subst h; exact wrap_inRange _ _
  | cast t e ih =>
    intro v hw hs h
    simp only [eval] at h
    simp only [Expr.dtype] at hs ⊢
    split at h
    · rename_i w hw'
      simp only [Except.ok.injEq] at h
      split at h
      · rename_i ht; subst h; subst ht; exact ih w hw hs hw'
      · subst h; exact wrap_inRange _ _
    · cases h
  | bin op a b iha ihb =>
    intro v hw hs h
    simp only [eval] at h
    split at h
    · cases h
    split at h
    · cases h
    rename_i x hx _ y hy
    have hb (c : Bool) : InRange .bool (b2i c) := by cases c <;> decide
    have hn : ∀ w, norm a.dtype w = .ok v → InRange a.dtype v := by
      intro w hw
      revert hw
      cases a.dtype <;> simp only [norm]
      · split
        · intro hw; injection hw with hw; subst hw; assumption
        · intro hw; cases hw
      · split
        · intro hw; injection hw with hw; subst hw; assumption
        · intro hw; cases hw
      · intro hw; injection hw with hw; subst hw; exact wrap_inRange _ _
      · intro hw; injection hw with hw; subst hw; exact wrap_inRange _ _
      · simp
    cases op <;> simp only [binVal, Expr.dtype, BinOp.isCmp, if_true, Bool.false_eq_true, if_false,
      Except.ok.injEq] at h hs ⊢
    · exact hn _ h
    · exact hn _ h
    · exact hn _ h
    · simp [hs] at h
    · simp [hs] at h
    · split at h
      · cases h
      · rename_i hc
        simp only [Except.ok.injEq] at h
        simp only [hs, Bool.false_eq_true, false_and, or_false, not_or] at hc
        have hxr := iha x hw.2.1 hs hx
        subst h
        have hx0 : 0 ≤ x := by
          have := hxr.1
          revert this
          revert hs
          cases a.dtype <;> simp [DT.signed, DT.lo]
        have h1 := Int.tmod_nonneg y hx0
        have h2 : x.tmod y ≤ x := by
          rw [Int.tmod_eq_emod_of_nonneg hx0]
          have := Int.emod_lt_abs x hc.2
          have h5 : x % y = x % y.natAbs := by
            rcases Int.natAbs_eq y with h6 | h6
            · rw [← h6]
            · conv_lhs => rw [h6]
              rw [Int.emod_neg]
          rw [h5]
          have h7 := Int.mul_ediv_add_emod x y.natAbs
          have h8 : 0 ≤ x / (y.natAbs : Int) := Int.ediv_nonneg hx0 (by omega)
          have h9 : 0 ≤ (y.natAbs : Int) * (x / (y.natAbs : Int)) := Int.mul_nonneg (by omega) h8
          omega
        refine ⟨?_, ?_⟩
        · have : a.dtype.lo = 0 := by revert hs; cases a.dtype <;> simp [DT.signed, DT.lo]
          omega
        · have := hxr.2; omega
    · subst h
      have h1 := iha x hw.2.1 hs hx
      have h2 := ihb y hw.2.2 (hw.1 ▸ hs) hy
      rw [← hw.1] at h2
      split <;> assumption
    · subst h
      have h1 := iha x hw.2.1 hs hx
      have h2 := ihb y hw.2.2 (hw.1 ▸ hs) hy
      rw [← hw.1] at h2
      split <;> assumption
    all_goals (subst h; exact hb _)
  | and a b iha ihb =>
    intro v hw hs h
    simp only [eval] at h
    simp only [Expr.dtype]
    split at h
    · cases h
    split at h
    · injection h with h; subst h; decide
    split at h
    · cases h
    · injection h with h; subst h; split <;> decide
  | or a b iha ihb =>
    intro v hw hs h
    simp only [eval] at h
    simp only [Expr.dtype]
    split at h
    · cases h
    split at h
    · injection h with h; subst h; decide
    split at h
    · cases h
    · injection h with h; subst h; split <;> decide
  | not a iha =>
    intro v hw hs h
    simp only [eval] at h
    simp only [Expr.dtype]
    split at h
    · cases h
    · injection h with h; subst h; split <;> decide

theorem asImm_some {e : Expr} {x : Int} (h : asImm e = some x) : e = .imm e.dtype x := by
  cases e <;> simp_all [asImm, Expr.dtype]

/-- Casting a literal that fits the target type, or any non-literal, is what a C++ cast does. -/
theorem castE_sound {env : Env} {t : DT} {e e' : Expr}
    (hfit : ∀ s v, e = .imm s v → InRange s v ∧ InRange t v) (h : castE t e = .ok e') :
    eval env e' = eval env (.cast t e) ∧ e'.dtype = t ∧ (LitOK e') ∧ (WT e → WT e') := by
  unfold castE at h
  split at h
  · rename_i ht
    injection h with h; subst h
    refine ⟨?_, ht, ?_, id⟩
    · simp only [eval, ht, if_true]; split <;> simp_all
    · intro s v hv; exact (hfit s v hv).1
  · rename_i ht
    split at h
    · rename_i s v
      obtain ⟨h1, h2⟩ := hfit s v rfl
      have : e' = .imm t v := by
        unfold makeConst at h
        split at h
        · injection h with h; exact h.symm
        · split at h
          · cases h
          · injection h with h; exact h.symm
      subst this
      refine ⟨?_, rfl, ?_, fun _ => trivial⟩
      · rw [eval_imm_of_litOK h2]
        simp only [eval]
        rw [wrap_of_inRange h1]
        simp only [ite_self, Expr.dtype]
        rw [wrap_of_inRange h2]; simp
      · intro s' v' hv; injection hv with a b; subst a; subst b; exact h2
    · injection h with h; subst h
      refine ⟨rfl, rfl, ?_, id⟩
      intro s v hv; cases hv

theorem inRange_widen {s t : DT} (h : s.signed = t.signed) (hb : s.bits < t.bits) {v : Int}
    (hv : InRange s v) : InRange t v := by
  revert h hb hv
  cases s <;> cases t <;> simp [DT.signed, DT.bits, InRange, DT.lo, DT.hi] <;> omega

theorem bits_inj {s t : DT} (h : s.signed = t.signed) (hb : s.bits = t.bits) : s = t := by
  revert h hb; cases s <;> cases t <;> simp [DT.signed, DT.bits]

theorem eval_cast_self {env : Env} (e : Expr) : eval env (.cast e.dtype e) = eval env e := by
  simp only [eval, if_true]; split <;> simp_all

theorem simpleCast_sound {env : Env} {t : DT} {e : Expr} (hl : LitOK e) :
    eval env (simpleCast t e) = eval env (.cast t e) ∧ (simpleCast t e).dtype = t ∧
      LitOK (simpleCast t e) ∧ (WT e → WT (simpleCast t e)) := by
  unfold simpleCast
  split
  · rename_i h
    refine ⟨?_, h, hl, id⟩
    rw [← h, eval_cast_self]
  · exact ⟨rfl, rfl, (fun _ _ h => by cases h), id⟩

/-- Type matching brings both operands to the common type without changing their value. -/
theorem matchTypes_sound {env : Env} {a b a' b' : Expr} (ha : LitOK a) (hb : LitOK b)
    (h : matchTypes a b = .ok (a', b')) :
    (eval env a' = eval env (.cast (matchType a.dtype b.dtype) a) ∧
      a'.dtype = matchType a.dtype b.dtype ∧ LitOK a' ∧ (WT a → WT a')) ∧
    (eval env b' = eval env (.cast (matchType a.dtype b.dtype) b) ∧
      b'.dtype = matchType a.dtype b.dtype ∧ LitOK b' ∧ (WT b → WT b')) := by
  unfold matchTypes at h
  simp only at h
  unfold matchType
  split at h
  · rename_i hst
    simp only [Except.ok.injEq, Prod.mk.injEq] at h
    obtain ⟨rfl, rfl⟩ := h
    rw [if_pos hst]
    refine ⟨⟨(eval_cast_self a).symm, rfl, ha, id⟩, ⟨?_, hst.symm, hb, id⟩⟩
    rw [hst, eval_cast_self]
  · rename_i hst
    rw [if_neg hst]
    split at h
    · rename_i hs
      rw [if_pos hs]
      split at h
      · rename_i hbits
        rw [if_pos hbits]
        cases hc : castE b.dtype a with
        | error f => simp [hc, Except.map] at h
        | ok c =>
          simp only [hc, Except.map, Except.ok.injEq, Prod.mk.injEq] at h
          obtain ⟨rfl, rfl⟩ := h
          refine ⟨castE_sound (fun s v e => ?_) hc, ⟨(eval_cast_self b).symm, rfl, hb, id⟩⟩
          have h1 := ha s v e
          subst e
          exact ⟨h1, inRange_widen hs hbits h1⟩
      · rename_i hbits
        rw [if_neg hbits]
        have hlt : b.dtype.bits < a.dtype.bits := by
          rcases Nat.lt_or_ge b.dtype.bits a.dtype.bits with h1 | h1
          · exact h1
          · exact absurd (bits_inj hs (by omega)) hst
        cases hc : castE a.dtype b with
        | error f => simp [hc, Except.map] at h
        | ok c =>
          simp only [hc, Except.map, Except.ok.injEq, Prod.mk.injEq] at h
          obtain ⟨rfl, rfl⟩ := h
          refine ⟨⟨(eval_cast_self a).symm, rfl, ha, id⟩, castE_sound (fun s v e => ?_) hc⟩
          have h1 := hb s v e
          subst e
          exact ⟨h1, inRange_widen hs.symm hlt h1⟩
    · rename_i hs
      rw [if_neg hs]
      simp only [Except.ok.injEq, Prod.mk.injEq] at h
      obtain ⟨rfl, rfl⟩ := h
      exact ⟨simpleCast_sound ha, simpleCast_sound hb⟩

theorem mkIntImm_ok {t : DT} {w : Int} {e : Expr} (h : mkIntImm t w = .ok e) :
    e = .imm t w ∧ InRange .int64 w ∧ (t.signed = false → 0 ≤ w) := by
  unfold mkIntImm at h
  split at h
  · split at h
    · cases h
    · rename_i h1 h2
      injection h with h
      exact ⟨h.symm, h1, fun hs => by by_contra hc; exact h2 ⟨hs, by omega⟩⟩
  · cases h

theorem eval_norm_imm {env : Env} {t : DT} {w v : Int} (hr : InRange .int64 w)
    (h : norm t w = .ok v) : eval env (.imm t w) = .ok v := by
  cases t <;> simp only [norm] at h <;> simp only [eval]
  · split at h
    · injection h with h; subst h; simp
    · cases h
  · rw [if_pos hr] at h
    injection h with h; subst h; rw [wrap_of_inRange hr]; simp
  · simpa using h
  · simpa using h
  · cases h

/-- The value of an expression survives "arithmetic in its own type". -/
theorem norm_self {env : Env} (hE : env.OK) {e : Expr} (hw : WT e) {x v : Int}
    (hx : eval env e = .ok x) (h : norm e.dtype x = .ok v) : v = x := by
  have hr := fun hs => eval_unsigned_range hE e x hw hs hx
  revert h hr
  cases e.dtype <;> simp only [norm] <;> intro h hr
  · split at h
    · injection h with h; exact h.symm
    · cases h
  · split at h
    · injection h with h; exact h.symm
    · cases h
  · injection h with h; rw [wrap_of_inRange (hr rfl)] at h; exact h.symm
  · injection h with h; rw [wrap_of_inRange (hr rfl)] at h; exact h.symm
  · cases h

theorem toInt_ofInt_range {x : Int} (h : InRange .int64 x) : (BitVec.ofInt 64 x).toInt = x := by
  simp only [InRange, DT.lo, DT.hi] at h
  rw [BitVec.toInt_ofInt]
  apply Int.bmod_eq_of_le <;> (norm_num; omega)

theorem inRange64_of_signed {t : DT} (hs : t.signed = true) {v : Int} (h : InRange t v) :
    InRange .int64 v := by
  revert hs h
  cases t <;> simp [DT.signed, InRange, DT.lo, DT.hi]; omega

theorem codeFloor_eq {t : DT} (hs : t.signed = true) {x y : Int} (hx : InRange t x)
    (hy : InRange t y) (hy0 : y ≠ 0) (hq : InRange t (x.fdiv y)) :
    codeFloorDiv x y = some (x.fdiv y) := by
  have h1 := toInt_ofInt_range (inRange64_of_signed hs hx)
  have h2 := toInt_ofInt_range (inRange64_of_signed hs hy)
  have hq' := inRange64_of_signed hs hq
  have := FloorDiv.floordiv_floormod_eq_fdiv_fmod (BitVec.ofInt 64 x) (BitVec.ofInt 64 y)
    (by rw [h2]; exact hy0)
    (by
      rw [h1, h2]; rintro ⟨rfl, rfl⟩
      simp only [InRange, DT.lo, DT.hi] at hq'
      revert hq'; decide)
  rw [h1, h2] at this
  exact this.1

theorem codeFloorMod_eq {t : DT} (hs : t.signed = true) {x y : Int} (hx : InRange t x)
    (hy : InRange t y) (hy0 : y ≠ 0) :
    codeFloorMod x y = some (x.fmod y) := by
  have h1 := toInt_ofInt_range (inRange64_of_signed hs hx)
  have h2 := toInt_ofInt_range (inRange64_of_signed hs hy)
  obtain ⟨r, h3, q, h4⟩ := FloorDiv.floormod_correct (BitVec.ofInt 64 x) (BitVec.ofInt 64 y)
    (by rw [h2]; exact hy0)
  rw [h1, h2] at h4
  have h5 := h4.unique (FloorDiv.isFloorDivMod_fdiv x y hy0)
  unfold codeFloorMod
  rw [h3, ← h5.2]; rfl

theorem eval_bin_ok {env : Env} {op : BinOp} {a b : Expr} {v : Int}
    (h : eval env (.bin op a b) = .ok v) :
    ∃ x y, eval env a = .ok x ∧ eval env b = .ok y ∧ binVal op a.dtype x y = .ok v := by
  simp only [eval] at h
  split at h
  · cases h
  split at h
  · cases h
  · exact ⟨_, _, by assumption, by assumption, h⟩

theorem map_some_ok {x : Except Fail Expr} {e : Expr} (h : x.map some = .ok (some e)) :
    x = .ok e := by
  cases x <;> simp_all [Except.map]

theorem lit_eval {env : Env} {e : Expr} (hl : LitOK e) {x : Int} (h : asImm e = some x) :
    eval env e = .ok x ∧ InRange e.dtype x := by
  have h1 := asImm_some h
  have h2 := hl _ _ h1
  refine ⟨?_, h2⟩
  rw [h1]; exact eval_imm_of_litOK h2

theorem lit_ok_eq {env : Env} {e : Expr} (hl : LitOK e) {x y : Int} (h : asImm e = some x)
    (hy : eval env e = .ok y) : y = x := by
  rw [(lit_eval hl h).1] at hy; injection hy with hy; exact hy.symm

theorem eval_bool_imm {env : Env} (c : Bool) : eval env (.imm .bool (b2i c)) = .ok (b2i c) := by
  cases c <;> simp [eval, b2i, wrap]

theorem norm_zero {t : DT} {v : Int} (h : norm t 0 = .ok v) : v = 0 := by
  cases t <;> simp [norm, InRange, DT.lo, DT.hi, wrap] at h <;> omega

/-- The folder proper: whenever it returns a replacement for an operator node whose operands have
equal types and whose literals are in range, the replacement has the value of the node. -/
theorem tryFold_sound {env : Env} (hE : env.OK) {same : Expr → Expr → Bool}
    (hsame : ∀ a b, same a b = true → a = b) {op : BinOp} {a b e : Expr}
    (hT : a.dtype = b.dtype) (hwa : WT a) (hwb : WT b) (ha : LitOK a) (hb : LitOK b)
    (h : tryFold same op a b = .ok (some e)) {v : Int} (hv : eval env (.bin op a b) = .ok v) :
    eval env e = .ok v := by
  obtain ⟨x, y, hx, hy, hv⟩ := eval_bin_ok hv
  have key : ∀ w, norm a.dtype w = .ok v → mkIntImm a.dtype w = .ok e → eval env e = .ok v := by
    intro w h1 h2
    obtain ⟨rfl, h3, _⟩ := mkIntImm_ok h2
    exact eval_norm_imm h3 h1
  have cmp : ∀ (r : Int → Int → Bool), tryCmp r a b = .ok (some e) →
      eval env e = .ok (b2i (r x y)) := by
    intro r h
    unfold tryCmp at h
    split at h
    · rename_i x' y' hax hby
      rw [lit_ok_eq ha hax hx, lit_ok_eq hb hby hy]
      obtain ⟨rfl, _, _⟩ := mkIntImm_ok (map_some_ok h)
      exact eval_bool_imm _
    · simp at h
  cases op <;> simp only [tryFold] at h <;> simp only [binVal] at hv
  case add =>
    unfold tryAdd at h
    split at h
    · rename_i x' y' hax hby
      rw [lit_ok_eq ha hax hx, lit_ok_eq hb hby hy] at hv
      exact key _ hv (map_some_ok h)
    · rename_i x' hax hby
      split at h
      · injection h with h; injection h with h; subst h
        rename_i h0
        rw [lit_ok_eq ha hax hx, h0, Int.zero_add, hT] at hv
        rw [norm_self hE hwb hy hv]; exact hy
      · simp at h
    · rename_i y' hax hby
      split at h
      · injection h with h; injection h with h; subst h
        rename_i h0
        rw [lit_ok_eq hb hby hy, h0, Int.add_zero] at hv
        rw [norm_self hE hwa hx hv]; exact hx
      · simp at h
    · simp at h
  case sub =>
    unfold trySub at h
    split at h
    · rename_i x' y' hax hby
      rw [lit_ok_eq ha hax hx, lit_ok_eq hb hby hy] at hv
      exact key _ hv (map_some_ok h)
    · rename_i y' hby hno
      split at h
      · injection h with h; injection h with h; subst h
        rename_i h0
        rw [lit_ok_eq hb hby hy, h0, Int.sub_zero] at hv
        rw [norm_self hE hwa hx hv]; exact hx
      · simp at h
    · simp at h
  case mul =>
    unfold tryMul at h
    split at h
    · rename_i x' y' hax hby
      rw [lit_ok_eq ha hax hx, lit_ok_eq hb hby hy] at hv
      exact key _ hv (map_some_ok h)
    · rename_i x' hax hby
      have hxx := lit_ok_eq ha hax hx
      split at h
      · injection h with h; injection h with h; subst h
        rename_i h0
        rw [hxx, h0, Int.one_mul, hT] at hv
        rw [norm_self hE hwb hy hv]; exact hy
      · split at h
        · injection h with h; injection h with h; subst h
          rename_i h0
          rw [hxx, h0, Int.zero_mul] at hv
          rw [norm_zero hv, hx, hxx, h0]
        · simp at h
    · rename_i y' hax hby
      have hyy := lit_ok_eq hb hby hy
      split at h
      · injection h with h; injection h with h; subst h
        rename_i h0
        rw [hyy, h0, Int.mul_one] at hv
        rw [norm_self hE hwa hx hv]; exact hx
      · split at h
        · injection h with h; injection h with h; subst h
          rename_i h0
          rw [hyy, h0, Int.mul_zero] at hv
          rw [norm_zero hv, hy, hyy, h0]
        · simp at h
    · simp at h
  case floordiv =>
    split at hv
    swap
    · cases hv
    rename_i hs
    split at hv
    · cases hv
    rename_i hy0
    unfold tryFloorDiv at h
    split at h
    · rename_i x' y' hax hby
      have hxx := lit_ok_eq ha hax hx
      have hyy := lit_ok_eq hb hby hy
      subst hxx hyy
      rw [if_neg hy0] at h
      have hq : InRange a.dtype (x.fdiv y) := by
        revert hv hs
        cases a.dtype <;> simp only [norm, DT.signed] <;> intro hs hv <;> first
          | exact absurd hs (by decide)
          | (split at hv
             · assumption
             · cases hv)
      rw [codeFloor_eq hs (lit_eval (env := env) ha hax).2
        (hT ▸ (lit_eval (env := env) hb hby).2) hy0 hq] at h
      exact key _ hv (map_some_ok h)
    · rename_i x' hax hby
      split at h
      · rename_i h0
        rw [hT] at hs
        rw [if_pos hs] at h
        injection h with h; injection h with h; subst h
        have hxx := lit_ok_eq ha hax hx
        rw [hxx, h0, Int.zero_fdiv] at hv
        rw [norm_zero hv, hx, hxx, h0]
      · simp at h
    · split at h <;> simp at h
    · simp at h
  case floormod =>
    split at hv
    swap
    · cases hv
    rename_i hs
    split at hv
    · cases hv
    rename_i hy0
    unfold tryFloorMod at h
    rw [if_pos ⟨hs, (hT ▸ hs : b.dtype.signed = true)⟩] at h
    split at h
    · rename_i x' y' hax hby
      have hxx := lit_ok_eq ha hax hx
      have hyy := lit_ok_eq hb hby hy
      subst hxx hyy
      rw [if_neg hy0] at h
      rw [codeFloorMod_eq hs (lit_eval (env := env) ha hax).2
        (hT ▸ (lit_eval (env := env) hb hby).2) hy0] at h
      exact key _ hv (map_some_ok h)
    · rename_i x' hax hby
      split at h
      · rename_i h0
        injection h with h; injection h with h; subst h
        have hxx := lit_ok_eq ha hax hx
        rw [hxx, h0, Int.zero_fmod] at hv
        rw [norm_zero hv, hx, hxx, h0]
      · simp at h
    · rename_i y' hax hby
      split at h
      · rename_i h1
        have h := map_some_ok h
        unfold makeConst at h
        rw [if_pos hs] at h
        injection h with h; subst h
        have hyy := lit_ok_eq hb hby hy
        rw [hyy, h1] at hv
        have h10 : x.fmod 1 = 0 := by simp
        rw [h10] at hv
        rw [norm_zero hv]
        refine eval_imm_of_litOK ?_
        revert hs
        cases a.dtype <;> simp [DT.signed, InRange, DT.lo, DT.hi]
      · split at h <;> simp at h
    · simp at h
  case truncmod =>
    split at hv
    · cases hv
    rename_i hc
    simp only [not_or] at hc
    injection hv with hv
    unfold tryTruncMod at h
    split at h
    · rename_i hi
      have hs : a.dtype.signed = true := hi.1
      split at h
      · rename_i x' y' hax hby
        have hxx := lit_ok_eq ha hax hx
        have hyy := lit_ok_eq hb hby hy
        subst hxx hyy
        rw [if_neg hc.2.1] at h
        split at h
        · obtain ⟨rfl, h3, _⟩ := mkIntImm_ok (map_some_ok h)
          rw [hv] at h3 ⊢
          revert hs
          cases a.dtype <;> simp only [DT.signed, eval] <;> intro hs <;> try cases hs
          · simp
          · rw [wrap_of_inRange h3]; simp
        · cases h
      · rename_i x' hax hby
        split at h
        · rename_i h0
          injection h with h; injection h with h; subst h
          have hxx := lit_ok_eq ha hax hx
          rw [hxx, h0, Int.zero_tmod] at hv
          rw [← hv, hx, hxx, h0]
        · simp at h
      · rename_i y' hax hby
        split at h
        · rename_i h1
          have h := map_some_ok h
          unfold makeConst at h
          rw [if_pos hs] at h
          injection h with h; subst h
          have hyy := lit_ok_eq hb hby hy
          rw [hyy, h1, Int.tmod_one] at hv
          rw [← hv]
          refine eval_imm_of_litOK ?_
          revert hs
          cases a.dtype <;> simp [DT.signed, InRange, DT.lo, DT.hi]
        · split at h <;> simp at h
      · simp at h
    · simp at h
  case min =>
    unfold tryMin at h
    injection hv with hv
    split at h
    · rename_i x' y' hax hby
      have hxx := lit_ok_eq ha hax hx
      have hyy := lit_ok_eq hb hby hy
      subst hxx hyy
      obtain ⟨rfl, h3, _⟩ := mkIntImm_ok (map_some_ok h)
      rw [hv]
      refine eval_imm_of_litOK ?_
      have h1 := (lit_eval (env := env) ha hax).2
      have h2 := (lit_eval (env := env) hb hby).2
      rw [← hT] at h2
      rw [← hv]; split <;> assumption
    · split at h
      · rename_i hs
        injection h with h; injection h with h; subst h
        have := hsame _ _ hs
        subst this
        rw [hx] at hy; injection hy with hy; subst hy
        rw [hx, ← hv]; simp
      · simp at h
  case max =>
    unfold tryMax at h
    injection hv with hv
    split at h
    · rename_i x' y' hax hby
      have hxx := lit_ok_eq ha hax hx
      have hyy := lit_ok_eq hb hby hy
      subst hxx hyy
      obtain ⟨rfl, h3, _⟩ := mkIntImm_ok (map_some_ok h)
      rw [hv]
      refine eval_imm_of_litOK ?_
      have h1 := (lit_eval (env := env) ha hax).2
      have h2 := (lit_eval (env := env) hb hby).2
      rw [← hT] at h2
      rw [← hv]; split <;> assumption
    · split at h
      · rename_i hs
        injection h with h; injection h with h; subst h
        have := hsame _ _ hs
        subst this
        rw [hx] at hy; injection hy with hy; subst hy
        rw [hx, ← hv]; simp
      · simp at h
  all_goals (injection hv with hv; rw [← hv]; exact cmp _ h)

/-- **C02, one builder call.**  Take any operator, any operand expressions whose top-level literals
belong to their type, any environment.  If the builder returns an expression at all, it evaluates
to the value of the unfolded expression (operands converted to the common type, then the operator)
whenever that value is defined. -/
theorem mkBin_sound {env : Env} (hE : env.OK) {same : Expr → Expr → Bool}
    (hsame : ∀ a b, same a b = true → a = b) {op : BinOp} {a b e : Expr}
    (hwa : WT a) (hwb : WT b) (ha : LitOK a) (hb : LitOK b)
    (h : mkBin same op a b = .ok e) {v : Int} (hv : eval env (plain op a b) = .ok v) :
    eval env e = .ok v := by
  unfold mkBin at h
  split at h
  · cases h
  rename_i a' b' hm
  obtain ⟨⟨ea, da, la, wa⟩, ⟨eb, db, lb, wb⟩⟩ := matchTypes_sound (env := env) ha hb hm
  have hv' : eval env (.bin op a' b') = .ok v := by
    unfold plain at hv
    rw [← hv]
    simp only [eval.eq_5, ea, eb, da, Expr.dtype.eq_4]
  split at h
  · cases h
  · rename_i e' hf
    injection h with h; subst h
    exact tryFold_sound hE hsame (da.trans db.symm) (wa hwa) (wb hwb) la lb hf hv'
  · injection h with h; subst h; exact hv'

theorem tryFold_raise {env : Env} {same : Expr → Expr → Bool}
    (hsame : ∀ a b, same a b = true → a = b) {op : BinOp} {a b e : Expr}
    (hop : op ≠ .mul ∧ op ≠ .floordiv ∧ op ≠ .floormod ∧ op ≠ .truncmod)
    (ha : LitOK a) (hb : LitOK b)
    (h : tryFold same op a b = .ok (some e)) {x : Err} (hx : x ≠ .ub)
    (hv : eval env (.bin op a b) = .error x) :
    eval env e = .error x := by
  have hnorm : ∀ t w, norm t w ≠ .error x := by
    intro t w hn
    cases t <;> simp only [norm] at hn
    · split at hn
      · cases hn
      · injection hn with hn; exact hx hn.symm
    · split at hn
      · cases hn
      · injection hn with hn; exact hx hn.symm
    · cases hn
    · cases hn
    · injection hn with hn; exact hx hn.symm
  -- only an operand can raise
  have hop2 : eval env a = .error x ∨ (∃ y, eval env a = .ok y ∧ eval env b = .error x) := by
    simp only [eval] at hv
    split at hv
    · left; rename_i h1; rw [h1, hv]
    · rename_i y hy
      split at hv
      · right; rename_i h1; exact ⟨y, hy, by rw [h1, hv]⟩
      · exfalso
        cases op <;> simp only [binVal] at hv <;> first
          | exact hnorm _ _ hv
          | (cases hv)
          | simp at hop
  have hla : ∀ w, asImm a = some w → eval env a ≠ .error x := by
    intro w hw h1; rw [(lit_eval ha hw).1] at h1; cases h1
  have hlb : ∀ w, asImm b = some w → eval env b ≠ .error x := by
    intro w hw h1; rw [(lit_eval hb hw).1] at h1; cases h1
  have both : ∀ w z, asImm a = some w → asImm b = some z → False := by
    intro w z h1 h2
    rcases hop2 with h3 | ⟨y, _, h3⟩
    · exact hla _ h1 h3
    · exact hlb _ h2 h3
  have cmp : ∀ r, tryCmp r a b ≠ .ok (some e) := by
    intro r h
    unfold tryCmp at h
    split at h
    · rename_i h1 h2; exact both _ _ h1 h2
    · simp at h
  have ra : (∃ z, asImm b = some z) → eval env a = .error x := by
    rintro ⟨z, hz⟩
    rcases hop2 with h3 | ⟨y, _, h3⟩
    · exact h3
    · exact absurd h3 (hlb _ hz)
  have rb : (∃ z, asImm a = some z) → eval env b = .error x := by
    rintro ⟨z, hz⟩
    rcases hop2 with h3 | ⟨y, _, h3⟩
    · exact absurd h3 (hla _ hz)
    · exact h3
  have same_case : same a b = true → eval env a = .error x := by
    intro hs
    have := hsame _ _ hs; subst this
    rcases hop2 with h3 | ⟨y, _, h3⟩ <;> exact h3
  cases op <;> simp only [tryFold] at h
  case add =>
    unfold tryAdd at h
    split at h
    · rename_i h1 h2; exact (both _ _ h1 h2).elim
    · rename_i h1 h2
      split at h
      · injection h with h; injection h with h; subst h; exact rb ⟨_, h1⟩
      · simp at h
    · rename_i h1 h2
      split at h
      · injection h with h; injection h with h; subst h; exact ra ⟨_, h2⟩
      · simp at h
    · simp at h
  case sub =>
    unfold trySub at h
    split at h
    · rename_i h1 h2; exact (both _ _ h1 h2).elim
    · rename_i h2 _
      split at h
      · injection h with h; injection h with h; subst h; exact ra ⟨_, h2⟩
      · simp at h
    · simp at h
  case min =>
    unfold tryMin at h
    split at h
    · rename_i h1 h2; exact (both _ _ h1 h2).elim
    · split at h
      · injection h with h; injection h with h; subst h; exact same_case (by assumption)
      · simp at h
  case max =>
    unfold tryMax at h
    split at h
    · rename_i h1 h2; exact (both _ _ h1 h2).elim
    · split at h
      · injection h with h; injection h with h; subst h; exact same_case (by assumption)
      · simp at h
  all_goals first
    | exact absurd h (cmp _)
    | simp at hop

/-- For `+`, `-`, `min`, `max` and the comparisons folding also keeps exceptions: an expression
that raises still raises the same exception. -/
theorem mkBin_raise {env : Env} {same : Expr → Expr → Bool}
    (hsame : ∀ a b, same a b = true → a = b) {op : BinOp} {a b e : Expr}
    (hop : op ≠ .mul ∧ op ≠ .floordiv ∧ op ≠ .floormod ∧ op ≠ .truncmod)
    (ha : LitOK a) (hb : LitOK b)
    (h : mkBin same op a b = .ok e) {x : Err} (hx : x ≠ .ub)
    (hv : eval env (plain op a b) = .error x) :
    eval env e = .error x := by
  unfold mkBin at h
  split at h
  · cases h
  rename_i a' b' hm
  obtain ⟨⟨ea, da, la, wa⟩, ⟨eb, db, lb, wb⟩⟩ := matchTypes_sound (env := env) ha hb hm
  have hv' : eval env (.bin op a' b') = .error x := by
    unfold plain at hv
    rw [← hv]
    simp only [eval.eq_5, ea, eb, da, Expr.dtype.eq_4]
  split at h
  · cases h
  · rename_i e' hf
    injection h with h; subst h
    exact tryFold_raise hsame hop la lb hf hx hv'
  · injection h with h; subst h; exact hv'

/-! ## Logical operators -/

theorem castBool_eval {env : Env} (hE : env.OK) {e e' : Expr} (hw : WT e)
    (h : castE .bool e = .ok e') {v : Int} (hv : eval env e = .ok v)
    (hl : ∀ t w, e = .imm t w → InRange .int64 w ∧ (t = .bool ∨ t.signed = true)) :
    eval env e' = .ok (if v = 0 then 0 else 1) := by
  unfold castE at h
  split at h
  · rename_i ht
    injection h with h; subst h
    have := eval_unsigned_range hE e v hw (by rw [ht]; rfl) hv
    rw [ht] at this
    simp only [InRange, DT.lo, DT.hi] at this
    rw [hv]
    split
    · simp_all
    · have : v = 1 := by omega
      rw [this]
  · rename_i ht
    split at h
    · rename_i s w
      obtain ⟨hr, hsg⟩ := hl s w rfl
      unfold makeConst at h
      simp only [DT.signed, Bool.false_eq_true, if_false] at h
      split at h
      · cases h
      · rename_i hneg
        injection h with h; subst h
        simp only [eval, Except.ok.injEq, Expr.dtype] at hv ht ⊢
        simp only [reduceCtorEq, if_false, wrap]
        have : v = 0 ↔ w = 0 := by
          cases s <;> simp only [InRange, DT.lo, DT.hi, wrap] at hv hr <;>
            simp [DT.signed] at ht hv hsg <;> omega
        simp only [this]
    · injection h with h; subst h
      simp only [eval, hv, ht, if_false, wrap]

/-- The literal field is an `int64_t` (true of every `IntImm`). -/
def Lit64 (e : Expr) : Prop := ∀ t v, e = .imm t v → InRange .int64 v

theorem lit_truth {env : Env} {e : Expr} (hl : Lit64 e) (ht : e.dtype = .bool ∨ e.dtype.signed = true)
    {x v : Int} (hx : asImm e = some x) (hv : eval env e = .ok v) : v = 0 ↔ x = 0 := by
  have h1 := asImm_some hx
  have h2 := hl _ _ h1
  revert h1 ht
  generalize e.dtype = t
  intro ht h1
  subst h1
  simp only [eval, Except.ok.injEq] at hv
  simp only [InRange, DT.lo, DT.hi] at h2
  cases t <;> simp [DT.signed, wrap] at ht hv <;> omega

theorem boolTy {t : DT} (h : t = .bool ∨ t.signed = true) :
    ∀ e : Expr, e.dtype = t → Lit64 e →
      ∀ s w, e = .imm s w → InRange .int64 w ∧ (s = .bool ∨ s.signed = true) := by
  rintro e rfl hl s w rfl
  exact ⟨hl _ _ rfl, h⟩

/-- **C02, `and`.** -/
theorem mkAnd_sound {env : Env} (hE : env.OK) {a b e : Expr} (hwa : WT a) (hwb : WT b)
    (ha : Lit64 a) (hb : Lit64 b) (h : mkAnd a b = .ok e) {v : Int}
    (hv : eval env (.and a b) = .ok v) : eval env e = .ok v := by
  unfold mkAnd at h
  split at h
  · cases h
  rename_i hty
  rw [not_not] at hty
  obtain ⟨hta, htb⟩ := hty
  have la := boolTy hta a rfl ha
  have lb := boolTy htb b rfl hb
  simp only [eval] at hv
  split at hv
  · cases hv
  rename_i x hx
  split at h
  · rename_i xa xb hxa hxb
    injection h with h; subst h
    have hxa' := lit_truth (env := env) ha hta hxa hx
    have hbe : ∃ y, eval env b = .ok y := by rw [asImm_some hxb]; exact ⟨_, rfl⟩
    obtain ⟨y, hy⟩ := hbe
    have hxb'' := lit_truth (env := env) hb htb hxb hy
    rw [hy] at hv
    simp only [eval, if_true]
    split at hv
    · have : xa = 0 := hxa'.mp (by assumption)
      simpa [this, b2i] using hv
    · have : xa ≠ 0 := fun h => by simp_all
      by_cases hy0 : y = 0
      · have := hxb''.mp hy0
        simp_all [b2i]
      · have : xb ≠ 0 := fun h => hy0 (hxb''.mpr h)
        simp_all [b2i]
  · rename_i xa hxa hxb
    have hxa' := lit_truth (env := env) ha hta hxa hx
    split at h
    · rename_i h0
      rw [if_neg (fun hc => h0 (hxa'.mp hc))] at hv
      split at hv
      · cases hv
      rename_i y hy
      injection hv with hv
      rw [castBool_eval hE hwb h hy lb, hv]
    · rename_i h0
      rw [not_not] at h0
      rw [if_pos (hxa'.mpr h0)] at hv
      injection hv with hv
      rw [castBool_eval hE hwa h hx la, if_pos (hxa'.mpr h0), hv]
  · rename_i xb hxa hxb
    have hbe : ∃ y, eval env b = .ok y := by rw [asImm_some hxb]; exact ⟨_, rfl⟩
    obtain ⟨y, hy⟩ := hbe
    have hxb' := lit_truth (env := env) hb htb hxb hy
    rw [hy] at hv
    simp only at hv
    split at h
    · rename_i h0
      rw [castBool_eval hE hwa h hx la, ← hv]
      split
      · rfl
      · rw [if_neg (fun hc => h0 (hxb'.mp hc))]
    · rename_i h0
      rw [not_not] at h0
      rw [castBool_eval hE hwb h hy lb, ← hv, if_pos (hxb'.mpr h0)]
      split <;> rfl
  · injection h with h; subst h
    simp only [eval, hx]; exact hv

/-- **C02, `or`.** -/
theorem mkOr_sound {env : Env} (hE : env.OK) {a b e : Expr} (hwa : WT a) (hwb : WT b)
    (ha : Lit64 a) (hb : Lit64 b) (h : mkOr a b = .ok e) {v : Int}
    (hv : eval env (.or a b) = .ok v) : eval env e = .ok v := by
  unfold mkOr at h
  split at h
  · cases h
  rename_i hty
  rw [not_not] at hty
  obtain ⟨hta, htb⟩ := hty
  have la := boolTy hta a rfl ha
  have lb := boolTy htb b rfl hb
  simp only [eval] at hv
  split at hv
  · cases hv
  rename_i x hx
  split at h
  · rename_i xa xb hxa hxb
    injection h with h; subst h
    have hxa' := lit_truth (env := env) ha hta hxa hx
    have hbe : ∃ y, eval env b = .ok y := by rw [asImm_some hxb]; exact ⟨_, rfl⟩
    obtain ⟨y, hy⟩ := hbe
    have hxb'' := lit_truth (env := env) hb htb hxb hy
    rw [hy] at hv
    simp only [eval, if_true]
    split at hv
    · have : xa ≠ 0 := fun h => by simp_all
      simp_all [b2i]
    · have : xa = 0 := hxa'.mp (by simp_all)
      by_cases hy0 : y = 0
      · have := hxb''.mp hy0
        simp_all [b2i]
      · have : xb ≠ 0 := fun h => hy0 (hxb''.mpr h)
        simp_all [b2i]
  · rename_i xa hxa hxb
    have hxa' := lit_truth (env := env) ha hta hxa hx
    split at h
    · rename_i h0
      rw [if_pos (fun hc => h0 (hxa'.mp hc))] at hv
      injection hv with hv
      rw [castBool_eval hE hwa h hx la, if_neg (fun hc => h0 (hxa'.mp hc)), hv]
    · rename_i h0
      rw [not_not] at h0
      rw [if_neg (fun hc => hc (hxa'.mpr h0))] at hv
      split at hv
      · cases hv
      rename_i y hy
      injection hv with hv
      rw [castBool_eval hE hwb h hy lb, hv]
  · rename_i xb hxa hxb
    have hbe : ∃ y, eval env b = .ok y := by rw [asImm_some hxb]; exact ⟨_, rfl⟩
    obtain ⟨y, hy⟩ := hbe
    have hxb' := lit_truth (env := env) hb htb hxb hy
    rw [hy] at hv
    simp only at hv
    split at h
    · rename_i h0
      rw [castBool_eval hE hwb h hy lb, ← hv, if_neg (fun hc => h0 (hxb'.mp hc))]
      split <;> rfl
    · rename_i h0
      rw [not_not] at h0
      rw [castBool_eval hE hwa h hx la, ← hv, if_pos (hxb'.mpr h0)]
      by_cases hx0 : x = 0 <;> simp [hx0]
  · injection h with h; subst h
    simp only [eval, hx]; exact hv

/-- **C02, `not`.** -/
theorem mkNot_sound {env : Env} {a e : Expr} (ha : Lit64 a) (h : mkNot a = .ok e) {v : Int}
    (hv : eval env (.not a) = .ok v) : eval env e = .ok v := by
  unfold mkNot at h
  split at h
  · cases h
  rename_i hty
  rw [not_not] at hty
  simp only [eval] at hv
  split at hv
  · cases hv
  rename_i x hx
  split at h
  · rename_i xa hxa
    have hxa' := lit_truth (env := env) ha hty hxa hx
    obtain ⟨rfl, _, _⟩ := mkIntImm_ok h
    rw [eval_bool_imm, ← hv]
    by_cases h0 : x = 0
    · simp [h0, hxa'.mp h0, b2i]
    · have h1 : xa ≠ 0 := fun h => h0 (hxa'.mpr h)
      simp [h0, h1, b2i]
  · injection h with h; subst h
    simp only [eval, hx]; exact hv

/-! ## Whole expressions -/

/-- The user's expression tree with the conversions made explicit and nothing folded. -/
def ref : Expr → Expr
  | .var t i => .var t i
  | .call t i => .call t i
  | .imm t v => .imm t v
  | .cast t e => .cast t (ref e)
  | .bin op a b => plain op (ref a) (ref b)
  | .and a b => .and (ref a) (ref b)
  | .or a b => .or (ref a) (ref b)
  | .not a => .not (ref a)

/-- Expressions over `int32`, `int64` and `bool`: literals belong to their type, each binary
operator has at least one integer operand, explicit casts go to `bool` or widen an integer. -/
def Nice : Expr → Prop
  | .var t _ | .call t _ => t = .bool ∨ t.signed = true
  | .imm t v => InRange t v ∧ (t = .bool ∨ t.signed = true)
  | .cast t e => Nice e ∧ (t = .bool ∨ (t = .int64 ∧ (ref e).dtype.signed = true))
  | .bin _ a b => Nice a ∧ Nice b ∧ (matchType (ref a).dtype (ref b).dtype).signed = true
  | .and a b | .or a b => Nice a ∧ Nice b
  | .not a => Nice a

theorem emod_le_self {x : Int} (hx : 0 ≤ x) (y : Int) : x % y ≤ x := by
  obtain ⟨n, rfl⟩ := Int.eq_ofNat_of_zero_le hx
  obtain ⟨m, rfl | rfl⟩ := y.eq_nat_or_neg
  · exact_mod_cast Nat.mod_le n m
  · rw [Int.emod_neg]; exact_mod_cast Nat.mod_le n m

theorem tmod_inRange {t : DT} {x y : Int} (h : InRange t x) : InRange t (x.tmod y) := by
  have h0 : t.lo ≤ 0 ∧ 0 ≤ t.hi := by cases t <;> decide
  obtain ⟨h1, h2⟩ := h
  rcases Int.le_total 0 x with hx | hx
  · have h4 := Int.tmod_nonneg y hx
    have h5 : x.tmod y ≤ x := by
      rw [Int.tmod_eq_emod_of_nonneg hx]
      exact emod_le_self hx y
    exact ⟨by omega, by omega⟩
  · have h4 := Int.tmod_nonneg y (a := -x) (by omega)
    have h5 : (-x).tmod y ≤ -x := by
      rw [Int.tmod_eq_emod_of_nonneg (by omega)]
      exact emod_le_self (by omega) y
    rw [Int.neg_tmod] at h4 h5
    exact ⟨by omega, by omega⟩

theorem norm_inRange {t : DT} {w v : Int} (h : norm t w = .ok v) : InRange t v := by
  cases t <;> simp only [norm] at h
  · split at h
    · injection h with h; subst h; assumption
    · cases h
  · split at h
    · injection h with h; subst h; assumption
    · cases h
  · injection h with h; subst h; exact wrap_inRange _ _
  · injection h with h; subst h; exact wrap_inRange _ _
  · cases h

theorem binVal_inRange {op : BinOp} {t : DT} {x y v : Int} (hx : InRange t x) (hy : InRange t y)
    (h : binVal op t x y = .ok v) : InRange (if op.isCmp then .bool else t) v := by
  have hb (c : Bool) : InRange .bool (b2i c) := by cases c <;> decide
  cases op <;> simp only [binVal, BinOp.isCmp, if_true, Bool.false_eq_true, if_false] at h ⊢
  · exact norm_inRange h
  · exact norm_inRange h
  · exact norm_inRange h
  · split at h
    · split at h
      · cases h
      · exact norm_inRange h
    · cases h
  · split at h
    · split at h
      · cases h
      · exact norm_inRange h
    · cases h
  · split at h
    · cases h
    · injection h with h; subst h; exact tmod_inRange hx
  · injection h with h; subst h; split <;> assumption
  · injection h with h; subst h; split <;> assumption
  all_goals (injection h with h; subst h; exact hb _)

theorem b01 (c : Prop) [Decidable c] : InRange .bool (if c then 0 else 1) := by
  split <;> decide
theorem b10 (c : Prop) [Decidable c] : InRange .bool (if c then 1 else 0) := by
  split <;> decide

theorem eval_and_range {env : Env} {a b : Expr} {v : Int} (h : eval env (.and a b) = .ok v) :
    InRange .bool v := by
  simp only [eval] at h
  split at h
  · cases h
  split at h
  · injection h with h; subst h; decide
  split at h
  · cases h
  · injection h with h; subst h; exact b01 _

theorem eval_or_range {env : Env} {a b : Expr} {v : Int} (h : eval env (.or a b) = .ok v) :
    InRange .bool v := by
  simp only [eval] at h
  split at h
  · cases h
  split at h
  · injection h with h; subst h; decide
  split at h
  · cases h
  · injection h with h; subst h; exact b01 _

theorem eval_cast_range {env : Env} {t : DT} {e : Expr} {v : Int}
    (he : ∀ w, eval env e = .ok w → InRange e.dtype w) (h : eval env (.cast t e) = .ok v) :
    InRange t v := by
  simp only [eval] at h
  split at h
  · injection h with h
    rename_i w hw
    subst h
    split
    · rename_i ht; subst ht; exact he w hw
    · exact wrap_inRange _ _
  · cases h

theorem ref_range {env : Env} (hE : env.OK) :
    ∀ (e : Expr), Nice e → ∀ v, eval env (ref e) = .ok v → InRange (ref e).dtype v := by
  intro e
  induction e with
  | var t i => intro _ v h; simp only [ref, eval, Except.ok.injEq] at h; subst h; exact hE.var t i
  | call t i =>
    intro _ v h
    simp only [ref, eval] at h
    split at h
    · rename_i w hw'
      simp only [Except.ok.injEq] at h; subst h; exact hE.call t i _ hw'
    · cases h
  | imm t w =>
    intro hn v h
    simp only [ref] at h ⊢
    rw [eval_imm_of_litOK hn.1] at h
    injection h with h; subst h; exact hn.1
  | cast t e ih =>
    intro hn v h
    exact eval_cast_range (ih hn.1) h
  | bin op a b iha ihb =>
    intro hn v h
    simp only [ref, plain] at h ⊢
    obtain ⟨x, y, hx, hy, hv⟩ := eval_bin_ok h
    exact binVal_inRange (eval_cast_range (iha hn.1) hx) (eval_cast_range (ihb hn.2.1) hy) hv
  | and a b _ _ => intro _ v h; exact eval_and_range h
  | or a b _ _ => intro _ v h; exact eval_or_range h
  | not a _ =>
    intro _ v h
    simp only [ref, eval] at h
    split at h
    · cases h
    · injection h with h; subst h; exact b10 _

/-- What folding keeps of the shape of an expression. -/
structure Kept (e r : Expr) : Prop where
  wt : WT e
  lit : Lit64 e
  ty : e.dtype = r.dtype ∨ (r.dtype = .bool ∧ e.dtype = .int32)
  nouint : e.dtype = .bool ∨ e.dtype.signed = true

theorem matchType_kept {s t s' t' : DT} (h : (matchType s t).signed = true)
    (hs : s' = s ∨ (s = .bool ∧ s' = .int32)) (ht : t' = t ∨ (t = .bool ∧ t' = .int32))
    (hs' : s' = .bool ∨ s'.signed = true) (ht' : t' = .bool ∨ t'.signed = true) :
    matchType s' t' = matchType s t := by
  revert h hs ht hs' ht'
  cases s <;> cases t <;> cases s' <;> cases t' <;> decide

theorem inRange_matchType {s t : DT} (h : (matchType s t).signed = true)
    (hs : s = .bool ∨ s.signed = true) (ht : t = .bool ∨ t.signed = true) (x : Int) :
    (InRange s x → InRange (matchType s t) x) ∧ (InRange t x → InRange (matchType s t) x) := by
  revert h hs ht
  cases s <;> cases t <;> simp [matchType, DT.signed, DT.bits, InRange, DT.lo, DT.hi] <;> omega

theorem eval_cast_fit {env : Env} {T : DT} {r : Expr} {x : Int} (hr : eval env r = .ok x)
    (hx : InRange T x) : eval env (.cast T r) = .ok x := by
  simp only [eval, hr, wrap_of_inRange hx, ite_self]

theorem lit_value {env : Env} {t : DT} {w x : Int} (ht : t.signed = true) (hw : InRange .int64 w)
    (h : eval env (.imm t w) = .ok x) : x = w := by
  simp only [eval, Except.ok.injEq] at h
  cases t <;> simp [DT.signed] at ht h
  · exact h.symm
  · rw [wrap_of_inRange hw] at h; exact h.symm

theorem simpleCast_fit {env : Env} {T : DT} (hT : T.signed = true) {a : Expr} (ha : Lit64 a) {x : Int}
    (hx : InRange T x) (he : eval env a = .ok x) :
    eval env (simpleCast T a) = .ok x ∧ LitOK (simpleCast T a) := by
  unfold simpleCast
  split
  · rename_i hd
    refine ⟨he, ?_⟩
    rintro s w rfl
    simp only [Expr.dtype] at hd; subst hd
    rw [← lit_value hT (ha _ _ rfl) he]; exact hx
  · exact ⟨eval_cast_fit he hx, fun _ _ h => by cases h⟩

theorem castE_fit {env : Env} {T : DT} (hT : T.signed = true) {a a' : Expr} (ha : Lit64 a)
    (hs : a.dtype.signed = true) {x : Int} (hx : InRange T x) (he : eval env a = .ok x)
    (h : castE T a = .ok a') : eval env a' = .ok x ∧ LitOK a' := by
  unfold castE at h
  split at h
  · rename_i hd
    injection h with h; subst h
    have := simpleCast_fit (env := env) hT ha hx he
    unfold simpleCast at this
    rw [if_pos hd] at this
    exact this
  · split at h
    · rename_i s w
      unfold makeConst at h
      rw [if_pos hT] at h
      injection h with h; subst h
      have := lit_value hs (ha _ _ rfl) he
      subst this
      refine ⟨eval_imm_of_litOK hx, ?_⟩
      intro s' w' h; injection h with h1 h2; subst h1 h2; exact hx
    · injection h with h; subst h
      exact ⟨eval_cast_fit he hx, fun _ _ h => by cases h⟩

theorem castE_shape {T : DT} {a a' : Expr} (hw : WT a) (ha : Lit64 a) (h : castE T a = .ok a') :
    WT a' ∧ Lit64 a' ∧ a'.dtype = T := by
  unfold castE at h
  split at h
  · injection h with h; subst h; exact ⟨hw, ha, by assumption⟩
  · split at h
    · rename_i s w _
      have : a' = .imm T w := by
        unfold makeConst at h
        split at h
        · injection h with h; exact h.symm
        · split at h
          · cases h
          · injection h with h; exact h.symm
      subst this
      refine ⟨trivial, ?_, rfl⟩
      intro s' w' h; injection h with h1 h2; subst h1 h2; exact ha _ _ rfl
    · injection h with h; subst h
      exact ⟨hw, fun _ _ h => (by cases h), rfl⟩

theorem simpleCast_shape {T : DT} {a : Expr} (hw : WT a) (ha : Lit64 a) :
    WT (simpleCast T a) ∧ Lit64 (simpleCast T a) ∧ (simpleCast T a).dtype = T := by
  unfold simpleCast
  split
  · exact ⟨hw, ha, by assumption⟩
  · exact ⟨hw, fun _ _ h => (by cases h), rfl⟩

theorem matchTypes_shape {a b a' b' : Expr} (hwa : WT a) (hwb : WT b) (ha : Lit64 a) (hb : Lit64 b)
    (h : matchTypes a b = .ok (a', b')) :
    (WT a' ∧ Lit64 a' ∧ a'.dtype = matchType a.dtype b.dtype) ∧
    (WT b' ∧ Lit64 b' ∧ b'.dtype = matchType a.dtype b.dtype) := by
  unfold matchTypes at h
  simp only at h
  unfold matchType
  split at h
  · rename_i hst
    simp only [Except.ok.injEq, Prod.mk.injEq] at h
    obtain ⟨rfl, rfl⟩ := h
    rw [if_pos hst]
    exact ⟨⟨hwa, ha, rfl⟩, ⟨hwb, hb, hst.symm⟩⟩
  · rename_i hst
    rw [if_neg hst]
    split at h
    · rename_i hs
      rw [if_pos hs]
      split at h
      · rename_i hbits
        rw [if_pos hbits]
        cases hc : castE b.dtype a with
        | error f => simp [hc, Except.map] at h
        | ok c =>
          simp only [hc, Except.map, Except.ok.injEq, Prod.mk.injEq] at h
          obtain ⟨rfl, rfl⟩ := h
          exact ⟨castE_shape hwa ha hc, ⟨hwb, hb, rfl⟩⟩
      · rename_i hbits
        rw [if_neg hbits]
        cases hc : castE a.dtype b with
        | error f => simp [hc, Except.map] at h
        | ok c =>
          simp only [hc, Except.map, Except.ok.injEq, Prod.mk.injEq] at h
          obtain ⟨rfl, rfl⟩ := h
          exact ⟨⟨hwa, ha, rfl⟩, castE_shape hwb hb hc⟩
    · rename_i hs
      rw [if_neg hs]
      simp only [Except.ok.injEq, Prod.mk.injEq] at h
      obtain ⟨rfl, rfl⟩ := h
      exact ⟨simpleCast_shape hwa ha, simpleCast_shape hwb hb⟩

theorem matchTypes_fit {env : Env} {a b a' b' : Expr} (ha : Lit64 a) (hb : Lit64 b)
    (hT : (matchType a.dtype b.dtype).signed = true) {x y : Int}
    (hx : InRange (matchType a.dtype b.dtype) x) (hy : InRange (matchType a.dtype b.dtype) y)
    (hea : eval env a = .ok x) (heb : eval env b = .ok y)
    (h : matchTypes a b = .ok (a', b')) :
    (eval env a' = .ok x ∧ LitOK a') ∧ (eval env b' = .ok y ∧ LitOK b') := by
  have self : ∀ {e : Expr} {z : Int}, e.dtype.signed = true → Lit64 e → InRange e.dtype z →
      eval env e = .ok z → LitOK e := by
    intro e z h1 h2 h3 h4
    have := (simpleCast_fit (env := env) h1 h2 h3 h4).2
    unfold simpleCast at this
    rwa [if_pos rfl] at this
  unfold matchTypes at h
  simp only at h
  unfold matchType at hT hx hy
  split at h
  · rename_i hst
    simp only [Except.ok.injEq, Prod.mk.injEq] at h
    obtain ⟨rfl, rfl⟩ := h
    rw [if_pos hst] at hT hx hy
    exact ⟨⟨hea, self hT ha hx hea⟩, ⟨heb, self (hst ▸ hT) hb (hst ▸ hy) heb⟩⟩
  · rename_i hst
    rw [if_neg hst] at hT hx hy
    split at h
    · rename_i hs
      rw [if_pos hs] at hT hx hy
      split at h
      · rename_i hbits
        rw [if_pos hbits] at hT hx hy
        cases hc : castE b.dtype a with
        | error f => simp [hc, Except.map] at h
        | ok c =>
          simp only [hc, Except.map, Except.ok.injEq, Prod.mk.injEq] at h
          obtain ⟨rfl, rfl⟩ := h
          exact ⟨castE_fit hT ha (hs ▸ hT) hx hea hc, ⟨heb, self hT hb hy heb⟩⟩
      · rename_i hbits
        rw [if_neg hbits] at hT hx hy
        cases hc : castE a.dtype b with
        | error f => simp [hc, Except.map] at h
        | ok c =>
          simp only [hc, Except.map, Except.ok.injEq, Prod.mk.injEq] at h
          obtain ⟨rfl, rfl⟩ := h
          exact ⟨⟨hea, self hT ha hx hea⟩, castE_fit hT hb (hs ▸ hT) hy heb hc⟩
    · rename_i hs
      rw [if_neg hs] at hT hx hy
      simp only [Except.ok.injEq, Prod.mk.injEq] at h
      obtain ⟨rfl, rfl⟩ := h
      exact ⟨simpleCast_fit hT ha hx hea, simpleCast_fit hT hb hy heb⟩

theorem imm_shape {t : DT} {w : Int} {e : Expr} (h : mkIntImm t w = .ok e) :
    WT e ∧ Lit64 e ∧ e.dtype = t := by
  obtain ⟨rfl, h1, _⟩ := mkIntImm_ok h
  refine ⟨trivial, ?_, rfl⟩
  intro s' w' h; injection h with h2 h3; subst h2 h3; exact h1

theorem zero_shape {t : DT} {e : Expr} (h : makeConst t 0 = .ok e) :
    WT e ∧ Lit64 e ∧ e.dtype = t := by
  have : e = .imm t 0 := by
    unfold makeConst at h
    split at h
    · injection h with h; exact h.symm
    · simp at h; exact h.symm
  subst this
  refine ⟨trivial, ?_, rfl⟩
  intro s' w' h; injection h with h2 h3; subst h2 h3; decide

/-- Replacements have the type of the node. -/
theorem tryFold_shape {same : Expr → Expr → Bool} {op : BinOp} {a b e : Expr}
    (hT : a.dtype = b.dtype) (hwa : WT a) (hwb : WT b) (ha : Lit64 a) (hb : Lit64 b)
    (h : tryFold same op a b = .ok (some e)) :
    WT e ∧ Lit64 e ∧ e.dtype = (Expr.bin op a b).dtype := by
  have sa : WT a ∧ Lit64 a ∧ a.dtype = a.dtype := ⟨hwa, ha, rfl⟩
  have sb : WT b ∧ Lit64 b ∧ b.dtype = a.dtype := ⟨hwb, hb, hT.symm⟩
  have cmp : ∀ r, tryCmp r a b = .ok (some e) → WT e ∧ Lit64 e ∧ e.dtype = .bool := by
    intro r h
    unfold tryCmp at h
    split at h
    · exact imm_shape (map_some_ok h)
    · simp at h
  have lift : ∀ o, liftImm a.dtype o = .ok (some e) → WT e ∧ Lit64 e ∧ e.dtype = a.dtype := by
    intro o h
    cases o with
    | none => simp [liftImm] at h
    | some w => exact imm_shape (map_some_ok h)
  cases op <;> simp only [tryFold] at h <;>
    simp only [Expr.dtype, BinOp.isCmp, if_true, Bool.false_eq_true, if_false]
  case add =>
    unfold tryAdd at h
    split at h
    · exact imm_shape (map_some_ok h)
    · split at h
      · injection h with h; injection h with h; subst h; exact sb
      · simp at h
    · split at h
      · injection h with h; injection h with h; subst h; exact sa
      · simp at h
    · simp at h
  case sub =>
    unfold trySub at h
    split at h
    · exact imm_shape (map_some_ok h)
    · split at h
      · injection h with h; injection h with h; subst h; exact sa
      · simp at h
    · simp at h
  case mul =>
    unfold tryMul at h
    split at h
    · exact imm_shape (map_some_ok h)
    · split at h
      · injection h with h; injection h with h; subst h; exact sb
      · split at h
        · injection h with h; injection h with h; subst h; exact sa
        · simp at h
    · split at h
      · injection h with h; injection h with h; subst h; exact sa
      · split at h
        · injection h with h; injection h with h; subst h; exact sb
        · simp at h
    · simp at h
  case floordiv =>
    unfold tryFloorDiv at h
    split at h
    · split at h
      · cases h
      · exact lift _ h
    · split at h
      · split at h
        · injection h with h; injection h with h; subst h; exact sa
        · have := castE_shape hwa ha (map_some_ok h)
          rw [hT]; exact this
      · simp at h
    · split at h <;> simp at h
    · simp at h
  case floormod =>
    unfold tryFloorMod at h
    split at h
    · split at h
      · split at h
        · cases h
        · exact lift _ h
      · split at h
        · injection h with h; injection h with h; subst h; exact sa
        · simp at h
      · split at h
        · exact zero_shape (map_some_ok h)
        · split at h <;> simp at h
      · simp at h
    · simp at h
  case truncmod =>
    unfold tryTruncMod at h
    split at h
    · split at h
      · split at h
        · cases h
        · split at h
          · exact imm_shape (map_some_ok h)
          · cases h
      · split at h
        · injection h with h; injection h with h; subst h; exact sa
        · simp at h
      · split at h
        · exact zero_shape (map_some_ok h)
        · split at h <;> simp at h
      · simp at h
    · simp at h
  case min =>
    unfold tryMin at h
    split at h
    · exact imm_shape (map_some_ok h)
    · split at h
      · injection h with h; injection h with h; subst h; exact sa
      · simp at h
  case max =>
    unfold tryMax at h
    split at h
    · exact imm_shape (map_some_ok h)
    · split at h
      · injection h with h; injection h with h; subst h; exact sa
      · simp at h
  all_goals exact cmp _ h

theorem bind_ok {α β : Type} {x : Except Fail α} {f : α → Except Fail β} {b : β}
    (h : x.bind f = .ok b) : ∃ a, x = .ok a ∧ f a = .ok b := by
  cases x with
  | error e => simp [Except.bind] at h
  | ok a => exact ⟨a, rfl, h⟩

theorem int32_lit_shape (c : Bool) :
    WT (.imm .int32 (b2i c)) ∧ Lit64 (.imm .int32 (b2i c)) := by
  refine ⟨trivial, ?_⟩
  intro s w h; injection h with h1 h2; subst h1 h2; cases c <;> decide

theorem logic_shape {a b e r : Expr} (hwa : WT a) (hwb : WT b) (ha : Lit64 a) (hb : Lit64 b)
    (hr : r.dtype = .bool) (h : mkAnd a b = .ok e ∨ mkOr a b = .ok e) : Kept e r := by
  have lit : ∀ c, Kept (.imm .int32 (b2i c)) r := fun c =>
    ⟨(int32_lit_shape c).1, (int32_lit_shape c).2, .inr ⟨hr, rfl⟩, .inr rfl⟩
  have ca : castE .bool a = .ok e → Kept e r := fun h =>
    have := castE_shape hwa ha h
    ⟨this.1, this.2.1, .inl (this.2.2.trans hr.symm), .inl this.2.2⟩
  have cb : castE .bool b = .ok e → Kept e r := fun h =>
    have := castE_shape hwb hb h
    ⟨this.1, this.2.1, .inl (this.2.2.trans hr.symm), .inl this.2.2⟩
  rcases h with h | h
  · unfold mkAnd at h
    split at h
    · cases h
    split at h
    · injection h with h; subst h; exact lit _
    · split at h
      · exact cb h
      · exact ca h
    · split at h
      · exact ca h
      · exact cb h
    · injection h with h; subst h
      exact ⟨⟨hwa, hwb⟩, fun _ _ h => (by cases h), .inl hr.symm, .inl rfl⟩
  · unfold mkOr at h
    split at h
    · cases h
    split at h
    · injection h with h; subst h; exact lit _
    · split at h
      · exact ca h
      · exact cb h
    · split at h
      · exact cb h
      · exact ca h
    · injection h with h; subst h
      exact ⟨⟨hwa, hwb⟩, fun _ _ h => (by cases h), .inl hr.symm, .inl rfl⟩

theorem build_kept {same : Expr → Expr → Bool} {env : Env} (hE : env.OK)
    (hsame : ∀ a b, same a b = true → a = b) :
    ∀ (e e' : Expr), Nice e → build same e = .ok e' →
      Kept e' (ref e) ∧ ((ref e).dtype = .bool ∨ (ref e).dtype.signed = true) ∧
      ∀ v, eval env (ref e) = .ok v → eval env e' = .ok v := by
  intro e
  induction e with
  | var t i =>
    intro e' hn h
    simp only [build, Except.ok.injEq] at h; subst h
    exact ⟨⟨trivial, fun _ _ h => (by cases h), .inl rfl, hn⟩, hn, fun v hv => hv⟩
  | call t i =>
    intro e' hn h
    simp only [build, Except.ok.injEq] at h; subst h
    exact ⟨⟨trivial, fun _ _ h => (by cases h), .inl rfl, hn⟩, hn, fun v hv => hv⟩
  | imm t w =>
    intro e' hn h
    simp only [build, Except.ok.injEq] at h; subst h
    refine ⟨⟨trivial, ?_, .inl rfl, hn.2⟩, hn.2, fun v hv => hv⟩
    intro s w' h
    injection h with h1 h2; subst h1 h2
    obtain ⟨h3, h4⟩ := hn
    revert h3 h4
    cases t <;> simp [InRange, DT.lo, DT.hi, DT.signed] <;> omega
  | cast t e ih =>
    intro e' hn h
    obtain ⟨a, ha, h⟩ := bind_ok h
    obtain ⟨hk, hty, hv⟩ := ih a hn.1 ha
    obtain ⟨h1, h2, h3⟩ := castE_shape hk.wt hk.lit h
    have htt : t = .bool ∨ t.signed = true := by
      rcases hn.2 with h | h
      · exact .inl h
      · right; rw [h.1]; rfl
    refine ⟨⟨h1, h2, .inl h3, h3 ▸ htt⟩, htt, ?_⟩
    intro v hev
    simp only [ref, eval] at hev
    split at hev
    swap
    · cases hev
    rename_i w hw
    injection hev with hev
    have hwa := hv w hw
    have hwr := ref_range hE e hn.1 w hw
    rcases hn.2 with rfl | ⟨rfl, hs⟩
    · rw [castBool_eval hE hk.wt h hwa (boolTy hk.nouint a rfl hk.lit), ← hev]
      by_cases ht : (ref e).dtype = .bool
      · rw [if_pos ht]
        rw [ht] at hwr
        simp only [InRange, DT.lo, DT.hi] at hwr
        by_cases h0 : w = 0
        · rw [if_pos h0, h0]
        · rw [if_neg h0]
          have : w = 1 := by omega
          rw [this]
      · rw [if_neg ht]; rfl
    · have hs' : a.dtype.signed = true := by
        rcases hk.ty with h | ⟨h, _⟩
        · rw [h]; exact hs
        · rw [h] at hs; exact absurd hs (by decide)
      have hwr' : InRange .int64 w := inRange64_of_signed hs hwr
      rw [(castE_fit (env := env) rfl hk.lit hs' hwr' hwa h).1, ← hev, wrap_of_inRange hwr']
      simp
  | bin op a b iha ihb =>
    intro e' hn h
    obtain ⟨a', ha, h⟩ := bind_ok h
    obtain ⟨b', hb, h⟩ := bind_ok h
    obtain ⟨ka, tya, va⟩ := iha a' hn.1 ha
    obtain ⟨kb, tyb, vb⟩ := ihb b' hn.2.1 hb
    have hT := hn.2.2
    have hmt := matchType_kept hT ka.ty kb.ty ka.nouint kb.nouint
    have hrt : (ref (.bin op a b)).dtype = .bool ∨ (ref (.bin op a b)).dtype.signed = true := by
      simp only [ref, plain, Expr.dtype]
      split
      · exact .inl rfl
      · exact .inr hT
    unfold mkBin at h
    split at h
    · cases h
    rename_i a'' b'' hm
    obtain ⟨⟨wa, la, da⟩, ⟨wb, lb, db⟩⟩ := matchTypes_shape ka.wt kb.wt ka.lit kb.lit hm
    rw [hmt] at da db
    have hty : (Expr.bin op a'' b'').dtype = (ref (.bin op a b)).dtype := by
      simp only [ref, plain, Expr.dtype, da]
    have hval : ∀ v, eval env (ref (.bin op a b)) = .ok v →
        eval env (.bin op a'' b'') = .ok v ∧ LitOK a'' ∧ LitOK b'' := by
      intro v hv
      obtain ⟨x, y, hx, hy, hbv⟩ := eval_bin_ok hv
      -- the operands' values
      have opnd : ∀ (r : Expr) (x : Int), Nice r → (ref r).dtype = .bool ∨ (ref r).dtype.signed = true →
          (∀ x, InRange (ref r).dtype x → InRange (matchType (ref a).dtype (ref b).dtype) x) →
          eval env (.cast (matchType (ref a).dtype (ref b).dtype) (ref r)) = .ok x →
          eval env (ref r) = .ok x ∧ InRange (matchType (ref a).dtype (ref b).dtype) x := by
        intro r x hnr _ hfit hx
        simp only [eval] at hx
        split at hx
        swap
        · cases hx
        rename_i w hw
        have h1 := hfit w (ref_range hE r hnr w hw)
        rw [wrap_of_inRange h1, ite_self] at hx
        injection hx with hx; subst hx
        exact ⟨hw, h1⟩
      obtain ⟨hx1, hx2⟩ := opnd a x hn.1 tya (fun z => (inRange_matchType hT tya tyb z).1) hx
      obtain ⟨hy1, hy2⟩ := opnd b y hn.2.1 tyb (fun z => (inRange_matchType hT tya tyb z).2) hy
      rw [← hmt] at hx2 hy2
      obtain ⟨⟨e1, l1⟩, ⟨e2, l2⟩⟩ := matchTypes_fit (env := env) ka.lit kb.lit (hmt ▸ hT) hx2 hy2
        (va x hx1) (vb y hy1) hm
      refine ⟨?_, l1, l2⟩
      simp only [eval.eq_5, e1, e2, da]
      exact hbv
    split at h
    · cases h
    · rename_i e'' hf
      injection h with h; subst h
      obtain ⟨h1, h2, h3⟩ := tryFold_shape (da.trans db.symm) wa wb la lb hf
      refine ⟨⟨h1, h2, .inl (h3.trans hty), ?_⟩, hrt, ?_⟩
      · rw [h3.trans hty]; exact hrt
      · intro v hv
        obtain ⟨h4, h5, h6⟩ := hval v hv
        exact tryFold_sound hE hsame (da.trans db.symm) wa wb h5 h6 hf h4
    · injection h with h; subst h
      refine ⟨⟨⟨da.trans db.symm, wa, wb⟩, fun _ _ h => (by cases h), .inl hty, ?_⟩, hrt, ?_⟩
      · rw [hty]; exact hrt
      · intro v hv; exact (hval v hv).1
  | and a b iha ihb =>
    intro e' hn h
    obtain ⟨a', ha, h⟩ := bind_ok h
    obtain ⟨b', hb, h⟩ := bind_ok h
    obtain ⟨ka, tya, va⟩ := iha a' hn.1 ha
    obtain ⟨kb, tyb, vb⟩ := ihb b' hn.2 hb
    refine ⟨logic_shape ka.wt kb.wt ka.lit kb.lit rfl (.inl h), .inl rfl, ?_⟩
    intro v hv
    refine mkAnd_sound hE ka.wt kb.wt ka.lit kb.lit h ?_
    simp only [ref, eval] at hv ⊢
    split at hv
    · cases hv
    rename_i x hx
    rw [va x hx]
    simp only
    split at hv
    · rw [if_pos (by assumption)]; exact hv
    · rw [if_neg (by assumption)]
      split at hv
      · cases hv
      · rename_i y hy
        rw [vb y hy]; exact hv
  | or a b iha ihb =>
    intro e' hn h
    obtain ⟨a', ha, h⟩ := bind_ok h
    obtain ⟨b', hb, h⟩ := bind_ok h
    obtain ⟨ka, tya, va⟩ := iha a' hn.1 ha
    obtain ⟨kb, tyb, vb⟩ := ihb b' hn.2 hb
    refine ⟨logic_shape ka.wt kb.wt ka.lit kb.lit rfl (.inr h), .inl rfl, ?_⟩
    intro v hv
    refine mkOr_sound hE ka.wt kb.wt ka.lit kb.lit h ?_
    simp only [ref, eval] at hv ⊢
    split at hv
    · cases hv
    rename_i x hx
    rw [va x hx]
    simp only
    split at hv
    · rw [if_pos (by assumption)]; exact hv
    · rw [if_neg (by assumption)]
      split at hv
      · cases hv
      · rename_i y hy
        rw [vb y hy]; exact hv
  | not a iha =>
    intro e' hn h
    obtain ⟨a', ha, h⟩ := bind_ok h
    obtain ⟨ka, tya, va⟩ := iha a' hn ha
    refine ⟨?_, .inl rfl, ?_⟩
    · unfold mkNot at h
      split at h
      · cases h
      split at h
      · obtain ⟨h1, h2, h3⟩ := imm_shape h
        exact ⟨h1, h2, .inl h3, .inl h3⟩
      · injection h with h; subst h
        exact ⟨ka.wt, fun _ _ h => (by cases h), .inl rfl, .inl rfl⟩
    · intro v hv
      refine mkNot_sound ka.lit h ?_
      simp only [ref, eval] at hv ⊢
      split at hv
      · cases hv
      · rename_i x hx
        rw [va x hx]; exact hv

/-- **C02, whole expressions.**  For every expression tree over `int32`/`int64`/`bool` (any
depth), if the compiler builds it bottom-up through the folding builders without aborting, the
built expression evaluates, in every environment, to the value of the tree as written whenever
that value is defined. -/
theorem build_sound_partial {same : Expr → Expr → Bool} {env : Env} (hE : env.OK)
    (hsame : ∀ a b, same a b = true → a = b) {e e' : Expr} (hn : Nice e)
    (h : build same e = .ok e') {v : Int} (hv : eval env (ref e) = .ok v) :
    eval env e' = .ok v :=
  (build_kept hE hsame e e' hn h).2.2 v hv

/-- Folding does not change the static type of an arithmetic or comparison node (logical nodes of
two literals become `int32`). -/
theorem mkBin_dtype {same : Expr → Expr → Bool} {op : BinOp} {a b e : Expr}
    (hwa : WT a) (hwb : WT b) (ha : Lit64 a) (hb : Lit64 b) (h : mkBin same op a b = .ok e) :
    e.dtype = (plain op a b).dtype := by
  unfold mkBin at h
  split at h
  · cases h
  rename_i a' b' hm
  obtain ⟨⟨wa, la, da⟩, ⟨wb, lb, db⟩⟩ := matchTypes_shape hwa hwb ha hb hm
  have hty : (Expr.bin op a' b').dtype = (plain op a b).dtype := by
    simp only [plain, Expr.dtype, da]
  split at h
  · cases h
  · rename_i e' hf
    injection h with h; subst h
    exact (tryFold_shape (da.trans db.symm) wa wb la lb hf).2.2.trans hty
  · injection h with h; subst h; exact hty

/-! ## What fails -/

/-- An environment: every variable is 0, call 0 raises exception 7. -/
def env0 : Env := ⟨fun _ _ => 0, fun _ i => if i = 0 then .error 7 else .ok 0⟩

theorem env0_ok : env0.OK := by
  constructor
  · intro t _; simp only [env0]; cases t <;> decide
  · intro t i v h
    simp only [env0] at h
    split at h
    · cases h
    · injection h with h; subst h; cases t <;> decide

def noSame : Expr → Expr → Bool := fun _ _ => false

/-- `0 // x` is folded to `0`, so with `x = 0` the `ZeroDivisionError` disappears. -/
theorem floordiv_zero_drops_exception_refuted :
    mkBin noSame .floordiv (.imm .int64 0) (.var .int64 0) = .ok (.imm .int64 0) ∧
    eval env0 (plain .floordiv (.imm .int64 0) (.var .int64 0)) = .error .zeroDiv ∧
    eval env0 (.imm .int64 0) = .ok 0 := by decide +kernel

/-- `0 % x` likewise. -/
theorem floormod_zero_drops_exception_refuted :
    mkBin noSame .floormod (.imm .int64 0) (.var .int64 0) = .ok (.imm .int64 0) ∧
    eval env0 (plain .floormod (.imm .int64 0) (.var .int64 0)) = .error .zeroDiv := by
  decide +kernel

/-- `f() * 0` is folded to `0`: the call (and the exception it raises) is dropped. -/
theorem mul_zero_drops_call_refuted :
    mkBin noSame .mul (.call .int64 0) (.imm .int64 0) = .ok (.imm .int64 0) ∧
    eval env0 (plain .mul (.call .int64 0) (.imm .int64 0)) = .error (.exn 7) := by
  decide +kernel

/-- `f() and False` is folded to `False`: the call is dropped. -/
theorem and_false_drops_call_refuted :
    mkAnd (.call .bool 0) (.imm .bool 0) = .ok (.imm .bool 0) ∧
    eval env0 (.and (.call .bool 0) (.imm .bool 0)) = .error (.exn 7) := by decide +kernel

/-- `f() or True` is folded to `True`: the call is dropped. -/
theorem or_true_drops_call_refuted :
    mkOr (.call .bool 0) (.imm .bool 1) = .ok (.imm .bool 1) ∧
    eval env0 (.or (.call .bool 0) (.imm .bool 1)) = .error (.exn 7) := by decide +kernel

/-- `x or -1` aborts the compilation although it has a value: the literal is cast to `bool`, which
refuses negative numbers. -/
theorem or_negative_literal_aborts_refuted :
    mkOr (.var .int64 0) (.imm .int64 (-1)) = .error .fatal ∧
    eval env0 (.or (.var .int64 0) (.imm .int64 (-1))) = .ok 1 := by decide +kernel

/-- Literals of `bool` type may hold values other than 0 and 1, and comparisons of literals look at
the raw value: `(5 or x) == True` folds to `False` though its value is `True`. -/
theorem bool_literal_compare_refuted :
    build noSame (.bin .eq (.or (.imm .int64 5) (.var .int64 0)) (.imm .bool 1)) =
      .ok (.imm .bool 0) ∧
    eval env0 (ref (.bin .eq (.or (.imm .int64 5) (.var .int64 0)) (.imm .bool 1))) = .ok 1 := by
  decide +kernel

/-- `uint32` literals are not reduced modulo `2^32`, so `(4294967295 + 1) > 0` folds to `True`
though the program computes `False`. -/
theorem uint32_wrap_refuted :
    build noSame (.bin .gt (.bin .add (.imm .uint32 4294967295) (.imm .uint32 1)) (.imm .uint32 0))
      = .ok (.imm .bool 1) ∧
    eval env0 (ref (.bin .gt (.bin .add (.imm .uint32 4294967295) (.imm .uint32 1))
      (.imm .uint32 0))) = .ok 0 := by decide +kernel

/-- Narrowing a literal keeps the wide value: `int32(2^40)` prints as the number `2^40`. -/
theorem cast_narrow_literal_refuted :
    castE .int32 (.imm .int64 1099511627776) = .ok (.imm .int32 1099511627776) ∧
    eval env0 (.imm .int32 1099511627776) = .ok 1099511627776 ∧
    eval env0 (.cast .int32 (.imm .int64 1099511627776)) = .ok 0 := by decide +kernel

/-! ## Concrete cases -/

/-- `(x + 0) * 1 - (7 // -2)` with a variable left in place. -/
example : build noSame (.bin .sub (.bin .mul (.bin .add (.var .int64 3) (.imm .int64 0))
      (.imm .int64 1)) (.bin .floordiv (.imm .int64 7) (.imm .int64 (-2)))) =
    .ok (.bin .sub (.var .int64 3) (.imm .int64 (-4))) := by decide +kernel

example : Nice (.bin .sub (.bin .mul (.bin .add (.var .int64 3) (.imm .int64 0))
      (.imm .int64 1)) (.bin .floordiv (.imm .int64 7) (.imm .int64 (-2)))) := by
  simp [Nice, ref, plain, Expr.dtype, BinOp.isCmp, matchType, DT.signed, InRange, DT.lo, DT.hi]

/-- Mixed types: `True + 2` with an `int32` literal becomes a cast, `int32 + int64` is folded. -/
example : build noSame (.bin .add (.imm .int32 2) (.imm .int64 40)) = .ok (.imm .int64 42) ∧
    build noSame (.bin .add (.imm .bool 1) (.imm .int32 2)) =
      .ok (.bin .add (.cast .int32 (.imm .bool 1)) (.imm .int32 2)) := by decide +kernel

end Verif.ConstFold
