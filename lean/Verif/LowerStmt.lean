import Verif.LowerSim

/-! Loops, and the simulation of all statements. -/

namespace Verif.Lower

variable {W : Type} {U : Prop} {P : Prims W} {ord : List IExpr → List Nat} {unb : Val} {fuel : Nat}

/-! ## Ranges -/

theorem pyRange_step (a b d : Int) (hd : d ≠ 0) :
    pyRange a b d =
      if (0 ≤ d ∧ a < b) ∨ (d < 0 ∧ b < a) then a :: pyRange (a + d) b d else [] := by
  have cons : ∀ (q : Int), 0 ≤ q →
      ((List.range (q + 1).toNat).map fun (k : Nat) => a + k * d) =
        a :: (List.range q.toNat).map fun (k : Nat) => a + d + k * d := by
    intro q hq
    have : (q + 1).toNat = q.toNat + 1 := by omega
    rw [this, List.range_succ_eq_map, List.map_cons, List.map_map]
    congr 1
    · simp
    · refine List.map_congr_left fun k _ => ?_
      simp only [Function.comp_apply, Nat.cast_succ]
      ring
  unfold pyRange
  by_cases hp : 0 < d
  · simp only [if_pos hp]
    by_cases hab : a < b
    · rw [if_pos (.inl ⟨by omega, hab⟩)]
      have h1 : (b - a + d - 1) / d = (b - (a + d) + d - 1) / d + 1 := by
        rw [show b - a + d - 1 = b - (a + d) + d - 1 + 1 * d by ring,
          Int.add_mul_ediv_right _ _ (by omega)]
      rw [h1]
      exact cons _ (Int.ediv_nonneg (by omega) (by omega))
    · rw [if_neg (by omega)]
      have h1 : (b - a + d - 1) / d ≤ 0 := by
        have : (b - a + d - 1) / d < 1 := Int.ediv_lt_of_lt_mul hp (by omega)
        omega
      rw [show ((b - a + d - 1) / d).toNat = 0 by omega]
      rfl
  · simp only [if_neg hp]
    by_cases hab : b < a
    · rw [if_pos (.inr ⟨by omega, hab⟩)]
      have h1 : (a - b - d - 1) / (-d) = (a + d - b - d - 1) / (-d) + 1 := by
        rw [show a - b - d - 1 = a + d - b - d - 1 + 1 * (-d) by ring,
          Int.add_mul_ediv_right _ _ (by omega)]
      rw [h1]
      exact cons _ (Int.ediv_nonneg (by omega) (by omega))
    · rw [if_neg (by omega)]
      have h1 : (a - b - d - 1) / (-d) ≤ 0 := by
        have : (a - b - d - 1) / (-d) < 1 := Int.ediv_lt_of_lt_mul (by omega) (by omega)
        omega
      rw [show ((a - b - d - 1) / (-d)).toNat = 0 by omega]
      rfl

/-! ## Loops -/

theorem while_sim {E : EnvRel} {tp : St String W → Act W Bool} {ti : St Nat W → Act W Bool}
    {bp : St String W → Out (St String W)} {bi : St Nat W → Out (St Nat W)}
    (ht : ∀ a b w, E a b → ti ⟨b, w⟩ = tp ⟨a, w⟩)
    (hb : ∀ a b w, E a b → OutR U E E (bp ⟨a, w⟩) (bi ⟨b, w⟩)) :
    ∀ (n : Nat) (a : String → Option Val) (b : Nat → Option Val) (w : W), E a b →
      OutR U E E (execPy.elseLoop tp bp (fun s => .nrm s) n ⟨a, w⟩) (whileLoop ti bi n ⟨b, w⟩)
  | 0, a, b, w, h => .tmo
  | n + 1, a, b, w, h => by
    unfold execPy.elseLoop whileLoop
    refine OutR.ev (ht a b w h) h fun v w' _ => ?_
    split
    · exact OutR.inLoop (hb a b w' h) fun a b w h => while_sim ht hb n a b w h
    · exact .nrm h

theorem for_sim {E : EnvRel} {stop : IExpr} {d e : Int} (hd : d ≠ 0) (hU : U ∨ d = 1 ∨ d = -1)
    (hte : HasTy .int (.int e))
    {bp : Int → St String W → Out (St String W)} {bi : Int → St Nat W → Out (St Nat W)}
    (hs : ∀ a b, E a b → evalIR P ord b stop = pur (.int e))
    (hb : ∀ t a b w, HasTy .int (.int t) → E a b → OutR U E E (bp t ⟨a, w⟩) (bi t ⟨b, w⟩)) :
    ∀ (n : Nat) (t : Int) (a : String → Option Val) (b : Nat → Option Val) (w : W),
      HasTy .int (.int t) → E a b →
      OutR U E E (execPy.elseFor bp (fun s => .nrm s) n (pyRange t e d) ⟨a, w⟩)
        (forLoop P ord stop (.const (.int d)) bi n t ⟨b, w⟩) := by
  intro n
  have test : ∀ (t : Int) a b w, E a b → forTest P ord stop (.const (.int d)) t ⟨b, w⟩ =
      pur (decide ((0 ≤ d ∧ t < e) ∨ (d < 0 ∧ e < t))) := by
    intro t a b w h
    simp only [forTest, evalInt, hs a b h, bnd_pur, toInt]
    funext w'
    simp only [bnd, pur]
    congr 2
    by_cases h0 : d ≥ 0
    · simp [h0, show ¬ d < 0 by omega]
    · simp [h0, show d < 0 by omega]
  induction n with
  | zero =>
    intro t a b w ht h
    unfold forLoop
    rw [test t a b w h, ev_pur, pyRange_step t e d hd]
    by_cases hc : (0 ≤ d ∧ t < e) ∨ (d < 0 ∧ e < t)
    · simp only [hc, decide_true, if_true]
      exact .tmo
    · simp only [hc, decide_false, if_false]
      exact .nrm h
  | succ n ih =>
    intro t a b w ht h
    unfold forLoop
    rw [test t a b w h, ev_pur, pyRange_step t e d hd]
    by_cases hc : (0 ≤ d ∧ t < e) ∨ (d < 0 ∧ e < t)
    · simp only [hc, decide_true, if_true]
      unfold execPy.elseFor
      refine OutR.inLoop (hb t a b w ht h) fun a b w h => ?_
      have : evalInt P ord b (.const (.int d)) = pur d := by
        funext w; simp [evalInt, evalIR, pur, bnd, toInt]
      show OutR U E E _ (ev (evalInt P ord b (.const (.int d))) ⟨b, w⟩ _)
      rw [this, ev_pur]
      split
      · rename_i hr
        exact ih (t + d) a b w hr h
      · rename_i hr
        rcases hU with hU | rfl | rfl
        · exact .ub hU _
        · have := hte.2
          have := ht.1
          omega
        · have := hte.1
          have := ht.2
          omega
    · simp only [hc, decide_false, if_false]
      exact .nrm h

theorem items_sim (hU : U) {E : EnvRel} {items : W → Option (List Val)} {len : Nat}
    {bp : Val → St String W → Out (St String W)} {bi : Val → St Nat W → Out (St Nat W)}
    (hb : ∀ v a b w, E a b → OutR U E E (bp v ⟨a, w⟩) (bi v ⟨b, w⟩)) :
    ∀ (n k : Nat) (a : String → Option Val) (b : Nat → Option Val) (w : W), E a b →
      OutR U E E (execPy.elseItems items bp (fun s => .nrm s) n k ⟨a, w⟩)
        (iterLoop items len bi n k ⟨b, w⟩) := by
  intro n
  induction n with
  | zero =>
    intro k a b w h
    unfold execPy.elseItems iterLoop
    cases hi : items w with
    | none => exact .ub hU _
    | some l =>
      simp only
      by_cases hlen : l.length ≠ len
      · rw [if_pos hlen]
        exact .ub hU _
      · rw [if_neg hlen]
        cases hk : l[k]? with
        | none => exact .nrm h
        | some v => exact .tmo
  | succ n ih =>
    intro k a b w h
    unfold execPy.elseItems iterLoop
    cases hi : items w with
    | none => exact .ub hU _
    | some l =>
      simp only
      by_cases hlen : l.length ≠ len
      · rw [if_pos hlen]
        exact .ub hU _
      · rw [if_neg hlen]
        cases hk : l[k]? with
        | none => exact .nrm h
        | some v =>
          exact OutR.inLoop (hb v a b w h) fun a b w h => ih (k + 1) a b w h

/-! ## Bounds of `range` -/

theorem boolTree_ne_var {isAnd : Bool} {l : List IExpr} {id : Nat} {ty : Ty}
    (h : boolTree P isAnd l = some (.var id ty)) : False := by
  have key : ∀ (g : IExpr → IExpr → IExpr), (∀ a b, g a b ≠ .var id ty) → ∀ (l : List IExpr) (a),
      a ≠ .var id ty → l.foldl g a ≠ .var id ty := by
    intro g hg l
    induction l with
    | nil => exact fun a h => h
    | cons e l ih => exact fun a _ => ih _ (hg _ _)
  cases l with
  | nil => simp [boolTree] at h
  | cons a l =>
  cases l with
  | nil => simp [boolTree] at h
  | cons b l =>
    unfold boolTree at h
    generalize ((a :: b :: l).all fun e => typeOf P e = .bool) = prim at h
    cases prim <;> cases isAnd <;> simp only [Option.some.injEq] at h <;>
      exact key _ (by simp) l _ (by simp) h

theorem cmpList_ne_var {id : Nat} {ty : Ty} : ∀ (ops : List Cmp) (l : List IExpr),
    (∀ e, cmpList ops l = some (.inr e) → e ≠ .var id ty) ∧
      ∀ q, cmpList ops l = some (.inl q) → .var id ty ∉ q
  | [], l => by
    refine ⟨fun e h => by simp [cmpList] at h, fun q h => ?_⟩
    simp only [cmpList, Option.some.injEq, Sum.inl.injEq] at h
    simp [← h]
  | .rel f :: ops, a :: b :: es => by
    obtain ⟨h1, h2⟩ := cmpList_ne_var (id := id) (ty := ty) ops (b :: es)
    simp only [cmpList]
    cases hc : cmpList ops (b :: es) with
    | none => simp
    | some r =>
      cases r with
      | inl l =>
        simp only [Option.some.injEq, reduceCtorEq, false_implies, implies_true, Sum.inl.injEq,
          forall_eq', List.mem_cons, not_or, true_and]
        exact ⟨by simp, h2 l hc⟩
      | inr e =>
        refine ⟨fun e' h => ?_, fun q h => by simp at h⟩
        simp only [Option.some.injEq, Sum.inr.injEq] at h
        exact h ▸ h1 e hc
  | .isIn :: _, a :: b :: _ => by
    refine ⟨fun e h => ?_, fun q h => by simp [cmpList] at h⟩
    simp only [cmpList, Option.some.injEq, Sum.inr.injEq] at h
    simp [← h]
  | .notIn :: _, a :: b :: _ => by
    refine ⟨fun e h => ?_, fun q h => by simp [cmpList] at h⟩
    simp only [cmpList, Option.some.injEq, Sum.inr.injEq] at h
    simp [← h]
  | .rel _ :: _, [] => by simp [cmpList]
  | .rel _ :: _, [_] => by simp [cmpList]
  | .isIn :: _, [] => by simp [cmpList]
  | .isIn :: _, [_] => by simp [cmpList]
  | .notIn :: _, [] => by simp [cmpList]
  | .notIn :: _, [_] => by simp [cmpList]

theorem cmpTree_ne_var {ops : List Cmp} {l : List IExpr} {id : Nat} {ty : Ty}
    (h : cmpTree P ops l = some (.var id ty)) : False := by
  obtain ⟨h1, h2⟩ := cmpList_ne_var (id := id) (ty := ty) ops l
  unfold cmpTree at h
  split at h
  · rename_i e he
    simp only [Option.some.injEq] at h
    exact h1 e he h
  · rename_i e he
    simp only [Option.some.injEq] at h
    subst h
    exact h2 _ he (by simp)
  · exact boolTree_ne_var h
  · cases h

/-- Only a name is lowered to a variable. -/
theorem lowerE_var {c : Scope} {e : Expr} {id : Nat} {ty : Ty}
    (h : lowerE P c e = some (.var id ty)) : ∃ y, e = .name y ∧ lookup c y = some (id, ty) := by
  cases e with
  | const v => simp [lowerE] at h
  | name y =>
    refine ⟨y, rfl, ?_⟩
    simp only [lowerE] at h
    obtain ⟨⟨id', ty'⟩, hl, e⟩ := Option.map_eq_some_iff.mp h
    cases e
    exact hl
  | tup es =>
    simp only [lowerE] at h
    obtain ⟨l, hl, e⟩ := Option.map_eq_some_iff.mp h
    cases e
  | call f es =>
    simp only [lowerE] at h
    obtain ⟨l, hl, e⟩ := Option.map_eq_some_iff.mp h
    cases e
  | boolop isAnd es =>
    simp only [lowerE] at h
    obtain ⟨l, hl, e⟩ := Option.bind_eq_some_iff.mp h
    exact (boolTree_ne_var e).elim
  | compare ops es =>
    simp only [lowerE] at h
    obtain ⟨l, hl, e⟩ := Option.bind_eq_some_iff.mp h
    exact (cmpTree_ne_var e).elim
  | notE e =>
    simp only [lowerE] at h
    obtain ⟨l, hl, e⟩ := Option.map_eq_some_iff.mp h
    split at e <;> cases e
  | ifE b t f =>
    simp only [lowerE] at h
    split at h
    · split at h <;> cases h
    · cases h
  | boolE e =>
    simp only [lowerE] at h
    obtain ⟨l, hl, e⟩ := Option.map_eq_some_iff.mp h
    cases e

/-- Evaluation of one bound before the loop. -/
theorem rangeArg_sim {ie : IExpr} {n : Nat} {b : Nat → Option Val} {w : W} (cur : Option Val)
    (hg : Good P ord b ie) (hty : typeOf P ie = .int)
    (hv : ∀ id ty, ie = .var id ty → id < n) :
    (∀ v w', evalIR P ord b ie w = (.ok v, w') → ∃ i b', v = .int i ∧ HasTy .int (.int i) ∧
      execIR P ord fuel (rangeArg P ie n).1 cur ⟨b, w⟩ = .nrm ⟨b', w'⟩ ∧
      (∀ k, k < n → b' k = b k) ∧
      ∀ b'', (∀ k, k < (rangeArg P ie n).2.2 → b'' k = b' k) →
        evalIR P ord b'' (rangeArg P ie n).2.1 = pur (.int i)) ∧
    (∀ x w', evalIR P ord b ie w = (.error x, w') →
      execIR P ord fuel (rangeArg P ie n).1 cur ⟨b, w⟩ = .exc x ⟨b, w'⟩) := by
  have hint : ∀ v w', evalIR P ord b ie w = (.ok v, w') → ∃ i, v = .int i ∧
      HasTy .int (.int i) := by
    intro v w' h
    have := hg.1 w v w' h
    rw [hty] at this
    cases v <;> first | exact ⟨_, rfl, this⟩ | exact this.elim
  unfold rangeArg
  by_cases hp : inPlace ie = true
  · simp only [hp, if_true]
    match ie, hp with
    | .const (.int i), _ =>
      simp only [evalIR, pur]
      refine ⟨fun v w' h => ?_, fun x w' h => by simp at h⟩
      obtain ⟨i', rfl, hi⟩ := hint v w' (by simpa [evalIR, pur] using h)
      simp only [Prod.mk.injEq, Except.ok.injEq, Val.int.injEq] at h
      obtain ⟨rfl, rfl⟩ := h
      exact ⟨i, b, rfl, hi, by simp [execIR], fun _ _ => rfl, fun _ _ => rfl⟩
    | .const (.bool _), _ => simp [typeOf, constTy] at hty
    | .var id ty, _ =>
      have hid := hv id ty rfl
      obtain ⟨v0, hv0⟩ := hg.2 (by simp [stable])
      have hbid : b id = some v0 := by
        rw [evalIR] at hv0
        cases hb : b id with
        | none =>
          rw [hb] at hv0
          have := congrFun hv0 w
          simp [raise, pur] at this
        | some u =>
          rw [hb] at hv0
          have := congrFun hv0 w
          simp only [pur, Prod.mk.injEq, Except.ok.injEq, and_true] at this
          rw [this]
      refine ⟨fun v w' h => ?_, fun x w' h => by rw [hv0] at h; simp [pur] at h⟩
      obtain ⟨i, rfl, hi⟩ := hint v w' h
      rw [hv0] at h
      simp only [pur, Prod.mk.injEq, Except.ok.injEq] at h
      obtain ⟨rfl, rfl⟩ := h
      exact ⟨i, b, rfl, hi, by simp [execIR], fun _ _ => rfl, fun b'' h'' => by
        simp [evalIR, h'' id hid, hbid]⟩
  · simp only [hp, hty, if_true]
    refine ⟨fun v w' h => ?_, fun x w' h => by simp [execIR, ev, h]⟩
    obtain ⟨i, rfl, hi⟩ := hint v w' h
    refine ⟨i, fun k => if k = n then some (.int i) else b k, rfl, hi, ?_, ?_, ?_⟩
    · simp [execIR, ev, h, St.set]
    · intro k hk
      simp [show k ≠ n by omega]
    · intro b'' h''
      simp [evalIR, h'' n (by simp)]

/-! ## Statements -/

theorem safe_seq {rty : Ty} {a b : Stmt} {outer inner : Scope} {n : Nat}
    (ha : ∀ c, a ≠ .assertS c) : safe P rty (.seq a b) outer inner n =
      (safe P rty a outer inner n &&
        (match lower P rty a outer inner n with
        | some (_, inner, n) => safe P rty b outer inner n
        | _ => false)) := by
  cases a <;> first | exact absurd rfl (ha _) | rfl

theorem isSkip_eq {s : Stmt} (h : isSkip s = true) : s = .skip := by
  cases s <;> simp [isSkip] at h; rfl

theorem typeIs_eq {c : Scope} {e : Expr} {ie : IExpr} {ty : Ty} (h : typeIs P c e ty = true)
    (hl : lowerE P c e = some ie) : typeOf P ie = ty := by
  unfold typeIs at h
  rw [hl] at h
  exact of_decide_eq_true h

theorem hasTy_int {v : Val} (h : HasTy .int v) : ∃ i, v = .int i := by
  cases v <;> simp only [HasTy] at h
  exact ⟨_, rfl⟩

theorem wf_loopVar {c : Scope} {n : Nat} {x : String} {ty : Ty} (hw : WF c n)
    (hx : lookup c x = Option.none) : WF ([(x, n, ty)] ++ c) (n + 1) := by
  have := WF.rebind (inner := []) (outer := c) (x := x) (ty := ty) (n := n) hw (lookup_none hx)
  simpa [rebind] using this

theorem envOk_loopVar {c : Scope} {n : Nat} {x : String} {ty : Ty} (hw : WF c n)
    (hx : lookup c x = Option.none) {a : String → Option Val} {b : Nat → Option Val} {w : W}
    (he : EnvOk c a b) {v : Val} (hv : HasTy ty v) :
    EnvOk ([(x, n, ty)] ++ c) ((⟨a, w⟩ : St String W).set x v).env
      ((⟨b, w⟩ : St Nat W).set n v).env := by
  refine EnvOk.set he hv ?_
  intro q hq
  rcases List.mem_append.mp hq with hq | hq
  · exact .inl (List.mem_singleton.mp hq)
  · exact .inr ⟨hq, lookup_none hx q hq, Nat.ne_of_lt (hw.2.2 q hq)⟩

/-- A safe statement that lowers does what Python does: same way of ending, same value, same
world, same variables. -/
theorem sim (hP : PrimsOk P) (ho : OrdOk ord) {rty : Ty} (s : Stmt) :
    ∀ (outer inner : Scope) (n : Nat) (is : IStmt) (inner' : Scope) (n' : Nat),
      lower P rty s outer inner n = some (is, inner', n') → safe P rty s outer inner n = true →
      (U ∨ tame s = true) → WF (inner ++ outer) n → ∀ (cur : Option Val) (a : String → Option Val)
        (b : Nat → Option Val) (w : W), EnvOk (inner ++ outer) a b →
        OutR U (EnvOk (inner' ++ outer)) (EnvOk outer) (execPy P unb fuel s cur ⟨a, w⟩)
          (execIR P ord fuel is cur ⟨b, w⟩) := by
  induction s with
  | skip =>
    intro outer inner n is inner' n' h _ _ hw cur a b w he
    simp only [lower, Option.some.injEq, Prod.mk.injEq] at h
    obtain ⟨rfl, rfl, rfl⟩ := h
    simp only [execPy, execIR]
    exact .nrm he
  | seq s1 s2 ih1 ih2 =>
    intro outer inner n is inner' n' h hs hU hw cur a b w he
    have hU1 : U ∨ tame s1 = true := hU.imp_right fun h => by simp_all [tame]
    have hU2 : U ∨ tame s2 = true := hU.imp_right fun h => by simp_all [tame]
    by_cases hc : ∃ c, s1 = .assertS c
    · obtain ⟨c, rfl⟩ := hc
      simp only [lower] at h
      split at h
      · rename_i ic ib inner1 n1 hic hib
        simp only [Option.some.injEq, Prod.mk.injEq] at h
        obtain ⟨rfl, rfl, rfl⟩ := h
        simp only [safe, Bool.and_eq_true] at hs
        obtain ⟨hev, _⟩ := simE hP ho unb he c ic hic hs.1
        have hpy : execPy P unb fuel (.seq (.assertS c) s2) cur ⟨a, w⟩ =
            ev (evalPy P unb a c) ⟨a, w⟩ fun v s => if truth P s.w v then
              execPy P unb fuel s2 cur s else .exc (.err "AssertionError") s := by
          simp only [execPy, ev]
          rcases evalPy P unb a c w with ⟨x | v, w'⟩
          · rfl
          · simp only
            split <;> rfl
        rw [hpy]
        simp only [execIR]
        refine OutR.ev hev he.outer fun v w' _ => ?_
        simp only
        split
        · exact ih2 outer inner n ib _ _ hib hs.2 hU2 hw cur a b w' he
        · exact .exc _ he.outer
      · cases h
    · have hc' : ∀ c, s1 ≠ .assertS c := fun c e => hc ⟨c, e⟩
      rw [lower_seq hc'] at h
      rw [safe_seq hc', Bool.and_eq_true] at hs
      split at h
      · cases h
      · rename_i i1 inner1 n1 h1
        split at h
        · cases h
        · rename_i i2 inner2 n2 h2
          simp only [Option.some.injEq, Prod.mk.injEq] at h
          obtain ⟨rfl, rfl, rfl⟩ := h
          rw [h1] at hs
          simp only [execPy, execIR]
          refine OutR.andThen (ih1 outer inner n i1 _ _ h1 hs.1 hU1 hw cur a b w he)
            fun a b w he' => ?_
          exact ih2 outer inner1 n1 i2 _ _ h2 hs.2 hU2 (lower_step s1 _ _ _ _ _ _ h1 hw).wf cur a b w he'
  | assign t e =>
    intro outer inner n is inner' n' h hs hU hw cur a b w he
    simp only [lower] at h
    simp only [safe, Bool.and_eq_true] at hs
    split at h
    · cases h
    · rename_i ie hie
      rw [hie] at hs
      obtain ⟨hev, hg⟩ := simE hP ho unb he e ie hie hs.1
      simp only [execPy]
      exact assignTarget_sim hP ho h hs.2 hw he hg hev cur
  | assignTup ts es =>
    intro outer inner n is inner' n' h hs hU hw cur a b w he
    simp only [lower] at h
    split at h
    · cases h
    · rename_i s1 s2 inner1 n1 hu
      simp only [Option.some.injEq, Prod.mk.injEq] at h
      obtain ⟨rfl, rfl, rfl⟩ := h
      simp only [safe] at hs
      have hx : Ext n (inner ++ outer) (inner ++ outer) := fun p hp _ => hp
      obtain ⟨hok, herr⟩ := unroll_eval (unb := unb) (fuel := fuel) hP ho hw cur ts es inner n s1 s2
        _ _ b w hu hs (Nat.le_refl n) hx hw he
      simp only [execPy, execIR, evalPyL_eq]
      unfold ev
      rcases hr : runSeq (es.map (evalPy P unb a)) w with ⟨x | vs, w'⟩
      · obtain ⟨b', e1, e2⟩ := herr x w' hr
        rw [e1]
        exact .exc x (he.fresh hw e2).outer
      · obtain ⟨b', e1, e2, e3⟩ := hok vs w' hr
        rw [e1]
        exact unroll_store hP ho hw cur ts es inner n s1 s2 _ _ a b' w' vs hu hs (Nat.le_refl n) hx hw
          (he.fresh hw e2) e3
  | unpack ts e =>
    intro outer inner n is inner' n' _ hs
    simp [safe] at hs
  | augName x op e =>
    intro outer inner n is inner' n' h hs hU hw cur a b w he
    simp only [lower] at h
    split at h
    · cases h
    · rename_i ie hie
      simp only [safe, Bool.and_eq_true, decide_eq_true_eq] at hs
      obtain ⟨⟨⟨hs1, hs2⟩, hs3⟩, hs4⟩ := hs
      obtain ⟨hev, hg⟩ := simE hP ho unb he _ ie hie hs1
      -- the operands
      have hie' := hie
      simp only [lowerE, lowerL] at hie'
      obtain ⟨l, hl, rfl⟩ := Option.map_eq_some_iff.mp hie'
      simp only [typeIs, lowerE] at hs2
      cases hx : lookup (inner ++ outer) x with
      | none => rw [hx] at hs2; simp at hs2
      | some q =>
      obtain ⟨id, ty⟩ := q
      rw [hx] at hs2
      have hty : ty = .int := by simpa [typeOf] using of_decide_eq_true hs2
      subst hty
      obtain ⟨v, hv1, hv2, hv3⟩ := he x id .int (lookup_mem hx)
      obtain ⟨i, rfl⟩ := hasTy_int hv3
      have hst : safeTarget P (inner ++ outer) (.call op l) (.name x) = true := by
        simp only [safeTarget, hx, typeOf, hs4]
        simp
      simp only [safeE, Bool.and_eq_true, safeL] at hs1
      have hpy : execPy P unb fuel (.augName x op e) cur ⟨a, w⟩ =
          ev (evalPy P unb a (.call op [.name x, e])) ⟨a, w⟩ fun v s => .nrm (s.set x v) := by
        simp only [execPy, evalPy, evalPyL, hv1, ev_pur, bnd_pur, bnd_assoc]
        rw [ev_bnd]
        refine ev_congr fun u w' hu => ?_
        cases hle : lowerE P (inner ++ outer) e with
        | none => rw [typeIs, hle] at hs3; cases hs3
        | some ie2 =>
          obtain ⟨h1, h2⟩ := simE hP ho unb he e ie2 hle hs1.1.2.1
          have := h2.1 w u w' (by rw [h1]; exact hu)
          rw [typeIs_eq hs3 hle] at this
          obtain ⟨j, rfl⟩ := hasTy_int this
          rw [hP.inplace op i j hs4]
      rw [hpy]
      exact assignVar_sim h hst hw he hg hev cur
  | augStore f g args op e =>
    intro outer inner n is inner' n' h hs hU hw cur a b w he
    simp only [lower] at h
    split at h
    · cases h
    · rename_i ie hie
      simp only [safe, Bool.and_eq_true, decide_eq_true_eq] at hs
      obtain ⟨⟨⟨⟨⟨hs1, hs2⟩, hs3⟩, hs4⟩, hs6⟩, hs5⟩ := hs
      rw [hie] at hs5
      obtain ⟨hev, hg⟩ := simE hP ho unb he _ ie hie hs1
      cases hla : lowerL P (inner ++ outer) args with
      | none => rw [hla] at hs2; cases hs2
      | some l =>
      rw [hla] at hs2
      cases hle : lowerE P (inner ++ outer) e with
      | none => rw [typeIs, hle] at hs4; cases hs4
      | some ie2 =>
      simp only [safeE, safeL, Bool.and_eq_true] at hs1
      obtain ⟨h1, h2⟩ := simE hP ho unb he e ie2 hle hs1.1.2.1
      obtain ⟨h3, h4⟩ := simL hP ho unb he args l hla hs1.1.1.1
      replace hs2 : stableL P l = true := hs2
      rw [stableL_all, List.all_eq_true] at hs2
      obtain ⟨vs, hvs⟩ := quiet_map h4 hs2
      rw [h3] at hvs
      have hpy : execPy P unb fuel (.augStore f g args op e) cur ⟨a, w⟩ =
          ev (evalPy P unb a (.call op [.call g args, e])) ⟨a, w⟩
            fun v s => pyStore P unb s v (.store f args) := by
        simp only [execPy, evalPy, evalPyL, evalPyL_eq, hvs, ev_pur, bnd_pur, bnd_assoc, pyStore]
        rw [ev_bnd]
        refine ev_congr fun u w1 hu => ?_
        rw [ev_bnd]
        refine ev_congr fun u2 w2 hu2 => ?_
        have t1 := hP.ret g vs w u w1 hu
        rw [hs3] at t1
        obtain ⟨i, rfl⟩ := hasTy_int t1
        have t2 := h2.1 w1 u2 w2 (by rw [h1]; exact hu2)
        rw [typeIs_eq hs4 hle] at t2
        obtain ⟨j, rfl⟩ := hasTy_int t2
        rw [hP.inplace op i j hs6]
        refine ev_congr fun u3 w3 _ => ?_
        show _ = ev (runSeq (args.map (evalPy P unb a))) _ _
        rw [hvs, ev_pur]
      rw [hpy]
      exact assignTarget_sim hP ho h hs5 hw he hg hev cur
  | expr e =>
    intro outer inner n is inner' n' h hs hU hw cur a b w he
    simp only [lower] at h
    obtain ⟨ie, hie, e'⟩ := Option.map_eq_some_iff.mp h
    simp only [Prod.mk.injEq] at e'
    obtain ⟨rfl, rfl, rfl⟩ := e'
    simp only [safe] at hs
    obtain ⟨hev, hg⟩ := simE hP ho unb he e ie hie hs
    simp only [execPy, execIR]
    exact OutR.ev hev he.outer fun v w' _ => .nrm he
  | assertS c =>
    intro outer inner n is inner' n' h hs hU hw cur a b w he
    simp only [lower] at h
    obtain ⟨ie, hie, e'⟩ := Option.map_eq_some_iff.mp h
    simp only [Prod.mk.injEq] at e'
    obtain ⟨rfl, rfl, rfl⟩ := e'
    simp only [safe] at hs
    obtain ⟨hev, hg⟩ := simE hP ho unb he c ie hie hs
    simp only [execPy, execIR]
    refine OutR.ev hev he.outer fun v w' _ => ?_
    simp only
    split
    · exact .nrm he
    · exact .exc _ he.outer
  | ifS c t e iht ihe =>
    intro outer inner n is inner' n' h hs hU hw cur a b w he
    simp only [lower] at h
    split at h
    · cases h
    · rename_i ic hic
      split at h
      · cases h
      · rename_i it i1 n1 ht
        split at h
        · cases h
        · rename_i ie i2 n2 hle
          split at h
          · cases h
          · simp only [Option.some.injEq, Prod.mk.injEq] at h
            obtain ⟨rfl, rfl, rfl⟩ := h
            simp only [safe, Bool.and_eq_true] at hs
            obtain ⟨⟨hs1, hs2⟩, hs3⟩ := hs
            rw [ht] at hs3
            obtain ⟨hev, _⟩ := simE hP ho unb he c ic hic hs1
            simp only [execPy, execIR]
            refine OutR.ev hev he.outer fun v w' _ => ?_
            simp only
            have hU1 : U ∨ tame t = true := hU.imp_right fun h => by simp_all [tame]
            have hU2 : U ∨ tame e = true := hU.imp_right fun h => by simp_all [tame]
            split
            · exact (iht (inner ++ outer) [] n it _ _ ht hs2 hU1 hw cur a b w' he).mono
                (fun _ _ h => h.outer) (fun _ _ h => h.outer)
            · exact (ihe (inner ++ outer) [] n1 ie _ _ hle hs3 hU2
                (hw.mono (lower_step t _ _ _ _ _ _ ht hw).le) cur a b w' he).mono
                (fun _ _ h => h.outer) (fun _ _ h => h.outer)
  | whileS c bd o ihb iho =>
    intro outer inner n is inner' n' h hs hU hw cur a b w he
    simp only [lower] at h
    split at h
    · cases h
    · rename_i ic hic
      split at h
      · cases h
      · rename_i ib i1 n1 hb
        split at h
        · cases h
        · simp only [Option.some.injEq, Prod.mk.injEq] at h
          obtain ⟨rfl, rfl, rfl⟩ := h
          simp only [safe, Bool.and_eq_true] at hs
          obtain ⟨⟨hs1, hs2⟩, hs3⟩ := hs
          have := isSkip_eq hs1
          subst this
          simp only [execPy, execIR]
          refine (while_sim (E := EnvOk (inner ++ outer)) ?_ ?_ fuel a b w he).mono
            (fun _ _ h => h) (fun _ _ h => h.outer)
          · intro a b w he
            simp only
            rw [(simE hP ho unb he c ic hic hs2).1]
          · intro a b w he
            exact (ihb (inner ++ outer) [] n ib _ _ hb hs3 (hU.imp_right fun h => by simp_all [tame]) hw cur a b w he).mono
              (fun _ _ h => h.outer) (fun _ _ h => h)
  | forRange x start stop step bd o ihb iho =>
    intro outer inner n is inner' n' h hs hU hw cur a b w he
    simp only [lower] at h
    split at h
    · cases h
    · rename_i hx
      have hx : lookup (inner ++ outer) x = Option.none := by simpa using hx
      split at h
      · rename_i ia ib id hl
        split at h
        · cases h
        · rename_i ibody i1 n1 hb
          simp only [Option.some.injEq, Prod.mk.injEq] at h
          obtain ⟨rfl, rfl, rfl⟩ := h
          simp only [safe, Bool.and_eq_true] at hs
          obtain ⟨⟨⟨⟨⟨⟨hs1, hs2⟩, hs3⟩, hs4⟩, hs5⟩, hs6⟩, hs7⟩ := hs
          rw [hl] at hs7
          simp only at hs7
          have := isSkip_eq hs1
          subst this
          -- the step
          obtain ⟨d, rfl, hd⟩ : ∃ d, step = .const (.int d) ∧ d ≠ 0 := by
            unfold okStep at hs3
            split at hs3
            · exact ⟨_, rfl, by simpa using hs3⟩
            · cases hs3
          have hlow : lowerE P (inner ++ outer) start = some ia ∧
              lowerE P (inner ++ outer) stop = some ib ∧ id = .const (.int d) := by
            simp only [lowerL, lowerE] at hl
            cases e1 : lowerE P (inner ++ outer) start with
            | none => simp [e1] at hl
            | some q1 =>
              cases e2 : lowerE P (inner ++ outer) stop with
              | none => simp [e1, e2] at hl
              | some q2 =>
                simp only [e1, e2, Option.some.injEq, List.cons.injEq, and_true] at hl
                exact ⟨by rw [hl.1], by rw [hl.2.1], hl.2.2.symm⟩
          obtain ⟨hla, hlb, rfl⟩ := hlow
          simp only [safeL, Bool.and_eq_true] at hs2
          obtain ⟨ea, ga⟩ := simE hP ho unb he start ia hla hs2.1
          have ta := typeIs_eq hs5 hla
          have tb := typeIs_eq hs6 hlb
          have hva : ∀ id ty, ia = .var id ty → id < n := by
            rintro id ty rfl
            obtain ⟨y, _, hy⟩ := lowerE_var hla
            exact hw.2.2 _ (lookup_mem hy)
          obtain ⟨l1, w1⟩ := rangeArg_step P ia n
          obtain ⟨l2, w2⟩ := rangeArg_step P ib (rangeArg P ia n).2.2
          have hvb : ∀ id ty, ib = .var id ty → id < (rangeArg P ia n).2.2 := by
            rintro id ty rfl
            obtain ⟨y, _, hy⟩ := lowerE_var hlb
            exact Nat.lt_of_lt_of_le (hw.2.2 _ (lookup_mem hy)) l1
          have hcst : ∀ k, rangeArg P (.const (.int d)) k = (.skip, .const (.int d), k) := by
            intro k; simp [rangeArg, inPlace]
          simp only [hcst] at hb hs7 ⊢
          obtain ⟨oka, erra⟩ := rangeArg_sim (fuel := fuel) (w := w) cur ga ta hva
          simp only [execPy, evalPyL]
          rw [ev_bnd]
          simp only [execIR]
          -- first bound
          rcases ra : evalPy P unb a start w with ⟨xa | va, wa⟩
          · rw [← ea] at ra
            rw [erra xa wa ra]
            rw [ea] at ra
            simp only [ev, ra]
            exact .exc _ he.outer
          · rw [← ea] at ra
            obtain ⟨ja, ba, rfl, xa0, xa1, xa2, xa3⟩ := oka va wa ra
            rw [xa1]
            rw [ea] at ra
            have hea := he.fresh hw xa2
            obtain ⟨eb, gb⟩ := simE hP ho unb hea stop ib hlb hs2.2.1
            obtain ⟨okb, errb⟩ := rangeArg_sim (fuel := fuel) (w := wa) cur gb tb hvb
            have step1 : ∀ (k : Val → St String W → Out (St String W)),
                ev (evalPy P unb a start) ⟨a, w⟩ k = k (.int ja) ⟨a, wa⟩ := by
              intro k; simp only [ev, ra]
            rw [step1]
            show OutR U _ _ (ev _ ⟨a, wa⟩ _) (Out.andThen (Out.nrm ⟨ba, wa⟩) _)
            simp only [Out.andThen, bnd_assoc]
            rw [ev_bnd]
            rcases rb : evalPy P unb a stop wa with ⟨xb | vb, wb⟩
            · rw [← eb] at rb
              rw [errb xb wb rb]
              rw [eb] at rb
              simp only [ev, rb]
              exact .exc _ hea.outer
            · rw [← eb] at rb
              obtain ⟨jb, bb, rfl, xb0, xb1, xb2, xb3⟩ := okb vb wb rb
              rw [xb1]
              rw [eb] at rb
              have step2 : ∀ (k : Val → St String W → Out (St String W)),
                  ev (evalPy P unb a stop) ⟨a, wa⟩ k = k (.int jb) ⟨a, wb⟩ := by
                intro k; simp only [ev, rb]
              rw [step2]
              have heb : EnvOk (inner ++ outer) a bb :=
                hea.fresh (hw.mono l1) xb2
              simp only [evalPy, bnd_pur, ev_pur, toInt, if_neg hd]
              -- the loop
              have hstart : evalInt P ord bb (rangeArg P ia n).2.1 = pur ja := by
                have := xa3 bb fun k hk => xb2 k hk
                funext w
                simp [evalInt, this, bnd, pur, toInt]
              rw [hstart, ev_pur]
              generalize hn2 : (rangeArg P ib (rangeArg P ia n).2.2).2.2 = n2 at *
              have hwn2 : WF (inner ++ outer) n2 := hw.mono (by omega)
              -- what keeps the bound
              obtain ⟨q, r, hq0, hr0, hqr, hqk, hrk⟩ : ∃ (q : (String → Option Val) → Prop)
                  (r : (Nat → Option Val) → Prop), q a ∧ r bb ∧
                  (∀ a' b', EnvOk (inner ++ outer) a' b' → q a' → r b' →
                    evalIR P ord b' (rangeArg P ib (rangeArg P ia n).2.2).2.1 = pur (.int jb)) ∧
                  (∀ (t : Int) a' w', q a' →
                    (execPy P unb fuel bd cur ((⟨a', w'⟩ : St String W).set x (.int t))).All
                      (EnvP q)) ∧
                  (∀ (t : Int) b' w', r b' →
                    (execIR P ord fuel ibody cur ((⟨b', w'⟩ : St Nat W).set n2 (.int t))).All
                      (EnvP r)) := by
                by_cases hin : inPlace ib = true
                · have hr1 : (rangeArg P ib (rangeArg P ia n).2.2).2.1 = ib := by
                    simp [rangeArg, hin]
                  rw [hr1] at xb3 ⊢
                  match ib, hin with
                  | .const (.int i), _ =>
                    have := xb3 bb fun _ _ => rfl
                    refine ⟨fun _ => True, fun _ => True, trivial, trivial, ?_,
                      fun _ _ _ _ => all_true (fun _ => trivial) _,
                      fun _ _ _ _ => all_true (fun _ => trivial) _⟩
                    intro a' b' _ _ _
                    simpa [evalIR] using this
                  | .const (.bool _), _ => simp [typeOf, constTy] at tb
                  | .var vid vty, _ =>
                    obtain ⟨y, rfl, hy⟩ := lowerE_var hlb
                    have hyx : y ≠ x := by
                      rintro rfl
                      rw [hx] at hy; cases hy
                    have hya : y ∉ assigned bd := by simpa [okStop] using hs4
                    obtain ⟨u, u1, u2, u3⟩ := heb y vid vty (lookup_mem hy)
                    have := xb3 bb fun _ _ => rfl
                    have hu : u = .int jb := by
                      rw [evalIR, u2] at this
                      have := congrFun this wb
                      simpa [pur] using this
                    subst hu
                    refine ⟨At y (some (.int jb)), fun _ => True, u1, trivial, ?_, ?_,
                      fun _ _ _ _ => all_true (fun _ => trivial) _⟩
                    · intro a' b' he' hq' _
                      obtain ⟨v, v1, v2, v3⟩ := he' y vid vty (lookup_mem hy)
                      have hq' : a' y = some (.int jb) := hq'
                      rw [hq'] at v1
                      cases v1
                      simp [evalIR, v2]
                    · intro t a' w' hq'
                      refine py_frame P unb fuel bd hya cur _ ?_
                      rw [set_env_ne _ hyx]
                      exact hq'
                · have hr1 : rangeArg P ib (rangeArg P ia n).2.2 =
                      (.setVar (rangeArg P ia n).2.2 ib, .var (rangeArg P ia n).2.2 .int,
                        (rangeArg P ia n).2.2 + 1) := by
                    simp [rangeArg, hin, tb]
                  rw [hr1] at xb3 hn2 ⊢
                  simp only at xb3 hn2 ⊢
                  generalize hk : (rangeArg P ia n).2.2 = k1 at *
                  have hbk : bb k1 = some (.int jb) := by
                    have := xb3 bb fun _ _ => rfl
                    rw [evalIR] at this
                    cases hb1 : bb k1 with
                    | none =>
                      rw [hb1] at this
                      have := congrFun this wb
                      simp [raise, pur] at this
                    | some u =>
                      rw [hb1] at this
                      have := congrFun this wb
                      simp only [pur, Prod.mk.injEq, Except.ok.injEq, and_true] at this
                      rw [this]
                  refine ⟨fun _ => True, At k1 (some (.int jb)), trivial, hbk, ?_,
                    fun _ _ _ _ => all_true (fun _ => trivial) _, ?_⟩
                  · intro a' b' _ _ hr'
                    have hr' : b' k1 = some (.int jb) := hr'
                    simp [evalIR, hr']
                  · intro t b' w' hr'
                    have hst := lower_step bd _ _ _ _ _ _ hb (wf_loopVar hwn2 hx)
                    refine ir_frame P ord fuel ibody ?_ cur _ ?_
                    · intro hmem
                      rcases (hst.writes k1 hmem).1 with h | h
                      · rw [ids_append, List.mem_append] at h
                        rcases h with h | h
                        · simp only [ids, List.map_cons, List.map_nil, List.mem_singleton] at h
                          omega
                        · have := ids_lt hw h
                          omega
                      · omega
                    · rw [set_env_ne _ (by omega)]
                      exact hr'
              refine (for_sim (E := fun a' b' => EnvOk (inner ++ outer) a' b' ∧ q a' ∧ r b') hd
                (hU.imp_right fun h => by
                  simp only [tame, unitStep, Bool.and_eq_true, Bool.or_eq_true, decide_eq_true_eq] at h
                  exact h.1.1) xb0 ?_ ?_ fuel ja a bb wb xa0 ⟨heb, hq0, hr0⟩).mono (fun _ _ h => h.1) (fun _ _ h => h.1.outer)
              · intro a' b' h
                exact hqr a' b' h.1 h.2.1 h.2.2
              · intro t a' b' w' ht h
                have hsim := ihb (inner ++ outer) [(x, n2, .int)] (n2 + 1) ibody _ _ hb hs7 (hU.imp_right fun h => by simp_all [tame])
                  (wf_loopVar hwn2 hx) cur _ _ w'
                  (envOk_loopVar (w := w') hwn2 hx h.1 (v := .int t) ht)
                have := hsim.mono (En' := EnvOk (inner ++ outer)) (Eo' := EnvOk (inner ++ outer))
                  (fun _ _ h => h.outer) (fun _ _ h => h)
                exact this.and (hqk t a' w' h.2.1) (hrk t b' w' h.2.2)
      · cases h
  | forIn x e bd o ihb iho =>
    intro outer inner n is inner' n' h hs hU hw cur a b w he
    simp only [lower] at h
    split at h
    · cases h
    · rename_i hx
      have hx : lookup (inner ++ outer) x = Option.none := by simpa using hx
      split at h
      · cases h
      · rename_i ie hie
        split at h
        · cases h
        · rename_i ibody i1 n1 hb
          simp only [Option.some.injEq, Prod.mk.injEq] at h
          obtain ⟨rfl, rfl, rfl⟩ := h
          simp only [safe, Bool.and_eq_true] at hs
          obtain ⟨⟨hs1, hs2⟩, hs3⟩ := hs
          have := isSkip_eq hs1
          subst this
          obtain ⟨hev, _⟩ := simE hP ho unb he e ie hie hs2
          simp only [execPy, execIR]
          refine OutR.ev hev he.outer fun v w' _ => ?_
          simp only
          cases hi : P.items w' v with
          | none =>
            have : execPy.elseItems (fun w => P.items w v)
                (fun i s => execPy P unb fuel bd cur (s.set x i)) (fun s => Out.nrm s) fuel 0
                ⟨a, w'⟩ = .exc (.err "TypeError") ⟨a, w'⟩ := by
              unfold execPy.elseItems
              simp only [hi]
            rw [this]
            exact .exc _ he.outer
          | some l =>
            refine (items_sim (hU.resolve_right (by simp [tame])) (E := EnvOk (inner ++ outer)) ?_ fuel 0 a b w' he).mono
              (fun _ _ h => h) (fun _ _ h => h.outer)
            intro u a b w he
            exact (ihb (inner ++ outer) [(x, n, .obj)] (n + 1) ibody _ _ hb hs3
              (.inl (hU.resolve_right (by simp [tame]))) (wf_loopVar hw hx) cur
              _ _ w (envOk_loopVar (w := w) hw hx he (hasTy_obj u))).mono
              (fun _ _ h => h.outer) (fun _ _ h => h)
  | brk =>
    intro outer inner n is inner' n' h _ _ hw cur a b w he
    simp only [lower, Option.some.injEq, Prod.mk.injEq] at h
    obtain ⟨rfl, rfl, rfl⟩ := h
    simp only [execPy, execIR]
    exact .brk he.outer
  | cnt =>
    intro outer inner n is inner' n' h _ _ hw cur a b w he
    simp only [lower, Option.some.injEq, Prod.mk.injEq] at h
    obtain ⟨rfl, rfl, rfl⟩ := h
    simp only [execPy, execIR]
    exact .cnt he.outer
  | ret e =>
    intro outer inner n is inner' n' h hs hU hw cur a b w he
    simp only [lower] at h
    split at h
    · cases h
    · rename_i ie hie
      split at h
      · simp only [Option.some.injEq, Prod.mk.injEq] at h
        obtain ⟨rfl, rfl, rfl⟩ := h
        simp only [safe, Bool.and_eq_true, Bool.or_eq_true, decide_eq_true_eq] at hs
        obtain ⟨hev, _⟩ := simE hP ho unb he e ie hie hs.1
        have : adapt P ie rty = ie := by
          apply adapt_same
          rcases hs.2 with h | h
          · exact .inl h
          · exact .inr (typeIs_eq h hie).symm
        rw [this]
        simp only [execPy, execIR]
        exact OutR.ev hev he.outer fun v w' _ => .ret v he.outer
      · cases h
  | raiseS e =>
    intro outer inner n is inner' n' h hs hU hw cur a b w he
    cases e with
    | none =>
      simp only [lower, Option.some.injEq, Prod.mk.injEq] at h
      obtain ⟨rfl, rfl, rfl⟩ := h
      simp only [execPy, execIR]
      cases cur with
      | none => exact .exc _ he.outer
      | some x => exact .exc _ he.outer
    | some e =>
      simp only [lower] at h
      obtain ⟨ie, hie, e'⟩ := Option.map_eq_some_iff.mp h
      simp only [Prod.mk.injEq] at e'
      obtain ⟨rfl, rfl, rfl⟩ := e'
      simp only [safe] at hs
      obtain ⟨hev, _⟩ := simE hP ho unb he e ie hie hs
      simp only [execPy, execIR]
      exact OutR.ev hev he.outer fun v w' _ => .exc v he.outer
  | tryS bd typ hd o f ihb ihh iho ihf =>
    intro outer inner n is inner' n' h hs hU hw cur a b w he
    simp only [lower] at h
    split at h
    · cases h
    · rename_i ib i1 n1 hb
      split at h
      · cases h
      · rename_i ih i2 n2 hh
        simp only [Option.some.injEq, Prod.mk.injEq] at h
        obtain ⟨rfl, rfl, rfl⟩ := h
        simp only [safe, Bool.and_eq_true] at hs
        obtain ⟨⟨⟨⟨hs1, hs2⟩, hs3⟩, hs4⟩, hs5⟩ := hs
        rw [hb] at hs5
        have := isSkip_eq hs2
        subst this
        have := isSkip_eq hs3
        subst this
        have htyp : typ = Option.none := by simpa using hs1
        subst htyp
        have hbody := ihb (inner ++ outer) [] n ib _ _ hb hs4 (hU.imp_right fun h => by simp_all [tame]) hw cur a b w he
        have hhand : ∀ x a b w, EnvOk (inner ++ outer) a b → OutR U (EnvOk (inner ++ outer))
            (EnvOk outer) (execPy P unb fuel hd (some x) ⟨a, w⟩)
            (execIR P ord fuel ih (some x) ⟨b, w⟩) := by
          intro x a b w he
          exact (ihh (inner ++ outer) [] n1 ih _ _ hh hs5 (hU.imp_right fun h => by simp_all [tame])
            (hw.mono (lower_step bd _ _ _ _ _ _ hb hw).le) (some x) a b w he).mono
            (fun _ _ h => h.outer) (fun _ _ h => h.outer)
        have hfin : ∀ o : Out (St String W), o.finally (execPy P unb fuel .skip cur) = o := by
          intro o
          cases o <;> simp [Out.finally, execPy, Out.andThen]
        simp only [execPy, execIR]
        generalize execPy P unb fuel bd cur ⟨a, w⟩ = op at hbody
        generalize execIR P ord fuel ib cur ⟨b, w⟩ = oi at hbody
        have hfin' : ∀ o : Out (St String W), (o.finally fun s => Out.nrm s) = o := by
          intro o
          cases o <;> simp [Out.finally, Out.andThen]
        cases hbody with
        | nrm h => simpa [Out.finally, Out.andThen] using OutR.nrm h.outer
        | brk h => simpa [Out.finally, Out.andThen] using OutR.brk h.outer
        | cnt h => simpa [Out.finally, Out.andThen] using OutR.cnt h.outer
        | ret v h => simpa [Out.finally, Out.andThen] using OutR.ret v h.outer
        | exc v h =>
          simpa [hfin'] using hhand v _ _ _ h
        | tmo => exact .tmo
        | ub h o => exact .ub h _

end Verif.Lower
