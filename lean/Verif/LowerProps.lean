import Verif.LowerBound

/-! Compiled functions against Python: the theorems about whole functions. -/

namespace Verif.Lower

variable {W : Type} {U : Prop} {P : Prims W} {ord : List IExpr → List Nat} {fuel : Nat}

/-! ## Calls -/

theorem bindArgs_notin {K : Type} [DecidableEq K] : ∀ (ks : List K) (vs : List Val) (s : St K W)
    (k : K), k ∉ ks → (bindArgs s ks vs).env k = s.env k
  | [], vs, s, k, _ => by simp [bindArgs]
  | _ :: _, [], s, k, _ => by simp [bindArgs]
  | k' :: ks, v :: vs, s, k, h => by
    simp only [List.mem_cons, not_or] at h
    rw [bindArgs, bindArgs_notin ks vs _ k h.2]
    simp [St.set, h.1]

theorem bindArgs_w {K : Type} [DecidableEq K] : ∀ (ks : List K) (vs : List Val) (s : St K W),
    (bindArgs s ks vs).w = s.w
  | [], vs, s => by simp [bindArgs]
  | _ :: _, [], s => by simp [bindArgs]
  | k' :: ks, v :: vs, s => by rw [bindArgs, bindArgs_w ks vs]; rfl

theorem bindArgs_eta {K : Type} [DecidableEq K] (ks : List K) (vs : List Val)
    (env : K → Option Val) (w : W) :
    bindArgs ⟨env, w⟩ ks vs = ⟨(bindArgs (⟨env, w⟩ : St K W) ks vs).env, w⟩ := by
  have := bindArgs_w ks vs ⟨env, w⟩
  rcases h : bindArgs (⟨env, w⟩ : St K W) ks vs with ⟨e, w'⟩
  rw [h] at this
  simp only at this
  rw [this]

/-- The arguments have the types of the parameters. -/
def ArgsOk (f : Fn) (args : List Val) : Prop :=
  (f.params.map (·.1)).Nodup ∧ List.Forall₂ (fun p v => HasTy p.2 v) f.params args

theorem mem_paramScope : ∀ (ps : List (String × Ty)) (n : Nat), ∀ q ∈ paramScope ps n,
    q.1 ∈ ps.map (·.1) ∧ n ≤ q.2.1 ∧ q.2.1 < n + ps.length
  | [], n, q, h => by simp [paramScope] at h
  | (x, ty) :: ps, n, q, h => by
    simp only [paramScope, List.mem_cons] at h
    rcases h with rfl | h
    · simp
    · obtain ⟨h1, h2, h3⟩ := mem_paramScope ps (n + 1) q h
      refine ⟨by simp only [List.map_cons, List.mem_cons]; exact .inr h1, by omega, ?_⟩
      simp only [List.length_cons]
      omega

theorem paramScope_names : ∀ (ps : List (String × Ty)) (n : Nat),
    (paramScope ps n).map (·.1) = ps.map (·.1)
  | [], n => rfl
  | (x, ty) :: ps, n => by simp [paramScope, paramScope_names ps]

theorem paramScope_ids : ∀ (ps : List (String × Ty)) (n : Nat),
    (paramScope ps n).map (·.2.1) = List.range' n ps.length
  | [], n => rfl
  | (x, ty) :: ps, n => by
    simp [paramScope, paramScope_ids ps, List.range'_succ]

theorem wf_params {ps : List (String × Ty)} (h : (ps.map (·.1)).Nodup) :
    WF (paramScope ps 0) ps.length := by
  refine ⟨by rwa [paramScope_names], ?_, ?_⟩
  · rw [paramScope_ids]
    exact List.nodup_range'
  · intro q hq
    have := (mem_paramScope ps 0 q hq).2.2
    omega

theorem envOk_args : ∀ (ps : List (String × Ty)) (vs : List Val) (n : Nat)
    (s : St String W) (s' : St Nat W), (ps.map (·.1)).Nodup →
    List.Forall₂ (fun p v => HasTy p.2 v) ps vs →
    EnvOk (paramScope ps n) (bindArgs s (ps.map (·.1)) vs).env
      (bindArgs s' (List.range' n ps.length) vs).env
  | [], vs, n, s, s', _, _ => by intro x id ty h; simp [paramScope] at h
  | (x, ty) :: ps, [], n, s, s', _, h => by cases h
  | (x, ty) :: ps, v :: vs, n, s, s', hn, h => by
    obtain ⟨h1, h2⟩ := List.forall₂_cons.mp h
    simp only [List.map_cons, List.nodup_cons] at hn
    simp only [List.map_cons, bindArgs, List.length_cons, List.range'_succ]
    intro y id ty' hm
    simp only [paramScope, List.mem_cons] at hm
    rcases hm with e | hm
    · simp only [Prod.mk.injEq] at e
      obtain ⟨rfl, rfl, rfl⟩ := e
      refine ⟨v, ?_, ?_, h1⟩
      · rw [bindArgs_notin _ _ _ _ hn.1]
        simp [St.set]
      · rw [bindArgs_notin _ _ _ _ (by simp only [List.mem_range']; omega)]
        simp [St.set]
    · exact envOk_args ps vs (n + 1) _ _ hn.2 h2 y id ty' hm

theorem bound_args : ∀ (ps : List (String × Ty)) (vs : List Val) (n : Nat) (s : St String W),
    vs.length = ps.length → Bound (paramScope ps n) (bindArgs s (ps.map (·.1)) vs).env
  | [], vs, n, s, _ => by rintro x ⟨p, hp, _⟩; simp [paramScope] at hp
  | (x, ty) :: ps, [], n, s, h => by simp at h
  | (x, ty) :: ps, v :: vs, n, s, h => by
    rintro y ⟨p, hp, rfl⟩
    simp only [List.map_cons, bindArgs]
    by_cases hin : ∃ q ∈ paramScope ps (n + 1), q.1 = p.1
    · exact bound_args ps vs (n + 1) _ (by simpa using h) p.1 hin
    · have hp' : p.1 = x := by
        simp only [paramScope, List.mem_cons] at hp
        rcases hp with rfl | hp
        · rfl
        · exact absurd ⟨p, hp, rfl⟩ hin
      rw [bindArgs_notin]
      · simp [St.set, hp']
      · intro hm
        rw [← paramScope_names ps (n + 1)] at hm
        obtain ⟨q, hq, e⟩ := List.mem_map.mp hm
        exact hin ⟨q, hq, e⟩

/-! ## The `return None` the parser appends -/

theorem mustReturn_exec {unb : Val} : ∀ (s : Stmt), mustReturn s = true →
    ∀ cur (st st' : St String W), execPy P unb fuel s cur st ≠ .nrm st'
  | .ret e, _, cur, st, st' => by
    simp only [execPy, ev]
    rcases evalPy P unb st.env e st.w with ⟨x | v, w'⟩ <;> simp
  | .seq a b, h, cur, st, st' => by
    simp only [mustReturn, Bool.or_eq_true] at h
    simp only [execPy]
    rcases hr : execPy P unb fuel a cur st with s | s | s | ⟨v, s⟩ | ⟨v, s⟩ | _ | _ <;>
      simp only [Out.andThen, ne_eq, reduceCtorEq, not_false_eq_true]
    rcases h with h | h
    · exact absurd hr (mustReturn_exec a h cur st s)
    · exact mustReturn_exec b h cur s st'
  | .ifS c t e, h, cur, st, st' => by
    simp only [mustReturn, Bool.and_eq_true] at h
    simp only [execPy, ev]
    rcases evalPy P unb st.env c st.w with ⟨x | v, w'⟩
    · simp
    · simp only
      split
      · exact mustReturn_exec t h.1 cur _ st'
      · exact mustReturn_exec e h.2 cur _ st'
  | .skip, h, _, _, _ => by simp [mustReturn] at h
  | .assign _ _, h, _, _, _ => by simp [mustReturn] at h
  | .assignTup _ _, h, _, _, _ => by simp [mustReturn] at h
  | .unpack _ _, h, _, _, _ => by simp [mustReturn] at h
  | .augName _ _ _, h, _, _, _ => by simp [mustReturn] at h
  | .augStore _ _ _ _ _, h, _, _, _ => by simp [mustReturn] at h
  | .expr _, h, _, _, _ => by simp [mustReturn] at h
  | .assertS _, h, _, _, _ => by simp [mustReturn] at h
  | .whileS _ _ _, h, _, _, _ => by simp [mustReturn] at h
  | .forRange _ _ _ _ _ _, h, _, _, _ => by simp [mustReturn] at h
  | .forIn _ _ _ _, h, _, _, _ => by simp [mustReturn] at h
  | .brk, h, _, _, _ => by simp [mustReturn] at h
  | .cnt, h, _, _, _ => by simp [mustReturn] at h
  | .raiseS _, h, _, _, _ => by simp [mustReturn] at h
  | .tryS _ _ _ _ _, h, _, _, _ => by simp [mustReturn] at h

theorem resOf_rel {En Eo : EnvRel} {o : Out (St String W)} {o' : Out (St Nat W)}
    (h : OutR U En Eo o o') : (U ∧ resOf o' = .ub) ∨ resOf o' = resOf o := by
  cases h with
  | ub h o => exact .inl ⟨h, rfl⟩
  | _ => exact .inr rfl

/-- The compiled body of a function against its Python body. -/
theorem compile_sim (hP : PrimsOk P) (ho : OrdOk ord) {f : Fn} {code : IStmt}
    (hc : compile P f = some code) (hs : safeFn P f = true) (hU : U ∨ tame (ifBool f.body) = true)
    {args : List Val} (ha : ArgsOk f args) (w : W) :
    (U ∧ callIR P ord fuel code f.params.length args w = .ub) ∨
      callIR P ord fuel code f.params.length args w = callPy P fuel f args w := by
  obtain ⟨hn, ht⟩ := ha
  have henv : EnvOk (paramScope f.params 0 ++ [])
      (bindArgs (⟨fun _ => Option.none, w⟩ : St String W) (f.params.map (·.1)) args).env
      (bindArgs (⟨fun _ => Option.none, w⟩ : St Nat W) (List.range f.params.length) args).env := by
    rw [List.append_nil, List.range_eq_range']
    exact envOk_args f.params args 0 _ _ hn ht
  have hwf : WF (paramScope f.params 0 ++ []) f.params.length := by
    rw [List.append_nil]
    exact wf_params hn
  unfold compile at hc
  simp only at hc
  split at hc
  · rename_i hok
    simp only [Bool.and_eq_true, Bool.or_eq_true, decide_eq_true_eq] at hok
    unfold safeFn at hs
    obtain ⟨⟨code', inner', n'⟩, hl, rfl⟩ := Option.map_eq_some_iff.mp hc
    unfold callIR callPy
    rw [bindArgs_eta (f.params.map (·.1)), bindArgs_eta (List.range f.params.length)]
    rw [← ifBool_exec]
    generalize bindArgs (⟨fun _ => Option.none, w⟩ : St String W) (f.params.map (·.1)) args = a
      at henv ⊢
    generalize bindArgs (⟨fun _ => Option.none, w⟩ : St Nat W) (List.range f.params.length) args = b
      at henv ⊢
    generalize ifBool f.body = body at *
    simp only at hl ⊢
    by_cases he : endsWithRet body = true
    · simp only [he, if_true] at hl
      exact resOf_rel (sim hP ho body [] _ _ _ _ _ hl hs hU hwf _ _ _ w henv)
    · simp only [he] at hl
      have happ : ∀ (unb : Val) (s : St String W),
          execPy P unb fuel (.ret (.const .none)) Option.none s = .ret .none s := by
        intro unb s
        simp [execPy, evalPy, ev, pur]
      by_cases hasrt : ∃ c, body = .assertS c
      · obtain ⟨c, rfl⟩ := hasrt
        have hobj : f.rty = .obj := by
          rcases hok.2 with h | h
          · exact h
          · simp [mustReturn] at h
        have hs' : safe P f.rty (.seq (.assertS c) (.ret (.const .none))) []
            (paramScope f.params 0) f.params.length = true := by
          simp only [safe] at hs
          rw [List.append_nil] at hs
          simp [safe, safeE, fits, hs, hobj]
        have := resOf_rel (sim (unb := .err "UnboundLocalError") (fuel := fuel) (U := U) hP ho
          (.seq (.assertS c) (.ret (.const .none))) [] _ _ _ _ _ hl hs'
          (hU.imp_right fun _ => rfl) hwf Option.none _ _ w henv)
        rcases this with h | h
        · exact .inl h
        · right
          rw [h]
          simp only [execPy]
          generalize ev (evalPy P _ _ c) _ _ = o
          cases o <;> simp [Out.andThen, happ, resOf, evalPy, ev, pur]
      · have hc' : ∀ c, body ≠ .assertS c := fun c e => hasrt ⟨c, e⟩
        simp only [Bool.false_eq_true, if_false] at hl
        rw [lower_seq hc'] at hl
        split at hl
        · cases hl
        · rename_i i1 inner1 n1 h1
          split at hl
          · cases hl
          · rename_i i2 inner2 n2 h2
            simp only [Option.some.injEq, Prod.mk.injEq] at hl
            obtain ⟨rfl, rfl, rfl⟩ := hl
            have hsim := sim (unb := .err "UnboundLocalError") (fuel := fuel) hP ho body [] _ _ _ _ _
              h1 hs hU hwf Option.none _ _ w henv
            have hret : f.rty = .obj → i2 = .ret (.const .none) := by
              intro hobj
              simp only [lower, lowerE, hobj, typeOf, constTy, convertible, if_true, adapt,
                Option.some.injEq, Prod.mk.injEq] at h2
              exact h2.1.symm
            have hmr : mustReturn body = true → ∀ st', execPy P (.err "UnboundLocalError") fuel body
                Option.none ⟨a.env, w⟩ ≠ .nrm st' := fun h st' => mustReturn_exec body h _ _ _
            simp only [execIR]
            generalize execPy P (.err "UnboundLocalError") fuel body Option.none ⟨a.env, w⟩ = o
              at hsim hmr
            generalize execIR P ord fuel i1 Option.none ⟨b.env, w⟩ = o' at hsim
            cases hsim with
            | nrm h =>
              have hobj : f.rty = .obj := by
                rcases hok.2 with h | h
                · exact h
                · exact absurd rfl (hmr h _)
              rw [hret hobj]
              right
              simp [Out.andThen, execIR, evalIR, ev, pur, resOf]
            | ub h o => exact .inl ⟨h, rfl⟩
            | _ => exact .inr rfl
  · cases hc

/-- A compiled function does what Python does with its source: the same value or exception, the
same effects, and it terminates when Python does.  Left open is the outcome of loops whose C++
is undefined (a list that changes its length while it is iterated, a counter that leaves the
range of `int64_t`). -/
theorem compiled_eq_python_partial (hP : PrimsOk P) (ho : OrdOk ord) {f : Fn} {code : IStmt}
    (hc : compile P f = some code) (hs : safeFn P f = true) {args : List Val} (ha : ArgsOk f args)
    (fuel : Nat) (w : W) :
    callIR P ord fuel code f.params.length args w = .ub ∨
      callIR P ord fuel code f.params.length args w = callPy P fuel f args w :=
  (compile_sim (U := True) hP ho hc hs (.inl trivial) ha w).imp_left (·.2)

theorem tame_ifBool : ∀ s : Stmt, tame (ifBool s) = tame s
  | .seq a b => by simp [ifBool, tame, tame_ifBool a, tame_ifBool b]
  | .ifS _ t e => by simp [ifBool, tame, tame_ifBool t, tame_ifBool e]
  | .whileS _ b o => by simp [ifBool, tame, tame_ifBool b, tame_ifBool o]
  | .forRange _ _ _ _ b o => by simp [ifBool, tame, tame_ifBool b, tame_ifBool o]
  | .forIn _ _ _ _ => by simp [ifBool, tame]
  | .tryS b _ h o f => by
    simp [ifBool, tame, tame_ifBool b, tame_ifBool h, tame_ifBool o, tame_ifBool f]
  | .skip => rfl
  | .assign _ _ => rfl
  | .assignTup _ _ => rfl
  | .unpack _ _ => rfl
  | .augName _ _ _ => rfl
  | .augStore _ _ _ _ _ => rfl
  | .expr _ => rfl
  | .assertS _ => rfl
  | .brk => rfl
  | .cnt => rfl
  | .ret _ => rfl
  | .raiseS _ => rfl

/-- Without loops over lists, and with ranges that step by one, the outcomes are equal. -/
theorem compiled_eq_python_tame (hP : PrimsOk P) (ho : OrdOk ord) {f : Fn} {code : IStmt}
    (hc : compile P f = some code) (hs : safeFn P f = true) (hm : tame f.body = true)
    {args : List Val} (ha : ArgsOk f args) (fuel : Nat) (w : W) :
    callIR P ord fuel code f.params.length args w = callPy P fuel f args w :=
  (compile_sim (U := False) hP ho hc hs (.inr (by rwa [tame_ifBool])) ha w).resolve_left (·.1)

/-! ## Unassigned variables -/

theorem isSkip_ifBool (s : Stmt) : isSkip (ifBool s) = isSkip s := by
  cases s <;> rfl

theorem keepsAll_ifBool : ∀ s : Stmt, keepsAll (ifBool s) = keepsAll s
  | .seq a b => by simp [ifBool, keepsAll, keepsAll_ifBool a, keepsAll_ifBool b]
  | .ifS _ t e => by simp [ifBool, keepsAll, keepsAll_ifBool t, keepsAll_ifBool e]
  | .whileS _ b o => by simp [ifBool, keepsAll, keepsAll_ifBool b, isSkip_ifBool]
  | .forRange _ _ _ _ b o => by simp [ifBool, keepsAll, keepsAll_ifBool b, isSkip_ifBool]
  | .forIn _ _ b o => by simp [ifBool, keepsAll, keepsAll_ifBool b, isSkip_ifBool]
  | .tryS b _ h o f => by
    simp [ifBool, keepsAll, keepsAll_ifBool b, keepsAll_ifBool h, isSkip_ifBool]
  | .skip => rfl
  | .assign _ _ => rfl
  | .assignTup _ _ => rfl
  | .unpack _ _ => rfl
  | .augName _ _ _ => rfl
  | .augStore _ _ _ _ _ => rfl
  | .expr _ => rfl
  | .assertS _ => rfl
  | .brk => rfl
  | .cnt => rfl
  | .ret _ => rfl
  | .raiseS _ => rfl

/-- If the compiler accepts a function, then in no run of the source is a variable read before it
has a value: what such a read would raise does not matter. -/
theorem accepted_reads_assigned {f : Fn} {code : IStmt} (hc : compile P f = some code)
    (hk : keepsAll f.body = true) {args : List Val} (ha : args.length = f.params.length)
    (fuel : Nat) (w : W) (u : Val) :
    resOf (execPy P u fuel f.body Option.none
      (bindArgs ⟨fun _ => Option.none, w⟩ (f.params.map (·.1)) args)) = callPy P fuel f args w := by
  unfold compile at hc
  simp only at hc
  split at hc
  · obtain ⟨⟨code', inner', n'⟩, hl, rfl⟩ := Option.map_eq_some_iff.mp hc
    unfold callPy
    rw [← ifBool_exec (unb := u), ← ifBool_exec (unb := .err "UnboundLocalError")]
    have hb : Bound (paramScope f.params 0 ++ [])
        (bindArgs (⟨fun _ => Option.none, w⟩ : St String W) (f.params.map (·.1)) args).env := by
      rw [List.append_nil]
      exact bound_args f.params args 0 _ ha
    rw [← keepsAll_ifBool] at hk
    generalize bindArgs (⟨fun _ => Option.none, w⟩ : St String W) (f.params.map (·.1)) args = a
      at hb ⊢
    generalize ifBool f.body = body at *
    by_cases he : endsWithRet body = true
    · simp only [he, if_true] at hl
      rw [(agree u (.err "UnboundLocalError") body [] _ _ _ _ _ hl hk Option.none a hb).1]
    · simp only [he, Bool.false_eq_true, if_false] at hl
      by_cases hasrt : ∃ c, body = .assertS c
      · obtain ⟨c, rfl⟩ := hasrt
        simp only [lower] at hl
        split at hl
        · rename_i ic ib inner1 n1 hic hib
          have : lower P f.rty (.assertS c) [] (paramScope f.params 0) f.params.length =
              some (.assertS ic "AssertionError" .skip, paramScope f.params 0, f.params.length) := by
            simp only [lower, hic, Option.map_some]
          rw [(agree u (.err "UnboundLocalError") _ [] _ _ _ _ _ this hk Option.none a hb).1]
        · cases hl
      · have hc' : ∀ c, body ≠ .assertS c := fun c e => hasrt ⟨c, e⟩
        rw [lower_seq hc'] at hl
        split at hl
        · cases hl
        · rename_i i1 inner1 n1 h1
          rw [(agree u (.err "UnboundLocalError") body [] _ _ _ _ _ h1 hk Option.none a hb).1]
  · cases hc

/-! ## Syntax that is not supported -/

/-- No clause without a translation anywhere: `else` of loops and `try`, `finally`, and `except`
with a type. -/
def supported : Stmt → Bool
  | .seq a b => supported a && supported b
  | .ifS _ t e => supported t && supported e
  | .whileS _ b o => isSkip o && supported b
  | .forRange _ _ _ _ b o => isSkip o && supported b
  | .forIn _ _ b o => isSkip o && supported b
  | .tryS b typ h o f => typ.isNone && isSkip o && isSkip f && supported b && supported h
  | _ => true

/-- No loop, except over named lists. -/
def namedLoops : Stmt → Bool
  | .seq a b => namedLoops a && namedLoops b
  | .ifS _ t e => namedLoops t && namedLoops e
  | .whileS _ _ _ => false
  | .forRange _ _ _ _ _ _ => false
  | .forIn _ (.name _) b _ => namedLoops b
  | .forIn _ _ _ _ => false
  | .tryS b _ h _ _ => namedLoops b && namedLoops h
  | _ => true

theorem syntaxOk_supported : ∀ (s : Stmt) (vars : List String), syntaxOk vars s = true →
    namedLoops s = true → supported s = true
  | .seq a b, vars, h, hn => by
    simp only [syntaxOk, namedLoops, Bool.and_eq_true] at h hn
    simp [supported, syntaxOk_supported a vars h.1 hn.1, syntaxOk_supported b vars h.2 hn.2]
  | .ifS _ a b, vars, h, hn => by
    simp only [syntaxOk, namedLoops, Bool.and_eq_true] at h hn
    simp [supported, syntaxOk_supported a vars h.1 hn.1, syntaxOk_supported b vars h.2 hn.2]
  | .whileS _ _ _, vars, h, hn => by simp [namedLoops] at hn
  | .forRange _ _ _ _ _ _, vars, h, hn => by simp [namedLoops] at hn
  | .forIn x e b o, vars, h, hn => by
    cases e with
    | name y =>
      simp only [syntaxOk, namedLoops, Bool.and_eq_true] at h hn
      simp [supported, h.1, syntaxOk_supported b _ h.2 hn]
    | _ => simp [namedLoops] at hn
  | .tryS b typ hd o f, vars, h, hn => by
    simp only [syntaxOk, namedLoops, Bool.and_eq_true] at h hn
    obtain ⟨⟨⟨⟨h1, h2⟩, h3⟩, h4⟩, h5⟩ := h
    simp [supported, h1, h2, h3, syntaxOk_supported b vars h4 hn.1,
      syntaxOk_supported hd vars h5 hn.2]
  | .skip, _, _, _ => rfl
  | .assign _ _, _, _, _ => rfl
  | .assignTup _ _, _, _, _ => rfl
  | .unpack _ _, _, _, _ => rfl
  | .augName _ _ _, _, _, _ => rfl
  | .augStore _ _ _ _ _, _, _, _ => rfl
  | .expr _, _, _, _ => rfl
  | .assertS _, _, _, _ => rfl
  | .brk, _, _, _ => rfl
  | .cnt, _, _, _ => rfl
  | .ret _, _, _, _ => rfl
  | .raiseS _, _, _, _ => rfl

theorem supported_ifBool : ∀ s : Stmt, supported (ifBool s) = supported s
  | .seq a b => by simp [ifBool, supported, supported_ifBool a, supported_ifBool b]
  | .ifS _ t e => by simp [ifBool, supported, supported_ifBool t, supported_ifBool e]
  | .whileS _ b o => by simp [ifBool, supported, supported_ifBool b, isSkip_ifBool]
  | .forRange _ _ _ _ b o => by simp [ifBool, supported, supported_ifBool b, isSkip_ifBool]
  | .forIn _ _ b o => by simp [ifBool, supported, supported_ifBool b, isSkip_ifBool]
  | .tryS b _ h o f => by
    simp [ifBool, supported, supported_ifBool b, supported_ifBool h, isSkip_ifBool]
  | .skip => rfl
  | .assign _ _ => rfl
  | .assignTup _ _ => rfl
  | .unpack _ _ => rfl
  | .augName _ _ _ => rfl
  | .augStore _ _ _ _ _ => rfl
  | .expr _ => rfl
  | .assertS _ => rfl
  | .brk => rfl
  | .cnt => rfl
  | .ret _ => rfl
  | .raiseS _ => rfl

theorem namedLoops_ifBool : ∀ s : Stmt, namedLoops (ifBool s) = namedLoops s
  | .seq a b => by simp [ifBool, namedLoops, namedLoops_ifBool a, namedLoops_ifBool b]
  | .ifS _ t e => by simp [ifBool, namedLoops, namedLoops_ifBool t, namedLoops_ifBool e]
  | .whileS _ b o => by simp [ifBool, namedLoops]
  | .forRange _ _ _ _ b o => by simp [ifBool, namedLoops]
  | .forIn _ e b o => by
    cases e with
    | name y => simp [ifBool, namedLoops, namedLoops_ifBool b]
    | _ => rfl
  | .tryS b _ h o f => by simp [ifBool, namedLoops, namedLoops_ifBool b, namedLoops_ifBool h]
  | .skip => rfl
  | .assign _ _ => rfl
  | .assignTup _ _ => rfl
  | .unpack _ _ => rfl
  | .augName _ _ _ => rfl
  | .augStore _ _ _ _ _ => rfl
  | .expr _ => rfl
  | .assertS _ => rfl
  | .brk => rfl
  | .cnt => rfl
  | .ret _ => rfl
  | .raiseS _ => rfl

/-- Where all loops are over named lists, a function with a clause that has no translation is
rejected. -/
theorem unsupported_rejected_partial {f : Fn} (hn : namedLoops f.body = true)
    (hs : supported f.body = false) : compile P f = Option.none := by
  unfold compile
  simp only
  split
  · rename_i h
    simp only [Bool.and_eq_true] at h
    have := syntaxOk_supported _ _ h.1 (by rwa [namedLoops_ifBool])
    rw [supported_ifBool, hs] at this
    cases this
  · rfl

/-- `Within s t vars`: the statement `t` occurs in `s` inside loops over the named lists `vars`,
innermost first. -/
inductive Within : Stmt → Stmt → List String → Prop
  | here (s) : Within s s []
  | seqL {a b t vs} : Within a t vs → Within (.seq a b) t vs
  | seqR {a b t vs} : Within b t vs → Within (.seq a b) t vs
  | thenS {c a b t vs} : Within a t vs → Within (.ifS c a b) t vs
  | elseS {c a b t vs} : Within b t vs → Within (.ifS c a b) t vs
  | tryB {b k h o f t vs} : Within b t vs → Within (.tryS b k h o f) t vs
  | handler {b k h o f t vs} : Within h t vs → Within (.tryS b k h o f) t vs
  | loop {x y b o t vs} : Within b t vs → Within (.forIn x (.name y) b o) t (vs ++ [y])

theorem within_syntaxOk {s t : Stmt} {vs : List String} (h : Within s t vs) :
    ∀ vars, syntaxOk vars s = true → syntaxOk (vs ++ vars) t = true := by
  induction h with
  | here => intro vars h; simpa using h
  | seqL _ ih => intro vars h; simp only [syntaxOk, Bool.and_eq_true] at h; exact ih _ h.1
  | seqR _ ih => intro vars h; simp only [syntaxOk, Bool.and_eq_true] at h; exact ih _ h.2
  | thenS _ ih => intro vars h; simp only [syntaxOk, Bool.and_eq_true] at h; exact ih _ h.1
  | elseS _ ih => intro vars h; simp only [syntaxOk, Bool.and_eq_true] at h; exact ih _ h.2
  | tryB _ ih => intro vars h; simp only [syntaxOk, Bool.and_eq_true] at h; exact ih _ h.1.2
  | handler _ ih => intro vars h; simp only [syntaxOk, Bool.and_eq_true] at h; exact ih _ h.2
  | loop _ ih =>
    intro vars h
    simp only [syntaxOk, Bool.and_eq_true] at h
    have := ih _ h.2
    simpa using this

theorem within_ifBool {s t : Stmt} {vs : List String} (h : Within s t vs) :
    Within (ifBool s) (ifBool t) vs := by
  induction h with
  | here => exact .here _
  | seqL _ ih => exact .seqL ih
  | seqR _ ih => exact .seqR ih
  | thenS _ ih => exact .thenS ih
  | elseS _ ih => exact .elseS ih
  | tryB _ ih => exact .tryB ih
  | handler _ ih => exact .handler ih
  | loop _ ih => exact .loop ih

/-- A statement that appends to, or otherwise changes the length of, the list iterated around it,
by its name, is rejected. -/
theorem iterated_list_kept_partial {f : Fn} {code : IStmt} (hc : compile P f = some code)
    {g x : String} {args : List Expr} {vs : List String}
    (h : Within f.body (.expr (.call g (.name x :: args))) vs) (hx : x ∈ vs) :
    g ∉ ["append", "extend", "add", "update", "discard", "pop", "remove", "reserve", "clear"] := by
  unfold compile at hc
  simp only at hc
  split at hc
  · rename_i hs
    simp only [Bool.and_eq_true] at hs
    have := within_syntaxOk (within_ifBool h) _ hs.1
    simp only [ifBool, syntaxOk, List.append_nil, Bool.not_eq_true', Bool.and_eq_false_iff,
      List.contains_eq_mem, decide_eq_false_iff_not] at this
    rcases this with h | h
    · exact absurd hx h
    · exact h
  · cases hc

/-! ## Conditions of `if` -/

mutual

/-- The operands of a condition, below `and`, `or` and `not`, are translated faithfully. -/
def condSafe (P : Prims W) (c : Scope) : Expr → Bool
  | .boolop _ es => condSafeL P c es
  | .notE e => condSafe P c e
  | e => safeE P c e

def condSafeL (P : Prims W) (c : Scope) : List Expr → Bool
  | [] => true
  | e :: es => condSafe P c e && condSafeL P c es

end

theorem typeOf_boolTree {isAnd : Bool} {l : List IExpr} {ie : IExpr}
    (h : boolTree P isAnd l = some ie) (hl : ∀ e ∈ l, typeOf P e = .bool) :
    typeOf P ie = .bool := by
  have key : ∀ (g : IExpr → IExpr → IExpr), (∀ a b, typeOf P (g a b) = .bool) → ∀ (l : List IExpr)
      (a), typeOf P a = .bool → typeOf P (l.foldl g a) = .bool := by
    intro g hg l
    induction l with
    | nil => exact fun a h => h
    | cons e l ih => exact fun a _ => ih _ (hg _ _)
  cases l with
  | nil => simp [boolTree] at h
  | cons a l =>
  cases l with
  | nil => simp [boolTree] at h
  | cons b l =>
    have hall : ((a :: b :: l).all fun e => typeOf P e = .bool) = true := by
      simpa only [List.all_eq_true, decide_eq_true_eq] using hl
    unfold boolTree at h
    rw [hall] at h
    cases isAnd <;> simp only [Option.some.injEq] at h <;> subst h <;>
      exact key _ (by simp [typeOf]) l _ (by simp [typeOf])

mutual

theorem toBool_safe {c : Scope} : ∀ (e : Expr) (ie : IExpr), lowerE P c (toBool e) = some ie →
    condSafe P c e = true → safeE P c (toBool e) = true ∧ typeOf P ie = .bool
  | .boolop isAnd es, ie, h, hs => by
    simp only [toBool, lowerE] at h
    obtain ⟨l, hl, hb⟩ := Option.bind_eq_some_iff.mp h
    obtain ⟨h1, h2⟩ := toBoolL_safe es l hl (by simpa [condSafe] using hs)
    refine ⟨?_, typeOf_boolTree hb h2⟩
    simp only [toBool, safeE, h1, hl, okBool, Bool.true_and, Bool.or_eq_true, List.all_eq_true,
      decide_eq_true_eq]
    exact .inl h2
  | .notE e, ie, h, hs => by
    simp only [toBool, lowerE] at h
    obtain ⟨a, ha, rfl⟩ := Option.map_eq_some_iff.mp h
    obtain ⟨h1, h2⟩ := toBool_safe e a ha (by simpa [condSafe] using hs)
    refine ⟨?_, ?_⟩
    · simp [toBool, safeE, h1, ha, h2]
    · simp [h2, typeOf]
  | .const v, ie, h, hs => by
    simp only [toBool, lowerE] at h
    obtain ⟨a, ha, rfl⟩ := Option.map_eq_some_iff.mp h
    exact ⟨by simpa [toBool, safeE, condSafe] using hs, rfl⟩
  | .name x, ie, h, hs => by
    simp only [toBool, lowerE] at h
    obtain ⟨a, ha, rfl⟩ := Option.map_eq_some_iff.mp h
    exact ⟨by simp [toBool, safeE], rfl⟩
  | .tup es, ie, h, hs => by
    simp only [toBool, lowerE] at h
    obtain ⟨a, ha, rfl⟩ := Option.map_eq_some_iff.mp h
    exact ⟨by simpa [toBool, safeE, condSafe] using hs, rfl⟩
  | .call f es, ie, h, hs => by
    simp only [toBool, lowerE] at h
    obtain ⟨a, ha, rfl⟩ := Option.map_eq_some_iff.mp h
    exact ⟨by simpa [toBool, safeE, condSafe] using hs, rfl⟩
  | .compare ops es, ie, h, hs => by
    simp only [toBool, lowerE] at h
    obtain ⟨a, ha, rfl⟩ := Option.map_eq_some_iff.mp h
    exact ⟨by simpa [toBool, safeE, condSafe] using hs, rfl⟩
  | .ifE b t f, ie, h, hs => by
    simp only [toBool, lowerE] at h
    obtain ⟨a, ha, rfl⟩ := Option.map_eq_some_iff.mp h
    exact ⟨by simpa [toBool, safeE, condSafe] using hs, rfl⟩
  | .boolE e, ie, h, hs => by
    simp only [toBool, lowerE] at h
    obtain ⟨a, ha, rfl⟩ := Option.map_eq_some_iff.mp h
    exact ⟨by simpa [toBool, safeE, condSafe] using hs, rfl⟩

theorem toBoolL_safe {c : Scope} : ∀ (es : List Expr) (l : List IExpr),
    lowerL P c (toBoolL es) = some l → condSafeL P c es = true →
    safeL P c (toBoolL es) = true ∧ ∀ e ∈ l, typeOf P e = .bool
  | [], l, h, _ => by
    simp only [toBoolL, lowerL, Option.some.injEq] at h
    subst h
    exact ⟨by simp [toBoolL, safeL], by simp⟩
  | e :: es, l, h, hs => by
    simp only [toBoolL, lowerL] at h
    split at h
    · rename_i a as ha has
      simp only [Option.some.injEq] at h
      subst h
      simp only [condSafeL, Bool.and_eq_true] at hs
      obtain ⟨h1, h2⟩ := toBool_safe e a ha hs.1
      obtain ⟨h3, h4⟩ := toBoolL_safe es as has hs.2
      exact ⟨by simp [toBoolL, safeL, h1, h3], by simpa using ⟨h2, h4⟩⟩
    · cases h

end

/-- The condition of an `if`, whatever the types of its operands, is evaluated as Python does:
operands from left to right, stopping at the first that decides. -/
theorem if_condition_faithful (hP : PrimsOk P) (ho : OrdOk ord) {c : Scope}
    {penv : String → Option Val} {ienv : Nat → Option Val} (he : EnvOk c penv ienv) {unb : Val}
    {e : Expr} {ie : IExpr} (hl : lowerE P c (toBool e) = some ie) (hs : condSafe P c e = true)
    (w : W) :
    evalIR P ord ienv ie w = match evalPy P unb penv e w with
      | (.ok v, w') => (.ok (.bool (truth P w' v)), w')
      | (.error x, w') => (.error x, w') := by
  rw [(simE hP ho unb he _ ie hl (toBool_safe e ie hl hs).1).1, toBool_eval]
  unfold bnd
  rcases evalPy P unb penv e w with ⟨x | v, w'⟩ <;> rfl

/-- `and` / `or` of operands with static type `bool`, anywhere: as in Python. -/
theorem bool_operands_faithful (hP : PrimsOk P) (ho : OrdOk ord) {c : Scope}
    {penv : String → Option Val} {ienv : Nat → Option Val} (he : EnvOk c penv ienv) {unb : Val}
    {isAnd : Bool} {es : List Expr} {l : List IExpr} {ie : IExpr} (hl : lowerL P c es = some l)
    (hie : lowerE P c (.boolop isAnd es) = some ie) (hs : safeL P c es = true)
    (ht : ∀ e ∈ l, typeOf P e = .bool) :
    evalIR P ord ienv ie = evalPy P unb penv (.boolop isAnd es) := by
  refine (simE hP ho unb he _ ie hie ?_).1
  simp only [safeE, hs, hl, okBool, Bool.true_and, Bool.or_eq_true, List.all_eq_true,
    decide_eq_true_eq]
  exact .inl ht

/-- A chain of relations with inner operands that have no effect: as in Python, including that
it stops at the first relation that fails. -/
theorem chain_faithful (hP : PrimsOk P) (ho : OrdOk ord) {c : Scope}
    {penv : String → Option Val} {ienv : Nat → Option Val} (he : EnvOk c penv ienv) {unb : Val}
    {ops : List Cmp} {es : List Expr} {l : List IExpr} {ie : IExpr} (hl : lowerL P c es = some l)
    (hie : lowerE P c (.compare ops es) = some ie) (hs : safeL P c es = true)
    (hlen : ops.length + 1 = es.length) (hin : ∀ e ∈ l.tail.dropLast, stable P e = true)
    (hops : ∀ op ∈ ops, ∃ f, op = .rel f ∧ P.ret f = .bool) (h2 : 2 ≤ ops.length) :
    evalIR P ord ienv ie = evalPy P unb penv (.compare ops es) := by
  refine (simE hP ho unb he _ ie hie ?_).1
  have hlen' : ops.length + 1 = l.length := by rw [lowerL_length P c es l hl, hlen]
  simp only [safeE, hs, hl, Bool.true_and]
  unfold okCmp
  split
  · simp at h2
  · simp only [hlen', decide_true, Bool.true_and, Bool.and_eq_true, List.all_eq_true]
    refine ⟨hin, fun op hop => ?_⟩
    obtain ⟨f, rfl, hf⟩ := hops op hop
    simpa using hf

end Verif.Lower
