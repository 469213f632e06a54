import Verif.LowerOrd
import Verif.LowerSafe

/-! Generated expressions compute what the Python expressions compute. -/

namespace Verif.Lower

variable {W : Type}

/-- All results have the static type. -/
def Typed (ty : Ty) (m : Act W Val) : Prop := ∀ w v w', m w = (.ok v, w') → HasTy ty v

/-- A generated expression keeps its static type, and is a mere value when it looks like one. -/
def Good (P : Prims W) (ord : List IExpr → List Nat) (env : Nat → Option Val) (e : IExpr) : Prop :=
  Typed (typeOf P e) (evalIR P ord env e) ∧ (stable P e = true → Quiet (evalIR P ord env e))

/-- The variables in scope hold values of their types, the same ones on both sides. -/
def EnvOk (c : Scope) (penv : String → Option Val) (ienv : Nat → Option Val) : Prop :=
  ∀ x id ty, (x, id, ty) ∈ c → ∃ v, penv x = some v ∧ ienv id = some v ∧ HasTy ty v

theorem lookup_mem {c : Scope} {x : String} {id : Nat} {ty : Ty} (h : lookup c x = some (id, ty)) :
    (x, id, ty) ∈ c := by
  unfold lookup at h
  obtain ⟨⟨y, q⟩, hp, hq⟩ := Option.map_eq_some_iff.mp h
  have hm := List.mem_of_find?_eq_some hp
  have hx := List.find?_some hp
  simp only at hq hx
  have : y = x := by simpa using hx
  subst this; subst hq
  exact hm

theorem typed_pur {ty : Ty} {v : Val} (h : HasTy ty v) : Typed ty (pur v : Act W Val) := by
  intro w v' w' e
  simp only [pur, Prod.mk.injEq, Except.ok.injEq] at e
  exact e.1 ▸ h

theorem typed_of_pur [Inhabited W] {ty : Ty} {v : Val} (h : Typed ty (pur v : Act W Val)) :
    HasTy ty v := h default v default rfl

theorem hasTy_obj (v : Val) : HasTy .obj v := by cases v <;> trivial

theorem truth_world {P : Prims W} {ty : Ty} (h : ty ≠ .obj) {v : Val} (hv : HasTy ty v) (w w' : W) :
    truth P w v = truth P w' v := by
  cases ty <;> cases v <;> simp_all [HasTy, truth]

section

variable {P : Prims W} {ord : List IExpr → List Nat} {env : Nat → Option Val}

/-! ## Calls -/

theorem okArgs_one {es : List IExpr} (h : okArgs P es = true) :
    ∃ k, ∀ i, i < es.length → i ≠ k → ∃ e, es[i]? = some e ∧ stable P e = true := by
  induction es with
  | nil => exact ⟨0, fun i hi => absurd hi (by simp)⟩
  | cons e es ih =>
    cases hs : stable P e with
    | true =>
      have : okArgs P es = true := by simpa [okArgs, hs] using h
      obtain ⟨k, hk⟩ := ih this
      refine ⟨k + 1, fun i hi hne => ?_⟩
      cases i with
      | zero => exact ⟨e, rfl, hs⟩
      | succ i => exact hk i (by simpa using hi) (by omega)
    | false =>
      have hall : ∀ x ∈ es, stable P x = true := by
        have : (es.filter fun e => !stable P e) = [] := by
          simpa [okArgs, hs] using h
        intro x hx
        simpa using List.filter_eq_nil_iff.mp this x hx
      refine ⟨0, fun i hi hne => ?_⟩
      cases i with
      | zero => exact absurd rfl hne
      | succ i =>
        have hi' : i < es.length := by simpa using hi
        exact ⟨es[i], by simp [hi'], hall _ (List.getElem_mem hi')⟩

theorem stableL_all {es : List IExpr} : stableL P es = es.all (stable P) := by
  induction es with
  | nil => rfl
  | cons e es ih => simp [stableL, ih]

theorem okArgs_of_stable {es : List IExpr} (h : ∀ e ∈ es, stable P e = true) :
    okArgs P es = true := by
  have : (es.filter fun e => !stable P e) = [] := List.filter_eq_nil_iff.mpr fun e he => by
    simp [h e he]
  simp [okArgs, this]

/-- With harmless arguments a call is the call on the values from left to right. -/
theorem evalIR_args (ho : OrdOk ord) {as : List IExpr} (hg : ∀ a ∈ as, Good P ord env a)
    (hok : okArgs P as = true) :
    runOrd (ord as) (as.map (evalIR P ord env)) = runSeq (as.map (evalIR P ord env)) := by
  apply runOrd_eq_runSeq
  · simpa using ho as
  · obtain ⟨k, hk⟩ := okArgs_one hok
    refine ⟨k, fun i hi hne => ?_⟩
    obtain ⟨e, he, hs⟩ := hk i (by simpa using hi) hne
    obtain ⟨v, hv⟩ := (hg e (List.mem_of_getElem? he)).2 hs
    exact ⟨v, by simp [he, hv]⟩

theorem evalIR_call (ho : OrdOk ord) {f : String} {as : List IExpr}
    (hg : ∀ a ∈ as, Good P ord env a) (hok : okArgs P as = true) :
    evalIR P ord env (.call f as) = bnd (runSeq (as.map (evalIR P ord env))) (P.call f) := by
  rw [evalIR, evalIRL_eq, evalIR_args ho hg hok]

theorem sig_values [Inhabited W] {as : List IExpr} (hg : ∀ a ∈ as, Good P ord env a)
    (hs : ∀ a ∈ as, stable P a = true) : ∀ {sg : List Ty}, sigOk sg (as.map (typeOf P)) = true →
    ∃ vs, runSeq (as.map (evalIR P ord env)) = pur vs ∧ List.Forall₂ HasTy sg vs := by
  induction as with
  | nil =>
    intro sg h
    cases sg with
    | nil => exact ⟨[], rfl, .nil⟩
    | cons _ _ => simp [sigOk] at h
  | cons a as ih =>
    intro sg h
    cases sg with
    | nil => simp [sigOk] at h
    | cons s sg =>
      simp only [List.map_cons, sigOk, Bool.and_eq_true, Bool.or_eq_true, decide_eq_true_eq] at h
      obtain ⟨vs, hvs, hf⟩ := ih (fun x hx => hg x (by simp [hx])) (fun x hx => hs x (by simp [hx]))
        h.2
      obtain ⟨ht, hq⟩ := hg a (by simp)
      obtain ⟨v, hv⟩ := hq (hs a (by simp))
      rw [hv] at ht
      refine ⟨v :: vs, by simp only [List.map_cons, runSeq, hv, hvs, bnd_pur], .cons ?_ hf⟩
      rcases h.1 with rfl | rfl
      · exact hasTy_obj v
      · exact typed_of_pur ht

theorem good_call (hP : PrimsOk P) (ho : OrdOk ord) {f : String} {as : List IExpr}
    (hg : ∀ a ∈ as, Good P ord env a) : Good P ord env (.call f as) := by
  refine ⟨fun w v w' h => ?_, fun hs => ?_⟩
  · rw [evalIR] at h
    obtain ⟨vs, w1, _, h2⟩ := bnd_ok h
    exact hP.ret f vs w1 v w' h2
  · by_cases hW : Nonempty W
    · obtain ⟨w0⟩ := hW
      haveI : Inhabited W := ⟨w0⟩
      simp only [stable, Bool.and_eq_true, stableL_all, List.all_eq_true] at hs
      obtain ⟨⟨hpu, hst⟩, hsig⟩ := hs
      obtain ⟨vs, hvs, hf⟩ := sig_values hg hst hsig
      rw [evalIR_call ho hg (okArgs_of_stable hst), hvs, bnd_pur]
      exact hP.pure f vs hpu hf
    · exact ⟨.none, funext fun w => absurd ⟨w⟩ hW⟩

/-! ## `and`, `or` -/

/-- One step of `and` / `or`. -/
def shortOp (P : Prims W) (isAnd : Bool) (m n : Act W Val) : Act W Val :=
  bnd m fun v w => if truth P w v = isAnd then n w else (.ok v, w)

theorem shortOp_assoc (isAnd : Bool) (a b c : Act W Val) :
    shortOp P isAnd (shortOp P isAnd a b) c = shortOp P isAnd a (shortOp P isAnd b c) := by
  unfold shortOp
  rw [bnd_assoc]
  refine bnd_congr fun w v w' _ => ?_
  by_cases h : truth P w' v = isAnd
  · simp [bnd, h]
  · simp [bnd, h]

theorem foldl_shortOp (isAnd : Bool) : ∀ (ms : List (Act W Val)) (a b : Act W Val),
    ms.foldl (shortOp P isAnd) (shortOp P isAnd a b) =
      shortOp P isAnd a (ms.foldl (shortOp P isAnd) b)
  | [], _, _ => rfl
  | m :: ms, a, b => by
    simp only [List.foldl_cons]
    rw [shortOp_assoc, foldl_shortOp isAnd ms]

theorem shortSeq_foldl (isAnd : Bool) : ∀ (ms : List (Act W Val)) (m : Act W Val),
    shortSeq P isAnd (m :: ms) = ms.foldl (shortOp P isAnd) m
  | [], m => rfl
  | n :: ms, m => by
    rw [shortSeq_cons _ _ _ _ (by simp), shortSeq_foldl isAnd ms n, List.foldl_cons, foldl_shortOp]
    rfl

theorem evalIR_and2 {a b : IExpr} (ha : Typed .bool (evalIR P ord env a))
    (hb : Typed .bool (evalIR P ord env b)) :
    evalIR P ord env (.and2 a b) = shortOp P true (evalIR P ord env a) (evalIR P ord env b) := by
  rw [evalIR]
  unfold shortOp
  refine bnd_congr fun w v w' h => ?_
  have hv := ha w v w' h
  cases v <;> simp only [HasTy] at hv
  rename_i t
  cases t
  · simp [truth]
  · have ht : truth P w' (.bool true) = true := rfl
    simp only [if_pos ht]
    unfold bnd
    rcases hb' : evalIR P ord env b w' with ⟨_ | v, w''⟩
    · rfl
    · have hv := hb w' v w'' hb'
      cases v <;> simp_all [HasTy, truth]

theorem evalIR_or2 {a b : IExpr} (ha : Typed .bool (evalIR P ord env a))
    (hb : Typed .bool (evalIR P ord env b)) :
    evalIR P ord env (.or2 a b) = shortOp P false (evalIR P ord env a) (evalIR P ord env b) := by
  rw [evalIR]
  unfold shortOp
  refine bnd_congr fun w v w' h => ?_
  have hv := ha w v w' h
  cases v <;> simp only [HasTy] at hv
  rename_i t
  cases t
  · have ht : truth P w' (.bool false) = false := rfl
    have ht' : ¬ truth P w' (.bool false) = true := by rw [ht]; simp
    simp only [if_neg ht', if_pos ht]
    unfold bnd
    rcases hb' : evalIR P ord env b w' with ⟨_ | v, w''⟩
    · rfl
    · have hv := hb w' v w'' hb'
      cases v <;> simp_all [HasTy, truth]
  · simp [truth]

theorem runOrd_pair (ho : OrdOk ord) {a b : IExpr} (hb : Quiet (evalIR P ord env b)) :
    runOrd (ord [a, b]) [evalIR P ord env a, evalIR P ord env b] =
      runSeq [evalIR P ord env a, evalIR P ord env b] := by
  apply runOrd_eq_runSeq
  · exact ho [a, b]
  · refine ⟨0, fun i hi hne => ?_⟩
    obtain ⟨v, hv⟩ := hb
    have : i = 1 := by simp at hi; omega
    subst this
    exact ⟨v, by simp [hv]⟩

theorem evalIR_hloAnd (ho : OrdOk ord) {a b : IExpr} (hb : Quiet (evalIR P ord env b)) :
    evalIR P ord env (.hloAnd a b) = shortOp P true (evalIR P ord env a) (evalIR P ord env b) := by
  rw [evalIR, runOrd_pair ho hb]
  obtain ⟨v, hv⟩ := hb
  simp only [runSeq, hv, bnd_pur, bnd_assoc]
  unfold shortOp
  refine bnd_congr fun w u w' _ => ?_
  simp only [hloAndV, pur]
  by_cases h : truth P w' u <;> simp [h]

theorem evalIR_hloOr (ho : OrdOk ord) {a b : IExpr} (hb : Quiet (evalIR P ord env b)) :
    evalIR P ord env (.hloOr a b) = shortOp P false (evalIR P ord env a) (evalIR P ord env b) := by
  rw [evalIR, runOrd_pair ho hb]
  obtain ⟨v, hv⟩ := hb
  simp only [runSeq, hv, bnd_pur, bnd_assoc]
  unfold shortOp
  refine bnd_congr fun w u w' _ => ?_
  simp only [hloOrV, pur]
  by_cases h : truth P w' u <;> simp [h]

theorem typed_shortOp (isAnd : Bool) {ty : Ty} {m n : Act W Val} (hm : Typed ty m)
    (hn : Typed ty n) : Typed ty (shortOp P isAnd m n) := by
  intro w v w' h
  obtain ⟨u, w1, h1, h2⟩ := bnd_ok h
  by_cases ht : truth P w1 u = isAnd
  · rw [if_pos ht] at h2; exact hn _ _ _ h2
  · rw [if_neg ht] at h2
    simp only [Prod.mk.injEq, Except.ok.injEq] at h2
    exact h2.1 ▸ hm _ _ _ h1

theorem typed_weaken {ty ty' : Ty} {m : Act W Val} (h : Typed ty m) (e : ty' = ty ∨ ty' = .obj) :
    Typed ty' m := by
  rcases e with rfl | rfl
  · exact h
  · intro w v w' _; exact hasTy_obj v

theorem foldl_prim {g : IExpr → IExpr → IExpr} {isAnd : Bool}
    (hg : ∀ a b, Typed .bool (evalIR P ord env a) → Typed .bool (evalIR P ord env b) →
      evalIR P ord env (g a b) = shortOp P isAnd (evalIR P ord env a) (evalIR P ord env b)) :
    ∀ (es : List IExpr) (a : IExpr), Typed .bool (evalIR P ord env a) →
      (∀ e ∈ es, Typed .bool (evalIR P ord env e)) →
      evalIR P ord env (es.foldl g a) =
        (es.map (evalIR P ord env)).foldl (shortOp P isAnd) (evalIR P ord env a) ∧
      Typed .bool (evalIR P ord env (es.foldl g a))
  | [], a, ha, _ => ⟨rfl, ha⟩
  | e :: es, a, ha, h => by
    have he := h e (by simp)
    have := hg a e ha he
    have ht : Typed .bool (evalIR P ord env (g a e)) := by
      rw [this]; exact typed_shortOp isAnd ha he
    have ih := foldl_prim hg es (g a e) ht fun x hx => h x (by simp [hx])
    rw [this] at ih
    exact ih

theorem foldl_hlo {g : IExpr → IExpr → IExpr} {isAnd : Bool}
    (hg : ∀ a b, Quiet (evalIR P ord env b) →
      evalIR P ord env (g a b) = shortOp P isAnd (evalIR P ord env a) (evalIR P ord env b))
    (hty : ∀ a b, typeOf P (g a b) = if typeOf P a = typeOf P b then typeOf P a else .obj) :
    ∀ (es : List IExpr) (a : IExpr), Typed (typeOf P a) (evalIR P ord env a) →
      (∀ e ∈ es, Typed (typeOf P e) (evalIR P ord env e) ∧ Quiet (evalIR P ord env e)) →
      evalIR P ord env (es.foldl g a) =
        (es.map (evalIR P ord env)).foldl (shortOp P isAnd) (evalIR P ord env a) ∧
      Typed (typeOf P (es.foldl g a)) (evalIR P ord env (es.foldl g a))
  | [], a, ha, _ => ⟨rfl, ha⟩
  | e :: es, a, ha, h => by
    obtain ⟨he, hq⟩ := h e (by simp)
    have := hg a e hq
    have ht : Typed (typeOf P (g a e)) (evalIR P ord env (g a e)) := by
      rw [this, hty]
      by_cases hte : typeOf P a = typeOf P e
      · rw [if_pos hte]
        exact typed_shortOp isAnd ha (hte ▸ he)
      · rw [if_neg hte]
        intro w v w' _; exact hasTy_obj v
    have ih := foldl_hlo hg hty es (g a e) ht fun x hx => h x (by simp [hx])
    rw [this] at ih
    exact ih

theorem foldl_stable {g : IExpr → IExpr → IExpr} (hg : ∀ a b, stable P (g a b) = false) :
    ∀ (es : List IExpr) (a : IExpr), stable P a = false → stable P (es.foldl g a) = false
  | [], _, h => h
  | e :: es, a, _ => foldl_stable hg es (g a e) (hg a e)

theorem foldl_type_bool {g : IExpr → IExpr → IExpr} (hg : ∀ a b, typeOf P (g a b) = .bool) :
    ∀ (es : List IExpr) (a : IExpr), typeOf P a = .bool → typeOf P (es.foldl g a) = .bool
  | [], _, h => h
  | e :: es, a, _ => foldl_type_bool hg es (g a e) (hg a e)

/-- The tree of `and` / `or` evaluates the operands one after another until one decides. -/
theorem boolTree_sim (ho : OrdOk ord) {isAnd : Bool} {es : List IExpr} {r : IExpr}
    (h : boolTree P isAnd es = some r) (hg : ∀ e ∈ es, Good P ord env e) (hok : okBool P es = true) :
    evalIR P ord env r = shortSeq P isAnd (es.map (evalIR P ord env)) ∧ Good P ord env r := by
  cases es with
  | nil => simp [boolTree] at h
  | cons a es =>
  cases es with
  | nil => simp [boolTree] at h
  | cons b es =>
  rw [List.map_cons, shortSeq_foldl]
  by_cases hp : ((a :: b :: es).all fun e => typeOf P e = .bool) = true
  · have hty : ∀ e ∈ a :: b :: es, Typed .bool (evalIR P ord env e) := by
      intro e he
      have h1 := List.all_eq_true.mp hp e he
      have h2 := (hg e he).1
      rw [of_decide_eq_true h1] at h2
      exact h2
    unfold boolTree at h
    rw [hp] at h
    cases isAnd with
    | true =>
      simp only [Option.some.injEq] at h
      subst h
      have := foldl_prim (g := .and2) (fun _ _ => evalIR_and2) (b :: es) a (hty a (by simp))
        fun e he => hty e (List.mem_cons_of_mem _ he)
      refine ⟨this.1, ?_, fun hs => ?_⟩
      · rw [show typeOf P (es.foldl IExpr.and2 (a.and2 b)) = .bool from
          foldl_type_bool (fun _ _ => rfl) _ _ rfl]
        exact this.2
      · rw [foldl_stable (fun _ _ => by simp [stable]) es _ (by simp [stable])] at hs; cases hs
    | false =>
      simp only [Option.some.injEq] at h
      subst h
      have := foldl_prim (g := .or2) (fun _ _ => evalIR_or2) (b :: es) a (hty a (by simp))
        fun e he => hty e (List.mem_cons_of_mem _ he)
      refine ⟨this.1, ?_, fun hs => ?_⟩
      · rw [show typeOf P (es.foldl IExpr.or2 (a.or2 b)) = .bool from
          foldl_type_bool (fun _ _ => rfl) _ _ rfl]
        exact this.2
      · rw [foldl_stable (fun _ _ => by simp [stable]) es _ (by simp [stable])] at hs; cases hs
  · have hp' : ((a :: b :: es).all fun e => typeOf P e = .bool) = false := by simpa using hp
    have hst : ∀ e ∈ b :: es, stable P e = true := by
      unfold okBool at hok
      rw [hp', Bool.false_or] at hok
      exact List.all_eq_true.mp hok
    unfold boolTree at h
    rw [hp'] at h
    have hq : ∀ e ∈ b :: es, Typed (typeOf P e) (evalIR P ord env e) ∧ Quiet (evalIR P ord env e) :=
      fun e he => ⟨(hg e (List.mem_cons_of_mem _ he)).1,
        (hg e (List.mem_cons_of_mem _ he)).2 (hst e he)⟩
    cases isAnd with
    | true =>
      simp only [Option.some.injEq] at h
      subst h
      have := foldl_hlo (g := .hloAnd) (fun _ _ => evalIR_hloAnd ho) (fun _ _ => by simp [typeOf])
        (b :: es) a (hg a (by simp)).1 hq
      refine ⟨this.1, this.2, fun hs => ?_⟩
      rw [foldl_stable (fun _ _ => by simp [stable]) es _ (by simp [stable])] at hs; cases hs
    | false =>
      simp only [Option.some.injEq] at h
      subst h
      have := foldl_hlo (g := .hloOr) (fun _ _ => evalIR_hloOr ho) (fun _ _ => by simp [typeOf])
        (b :: es) a (hg a (by simp)).1 hq
      refine ⟨this.1, this.2, fun hs => ?_⟩
      rw [foldl_stable (fun _ _ => by simp [stable]) es _ (by simp [stable])] at hs; cases hs

/-! ## Comparisons -/

/-- `evalPyCmps` on computations. -/
def cmpsA (P : Prims W) : List Cmp → Val → List (Act W Val) → Act W Val
  | [op], a, [e] => bnd e fun b => pyCmp P op a b
  | op :: ops, a, e :: es => bnd e fun b => bnd (pyCmp P op a b) fun r w =>
      if truth P w r then cmpsA P ops b es w else (.ok r, w)
  | _, _, _ => pur .none

theorem evalPyCmps_eq (unb : Val) (penv : String → Option Val) : ∀ (ops : List Cmp) (a : Val)
    (es : List Expr), evalPyCmps P unb penv ops a es = cmpsA P ops a (es.map (evalPy P unb penv))
  | [], a, [] => by simp [evalPyCmps, cmpsA]
  | [], a, _ :: _ => by simp [evalPyCmps, cmpsA]
  | [op], a, [] => by simp [evalPyCmps, cmpsA]
  | [op], a, [e] => by simp [evalPyCmps, cmpsA]
  | [op], a, e :: e' :: es => by
    have := evalPyCmps_eq unb penv [] 
    simp [evalPyCmps, cmpsA, this]
  | op :: op' :: ops, a, [] => by simp [evalPyCmps, cmpsA]
  | op :: op' :: ops, a, e :: es => by
    have := evalPyCmps_eq unb penv (op' :: ops)
    simp [evalPyCmps, cmpsA, this]

theorem pair_eq (ho : OrdOk ord) {f : String} {a b : IExpr} (ha : Good P ord env a)
    (hb : Good P ord env b) (hok : okArgs P [a, b] = true) :
    evalIR P ord env (.call f [a, b]) =
      bnd (evalIR P ord env a) fun v => bnd (evalIR P ord env b) fun u => P.call f [v, u] := by
  rw [evalIR_call ho (by simp [ha, hb]) hok]
  simp only [List.map, runSeq, bnd_assoc, bnd_pur]

/-- The names of the relations of a chain. -/
def relNames : List Cmp → List String
  | [] => []
  | .rel f :: ops => f :: relNames ops
  | _ :: ops => relNames ops

/-- Consecutive operands paired. -/
def pairCalls : List Cmp → List IExpr → List IExpr
  | .rel f :: ops, a :: b :: es => .call f [a, b] :: pairCalls ops (b :: es)
  | _, _ => []

theorem cmpList_rel : ∀ (ops : List Cmp) (es : List IExpr),
    (∀ op ∈ ops, ∃ f, op = .rel f) → ops.length + 1 = es.length →
    cmpList ops es = some (.inl (pairCalls ops es))
  | [], es, _, _ => by simp [cmpList, pairCalls]
  | op :: ops, [], _, hl => by simp at hl
  | op :: ops, [a], _, hl => by simp at hl
  | op :: ops, a :: b :: es, h, hl => by
    obtain ⟨f, rfl⟩ := h op (by simp)
    have ih := cmpList_rel ops (b :: es) (fun o ho => h o (by simp [ho])) (by simpa using hl)
    simp [cmpList, pairCalls, ih]

/-- A chain of relations whose inner operands are values. -/
theorem chain_sim (ho : OrdOk ord) : ∀ (ops : List Cmp) (a : IExpr) (es : List IExpr),
    (∀ op ∈ ops, ∃ f, op = .rel f) → ops ≠ [] → ops.length = es.length →
    (∀ e ∈ a :: es, Good P ord env e) →
    (∀ e ∈ es.dropLast, stable P e = true) → (es.length = 1 → okArgs P [a, es.getD 0 a] = true) →
    shortSeq P true ((pairCalls ops (a :: es)).map (evalIR P ord env)) =
      bnd (evalIR P ord env a) fun v => cmpsA P ops v (es.map (evalIR P ord env))
  | [], _, _, _, h, _, _, _, _ => absurd rfl h
  | [op], a, [b], hr, _, _, hg, _, hok => by
    obtain ⟨f, rfl⟩ := hr op (by simp)
    have hok' : okArgs P [a, b] = true := hok rfl
    simp only [pairCalls, List.map, shortSeq, cmpsA, pyCmp]
    exact pair_eq ho (hg a (by simp)) (hg b (by simp)) hok'
  | op :: op' :: ops, a, b :: b' :: es, hr, _, hl, hg, hst, _ => by
    obtain ⟨f, rfl⟩ := hr op (by simp)
    obtain ⟨f', hf'⟩ := hr op' (by simp)
    have hb : stable P b = true := hst b (by simp)
    have hok' : okArgs P [a, b] = true := by
      cases hs : stable P a <;> simp [okArgs, hs, hb]
    have ih := chain_sim ho (op' :: ops) b (b' :: es) (fun o h => hr o (by simp at h ⊢; tauto))
      (by simp) (by simpa using hl) (fun e he => hg e (List.mem_cons_of_mem _ he))
      (fun e he => hst e (by simp only [List.dropLast_cons₂]; exact List.mem_cons_of_mem _ he))
      (fun _ => by
        cases hs : stable P b' <;> simp [okArgs, hs, hb])
    have hne : (pairCalls (op' :: ops) (b :: b' :: es)).map (evalIR P ord env) ≠ [] := by
      subst hf'; simp [pairCalls]
    rw [pairCalls, List.map_cons, shortSeq_cons _ _ _ _ hne, ih,
      pair_eq ho (hg a (by simp)) (hg b (by simp)) hok']
    obtain ⟨v, hv⟩ := (hg b (by simp)).2 hb
    simp only [hv, bnd_pur, bnd_assoc, List.map_cons, cmpsA, pyCmp]
  | [_], _, [], _, _, h, _, _, _ => by simp at h
  | [_], _, _ :: _ :: _, _, _, h, _, _, _ => by simp at h
  | _ :: _ :: _, _, [], _, _, h, _, _, _ => by simp at h
  | _ :: _ :: _, _, [_], _, _, h, _, _, _ => by simp at h

theorem okArgs_swap {a b : IExpr} (h : okArgs P [a, b] = true) : okArgs P [b, a] = true := by
  cases ha : stable P a <;> cases hb : stable P b <;> simp_all [okArgs]

theorem quiet_of_okArgs {a b : IExpr} (h : okArgs P [a, b] = true) (ha : Good P ord env a)
    (hb : Good P ord env b) : Quiet (evalIR P ord env a) ∨ Quiet (evalIR P ord env b) := by
  cases hsa : stable P a
  · cases hsb : stable P b
    · simp [okArgs, hsa, hsb] at h
    · exact .inr (hb.2 hsb)
  · exact .inl (ha.2 hsa)

theorem good_not {a : IExpr} (ha : Good P ord env a) : Good P ord env (.not a) := by
  refine ⟨fun w v w' h => ?_, fun hs => ?_⟩
  · rw [evalIR] at h
    obtain ⟨u, w1, _, h2⟩ := bnd_ok h
    simp only [Prod.mk.injEq, Except.ok.injEq] at h2
    rw [← h2.1]; trivial
  · by_cases hW : Nonempty W
    · obtain ⟨w0⟩ := hW
      haveI : Inhabited W := ⟨w0⟩
      simp only [stable, Bool.and_eq_true, bne_iff_ne] at hs
      obtain ⟨v, hv⟩ := ha.2 hs.1
      have ht := ha.1
      rw [hv] at ht
      have ht := typed_of_pur ht
      refine ⟨.bool (!truth P w0 v), ?_⟩
      rw [evalIR, hv, bnd_pur]
      funext w
      rw [truth_world hs.2 ht w w0]
      rfl
    · exact ⟨.none, funext fun w => absurd ⟨w⟩ hW⟩

theorem good_boolOf {a : IExpr} (ha : Good P ord env a) : Good P ord env (.boolOf a) := by
  refine ⟨fun w v w' h => ?_, fun hs => ?_⟩
  · rw [evalIR] at h
    obtain ⟨u, w1, _, h2⟩ := bnd_ok h
    simp only [Prod.mk.injEq, Except.ok.injEq] at h2
    rw [← h2.1]; trivial
  · by_cases hW : Nonempty W
    · obtain ⟨w0⟩ := hW
      haveI : Inhabited W := ⟨w0⟩
      simp only [stable, Bool.and_eq_true, bne_iff_ne] at hs
      obtain ⟨v, hv⟩ := ha.2 hs.1
      have ht := ha.1
      rw [hv] at ht
      have ht := typed_of_pur ht
      refine ⟨.bool (truth P w0 v), ?_⟩
      rw [evalIR, hv, bnd_pur]
      funext w
      rw [truth_world hs.2 ht w w0]
      rfl
    · exact ⟨.none, funext fun w => absurd ⟨w⟩ hW⟩

theorem good_ite {c t f : IExpr} (hc : Good P ord env c) (ht : Good P ord env t)
    (hf : Good P ord env f) (hty : typeOf P t = typeOf P f) : Good P ord env (.ite c t f) := by
  refine ⟨fun w v w' h => ?_, fun hs => ?_⟩
  · rw [evalIR] at h
    obtain ⟨u, w1, _, h2⟩ := bnd_ok h
    by_cases hu : truth P w1 u
    · rw [if_pos hu] at h2; exact ht.1 _ _ _ h2
    · rw [if_neg hu] at h2
      have := hf.1 _ _ _ h2
      rw [← hty] at this; exact this
  · by_cases hW : Nonempty W
    · obtain ⟨w0⟩ := hW
      haveI : Inhabited W := ⟨w0⟩
      simp only [stable, Bool.and_eq_true, bne_iff_ne] at hs
      obtain ⟨⟨⟨h1, h2⟩, h3⟩, h4⟩ := hs
      obtain ⟨v, hv⟩ := hc.2 h1
      obtain ⟨a, ha⟩ := ht.2 h3
      obtain ⟨b, hb⟩ := hf.2 h4
      have hT := hc.1
      rw [hv] at hT
      have hT := typed_of_pur hT
      refine ⟨if truth P w0 v then a else b, ?_⟩
      rw [evalIR, hv, bnd_pur, ha, hb]
      funext w
      rw [truth_world h2 hT w w0]
      by_cases h : truth P w0 v <;> simp [h]
    · exact ⟨.none, funext fun w => absurd ⟨w⟩ hW⟩

theorem mem_pairCalls : ∀ (ops : List Cmp) (es : List IExpr) (e : IExpr), e ∈ pairCalls ops es →
    ∃ f a b, Cmp.rel f ∈ ops ∧ a ∈ es ∧ b ∈ es ∧ e = .call f [a, b]
  | .rel f :: ops, a :: b :: es, e, h => by
    simp only [pairCalls, List.mem_cons] at h
    rcases h with rfl | h
    · exact ⟨f, a, b, by simp, by simp, by simp, rfl⟩
    · obtain ⟨g, x, y, h1, h2, h3, h4⟩ := mem_pairCalls ops (b :: es) e h
      exact ⟨g, x, y, by simp [h1], List.mem_cons_of_mem _ h2, List.mem_cons_of_mem _ h3, h4⟩
  | [], _, _, h => by simp [pairCalls] at h
  | .rel _ :: _, [], _, h => by simp [pairCalls] at h
  | .rel _ :: _, [_], _, h => by simp [pairCalls] at h
  | .isIn :: _, _, _, h => by simp [pairCalls] at h
  | .notIn :: _, _, _, h => by simp [pairCalls] at h

theorem cmpTree_sim (hP : PrimsOk P) (ho : OrdOk ord) {ops : List Cmp} {es : List IExpr} {r : IExpr}
    (h : cmpTree P ops es = some r) (hg : ∀ e ∈ es, Good P ord env e) (hok : okCmp P ops es = true) :
    (match es.map (evalIR P ord env) with
      | [] => pur .none
      | m :: ms => bnd m fun v => cmpsA P ops v ms) = evalIR P ord env r ∧ Good P ord env r := by
  unfold okCmp at hok
  split at hok
  · rename_i op a b
    have ha := hg a (by simp)
    have hb := hg b (by simp)
    cases op with
    | rel f =>
      simp only [cmpTree, cmpList, Option.some.injEq] at h
      subst h
      exact ⟨by rw [pair_eq ho ha hb hok]; simp [cmpsA, pyCmp], good_call hP ho (by simp [ha, hb])⟩
    | isIn =>
      simp only [cmpTree, cmpList, Option.some.injEq] at h
      subst h
      refine ⟨?_, good_call hP ho (by simp [ha, hb])⟩
      rw [pair_eq ho hb ha (okArgs_swap hok)]
      simp only [List.map, cmpsA, pyCmp]
      exact bnd_swap _ _ _ (quiet_of_okArgs hok ha hb)
    | notIn =>
      simp only [cmpTree, cmpList, Option.some.injEq] at h
      subst h
      refine ⟨?_, good_not (good_call hP ho (by simp [ha, hb]))⟩
      rw [evalIR, pair_eq ho hb ha (okArgs_swap hok)]
      simp only [List.map, cmpsA, pyCmp, bnd_assoc]
      exact bnd_swap _ _ _ (quiet_of_okArgs hok ha hb)
  · simp only [Bool.and_eq_true, decide_eq_true_eq, List.all_eq_true] at hok
    obtain ⟨⟨hl, hst⟩, hr⟩ := hok
    have hr' : ∀ op ∈ ops, ∃ f, op = .rel f ∧ P.ret f = .bool := by
      intro op hop
      have := hr op hop
      cases op with
      | rel f => exact ⟨f, rfl, by simpa using this⟩
      | isIn => simp at this
      | notIn => simp at this
    have hrel : ∀ op ∈ ops, ∃ f, op = .rel f := fun op hop =>
      (hr' op hop).imp fun _ h => h.1
    rw [cmpTree, cmpList_rel ops es hrel hl] at h
    cases es with
    | nil => simp at hl
    | cons a es =>
    cases ops with
    | nil => simp [pairCalls, boolTree] at h
    | cons op ops =>
    cases es with
    | nil => simp at hl
    | cons b es =>
    cases ops with
    | nil =>
      rename_i hno
      cases es with
      | nil => exact absurd rfl (hno op a b rfl)
      | cons _ _ => simp at hl
    | cons op' ops =>
    cases es with
    | nil => simp at hl
    | cons b' es =>
    have hgood : ∀ e ∈ pairCalls (op :: op' :: ops) (a :: b :: b' :: es), Good P ord env e := by
      intro e he
      obtain ⟨f, x, y, _, h2, h3, rfl⟩ := mem_pairCalls _ _ _ he
      exact good_call hP ho (by simp [hg x h2, hg y h3])
    have hbool : okBool P (pairCalls (op :: op' :: ops) (a :: b :: b' :: es)) = true := by
      unfold okBool
      rw [Bool.or_eq_true]
      left
      rw [List.all_eq_true]
      intro e he
      obtain ⟨f, x, y, h1, _, _, rfl⟩ := mem_pairCalls _ _ _ he
      obtain ⟨g, hg1, hg2⟩ := hr' _ h1
      cases hg1
      exact decide_eq_true hg2
    have hbt : boolTree P true (pairCalls (op :: op' :: ops) (a :: b :: b' :: es)) = some r := by
      obtain ⟨f, rfl⟩ := hrel op (by simp)
      obtain ⟨f', rfl⟩ := hrel op' (by simp)
      simpa [pairCalls] using h
    obtain ⟨h1, h2⟩ := boolTree_sim ho hbt hgood hbool
    refine ⟨?_, h2⟩
    rw [h1, chain_sim ho (op :: op' :: ops) a (b :: b' :: es) hrel (by simp) (by simpa using hl) hg
      (by simpa using hst) (by simp)]
    rfl

end

/-! ## Expressions -/

theorem lowerL_length (P : Prims W) (c : Scope) : ∀ (es : List Expr) (l : List IExpr),
    lowerL P c es = some l → l.length = es.length
  | [], l, h => by simp only [lowerL, Option.some.injEq] at h; simp [← h]
  | e :: es, l, h => by
    simp only [lowerL] at h
    split at h
    · rename_i a as _ h2
      simp only [Option.some.injEq] at h
      subst h
      simp [lowerL_length P c es as h2]
    · cases h

mutual

/-- A safe expression that lowers has the value Python gives it. -/
theorem simE {P : Prims W} {ord : List IExpr → List Nat} (hP : PrimsOk P) (ho : OrdOk ord)
    (unb : Val) {c : Scope} {penv : String → Option Val} {ienv : Nat → Option Val}
    (he : EnvOk c penv ienv) : ∀ (e : Expr) (ie : IExpr), lowerE P c e = some ie →
      safeE P c e = true → evalIR P ord ienv ie = evalPy P unb penv e ∧ Good P ord ienv ie
  | .const v, ie, h, hs => by
    simp only [lowerE, Option.some.injEq] at h
    subst h
    refine ⟨by simp [evalIR, evalPy], ?_, fun _ => ⟨v, by simp [evalIR]⟩⟩
    rw [evalIR]
    apply typed_pur
    cases v with
    | int i => simpa [safeE, fits, HasTy, typeOf, constTy] using hs
    | _ => trivial
  | .name x, ie, h, _ => by
    simp only [lowerE] at h
    obtain ⟨⟨id, ty⟩, hl, rfl⟩ := Option.map_eq_some_iff.mp h
    obtain ⟨v, h1, h2, h3⟩ := he x id ty (lookup_mem hl)
    have hq : evalIR P ord ienv (.var id ty) = pur v := by simp [evalIR, h2]
    refine ⟨by simp [hq, evalPy, h1], ?_, fun _ => ⟨v, hq⟩⟩
    rw [hq]
    exact typed_pur h3
  | .tup es, ie, h, hs => by
    simp only [lowerE] at h
    obtain ⟨l, hl, rfl⟩ := Option.map_eq_some_iff.mp h
    simp only [safeE, hl, Bool.and_eq_true] at hs
    obtain ⟨h1, h2⟩ := simL hP ho unb he es l hl hs.1
    refine ⟨?_, good_call hP ho h2⟩
    rw [evalIR_call ho h2 hs.2, h1, evalPy, evalPyL_eq]
  | .call f es, ie, h, hs => by
    simp only [lowerE] at h
    obtain ⟨l, hl, rfl⟩ := Option.map_eq_some_iff.mp h
    simp only [safeE, hl, Bool.and_eq_true] at hs
    obtain ⟨h1, h2⟩ := simL hP ho unb he es l hl hs.1
    refine ⟨?_, good_call hP ho h2⟩
    rw [evalIR_call ho h2 hs.2, h1, evalPy, evalPyL_eq]
  | .boolop isAnd es, ie, h, hs => by
    simp only [lowerE] at h
    obtain ⟨l, hl, h⟩ := Option.bind_eq_some_iff.mp h
    simp only [safeE, hl, Bool.and_eq_true] at hs
    obtain ⟨h1, h2⟩ := simL hP ho unb he es l hl hs.1
    obtain ⟨h3, h4⟩ := boolTree_sim ho h h2 hs.2
    refine ⟨?_, h4⟩
    rw [h3, h1, evalPy, evalPyBool_eq]
  | .compare ops es, ie, h, hs => by
    simp only [lowerE] at h
    obtain ⟨l, hl, h⟩ := Option.bind_eq_some_iff.mp h
    simp only [safeE, hl, Bool.and_eq_true] at hs
    obtain ⟨h1, h2⟩ := simL hP ho unb he es l hl hs.1
    obtain ⟨h3, h4⟩ := cmpTree_sim hP ho h h2 hs.2
    refine ⟨?_, h4⟩
    rw [← h3, h1, evalPy]
    cases es with
    | nil => simp [evalPyCmp]
    | cons e es =>
      simp only [evalPyCmp, List.map_cons]
      congr 1
      funext v
      exact (evalPyCmps_eq unb penv ops v es).symm
  | .notE e, ie, h, hs => by
    simp only [lowerE] at h
    obtain ⟨a, ha, rfl⟩ := Option.map_eq_some_iff.mp h
    simp only [safeE, ha, Bool.and_eq_true, bne_iff_ne] at hs
    obtain ⟨h1, h2⟩ := simE hP ho unb he e a ha hs.1
    rw [if_neg hs.2]
    refine ⟨?_, good_not h2⟩
    rw [evalIR, h1, evalPy]
  | .ifE b t f, ie, h, hs => by
    simp only [lowerE] at h
    split at h
    · rename_i b' t' f' hb ht hf
      split at h
      · cases h
      · rename_i hn
        simp only [Option.some.injEq] at h
        subst h
        simp only [safeE, Bool.and_eq_true] at hs
        obtain ⟨b1, b2⟩ := simE hP ho unb he b b' hb hs.1.1
        obtain ⟨t1, t2⟩ := simE hP ho unb he t t' ht hs.1.2
        obtain ⟨f1, f2⟩ := simE hP ho unb he f f' hf hs.2
        refine ⟨by rw [evalIR, b1, t1, f1, evalPy], good_ite b2 t2 f2 ?_⟩
        by_contra hne
        exact hn (.inr hne)
    · cases h
  | .boolE e, ie, h, hs => by
    simp only [lowerE] at h
    obtain ⟨a, ha, rfl⟩ := Option.map_eq_some_iff.mp h
    simp only [safeE] at hs
    obtain ⟨h1, h2⟩ := simE hP ho unb he e a ha hs
    exact ⟨by rw [evalIR, h1, evalPy], good_boolOf h2⟩

theorem simL {P : Prims W} {ord : List IExpr → List Nat} (hP : PrimsOk P) (ho : OrdOk ord)
    (unb : Val) {c : Scope} {penv : String → Option Val} {ienv : Nat → Option Val}
    (he : EnvOk c penv ienv) : ∀ (es : List Expr) (l : List IExpr), lowerL P c es = some l →
      safeL P c es = true → l.map (evalIR P ord ienv) = es.map (evalPy P unb penv) ∧
        ∀ a ∈ l, Good P ord ienv a
  | [], l, h, _ => by
    simp only [lowerL, Option.some.injEq] at h
    subst h
    simp
  | e :: es, l, h, hs => by
    simp only [lowerL] at h
    split at h
    · rename_i a as ha has
      simp only [Option.some.injEq] at h
      subst h
      simp only [safeL, Bool.and_eq_true] at hs
      obtain ⟨h1, h2⟩ := simE hP ho unb he e a ha hs.1
      obtain ⟨h3, h4⟩ := simL hP ho unb he es as has hs.2
      refine ⟨by simp [h1, h3], ?_⟩
      intro x hx
      rcases List.mem_cons.mp hx with rfl | hx
      · exact h2
      · exact h4 x hx
    · cases h

end

end Verif.Lower
