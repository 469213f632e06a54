import Verif.IterateProps

/-! Theorems on comprehensions. -/

namespace Verif.Iterate

section Comp
variable {V W E : Type}

/-- Python's outcome as an outcome of the generated code. -/
def ofPy : Except E (List V) × W → Res V W E
  | (.ok vs, w) => .ok vs w
  | (.error e, w) => .err e w

/-! ### The comprehensions the theorem is about -/

def Bound.vars : Bound V W E → List Nat
  | .lit _ => []
  | .var x => [x]
  | .expr e => e.vars

def Source.vars : Source V W E → List Nat
  | .range lo hi st => lo.vars ++ hi.vars ++ st.vars
  | .iter e => e.vars

/-- Every name that is read has a value then (`b`: the names with values so far). -/
def Closed (elt : Expr V W E) : List (Gen V W E) → (Nat → Prop) → Prop
  | [], b => ∀ x ∈ elt.vars, b x
  | g :: gs, b => (∀ x ∈ g.source.vars, b x) ∧
      (∀ c ∈ g.ifs, ∀ x ∈ c.vars, x = g.target ∨ b x) ∧
      Closed elt gs (fun x => x = g.target ∨ b x)

/-- A bound that is a literal or a variable. -/
def Bound.atom : Bound V W E → Prop
  | .expr _ => False
  | _ => True

/-- Ranges stop at literals or variables, and step by a literal or a variable from outside that is
not zero. -/
def Steady (K : Rt V W E) (env : Nat → V) (targets : List Nat) (g : Gen V W E) : Prop :=
  match g.source with
  | .range _ hi st => hi.atom ∧
      (match st with
        | .lit i => i ≠ 0
        | .var x => x ∉ targets ∧ K.toInt (env x) ≠ 0
        | .expr _ => False)
  | .iter _ => True

/-! ### Expressions -/

/-- The values agree where Python has one. -/
def Rel (penv : Nat → Option V) (cenv : Nat → V) : Prop := ∀ x v, penv x = some v → cenv x = v

theorem mapM_rel {penv : Nat → Option V} {cenv : Nat → V} (hr : Rel penv cenv) :
    ∀ xs : List Nat, (∀ x ∈ xs, penv x ≠ none) → xs.mapM penv = some (xs.map cenv)
  | [], _ => rfl
  | x :: xs, h => by
    cases hx : penv x with
    | none => exact absurd hx (h x List.mem_cons_self)
    | some v =>
      rw [List.mapM_cons, hx, mapM_rel hr xs fun y hy => h y (List.mem_cons_of_mem _ hy),
        List.map_cons, hr x v hx]
      rfl

theorem expr_agrees {K : Rt V W E} {penv : Nat → Option V} {cenv : Nat → V} (hr : Rel penv cenv)
    (e : Expr V W E) (w : W) (h : ∀ x ∈ e.vars, penv x ≠ none) : e.py K penv w = e.cx cenv w := by
  rw [Expr.py, mapM_rel hr _ h, Expr.cx]

theorem bound_agrees {K : Rt V W E} {penv : Nat → Option V} {cenv : Nat → V} (hr : Rel penv cenv)
    (b : Bound V W E) (w : W) (h : ∀ x ∈ b.vars, penv x ≠ none) :
    b.py K penv w = b.cx K cenv w := by
  cases b with
  | lit i => rfl
  | var x =>
    cases hx : penv x with
    | none => exact absurd hx (h x List.mem_cons_self)
    | some v => rw [Bound.py, hx, Bound.cx, hr x v hx]
  | expr e => rw [Bound.py, expr_agrees hr e w h, Bound.cx]

theorem ifs_agree {K : Rt V W E} {penv : Nat → Option V} {cenv : Nat → V} (hr : Rel penv cenv) :
    ∀ (cs : List (Expr V W E)) (w : W), (∀ c ∈ cs, ∀ x ∈ c.vars, penv x ≠ none) →
      pyIfs K penv cs w = cxIfs K cenv cs w
  | [], _, _ => rfl
  | c :: cs, w, h => by
    rw [pyIfs, cxIfs, expr_agrees hr c w (h c List.mem_cons_self)]
    cases c.cx cenv w with
    | mk r w' =>
      cases r with
      | error e => rfl
      | ok v =>
        dsimp only
        rw [ifs_agree hr cs w' fun c hc => h c (List.mem_cons_of_mem _ hc)]

theorem rel_bind {penv : Nat → Option V} {cenv : Nat → V} (hr : Rel penv cenv) (x : Nat) (v : V) :
    Rel (bindPy penv x v) (bindCx cenv x v) := by
  intro y u h
  unfold bindPy at h
  unfold bindCx
  by_cases hy : y = x
  · rw [if_pos hy] at h ⊢; exact Option.some.inj h
  · rw [if_neg hy] at h ⊢; exact hr y u h

/-! ### Loops -/

/-- `B F` is the body with fuel `F`; it agrees with `f` from some fuel on. -/
def Agrees (B : Nat → V → W → List V → Res V W E) (f : V → W → List V → Except E (List V) × W) :
    Prop := ∀ v w acc, ∃ N, ∀ F, N ≤ F → B F v w acc = ofPy (f v w acc)

theorem item_agrees {B : Nat → V → W → List V → Res V W E}
    {f : V → W → List V → Except E (List V) × W} (hb : Agrees B f) :
    ∀ vs w acc, ∃ N, ∀ F, N ≤ F → itemLoop (B F) vs w acc = ofPy (each f vs w acc)
  | [], w, acc => ⟨0, fun _ _ => rfl⟩
  | v :: vs, w, acc => by
    obtain ⟨N, hN⟩ := hb v w acc
    cases hf : f v w acc with
    | mk r w' =>
      rw [hf] at hN
      cases r with
      | error e =>
        refine ⟨N, fun F hF => ?_⟩
        rw [itemLoop, hN F hF, each, hf]
        rfl
      | ok acc' =>
        obtain ⟨M, hM⟩ := item_agrees hb vs w' acc'
        refine ⟨max N M, fun F hF => ?_⟩
        rw [itemLoop, hN F (by omega), each, hf]
        exact hM F (by omega)

theorem test_const {K : Rt V W E} {env : Nat → V} {hi st : Bound V W E} {h i : Int}
    (hh : ∀ w, hi.cx K env w = (.ok h, w)) (hs : ∀ w, st.cx K env w = (.ok i, w)) (h0 : i ≠ 0)
    (t : Int) (w : W) :
    test K env hi st t w =
      (.ok (decide ((0 ≤ i ∧ t < h) ∨ (i < 0 ∧ h < t))), w) := by
  have e : ∀ c : Prop, ∀ _ : Decidable c, (c ↔ 0 ≤ i) →
      (if c then decide (t < h) else decide (h < t)) =
        decide ((0 ≤ i ∧ t < h) ∨ (i < 0 ∧ h < t)) := by
    intro c _ hc
    by_cases hp : 0 ≤ i
    · rw [if_pos (hc.2 hp)]
      exact decide_eq_decide.2 (by omega)
    · rw [if_neg (fun x => hp (hc.1 x))]
      exact decide_eq_decide.2 (by omega)
  cases st with
  | lit j =>
    have : j = i := by
      have := hs w
      simp only [Bound.cx, Prod.mk.injEq, Except.ok.injEq, and_true] at this
      exact this
    subst this
    rw [test, hh w]
    dsimp only
    rw [e _ _ Iff.rfl]
  | var x =>
    rw [test, hs w]
    · dsimp only
      rw [hh w]
      dsimp only
      rw [e _ _ (by omega)]
    · exact nofun
  | expr x =>
    rw [test, hs w]
    · dsimp only
      rw [hh w]
      dsimp only
      rw [e _ _ (by omega)]
    · exact nofun

theorem range_agrees {K : Rt V W E} {env : Nat → V} {hi st : Bound V W E} {h i : Int}
    (hh : ∀ w, hi.cx K env w = (.ok h, w)) (hs : ∀ w, st.cx K env w = (.ok i, w)) (h0 : i ≠ 0)
    {B : Nat → V → W → List V → Res V W E} {f : V → W → List V → Except E (List V) × W}
    (hb : Agrees B f) :
    ∀ (l : List Int) (t : Int) w acc, Lower.pyRange t h i = l →
      ∃ N, ∀ F, N ≤ F → ∀ fuel, N ≤ fuel →
        rangeLoop K env hi st (B F) fuel t w acc = ofPy (each f (l.map K.ofInt) w acc) := by
  intro l
  induction l with
  | nil =>
    intro t w acc hl
    rw [Lower.pyRange_step _ _ _ h0] at hl
    refine ⟨1, fun F _ fuel hf => ?_⟩
    obtain ⟨fuel, rfl⟩ : ∃ k, fuel = k + 1 := ⟨fuel - 1, by omega⟩
    have hc : ¬ ((0 ≤ i ∧ t < h) ∨ (i < 0 ∧ h < t)) := by
      intro hc
      rw [if_pos hc] at hl
      exact absurd hl (by simp)
    rw [rangeLoop, test_const hh hs h0, decide_eq_false hc]
    rfl
  | cons a l ih =>
    intro t w acc hl
    rw [Lower.pyRange_step _ _ _ h0] at hl
    have hc : (0 ≤ i ∧ t < h) ∨ (i < 0 ∧ h < t) := by
      by_contra hc
      rw [if_neg hc] at hl
      exact absurd hl (by simp)
    rw [if_pos hc] at hl
    obtain ⟨ht, hl'⟩ := List.cons.inj hl
    subst ht
    obtain ⟨N, hN⟩ := hb (K.ofInt t) w acc
    rw [List.map_cons]
    cases hf : f (K.ofInt t) w acc with
    | mk r w' =>
      rw [hf] at hN
      cases r with
      | error e =>
        refine ⟨N + 1, fun F hF fuel hfu => ?_⟩
        obtain ⟨fuel, rfl⟩ : ∃ k, fuel = k + 1 := ⟨fuel - 1, by omega⟩
        rw [rangeLoop, test_const hh hs h0, decide_eq_true hc]
        dsimp only
        rw [hN F (by omega), each, hf]
        rfl
      | ok acc' =>
        obtain ⟨M, hM⟩ := ih (t + i) w' acc' hl'
        refine ⟨max N M + 1, fun F hF fuel hfu => ?_⟩
        obtain ⟨fuel, rfl⟩ : ∃ k, fuel = k + 1 := ⟨fuel - 1, by omega⟩
        rw [rangeLoop, test_const hh hs h0, decide_eq_true hc]
        dsimp only
        rw [hN F (by omega), each, hf]
        simp only [ofPy, hs]
        exact hM F (by omega) fuel (by omega)

/-! ### Generators -/

/-- The loop of one generator, as `cxRun` prints it. -/
def cxGen (K : Rt V W E) (env : Nat → V) (fuel : Nat) (body : V → W → List V → Res V W E)
    (w : W) (acc : List V) : Source V W E → Res V W E
  | .range lo hi st =>
    match lo.cx K env w with
    | (.error e, w) => .err e w
    | (.ok lo, w) => rangeLoop K env hi st body fuel lo w acc
  | .iter e =>
    match e.cx env w with
    | (.error e, w) => .err e w
    | (.ok v, w) =>
      match K.items v w with
      | .error e => .err e w
      | .ok vs => itemLoop body vs w acc

/-- The body of a loop, with `k` for the loops inside. -/
def cxBody (K : Rt V W E) (env : Nat → V) (g : Gen V W E)
    (k : (Nat → V) → W → List V → Res V W E) (v : V) (w : W) (acc : List V) : Res V W E :=
  match cxIfs K (bindCx env g.target v) g.ifs w with
  | (.error e, w) => .err e w
  | (.ok false, w) => .ok acc w
  | (.ok true, w) => k (bindCx env g.target v) w acc

theorem cxRun_cons (K : Rt V W E) (elt : Expr V W E) (fuel : Nat) (g : Gen V W E)
    (gs : List (Gen V W E)) (env : Nat → V) (w : W) (acc : List V) :
    cxRun K elt fuel (g :: gs) env w acc =
      cxGen K env fuel (cxBody K env g (cxRun K elt fuel gs)) w acc g.source := by
  rw [cxRun]
  cases hs : g.source <;> rfl

def pyBody (K : Rt V W E) (env : Nat → Option V) (g : Gen V W E)
    (k : (Nat → Option V) → W → List V → Except E (List V) × W) (v : V) (w : W) (acc : List V) :
    Except E (List V) × W :=
  match pyIfs K (bindPy env g.target v) g.ifs w with
  | (.error e, w) => (.error e, w)
  | (.ok false, w) => (.ok acc, w)
  | (.ok true, w) => k (bindPy env g.target v) w acc

theorem atom_const {K : Rt V W E} {env : Nat → V} {b : Bound V W E} (h : b.atom) :
    ∃ i, ∀ w : W, b.cx K env w = (.ok i, w) := by
  cases b with
  | lit i => exact ⟨i, fun _ => rfl⟩
  | var x => exact ⟨_, fun _ => rfl⟩
  | expr e => exact h.elim

theorem steady_step {K : Rt V W E} {env0 env : Nat → V} {targets : List Nat} {g : Gen V W E}
    (hst : Steady K env0 targets g) (he : ∀ x, x ∉ targets → env x = env0 x)
    {lo hi st : Bound V W E} (hg : g.source = .range lo hi st) :
    ∃ i, i ≠ 0 ∧ ∀ w : W, st.cx K env w = (.ok i, w) := by
  rw [Steady, hg] at hst
  cases st with
  | lit i => exact ⟨i, hst.2, fun _ => rfl⟩
  | var x => exact ⟨_, hst.2.2, fun _ => by rw [Bound.cx, he x hst.2.1]⟩
  | expr e => exact hst.2.elim

/-- One generator: the loop agrees when its body does. -/
theorem gen_agrees {K : Rt V W E} {penv : Nat → Option V} {env env0 : Nat → V}
    {targets : List Nat} {g : Gen V W E} (hr : Rel penv env)
    (hv : ∀ x ∈ g.source.vars, penv x ≠ none) (hst : Steady K env0 targets g)
    (he : ∀ x, x ∉ targets → env x = env0 x)
    {B : Nat → V → W → List V → Res V W E} {f : V → W → List V → Except E (List V) × W}
    (hb : Agrees B f) (w : W) (acc : List V) :
    ∃ N, ∀ F, N ≤ F → cxGen K env F (B F) w acc g.source =
      ofPy (match g.source.py K penv w with
        | (.error e, w) => (.error e, w)
        | (.ok vs, w) => each f vs w acc) := by
  cases hg : g.source with
  | iter e =>
    rw [hg] at hv
    rw [Source.py, expr_agrees hr e w hv]
    cases he' : e.cx env w with
    | mk r w' =>
      cases r with
      | error x => exact ⟨0, fun F _ => by rw [cxGen, he']; rfl⟩
      | ok v =>
        dsimp only
        cases hi : K.items v w' with
        | error x => exact ⟨0, fun F _ => by rw [cxGen, he']; dsimp only; rw [hi]; rfl⟩
        | ok vs =>
          obtain ⟨N, hN⟩ := item_agrees hb vs w' acc
          exact ⟨N, fun F hF => by rw [cxGen, he']; dsimp only; rw [hi]; exact hN F hF⟩
  | range lo hi st =>
    obtain ⟨i, h0, hs⟩ := steady_step hst he hg
    rw [Steady, hg] at hst
    obtain ⟨h, hh⟩ := atom_const (K := K) (env := env) hst.1
    rw [hg] at hv
    have hvl : ∀ x ∈ lo.vars, penv x ≠ none := fun x hx =>
      hv x (List.mem_append_left _ (List.mem_append_left _ hx))
    have hvh : ∀ x ∈ hi.vars, penv x ≠ none := fun x hx =>
      hv x (List.mem_append_left _ (List.mem_append_right _ hx))
    have hvs : ∀ x ∈ st.vars, penv x ≠ none := fun x hx =>
      hv x (List.mem_append_right _ hx)
    rw [Source.py, bound_agrees hr lo w hvl]
    cases hl : lo.cx K env w with
    | mk r w' =>
      cases r with
      | error x => exact ⟨0, fun F _ => by rw [cxGen, hl]; rfl⟩
      | ok l =>
        dsimp only
        rw [bound_agrees hr hi w' hvh, hh]
        dsimp only
        rw [bound_agrees hr st w' hvs, hs]
        dsimp only
        rw [if_neg h0]
        obtain ⟨N, hN⟩ := range_agrees hh hs h0 hb _ l w' acc rfl
        exact ⟨N, fun F hF => by rw [cxGen, hl]; exact hN F hF F hF⟩

theorem run_agrees {K : Rt V W E} {elt : Expr V W E} {env0 : Nat → V} {targets : List Nat} :
    ∀ (gs : List (Gen V W E)) (penv : Nat → Option V) (env : Nat → V) (b : Nat → Prop),
      Rel penv env → (∀ x, b x → penv x ≠ none) → Closed elt gs b →
      (∀ g ∈ gs, Steady K env0 targets g ∧ g.target ∈ targets) →
      (∀ x, x ∉ targets → env x = env0 x) →
      ∀ w acc, ∃ N, ∀ F, N ≤ F → cxRun K elt F gs env w acc = ofPy (pyRun K elt gs penv w acc)
  | [], penv, env, b, hr, hb, hc, _, _, w, acc => by
    refine ⟨0, fun F _ => ?_⟩
    rw [cxRun, pyRun, expr_agrees hr elt w fun x hx => hb x (hc x hx)]
    cases elt.cx env w with
    | mk r w' => cases r <;> rfl
  | g :: gs, penv, env, b, hr, hb, hc, hst, he, w, acc => by
    have key : Agrees (fun F => cxBody K env g (cxRun K elt F gs)) (pyBody K penv g (pyRun K elt gs)) := by
      intro v w acc
      have hb' : ∀ x, (x = g.target ∨ b x) → bindPy penv g.target v x ≠ none := by
        intro x hx
        unfold bindPy
        by_cases h : x = g.target
        · rw [if_pos h]; simp
        · rw [if_neg h]; exact hb x (hx.resolve_left h)
      have hi := ifs_agree (K := K) (rel_bind hr g.target v) g.ifs w
        fun c hc' x hx => hb' x (hc.2.1 c hc' x hx)
      simp only [cxBody, pyBody, hi]
      cases cxIfs K (bindCx env g.target v) g.ifs w with
      | mk r w' =>
        cases r with
        | error e => exact ⟨0, fun _ _ => rfl⟩
        | ok c =>
          cases c with
          | false => exact ⟨0, fun _ _ => rfl⟩
          | true =>
            refine run_agrees gs _ _ _ (rel_bind hr g.target v) hb' hc.2.2
              (fun g' hg' => hst g' (List.mem_cons_of_mem _ hg')) (fun x hx => ?_) w' acc
            have : x ≠ g.target := fun h => hx (h ▸ (hst g List.mem_cons_self).2)
            rw [bindCx, if_neg this]
            exact he x hx
    obtain ⟨N, hN⟩ := gen_agrees hr (fun x hx => hb x (hc.1 x hx)) (hst g List.mem_cons_self).1 he
      key w acc
    refine ⟨N, fun F hF => ?_⟩
    rw [cxRun_cons, hN F hF, pyRun]
    rfl

theorem reserve_ok {K : Rt V W E} {env : Nat → V} {targets : List Nat} (w : W) :
    ∀ (gs : List (Gen V W E)) (seen : List Nat), (∀ g ∈ gs, Steady K env targets g) →
      reserveOk K env w seen gs = true
  | [], _, _ => rfl
  | g :: gs, seen, h => by
    rw [reserveOk, reserve_ok w gs _ fun g' hg' => h g' (List.mem_cons_of_mem _ hg')]
    have hg := h g List.mem_cons_self
    cases hs : g.source with
    | iter e => rfl
    | range lo hi st =>
      obtain ⟨i, h0, hi⟩ := steady_step hg (fun _ _ => rfl) hs
      simp only [hi, bne_iff_ne, ne_eq, h0, not_false_eq_true, Bool.or_eq_true, Bool.and_true,
        or_true]

/-- A comprehension whose names have values when they are read, and whose ranges stop at literals
or variables and step by a literal or an outer variable that is not zero, gives Python's list,
error and effects. -/
theorem comp_agrees_partial (K : Rt V W E) (elt : Expr V W E) (g : Gen V W E)
    (gs : List (Gen V W E)) (penv : Nat → Option V) (env : Nat → V) (w : W) (hr : Rel penv env)
    (hsrc : ∀ x ∈ g.source.vars, penv x ≠ none)
    (hifs : ∀ c ∈ g.ifs, ∀ x ∈ c.vars, x = g.target ∨
      (x ∉ (g :: gs).map Gen.target ∧ penv x ≠ none))
    (hin : Closed elt gs (fun x => x = g.target ∨
      (x ∉ (g :: gs).map Gen.target ∧ penv x ≠ none)))
    (hst : ∀ g' ∈ g :: gs, Steady K env ((g :: gs).map Gen.target) g') :
    ∃ N, ∀ fuel, N ≤ fuel →
      cxComp K elt (g :: gs) fuel env w = ofPy (pyComp K elt (g :: gs) penv w) := by
  have key : Agrees (fun F => cxBody K env g (cxRun K elt F gs))
      (pyBody K (fun x => if x ∈ (g :: gs).map Gen.target then none else penv x) g
        (pyRun K elt gs)) := by
    intro v w acc
    have hr' : Rel (fun x => if x ∈ (g :: gs).map Gen.target then none else penv x) env := by
      intro x u hx
      dsimp only at hx
      split at hx
      · cases hx
      · exact hr x u hx
    have hb' : ∀ x, (x = g.target ∨ (x ∉ (g :: gs).map Gen.target ∧ penv x ≠ none)) →
        bindPy (fun x => if x ∈ (g :: gs).map Gen.target then none else penv x) g.target v x ≠
          none := by
      intro x hx
      unfold bindPy
      by_cases h : x = g.target
      · rw [if_pos h]; simp
      · rw [if_neg h]
        dsimp only
        rw [if_neg (hx.resolve_left h).1]
        exact (hx.resolve_left h).2
    have hi := ifs_agree (K := K) (rel_bind hr' g.target v) g.ifs w
      fun c hc' x hx => hb' x (hifs c hc' x hx)
    simp only [cxBody, pyBody, hi]
    cases cxIfs K (bindCx env g.target v) g.ifs w with
    | mk r w' =>
      cases r with
      | error e => exact ⟨0, fun _ _ => rfl⟩
      | ok c =>
        cases c with
        | false => exact ⟨0, fun _ _ => rfl⟩
        | true =>
          refine run_agrees (env0 := env) gs _ _ _ (rel_bind hr' g.target v) hb' hin
            (fun g' hg' => ⟨hst g' (List.mem_cons_of_mem _ hg'),
              List.mem_map_of_mem (List.mem_cons_of_mem _ hg')⟩) (fun x hx => ?_) w' acc
          have : x ≠ g.target := fun h => hx (h ▸ List.mem_map_of_mem List.mem_cons_self)
          rw [bindCx, if_neg this]
  obtain ⟨N, hN⟩ := gen_agrees hr hsrc (hst g List.mem_cons_self) (fun _ _ => rfl) key w []
  refine ⟨N, fun F hF => ?_⟩
  rw [cxComp, reserve_ok w _ _ hst, if_pos rfl, cxRun_cons, hN F hF, pyComp]
  rfl

end Comp

/-! ### What the conditions exclude -/

/-- Values are integers and the world is a list `q` of them, which is what every container is. -/
def kInt : Rt Int (List Int) String where
  toInt v := v
  ofInt i := i
  items _ w := .ok w
  truth v _ := v != 0
  unbound := "UnboundLocalError"
  zeroStep := "ValueError"
  zeroDiv := "ZeroDivisionError"

/-- `q.pop()`. -/
def popE : Expr Int (List Int) String :=
  ⟨[], fun _ q => match q with
    | [] => (.error "IndexError", [])
    | x :: q => (.ok x, q)⟩

/-- `len(q)`. -/
def lenE : Expr Int (List Int) String := ⟨[], fun _ q => (.ok q.length, q)⟩

/-- `[q.pop() for t in range(len(q))]` (the list is kept from its end). -/
def popAll : Gen Int (List Int) String := ⟨1, .range (.lit 0) (.expr lenE) (.lit 1), []⟩

theorem popAll_py (q : List Int) (env : Nat → Option Int) :
    pyComp kInt popE [popAll] env q = (.ok q, []) := by
  have key : ∀ (l : List Int) (q acc : List Int) (env : Nat → Option Int), l.length = q.length →
      each (pyBody kInt env popAll (pyRun kInt popE [])) l q acc = (.ok (acc ++ q), []) := by
    intro l
    induction l with
    | nil => intro q acc env h; cases q with
      | nil => simp [each]
      | cons x q => simp at h
    | cons a l ih =>
      intro q acc env h
      cases q with
      | nil => simp at h
      | cons x q =>
        rw [each]
        have e : pyBody kInt env popAll (pyRun kInt popE []) a (x :: q) acc =
          (.ok (acc ++ [x]), q) := rfl
        rw [e]
        dsimp only
        rw [ih q (acc ++ [x]) env (by simpa using h), List.append_assoc]
        rfl
  have hl : ((Lower.pyRange 0 (q.length : Int) 1).map kInt.ofInt).length = q.length := by
    simp [Lower.pyRange]
  have e : popAll.source.py kInt env q =
      (.ok ((Lower.pyRange 0 (q.length : Int) 1).map kInt.ofInt), q) := rfl
  rw [pyComp]
  rw [e]
  exact key _ q [] _ hl

/-- The generated loop asks for the length before every step, so it takes only the first half. -/
theorem popAll_cx (q : List Int) (env : Nat → Int) :
    cxComp kInt popE [popAll] (q.length + 1) env q =
      .ok (q.take ((q.length + 1) / 2)) (q.drop ((q.length + 1) / 2)) := by
  have key : ∀ (n fuel : Nat) (q acc : List Int) (t : Nat), q.length < fuel →
      rangeLoop kInt env (.expr lenE) (.lit 1) (cxBody kInt env popAll (cxRun kInt popE n []))
        fuel (t : Int) q acc =
        .ok (acc ++ q.take ((q.length - t + 1) / 2)) (q.drop ((q.length - t + 1) / 2)) := by
    intro n fuel
    induction fuel with
    | zero => intro q acc t h; omega
    | succ fuel ih =>
      intro q acc t h
      have ht : test kInt env (.expr lenE) (.lit 1) (t : Int) q =
          (.ok (decide ((t : Int) < q.length)), q) := rfl
      rw [rangeLoop, ht]
      by_cases hlt : t < q.length
      · rw [decide_eq_true (by omega)]
        cases q with
        | nil => simp at hlt
        | cons x q =>
          have e : cxBody kInt env popAll (cxRun kInt popE n []) (kInt.ofInt t) (x :: q) acc =
            .ok (acc ++ [x]) q := rfl
          simp only [e, Bound.cx]
          have := ih q (acc ++ [x]) (t + 1) (by simp at h; omega)
          rw [Nat.cast_add, Nat.cast_one] at this
          rw [this]
          rw [List.length_cons] at hlt ⊢
          rw [show (q.length + 1 - t + 1) / 2 = (q.length - (t + 1) + 1) / 2 + 1 by omega,
            List.take_succ_cons, List.drop_succ_cons, List.append_assoc]
          rfl
      · rw [decide_eq_false (by omega)]
        dsimp only
        rw [show (q.length - t + 1) / 2 = 0 by omega]
        simp
  have := key (q.length + 1) (q.length + 1) q [] 0 (by omega)
  rw [List.nil_append, Nat.sub_zero] at this
  exact this

/-- `[q.pop() for t in range(len(q))]` is another list than in Python for every list `q` of two
items or more. -/
theorem range_reread_refuted (q : List Int) (h : 2 ≤ q.length) (penv : Nat → Option Int)
    (env : Nat → Int) :
    cxComp kInt popE [popAll] (q.length + 1) env q ≠ ofPy (pyComp kInt popE [popAll] penv q) ∧
    cxComp kInt popE [popAll] (q.length + 1) env q ≠ .timeout := by
  rw [popAll_cx, popAll_py]
  refine ⟨fun hc => ?_, nofun⟩
  have := (Res.ok.inj hc).1
  have := congrArg List.length this
  rw [List.length_take] at this
  omega

section Comp
variable {V W E : Type}

/-- A range with step zero inside a loop that never runs: Python gives `[]`, the generated code
raises ZeroDivisionError, whatever the element, the bounds and the conditions. -/
theorem zero_step_refuted (K : Rt V W E) (elt e : Expr V W E) (x y n s : Nat) (v : V)
    (ifs ifs' : List (Expr V W E)) (env : Nat → V) (w : W) (fuel : Nat)
    (he : ∀ l, e.fn l w = (.ok v, w)) (hv : K.items v w = .ok []) (hs : K.toInt (env s) = 0)
    (hns : s ≠ x) (hnn : n ≠ x) :
    let gens : List (Gen V W E) :=
      [⟨x, .iter e, ifs⟩, ⟨y, .range (.lit 0) (.var n) (.var s), ifs'⟩]
    pyComp K elt gens (fun i => some (env i)) w = (.ok [], w) ∧
      cxComp K elt gens fuel env w = .err K.zeroDiv w := by
  intro gens
  constructor
  · have h : (⟨x, .iter e, ifs⟩ : Gen V W E).source.py K (fun i => some (env i)) w = (.ok [], w) := by
      rw [Source.py, Expr.py]
      cases hm : e.vars.mapM (fun i => some (env i)) with
      | none =>
        have := mapM_rel (penv := fun i => some (env i)) (cenv := env)
          (fun _ _ h => Option.some.inj h) e.vars (fun _ _ => by simp)
        rw [hm] at this
        cases this
      | some l =>
        dsimp only
        rw [he]
        dsimp only
        rw [hv]
    show pyComp K elt [_, _] _ w = _
    rw [pyComp]
    rw [h]
    rfl
  · have : reserveOk K env w [] gens = false := by
      simp [gens, reserveOk, Bound.captured, Bound.cx, hs, hns, hnn]
    rw [cxComp, this]
    rfl

/-- `[elt for x in a for y in y]` with `y` defined outside: Python has no value for the inner `y`,
the generated code reads the outer one. -/
theorem scope_refuted (K : Rt V W E) (elt e : Expr V W E) (x y : Nat) (v u : V)
    (env : Nat → V) (w : W) (fuel : Nat) (hxy : y ≠ x)
    (he : ∀ l, e.fn l w = (.ok v, w)) (hv : K.items v w = .ok [u]) (hy : K.items (env y) w = .ok []) :
    let gens : List (Gen V W E) := [⟨x, .iter e, []⟩, ⟨y, .iter ⟨[y], fun l w => 
      match l with
      | [a] => (.ok a, w)
      | _ => (.error K.unbound, w)⟩, []⟩]
    pyComp K elt gens (fun i => some (env i)) w = (.error K.unbound, w) ∧
      cxComp K elt gens fuel env w = .ok [] w := by
  intro gens
  constructor
  · have h : (⟨x, .iter e, []⟩ : Gen V W E).source.py K (fun i => some (env i)) w = (.ok [u], w) := by
      rw [Source.py, Expr.py]
      cases hm : e.vars.mapM (fun i => some (env i)) with
      | none =>
        have := mapM_rel (penv := fun i => some (env i)) (cenv := env)
          (fun _ _ h => Option.some.inj h) e.vars (fun _ _ => by simp)
        rw [hm] at this
        cases this
      | some l =>
        dsimp only
        rw [he]
        dsimp only
        rw [hv]
    show pyComp K elt [_, _] _ w = _
    rw [pyComp]
    rw [h]
    simp [each, pyIfs, pyRun, Source.py, Expr.py, bindPy, hxy]
  · have : reserveOk K env w [] gens = true := rfl
    rw [cxComp, this, if_pos rfl]
    simp [gens, cxRun, Expr.cx, he, hv, itemLoop, cxIfs, bindCx, hxy, hy]

end Comp

/-! ### Examples -/

/-- `x + y`. -/
def addE : Expr Int (List Int) String :=
  ⟨[1, 2], fun l w => match l with
    | [a, b] => (.ok (a + b), w)
    | _ => (.error "", w)⟩

/-- `[x + y for x in range(n) for y in range(x, -1, -1) if y]` with `n = 3`. -/
def sums : List (Gen Int (List Int) String) :=
  [⟨1, .range (.lit 0) (.var 0) (.lit 1), []⟩,
   ⟨2, .range (.var 1) (.lit (-1)) (.lit (-1)), [⟨[2], fun l w => (.ok (l.headD 0), w)⟩]⟩]

example : cxComp kInt addE sums 9 (fun _ => 3) [] = .ok [2, 4, 3] [] := by decide +kernel

/-- The conditions of `comp_agrees_partial` hold for it. -/
example : ∃ N, ∀ fuel, N ≤ fuel →
    cxComp kInt addE sums fuel (fun _ => 3) [] = ofPy (pyComp kInt addE sums (fun _ => some 3) []) :=
  comp_agrees_partial kInt addE _ _ (fun _ => some 3) (fun _ => 3) [] (by intro x v h; simpa using h)
    (by intro x _; simp) (by simp [sums])
    (by simp [Closed, Source.vars, Bound.vars, addE, sums])
    (by simp [Steady, Bound.atom, sums])

example : pyComp kInt addE sums (fun _ => some 3) [] = (.ok [2, 4, 3], []) := by rfl

example : cxComp kInt popE [popAll] 9 (fun _ => 0) [7, 8, 9] = .ok [7, 8] [9] := by decide +kernel

end Verif.Iterate
