import Verif.CodegenOpt

/-!
# What compiled functions do with their parameters

* C53: copying a parameter into a variable or attribute leaves the parameter usable;
* C54: a parameter names the object passed at the call throughout the body.

Both fail of the code as it stands; each has a refutation, and a theorem under the exact situation
that is excluded.
-/

namespace Verif.CodegenOpt

variable {V W L : Type}

/-! ### Vocabulary of the statements -/

/-- The parser never emits `HLOMove`. -/
def Expr.noMove : Expr V W → Prop
  | .move _ => False
  | _ => True

/-- No expression of the body is an `HLOMove`. -/
def noMove : Stmt V W → Prop
  | .alloca _ _ e => e.noMove
  | .assign _ _ e => e.noMove
  | .ret _ e => e.noMove
  | .expr e => e.noMove
  | .seq a b => noMove a ∧ noMove b
  | .ite c a b => c.noMove ∧ noMove a ∧ noMove b
  | .loop c a => c.noMove ∧ noMove a
  | .skip => True

/-- The labels of the statements that carry one, in program order. -/
def labels : Stmt V W → List Nat
  | .alloca l _ _ => [l]
  | .assign l _ _ => [l]
  | .ret l _ => [l]
  | .seq a b => labels a ++ labels b
  | .ite _ a b => labels a ++ labels b
  | .loop _ a => labels a
  | _ => []

/-- `x` may be read by the straight-line code `s` followed by code that may read `K`, before being
overwritten. -/
def readLater (s : Stmt V W) (K : Nat → Prop) : Nat → Prop :=
  match s with
  | .alloca _ x e => fun v => v ∈ e.uses ∨ (v ≠ x ∧ K v)
  | .assign _ (.var x) e => fun v => v ∈ e.uses ∨ (v ≠ x ∧ K v)
  | .assign _ (.attr us _) e => fun v => v ∈ e.uses ∨ v ∈ us ∨ K v
  | .ret _ e => fun v => v ∈ e.uses
  | .seq a b => readLater a (readLater b K)
  | .skip => K
  | _ => fun _ => True

/-- The parameter copied by `t = b`, where the left-hand side mentions `us`: if `us` mentions
another parameter then `b` is not read later. -/
def crossDeadLeaf (args : List Nat) (byValue : Nat → Prop) (us : List Nat) (K : Nat → Prop) :
    Expr V W → Prop
  | .var b => b ∈ args → byValue b → (∃ a ∈ args, a ∈ us ∧ a ≠ b) → ¬ K b
  | _ => True

/-- Every copy `t = b` of a by-value parameter `b` whose left-hand side mentions another parameter
is followed by code that does not read `b` before overwriting it. -/
def crossDead (args : List Nat) (byValue : Nat → Prop) : Stmt V W → (Nat → Prop) → Prop
  | .alloca _ x e, K => crossDeadLeaf args byValue [x] K e
  | .assign _ t e, K => crossDeadLeaf args byValue t.uses K e
  | .seq a b, K => crossDead args byValue a (readLater b K) ∧ crossDead args byValue b K
  | _, _ => True

/-- Along the by-value run of `s`, every world reached satisfies `P`. -/
def QuietLoop (P : W → Prop) (cond : (Nat → V) → W → Option Bool × W)
    (body : (Nat → V) → W → Out V W) (Q : (Nat → V) → W → Prop) :
    Nat → (Nat → V) → W → Prop
  | 0, _, _ => True
  | n + 1, env, w => P (cond env w).2 ∧
    (∀ w1, cond env w = (some true, w1) → Q env w1 ∧
      ∀ env2 w2, body env w1 = .next env2 w2 → QuietLoop P cond body Q n env2 w2)

/-- Along the by-value run of `s`, every world reached satisfies `P`. -/
def Quiet (m : Machine V W L) (P : W → Prop) (fuel : Nat) : Stmt V W → (Nat → V) → W → Prop
  | .skip, _, _ => True
  | .alloca _ _ e, env, w => P (eval m (fun _ => none) env w e).2
  | .assign _ (.var _) e, env, w => P (eval m (fun _ => none) env w e).2
  | .assign _ (.attr us f) e, env, w => P (eval m (fun _ => none) env w e).2 ∧
    ∀ v w1, eval m (fun _ => none) env w e = (some v, w1) →
      P (f (us.map (read m (fun _ => none) env w1)) v w1)
  | .ret _ e, env, w => P (eval m (fun _ => none) env w e).2
  | .expr e, env, w => P (eval m (fun _ => none) env w e).2
  | .seq a b, env, w => Quiet m P fuel a env w ∧
    ∀ env1 w1, exec m (fun _ => none) fuel a env w = .next env1 w1 → Quiet m P fuel b env1 w1
  | .ite c a b, env, w => P (evalCond m (fun _ => none) c env w).2 ∧
    (∀ w1, evalCond m (fun _ => none) c env w = (some true, w1) → Quiet m P fuel a env w1) ∧
    (∀ w1, evalCond m (fun _ => none) c env w = (some false, w1) → Quiet m P fuel b env w1)
  | .loop c a, env, w =>
    QuietLoop P (evalCond m (fun _ => none) c)
      (fun e w => exec m (fun _ => none) fuel a e w) (fun e w => Quiet m P fuel a e w) fuel env w

/-! ### The parameters passed by reference are never assigned -/

/-- `x` is declared or assigned somewhere in the body. -/
def Assigned (x : Nat) : Stmt V W → Prop
  | .alloca _ y _ => y = x
  | .assign _ (.var y) _ => y = x
  | .seq a b => Assigned x a ∨ Assigned x b
  | .ite _ a b => Assigned x a ∨ Assigned x b
  | .loop _ a => Assigned x a
  | _ => False

theorem mem_filterArgs (s : Stmt V W) : ∀ (args : List Nat) (x : Nat),
    x ∈ filterArgs s args ↔ x ∈ args ∧ ¬ Assigned x s := by
  induction s with
  | skip => intro args x; simp [filterArgs, Assigned]
  | alloca l y e =>
    intro args x
    simp only [filterArgs, Assigned, List.mem_filter, decide_eq_true_eq]
    constructor
    · rintro ⟨h1, h2⟩; exact ⟨h1, fun h => h2 h.symm⟩
    · rintro ⟨h1, h2⟩; exact ⟨h1, fun h => h2 h.symm⟩
  | assign l t e =>
    intro args x
    cases t with
    | var y =>
      simp only [filterArgs, Assigned, List.mem_filter, decide_eq_true_eq]
      constructor
      · rintro ⟨h1, h2⟩; exact ⟨h1, fun h => h2 h.symm⟩
      · rintro ⟨h1, h2⟩; exact ⟨h1, fun h => h2 h.symm⟩
    | attr us f => simp [filterArgs, Assigned]
  | ret l e => intro args x; simp [filterArgs, Assigned]
  | expr e => intro args x; simp [filterArgs, Assigned]
  | seq a b iha ihb =>
    intro args x
    simp only [filterArgs, Assigned, iha, ihb]
    constructor
    · rintro ⟨⟨h1, h2⟩, h3⟩; exact ⟨h1, fun h => h.elim h2 h3⟩
    · rintro ⟨h1, h2⟩; exact ⟨⟨h1, fun h => h2 (.inl h)⟩, fun h => h2 (.inr h)⟩
  | ite c a b iha ihb =>
    intro args x
    simp only [filterArgs, Assigned, iha, ihb]
    constructor
    · rintro ⟨⟨h1, h2⟩, h3⟩; exact ⟨h1, fun h => h.elim h2 h3⟩
    · rintro ⟨h1, h2⟩; exact ⟨⟨h1, fun h => h2 (.inl h)⟩, fun h => h2 (.inr h)⟩
  | loop c a iha => intro args x; simp only [filterArgs, Assigned, iha]

/-- **C54** (which parameters are shared).  The parameters passed by reference are exactly the
parameters that are neither scalars nor NDArrays and that the body never declares or assigns. -/
theorem mem_refArgs (params : List Param) (body : Stmt V W) (x : Nat) :
    x ∈ refArgs params body ↔
      (∃ p ∈ params, p.x = x ∧ p.isPrim = false ∧ p.isNDArray = false) ∧ ¬ Assigned x body := by
  rw [refArgs, mem_filterArgs]
  simp only [List.mem_map, List.mem_filter, Bool.and_eq_true, Bool.not_eq_true']
  constructor
  · rintro ⟨⟨p, ⟨h1, h2, h3⟩, rfl⟩, h4⟩; exact ⟨⟨p, h1, rfl, h2, h3⟩, h4⟩
  · rintro ⟨⟨p, h1, h2, h3, h4⟩, h5⟩; exact ⟨⟨p, ⟨h1, h3, h4⟩, h2⟩, h5⟩

/-! ### By reference and by value agree when the locations keep their values -/

/-- The two storages agree except on the shared parameters, whose by-value copy holds what the
shared location still holds. -/
def Agree (m : Machine V W L) (refs : List Nat) (actual : Nat → L) (env env' : Nat → V) (w : W) :
    Prop :=
  (∀ x, x ∉ refs → env x = env' x) ∧ ∀ x, x ∈ refs → env x = m.load w (actual x)

theorem read_agree (m : Machine V W L) (refs : List Nat) (actual : Nat → L) {env env' : Nat → V}
    {w : W} (h : Agree m refs actual env env' w) (x : Nat) :
    read m (bindRefs refs actual) env' w x = read m (fun _ => none) env w x := by
  by_cases hx : x ∈ refs
  · simp [read, bindRefs, hx, h.2 x hx]
  · simp [read, bindRefs, hx, h.1 x hx]

theorem eval_agree (m : Machine V W L) (refs : List Nat) (actual : Nat → L) {env env' : Nat → V}
    {w : W} (h : Agree m refs actual env env' w) (e : Expr V W) :
    eval m (bindRefs refs actual) env' w e = eval m (fun _ => none) env w e := by
  have hr : read m (bindRefs refs actual) env' w = read m (fun _ => none) env w := by
    funext x; exact read_agree m refs actual h x
  cases e with
  | var x => simp only [eval, hr]
  | op us f => simp only [eval, hr]
  | move x => simp only [eval, hr]

theorem evalCond_agree (m : Machine V W L) (refs : List Nat) (actual : Nat → L)
    {env env' : Nat → V} {w : W} (h : Agree m refs actual env env' w) (e : Expr V W) :
    evalCond m (bindRefs refs actual) e env' w = evalCond m (fun _ => none) e env w := by
  simp only [evalCond, eval_agree m refs actual h e]

theorem consume_noMove (m : Machine V W L) (bind : Nat → Option L) (env : Nat → V)
    {e : Expr V W} (h : e.noMove) : consume m bind env e = env := by
  cases e with
  | var x => rfl
  | op us f => rfl
  | move x => exact absurd h (by simp [Expr.noMove])

theorem stored_noMove (m : Machine V W L) (bind : Nat → Option L) (x : Nat) (v : V)
    {e : Expr V W} (h : e.noMove) : stored m bind x v e = v := by
  cases e with
  | var x => rfl
  | op us f => rfl
  | move x => exact absurd h (by simp [Expr.noMove])

/-- The caller's locations of the shared parameters hold what they held at the call. -/
def Kept (m : Machine V W L) (refs : List Nat) (actual : Nat → L) (w0 w : W) : Prop :=
  ∀ x ∈ refs, m.load w (actual x) = m.load w0 (actual x)

/-- The outcomes agree. -/
def OutAgree (m : Machine V W L) (refs : List Nat) (actual : Nat → L) (w0 : W) :
    Out V W → Out V W → Prop
  | .next env w, .next env' w' => w = w' ∧ Kept m refs actual w0 w ∧ Agree m refs actual env env' w
  | .ret v w, .ret v' w' => v = v' ∧ w = w'
  | .raise w, .raise w' => w = w'
  | .stuck, .stuck => True
  | _, _ => False

theorem Agree.world {m : Machine V W L} {refs : List Nat} {actual : Nat → L} {w0 : W}
    {env env' : Nat → V} {w w1 : W} (h : Agree m refs actual env env' w)
    (hk : Kept m refs actual w0 w) (hk1 : Kept m refs actual w0 w1) :
    Agree m refs actual env env' w1 :=
  ⟨h.1, fun x hx => by rw [h.2 x hx, hk x hx, hk1 x hx]⟩

theorem Agree.put {m : Machine V W L} {refs : List Nat} {actual : Nat → L}
    {env env' : Nat → V} {w : W} (h : Agree m refs actual env env' w) {x : Nat} (hx : x ∉ refs)
    (v : V) : Agree m refs actual (put env x v) (CodegenOpt.put env' x v) w := by
  constructor
  · intro y hy
    by_cases hxy : y = x
    · simp [CodegenOpt.put, hxy]
    · simp [CodegenOpt.put, hxy, h.1 y hy]
  · intro y hy
    have : y ≠ x := fun e => hx (e ▸ hy)
    simp only [CodegenOpt.put, this, if_false]
    exact h.2 y hy

theorem iterLoop_agree (m : Machine V W L) (refs : List Nat) (actual : Nat → L) (w0 : W)
    (cond cond' : (Nat → V) → W → Option Bool × W) (body body' : (Nat → V) → W → Out V W)
    (Q : (Nat → V) → W → Prop)
    (hc : ∀ env env' w, Agree m refs actual env env' w → cond' env' w = cond env w)
    (hb : ∀ env env' w, Agree m refs actual env env' w → Kept m refs actual w0 w → Q env w →
      OutAgree m refs actual w0 (body env w) (body' env' w)) :
    ∀ (n : Nat) (env env' : Nat → V) (w : W), Agree m refs actual env env' w →
      Kept m refs actual w0 w →
      QuietLoop (Kept m refs actual w0) cond body Q n env w →
      OutAgree m refs actual w0 (iterLoop n cond body env w) (iterLoop n cond' body' env' w) := by
  intro n
  induction n with
  | zero => intro env env' w _ _ _; simp [iterLoop, OutAgree]
  | succ n ih =>
    intro env env' w ha hk hq
    simp only [iterLoop, hc env env' w ha]
    simp only [QuietLoop] at hq
    obtain ⟨hk1, hq⟩ := hq
    rcases hce : cond env w with ⟨b, w1⟩
    rw [hce] at hk1
    cases b with
    | none => simp [OutAgree]
    | some b =>
      cases b with
      | false => exact ⟨rfl, hk1, ha.world hk hk1⟩
      | true =>
        obtain ⟨hq1, hq2⟩ := hq w1 hce
        have h := hb env env' w1 (ha.world hk hk1) hk1 hq1
        dsimp only
        rcases ho : body env w1 with ⟨env2, w2⟩ | ⟨v, w2⟩ | w2 | _ <;>
          rcases ho' : body' env' w1 with ⟨env2', w2'⟩ | ⟨v', w2'⟩ | w2' | _ <;>
          rw [ho, ho'] at h <;> simp only [OutAgree] at h ⊢
        · obtain ⟨rfl, hk2, ha2⟩ := h
          exact ih env2 env2' w2 ha2 hk2 (hq2 env2 w2 ho)
        · exact h
        · exact h

theorem exec_agree (m : Machine V W L) (refs : List Nat) (actual : Nat → L) (w0 : W) (fuel : Nat)
    (s : Stmt V W) : noMove s → (∀ x ∈ refs, ¬ Assigned x s) →
    ∀ (env env' : Nat → V) (w : W), Agree m refs actual env env' w → Kept m refs actual w0 w →
      Quiet m (Kept m refs actual w0) fuel s env w →
      OutAgree m refs actual w0 (exec m (fun _ => none) fuel s env w)
        (exec m (bindRefs refs actual) fuel s env' w) := by
  induction s with
  | skip => intro _ _ env env' w ha hk _; exact ⟨rfl, hk, ha⟩
  | alloca l x e =>
    intro hm hx env env' w ha hk hq
    have hx' : x ∉ refs := fun h => hx x h rfl
    simp only [exec, eval_agree m refs actual ha e, consume_noMove m _ _ hm,
      stored_noMove m _ _ _ hm]
    simp only [Quiet] at hq
    rcases he : eval m (fun _ => none) env w e with ⟨v, w1⟩
    rw [he] at hq
    cases v with
    | none => simp [OutAgree]
    | some v => exact ⟨rfl, hq, (ha.world hk hq).put hx' v⟩
  | assign l t e =>
    intro hm hx env env' w ha hk hq
    cases t with
    | var x =>
      have hx' : x ∉ refs := fun h => hx x h rfl
      simp only [exec, eval_agree m refs actual ha e, consume_noMove m _ _ hm,
        stored_noMove m _ _ _ hm]
      simp only [Quiet] at hq
      rcases he : eval m (fun _ => none) env w e with ⟨v, w1⟩
      rw [he] at hq
      cases v with
      | none => simp [OutAgree]
      | some v => exact ⟨rfl, hq, (ha.world hk hq).put hx' v⟩
    | attr us f =>
      simp only [exec, eval_agree m refs actual ha e, consume_noMove m _ _ hm]
      simp only [Quiet] at hq
      rcases he : eval m (fun _ => none) env w e with ⟨v, w1⟩
      rw [he] at hq
      cases v with
      | none => simp [OutAgree]
      | some v =>
        have ha1 := ha.world hk hq.1
        have hr : read m (bindRefs refs actual) env' w1 = read m (fun _ => none) env w1 := by
          funext x; exact read_agree m refs actual ha1 x
        have h2 := hq.2 v w1 rfl
        simp only [hr]
        exact ⟨rfl, h2, ha.world hk h2⟩
  | ret l e =>
    intro hm hx env env' w ha hk hq
    simp only [exec, eval_agree m refs actual ha e]
    rcases he : eval m (fun _ => none) env w e with ⟨v, w1⟩
    cases v with
    | none => simp [OutAgree]
    | some v => simp [OutAgree]
  | expr e =>
    intro hm hx env env' w ha hk hq
    simp only [exec, eval_agree m refs actual ha e]
    simp only [Quiet] at hq
    rcases he : eval m (fun _ => none) env w e with ⟨v, w1⟩
    rw [he] at hq
    cases v with
    | none => simp [OutAgree]
    | some v => exact ⟨rfl, hq, ha.world hk hq⟩
  | seq a b iha ihb =>
    intro hm hx env env' w ha hk hq
    have h := iha hm.1 (fun x hr h => hx x hr (.inl h)) env env' w ha hk hq.1
    simp only [exec]
    rcases ho : exec m (fun _ => none) fuel a env w with ⟨env2, w2⟩ | ⟨v, w2⟩ | w2 | _ <;>
      rcases ho' : exec m (bindRefs refs actual) fuel a env' w with
        ⟨env2', w2'⟩ | ⟨v', w2'⟩ | w2' | _ <;>
      rw [ho, ho'] at h <;> simp only [OutAgree] at h ⊢
    · obtain ⟨rfl, hk2, ha2⟩ := h
      exact ihb hm.2 (fun x hr h => hx x hr (.inr h)) env2 env2' w2 ha2 hk2 (hq.2 env2 w2 ho)
    · exact h
    · exact h
  | ite c a b iha ihb =>
    intro hm hx env env' w ha hk hq
    simp only [exec, evalCond_agree m refs actual ha c]
    simp only [Quiet] at hq
    obtain ⟨hk1, hqa, hqb⟩ := hq
    rcases he : evalCond m (fun _ => none) c env w with ⟨v, w1⟩
    rw [he] at hk1
    cases v with
    | none => simp [OutAgree]
    | some v =>
      cases v with
      | true =>
        exact iha hm.2.1 (fun x hr h => hx x hr (.inl h)) env env' w1 (ha.world hk hk1) hk1
          (hqa w1 he)
      | false =>
        exact ihb hm.2.2 (fun x hr h => hx x hr (.inr h)) env env' w1 (ha.world hk hk1) hk1
          (hqb w1 he)
  | loop c a iha =>
    intro hm hx env env' w ha hk hq
    simp only [exec]
    simp only [Quiet] at hq
    exact iterLoop_agree m refs actual w0 _ _ _ _ (fun e w => Quiet m (Kept m refs actual w0) fuel a e w)
      (fun env env' w h => evalCond_agree m refs actual h c)
      (fun env env' w h hk hq => iha hm.2 (fun x hr h => hx x hr h) env env' w h hk hq)
      fuel env env' w ha hk hq

theorem OutAgree.seen {m : Machine V W L} {refs : List Nat} {actual : Nat → L} {w0 : W}
    {o o' : Out V W} (h : OutAgree m refs actual w0 o o') : o.seen = o'.seen := by
  cases o <;> cases o' <;> simp only [OutAgree] at h <;> simp [Out.seen, h]

/-- **C54.**  A call that passes its parameters by reference is observably the same as one that
copies them, for every body, with its branches and loops, as long as no location that a shared
parameter was taken from is given a new value while the body runs. -/
theorem callByRef_eq_partial (m : Machine V W L) (fuel : Nat) (params : List Param)
    (body : Stmt V W) (actual : Nat → L) (w : W) (hm : noMove body)
    (hq : Quiet m (Kept m (refArgs params body) actual w) fuel body (enter m actual w) w) :
    callByRef m fuel params body actual w = callByValue m fuel body actual w := by
  refine (OutAgree.seen (exec_agree m (refArgs params body) actual w fuel body hm ?_ _ _ w
    ⟨fun x _ => rfl, fun x _ => rfl⟩ (fun x _ => rfl) hq)).symm
  intro x hx
  exact ((mem_refArgs params body x).1 hx).2

/-! ### The moves -/

theorem mem_mark (args uses : List Nat) (l : Nat) (last : Nat → Option Nat) (a : Nat) :
    mark args uses l last a = if a ∈ args ∧ a ∈ uses then some l else last a := rfl

/-- A variable mentioned by the statement. -/
def Mentioned (v : Nat) : Stmt V W → Prop
  | .alloca _ x e => v = x ∨ v ∈ e.uses
  | .assign _ t e => v ∈ t.uses ∨ v ∈ e.uses
  | .ret _ e => v ∈ e.uses
  | .seq a b => Mentioned v a ∨ Mentioned v b
  | _ => False

theorem lastUse_of_not_mentioned (args : List Nat) (s : Stmt V W) : ∀ (init : Nat → Option Nat)
    (v : Nat), ¬ Mentioned v s → lastUse args s init v = init v := by
  induction s with
  | alloca l x e =>
    intro init v h
    simp only [Mentioned, not_or] at h
    simp only [lastUse, mark, List.mem_cons]
    rw [if_neg]; rintro ⟨_, h1⟩; exact h1.elim h.1 h.2
  | assign l t e =>
    intro init v h
    simp only [Mentioned, not_or] at h
    simp only [lastUse, mark, List.mem_append]
    rw [if_neg]; rintro ⟨_, h1⟩; exact h1.elim h.1 h.2
  | ret l e =>
    intro init v h
    simp only [Mentioned] at h
    simp only [lastUse, mark]
    rw [if_neg]; rintro ⟨_, h1⟩; exact h h1
  | seq a b iha ihb =>
    intro init v h
    simp only [Mentioned, not_or] at h
    simp only [lastUse]
    rw [ihb _ v h.2, iha _ v h.1]
  | _ => intro init v h; rfl

theorem lastUse_of_mentioned (args : List Nat) (s : Stmt V W) : ∀ (init : Nat → Option Nat)
    (v : Nat), v ∈ args → Mentioned v s → ∃ l ∈ labels s, lastUse args s init v = some l := by
  induction s with
  | alloca l x e =>
    intro init v hv h
    refine ⟨l, by simp [labels], ?_⟩
    simp only [lastUse, mark, List.mem_cons]
    rw [if_pos ⟨hv, h⟩]
  | assign l t e =>
    intro init v hv h
    refine ⟨l, by simp [labels], ?_⟩
    simp only [lastUse, mark, List.mem_append]
    rw [if_pos ⟨hv, h⟩]
  | ret l e =>
    intro init v hv h
    refine ⟨l, by simp [labels], ?_⟩
    simp only [lastUse, mark]
    rw [if_pos ⟨hv, h⟩]
  | seq a b iha ihb =>
    intro init v hv h
    simp only [lastUse, labels]
    by_cases hb : Mentioned v b
    · obtain ⟨l, hl, he⟩ := ihb (lastUse args a init) v hv hb
      exact ⟨l, List.mem_append_right _ hl, he⟩
    · obtain ⟨l, hl, he⟩ := iha init v hv (h.resolve_right hb)
      exact ⟨l, List.mem_append_left _ hl, by rw [lastUse_of_not_mentioned args b _ v hb, he]⟩
  | _ => intro init v hv h; exact absurd h (by simp [Mentioned])

theorem mentioned_of_readLater (s : Stmt V W) : straight s = true → ∀ (K : Nat → Prop) (v : Nat),
    readLater s K v → Mentioned v s ∨ K v := by
  induction s with
  | alloca l x e =>
    intro _ K v h
    simp only [readLater] at h
    rcases h with h | h
    · exact .inl (.inr h)
    · exact .inr h.2
  | assign l t e =>
    intro _ K v h
    cases t with
    | var x =>
      simp only [readLater] at h
      rcases h with h | h
      · exact .inl (.inr h)
      · exact .inr h.2
    | attr us f =>
      simp only [readLater] at h
      rcases h with h | h | h
      · exact .inl (.inr h)
      · exact .inl (.inl h)
      · exact .inr h
  | ret l e => intro _ K v h; exact .inl h
  | seq a b iha ihb =>
    intro hs K v h
    simp only [straight, Bool.and_eq_true] at hs
    simp only [readLater] at h
    rcases iha hs.1 _ v h with h | h
    · exact .inl (.inl h)
    · rcases ihb hs.2 K v h with h | h
      · exact .inl (.inr h)
      · exact .inr h
  | skip => intro _ K v h; exact .inr h
  | expr e => intro hs; simp [straight] at hs
  | ite c a b _ _ => intro hs; simp [straight] at hs
  | loop c a _ => intro hs; simp [straight] at hs

/-- A moved by-value right-hand side is not read later. -/
def safeLeaf (args : List Nat) (inSet : Nat → Bool) (byValue : Nat → Prop) (l : Nat)
    (K : Nat → Prop) : Expr V W → Prop
  | .var b => inSet l = true → b ∈ args → byValue b → ¬ K b
  | _ => True

/-- Every moved by-value parameter is not read later. -/
def Safe (args : List Nat) (inSet : Nat → Bool) (byValue : Nat → Prop) :
    Stmt V W → (Nat → Prop) → Prop
  | .alloca l _ e, K => safeLeaf args inSet byValue l K e
  | .assign l _ e, K => safeLeaf args inSet byValue l K e
  | .seq a b, K => Safe args inSet byValue a (readLater b K) ∧ Safe args inSet byValue b K
  | _, _ => True

/-- The leaf case of `safe_of_crossDead`: if the statement is somebody's last use then either it is
the last use of the copied parameter, or it mentions another parameter. -/
theorem safeLeaf_of_crossDead (args : List Nat) (F : Nat → Option Nat) (byValue : Nat → Prop)
    (inSet : Nat → Bool) (hin : ∀ l, inSet l = true → ∃ a ∈ args, F a = some l)
    (l : Nat) (us : List Nat) (K : Nat → Prop) (e : Expr V W) (init : Nat → Option Nat)
    (h1 : ∀ v ∈ args, K v → F v ≠ some l)
    (h2 : ∀ v ∈ args, F v = some l → mark args (us ++ e.uses) l init v = some l)
    (h3 : ∀ v, init v ≠ some l) (hc : crossDeadLeaf args byValue us K e) :
    safeLeaf args inSet byValue l K e := by
  cases e with
  | op us' f => trivial
  | move x => trivial
  | var b =>
    intro hl hb hbv hK
    obtain ⟨a, ha, hFa⟩ := hin l hl
    have hm := h2 a ha hFa
    simp only [mark] at hm
    by_cases hmem : a ∈ args ∧ a ∈ us ++ (Expr.var b : Expr V W).uses
    · by_cases hab : a = b
      · subst hab
        exact h1 a ha hK hFa
      · have : a ∈ us := by
          rcases List.mem_append.1 hmem.2 with h | h
          · exact h
          · simp only [Expr.uses, List.mem_singleton] at h; exact absurd h hab
        exact hc hb hbv ⟨a, ha, this, hab⟩ hK
    · rw [if_neg hmem] at hm
      exact h3 a hm

theorem safe_of_crossDead (args : List Nat) (F : Nat → Option Nat) (byValue : Nat → Prop)
    (inSet : Nat → Bool) (hin : ∀ l, inSet l = true → ∃ a ∈ args, F a = some l) (s : Stmt V W) :
    straight s = true → (labels s).Nodup → ∀ (K : Nat → Prop) (init : Nat → Option Nat),
    (∀ v ∈ args, K v → ∀ l ∈ labels s, F v ≠ some l) →
    (∀ v ∈ args, ∀ l ∈ labels s, F v = some l → lastUse args s init v = some l) →
    (∀ v, ∀ l ∈ labels s, init v ≠ some l) →
    crossDead args byValue s K → Safe args inSet byValue s K := by
  induction s with
  | alloca l x e =>
    intro _ _ K init h1 h2 h3 hc
    exact safeLeaf_of_crossDead args F byValue inSet hin l [x] K e init
      (fun v hv hK => h1 v hv hK l (by simp [labels]))
      (fun v hv hF => h2 v hv l (by simp [labels]) hF)
      (fun v => h3 v l (by simp [labels])) hc
  | assign l t e =>
    intro _ _ K init h1 h2 h3 hc
    exact safeLeaf_of_crossDead args F byValue inSet hin l t.uses K e init
      (fun v hv hK => h1 v hv hK l (by simp [labels]))
      (fun v hv hF => h2 v hv l (by simp [labels]) hF)
      (fun v => h3 v l (by simp [labels])) hc
  | ret l e => intros; trivial
  | skip => intros; trivial
  | expr e => intro hs; simp [straight] at hs
  | ite c a b _ _ => intro hs; simp [straight] at hs
  | loop c a _ => intro hs; simp [straight] at hs
  | seq a b iha ihb =>
    intro hs hnd K init h1 h2 h3 hc
    simp only [straight, Bool.and_eq_true] at hs
    simp only [labels] at hnd h1 h2 h3
    simp only [lastUse] at h2
    have hd := (List.nodup_append.1 hnd)
    have hdis : ∀ l, l ∈ labels a → l ∈ labels b → False := fun l ha hb => hd.2.2 l ha l hb rfl
    constructor
    · refine iha hs.1 hd.1 _ init ?_ ?_ (fun v l hl => h3 v l (List.mem_append_left _ hl)) hc.1
      · intro v hv hK l hl hF
        have hl' := h2 v hv l (List.mem_append_left _ hl) hF
        by_cases hm : Mentioned v b
        · obtain ⟨l', hl2, he⟩ := lastUse_of_mentioned args b (lastUse args a init) v hv hm
          rw [he] at hl'
          cases hl'
          exact hdis l hl hl2
        · rcases mentioned_of_readLater b hs.2 K v hK with h | h
          · exact hm h
          · exact h1 v hv h l (List.mem_append_left _ hl) hF
      · intro v hv l hl hF
        have hl' := h2 v hv l (List.mem_append_left _ hl) hF
        by_cases hm : Mentioned v b
        · obtain ⟨l', hl2, he⟩ := lastUse_of_mentioned args b (lastUse args a init) v hv hm
          rw [he] at hl'
          cases hl'
          exact (hdis l hl hl2).elim
        · rwa [lastUse_of_not_mentioned args b _ v hm] at hl'
    · refine ihb hs.2 hd.2.1 K (lastUse args a init)
        (fun v hv hK l hl => h1 v hv hK l (List.mem_append_right _ hl))
        (fun v hv l hl hF => h2 v hv l (List.mem_append_right _ hl) hF) ?_ hc.2
      intro v l hl he
      by_cases hm : v ∈ args ∧ Mentioned v a
      · obtain ⟨l', hl2, he2⟩ := lastUse_of_mentioned args a init v hm.1 hm.2
        rw [he2] at he; cases he
        exact hdis l hl2 hl
      · by_cases hv : Mentioned v a
        · -- not a parameter: the map is untouched
          have : ∀ (s : Stmt V W) (init : Nat → Option Nat), v ∉ args →
              lastUse args s init v = init v := by
            intro s
            induction s with
            | alloca l x e => intro init hv; simp [lastUse, mark, hv]
            | assign l t e => intro init hv; simp [lastUse, mark, hv]
            | ret l e => intro init hv; simp [lastUse, mark, hv]
            | seq a b iha ihb => intro init hv; simp only [lastUse]; rw [ihb _ hv, iha _ hv]
            | _ => intro init _; rfl
          rw [this a init (fun h => hm ⟨h, hv⟩)] at he
          exact h3 v l (List.mem_append_right _ hl) he
        · rw [lastUse_of_not_mentioned args a _ v hv] at he
          exact h3 v l (List.mem_append_right _ hl) he

/-- Two storages agree on the variables still to be read. -/
def OutLive (K : Nat → Prop) : Out V W → Out V W → Prop
  | .next env w, .next env' w' => w = w' ∧ ∀ v, K v → env v = env' v
  | .ret v w, .ret v' w' => v = v' ∧ w = w'
  | .raise w, .raise w' => w = w'
  | .stuck, .stuck => True
  | _, _ => False

theorem OutLive.seen {K : Nat → Prop} {o o' : Out V W} (h : OutLive K o o') :
    o.seen = o'.seen := by
  cases o <;> cases o' <;> simp only [OutLive] at h <;> simp [Out.seen, h]

theorem read_live (m : Machine V W L) (bind : Nat → Option L) {env env' : Nat → V} {w : W} {x : Nat}
    (h : env x = env' x) : read m bind env w x = read m bind env' w x := by
  unfold read; cases bind x <;> simp [h]

theorem map_read_live (m : Machine V W L) (bind : Nat → Option L) {env env' : Nat → V} (w : W)
    (us : List Nat) (h : ∀ x ∈ us, env x = env' x) :
    us.map (read m bind env w) = us.map (read m bind env' w) :=
  List.map_congr_left fun x hx => read_live m bind (h x hx)

theorem eval_live (m : Machine V W L) (bind : Nat → Option L) {env env' : Nat → V} (w : W)
    (e : Expr V W) (h : ∀ x ∈ e.uses, env x = env' x) :
    eval m bind env w e = eval m bind env' w e := by
  cases e with
  | var x => simp only [eval]; rw [read_live m bind (h x (by simp [Expr.uses]))]
  | op us f => simp only [eval]; rw [map_read_live m bind w us h]
  | move x => simp only [eval]; rw [read_live m bind (h x (by simp [Expr.uses]))]

theorem eval_moveRhs (m : Machine V W L) (bind : Nat → Option L) (env : Nat → V) (w : W)
    (args : List Nat) (inSet : Nat → Bool) (l : Nat) (e : Expr V W) :
    eval m bind env w (moveRhs args inSet l e) = eval m bind env w e := by
  cases e with
  | var x => simp only [moveRhs]; split <;> rfl
  | op us f => rfl
  | move x => rfl

/-- What the moved right-hand side does to the storage concerns variables that are dead. -/
theorem consume_moveRhs (m : Machine V W L) (bind : Nat → Option L) (env : Nat → V)
    (args : List Nat) (inSet : Nat → Bool) (l : Nat) {e : Expr V W} (hm : e.noMove)
    (K : Nat → Prop) (hs : safeLeaf args inSet (fun b => bind b = none) l K e) (v : Nat) (hv : K v) :
    consume m bind env (moveRhs args inSet l e) v = env v := by
  cases e with
  | op us f => rfl
  | move x => exact absurd hm (by simp [Expr.noMove])
  | var b =>
    simp only [moveRhs]
    split
    · rename_i hc
      simp only [Bool.and_eq_true, List.contains_iff_mem] at hc
      simp only [consume]
      rcases hb : bind b with _ | l'
      · have : v ≠ b := fun h => hs hc.1 hc.2 hb (h ▸ hv)
        simp [put, this]
      · rfl
    · rfl

theorem stored_moveRhs (m : Machine V W L) (bind : Nat → Option L) (x : Nat) (r : V)
    (args : List Nat) (inSet : Nat → Bool) (l : Nat) {e : Expr V W} (hm : e.noMove)
    (K : Nat → Prop) (hs : safeLeaf args inSet (fun b => bind b = none) l K e) (hx : K x) :
    stored m bind x r (moveRhs args inSet l e) = r := by
  cases e with
  | op us f => rfl
  | move x => exact absurd hm (by simp [Expr.noMove])
  | var b =>
    simp only [moveRhs]
    split
    · rename_i hc
      simp only [Bool.and_eq_true, List.contains_iff_mem] at hc
      simp only [stored]
      rw [if_neg]
      rintro ⟨rfl, hb⟩
      rw [Option.isNone_iff_eq_none] at hb
      exact hs hc.1 hc.2 hb hx
    · rfl

theorem exec_mutate (m : Machine V W L) (bind : Nat → Option L) (fuel : Nat) (args : List Nat)
    (inSet : Nat → Bool) (s : Stmt V W) : straight s = true → noMove s →
    ∀ (K : Nat → Prop), Safe args inSet (fun b => bind b = none) s K →
    ∀ (env env' : Nat → V) (w : W), (∀ v, readLater s K v → env v = env' v) →
      OutLive K (exec m bind fuel s env w) (exec m bind fuel (mutate args inSet s) env' w) := by
  induction s with
  | skip => intro _ _ K _ env env' w h; exact ⟨rfl, h⟩
  | alloca l x e =>
    intro _ hm K hs env env' w h
    simp only [readLater] at h
    have he : eval m bind env' w (moveRhs args inSet l e) = eval m bind env w e := by
      rw [eval_moveRhs]; exact (eval_live m bind w e fun y hy => h y (.inl hy)).symm
    simp only [mutate, exec, he]
    rcases eval m bind env w e with ⟨v, w1⟩
    cases v with
    | none => simp [OutLive]
    | some r =>
      refine ⟨rfl, fun v hv => ?_⟩
      simp only [put]
      by_cases hvx : v = x
      · subst hvx
        simp only [if_true]
        rw [stored_noMove m bind v r hm, stored_moveRhs m bind v r args inSet l hm K hs hv]
      · simp only [hvx, if_false]
        rw [consume_noMove m bind env hm, consume_moveRhs m bind env' args inSet l hm K hs v hv]
        exact h v (.inr ⟨hvx, hv⟩)
  | assign l t e =>
    intro _ hm K hs env env' w h
    cases t with
    | var x =>
      simp only [readLater] at h
      have he : eval m bind env' w (moveRhs args inSet l e) = eval m bind env w e := by
        rw [eval_moveRhs]; exact (eval_live m bind w e fun y hy => h y (.inl hy)).symm
      simp only [mutate, exec, he]
      rcases eval m bind env w e with ⟨v, w1⟩
      cases v with
      | none => simp [OutLive]
      | some r =>
        refine ⟨rfl, fun v hv => ?_⟩
        simp only [put]
        by_cases hvx : v = x
        · subst hvx
          simp only [if_true]
          rw [stored_noMove m bind v r hm, stored_moveRhs m bind v r args inSet l hm K hs hv]
        · simp only [hvx, if_false]
          rw [consume_noMove m bind env hm, consume_moveRhs m bind env' args inSet l hm K hs v hv]
          exact h v (.inr ⟨hvx, hv⟩)
    | attr us f =>
      simp only [readLater] at h
      have he : eval m bind env' w (moveRhs args inSet l e) = eval m bind env w e := by
        rw [eval_moveRhs]; exact (eval_live m bind w e fun y hy => h y (.inl hy)).symm
      simp only [mutate, exec, he]
      rcases eval m bind env w e with ⟨v, w1⟩
      cases v with
      | none => simp [OutLive]
      | some r =>
        refine ⟨?_, fun v hv => ?_⟩
        · rw [map_read_live m bind w1 us fun y hy => h y (.inr (.inl hy))]
        · rw [consume_noMove m bind env hm, consume_moveRhs m bind env' args inSet l hm K hs v hv]
          exact h v (.inr (.inr hv))
  | ret l e =>
    intro _ hm K hs env env' w h
    simp only [readLater] at h
    simp only [mutate, exec]
    rw [eval_live m bind w e h]
    rcases eval m bind env' w e with ⟨v, w1⟩
    cases v <;> simp [OutLive]
  | expr e => intro hs; simp [straight] at hs
  | ite c a b _ _ => intro hs; simp [straight] at hs
  | loop c a _ => intro hs; simp [straight] at hs
  | seq a b iha ihb =>
    intro hst hm K hs env env' w h
    simp only [straight, Bool.and_eq_true] at hst
    have h1 := iha hst.1 hm.1 (readLater b K) hs.1 env env' w h
    simp only [mutate, exec]
    rcases ho : exec m bind fuel a env w with ⟨env2, w2⟩ | ⟨v, w2⟩ | w2 | _ <;>
      rcases ho' : exec m bind fuel (mutate args inSet a) env' w with
        ⟨env2', w2'⟩ | ⟨v', w2'⟩ | w2' | _ <;>
      rw [ho, ho'] at h1 <;> simp only [OutLive] at h1 ⊢
    · obtain ⟨rfl, h2⟩ := h1
      exact ihb hst.2 hm.2 K hs.2 env2 env2' w2 h2
    · exact h1
    · exact h1

/-- A parameter that is passed by value: assigned somewhere, or an NDArray. -/
def ByValue (params : List Param) (body : Stmt V W) (b : Nat) : Prop := b ∉ refArgs params body

/-- **C53.**  The move pass does not change what a call returns, raises or does, for any body and
any meaning of the operators, provided that each copy `t = b` of a by-value parameter `b` whose
left-hand side mentions another parameter comes after the last read of `b`. -/
theorem moves_unobservable_partial (m : Machine V W L) (fuel : Nat) (params : List Param)
    (body : Stmt V W) (actual : Nat → L) (w : W) (hm : noMove body) (hl : (labels body).Nodup)
    (hc : straight body = true →
      crossDead (moveArgs params) (ByValue params body) body (fun _ => False)) :
    callCompiled m fuel params body actual w = callByRef m fuel params body actual w := by
  unfold callCompiled callByRef moveOpt
  by_cases hs : straight body = true
  · rw [if_pos hs]
    have hsafe := safe_of_crossDead (moveArgs params)
      (lastUse (moveArgs params) body fun _ => none) (ByValue params body)
      (lastStmts (moveArgs params) body) (by
        intro l h
        simp only [lastStmts, List.any_eq_true, beq_iff_eq] at h
        exact h) body hs hl (fun _ => False) (fun _ => none)
      (fun v _ h => h.elim) (fun v _ l _ h => h) (fun v l _ h => by cases h) (hc hs)
    have hbv : ByValue params body = fun b => bindRefs (refArgs params body) actual b = none := by
      funext b
      simp [ByValue, bindRefs]
    rw [hbv] at hsafe
    exact (OutLive.seen (exec_mutate m (bindRefs (refArgs params body) actual) fuel _ _ body hs hm
      _ hsafe _ _ w (fun v _ => rfl))).symm
  · rw [if_neg hs]

/-- **C53, C54.**  The compiled call and the source program agree under both conditions. -/
theorem compiled_eq_source_partial (m : Machine V W L) (fuel : Nat) (params : List Param)
    (body : Stmt V W) (actual : Nat → L) (w : W) (hm : noMove body) (hl : (labels body).Nodup)
    (hc : straight body = true →
      crossDead (moveArgs params) (ByValue params body) body (fun _ => False))
    (hq : Quiet m (Kept m (refArgs params body) actual w) fuel body (enter m actual w) w) :
    callCompiled m fuel params body actual w = callByValue m fuel body actual w :=
  (moves_unobservable_partial m fuel params body actual w hm hl hc).trans
    (callByRef_eq_partial m fuel params body actual w hm hq)

theorem crossDeadLeaf_of_one (args : List Nat) (byValue : Nat → Prop) (us : List Nat)
    (K : Nat → Prop) (h : ∀ a ∈ args, ∀ b ∈ args, byValue b → a = b) (e : Expr V W) :
    crossDeadLeaf args byValue us K e := by
  cases e with
  | var b => intro hb hbv ⟨a, ha, _, hab⟩; exact absurd (h a ha b hb hbv) hab
  | op us f => trivial
  | move x => trivial

theorem crossDead_of_one (args : List Nat) (byValue : Nat → Prop)
    (h : ∀ a ∈ args, ∀ b ∈ args, byValue b → a = b) (s : Stmt V W) :
    ∀ K, crossDead args byValue s K := by
  induction s with
  | alloca l x e => intro K; exact crossDeadLeaf_of_one args byValue _ K h e
  | assign l t e => intro K; exact crossDeadLeaf_of_one args byValue _ K h e
  | seq a b iha ihb => intro K; exact ⟨iha _, ihb _⟩
  | _ => intro K; trivial

/-- **C53** (one object parameter).  In a function with a single non-scalar parameter the moves
are never observable. -/
theorem moves_unobservable_one (m : Machine V W L) (fuel : Nat) (params : List Param)
    (body : Stmt V W) (actual : Nat → L) (w : W) (hm : noMove body) (hl : (labels body).Nodup)
    (h1 : ∀ p ∈ params, ∀ q ∈ params, p.isPrim = false → q.isPrim = false → p.x = q.x) :
    callCompiled m fuel params body actual w = callByRef m fuel params body actual w := by
  refine moves_unobservable_partial m fuel params body actual w hm hl fun _ =>
    crossDead_of_one _ _ ?_ body _
  intro a ha b hb _
  simp only [moveArgs, List.mem_map, List.mem_filter, Bool.not_eq_true'] at ha hb
  obtain ⟨p, ⟨hp, hp1⟩, rfl⟩ := ha
  obtain ⟨q, ⟨hq, hq1⟩, rfl⟩ := hb
  exact h1 p hp q hq hp1 hq1

/-- **C53** (read-only parameters).  If no parameter is an NDArray and none is assigned or
redeclared, the moves are never observable: they all act on references. -/
theorem moves_unobservable_readonly (m : Machine V W L) (fuel : Nat) (params : List Param)
    (body : Stmt V W) (actual : Nat → L) (w : W) (hm : noMove body) (hl : (labels body).Nodup)
    (h1 : ∀ p ∈ params, p.isPrim = false → p.isNDArray = false ∧ ¬ Assigned p.x body) :
    callCompiled m fuel params body actual w = callByRef m fuel params body actual w := by
  refine moves_unobservable_partial m fuel params body actual w hm hl fun _ =>
    crossDead_of_one _ _ ?_ body _
  intro a _ b hb hbv
  simp only [moveArgs, List.mem_map, List.mem_filter, Bool.not_eq_true'] at hb
  obtain ⟨q, ⟨hq, hq1⟩, rfl⟩ := hb
  exact absurd ((mem_refArgs params body q.x).2 ⟨⟨q, hq, rfl, hq1, (h1 q hq hq1).1⟩,
    (h1 q hq hq1).2⟩) hbv

/-! ### Refutations -/

/-- A machine with numbers for values: the world is the contents of the locations; `0` is the
moved-from value. -/
def demo : Machine Nat (Nat → Nat) Nat :=
  { load := fun w l => w l, moved := fun _ => 0, selfMoved := fun v => v, truth := fun v => v ≠ 0 }

/-- `def keep(self, x): self.x = x; return x` with `self` = 0 and `x` = 1; the attribute is
location 7. -/
def keepBody : Stmt Nat (Nat → Nat) :=
  .seq (.assign 10 (.attr [0] fun _ v w => fun l => if l = 7 then v else w l) (.var 1))
    (.ret 11 (.var 1))

/-- `self` is an object, `x` an NDArray. -/
def keepParams : List Param :=
  [{ x := 0, isPrim := false, isNDArray := false }, { x := 1, isPrim := false, isNDArray := true }]

/-- The value a call returns. -/
def Seen.value : Seen V W → Option V
  | .ret v _ => some v
  | _ => none

/-- **C53 refuted.**  A method `keep(self, x: NDArray)` that stores `x` in an attribute and then
returns `x` returns the moved-from value: the store is the last use of `self`, so `x` is moved. -/
theorem move_refuted : ∃ (params : List Param) (body : Stmt Nat (Nat → Nat)) (actual : Nat → Nat)
    (w : Nat → Nat), noMove body ∧ (labels body).Nodup ∧
    (callByValue demo 0 body actual w).value = some 5 ∧
    (callByRef demo 0 params body actual w).value = some 5 ∧
    (callCompiled demo 0 params body actual w).value = some 0 :=
  ⟨keepParams, keepBody, id, fun l => if l = 1 then 5 else 3,
    ⟨trivial, trivial⟩, by decide, by decide, by decide, by decide⟩

/-- `def f(a, b): a = b; c = b; b = 0; return c` -/
def swapBody : Stmt Nat (Nat → Nat) :=
  .seq (.assign 10 (.var 0) (.var 1)) (.seq (.alloca 11 2 (.var 1))
    (.seq (.assign 12 (.var 1) (.op [] fun _ w => (some 9, w))) (.ret 13 (.var 2))))

/-- **C53 refuted** without NDArrays: `a = b` is the last use of `a`, so it moves `b`, which the
next statement reads. -/
theorem move_plain_refuted : ∃ (params : List Param) (body : Stmt Nat (Nat → Nat))
    (actual : Nat → Nat) (w : Nat → Nat), (∀ p ∈ params, p.isNDArray = false) ∧ noMove body ∧
    (labels body).Nodup ∧
    (callByValue demo 0 body actual w).value = some 5 ∧
    (callCompiled demo 0 params body actual w).value = some 0 :=
  ⟨[⟨0, false, false⟩, ⟨1, false, false⟩], swapBody, id, fun l => if l = 1 then 5 else 3,
    by decide, ⟨trivial, trivial, trivial, trivial⟩, by decide, by decide, by decide⟩

/-- `def g(self, xs): self.xs = []; return xs` called as `self.g(self.xs)`: `xs` is variable 1 and
the attribute is location 1. -/
def resetBody : Stmt Nat (Nat → Nat) :=
  .seq (.assign 10 (.attr [0] fun _ v w => fun l => if l = 1 then v else w l)
    (.op [] fun _ w => (some 0, w))) (.ret 11 (.var 1))

/-- **C54 refuted.**  `self.g(self.xs)`, where `g` replaces the attribute `self.xs` and returns its
parameter, returns the new contents of the attribute. -/
theorem byRef_refuted : ∃ (params : List Param) (body : Stmt Nat (Nat → Nat)) (actual : Nat → Nat)
    (w : Nat → Nat), noMove body ∧ (labels body).Nodup ∧
    (callByValue demo 0 body actual w).value = some 5 ∧
    (callByRef demo 0 params body actual w).value = some 0 :=
  ⟨[⟨0, false, false⟩, ⟨1, false, false⟩], resetBody, id, fun l => if l = 1 then 5 else 3,
    ⟨trivial, trivial⟩, by decide, by decide, by decide⟩

/-! ### Non-trivial instances -/

/-- `keep` with a list instead of an NDArray is compiled correctly: `x` is a reference. -/
example (w : Nat → Nat) (actual : Nat → Nat) :
    callCompiled demo 0 [⟨0, false, false⟩, ⟨1, false, false⟩] keepBody actual w =
      callByRef demo 0 [⟨0, false, false⟩, ⟨1, false, false⟩] keepBody actual w :=
  moves_unobservable_readonly demo 0 _ keepBody actual w ⟨trivial, trivial⟩ (by decide) (by
    intro p hp _
    simp only [List.mem_cons, List.not_mem_nil, or_false] at hp
    rcases hp with rfl | rfl <;> simp [keepBody, Assigned])

/-- A move that is really made and harmless: `def h(a): c = a; a = 9; return c`. -/
def onceBody : Stmt Nat (Nat → Nat) :=
  .seq (.assign 9 (.var 0) (.op [0] fun vs w => (vs.head?, w)))
    (.seq (.alloca 10 2 (.var 0)) (.ret 11 (.var 2)))

example : moveOpt [⟨0, false, false⟩] onceBody ≠ onceBody := by
  intro h
  simp [onceBody, moveOpt, straight, mutate, moveRhs, lastStmts, moveArgs, lastUse, mark,
    Expr.uses, Target.uses] at h

example (w : Nat → Nat) :
    callCompiled demo 0 [⟨0, false, false⟩] onceBody id w =
      callByRef demo 0 [⟨0, false, false⟩] onceBody id w :=
  moves_unobservable_one demo 0 _ onceBody id w ⟨trivial, trivial, trivial⟩ (by decide) (by
    intro p hp q hq _ _
    simp only [List.mem_singleton] at hp hq
    rw [hp, hq])

example : (callCompiled demo 0 [⟨0, false, false⟩] onceBody id (fun _ => 4)).value = some 4 := by
  decide

/-- A loop that reads a shared parameter and changes another location is unaffected. -/
example (w : Nat → Nat) (actual : Nat → Nat) (h0 : actual 0 = 0) (h1 : actual 1 = 1) :
    let body : Stmt Nat (Nat → Nat) :=
      .loop (.op [1] fun vs w => (some (vs.headD 0 - w 7), w))
        (.assign 1 (.attr [0] fun _ v w => fun l => if l = 7 then v else w l)
          (.op [] fun _ w => (some (w 7 + 1), w)))
    callByRef demo 50 [⟨0, false, false⟩, ⟨1, false, false⟩] body actual w =
      callByValue demo 50 body actual w := by
  intro body
  refine callByRef_eq_partial demo 50 _ body actual w ⟨trivial, trivial⟩ ?_
  have key : ∀ (n : Nat) (env : Nat → Nat) (w1 : Nat → Nat),
      Kept demo (refArgs [⟨0, false, false⟩, ⟨1, false, false⟩] body) actual w w1 →
      QuietLoop (Kept demo (refArgs [⟨0, false, false⟩, ⟨1, false, false⟩] body) actual w)
        (evalCond demo (fun _ => none) (.op [1] fun vs w => (some (vs.headD 0 - w 7), w)))
        (fun e w => exec demo (fun _ => none) 50 (.assign 1 (.attr [0] fun _ v w => fun l =>
          if l = 7 then v else w l) (.op [] fun _ w => (some (w 7 + 1), w))) e w)
        (fun e w' => Quiet demo (Kept demo (refArgs [⟨0, false, false⟩, ⟨1, false, false⟩] body)
          actual w) 50 (.assign 1 (.attr [0] fun _ v w => fun l =>
          if l = 7 then v else w l) (.op [] fun _ w => (some (w 7 + 1), w))) e w') n env w1 := by
    intro n
    induction n with
    | zero => intro env w1 _; trivial
    | succ n ih =>
      intro env w1 hk
      refine ⟨hk, fun w2 h2 => ?_⟩
      have : w2 = w1 := by simp [evalCond, eval] at h2; exact h2.2.symm
      subst this
      have hk' : Kept demo (refArgs [⟨0, false, false⟩, ⟨1, false, false⟩] body) actual w
          (fun l => if l = 7 then w2 7 + 1 else w2 l) := by
        intro x hx
        have hx' : x = 0 ∨ x = 1 := by
          have : refArgs [⟨0, false, false⟩, ⟨1, false, false⟩] body = [0, 1] := by decide
          rw [this] at hx; simpa using hx
        have := hk x hx
        rcases hx' with rfl | rfl <;> simp_all [demo]
      refine ⟨⟨hk, fun v w3 h3 => ?_⟩, fun env2 w3 h3 => ?_⟩
      · simp [eval] at h3
        obtain ⟨rfl, rfl⟩ := h3
        exact hk'
      · simp [exec, eval, consume] at h3
        obtain ⟨rfl, rfl⟩ := h3
        exact ih env _ hk'
  have hk0 : Kept demo (refArgs [⟨0, false, false⟩, ⟨1, false, false⟩] body) actual w w :=
    fun _ _ => rfl
  exact key 50 _ w hk0

end Verif.CodegenOpt
