import Verif.LowerFrame
import Mathlib.Tactic.Ring
import Mathlib.Tactic.Linarith

/-! Generated statements do what the Python statements do. -/

namespace Verif.Lower

variable {W : Type} {U : Prop}

/-- A relation between the local variables of the two sides. -/
abbrev EnvRel := (String → Option Val) → (Nat → Option Val) → Prop

/-- The outcomes agree: the same kind, value and world, and related variables (`En` after normal
completion, `Eo` otherwise).  Where `U` holds the generated code may be undefined, and then
nothing is said. -/
inductive OutR (U : Prop) (En Eo : EnvRel) : Out (St String W) → Out (St Nat W) → Prop
  | nrm {a b w} (h : En a b) : OutR U En Eo (.nrm ⟨a, w⟩) (.nrm ⟨b, w⟩)
  | brk {a b w} (h : Eo a b) : OutR U En Eo (.brk ⟨a, w⟩) (.brk ⟨b, w⟩)
  | cnt {a b w} (h : Eo a b) : OutR U En Eo (.cnt ⟨a, w⟩) (.cnt ⟨b, w⟩)
  | ret {a b w} (v : Val) (h : Eo a b) : OutR U En Eo (.ret v ⟨a, w⟩) (.ret v ⟨b, w⟩)
  | exc {a b w} (v : Val) (h : Eo a b) : OutR U En Eo (.exc v ⟨a, w⟩) (.exc v ⟨b, w⟩)
  | tmo : OutR U En Eo .tmo .tmo
  | ub (h : U) (o : Out (St String W)) : OutR U En Eo o .ub

section

variable {En Eo En' Eo' E : EnvRel} {o : Out (St String W)} {o' : Out (St Nat W)}

theorem OutR.mono (h : OutR U En Eo o o') (hn : ∀ a b, En a b → En' a b)
    (ho : ∀ a b, Eo a b → Eo' a b) : OutR U En' Eo' o o' := by
  cases h with
  | nrm h => exact .nrm (hn _ _ h)
  | brk h => exact .brk (ho _ _ h)
  | cnt h => exact .cnt (ho _ _ h)
  | ret v h => exact .ret v (ho _ _ h)
  | exc v h => exact .exc v (ho _ _ h)
  | tmo => exact .tmo
  | ub h o => exact .ub h o

theorem OutR.andThen {k : St String W → Out (St String W)} {l : St Nat W → Out (St Nat W)}
    (h : OutR U En Eo o o') (hk : ∀ a b w, En a b → OutR U En' Eo (k ⟨a, w⟩) (l ⟨b, w⟩)) :
    OutR U En' Eo (o.andThen k) (o'.andThen l) := by
  cases h with
  | nrm h => exact hk _ _ _ h
  | brk h => exact .brk h
  | cnt h => exact .cnt h
  | ret v h => exact .ret v h
  | exc v h => exact .exc v h
  | tmo => exact .tmo
  | ub h o => exact .ub h _

theorem OutR.inLoop {k : St String W → Out (St String W)} {l : St Nat W → Out (St Nat W)}
    (h : OutR U E E o o') (hk : ∀ a b w, E a b → OutR U E E (k ⟨a, w⟩) (l ⟨b, w⟩)) :
    OutR U E E (o.inLoop k) (o'.inLoop l) := by
  cases h with
  | nrm h => exact hk _ _ _ h
  | brk h => exact .nrm h
  | cnt h => exact hk _ _ _ h
  | ret v h => exact .ret v h
  | exc v h => exact .exc v h
  | tmo => exact .tmo
  | ub h o => exact .ub h _

theorem OutR.ev {α : Type} {m m' : Act W α} {a : String → Option Val} {b : Nat → Option Val} {w : W}
    {k : α → St String W → Out (St String W)} {l : α → St Nat W → Out (St Nat W)}
    (hm : m' = m) (ho : Eo a b)
    (hk : ∀ v w', m w = (.ok v, w') → OutR U En Eo (k v ⟨a, w'⟩) (l v ⟨b, w'⟩)) :
    OutR U En Eo (Lower.ev m ⟨a, w⟩ k) (Lower.ev m' ⟨b, w⟩ l) := by
  subst hm
  unfold Lower.ev
  rcases h : m' w with ⟨x | v, w'⟩
  · exact .exc x ho
  · exact hk v w' h

theorem OutR.and {q : (String → Option Val) → Prop} {r : (Nat → Option Val) → Prop}
    (h : OutR U En Eo o o') (hq : o.All (EnvP q)) (hr : o'.All (EnvP r)) :
    OutR U (fun a b => En a b ∧ q a ∧ r b) (fun a b => Eo a b ∧ q a ∧ r b) o o' := by
  cases h with
  | nrm h => exact .nrm ⟨h, hq, hr⟩
  | brk h => exact .brk ⟨h, hq, hr⟩
  | cnt h => exact .cnt ⟨h, hq, hr⟩
  | ret v h => exact .ret v ⟨h, hq, hr⟩
  | exc v h => exact .exc v ⟨h, hq, hr⟩
  | tmo => exact .tmo
  | ub h o => exact .ub h _

theorem all_forall {S : Type} {ι : Type} {q : ι → S → Prop} {o : Out S} (h : ∀ k, o.All (q k)) :
    o.All fun s => ∀ k, q k s := by
  cases o <;> first | exact h | trivial

theorem all_true {S : Type} {q : S → Prop} (hq : ∀ s, q s) (o : Out S) : o.All q := by
  cases o <;> first | exact hq _ | trivial

end

theorem ev_congr {K α : Type} {m : Act W α} {s : St K W} {k l : α → St K W → Out (St K W)}
    (h : ∀ a w, m s.w = (.ok a, w) → k a ⟨s.env, w⟩ = l a ⟨s.env, w⟩) : ev m s k = ev m s l := by
  unfold ev
  rcases hm : m s.w with ⟨x | a, w⟩
  · rfl
  · exact h a w hm

theorem ev_bnd {K α β : Type} (m : Act W α) (g : α → Act W β) (s : St K W)
    (l : β → St K W → Out (St K W)) :
    ev (bnd m g) s l = ev m s fun a s' => ev (g a) s' l := by
  unfold ev bnd
  rcases m s.w with ⟨x | a, w⟩ <;> rfl

theorem ev_pur {K α : Type} (a : α) (s : St K W) (k : α → St K W → Out (St K W)) :
    ev (pur a) s k = k a s := rfl

/-! ## Scopes and variables -/

theorem EnvOk.mono {c c' : Scope} {a : String → Option Val} {b : Nat → Option Val}
    (h : EnvOk c' a b) (hs : ∀ p ∈ c, p ∈ c') : EnvOk c a b :=
  fun x id ty hm => h x id ty (hs _ hm)

theorem EnvOk.outer {inner outer : Scope} {a : String → Option Val} {b : Nat → Option Val}
    (h : EnvOk (inner ++ outer) a b) : EnvOk outer a b := h.mono fun p hp => by simp [hp]

/-- Variables after an assignment. -/
theorem EnvOk.set {c c' : Scope} {p : St String W} {i : St Nat W} {x : String} {id : Nat} {ty : Ty}
    {v : Val} (h : EnvOk c p.env i.env) (hv : HasTy ty v)
    (hc : ∀ q ∈ c', q = (x, id, ty) ∨ (q ∈ c ∧ q.1 ≠ x ∧ q.2.1 ≠ id)) :
    EnvOk c' (p.set x v).env (i.set id v).env := by
  intro y id' ty' hm
  rcases hc _ hm with e | ⟨h1, h2, h3⟩
  · cases e
    exact ⟨v, set_env_eq v, set_env_eq v, hv⟩
  · obtain ⟨u, u1, u2, u3⟩ := h y id' ty' h1
    exact ⟨u, by rw [set_env_ne v h2, u1], by rw [set_env_ne v h3, u2], u3⟩

/-- A new variable of the generated code disturbs nothing. -/
theorem EnvOk.fresh {c : Scope} {n : Nat} {a : String → Option Val} {b b' : Nat → Option Val}
    (h : EnvOk c a b) (hw : WF c n) (hb : ∀ k, k < n → b' k = b k) : EnvOk c a b' := by
  intro x id ty hm
  obtain ⟨v, h1, h2, h3⟩ := h x id ty hm
  exact ⟨v, h1, by rw [hb id (hw.2.2 _ hm), h2], h3⟩

theorem WF.other {c : Scope} {n : Nat} (h : WF c n) {x : String} {id : Nat} {ty : Ty}
    (hm : (x, id, ty) ∈ c) : ∀ q ∈ c, q = (x, id, ty) ∨ (q ∈ c ∧ q.1 ≠ x ∧ q.2.1 ≠ id) := by
  intro q hq
  by_cases hx : q.1 = x
  · left
    obtain ⟨y, id', ty'⟩ := q
    cases hx
    have h1 := lookup_of_mem h.1 hm
    have h2 := lookup_of_mem h.1 hq
    rw [h1] at h2
    cases h2
    rfl
  · refine .inr ⟨hq, hx, ?_⟩
    intro hid
    have hn : ∀ {l : Scope}, (l.map (·.2.1)).Nodup → ∀ p ∈ l, ∀ p' ∈ l, p.2.1 = p'.2.1 → p = p' := by
      intro l
      induction l with
      | nil => intro _ p hp; cases hp
      | cons a l ih =>
        intro hn p hp p' hp' e
        simp only [List.map_cons, List.nodup_cons] at hn
        rcases List.mem_cons.mp hp with rfl | hp1 <;> rcases List.mem_cons.mp hp' with rfl | hp2
        · rfl
        · exact absurd (List.mem_map.mpr ⟨_, hp2, e.symm⟩) hn.1
        · exact absurd (List.mem_map.mpr ⟨_, hp1, e⟩) hn.1
        · exact ih hn.2 p hp1 p' hp2 e
    have := hn h.2.1 q hq _ hm hid
    exact hx (by rw [this])

theorem rebind_other {outer inner : Scope} {n : Nat} {x : String} {ty : Ty}
    (hw : WF (inner ++ outer) n) (hx : ∀ p ∈ outer, p.1 ≠ x) :
    ∀ q ∈ rebind inner x n ty ++ outer,
      q = (x, n, ty) ∨ (q ∈ inner ++ outer ∧ q.1 ≠ x ∧ q.2.1 ≠ n) := by
  intro q hq
  have hlt : ∀ q ∈ inner ++ outer, q.2.1 ≠ n := fun q hq => Nat.ne_of_lt (hw.2.2 q hq)
  simp only [rebind, List.cons_append, List.mem_cons, List.mem_append] at hq
  rcases hq with rfl | hq | hq
  · exact .inl rfl
  · have h1 := List.mem_filter.mp hq
    have h2 : q ∈ inner ++ outer := List.mem_append_left _ h1.1
    exact .inr ⟨h2, by simpa using h1.2, hlt q h2⟩
  · have h2 : q ∈ inner ++ outer := List.mem_append_right _ hq
    exact .inr ⟨h2, hx q hq, hlt q h2⟩

section

variable {P : Prims W} {ord : List IExpr → List Nat} {unb : Val} {fuel : Nat}

theorem adapt_same {e : IExpr} {ty : Ty} (h : ty = .obj ∨ ty = typeOf P e) : adapt P e ty = e := by
  unfold adapt
  rcases h with rfl | rfl
  · cases typeOf P e <;> rfl
  · cases typeOf P e <;> rfl

theorem hasTy_of_good {b : Nat → Option Val} {ie : IExpr} {w w' : W} {v : Val} {ty : Ty}
    (hg : Good P ord b ie) (h : evalIR P ord b ie w = (.ok v, w'))
    (ht : ty = .obj ∨ ty = typeOf P ie) : HasTy ty v := by
  rcases ht with rfl | rfl
  · exact hasTy_obj v
  · exact hg.1 w v w' h

theorem assignVar_sim {outer inner inner' : Scope} {n n' : Nat} {x : String} {ie : IExpr}
    {is : IStmt} {a : String → Option Val} {b : Nat → Option Val} {w : W} {m : Act W Val}
    (h : assignVar P outer inner n x ie = some (is, inner', n'))
    (hs : safeTarget P (inner ++ outer) ie (.name x) = true) (hw : WF (inner ++ outer) n)
    (he : EnvOk (inner ++ outer) a b) (hg : Good P ord b ie) (hm : evalIR P ord b ie = m)
    (cur : Option Val) :
    OutR U (EnvOk (inner' ++ outer)) (EnvOk outer)
      (ev m ⟨a, w⟩ fun v s => .nrm (s.set x v)) (execIR P ord fuel is cur ⟨b, w⟩) := by
  have key : ∀ (id : Nat) (ty : Ty) (inner1 : Scope), (ty = .obj ∨ ty = typeOf P ie) →
      (∀ q ∈ inner1 ++ outer, q = (x, id, ty) ∨ (q ∈ inner ++ outer ∧ q.1 ≠ x ∧ q.2.1 ≠ id)) →
      OutR U (EnvOk (inner1 ++ outer)) (EnvOk outer)
        (ev m ⟨a, w⟩ fun v s => .nrm (s.set x v))
        (execIR P ord fuel (.setVar id ie) cur ⟨b, w⟩) := by
    intro id ty inner1 ht hc
    simp only [execIR]
    refine OutR.ev hm he.outer fun v w' hv => ?_
    rw [← hm] at hv
    exact .nrm (EnvOk.set (p := ⟨a, w'⟩) (i := ⟨b, w'⟩) he (hasTy_of_good hg hv ht) hc)
  unfold assignVar at h
  split at h
  · rename_i hl
    simp only [Option.some.injEq, Prod.mk.injEq] at h
    obtain ⟨rfl, rfl, rfl⟩ := h
    exact key n (typeOf P ie) _ (.inr rfl)
      (rebind_other hw fun p hp => lookup_none hl p (by simp [hp]))
  · rename_i id ty hl
    simp only [safeTarget, hl, Bool.or_eq_true, Bool.not_eq_true', decide_eq_true_eq] at hs
    split at h
    · rename_i hcv
      simp only [Option.some.injEq, Prod.mk.injEq] at h
      obtain ⟨rfl, rfl, rfl⟩ := h
      have ht : ty = .obj ∨ ty = typeOf P ie := by
        rcases hs with (h | h) | h
        · rw [hcv] at h; cases h
        · exact .inl h
        · exact .inr h
      rw [adapt_same ht]
      exact key id ty inner ht (hw.other (lookup_mem hl))
    · split at h
      · rename_i hin
        simp only [Option.some.injEq, Prod.mk.injEq] at h
        obtain ⟨rfl, rfl, rfl⟩ := h
        exact key n (typeOf P ie) _ (.inr rfl) (rebind_other hw (outer_ne_of_inner hw hin))
      · cases h

theorem okArgs_snoc {l : List IExpr} {e : IExpr} (h : okArgs P (l ++ [e]) = true) :
    (∀ x ∈ l, stable P x = true) ∨ stable P e = true := by
  cases hs : stable P e with
  | true => exact .inr rfl
  | false =>
    left
    simp only [okArgs, List.filter_append, List.length_append, hs] at h
    have h1 : (List.filter (fun e => !stable P e) [e]).length = 1 := by simp [hs]
    rw [h1] at h
    have h2 : (l.filter fun e => !stable P e) = [] := by
      apply List.eq_nil_of_length_eq_zero
      have := of_decide_eq_true h
      omega
    intro x hx
    simpa using List.filter_eq_nil_iff.mp h2 x hx

theorem quiet_map {b : Nat → Option Val} {l : List IExpr} (hg : ∀ x ∈ l, Good P ord b x)
    (hs : ∀ x ∈ l, stable P x = true) : Quiet (runSeq (l.map (evalIR P ord b))) := by
  apply quiet_runSeq
  intro m hm
  obtain ⟨x, hx, rfl⟩ := List.mem_map.mp hm
  exact (hg x hx).2 (hs x hx)

theorem assignTarget_sim (hP : PrimsOk P) (ho : OrdOk ord) {outer inner inner' : Scope} {n n' : Nat}
    {t : Target} {ie : IExpr}
    {is : IStmt} {a : String → Option Val} {b : Nat → Option Val} {w : W} {m : Act W Val}
    (h : assignTarget P outer inner n ie t = some (is, inner', n'))
    (hs : safeTarget P (inner ++ outer) ie t = true) (hw : WF (inner ++ outer) n)
    (he : EnvOk (inner ++ outer) a b) (hg : Good P ord b ie) (hm : evalIR P ord b ie = m)
    (cur : Option Val) :
    OutR U (EnvOk (inner' ++ outer)) (EnvOk outer)
      (ev m ⟨a, w⟩ fun v s => pyStore P unb s v t) (execIR P ord fuel is cur ⟨b, w⟩) := by
  cases t with
  | name x => exact assignVar_sim h hs hw he hg hm cur
  | store f args =>
    simp only [assignTarget] at h
    obtain ⟨l, hl, e⟩ := Option.map_eq_some_iff.mp h
    simp only [Prod.mk.injEq] at e
    obtain ⟨rfl, rfl, rfl⟩ := e
    simp only [safeTarget, hl, Bool.and_eq_true] at hs
    obtain ⟨h1, h2⟩ := simL hP ho unb he args l hl hs.1
    have hg' : ∀ x ∈ l ++ [ie], Good P ord b x := by
      intro x hx
      rcases List.mem_append.mp hx with hx | hx
      · exact h2 x hx
      · rw [List.mem_singleton.mp hx]; exact hg
    have hpy : (ev m ⟨a, w⟩ fun v s => pyStore P unb s v (.store f args)) =
        ev (bnd m fun v => bnd (evalPyL P unb a args) fun vs => P.call f (vs ++ [v])) ⟨a, w⟩
          fun _ s => .nrm s := by
      rw [ev_bnd]
      refine ev_congr fun v w' _ => ?_
      rw [ev_bnd]
      rfl
    rw [hpy]
    simp only [execIR]
    refine OutR.ev ?_ he.outer fun v w' _ => .nrm he
    rw [evalIR_call ho hg' hs.2, List.map_append, runSeq_append, h1, evalPyL_eq]
    simp only [List.map, hm, runSeq, bnd_assoc, bnd_pur]
    refine (bnd_swap _ _ (fun v vs => P.call f (vs ++ [v])) ?_).symm
    rcases okArgs_snoc hs.2 with h | h
    · right
      rw [← h1]
      exact quiet_map h2 h
    · left
      rw [← hm]
      exact hg.2 h

/-! ## Simultaneous assignment -/

/-- The part of a scope below `m` is the scope before. -/
def Ext (m : Nat) (c c' : Scope) : Prop := ∀ p ∈ c', p.2.1 < m → p ∈ c

theorem assignTarget_ext {outer inner inner' : Scope} {n n' : Nat} {t : Target} {ie : IExpr}
    {is : IStmt} (h : assignTarget P outer inner n ie t = some (is, inner', n')) :
    ∀ p ∈ inner', p ∈ inner ∨ n ≤ p.2.1 := by
  have key : ∀ x ty, ∀ p ∈ rebind inner x n ty, p ∈ inner ∨ n ≤ p.2.1 := by
    intro x ty p hp
    simp only [rebind, List.mem_cons] at hp
    rcases hp with rfl | hp
    · exact .inr (Nat.le_refl _)
    · exact .inl (List.mem_filter.mp hp).1
  cases t with
  | name x =>
    simp only [assignTarget, assignVar] at h
    split at h
    · simp only [Option.some.injEq, Prod.mk.injEq] at h
      obtain ⟨_, rfl, _⟩ := h
      exact key _ _
    · split at h
      · simp only [Option.some.injEq, Prod.mk.injEq] at h
        obtain ⟨_, rfl, _⟩ := h
        exact fun p hp => .inl hp
      · split at h
        · simp only [Option.some.injEq, Prod.mk.injEq] at h
          obtain ⟨_, rfl, _⟩ := h
          exact key _ _
        · cases h
  | store f args =>
    simp only [assignTarget] at h
    obtain ⟨l, hl, e⟩ := Option.map_eq_some_iff.mp h
    simp only [Prod.mk.injEq] at e
    obtain ⟨_, rfl, _⟩ := e
    exact fun p hp => .inl hp

theorem usesFromL_append (m : Nat) : ∀ l l' : List IExpr,
    usesFromL m (l ++ l') = (usesFromL m l || usesFromL m l')
  | [], l' => by simp [usesFromL]
  | e :: l, l' => by simp [usesFromL, usesFromL_append m l l', Bool.or_assoc]

theorem usesFromL_all (m : Nat) : ∀ l : List IExpr,
    usesFromL m l = false ↔ ∀ e ∈ l, usesFrom m e = false
  | [] => by simp [usesFromL]
  | e :: l => by simp [usesFromL, usesFromL_all m l]

theorem usesFrom_foldl {m : Nat} {g : IExpr → IExpr → IExpr}
    (hg : ∀ a b, usesFrom m (g a b) = (usesFrom m a || usesFrom m b)) :
    ∀ (l : List IExpr) (a : IExpr), usesFrom m (l.foldl g a) = (usesFrom m a || usesFromL m l)
  | [], a => by simp [usesFromL]
  | e :: l, a => by
    rw [List.foldl_cons, usesFrom_foldl hg l, hg, usesFromL, Bool.or_assoc]

theorem usesFrom_boolTree {m : Nat} {isAnd : Bool} {l : List IExpr} {r : IExpr}
    (h : boolTree P isAnd l = some r) : usesFrom m r = usesFromL m l := by
  cases l with
  | nil => simp [boolTree] at h
  | cons a l =>
  cases l with
  | nil => simp [boolTree] at h
  | cons b l =>
    unfold boolTree at h
    generalize ((a :: b :: l).all fun e => typeOf P e = .bool) = prim at h
    cases prim <;> cases isAnd <;> simp only [Option.some.injEq] at h <;> subst h <;>
      rw [usesFrom_foldl (fun a b => by simp [usesFrom])] <;>
      simp [usesFrom, usesFromL, Bool.or_assoc]

theorem usesFrom_pairCalls {m : Nat} : ∀ (ops : List Cmp) (a : IExpr) (es : List IExpr),
    (∀ op ∈ ops, ∃ f, op = .rel f) → ops.length = es.length →
    usesFromL m (pairCalls ops (a :: es)) = false → ops ≠ [] → usesFromL m (a :: es) = false
  | [], _, _, _, _, _, h => absurd rfl h
  | op :: ops, a, [], _, hl, _, _ => by simp at hl
  | op :: ops, a, b :: es, hr, hl, hu, _ => by
    obtain ⟨f, rfl⟩ := hr op (by simp)
    simp only [pairCalls, usesFromL, usesFrom, Bool.or_eq_false_iff] at hu
    cases ops with
    | nil =>
      have : es = [] := by
        apply List.eq_nil_of_length_eq_zero
        simpa using hl.symm
      subst this
      simp [usesFromL, hu]
    | cons op' ops =>
      have ih := usesFrom_pairCalls (op' :: ops) b es (fun o h => hr o (List.mem_cons_of_mem _ h))
        (by simpa using hl) hu.2 (by simp)
      rw [usesFromL, hu.1.1, Bool.false_or]
      exact ih

theorem usesFrom_cmpTree {m : Nat} {ops : List Cmp} {l l' : List IExpr} {r : IExpr}
    (h : cmpTree P ops l = some r) (hu : usesFrom m r = false) (hok : okCmp P ops l' = true)
    (hl : l.length = l'.length) : usesFromL m l = false := by
  unfold okCmp at hok
  split at hok
  · rename_i op a' b'
    obtain ⟨a, b, rfl⟩ : ∃ a b, l = [a, b] := by
      match l, hl with
      | [a, b], _ => exact ⟨a, b, rfl⟩
    cases op <;> simp only [cmpTree, cmpList, Option.some.injEq] at h <;> subst h <;>
      simp_all [usesFrom, usesFromL]
  · simp only [Bool.and_eq_true, decide_eq_true_eq, List.all_eq_true] at hok
    obtain ⟨⟨hl', _⟩, hr⟩ := hok
    have hrel : ∀ op ∈ ops, ∃ f, op = .rel f := by
      intro op hop
      have := hr op hop
      cases op with
      | rel f => exact ⟨f, rfl⟩
      | isIn => simp at this
      | notIn => simp at this
    have hl2 : ops.length + 1 = l.length := by omega
    rw [cmpTree, cmpList_rel ops l hrel hl2] at h
    cases l with
    | nil => simp at hl2
    | cons a es =>
      have hne : ops ≠ [] := by
        rintro rfl
        simp [pairCalls, boolTree] at h
      apply usesFrom_pairCalls ops a es hrel (by simpa using hl2) ?_ hne
      generalize hp : pairCalls ops (a :: es) = q at h ⊢
      match q, h with
      | [e], h =>
        simp only [Option.some.injEq] at h
        subst h
        simp [usesFromL, hu]
      | [], h => simp [boolTree] at h
      | e :: e' :: q, h =>
        rw [← usesFrom_boolTree (P := P) (isAnd := true) h]
        exact hu

mutual

/-- An element of a simultaneous assignment means the same in the scope before the statement. -/
theorem lowerE_ext {m : Nat} {c c' : Scope} (hx : Ext m c c') (hn : (c.map (·.1)).Nodup) :
    ∀ (e : Expr) (ie : IExpr), lowerE P c' e = some ie → usesFrom m ie = false →
      safeE P c e = true → lowerE P c e = some ie
  | .const v, ie, h, _, _ => by simpa only [lowerE] using h
  | .name x, ie, h, hu, _ => by
    simp only [lowerE] at h ⊢
    obtain ⟨⟨id, ty⟩, hl, rfl⟩ := Option.map_eq_some_iff.mp h
    have hid : id < m := by simpa [usesFrom] using hu
    rw [lookup_of_mem hn (hx _ (lookup_mem hl) hid)]
    rfl
  | .tup es, ie, h, hu, hs => by
    simp only [lowerE] at h ⊢
    obtain ⟨l, hl, rfl⟩ := Option.map_eq_some_iff.mp h
    simp only [safeE, Bool.and_eq_true] at hs
    rw [lowerL_ext hx hn es l hl (by simpa [usesFrom] using hu) hs.1]
    rfl
  | .call f es, ie, h, hu, hs => by
    simp only [lowerE] at h ⊢
    obtain ⟨l, hl, rfl⟩ := Option.map_eq_some_iff.mp h
    simp only [safeE, Bool.and_eq_true] at hs
    rw [lowerL_ext hx hn es l hl (by simpa [usesFrom] using hu) hs.1]
    rfl
  | .boolop isAnd es, ie, h, hu, hs => by
    simp only [lowerE] at h ⊢
    obtain ⟨l, hl, h⟩ := Option.bind_eq_some_iff.mp h
    simp only [safeE, Bool.and_eq_true] at hs
    rw [usesFrom_boolTree h] at hu
    rw [lowerL_ext hx hn es l hl hu hs.1]
    exact h
  | .compare ops es, ie, h, hu, hs => by
    simp only [lowerE] at h ⊢
    obtain ⟨l, hl, h⟩ := Option.bind_eq_some_iff.mp h
    simp only [safeE, Bool.and_eq_true] at hs
    obtain ⟨hs1, hs2⟩ := hs
    cases hl' : lowerL P c es with
    | none => rw [hl'] at hs2; cases hs2
    | some l' =>
      rw [hl'] at hs2
      have hlen : l.length = l'.length := by
        rw [lowerL_length P c' es l hl, lowerL_length P c es l' hl']
      have := usesFrom_cmpTree h hu hs2 hlen
      have := lowerL_ext hx hn es l hl this hs1
      rw [hl'] at this
      cases this
      exact h
  | .notE e, ie, h, hu, hs => by
    simp only [lowerE] at h ⊢
    obtain ⟨a, ha, rfl⟩ := Option.map_eq_some_iff.mp h
    simp only [safeE, Bool.and_eq_true] at hs
    have hu' : usesFrom m a = false := by
      split at hu <;> simpa [usesFrom] using hu
    rw [lowerE_ext hx hn e a ha hu' hs.1]
    rfl
  | .ifE b t f, ie, h, hu, hs => by
    simp only [lowerE] at h ⊢
    split at h
    · rename_i b' t' f' hb ht hf
      split at h
      · cases h
      · rename_i hno
        simp only [Option.some.injEq] at h
        subst h
        simp only [safeE, Bool.and_eq_true] at hs
        simp only [usesFrom, Bool.or_eq_false_iff] at hu
        rw [lowerE_ext hx hn b b' hb hu.1.1 hs.1.1, lowerE_ext hx hn t t' ht hu.1.2 hs.1.2,
          lowerE_ext hx hn f f' hf hu.2 hs.2]
        simp only [if_neg hno]
    · cases h
  | .boolE e, ie, h, hu, hs => by
    simp only [lowerE] at h ⊢
    obtain ⟨a, ha, rfl⟩ := Option.map_eq_some_iff.mp h
    simp only [safeE] at hs
    rw [lowerE_ext hx hn e a ha (by simpa [usesFrom] using hu) hs]
    rfl

theorem lowerL_ext {m : Nat} {c c' : Scope} (hx : Ext m c c') (hn : (c.map (·.1)).Nodup) :
    ∀ (es : List Expr) (l : List IExpr), lowerL P c' es = some l → usesFromL m l = false →
      safeL P c es = true → lowerL P c es = some l
  | [], l, h, _, _ => by simpa only [lowerL] using h
  | e :: es, l, h, hu, hs => by
    simp only [lowerL] at h ⊢
    split at h
    · rename_i a as ha has
      simp only [Option.some.injEq] at h
      subst h
      simp only [safeL, Bool.and_eq_true] at hs
      simp only [usesFromL, Bool.or_eq_false_iff] at hu
      rw [lowerE_ext hx hn e a ha hu.1 hs.1, lowerL_ext hx hn es as has hu.2 hs.2]
    · cases h

end

/-- The values of the right-hand side are in the new variables. -/
def Temps (P : Prims W) (outer : Scope) : List Target → List Expr → Scope → Nat →
    (Nat → Option Val) → List Val → Prop
  | [], [], _, _, _, [] => True
  | t :: ts, e :: es, inner, n, env, v :: vs => ∃ ie, lowerE P (inner ++ outer) e = some ie ∧
      env n = some v ∧ HasTy (typeOf P ie) v ∧
      ∃ a inner1 n1, assignTarget P outer inner (n + 1) (.var n (typeOf P ie)) t =
        some (a, inner1, n1) ∧ Temps P outer ts es inner1 n1 env vs
  | _, _, _, _, _, _ => False

theorem Temps.congr {outer : Scope} : ∀ (ts : List Target) (es : List Expr) (inner : Scope) (n : Nat)
    (env env' : Nat → Option Val) (vs : List Val), WF (inner ++ outer) n →
    (∀ k, n ≤ k → env' k = env k) → Temps P outer ts es inner n env vs →
    Temps P outer ts es inner n env' vs
  | [], [], _, _, _, _, [], _, _, _ => trivial
  | t :: ts, e :: es, inner, n, env, env', v :: vs, hw, hk, h => by
    obtain ⟨ie, h1, h2, h3, a, inner1, n1, h4, h5⟩ := h
    have hs := assignTarget_step h4 (hw.mono (Nat.le_succ n))
    have hle := hs.le
    exact ⟨ie, h1, by rw [hk n (Nat.le_refl _), h2], h3, a, inner1, n1, h4,
      Temps.congr ts es inner1 n1 env env' vs hs.wf (fun k hk' => hk k (by omega)) h5⟩
  | [], [], _, _, _, _, _ :: _, _, _, h => h.elim
  | [], _ :: _, _, _, _, _, _, _, _, h => by cases h
  | _ :: _, [], _, _, _, _, _, _, _, h => by cases h
  | _ :: _, _ :: _, _, _, _, _, [], _, _, h => h.elim

theorem unroll_eval (hP : PrimsOk P) (ho : OrdOk ord) {c outer : Scope} {m : Nat} (hc : WF c m)
    {a : String → Option Val} (cur : Option Val) :
    ∀ (ts : List Target) (es : List Expr) (inner : Scope) (n : Nat) (s1 s2 : IStmt)
      (inner' : Scope) (n' : Nat) (b : Nat → Option Val) (w : W),
    unroll P outer m ts es inner n = some (s1, s2, inner', n') →
    safeUnroll P c outer ts es inner n = true → m ≤ n → Ext m c (inner ++ outer) →
    WF (inner ++ outer) n → EnvOk c a b →
    (∀ vs w', runSeq (es.map (evalPy P unb a)) w = (.ok vs, w') →
      ∃ b', execIR P ord fuel s1 cur ⟨b, w⟩ = .nrm ⟨b', w'⟩ ∧ (∀ k, k < n → b' k = b k) ∧
        Temps P outer ts es inner n b' vs) ∧
    (∀ x w', runSeq (es.map (evalPy P unb a)) w = (.error x, w') →
      ∃ b', execIR P ord fuel s1 cur ⟨b, w⟩ = .exc x ⟨b', w'⟩ ∧ (∀ k, k < n → b' k = b k))
  | [], [], inner, n, s1, s2, inner', n', b, w, h, _, _, _, _, _ => by
    simp only [unroll, Option.some.injEq, Prod.mk.injEq] at h
    obtain ⟨rfl, rfl, rfl, rfl⟩ := h
    refine ⟨fun vs w' hv => ?_, fun x w' hv => ?_⟩
    · simp only [List.map_nil, runSeq, pur, Prod.mk.injEq, Except.ok.injEq] at hv
      obtain ⟨rfl, rfl⟩ := hv
      exact ⟨b, by simp [execIR], fun _ _ => rfl, trivial⟩
    · simp [runSeq, pur] at hv
  | t :: ts, e :: es, inner, n, s1, s2, inner', n', b, w, h, hs, hmn, hx, hw, he => by
    simp only [unroll] at h
    split at h
    · cases h
    · rename_i ie hie
      split at h
      · cases h
      · rename_i hu
        have hu : usesFrom m ie = false := by simpa using hu
        split at h
        · cases h
        · rename_i ia inner1 n1 ha
          split at h
          · cases h
          · rename_i r1 r2 inner2 n2 hr
            simp only [Option.some.injEq, Prod.mk.injEq] at h
            obtain ⟨rfl, rfl, rfl, rfl⟩ := h
            simp only [safeUnroll, Bool.and_eq_true] at hs
            obtain ⟨hs1, hs2⟩ := hs
            have hic := lowerE_ext hx hc.1 e ie hie hu hs1
            rw [hic] at hs2
            simp only [ha, Bool.and_eq_true] at hs2
            have hstep := assignTarget_step ha (hw.mono (Nat.le_succ n))
            have hle := hstep.le
            have hx1 : Ext m c (inner1 ++ outer) := by
              intro p hp hlt
              rcases List.mem_append.mp hp with hp | hp
              · rcases assignTarget_ext ha p hp with h | h
                · exact hx p (by simp [h]) hlt
                · omega
              · exact hx p (by simp [hp]) hlt
            obtain ⟨hev, hgood⟩ := simE hP ho unb he e ie hic hs1
            have rest : ∀ v w1, evalPy P unb a e w = (.ok v, w1) →
                execIR P ord fuel (.seq (.setVar n ie) r1) cur ⟨b, w⟩ =
                  execIR P ord fuel r1 cur ⟨fun k => if k = n then some v else b k, w1⟩ := by
              intro v w1 hv
              simp only [execIR, ev, hev, hv, Out.andThen, St.set]
            have ih := fun v w1 => unroll_eval hP ho hc (a := a) cur ts es inner1 n1 r1 r2 _ _
              (fun k => if k = n then some v else b k) w1 hr hs2.2 (by omega) hx1 hstep.wf
              (he.fresh hc fun k hk => by simp [show k ≠ n by omega])
            refine ⟨fun vs w' hv => ?_, fun x w' hv => ?_⟩
            · simp only [List.map_cons, runSeq] at hv
              obtain ⟨v, w1, h1, h2⟩ := bnd_ok hv
              obtain ⟨vs', w2, h3, h4⟩ := bnd_ok h2
              simp only [pur, Prod.mk.injEq, Except.ok.injEq] at h4
              obtain ⟨rfl, rfl⟩ := h4
              obtain ⟨b', e1, e2, e3⟩ := (ih v w1).1 vs' w2 h3
              refine ⟨b', by rw [rest v w1 h1, e1], fun k hk => ?_, ie, hie, ?_, ?_, ia, inner1, n1,
                ha, e3⟩
              · rw [e2 k (by omega)]; simp [show k ≠ n by omega]
              · rw [e2 n (by omega)]; simp
              · exact hgood.1 w v w1 (by rw [hev]; exact h1)
            · simp only [List.map_cons, runSeq, bnd] at hv
              rcases h1 : evalPy P unb a e w with ⟨y | v, w1⟩
              · rw [h1] at hv
                simp only [Prod.mk.injEq, Except.error.injEq] at hv
                obtain ⟨rfl, rfl⟩ := hv
                exact ⟨b, by simp only [execIR, ev, hev, h1, Out.andThen], fun _ _ => rfl⟩
              · rw [h1] at hv
                rcases h2 : runSeq (es.map (evalPy P unb a)) w1 with ⟨y | vs, w2⟩
                · simp only [h2] at hv
                  simp only [Prod.mk.injEq, Except.error.injEq] at hv
                  obtain ⟨rfl, rfl⟩ := hv
                  obtain ⟨b', e1, e2⟩ := (ih v w1).2 y w2 h2
                  refine ⟨b', by rw [rest v w1 h1, e1], fun k hk => ?_⟩
                  rw [e2 k (by omega)]; simp [show k ≠ n by omega]
                · simp only [h2] at hv
                  simp [pur] at hv
  | [], _ :: _, _, _, _, _, _, _, _, _, h, _, _, _, _, _ => by simp [unroll] at h
  | _ :: _, [], _, _, _, _, _, _, _, _, h, _, _, _, _, _ => by simp [unroll] at h

theorem unroll_store (hP : PrimsOk P) (ho : OrdOk ord) {c outer : Scope} {m : Nat} (hc : WF c m)
    (cur : Option Val) :
    ∀ (ts : List Target) (es : List Expr) (inner : Scope) (n : Nat) (s1 s2 : IStmt)
      (inner' : Scope) (n' : Nat) (a : String → Option Val) (b : Nat → Option Val) (w : W)
      (vs : List Val),
    unroll P outer m ts es inner n = some (s1, s2, inner', n') →
    safeUnroll P c outer ts es inner n = true → m ≤ n → Ext m c (inner ++ outer) →
    WF (inner ++ outer) n → EnvOk (inner ++ outer) a b → Temps P outer ts es inner n b vs →
    OutR U (EnvOk (inner' ++ outer)) (EnvOk outer) (pyStoreL P unb ts vs ⟨a, w⟩)
      (execIR P ord fuel s2 cur ⟨b, w⟩)
  | [], [], inner, n, s1, s2, inner', n', a, b, w, vs, h, _, _, _, _, he, _ => by
    simp only [unroll, Option.some.injEq, Prod.mk.injEq] at h
    obtain ⟨rfl, rfl, rfl, rfl⟩ := h
    simp only [pyStoreL, execIR]
    exact .nrm he
  | t :: ts, e :: es, inner, n, s1, s2, inner', n', a, b, w, [], _, _, _, _, _, _, hT => hT.elim
  | t :: ts, e :: es, inner, n, s1, s2, inner', n', a, b, w, v :: vs, h, hs, hmn, hx, hw, he, hT => by
    simp only [unroll] at h
    split at h
    · cases h
    · rename_i ie hie
      split at h
      · cases h
      · rename_i hu
        have hu : usesFrom m ie = false := by simpa using hu
        split at h
        · cases h
        · rename_i ia inner1 n1 ha
          split at h
          · cases h
          · rename_i r1 r2 inner2 n2 hr
            simp only [Option.some.injEq, Prod.mk.injEq] at h
            obtain ⟨rfl, rfl, rfl, rfl⟩ := h
            simp only [safeUnroll, Bool.and_eq_true] at hs
            obtain ⟨hs1, hs2⟩ := hs
            have hic := lowerE_ext hx hc.1 e ie hie hu hs1
            rw [hic] at hs2
            simp only [ha, Bool.and_eq_true] at hs2
            have hstep := assignTarget_step ha (hw.mono (Nat.le_succ n))
            have hle := hstep.le
            have hx1 : Ext m c (inner1 ++ outer) := by
              intro p hp hlt
              rcases List.mem_append.mp hp with hp | hp
              · rcases assignTarget_ext ha p hp with h | h
                · exact hx p (by simp [h]) hlt
                · omega
              · exact hx p (by simp [hp]) hlt
            obtain ⟨ie', hie', hbn, hty, ia', inner1', n1', ha', hT'⟩ := hT
            rw [hie] at hie'
            cases hie'
            rw [ha] at ha'
            cases ha'
            have hq : evalIR P ord b (.var n (typeOf P ie)) = pur v := by simp [evalIR, hbn]
            have hgood : Good P ord b (.var n (typeOf P ie)) :=
              ⟨by rw [hq]; exact typed_pur hty, fun _ => ⟨v, hq⟩⟩
            have hsim := assignTarget_sim (U := U) (unb := unb) (fuel := fuel) (w := w) hP ho ha hs2.1
              (hw.mono (Nat.le_succ n)) he hgood hq cur
            rw [ev_pur] at hsim
            have hframe : (execIR P ord fuel ia cur ⟨b, w⟩).All
                (EnvP fun b' => ∀ k : {k // n1 ≤ k}, b' k.1 = b k.1) := by
              refine all_forall fun k => ?_
              refine ir_frame P ord fuel ia ?_ cur ⟨b, w⟩ rfl
              intro hk
              have := (hstep.writes k.1 hk).2
              have := k.2
              omega
            have hboth := hsim.and (q := fun _ => True) (all_true (fun _ => trivial) _) hframe
            simp only [pyStoreL, execIR]
            refine OutR.andThen (hboth.mono (fun a b h => h) (fun a b h => h.1)) ?_
            intro a' b' w' hab
            exact unroll_store hP ho hc cur ts es inner1 n1 r1 r2 _ _ a' b' w' vs hr hs2.2
              (by omega) hx1 hstep.wf hab.1
              (Temps.congr ts es inner1 n1 b b' vs hstep.wf (fun k hk => hab.2.2 ⟨k, hk⟩) hT')
  | [], _ :: _, _, _, _, _, _, _, _, _, _, _, h, _, _, _, _, _, _ => by simp [unroll] at h
  | _ :: _, [], _, _, _, _, _, _, _, _, _, _, h, _, _, _, _, _, _ => by simp [unroll] at h

end

end Verif.Lower
