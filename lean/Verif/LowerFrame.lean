import Verif.LowerExpr

/-! Which variables statements leave alone, in Python and in generated code, and the shape of the
scopes. -/

namespace Verif.Lower

variable {W : Type}

/-! ## Frames -/

/-- Every state the outcome carries satisfies `p`. -/
def Out.All {S : Type} (p : S → Prop) : Out S → Prop
  | .nrm s => p s
  | .brk s => p s
  | .cnt s => p s
  | .ret _ s => p s
  | .exc _ s => p s
  | .tmo => True
  | .ub => True

section

variable {S : Type} {p : S → Prop}

theorem all_andThen {o : Out S} {k : S → Out S} (h : o.All p) (hk : ∀ s, p s → (k s).All p) :
    (o.andThen k).All p := by
  cases o <;> first | exact hk _ h | exact h

theorem all_inLoop {o : Out S} {k : S → Out S} (h : o.All p) (hk : ∀ s, p s → (k s).All p) :
    (o.inLoop k).All p := by
  cases o <;> first | exact hk _ h | exact h

theorem all_finally {o : Out S} {k : S → Out S} (h : o.All p) (hk : ∀ s, p s → (k s).All p) :
    (o.finally k).All p := by
  cases o <;> first | exact all_andThen (hk _ h) fun s hs => hs | exact h

end

section

variable {K : Type}

/-- A property of the local variables alone. -/
def EnvP (q : (K → Option Val) → Prop) (s : St K W) : Prop := q s.env

variable {q : (K → Option Val) → Prop}

theorem all_ev {α : Type} {m : Act W α} {s : St K W} {k : α → St K W → Out (St K W)}
    (h : q s.env) (hk : ∀ a s', s'.env = s.env → (k a s').All (EnvP q)) :
    (ev m s k).All (EnvP q) := by
  unfold ev
  split
  · exact hk _ _ rfl
  · exact h

theorem all_whileLoop {test : St K W → Act W Bool} {body : St K W → Out (St K W)}
    (hb : ∀ s, q s.env → (body s).All (EnvP q)) : ∀ (n : Nat) (s : St K W), q s.env →
      (whileLoop test body n s).All (EnvP q)
  | 0, _, _ => trivial
  | n + 1, s, h => by
    unfold whileLoop
    refine all_ev h fun b s' e => ?_
    split
    · exact all_inLoop (hb _ (e ▸ h)) fun s hs => all_whileLoop hb n s hs
    · show q s'.env
      exact e ▸ h

end

theorem all_elseLoop {q : (String → Option Val) → Prop} {test : St String W → Act W Bool}
    {body orelse : St String W → Out (St String W)}
    (hb : ∀ s, q s.env → (body s).All (EnvP q)) (hf : ∀ s, q s.env → (orelse s).All (EnvP q)) :
    ∀ (n : Nat) (s : St String W), q s.env → (execPy.elseLoop test body orelse n s).All (EnvP q)
  | 0, _, _ => trivial
  | n + 1, s, h => by
    unfold execPy.elseLoop
    refine all_ev h fun b s' e => ?_
    split
    · exact all_inLoop (hb _ (e ▸ h)) fun s hs => all_elseLoop hb hf n s hs
    · exact hf _ (e ▸ h)

theorem all_elseFor {q : (String → Option Val) → Prop}
    {body : Int → St String W → Out (St String W)} {orelse : St String W → Out (St String W)}
    (hb : ∀ i s, q s.env → (body i s).All (EnvP q))
    (hf : ∀ s, q s.env → (orelse s).All (EnvP q)) :
    ∀ (n : Nat) (l : List Int) (s : St String W), q s.env →
      (execPy.elseFor body orelse n l s).All (EnvP q)
  | 0, [], s, h => by unfold execPy.elseFor; exact hf s h
  | _ + 1, [], s, h => by unfold execPy.elseFor; exact hf s h
  | 0, _ :: _, _, _ => trivial
  | n + 1, i :: is, s, h => by
    unfold execPy.elseFor
    exact all_inLoop (hb _ _ h) fun s hs => all_elseFor hb hf n is s hs

theorem all_elseItems {q : (String → Option Val) → Prop} {items : W → Option (List Val)}
    {body : Val → St String W → Out (St String W)} {orelse : St String W → Out (St String W)}
    (hb : ∀ i s, q s.env → (body i s).All (EnvP q))
    (hf : ∀ s, q s.env → (orelse s).All (EnvP q)) :
    ∀ (n : Nat) (k : Nat) (s : St String W), q s.env →
      (execPy.elseItems items body orelse n k s).All (EnvP q)
  | 0, k, s, h => by
    unfold execPy.elseItems
    split
    · exact h
    · split
      · exact hf s h
      · trivial
  | n + 1, k, s, h => by
    unfold execPy.elseItems
    split
    · exact h
    · split
      · exact hf s h
      · exact all_inLoop (hb _ _ h) fun s hs => all_elseItems hb hf n (k + 1) s hs

theorem all_forLoop {P : Prims W} {ord : List IExpr → List Nat} {stop step : IExpr}
    {q : (Nat → Option Val) → Prop} {body : Int → St Nat W → Out (St Nat W)}
    (hb : ∀ i s, q s.env → (body i s).All (EnvP q)) :
    ∀ (n : Nat) (t : Int) (s : St Nat W), q s.env →
      (forLoop P ord stop step body n t s).All (EnvP q)
  | 0, t, s, h => by
    unfold forLoop
    refine all_ev h fun b s' e => ?_
    split
    · trivial
    · show q s'.env
      exact e ▸ h
  | n + 1, t, s, h => by
    unfold forLoop
    refine all_ev h fun b s' e => ?_
    split
    · refine all_inLoop (hb _ _ (e ▸ h)) fun s hs => ?_
      refine all_ev hs fun d s'' e' => ?_
      split
      · exact all_forLoop hb n _ _ (e' ▸ hs)
      · trivial
    · show q s'.env
      exact e ▸ h

theorem all_iterLoop {q : (Nat → Option Val) → Prop} {items : W → Option (List Val)} {len : Nat}
    {body : Val → St Nat W → Out (St Nat W)}
    (hb : ∀ i s, q s.env → (body i s).All (EnvP q)) :
    ∀ (n : Nat) (k : Nat) (s : St Nat W), q s.env →
      (iterLoop items len body n k s).All (EnvP q)
  | 0, k, s, h => by
    unfold iterLoop
    split
    · trivial
    · split
      · trivial
      · split
        · exact h
        · trivial
  | n + 1, k, s, h => by
    unfold iterLoop
    split
    · trivial
    · split
      · trivial
      · split
        · exact h
        · exact all_inLoop (hb _ _ h) fun s hs => all_iterLoop hb n (k + 1) s hs

theorem set_env_ne {K : Type} [DecidableEq K] {s : St K W} {k k' : K} (v : Val) (h : k' ≠ k) :
    (s.set k v).env k' = s.env k' := by simp [St.set, h]

theorem set_env_eq {K : Type} [DecidableEq K] {s : St K W} {k : K} (v : Val) :
    (s.set k v).env k = some v := by simp [St.set]

/-- The variable `k` has the value `u`. -/
abbrev At {K : Type} (k : K) (u : Option Val) : (K → Option Val) → Prop := fun env => env k = u

theorem pyStore_frame (P : Prims W) (unb : Val) {x : String} {u : Option Val} (v : Val)
    (t : Target) (hx : x ∉ targetNames [t]) (s : St String W) (h : s.env x = u) :
    (pyStore P unb s v t).All (EnvP (At x u)) := by
  cases t with
  | name y =>
    have : x ≠ y := by simpa [targetNames] using hx
    unfold pyStore
    show (s.set y v).env x = u
    rw [set_env_ne v this, h]
  | store f args =>
    unfold pyStore
    refine all_ev (q := At x u) h fun vs s' e => ?_
    refine all_ev (q := At x u) (show s'.env x = u by rw [e, h]) fun r s'' e' => ?_
    show s''.env x = u
    rw [e', e, h]

theorem targetNames_cons (t : Target) (ts : List Target) :
    targetNames (t :: ts) = targetNames [t] ++ targetNames ts := by
  cases t <;> simp [targetNames]

theorem pyStoreL_frame (P : Prims W) (unb : Val) {x : String} {u : Option Val} :
    ∀ (ts : List Target) (vs : List Val), x ∉ targetNames ts → ∀ (s : St String W), s.env x = u →
    (pyStoreL P unb ts vs s).All (EnvP (At x u))
  | [], _, _, s, h => by unfold pyStoreL; exact h
  | _ :: _, [], _, s, h => by unfold pyStoreL; exact h
  | t :: ts, v :: vs, hx, s, h => by
    rw [targetNames_cons] at hx
    simp only [List.mem_append, not_or] at hx
    unfold pyStoreL
    exact all_andThen (pyStore_frame P unb v t hx.1 s h)
      fun s hs => pyStoreL_frame P unb ts vs hx.2 s hs

/-- A Python statement leaves variables it does not assign alone. -/
theorem py_frame (P : Prims W) (unb : Val) (fuel : Nat) {x : String} {u : Option Val} (s : Stmt) :
    x ∉ assigned s → ∀ (cur : Option Val) (st : St String W), st.env x = u →
      (execPy P unb fuel s cur st).All (EnvP (At x u)) := by
  have keep : ∀ {s s' : St String W}, s.env x = u → s'.env = s.env → s'.env x = u :=
    fun h e => by rw [e, h]
  induction s with
  | skip => intro _ cur st h; simp only [execPy]; exact h
  | seq a b iha ihb =>
    intro hx cur st h
    simp only [assigned, List.mem_append, not_or] at hx
    simp only [execPy]
    exact all_andThen (iha hx.1 cur st h) fun s hs => ihb hx.2 cur s hs
  | assign t e =>
    intro hx cur st h
    simp only [execPy]
    exact all_ev (q := At x u) h fun v s' e => pyStore_frame P unb v t hx s' (keep h e)
  | assignTup ts es =>
    intro hx cur st h
    simp only [execPy]
    exact all_ev (q := At x u) h fun v s' e => pyStoreL_frame P unb ts v hx s' (keep h e)
  | unpack ts e =>
    intro hx cur st h
    simp only [execPy]
    refine all_ev (q := At x u) h fun v s' e => ?_
    split
    · exact keep h e
    · split
      · exact pyStoreL_frame P unb ts _ hx s' (keep h e)
      · exact keep h e
  | augName y op e =>
    intro hx cur st h
    have hne : x ≠ y := by simpa [assigned] using hx
    simp only [execPy]
    refine all_ev (q := At x u) h fun v s' e => ?_
    refine all_ev (q := At x u) (keep h e) fun v s' e' => ?_
    refine all_ev (q := At x u) (keep (keep h e) e') fun v s'' e'' => ?_
    show (s''.set y v).env x = u
    rw [set_env_ne v hne]
    exact keep (keep (keep h e) e') e''
  | augStore f g args op e =>
    intro hx cur st h
    simp only [execPy]
    refine all_ev (q := At x u) h fun v s' e => ?_
    have h := keep h e
    refine all_ev (q := At x u) h fun v s' e => ?_
    have h := keep h e
    refine all_ev (q := At x u) h fun v s' e => ?_
    have h := keep h e
    refine all_ev (q := At x u) h fun v s' e => ?_
    have h := keep h e
    refine all_ev (q := At x u) h fun v s' e => ?_
    exact keep h e
  | expr e =>
    intro _ cur st h
    simp only [execPy]
    exact all_ev (q := At x u) h fun v s' e => keep h e
  | assertS c =>
    intro _ cur st h
    simp only [execPy]
    refine all_ev (q := At x u) h fun v s' e => ?_
    split <;> exact keep h e
  | ifS c t e iht ihe =>
    intro hx cur st h
    simp only [assigned, List.mem_append, not_or] at hx
    simp only [execPy]
    refine all_ev (q := At x u) h fun v s' e => ?_
    split
    · exact iht hx.1 cur s' (keep h e)
    · exact ihe hx.2 cur s' (keep h e)
  | whileS c b o ihb iho =>
    intro hx cur st h
    simp only [assigned, List.mem_append, not_or] at hx
    simp only [execPy]
    exact all_elseLoop (q := At x u) (fun s hs => ihb hx.1 cur s hs)
      (fun s hs => iho hx.2 cur s hs) fuel st h
  | forRange y a b d body o ihb iho =>
    intro hx cur st h
    simp only [assigned, List.mem_cons, List.mem_append, not_or] at hx
    simp only [execPy]
    refine all_ev (q := At x u) h fun v s' e => ?_
    split
    · split
      · split
        · exact keep h e
        · refine all_elseFor (q := At x u) (fun i s hs => ihb hx.2.1 cur _ ?_)
            (fun s hs => iho hx.2.2 cur s hs) fuel _ s' (keep h e)
          rw [set_env_ne _ hx.1]; exact hs
      · exact keep h e
    · exact keep h e
  | forIn y e body o ihb iho =>
    intro hx cur st h
    simp only [assigned, List.mem_cons, List.mem_append, not_or] at hx
    simp only [execPy]
    refine all_ev (q := At x u) h fun v s' e => ?_
    refine all_elseItems (q := At x u) (fun i s hs => ihb hx.2.1 cur _ ?_)
      (fun s hs => iho hx.2.2 cur s hs) fuel _ s' (keep h e)
    rw [set_env_ne _ hx.1]; exact hs
  | brk => intro _ cur st h; simp only [execPy]; exact h
  | cnt => intro _ cur st h; simp only [execPy]; exact h
  | ret e =>
    intro _ cur st h
    simp only [execPy]
    exact all_ev (q := At x u) h fun v s' e => keep h e
  | raiseS e =>
    intro _ cur st h
    cases e with
    | none => simp only [execPy]; split <;> exact h
    | some e =>
      simp only [execPy]
      exact all_ev (q := At x u) h fun v s' e => keep h e
  | tryS b typ hd o f ihb ihh iho ihf =>
    intro hx cur st h
    simp only [assigned, List.mem_append, not_or] at hx
    obtain ⟨⟨⟨h1, h2⟩, h3⟩, h4⟩ := hx
    simp only [execPy]
    refine all_finally ?_ fun s hs => ihf h4 cur s hs
    have hb := ihb h1 cur st h
    split
    · rename_i hbo
      rw [hbo] at hb
      split
      · exact ihh h2 _ _ hb
      · split
        · exact ihh h2 _ _ hb
        · exact hb
    · rename_i hbo
      rw [hbo] at hb
      exact iho h3 _ _ hb
    · exact hb

/-- Variables a generated statement writes. -/
def writes : IStmt → List Nat
  | .seq a b => writes a ++ writes b
  | .setVar id _ => [id]
  | .assertS _ _ b => writes b
  | .ifS _ t e => writes t ++ writes e
  | .whileS _ b => writes b
  | .forS id _ _ _ b => id :: writes b
  | .autoFor id _ b => id :: writes b
  | .tryS b h => writes b ++ writes h
  | _ => []

/-- A generated statement leaves variables it does not write alone. -/
theorem ir_frame (P : Prims W) (ord : List IExpr → List Nat) (fuel : Nat) {k : Nat}
    {u : Option Val} (s : IStmt) :
    k ∉ writes s → ∀ (cur : Option Val) (st : St Nat W), st.env k = u →
      (execIR P ord fuel s cur st).All (EnvP (At k u)) := by
  have keep : ∀ {s s' : St Nat W}, s.env k = u → s'.env = s.env → s'.env k = u :=
    fun h e => by rw [e, h]
  induction s with
  | skip => intro _ cur st h; simp only [execIR]; exact h
  | seq a b iha ihb =>
    intro hx cur st h
    simp only [writes, List.mem_append, not_or] at hx
    simp only [execIR]
    exact all_andThen (iha hx.1 cur st h) fun s hs => ihb hx.2 cur s hs
  | setVar id e =>
    intro hx cur st h
    have hne : k ≠ id := by simpa [writes] using hx
    simp only [execIR]
    refine all_ev (q := At k u) h fun v s' e => ?_
    show (s'.set id v).env k = u
    rw [set_env_ne v hne]
    exact keep h e
  | expr e =>
    intro _ cur st h
    simp only [execIR]
    exact all_ev (q := At k u) h fun v s' e => keep h e
  | assertS c kind b ih =>
    intro hx cur st h
    simp only [execIR]
    refine all_ev (q := At k u) h fun v s' e => ?_
    split
    · exact ih hx cur s' (keep h e)
    · exact keep h e
  | ifS c t e iht ihe =>
    intro hx cur st h
    simp only [writes, List.mem_append, not_or] at hx
    simp only [execIR]
    refine all_ev (q := At k u) h fun v s' e => ?_
    split
    · exact iht hx.1 cur s' (keep h e)
    · exact ihe hx.2 cur s' (keep h e)
  | whileS c b ihb =>
    intro hx cur st h
    simp only [execIR]
    exact all_whileLoop (q := At k u) (fun s hs => ihb hx cur s hs) fuel st h
  | forS id a b d body ihb =>
    intro hx cur st h
    simp only [writes, List.mem_cons, not_or] at hx
    simp only [execIR]
    refine all_ev (q := At k u) h fun v s' e => ?_
    refine all_forLoop (q := At k u) (fun i s hs => ihb hx.2 cur _ ?_) fuel _ s' (keep h e)
    rw [set_env_ne _ hx.1]; exact hs
  | autoFor id e body ihb =>
    intro hx cur st h
    simp only [writes, List.mem_cons, not_or] at hx
    simp only [execIR]
    refine all_ev (q := At k u) h fun v s' e => ?_
    split
    · exact keep h e
    · refine all_iterLoop (q := At k u) (fun i s hs => ihb hx.2 cur _ ?_) fuel _ s' (keep h e)
      rw [set_env_ne _ hx.1]; exact hs
  | brk => intro _ cur st h; simp only [execIR]; exact h
  | cnt => intro _ cur st h; simp only [execIR]; exact h
  | ret e =>
    intro _ cur st h
    simp only [execIR]
    exact all_ev (q := At k u) h fun v s' e => keep h e
  | raiseS e =>
    intro _ cur st h
    cases e with
    | none => simp only [execIR]; split <;> exact h
    | some e =>
      simp only [execIR]
      exact all_ev (q := At k u) h fun v s' e => keep h e
  | tryS b hd ihb ihh =>
    intro hx cur st h
    simp only [writes, List.mem_append, not_or] at hx
    simp only [execIR]
    have hb := ihb hx.1 cur st h
    split
    · rename_i hbo
      rw [hbo] at hb
      exact ihh hx.2 _ _ hb
    · exact hb

/-! ## Scopes -/

/-- Names and variables of a scope are distinct, and variables are below the counter. -/
def WF (c : Scope) (n : Nat) : Prop :=
  (c.map (·.1)).Nodup ∧ (c.map (·.2.1)).Nodup ∧ ∀ p ∈ c, p.2.1 < n

def ids (c : Scope) : List Nat := c.map (·.2.1)

theorem WF.mono {c : Scope} {n m : Nat} (h : WF c n) (hm : n ≤ m) : WF c m :=
  ⟨h.1, h.2.1, fun p hp => Nat.lt_of_lt_of_le (h.2.2 p hp) hm⟩

theorem lookup_none {c : Scope} {x : String} (h : lookup c x = Option.none) :
    ∀ p ∈ c, p.1 ≠ x := by
  intro p hp e
  unfold lookup at h
  have := List.find?_eq_none.mp (Option.map_eq_none_iff.mp h) p hp
  exact this (by simpa using e)

theorem lookup_of_mem : ∀ {c : Scope}, (c.map (·.1)).Nodup → ∀ {x : String} {id : Nat} {ty : Ty},
    (x, id, ty) ∈ c → lookup c x = some (id, ty)
  | [], _, x, id, ty, h => by cases h
  | (y, id', ty') :: c, hn, x, id, ty, h => by
    simp only [List.map_cons, List.nodup_cons] at hn
    rcases List.mem_cons.mp h with e | h
    · cases e
      simp [lookup]
    · have hne : y ≠ x := by
        rintro rfl
        exact hn.1 (List.mem_map.mpr ⟨_, h, rfl⟩)
      have := lookup_of_mem hn.2 h
      unfold lookup at this ⊢
      rw [List.find?_cons_of_neg (by simpa using hne)]
      exact this

/-- The scope with a name rebound to a new variable. -/
theorem WF.rebind {outer inner : Scope} {n : Nat} {x : String} {ty : Ty} (h : WF (inner ++ outer) n)
    (hx : ∀ p ∈ outer, p.1 ≠ x) : WF (rebind inner x n ty ++ outer) (n + 1) := by
  obtain ⟨h1, h2, h3⟩ := h
  have hsub : (inner.filter fun p => p.1 ≠ x).Sublist inner := List.filter_sublist
  have hsub' : ((inner.filter fun p => p.1 ≠ x) ++ outer).Sublist (inner ++ outer) :=
    List.Sublist.append hsub (List.Sublist.refl _)
  have hlt : ∀ p ∈ (inner.filter fun p => p.1 ≠ x) ++ outer, p.2.1 < n :=
    fun p hp => h3 p (hsub'.subset hp)
  refine ⟨?_, ?_, ?_⟩
  · simp only [Lower.rebind, List.cons_append, List.map_cons, List.nodup_cons]
    refine ⟨?_, (hsub'.map _).nodup h1⟩
    intro hm
    obtain ⟨p, hp, e⟩ := List.mem_map.mp hm
    rcases List.mem_append.mp hp with hp | hp
    · exact absurd e (by simpa using (List.mem_filter.mp hp).2)
    · exact hx p hp e
  · simp only [Lower.rebind, List.cons_append, List.map_cons, List.nodup_cons]
    refine ⟨?_, (hsub'.map _).nodup h2⟩
    intro hm
    obtain ⟨p, hp, e⟩ := List.mem_map.mp hm
    have := hlt p hp
    omega
  · intro p hp
    simp only [Lower.rebind, List.cons_append, List.mem_cons] at hp
    rcases hp with rfl | hp
    · simp
    · have := hlt p hp
      omega

theorem outer_ne_of_inner {outer inner : Scope} {n : Nat} {x : String} (h : WF (inner ++ outer) n)
    (hx : (lookup inner x).isSome = true) : ∀ p ∈ outer, p.1 ≠ x := by
  obtain ⟨⟨id, ty⟩, hl⟩ := Option.isSome_iff_exists.mp hx
  have hm := lookup_mem hl
  intro p hp e
  have h1 := h.1
  rw [List.map_append] at h1
  exact (List.nodup_append.mp h1).2.2 x (List.mem_map.mpr ⟨_, hm, rfl⟩) p.1
    (List.mem_map.mpr ⟨p, hp, rfl⟩) e.symm

/-- What an assignment does to scope and counter. -/
structure Step (outer inner : Scope) (n : Nat) (is : IStmt) (inner' : Scope) (n' : Nat) : Prop where
  le : n ≤ n'
  wf : WF (inner' ++ outer) n'
  ids : ∀ k ∈ ids inner', k ∈ ids inner ∨ n ≤ k
  writes : ∀ k ∈ writes is, (k ∈ Lower.ids (inner ++ outer) ∨ n ≤ k) ∧ k < n'

theorem Step.refl {outer inner : Scope} {n : Nat} {is : IStmt} (h : WF (inner ++ outer) n)
    (hw : Lower.writes is = []) : Step outer inner n is inner n :=
  ⟨Nat.le_refl n, h, fun _ hk => .inl hk, by simp [hw]⟩

theorem ids_lt {c : Scope} {n : Nat} (h : WF c n) {k : Nat} (hk : k ∈ ids c) : k < n := by
  obtain ⟨p, hp, rfl⟩ := List.mem_map.mp hk
  exact h.2.2 p hp

theorem ids_append (a b : Scope) : ids (a ++ b) = ids a ++ ids b := by simp [ids]

theorem assignVar_step {P : Prims W} {outer inner : Scope} {n : Nat} {x : String} {e : IExpr}
    {is : IStmt} {inner' : Scope} {n' : Nat} (h : assignVar P outer inner n x e = some (is, inner', n'))
    (hw : WF (inner ++ outer) n) : Step outer inner n is inner' n' := by
  have fresh : (∀ p ∈ outer, p.1 ≠ x) →
      Step outer inner n (.setVar n e) (rebind inner x n (typeOf P e)) (n + 1) := by
    intro hx
    refine ⟨by omega, hw.rebind hx, ?_, ?_⟩
    · intro k hk
      simp only [Lower.ids, rebind, List.map_cons, List.mem_cons] at hk
      rcases hk with rfl | hk
      · exact .inr (Nat.le_refl _)
      · left
        obtain ⟨p, hp, e⟩ := List.mem_map.mp hk
        exact List.mem_map.mpr ⟨p, (List.mem_filter.mp hp).1, e⟩
    · intro k hk
      simp only [Lower.writes, List.mem_singleton] at hk
      subst hk
      exact ⟨.inr (Nat.le_refl _), Nat.lt_succ_self _⟩
  unfold assignVar at h
  split at h
  · rename_i hl
    simp only [Option.some.injEq, Prod.mk.injEq] at h
    obtain ⟨rfl, rfl, rfl⟩ := h
    exact fresh fun p hp => lookup_none hl p (by simp [hp])
  · rename_i id ty hl
    split at h
    · simp only [Option.some.injEq, Prod.mk.injEq] at h
      obtain ⟨rfl, rfl, rfl⟩ := h
      refine ⟨Nat.le_refl _, hw, fun _ hk => .inl hk, ?_⟩
      intro k hk
      simp only [Lower.writes, List.mem_singleton] at hk
      subst hk
      have hm := lookup_mem hl
      exact ⟨.inl (List.mem_map.mpr ⟨_, hm, rfl⟩), hw.2.2 _ hm⟩
    · split at h
      · rename_i hs
        simp only [Option.some.injEq, Prod.mk.injEq] at h
        obtain ⟨rfl, rfl, rfl⟩ := h
        exact fresh (outer_ne_of_inner hw hs)
      · cases h

theorem assignTarget_step {P : Prims W} {outer inner : Scope} {n : Nat} {e : IExpr} {t : Target}
    {is : IStmt} {inner' : Scope} {n' : Nat}
    (h : assignTarget P outer inner n e t = some (is, inner', n'))
    (hw : WF (inner ++ outer) n) : Step outer inner n is inner' n' := by
  cases t with
  | name x => exact assignVar_step h hw
  | store f args =>
    simp only [assignTarget] at h
    obtain ⟨as, _, e⟩ := Option.map_eq_some_iff.mp h
    simp only [Prod.mk.injEq] at e
    obtain ⟨rfl, rfl, rfl⟩ := e
    exact Step.refl hw rfl

theorem Step.trans {outer inner inner1 inner2 : Scope} {n n1 n2 : Nat} {a b : IStmt}
    (h1 : Step outer inner n a inner1 n1) (h2 : Step outer inner1 n1 b inner2 n2) :
    Step outer inner n (.seq a b) inner2 n2 := by
  refine ⟨Nat.le_trans h1.le h2.le, h2.wf, ?_, ?_⟩
  · intro k hk
    rcases h2.ids k hk with h | h
    · exact h1.ids k h
    · exact .inr (Nat.le_trans h1.le h)
  · intro k hk
    simp only [Lower.writes, List.mem_append] at hk
    rcases hk with hk | hk
    · exact ⟨(h1.writes k hk).1, Nat.lt_of_lt_of_le (h1.writes k hk).2 h2.le⟩
    · refine ⟨?_, (h2.writes k hk).2⟩
      rcases (h2.writes k hk).1 with h | h
      · rw [ids_append, List.mem_append] at h
        rcases h with h | h
        · rcases h1.ids k h with h | h
          · left; simp [ids_append, h]
          · exact .inr h
        · left; simp [ids_append, h]
      · exact .inr (Nat.le_trans h1.le h)

/-- A nested block: what it declares ends with it. -/
theorem Step.block {outer inner inner1 : Scope} {n n1 : Nat} {a is : IStmt} (c0 : Scope)
    (hc0 : ∀ k ∈ Lower.ids c0, n ≤ k)
    (hw : WF (inner ++ outer) n) {n0 : Nat} (hn0 : n ≤ n0)
    (h1 : Step (inner ++ outer) c0 n0 a inner1 n1)
    (hs : ∀ k ∈ Lower.writes is, k ∈ Lower.writes a ∨ (n ≤ k ∧ k < n1)) :
    Step outer inner n is inner n1 := by
  refine ⟨Nat.le_trans hn0 h1.le, hw.mono (Nat.le_trans hn0 h1.le), fun _ hk => .inl hk, ?_⟩
  intro k hk
  rcases hs k hk with h | h
  · refine ⟨?_, (h1.writes k h).2⟩
    rcases (h1.writes k h).1 with h | h
    · rw [ids_append, List.mem_append] at h
      rcases h with h | h
      · exact .inr (hc0 k h)
      · exact .inl h
    · exact .inr (Nat.le_trans hn0 h)
  · exact ⟨.inr h.1, h.2⟩

theorem unroll_step {P : Prims W} {outer : Scope} {m : Nat} : ∀ (ts : List Target) (es : List Expr)
    (inner : Scope) (n : Nat) (s1 s2 : IStmt) (inner' : Scope) (n' : Nat),
    unroll P outer m ts es inner n = some (s1, s2, inner', n') → WF (inner ++ outer) n →
    Step outer inner n (.seq s1 s2) inner' n'
  | [], [], inner, n, s1, s2, inner', n', h, hw => by
    simp only [unroll, Option.some.injEq, Prod.mk.injEq] at h
    obtain ⟨rfl, rfl, rfl, rfl⟩ := h
    exact Step.refl hw rfl
  | t :: ts, e :: es, inner, n, s1, s2, inner', n', h, hw => by
    simp only [unroll] at h
    split at h
    · cases h
    · rename_i ie _
      split at h
      · cases h
      · split at h
        · cases h
        · rename_i a inner1 n1 ha
          split at h
          · cases h
          · rename_i r1 r2 inner2 n2 hr
            simp only [Option.some.injEq, Prod.mk.injEq] at h
            obtain ⟨rfl, rfl, rfl, rfl⟩ := h
            have h1 := assignTarget_step ha (hw.mono (Nat.le_succ n))
            have h2 := unroll_step ts es inner1 n1 r1 r2 _ _ hr h1.wf
            have h3 := h1.trans h2
            refine ⟨Nat.le_trans (Nat.le_succ n) h3.le, h3.wf, ?_, ?_⟩
            · intro k hk
              rcases h3.ids k hk with h | h
              · exact .inl h
              · exact .inr (by omega)
            · intro k hk
              by_cases hkn : k = n
              · subst hkn
                exact ⟨.inr (Nat.le_refl _), Nat.lt_of_succ_le h3.le⟩
              · have : k ∈ Lower.writes (.seq a (.seq r1 r2)) := by
                  simp only [Lower.writes, List.mem_append, List.mem_singleton] at hk ⊢
                  tauto
                obtain ⟨h4, h5⟩ := h3.writes k this
                refine ⟨?_, h5⟩
                rcases h4 with h | h
                · exact .inl h
                · exact .inr (by omega)
  | [], _ :: _, _, _, _, _, _, _, h, _ => by simp [unroll] at h
  | _ :: _, [], _, _, _, _, _, _, h, _ => by simp [unroll] at h

theorem unpackSeq_step {P : Prims W} {outer : Scope} {r : IExpr} : ∀ (ts : List Target) (i : Nat)
    (inner : Scope) (n : Nat) (s : IStmt) (inner' : Scope) (n' : Nat),
    unpackSeq P outer r i ts inner n = some (s, inner', n') → WF (inner ++ outer) n →
    Step outer inner n s inner' n'
  | [], i, inner, n, s, inner', n', h, hw => by
    simp only [unpackSeq, Option.some.injEq, Prod.mk.injEq] at h
    obtain ⟨rfl, rfl, rfl⟩ := h
    exact Step.refl hw rfl
  | t :: ts, i, inner, n, s, inner', n', h, hw => by
    simp only [unpackSeq] at h
    split at h
    · cases h
    · rename_i a inner1 n1 ha
      split at h
      · cases h
      · rename_i s2 inner2 n2 hr
        simp only [Option.some.injEq, Prod.mk.injEq] at h
        obtain ⟨rfl, rfl, rfl⟩ := h
        have h1 := assignTarget_step ha hw
        exact h1.trans (unpackSeq_step ts (i + 1) inner1 n1 s2 _ _ hr h1.wf)

theorem rangeArg_step (P : Prims W) (e : IExpr) (n : Nat) :
    n ≤ (rangeArg P e n).2.2 ∧
      ∀ k ∈ writes (rangeArg P e n).1, n ≤ k ∧ k < (rangeArg P e n).2.2 := by
  unfold rangeArg
  split
  · simp [writes]
  · simp [writes]

theorem lower_seq {P : Prims W} {rty : Ty} {a b : Stmt} {outer inner : Scope} {n : Nat}
    (ha : ∀ c, a ≠ .assertS c) : lower P rty (.seq a b) outer inner n =
      match lower P rty a outer inner n with
      | Option.none => Option.none
      | some (ia, inner, n) =>
        match lower P rty b outer inner n with
        | Option.none => Option.none
        | some (ib, inner, n) => some (.seq ia ib, inner, n) := by
  cases a <;> first | exact absurd rfl (ha _) | rfl

/-- Lowering keeps scopes in order; generated code writes only variables in scope and new ones. -/
theorem lower_step {P : Prims W} {rty : Ty} (s : Stmt) : ∀ (outer inner : Scope) (n : Nat)
    (is : IStmt) (inner' : Scope) (n' : Nat), lower P rty s outer inner n = some (is, inner', n') →
    WF (inner ++ outer) n → Step outer inner n is inner' n' := by
  induction s with
  | skip =>
    intro outer inner n is inner' n' h hw
    simp only [lower, Option.some.injEq, Prod.mk.injEq] at h
    obtain ⟨rfl, rfl, rfl⟩ := h
    exact Step.refl hw rfl
  | seq a b iha ihb =>
    intro outer inner n is inner' n' h hw
    by_cases hc : ∃ c, a = .assertS c
    · obtain ⟨c, rfl⟩ := hc
      simp only [lower] at h
      split at h
      · rename_i ic ib inner1 n1 hc hb
        simp only [Option.some.injEq, Prod.mk.injEq] at h
        obtain ⟨rfl, rfl, rfl⟩ := h
        have := ihb outer inner n ib _ _ hb hw
        exact ⟨this.le, this.wf, this.ids, this.writes⟩
      · cases h
    · rw [lower_seq (fun c e => hc ⟨c, e⟩)] at h
      split at h
      · cases h
      · rename_i ia inner1 n1 ha
        split at h
        · cases h
        · rename_i ib inner2 n2 hb
          simp only [Option.some.injEq, Prod.mk.injEq] at h
          obtain ⟨rfl, rfl, rfl⟩ := h
          have h1 := iha outer inner n ia _ _ ha hw
          exact h1.trans (ihb outer _ _ ib _ _ hb h1.wf)
  | assign t e =>
    intro outer inner n is inner' n' h hw
    simp only [lower] at h
    split at h
    · cases h
    · exact assignTarget_step h hw
  | assignTup ts es =>
    intro outer inner n is inner' n' h hw
    simp only [lower] at h
    split at h
    · cases h
    · rename_i s1 s2 inner1 n1 hu
      simp only [Option.some.injEq, Prod.mk.injEq] at h
      obtain ⟨rfl, rfl, rfl⟩ := h
      exact unroll_step ts es inner n s1 s2 _ _ hu hw
  | unpack ts e =>
    intro outer inner n is inner' n' h hw
    simp only [lower] at h
    split at h
    · cases h
    · rename_i ie _
      by_cases hc : isCallI ie = true
      · simp only [hc, if_true] at h
        split at h
        · cases h
        · rename_i s2 inner2 n2 hu
          simp only [Option.some.injEq, Prod.mk.injEq] at h
          obtain ⟨rfl, rfl, rfl⟩ := h
          have := unpackSeq_step ts 0 inner (n + 1) s2 _ _ hu (hw.mono (Nat.le_succ n))
          refine ⟨Nat.le_trans (Nat.le_succ n) this.le, this.wf, ?_, ?_⟩
          · intro k hk
            rcases this.ids k hk with h | h
            · exact .inl h
            · exact .inr (by omega)
          · intro k hk
            simp only [Lower.writes, List.mem_append, List.mem_singleton] at hk
            rcases hk with rfl | hk
            · exact ⟨.inr (Nat.le_refl _), Nat.lt_of_succ_le this.le⟩
            · obtain ⟨h4, h5⟩ := this.writes k hk
              refine ⟨?_, h5⟩
              rcases h4 with h | h
              · exact .inl h
              · exact .inr (by omega)
      · simp only [hc] at h
        split at h
        · cases h
        · rename_i s2 inner2 n2 hu
          simp only [Option.some.injEq, Prod.mk.injEq] at h
          obtain ⟨rfl, rfl, rfl⟩ := h
          have := unpackSeq_step ts 0 inner n s2 _ _ hu hw
          refine ⟨this.le, this.wf, this.ids, ?_⟩
          intro k hk
          simp only [Lower.writes, List.nil_append] at hk
          exact this.writes k hk
  | augName x op e =>
    intro outer inner n is inner' n' h hw
    simp only [lower] at h
    split at h
    · cases h
    · exact assignVar_step h hw
  | augStore f g args op e =>
    intro outer inner n is inner' n' h hw
    simp only [lower] at h
    split at h
    · cases h
    · exact assignTarget_step h hw
  | expr e =>
    intro outer inner n is inner' n' h hw
    simp only [lower] at h
    obtain ⟨ie, _, e⟩ := Option.map_eq_some_iff.mp h
    simp only [Prod.mk.injEq] at e
    obtain ⟨rfl, rfl, rfl⟩ := e
    exact Step.refl hw rfl
  | assertS c =>
    intro outer inner n is inner' n' h hw
    simp only [lower] at h
    obtain ⟨ie, _, e⟩ := Option.map_eq_some_iff.mp h
    simp only [Prod.mk.injEq] at e
    obtain ⟨rfl, rfl, rfl⟩ := e
    exact Step.refl hw rfl
  | ifS c t e iht ihe =>
    intro outer inner n is inner' n' h hw
    simp only [lower] at h
    split at h
    · cases h
    · split at h
      · cases h
      · rename_i it i1 n1 ht
        split at h
        · cases h
        · rename_i ie i2 n2 he
          split at h
          · cases h
          · simp only [Option.some.injEq, Prod.mk.injEq] at h
            obtain ⟨rfl, rfl, rfl⟩ := h
            have h1 := iht (inner ++ outer) [] n it _ _ ht hw
            have h2 := ihe (inner ++ outer) [] n1 ie _ _ he (hw.mono h1.le)
            refine ⟨Nat.le_trans h1.le h2.le, hw.mono (Nat.le_trans h1.le h2.le),
              fun _ hk => .inl hk, ?_⟩
            intro k hk
            simp only [Lower.writes, List.mem_append] at hk
            rcases hk with hk | hk
            · exact ⟨(h1.writes k hk).1, Nat.lt_of_lt_of_le (h1.writes k hk).2 h2.le⟩
            · refine ⟨?_, (h2.writes k hk).2⟩
              rcases (h2.writes k hk).1 with h | h
              · exact .inl h
              · exact .inr (Nat.le_trans h1.le h)
  | whileS c b o ihb iho =>
    intro outer inner n is inner' n' h hw
    simp only [lower] at h
    split at h
    · cases h
    · split at h
      · cases h
      · rename_i ib i1 n1 hb
        split at h
        · cases h
        · simp only [Option.some.injEq, Prod.mk.injEq] at h
          obtain ⟨rfl, rfl, rfl⟩ := h
          have h1 := ihb (inner ++ outer) [] n ib _ _ hb hw
          exact Step.block [] (by simp [Lower.ids]) hw (Nat.le_refl n) h1
            fun k hk => .inl hk
  | forRange x a b d body o ihb iho =>
    intro outer inner n is inner' n' h hw
    simp only [lower] at h
    split at h
    · cases h
    · rename_i hx
      split at h
      · rename_i ia ib id hl
        split at h
        · cases h
        · rename_i ibody i1 n1 hb
          simp only [Option.some.injEq, Prod.mk.injEq] at h
          obtain ⟨rfl, rfl, rfl⟩ := h
          obtain ⟨l1, w1⟩ := rangeArg_step P ia n
          obtain ⟨l2, w2⟩ := rangeArg_step P ib (rangeArg P ia n).2.2
          obtain ⟨l3, w3⟩ := rangeArg_step P id (rangeArg P ib (rangeArg P ia n).2.2).2.2
          generalize hn3 : (rangeArg P id (rangeArg P ib (rangeArg P ia n).2.2).2.2).2.2 = n3 at *
          have hx' : lookup (inner ++ outer) x = Option.none := by simpa using hx
          have hw' : WF ([(x, n3, Ty.int)] ++ (inner ++ outer)) (n3 + 1) := by
            have := WF.rebind (inner := []) (outer := inner ++ outer) (x := x) (ty := .int)
              (n := n3) (hw.mono (by omega)) (lookup_none hx')
            simpa [rebind] using this
          have h1 := ihb (inner ++ outer) [(x, n3, .int)] (n3 + 1) ibody _ _ hb hw'
          have hle := h1.le
          refine Step.block [(x, n3, .int)] ?_ hw (n0 := n3 + 1) (by omega) h1 ?_
          · intro k hk
            simp only [Lower.ids, List.map_cons, List.map_nil, List.mem_singleton] at hk
            omega
          · intro k hk
            simp only [Lower.writes, List.mem_append, List.mem_cons] at hk
            rcases hk with hk | hk | hk | hk | hk
            · have := w1 k hk; exact .inr (by omega)
            · have := w2 k hk; exact .inr (by omega)
            · have := w3 k hk; exact .inr (by omega)
            · exact .inr (by omega)
            · exact .inl hk
      · cases h
  | forIn x e body o ihb iho =>
    intro outer inner n is inner' n' h hw
    simp only [lower] at h
    split at h
    · cases h
    · rename_i hx
      split at h
      · cases h
      · split at h
        · cases h
        · rename_i ibody i1 n1 hb
          simp only [Option.some.injEq, Prod.mk.injEq] at h
          obtain ⟨rfl, rfl, rfl⟩ := h
          have hx' : lookup (inner ++ outer) x = Option.none := by simpa using hx
          have hw' : WF ([(x, n, Ty.obj)] ++ (inner ++ outer)) (n + 1) := by
            have := WF.rebind (inner := []) (outer := inner ++ outer) (x := x) (ty := .obj)
              (n := n) hw (lookup_none hx')
            simpa [rebind] using this
          have h1 := ihb (inner ++ outer) [(x, n, .obj)] (n + 1) ibody _ _ hb hw'
          have hle := h1.le
          refine Step.block [(x, n, .obj)] ?_ hw (n0 := n + 1) (by omega) h1 ?_
          · intro k hk
            simp only [Lower.ids, List.map_cons, List.map_nil, List.mem_singleton] at hk
            omega
          · intro k hk
            simp only [Lower.writes, List.mem_cons] at hk
            rcases hk with hk | hk
            · exact .inr (by omega)
            · exact .inl hk
  | brk =>
    intro outer inner n is inner' n' h hw
    simp only [lower, Option.some.injEq, Prod.mk.injEq] at h
    obtain ⟨rfl, rfl, rfl⟩ := h
    exact Step.refl hw rfl
  | cnt =>
    intro outer inner n is inner' n' h hw
    simp only [lower, Option.some.injEq, Prod.mk.injEq] at h
    obtain ⟨rfl, rfl, rfl⟩ := h
    exact Step.refl hw rfl
  | ret e =>
    intro outer inner n is inner' n' h hw
    simp only [lower] at h
    split at h
    · cases h
    · split at h
      · simp only [Option.some.injEq, Prod.mk.injEq] at h
        obtain ⟨rfl, rfl, rfl⟩ := h
        exact Step.refl hw rfl
      · cases h
  | raiseS e =>
    intro outer inner n is inner' n' h hw
    cases e with
    | none =>
      simp only [lower, Option.some.injEq, Prod.mk.injEq] at h
      obtain ⟨rfl, rfl, rfl⟩ := h
      exact Step.refl hw rfl
    | some e =>
      simp only [lower] at h
      obtain ⟨ie, _, e⟩ := Option.map_eq_some_iff.mp h
      simp only [Prod.mk.injEq] at e
      obtain ⟨rfl, rfl, rfl⟩ := e
      exact Step.refl hw rfl
  | tryS b typ hd o f ihb ihh iho ihf =>
    intro outer inner n is inner' n' h hw
    simp only [lower] at h
    split at h
    · cases h
    · rename_i ib i1 n1 hb
      split at h
      · cases h
      · rename_i ih i2 n2 hh
        simp only [Option.some.injEq, Prod.mk.injEq] at h
        obtain ⟨rfl, rfl, rfl⟩ := h
        have h1 := ihb (inner ++ outer) [] n ib _ _ hb hw
        have h2 := ihh (inner ++ outer) [] n1 ih _ _ hh (hw.mono h1.le)
        refine ⟨Nat.le_trans h1.le h2.le, hw.mono (Nat.le_trans h1.le h2.le),
          fun _ hk => .inl hk, ?_⟩
        intro k hk
        simp only [Lower.writes, List.mem_append] at hk
        rcases hk with hk | hk
        · exact ⟨(h1.writes k hk).1, Nat.lt_of_lt_of_le (h1.writes k hk).2 h2.le⟩
        · refine ⟨?_, (h2.writes k hk).2⟩
          rcases (h2.writes k hk).1 with h | h
          · exact .inl h
          · exact .inr (Nat.le_trans h1.le h)

end Verif.Lower
