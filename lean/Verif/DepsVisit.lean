import Verif.Deps

/-!
What the visitor of the dependency analysis finds, and what the name dictionary
makes of a name (properties C96 and C97).
-/

namespace Verif.Deps

/-! ### Everything the source uses is found -/

mutual
/-- The names in a piece of source. -/
def names : Tree → List String
  | .mk (.name id) _ => [id]
  | .mk (.attribute _) kids => namesKids kids
  | .mk (.functionDef _) kids => namesKids kids
  | .mk .other kids => namesKids kids

/-- The names below a node. -/
def namesKids : List (String × Tree) → List String
  | [] => []
  | (_, t) :: rest => names t ++ namesKids rest
end

mutual
/-- What a piece of source uses, by the scoping rules of Python: the parameters of a
function hide outer names in its body, but not in its annotations, defaults and
result type, and they do so nowhere else.  `path` is the chain of attributes
directly around a name: `a.b.c` is the name `a` with the path `b, c`.  Decorators
do not count. -/
def uses (W : World) (params : List String) (path : List String) : Tree → List Nat
  | .mk (.name id) _ =>
    if id ∈ params then [] else
    match target W path id with
    | none => []
    | some o => W.adds o
  | .mk (.attribute a) kids => usesKids W params params (a :: path) kids
  | .mk (.functionDef args) kids => usesKids W params (args ++ params) [] kids
  | .mk .other kids => usesKids W params params [] kids

/-- The same for the children of a node; `inner` holds in the field `body`. -/
def usesKids (W : World) (params inner : List String) (path : List String) :
    List (String × Tree) → List Nat
  | [] => []
  | (f, t) :: rest =>
    (if f = "decorator_list" then []
     else if f = "body" then uses W inner path t
     else uses W params path t) ++ usesKids W params inner path rest
end

mutual
/-- In no function does an annotation, a default or the result type mention a name
that is also a parameter of that function. -/
def Plain : Tree → Prop
  | .mk (.name _) _ => True
  | .mk (.attribute _) kids => PlainKids kids
  | .mk (.functionDef args) kids =>
    (∀ k ∈ kids, k.1 ≠ "body" → ∀ a ∈ args, a ∉ names k.2) ∧ PlainKids kids
  | .mk .other kids => PlainKids kids

/-- The same for all children. -/
def PlainKids : List (String × Tree) → Prop
  | [] => True
  | (_, t) :: rest => Plain t ∧ PlainKids rest
end

/-- Only classes and functions are compiled. -/
def World.Sane (W : World) : Prop :=
  ∀ o, W.adds o ≠ [] → W.isDef o = true ∧ W.isModule o = false

theorem mem_addAll_left (new : List Nat) : ∀ (found : List Nat) (r : Nat), r ∈ found →
    r ∈ addAll found new := by
  induction new with
  | nil => intro found r h; exact h
  | cons a l ih =>
    intro found r h
    rw [addAll, List.foldl_cons]
    refine ih _ r ?_
    split
    · exact h
    · exact List.mem_append_left _ h

theorem mem_addAll_right (new : List Nat) : ∀ (found : List Nat) (r : Nat), r ∈ new →
    r ∈ addAll found new := by
  induction new with
  | nil => intro found r h; simp at h
  | cons a l ih =>
    intro found r h
    rw [addAll, List.foldl_cons]
    rcases List.mem_cons.mp h with rfl | h
    · refine mem_addAll_left l _ r ?_
      split
      · assumption
      · exact List.mem_append_right _ (List.mem_singleton.mpr rfl)
    · exact ih _ r h

theorem mem_addAll (new : List Nat) : ∀ (found : List Nat) (r : Nat), r ∈ addAll found new →
    r ∈ found ∨ r ∈ new := by
  induction new with
  | nil => intro found r h; exact Or.inl h
  | cons a l ih =>
    intro found r h
    rw [addAll, List.foldl_cons] at h
    rcases ih _ r h with h | h
    · split at h
      · exact Or.inl h
      · rcases List.mem_append.mp h with h | h
        · exact Or.inl h
        · exact Or.inr (List.mem_cons.mpr (Or.inl (List.mem_singleton.mp h)))
    · exact Or.inr (List.mem_cons_of_mem _ h)

theorem addAll_nodup (new : List Nat) : ∀ (found : List Nat), found.Nodup →
    (addAll found new).Nodup := by
  induction new with
  | nil => intro found h; exact h
  | cons a l ih =>
    intro found h
    rw [addAll, List.foldl_cons]
    refine ih _ ?_
    split
    · exact h
    · rename_i hn
      rw [List.nodup_append]
      refine ⟨h, by simp, ?_⟩
      intro x hx y hy e
      rw [List.mem_singleton] at hy
      exact hn (hy ▸ e ▸ hx)

theorem follow_append (W : World) (X : List String) : ∀ (p : List String) (o o' : Nat),
    follow W o p = some o' → W.isModule o = true → W.isModule o' = false →
    follow W o (p ++ X) = some o' := by
  intro p
  induction p with
  | nil =>
    intro o o' h hm hn
    simp only [follow, Option.some.injEq] at h
    subst h
    rw [hm] at hn
    simp at hn
  | cons a p ih =>
    intro o o' h hm hn
    rw [List.cons_append, follow]
    rw [follow] at h
    cases ha : W.attr o a with
    | none => rw [ha] at h; simp at h
    | some o1 =>
      rw [ha] at h
      simp only at h ⊢
      by_cases hm1 : W.isModule o1 = true
      · rw [if_pos hm1] at h ⊢
        exact ih o1 o' h hm1 hn
      · rw [if_neg hm1] at h ⊢
        exact h

theorem target_append (W : World) (hW : W.Sane) (p X : List String) (id : String) (o : Nat)
    (h : target W p id = some o) (ha : W.adds o ≠ []) : target W (p ++ X) id = some o := by
  obtain ⟨hd, hm⟩ := hW o ha
  rw [target] at h ⊢
  cases hg : W.globals id with
  | none => rw [hg] at h; simp at h
  | some g =>
    rw [hg] at h
    simp only at h ⊢
    by_cases hp : p = []
    · rw [if_pos hp] at h
      rw [Option.some.injEq] at h
      subst h
      by_cases hX : p ++ X = []
      · rw [if_pos hX]
      · rw [if_neg hX, if_neg (by rw [hm]; simp), if_pos hd]
    · rw [if_neg hp] at h
      rw [if_neg (by simp [hp])]
      by_cases hmg : W.isModule g = true
      · rw [if_pos hmg] at h ⊢
        exact follow_append W X p g o h hmg hm
      · rw [if_neg hmg] at h ⊢
        exact h

/-- What one visit guarantees. -/
def Good (s s' : VSt) (need : List Nat) : Prop :=
  (∀ r ∈ need, r ∈ s'.found) ∧ (∀ r ∈ s.found, r ∈ s'.found) ∧ (∀ x ∈ s'.skip, x ∈ s.skip)

theorem Good.trans {s s1 s2 : VSt} {n1 n2 : List Nat} (h1 : Good s s1 n1) (h2 : Good s1 s2 n2) :
    Good s s2 (n1 ++ n2) := by
  refine ⟨?_, ?_, ?_⟩
  · intro r hr
    rcases List.mem_append.mp hr with h | h
    · exact h2.2.1 r (h1.1 r h)
    · exact h2.1 r h
  · exact fun r hr => h2.2.1 r (h1.2.1 r hr)
  · exact fun x hx => h1.2.2 x (h2.2.2 x hx)

theorem Good.weaken {s s1 : VSt} {n n' : List Nat} (h : Good s s1 n) (hn : ∀ r ∈ n', r ∈ n) :
    Good s s1 n' := ⟨fun r hr => h.1 r (hn r hr), h.2.1, h.2.2⟩

mutual
theorem visit_good (W : World) (hW : W.Sane) (X : List String) :
    ∀ (t : Tree) (field : String) (P p : List String) (s : VSt), Plain t →
    (∀ x ∈ s.skip, x ∈ P ∨ x ∉ names t) →
    Good s (visit W field (p ++ X) t s) (if field = "decorator_list" then [] else uses W P p t)
  | .mk (.name id) kids, field, P, p, s, _, hs => by
    rw [visit, uses]
    by_cases hf : field = "decorator_list"
    · rw [if_pos hf, if_pos hf]
      refine ⟨by simp, ?_, ?_⟩
      · intro r hr; split <;> exact hr
      · intro r hr; split at hr <;> exact hr
    · rw [if_neg hf, if_neg hf]
      by_cases hk : id ∈ s.skip
      · have hP : id ∈ P := by
          rcases hs id hk with h | h
          · exact h
          · exact absurd (by simp [names]) h
        rw [if_pos hk, if_pos hP]
        exact ⟨by simp, fun r hr => hr, fun x hx => hx⟩
      · rw [if_neg hk]
        refine ⟨?_, ?_, ?_⟩
        · intro r hr
          split at hr
          · simp at hr
          · cases ht : target W p id with
            | none => rw [ht] at hr; simp at hr
            | some o =>
              rw [ht] at hr
              simp only at hr
              rw [target_append W hW p X id o ht (List.ne_nil_of_mem hr)]
              exact mem_addAll_right _ _ _ hr
        · intro r hr
          split
          · exact hr
          · exact mem_addAll_left _ _ _ hr
        · intro x hx
          split at hx <;> exact hx
  | .mk (.attribute a) kids, field, P, p, s, hp, hs => by
    rw [visit, uses]
    exact visitKeep_good W hW X kids field P (a :: p) s (by simpa [Plain] using hp)
      (by simpa [names] using hs)
  | .mk (.functionDef args) kids, field, P, p, s, hp, hs => by
    rw [visit, uses]
    rw [Plain] at hp
    have h := visitKids_good W hW (p ++ X) kids P (args ++ P) { s with skip := args ++ s.skip }
      hp.2 (by
        intro k hk x hx
        rcases List.mem_append.mp hx with ha | ha
        · by_cases hb : k.1 = "body"
          · rw [if_pos hb]; exact Or.inl (List.mem_append_left _ ha)
          · exact Or.inr (hp.1 k hk hb x ha)
        · rcases hs x ha with h | h
          · left; split
            · exact List.mem_append_right _ h
            · exact h
          · right
            intro hn
            refine h ?_
            rw [names]
            exact mem_namesKids kids k hk x hn)
    refine ⟨?_, ?_, by simp⟩
    · intro r hr
      split at hr
      · simp at hr
      · exact h.1 r hr
    · exact fun r hr => h.2.1 r hr
  | .mk .other kids, field, P, p, s, hp, hs => by
    rw [visit, uses]
    have h := visitKids_good W hW (p ++ X) kids P P s (by simpa [Plain] using hp) (by
        intro k hk x hx
        rcases hs x hx with h | h
        · left; split <;> exact h
        · right
          intro hn
          refine h ?_
          rw [names]
          exact mem_namesKids kids k hk x hn)
    refine h.weaken ?_
    intro r hr
    split at hr
    · simp at hr
    · exact hr

theorem visitKids_good (W : World) (hW : W.Sane) (X : List String) :
    ∀ (kids : List (String × Tree)) (P I : List String) (s : VSt), PlainKids kids →
    (∀ k ∈ kids, ∀ x ∈ s.skip, x ∈ (if k.1 = "body" then I else P) ∨ x ∉ names k.2) →
    Good s (visitKids W X kids s) (usesKids W P I [] kids)
  | [], P, I, s, _, _ => ⟨by simp [usesKids], fun r hr => hr, fun x hx => hx⟩
  | (f, t) :: rest, P, I, s, hp, hs => by
    rw [visitKids, usesKids]
    rw [PlainKids] at hp
    have h1 := visit_good W hW X t f (if f = "body" then I else P) [] s hp.1
      (hs (f, t) List.mem_cons_self)
    have h2 := visitKids_good W hW X rest P I (visit W f X t s) hp.2
      (fun k hk x hx => hs k (List.mem_cons_of_mem _ hk) x (h1.2.2 x hx))
    refine Good.trans (h1.weaken ?_) h2
    intro r hr
    split at hr
    · simp at hr
    · rename_i hd
      rw [if_neg hd]
      split at hr
      · rename_i hb; rw [if_pos hb]; exact hr
      · rename_i hb; rw [if_neg hb]; exact hr

theorem visitKeep_good (W : World) (hW : W.Sane) (X : List String) :
    ∀ (kids : List (String × Tree)) (field : String) (P p : List String) (s : VSt),
    PlainKids kids → (∀ x ∈ s.skip, x ∈ P ∨ x ∉ namesKids kids) →
    Good s (visitKeep W field (p ++ X) kids s)
      (if field = "decorator_list" then [] else usesKids W P P p kids)
  | [], field, P, p, s, _, _ => by
    refine ⟨?_, fun r hr => hr, fun x hx => hx⟩
    simp [usesKids]
  | (f, t) :: rest, field, P, p, s, hp, hs => by
    rw [visitKeep, usesKids]
    rw [PlainKids] at hp
    have h1 := visit_good W hW X t field P p s hp.1 (fun x hx => by
      rcases hs x hx with h | h
      · exact Or.inl h
      · refine Or.inr (fun hn => h ?_)
        rw [namesKids]
        exact List.mem_append_left _ hn)
    have h2 := visitKeep_good W hW X rest field P p (visit W field (p ++ X) t s) hp.2
      (fun x hx => by
        rcases hs x (h1.2.2 x hx) with h | h
        · exact Or.inl h
        · refine Or.inr (fun hn => h ?_)
          rw [namesKids]
          exact List.mem_append_right _ hn)
    refine (Good.trans h1 h2).weaken ?_
    intro r hr
    by_cases hf : field = "decorator_list"
    · rw [if_pos hf] at hr; simp at hr
    · rw [if_neg hf] at hr
      rw [if_neg hf, if_neg hf]
      rcases List.mem_append.mp hr with h | h
      · refine List.mem_append_left _ ?_
        split at h
        · simp at h
        · split at h <;> exact h
      · exact List.mem_append_right _ h

theorem mem_namesKids : ∀ (kids : List (String × Tree)) (k : String × Tree), k ∈ kids →
    ∀ x, x ∈ names k.2 → x ∈ namesKids kids
  | [], k, hk, _, _ => by simp at hk
  | (f, t) :: rest, k, hk, x, hx => by
    rw [namesKids]
    rcases List.mem_cons.mp hk with rfl | h
    · exact List.mem_append_left _ hx
    · exact List.mem_append_right _ (mem_namesKids rest k h x hx)
end

/-- **C96, the part that holds.**  If no annotation, default or result type of a
function mentions a name that is also one of its parameters, then every function and
class the source uses is found, however it is nested. -/
theorem dependencies_complete_partial (W : World) (hW : W.Sane) (t : Tree) (ht : Plain t) (r : Nat)
    (hr : r ∈ uses W [] [] t) : r ∈ dependencies W t := by
  have h := visit_good W hW [] t "" [] [] {} ht (by simp)
  exact h.1 r (by simpa using hr)

mutual
theorem visit_nodup (W : World) : ∀ (t : Tree) (field : String) (attrs : List String) (s : VSt),
    s.found.Nodup → (visit W field attrs t s).found.Nodup
  | .mk (.name id) _, field, attrs, s, h => by
    rw [visit]
    split
    · exact h
    · split
      · exact h
      · split
        · exact h
        · exact addAll_nodup _ _ h
  | .mk (.attribute a) kids, field, attrs, s, h => by
    rw [visit]; exact visitKeep_nodup W kids field (a :: attrs) s h
  | .mk (.functionDef args) kids, field, attrs, s, h => by
    rw [visit]; exact visitKids_nodup W kids attrs _ h
  | .mk .other kids, field, attrs, s, h => by
    rw [visit]; exact visitKids_nodup W kids attrs s h

theorem visitKids_nodup (W : World) : ∀ (kids : List (String × Tree)) (attrs : List String)
    (s : VSt), s.found.Nodup → (visitKids W attrs kids s).found.Nodup
  | [], _, _, h => by rw [visitKids]; exact h
  | (f, t) :: rest, attrs, s, h => by
    rw [visitKids]; exact visitKids_nodup W rest attrs _ (visit_nodup W t f attrs s h)

theorem visitKeep_nodup (W : World) : ∀ (kids : List (String × Tree)) (field : String)
    (attrs : List String) (s : VSt), s.found.Nodup →
    (visitKeep W field attrs kids s).found.Nodup
  | [], _, _, _, h => by rw [visitKeep]; exact h
  | (f, t) :: rest, field, attrs, s, h => by
    rw [visitKeep]; exact visitKeep_nodup W rest field attrs _ (visit_nodup W t field attrs s h)
end

/-- No dependency is listed twice. -/
theorem dependencies_nodup (W : World) (t : Tree) : (dependencies W t).Nodup :=
  visit_nodup W t "" [] {} (by simp)

/-- A dependency that some name of the source stands for, possibly with attributes. -/
def Mentioned (W : World) (ns : List String) (r : Nat) : Prop :=
  ∃ id ∈ ns, ∃ attrs o, target W attrs id = some o ∧ r ∈ W.adds o

theorem Mentioned.mono {W : World} {a b : List String} {r : Nat} (h : Mentioned W a r)
    (hab : ∀ x ∈ a, x ∈ b) : Mentioned W b r := by
  obtain ⟨id, hid, rest⟩ := h
  exact ⟨id, hab id hid, rest⟩

mutual
theorem visit_mentioned (W : World) : ∀ (t : Tree) (field : String) (attrs : List String) (s : VSt)
    (r : Nat), r ∈ (visit W field attrs t s).found → r ∈ s.found ∨ Mentioned W (names t) r
  | .mk (.name id) _, field, attrs, s, r, h => by
    rw [visit] at h
    split at h
    · exact Or.inl h
    · split at h
      · exact Or.inl h
      · split at h
        · exact Or.inl h
        · rename_i o ho
          rcases mem_addAll _ _ _ h with h | h
          · exact Or.inl h
          · exact Or.inr ⟨id, by simp [names], attrs, o, ho, h⟩
  | .mk (.attribute a) kids, field, attrs, s, r, h => by
    rw [visit] at h; rw [names]; exact visitKeep_mentioned W kids field (a :: attrs) s r h
  | .mk (.functionDef args) kids, field, attrs, s, r, h => by
    rw [visit] at h; rw [names]
    exact visitKids_mentioned W kids attrs { s with skip := args ++ s.skip } r h
  | .mk .other kids, field, attrs, s, r, h => by
    rw [visit] at h; rw [names]; exact visitKids_mentioned W kids attrs s r h

theorem visitKids_mentioned (W : World) : ∀ (kids : List (String × Tree)) (attrs : List String)
    (s : VSt) (r : Nat), r ∈ (visitKids W attrs kids s).found →
    r ∈ s.found ∨ Mentioned W (namesKids kids) r
  | [], _, _, _, h => by rw [visitKids] at h; exact Or.inl h
  | (f, t) :: rest, attrs, s, r, h => by
    rw [visitKids] at h
    rw [namesKids]
    rcases visitKids_mentioned W rest attrs _ r h with h | h
    · rcases visit_mentioned W t f attrs s r h with h | h
      · exact Or.inl h
      · exact Or.inr (h.mono fun x hx => List.mem_append_left _ hx)
    · exact Or.inr (h.mono fun x hx => List.mem_append_right _ hx)

theorem visitKeep_mentioned (W : World) : ∀ (kids : List (String × Tree)) (field : String)
    (attrs : List String) (s : VSt) (r : Nat), r ∈ (visitKeep W field attrs kids s).found →
    r ∈ s.found ∨ Mentioned W (namesKids kids) r
  | [], _, _, _, _, h => by rw [visitKeep] at h; exact Or.inl h
  | (f, t) :: rest, field, attrs, s, r, h => by
    rw [visitKeep] at h
    rw [namesKids]
    rcases visitKeep_mentioned W rest field attrs _ r h with h | h
    · rcases visit_mentioned W t field attrs s r h with h | h
      · exact Or.inl h
      · exact Or.inr (h.mono fun x hx => List.mem_append_left _ hx)
    · exact Or.inr (h.mono fun x hx => List.mem_append_right _ hx)
end

/-- Nothing is compiled that the source does not name. -/
theorem dependencies_mentioned (W : World) (t : Tree) (r : Nat) (h : r ∈ dependencies W t) :
    ∃ id ∈ names t, ∃ attrs o, target W attrs id = some o ∧ r ∈ W.adds o := by
  rcases visit_mentioned W t "" [] {} r h with h | h
  · simp at h
  · exact h

/-- **C96 is false in general, first reason.**  A parameter called like the class in its
own annotation, as in `def f(Foo: Foo)`, hides the class: Python evaluates the annotation
outside the function, the analysis does not find the class. -/
theorem annotation_missed_refuted (W : World) (id : String) (o r : Nat)
    (hg : W.globals id = some o) (ha : W.adds o = [r]) :
    let t := Tree.mk (.functionDef [id])
      [("args", .mk .other [("args", .mk .other [("annotation", .mk (.name id) [])])])]
    r ∈ uses W [] [] t ∧ dependencies W t = [] := by
  constructor
  · simp [uses, usesKids, target, hg, ha]
  · simp [dependencies, visit, visitKids]

/-- **C96 is false in general, second reason.**  After a nested function the parameters
of the outer one are forgotten: in `def f(x): def g(): ...; return x` the analysis takes
`x` for the function or class of that name in the module, and compiles it. -/
theorem parameter_taken_for_global_refuted (W : World) (id : String) (o r : Nat)
    (hg : W.globals id = some o) (ha : W.adds o = [r]) :
    let t := Tree.mk (.functionDef [id])
      [("body", .mk (.functionDef []) []), ("body", .mk .other [("value", .mk (.name id) [])])]
    uses W [] [] t = [] ∧ dependencies W t = [r] := by
  constructor
  · simp [uses, usesKids]
  · simp [dependencies, visit, visitKids, target, hg, ha, addAll]

/-! A world with a module `m` (object 1) that has a submodule `sub` (2) with a class `K`
(3), and a function `f` (4). -/
def demoWorld : World where
  globals := fun n => if n = "m" then some 1 else if n = "f" then some 4 else none
  isModule := fun o => o == 1 || o == 2
  isDef := fun o => o == 3 || o == 4
  attr := fun o a => if o = 1 ∧ a = "sub" then some 2 else if o = 2 ∧ a = "K" then some 3 else none
  adds := fun o => if o = 3 ∨ o = 4 then [o] else []

example : demoWorld.Sane := by
  intro o h
  by_cases h3 : o = 3
  · subst h3; decide
  · by_cases h4 : o = 4
    · subst h4; decide
    · exact absurd (by simp [demoWorld, h3, h4]) h

/-- `def g(a): return f(m.sub.K().x)`: both the function and the class are found. -/
example : dependencies demoWorld (.mk (.functionDef ["a"]) [("body", .mk .other
    [("func", .mk (.name "f") []), ("args", .mk (.attribute "x") [("value", .mk .other
      [("func", .mk (.attribute "K") [("value", .mk (.attribute "sub")
        [("value", .mk (.name "m") [])])])])])])]) = [4, 3] := by
  simp [dependencies, visit, visitKids, visitKeep, target, follow, demoWorld, addAll]

/-! ### What a name stands for -/

/-- **C97, the part that holds for functions.**  A name the function uses, as a global
name or as a closure variable, stands for what Python finds, unless the name is a closure
variable and at the same time an attribute name and a builtin that the module does not
redefine. -/
theorem function_name_partial (members frame : Dict) (c : Code) (n : String) (o : Nat)
    (hused : n ∈ c.names ∨ c.free n ≠ none)
    (hnot : ¬ (c.free n ≠ none ∧ n ∈ c.names ∧ c.globals n = none ∧ c.builtins n ≠ none))
    (h : pythonName c n = some o) : functionDict members frame c n = some o := by
  simp only [functionDict, updateClosure, Dict.update]
  rw [pythonName] at h
  cases hf : c.free n with
  | some a =>
    rw [hf, Option.some_or] at h
    by_cases hc : n ∈ c.names ∧ c.globals n = none
    · rw [if_pos hc]
      cases hb : c.builtins n with
      | none => simpa using h
      | some b => exact absurd ⟨by rw [hf]; simp, hc.1, hc.2, by rw [hb]; simp⟩ hnot
    · rw [if_neg hc]
      simpa using h
  | none =>
    rw [hf, Option.none_or] at h
    have hn : n ∈ c.names := by
      rcases hused with h | h
      · exact h
      · exact absurd hf h
    cases hg : c.globals n with
    | some g =>
      rw [hg, Option.some_or] at h
      rw [if_neg (by simp), if_pos hn]
      simpa using h
    | none =>
      rw [hg, Option.none_or] at h
      rw [if_pos ⟨hn, rfl⟩, h, Option.some_or]

/-- **C97 is false for functions in general.**  A closure variable called like a builtin
stands for the builtin as soon as the function also uses the name as an attribute. -/
theorem function_name_refuted (members frame : Dict) (c : Code) (n : String) (a b : Nat)
    (hf : c.free n = some a) (hn : n ∈ c.names) (hg : c.globals n = none)
    (hb : c.builtins n = some b) :
    pythonName c n = some a ∧ functionDict members frame c n = some b := by
  constructor
  · rw [pythonName, hf, Option.some_or]
  · simp only [functionDict, updateClosure, Dict.update]
    rw [if_pos ⟨hn, hg⟩, hb, Option.some_or]

/-- **C97, the part that holds for classes.**  In a class defined at the top of the module
from which it is compiled, every name of every method stands for what Python finds. -/
theorem class_name_partial (members builtins : Dict) (init : Option Code) (m : Code) (n : String)
    (o : Nat)
    (hi : ∀ c, init = some c → c.globals = members ∧ c.builtins = builtins ∧ ∀ x, c.free x = none)
    (hg : m.globals = members) (hb : m.builtins = builtins) (hf : m.free n = none)
    (h : pythonName m n = some o) :
    classDict members builtins members members init n = some o := by
  rw [pythonName, hf, Option.none_or, hg, hb] at h
  have hbase : baseDict members builtins members members n = some o := by
    simp only [baseDict, Dict.update]
    cases hm : members n with
    | some a => rw [hm, Option.some_or] at h; simpa using h
    | none => rw [hm, Option.none_or] at h; simp [h]
  cases init with
  | none => exact hbase
  | some c =>
    obtain ⟨h1, h2, h3⟩ := hi c rfl
    simp only [classDict, updateClosure, Dict.update, h3, h1, h2, hbase]
    cases hm : members n with
    | some a =>
      rw [hm, Option.some_or] at h
      by_cases hn : n ∈ c.names <;> simp [h, hn]
    | none =>
      rw [hm, Option.none_or] at h
      by_cases hn : n ∈ c.names
      · simp [hn, h]
      · simp [hn]

/-- **C97 is false for classes.**  A class defined in one module and compiled from
another: a name of a method that both modules define stands for the one of the module that
compiles the class, not for the one of the module the class was written in. -/
theorem class_foreign_name_refuted (members builtins frame globals : Dict) (init : Option Code)
    (m : Code) (n : String) (a b : Nat)
    (hi : ∀ c, init = some c → n ∉ c.names ∧ c.free n = none)
    (hm : m.globals = members) (hf : m.free n = none)
    (hb : members n = some b) (ha : globals n = some a) :
    pythonName m n = some b ∧ classDict members builtins frame globals init n = some a := by
  constructor
  · rw [pythonName, hf, hm, hb, Option.none_or, Option.some_or]
  · cases init with
    | none => simp [classDict, baseDict, Dict.update, ha]
    | some c =>
      obtain ⟨h1, h2⟩ := hi c rfl
      simp [classDict, baseDict, updateClosure, Dict.update, ha, h1, h2]

/-- **C97 is false for classes, second reason.**  A name that the module of the class
redefines stands for the builtin when the class is compiled from another module. -/
theorem class_builtin_name_refuted (members builtins frame globals : Dict) (init : Option Code)
    (m : Code) (n : String) (a b : Nat)
    (hi : ∀ c, init = some c → n ∉ c.names ∧ c.free n = none)
    (hm : m.globals = members) (hf : m.free n = none)
    (hb : members n = some b) (ha : builtins n = some a)
    (hfr : frame n = none) (hgl : globals n = none) :
    pythonName m n = some b ∧ classDict members builtins frame globals init n = some a := by
  constructor
  · rw [pythonName, hf, hm, hb, Option.none_or, Option.some_or]
  · cases init with
    | none => simp [classDict, baseDict, Dict.update, ha, hfr, hgl]
    | some c =>
      obtain ⟨h1, h2⟩ := hi c rfl
      simp [classDict, baseDict, updateClosure, Dict.update, ha, hfr, hgl, h1, h2]

/-- **C97 is false for classes, third reason.**  A class defined inside a function: a local
name of that function that the module also defines stands for the one of the module. -/
theorem class_local_name_refuted (members builtins frame globals : Dict) (init : Option Code)
    (m : Code) (n : String) (a b : Nat)
    (hi : ∀ c, init = some c → n ∉ c.names ∧ c.free n = none)
    (hf : m.free n = some b) (_hfr : frame n = some b) (ha : globals n = some a) :
    pythonName m n = some b ∧ classDict members builtins frame globals init n = some a := by
  constructor
  · rw [pythonName, hf, Option.some_or]
  · cases init with
    | none => simp [classDict, baseDict, Dict.update, ha]
    | some c =>
      obtain ⟨h1, h2⟩ := hi c rfl
      simp [classDict, baseDict, updateClosure, Dict.update, ha, h1, h2]

/-- The function `def f(x): return helper(x, len(x))` with `helper` from its closure. -/
example : let c : Code := ⟨fun _ => none, fun n => if n = "len" then some 7 else none,
      ["len"], fun n => if n = "helper" then some 5 else none⟩
    functionDict (fun _ => none) (fun n => if n = "len" then some 9 else none) c "helper" = some 5 ∧
    functionDict (fun _ => none) (fun n => if n = "len" then some 9 else none) c "len" = some 7 := by
  decide

end Verif.Deps
