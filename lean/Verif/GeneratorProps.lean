/-
C85: a compiled generator function yields what the Python generator yields.
-/
import Verif.Generator
import Mathlib.Tactic.Tauto

namespace Verif.Generator

variable {Val Heap : Type}

/-! ## Conditions on the source -/

/-- Variables the statement assigns. -/
def writes : Stmt Val Heap → List Nat
  | .alloca x _ => [x]
  | .assign x _ => [x]
  | .seq a b => writes a ++ writes b
  | .ite _ a b => writes a ++ writes b
  | .loop _ s => writes s
  | .range v _ _ _ _ _ s => v :: writes s
  | .forIn v _ _ _ s => v :: writes s
  | _ => []

/-- Loops of the statement, by their temporaries. -/
def temps : Stmt Val Heap → List Nat
  | .seq a b => temps a ++ temps b
  | .ite _ a b => temps a ++ temps b
  | .loop _ s => temps s
  | .range _ t _ _ _ _ s => t :: temps s
  | .forIn _ t _ _ s => t :: temps s
  | _ => []

/-- Loops do not share temporaries with loops in their bodies, the upper bound of a range loop is not assigned in its
body, the step is a literal other than 0, and there is no `return`. -/
def Safe : Stmt Val Heap → Prop
  | .seq a b => Safe a ∧ Safe b
  | .ite _ a b => Safe a ∧ Safe b
  | .loop _ s => Safe s
  | .range v t _ hi st _ s => t ∉ temps s ∧ (∀ x ∈ hi.vars, x ∉ v :: writes s) ∧ (∃ n, st = .imm n ∧ n ≠ 0) ∧ Safe s
  | .forIn _ t _ _ s => t ∉ temps s ∧ Safe s
  | .ret _ => False
  | _ => True

/-! ## The transformation keeps the statement -/

/-- Equal up to labels, `yield_mode`, and declarations having become assignments. -/
inductive Corr : Stmt Val Heap → Stmt Val Heap → Prop where
  | skip : Corr .skip .skip
  | alloca (x e) : Corr (.alloca x e) (.alloca x e)
  | allocaA (x e) : Corr (.alloca x e) (.assign x e)
  | assign (x e) : Corr (.assign x e) (.assign x e)
  | eff (e) : Corr (.eff e) (.eff e)
  | seq {a a' b b'} : Corr a a' → Corr b b' → Corr (.seq a b) (.seq a' b')
  | ite {c a a' b b'} : Corr a a' → Corr b b' → Corr (.ite c a b) (.ite c a' b')
  | loop {c s s'} : Corr s s' → Corr (.loop c s) (.loop c s')
  | range {v t lo hi st ym ym' s s'} : Corr s s' → Corr (.range v t lo hi st ym s) (.range v t lo hi st ym' s')
  | forIn {v t e ym ym' s s'} : Corr s s' → Corr (.forIn v t e ym s) (.forIn v t e ym' s')
  | brk : Corr .brk .brk
  | cont : Corr .cont .cont
  | ret (e) : Corr (.ret e) (.ret e)
  | yield (e l l') : Corr (.yield e l) (.yield e l')

theorem corr_relabel (s : Stmt Val Heap) : ∀ n, Corr s (relabel n s).1 := by
  induction s with
  | skip => exact fun _ => .skip
  | alloca x e => exact fun _ => .alloca x e
  | assign x e => exact fun _ => .assign x e
  | eff e => exact fun _ => .eff e
  | seq a b iha ihb => intro n; exact .seq (iha n) (ihb _)
  | ite c a b iha ihb => intro n; exact .ite (iha n) (ihb _)
  | loop c s ih => intro n; exact .loop (ih n)
  | range v t lo hi st ym s ih => intro n; exact .range (ih n)
  | forIn v t e ym s ih => intro n; exact .forIn (ih n)
  | brk => exact fun _ => .brk
  | cont => exact fun _ => .cont
  | ret e => exact fun _ => .ret e
  | yield e l => exact fun n => .yield e l n

theorem corr_removeDefs {s s' : Stmt Val Heap} (h : Corr s s') : Corr s (removeDefs s') := by
  induction h with
  | alloca x e => exact .allocaA x e
  | allocaA x e => exact .allocaA x e
  | seq _ _ iha ihb => exact .seq iha ihb
  | ite _ _ iha ihb => exact .ite iha ihb
  | loop _ ih => exact .loop ih
  | range h _ => exact .range h
  | forIn h _ => exact .forIn h
  | skip => exact .skip
  | assign x e => exact .assign x e
  | eff e => exact .eff e
  | brk => exact .brk
  | cont => exact .cont
  | ret e => exact .ret e
  | yield e l l' => exact .yield e l l'

theorem corr_writes {s s' : Stmt Val Heap} (h : Corr s s') : writes s' = writes s := by
  induction h <;> simp_all [writes]

theorem corr_temps {s s' : Stmt Val Heap} (h : Corr s s') : temps s' = temps s := by
  induction h <;> simp_all [temps]

theorem corr_safe {s s' : Stmt Val Heap} (h : Corr s s') : Safe s → Safe s' := by
  induction h with
  | seq _ _ iha ihb => exact fun h => ⟨iha h.1, ihb h.2⟩
  | ite _ _ iha ihb => exact fun h => ⟨iha h.1, ihb h.2⟩
  | loop _ ih => exact ih
  | range hc ih =>
    rintro ⟨h1, h2, h3, h4⟩
    exact ⟨by rw [corr_temps hc]; exact h1, by rw [corr_writes hc]; exact h2, h3, ih h4⟩
  | forIn hc ih =>
    rintro ⟨h1, h4⟩
    exact ⟨by rw [corr_temps hc]; exact h1, ih h4⟩
  | _ => intro h; exact h

/-! ## Labels -/

theorem relabel_labels (s : Stmt Val Heap) : ∀ n, ∃ k, (relabel n s).2 = n + k ∧
    labels (relabel n s).1 = List.range' n k := by
  have two : ∀ (a b : Stmt Val Heap), (∀ n, ∃ k, (relabel n a).2 = n + k ∧ labels (relabel n a).1 = List.range' n k) →
      (∀ n, ∃ k, (relabel n b).2 = n + k ∧ labels (relabel n b).1 = List.range' n k) → ∀ n, ∃ k,
      (relabel (relabel n a).2 b).2 = n + k ∧
      labels (relabel n a).1 ++ labels (relabel (relabel n a).2 b).1 = List.range' n k := by
    intro a b iha ihb n
    obtain ⟨k1, h1, h2⟩ := iha n
    obtain ⟨k2, h3, h4⟩ := ihb (n + k1)
    refine ⟨k1 + k2, ?_, ?_⟩
    · rw [h1, h3]; omega
    · rw [h1, h2, h4, List.range'_append_1]
  induction s with
  | seq a b iha ihb => intro n; simpa [relabel, labels] using two a b iha ihb n
  | ite c a b iha ihb => intro n; simpa [relabel, labels] using two a b iha ihb n
  | loop c s ih => intro n; simpa [relabel, labels] using ih n
  | range v t lo hi st ym s ih => intro n; simpa [relabel, labels] using ih n
  | forIn v t e ym s ih => intro n; simpa [relabel, labels] using ih n
  | yield e l => intro n; exact ⟨1, rfl, rfl⟩
  | _ => intro n; exact ⟨0, rfl, rfl⟩

theorem labels_removeDefs (s : Stmt Val Heap) : labels (removeDefs s) = labels s := by
  induction s <;> simp_all [removeDefs, labels]

theorem build_labels (s b : Stmt Val Heap) (h : build s = some b) : (labels b).Nodup ∧ ∀ l ∈ labels b, 0 < l := by
  unfold build at h
  simp only at h
  split at h
  · injection h with h
    subst h
    obtain ⟨k, _, h2⟩ := relabel_labels s 1
    rw [labels_removeDefs, h2]
    refine ⟨List.nodup_range', ?_⟩
    intro l hl
    simp [List.mem_range'] at hl
    omega
  · simp at h

theorem build_corr (s b : Stmt Val Heap) (h : build s = some b) : Corr s b := by
  unfold build at h
  simp only at h
  split at h
  · injection h with h
    subst h
    exact corr_removeDefs (corr_relabel s 1)
  · simp at h

/-! ## Continuations at labels -/

theorem findLabel_some (l : Nat) (s : Stmt Val Heap) : ∀ K, (findLabel l s K).isSome = true ↔ l ∈ labels s := by
  induction s with
  | seq a b iha ihb =>
    intro K
    have ha := iha (.seq b :: K)
    have hb := ihb K
    simp only [findLabel, labels, List.mem_append]
    cases h : findLabel l a (.seq b :: K) with
    | none => rw [h] at ha; simp at ha; simp [ha, hb]
    | some x => rw [h] at ha; simp at ha; simp [ha]
  | ite c a b iha ihb =>
    intro K
    have ha := iha K
    have hb := ihb K
    simp only [findLabel, labels, List.mem_append]
    cases h : findLabel l a K with
    | none => rw [h] at ha; simp at ha; simp [ha, hb]
    | some x => rw [h] at ha; simp at ha; simp [ha]
  | loop c s ih => intro K; exact ih _
  | range v t lo hi st ym s ih => intro K; exact ih _
  | forIn v t e ym s ih => intro K; exact ih _
  | yield e l' =>
    intro K
    simp only [findLabel, labels, List.mem_singleton]
    by_cases h : l = l' <;> simp [h]
  | _ => intro K; simp [findLabel, labels]

theorem findLabel_none (l : Nat) (s : Stmt Val Heap) (K) (h : l ∉ labels s) : findLabel l s K = none := by
  have := findLabel_some l s K
  cases hf : findLabel l s K with
  | none => rfl
  | some x => rw [hf] at this; exact absurd (this.1 rfl) h

/-- `s` occurs in `body`, and is followed by `K`. -/
inductive At (body : Stmt Val Heap) : Stmt Val Heap → List (CFrame Val Heap) → Prop where
  | root : At body body []
  | seqL {a b K} : At body (.seq a b) K → At body a (.seq b :: K)
  | seqR {a b K} : At body (.seq a b) K → At body b K
  | iteL {c a b K} : At body (.ite c a b) K → At body a K
  | iteR {c a b K} : At body (.ite c a b) K → At body b K
  | loop {c s K} : At body (.loop c s) K → At body s (.loop c s :: K)
  | range {v t lo hi st ym s K} : At body (.range v t lo hi st ym s) K → At body s (.range v t hi st s :: K)
  | forIn {v t e ym s K} : At body (.forIn v t e ym s) K → At body s (.forIn v t s :: K)

/-- Every frame occurs in the body. -/
def GoodK (body : Stmt Val Heap) : List (CFrame Val Heap) → Prop
  | [] => True
  | .seq b :: K => At body b K ∧ GoodK body K
  | .loop c s :: K => At body (.loop c s) K ∧ GoodK body K
  | .range v t hi st s :: K => (∃ lo ym, At body (.range v t lo hi st ym s) K) ∧ GoodK body K
  | .forIn v t s :: K => (∃ e ym, At body (.forIn v t e ym s) K) ∧ GoodK body K

theorem at_goodK {body s : Stmt Val Heap} {K} (h : At body s K) : GoodK body K := by
  induction h with
  | root => trivial
  | seqL h ih => exact ⟨.seqR h, ih⟩
  | seqR _ ih => exact ih
  | iteL _ ih => exact ih
  | iteR _ ih => exact ih
  | loop h ih => exact ⟨h, ih⟩
  | range h ih => exact ⟨⟨_, _, h⟩, ih⟩
  | forIn h ih => exact ⟨⟨_, _, h⟩, ih⟩

theorem at_nodup {body s : Stmt Val Heap} {K} (h : At body s K) (hn : (labels body).Nodup) : (labels s).Nodup := by
  induction h with
  | root => exact hn
  | seqL _ ih => exact (List.nodup_append.1 ih).1
  | seqR _ ih => exact (List.nodup_append.1 ih).2.1
  | iteL _ ih => exact (List.nodup_append.1 ih).1
  | iteR _ ih => exact (List.nodup_append.1 ih).2.1
  | loop _ ih => exact ih
  | range _ ih => exact ih
  | forIn _ ih => exact ih

/-- The jump to a label inside `s` arrives at the continuation that `s` has in the body. -/
theorem findLabel_at {body s : Stmt Val Heap} {K} (h : At body s K) (hn : (labels body).Nodup) (l : Nat)
    (hl : l ∈ labels s) : findLabel l body [] = findLabel l s K := by
  induction h with
  | root => rfl
  | @seqL a b K h ih =>
    rw [ih (by simp [labels, hl]), findLabel]
    have := (findLabel_some l a (.seq b :: K)).2 hl
    cases hf : findLabel l a (.seq b :: K) with
    | none => rw [hf] at this; simp at this
    | some x => rfl
  | @seqR a b K h ih =>
    rw [ih (by simp [labels, hl]), findLabel]
    have hd := (List.nodup_append.1 (at_nodup h hn)).2.2
    rw [findLabel_none l a _ (fun ha => hd l ha l hl rfl)]
    rfl
  | @iteL c a b K h ih =>
    rw [ih (by simp [labels, hl]), findLabel]
    have := (findLabel_some l a K).2 hl
    cases hf : findLabel l a K with
    | none => rw [hf] at this; simp at this
    | some x => rfl
  | @iteR c a b K h ih =>
    rw [ih (by simp [labels, hl]), findLabel]
    have hd := (List.nodup_append.1 (at_nodup h hn)).2.2
    rw [findLabel_none l a _ (fun ha => hd l ha l hl rfl)]
    rfl
  | loop h ih => rw [ih hl]; rfl
  | range h ih => rw [ih hl]; rfl
  | forIn h ih => rw [ih hl]; rfl

/-! ## Frames -/

/-- The frames of both sides belong together; `W` and `T` are what runs before them may write. -/
def MatchK (w : World Val Heap) (m : Mem Val) : List Nat → List Nat → List (PFrame Val Heap) → List (CFrame Val Heap) → Prop
  | _, _, [], [] => True
  | W, T, .seq s :: K, .seq s' :: K' => Corr s s' ∧ Safe s' ∧ MatchK w m (writes s' ++ W) (temps s' ++ T) K K'
  | W, T, .loop c s :: K, .loop c' s' :: K' =>
    c = c' ∧ Corr s s' ∧ Safe s' ∧ MatchK w m (writes s' ++ W) (temps s' ++ T) K K'
  | W, T, .range v cur hi st s :: K, .range v' t hi' st' s' :: K' =>
    v = v' ∧ m.tmp t = w.int cur ∧ hi'.eval w m.usr = hi ∧ st' = .imm st ∧ st ≠ 0 ∧ t ∉ T ∧ t ∉ temps s' ∧
      (∀ x ∈ hi'.vars, x ∉ W ∧ x ∉ v :: writes s') ∧ Corr s s' ∧ Safe s' ∧
      MatchK w m (v :: writes s' ++ W) (t :: temps s' ++ T) K K'
  | W, T, .forIn v it s :: K, .forIn v' t s' :: K' =>
    v = v' ∧ m.tmp t = it ∧ t ∉ T ∧ t ∉ temps s' ∧ Corr s s' ∧ Safe s' ∧
      MatchK w m (v :: writes s' ++ W) (t :: temps s' ++ T) K K'
  | _, _, _, _ => False

theorem matchK_weaken (w : World Val Heap) (m : Mem Val) : ∀ (K : List (PFrame Val Heap)) (K' : List (CFrame Val Heap))
    (W T W2 T2 : List Nat), (∀ x ∈ W2, x ∈ W) → (∀ x ∈ T2, x ∈ T) → MatchK w m W T K K' → MatchK w m W2 T2 K K' := by
  intro K
  induction K with
  | nil => intro K' W T W2 T2 h1 h2 h; cases K' <;> simp_all [MatchK]
  | cons f K ih =>
    intro K' W T W2 T2 h1 h2 h
    have mono : ∀ {A : List Nat} {X Y : List Nat}, (∀ x ∈ Y, x ∈ X) → ∀ x ∈ A ++ Y, x ∈ A ++ X := by
      intro A X Y hXY x hx
      rcases List.mem_append.1 hx with h | h
      · exact List.mem_append_left _ h
      · exact List.mem_append_right _ (hXY x h)
    match f, K', h with
    | .seq s, .seq s' :: K', ⟨a, b, c⟩ => exact ⟨a, b, ih _ _ _ _ _ (mono h1) (mono h2) c⟩
    | .loop c s, .loop c' s' :: K', ⟨e, a, b, d⟩ => exact ⟨e, a, b, ih _ _ _ _ _ (mono h1) (mono h2) d⟩
    | .range v cur hi st s, .range v' t hi' st' s' :: K', ⟨a, b, c, d, e, f, g, i, j, k, l⟩ =>
      exact ⟨a, b, c, d, e, fun q => f (h2 t q), g, fun x hx => ⟨fun q => (i x hx).1 (h1 x q), (i x hx).2⟩, j, k,
        ih _ _ _ _ _ (mono h1) (mono h2) l⟩
    | .forIn v it s, .forIn v' t s' :: K', ⟨a, b, f, g, j, k, l⟩ =>
      exact ⟨a, b, fun q => f (h2 t q), g, j, k, ih _ _ _ _ _ (mono h1) (mono h2) l⟩
    | .seq _, [], h => exact h.elim
    | .seq _, .loop _ _ :: _, h => exact h.elim
    | .seq _, .range _ _ _ _ _ :: _, h => exact h.elim
    | .seq _, .forIn _ _ _ :: _, h => exact h.elim
    | .loop _ _, [], h => exact h.elim
    | .loop _ _, .seq _ :: _, h => exact h.elim
    | .loop _ _, .range _ _ _ _ _ :: _, h => exact h.elim
    | .loop _ _, .forIn _ _ _ :: _, h => exact h.elim
    | .range _ _ _ _ _, [], h => exact h.elim
    | .range _ _ _ _ _, .seq _ :: _, h => exact h.elim
    | .range _ _ _ _ _, .loop _ _ :: _, h => exact h.elim
    | .range _ _ _ _ _, .forIn _ _ _ :: _, h => exact h.elim
    | .forIn _ _ _, [], h => exact h.elim
    | .forIn _ _ _, .seq _ :: _, h => exact h.elim
    | .forIn _ _ _, .loop _ _ :: _, h => exact h.elim
    | .forIn _ _ _, .range _ _ _ _ _ :: _, h => exact h.elim

theorem atom_upd (w : World Val Heap) (a : Atom) (env : Nat → Val) (x : Nat) (v : Val) (h : x ∉ a.vars) :
    a.eval w (upd env x v) = a.eval w env := by
  cases a with
  | imm n => rfl
  | var y =>
    simp [Atom.vars] at h
    simp only [Atom.eval]; rw [show upd env x v y = env y by simp [upd]; exact fun e => absurd e.symm h]

/-- What may be written does not concern the frames. -/
theorem matchK_mem (w : World Val Heap) (m m2 : Mem Val) : ∀ (K : List (PFrame Val Heap)) (K' : List (CFrame Val Heap))
    (W T : List Nat), (∀ x, x ∉ W → m2.usr x = m.usr x) → (∀ x, x ∉ T → m2.tmp x = m.tmp x) →
    MatchK w m W T K K' → MatchK w m2 W T K K' := by
  intro K
  induction K with
  | nil => intro K' W T h1 h2 h; cases K' <;> simp_all [MatchK]
  | cons f K ih =>
    intro K' W T h1 h2 h
    have ev : ∀ (a : Atom), (∀ x ∈ a.vars, x ∉ W) → a.eval w m2.usr = a.eval w m.usr := by
      intro a ha
      cases a with
      | imm n => rfl
      | var y => simp only [Atom.eval]; rw [h1 y (ha y (by simp [Atom.vars]))]
    have up : ∀ {A : List Nat} {P : Nat → Prop} {X : List Nat}, (∀ x, x ∉ X → P x) → ∀ x, x ∉ A ++ X → P x := by
      intro A P X hX x hx
      exact hX x (fun h => hx (List.mem_append_right _ h))
    match f, K', h with
    | .seq s, .seq s' :: K', ⟨a, b, c⟩ => exact ⟨a, b, ih _ _ _ (up h1) (up h2) c⟩
    | .loop c s, .loop c' s' :: K', ⟨e, a, b, d⟩ => exact ⟨e, a, b, ih _ _ _ (up h1) (up h2) d⟩
    | .range v cur hi st s, .range v' t hi' st' s' :: K', ⟨a, b, c, d, e, f, g, i, j, k, l⟩ =>
      exact ⟨a, by rw [h2 t f]; exact b, by rw [ev hi' (fun x hx => (i x hx).1)]; exact c, d, e, f, g, i, j, k,
        ih _ _ _ (up h1) (up h2) l⟩
    | .forIn v it s, .forIn v' t s' :: K', ⟨a, b, f, g, j, k, l⟩ =>
      exact ⟨a, by rw [h2 t f]; exact b, f, g, j, k, ih _ _ _ (up h1) (up h2) l⟩
    | .seq _, [], h => exact h.elim
    | .seq _, .loop _ _ :: _, h => exact h.elim
    | .seq _, .range _ _ _ _ _ :: _, h => exact h.elim
    | .seq _, .forIn _ _ _ :: _, h => exact h.elim
    | .loop _ _, [], h => exact h.elim
    | .loop _ _, .seq _ :: _, h => exact h.elim
    | .loop _ _, .range _ _ _ _ _ :: _, h => exact h.elim
    | .loop _ _, .forIn _ _ _ :: _, h => exact h.elim
    | .range _ _ _ _ _, [], h => exact h.elim
    | .range _ _ _ _ _, .seq _ :: _, h => exact h.elim
    | .range _ _ _ _ _, .loop _ _ :: _, h => exact h.elim
    | .range _ _ _ _ _, .forIn _ _ _ :: _, h => exact h.elim
    | .forIn _ _ _, [], h => exact h.elim
    | .forIn _ _ _, .seq _ :: _, h => exact h.elim
    | .forIn _ _ _, .loop _ _ :: _, h => exact h.elim
    | .forIn _ _ _, .range _ _ _ _ _ :: _, h => exact h.elim

/-! ## One step -/

/-- Configurations of both sides belong together. -/
structure Match (w : World Val Heap) (body : Stmt Val Heap) (s : Stmt Val Heap) (K : List (PFrame Val Heap))
    (env : Nat → Val) (s' : Stmt Val Heap) (K' : List (CFrame Val Heap)) (m : Mem Val) : Prop where
  corr : Corr s s'
  safe : Safe s'
  env : env = m.usr
  frames : MatchK w m (writes s') (temps s') K K'
  pos : s' = .skip ∨ At body s' K'
  good : GoodK body K'

/-- The results of a step belong together. -/
def MatchStep (w : World Val Heap) (body : Stmt Val Heap) : PStep Val Heap → CStep Val Heap → Prop
  | .go s K env h, .go s' K' m h' => h = h' ∧ Match w body s K env s' K' m
  | .yielded v K env h, .yielded l v' m h' =>
    v = v' ∧ h = h' ∧ ∃ K', findLabel l body [] = some K' ∧ l ∈ labels body ∧ Match w body .skip K env .skip K' m
  | .done h, .done _ h' => h = h'
  | .raised h, .raised _ _ h' => h = h'
  | _, _ => False

theorem at_labels {body s : Stmt Val Heap} {K} (h : At body s K) : ∀ l ∈ labels s, l ∈ labels body := by
  induction h with
  | root => exact fun l h => h
  | seqL _ ih => exact fun l h => ih l (by simp [labels, h])
  | seqR _ ih => exact fun l h => ih l (by simp [labels, h])
  | iteL _ ih => exact fun l h => ih l (by simp [labels, h])
  | iteR _ ih => exact fun l h => ih l (by simp [labels, h])
  | loop _ ih => exact ih
  | range _ ih => exact ih
  | forIn _ ih => exact ih

theorem skip_match (w : World Val Heap) (body : Stmt Val Heap) (K env K' m W T) (hm : MatchK w m W T K K')
    (hg : GoodK body K') (he : env = m.usr) : Match w body .skip K env .skip K' m :=
  ⟨.skip, trivial, he, matchK_weaken w m K K' W T [] [] (by simp) (by simp) hm, .inl rfl, hg⟩

theorem upd_same (env : Nat → Val) (x : Nat) (v : Val) (y : Nat) (h : y ≠ x) : upd env x v y = env y := by
  simp [upd, h]

/-- The end of a statement. -/
theorem continue_match (w : World Val Heap) (body : Stmt Val Heap) (K env K' m h) (hm : MatchK w m [] [] K K')
    (hg : GoodK body K') (he : env = m.usr) : MatchStep w body (pcontinue w K env h) (ccontinue w K' m h) := by
  subst he
  match K, K', hm with
  | [], [], _ => exact rfl
  | .seq s :: K, .seq s' :: K', ⟨a, b, c⟩ =>
    exact ⟨rfl, a, b, rfl, matchK_weaken w m K K' _ _ _ _ (by simp) (by simp) c, .inr hg.1, hg.2⟩
  | .loop c s :: K, .loop c' s' :: K', ⟨e, a, b, cc⟩ =>
    subst e
    exact ⟨rfl, .loop a, b, rfl, matchK_weaken w m K K' _ _ _ _ (by simp [writes]) (by simp [temps]) cc, .inr hg.1, hg.2⟩
  | .range v cur hi st s :: K, .range v' t hi' st' s' :: K', ⟨a, b, c, d, e, f, g, i, j, k, l⟩ =>
    subst a; subst d
    obtain ⟨⟨lo, ym, hat⟩, hg⟩ := hg
    have hhi : hi'.eval w (m.setT t (w.int (w.toInt (m.tmp t) + (Atom.imm st).eval w m.usr))).usr = hi := c
    have htm : w.toInt (m.tmp t) = cur := by rw [b, w.toInt_int]
    simp only [pcontinue, ccontinue, hhi]
    have hst : ∀ env, (Atom.imm st).eval w env = st := fun _ => rfl
    simp only [hst]
    have htt : (m.setT t (w.int (w.toInt (m.tmp t) + st))).tmp t = w.int (cur + st) := by
      simp [Mem.setT, upd, htm]
    rw [htt, w.toInt_int]
    have hfr : ∀ x, x ∉ t :: temps s' ++ ([] : List Nat) → (m.setT t (w.int (w.toInt (m.tmp t) + st))).tmp x = m.tmp x := by
      intro x hx
      exact upd_same _ _ _ _ (fun e => hx (by simp [e]))
    split
    · refine ⟨rfl, j, k, rfl, ⟨rfl, ?_, ?_, rfl, e, g, g, ?_, j, k, ?_⟩, .inr (.range hat), ⟨⟨lo, ym, hat⟩, hg⟩⟩
      · simpa [Mem.setU] using htt
      · show hi'.eval w (upd m.usr v (w.int (cur + st))) = hi
        rw [atom_upd w hi' m.usr v _ (fun h => (i v h).2 (by simp))]
        exact c
      · intro x hx
        exact ⟨fun h => (i x hx).2 (by simp [h]), (i x hx).2⟩
      · refine matchK_weaken w _ K K' _ _ _ _ ?_ ?_ (matchK_mem w m _ K K' (v :: writes s' ++ []) (t :: temps s' ++ []) ?_ ?_ l)
        · intro x hx; simp at hx ⊢; tauto
        · intro x hx; simp at hx ⊢; tauto
        · intro x hx
          exact upd_same _ _ _ _ (fun e => hx (by simp [e]))
        · exact hfr
    · exact ⟨rfl, skip_match w body K _ K' _ (v :: writes s' ++ []) (t :: temps s' ++ [])
        (matchK_mem w m _ K K' _ _ (fun x _ => rfl) hfr l) hg rfl⟩
  | .forIn v it s :: K, .forIn v' t s' :: K', ⟨a, b, f, g, j, k, l⟩ =>
    subst a
    obtain ⟨⟨e0, ym, hat⟩, hg⟩ := hg
    simp only [pcontinue, ccontinue, b]
    cases hn : w.next it h with
    | none => exact ⟨rfl, skip_match w body K _ K' m _ _ l hg rfl⟩
    | some r =>
      obtain ⟨x, it'⟩ := r
      refine ⟨rfl, j, k, rfl, ⟨rfl, ?_, g, g, j, k, ?_⟩, .inr (.forIn hat), ⟨⟨e0, ym, hat⟩, hg⟩⟩
      · simp [Mem.setT, Mem.setU, upd]
      · refine matchK_weaken w _ K K' _ _ _ _ ?_ ?_ (matchK_mem w m _ K K' (v :: writes s' ++ []) (t :: temps s' ++ []) ?_ ?_ l)
        · intro x hx; simp at hx ⊢; tauto
        · intro x hx; simp at hx ⊢; tauto
        · intro x hx
          exact upd_same _ _ _ _ (fun e => hx (by simp [e]))
        · intro x hx
          exact upd_same _ _ _ _ (fun e => hx (by simp [e]))

theorem ploop_match (w : World Val Heap) (body : Stmt Val Heap) (m : Mem Val) : ∀ (K : List (PFrame Val Heap))
    (K' : List (CFrame Val Heap)) (W T : List Nat), MatchK w m W T K K' → GoodK body K' →
    (MatchK w m [] [] (ploop K) (cloop K') ∧ GoodK body (cloop K')) ∧
    (MatchK w m [] [] (ploop K).tail (cloop K').tail ∧ GoodK body (cloop K').tail) := by
  intro K
  induction K with
  | nil =>
    intro K' W T h hg
    cases K' with
    | nil => exact ⟨⟨trivial, trivial⟩, trivial, trivial⟩
    | cons f K' => simp [MatchK] at h
  | cons f K ih =>
    intro K' W T h hg
    have weak := fun (W2 T2 : List Nat) (h1 : ∀ x ∈ W2, x ∈ W) (h2 : ∀ x ∈ T2, x ∈ T) =>
      matchK_weaken w m (f :: K) K' W T W2 T2 h1 h2 h
    match f, K', h, hg with
    | .seq s, .seq s' :: K', ⟨a, b, c⟩, hg => have := ih K' _ _ c hg.2; simpa [ploop, cloop, PFrame.isLoop, CFrame.isLoop] using this
    | .loop c s, .loop c' s' :: K', h, hg =>
      exact ⟨⟨weak [] [] (by simp) (by simp), hg⟩, matchK_weaken w m _ _ _ _ _ _ (by simp) (by simp) h.2.2.2, hg.2⟩
    | .range v cur hi st s, .range v' t hi' st' s' :: K', h, hg =>
      exact ⟨⟨weak [] [] (by simp) (by simp), hg⟩,
        matchK_weaken w m _ _ _ _ _ _ (by simp) (by simp) h.2.2.2.2.2.2.2.2.2.2, hg.2⟩
    | .forIn v it s, .forIn v' t s' :: K', h, hg =>
      exact ⟨⟨weak [] [] (by simp) (by simp), hg⟩,
        matchK_weaken w m _ _ _ _ _ _ (by simp) (by simp) h.2.2.2.2.2.2, hg.2⟩
    | .seq _, [], h, _ => exact h.elim
    | .seq _, .loop _ _ :: _, h, _ => exact h.elim
    | .seq _, .range _ _ _ _ _ :: _, h, _ => exact h.elim
    | .seq _, .forIn _ _ _ :: _, h, _ => exact h.elim
    | .loop _ _, [], h, _ => exact h.elim
    | .loop _ _, .seq _ :: _, h, _ => exact h.elim
    | .loop _ _, .range _ _ _ _ _ :: _, h, _ => exact h.elim
    | .loop _ _, .forIn _ _ _ :: _, h, _ => exact h.elim
    | .range _ _ _ _ _, [], h, _ => exact h.elim
    | .range _ _ _ _ _, .seq _ :: _, h, _ => exact h.elim
    | .range _ _ _ _ _, .loop _ _ :: _, h, _ => exact h.elim
    | .range _ _ _ _ _, .forIn _ _ _ :: _, h, _ => exact h.elim
    | .forIn _ _ _, [], h, _ => exact h.elim
    | .forIn _ _ _, .seq _ :: _, h, _ => exact h.elim
    | .forIn _ _ _, .loop _ _ :: _, h, _ => exact h.elim
    | .forIn _ _ _, .range _ _ _ _ _ :: _, h, _ => exact h.elim

theorem step_match (w : World Val Heap) (body : Stmt Val Heap) (hn : (labels body).Nodup) (s K env s' K' m h)
    (hm : Match w body s K env s' K' m) : MatchStep w body (pstep w s K env h) (cstep w s' K' m h) := by
  obtain ⟨hc, hs, he, hf, hp, hg⟩ := hm
  subst he
  have pos : s' ≠ .skip → At body s' K' := fun hne => hp.resolve_left hne
  cases hc with
  | skip => exact continue_match w body K _ K' m h hf hg rfl
  | alloca x e =>
    simp only [pstep, cstep]
    split
    · exact ⟨rfl, skip_match w body K _ K' _ [x] [] (matchK_mem w m _ K K' _ _
        (fun y hy => upd_same _ _ _ _ (by simpa using hy)) (fun _ _ => rfl) hf) hg rfl⟩
    · exact rfl
  | allocaA x e =>
    simp only [pstep, cstep]
    split
    · exact ⟨rfl, skip_match w body K _ K' _ [x] [] (matchK_mem w m _ K K' _ _
        (fun y hy => upd_same _ _ _ _ (by simpa using hy)) (fun _ _ => rfl) hf) hg rfl⟩
    · exact rfl
  | assign x e =>
    simp only [pstep, cstep]
    split
    · exact ⟨rfl, skip_match w body K _ K' _ [x] [] (matchK_mem w m _ K K' _ _
        (fun y hy => upd_same _ _ _ _ (by simpa using hy)) (fun _ _ => rfl) hf) hg rfl⟩
    · exact rfl
  | eff e =>
    simp only [pstep, cstep]
    split
    · exact ⟨rfl, skip_match w body K _ K' m _ _ hf hg rfl⟩
    · exact rfl
  | seq h1 h2 =>
    have hat := pos (by simp)
    refine ⟨rfl, h1, hs.1, rfl, ⟨h2, hs.2, matchK_weaken w m _ _ _ _ _ _ ?_ ?_ hf⟩, .inr (.seqL hat), .seqR hat, hg⟩
    · intro x hx; simp [writes] at hx ⊢; tauto
    · intro x hx; simp [temps] at hx ⊢; tauto
  | @ite c a a' b b' h1 h2 =>
    have hat := pos (by simp)
    simp only [pstep, cstep]
    split
    · rename_i v h' _
      by_cases hv : w.truthy v = true
      · simp only [hv, if_true]
        exact ⟨rfl, h1, hs.1, rfl, matchK_weaken w m _ _ _ _ _ _ (fun x hx => by simp [writes, hx])
          (fun x hx => by simp [temps, hx]) hf, .inr (.iteL hat), hg⟩
      · simp only [hv, if_false, Bool.false_eq_true]
        exact ⟨rfl, h2, hs.2, rfl, matchK_weaken w m _ _ _ _ _ _ (fun x hx => by simp [writes, hx])
          (fun x hx => by simp [temps, hx]) hf, .inr (.iteR hat), hg⟩
    · exact rfl
  | @loop c s s' h1 =>
    have hat := pos (by simp)
    simp only [pstep, cstep]
    split
    · split
      · refine ⟨rfl, h1, hs, rfl, ⟨rfl, h1, hs, matchK_weaken w m _ _ _ _ _ _ ?_ ?_ hf⟩, .inr (.loop hat), hat, hg⟩
        · intro x hx; simpa [writes] using hx
        · intro x hx; simpa [temps] using hx
      · exact ⟨rfl, skip_match w body K _ K' m _ _ hf hg rfl⟩
    · exact rfl
  | @range v t lo hi st ym ym' s s' h1 =>
    have hat := pos (by simp)
    obtain ⟨k1, k2, ⟨n, rfl, hne⟩, k4⟩ := hs
    have hst : ∀ env, (Atom.imm n).eval w env = n := fun _ => rfl
    simp only [pstep, cstep, hst, hne, if_false]
    have htt : (m.setT t (w.int (lo.eval w m.usr))).tmp t = w.int (lo.eval w m.usr) := by simp [Mem.setT, upd]
    rw [htt, w.toInt_int]
    have hfr : ∀ x, x ∉ t :: temps s' → (m.setT t (w.int (lo.eval w m.usr))).tmp x = m.tmp x := by
      intro x hx
      exact upd_same _ _ _ _ (fun e => hx (by simp [e]))
    have hhi : hi.eval w (m.setT t (w.int (lo.eval w m.usr))).usr = hi.eval w m.usr := rfl
    rw [hhi]
    split
    · refine ⟨rfl, h1, k4, rfl, ⟨rfl, ?_, ?_, rfl, hne, k1, k1, ?_, h1, k4, ?_⟩, .inr (.range hat), ⟨lo, ym', hat⟩, hg⟩
      · simpa [Mem.setU] using htt
      · show hi.eval w (upd m.usr v (w.int (lo.eval w m.usr))) = _
        rw [atom_upd w hi m.usr v _ (fun h => k2 v h (by simp))]
      · intro x hx
        exact ⟨fun h => k2 x hx (by simp [h]), k2 x hx⟩
      · refine matchK_weaken w _ K K' _ _ _ _ ?_ ?_ (matchK_mem w m _ K K' (v :: writes s') (t :: temps s') ?_ ?_ hf)
        · intro x hx; simp at hx ⊢; tauto
        · intro x hx; simp at hx ⊢; tauto
        · intro x hx
          exact upd_same _ _ _ _ (fun e => hx (by simp [e]))
        · exact hfr
    · exact ⟨rfl, skip_match w body K _ K' _ (v :: writes s') (t :: temps s')
        (matchK_mem w m _ K K' _ _ (fun x _ => rfl) hfr hf) hg rfl⟩
  | @forIn v t e ym ym' s s' h1 =>
    have hat := pos (by simp)
    obtain ⟨k1, k4⟩ := hs
    simp only [pstep, cstep]
    split
    · rename_i c h' _
      cases hi : w.iter c h' with
      | none => exact rfl
      | some it =>
        have hfr : ∀ x, x ∉ t :: temps s' → (m.setT t it).tmp x = m.tmp x := by
          intro x hx
          exact upd_same _ _ _ _ (fun e => hx (by simp [e]))
        have hf2 := matchK_mem w m (m.setT t it) K K' (v :: writes s') (t :: temps s') (fun _ _ => rfl) hfr hf
        refine ⟨rfl, .skip, trivial, rfl, ⟨rfl, ?_, by simp [temps], k1, h1, k4, ?_⟩, .inl rfl, ⟨e, ym', hat⟩, hg⟩
        · simp [Mem.setT, upd]
        · refine matchK_weaken w _ K K' _ _ _ _ ?_ ?_ hf2
          · intro x hx; simpa [writes] using hx
          · intro x hx; simpa [temps] using hx
    · exact rfl
  | brk =>
    obtain ⟨_, h1, h2⟩ := ploop_match w body m K K' _ _ hf hg
    exact ⟨rfl, skip_match w body _ _ _ m _ _ h1 h2 rfl⟩
  | cont =>
    obtain ⟨⟨h1, h2⟩, _⟩ := ploop_match w body m K K' _ _ hf hg
    exact ⟨rfl, skip_match w body _ _ _ m _ _ h1 h2 rfl⟩
  | ret e => exact hs.elim
  | yield e l l' =>
    have hat := pos (by simp)
    simp only [pstep, cstep]
    split
    · refine ⟨rfl, rfl, K', ?_, at_labels hat l' (by simp [labels]), skip_match w body K _ K' m _ _ hf hg rfl⟩
      rw [findLabel_at hat hn l' (by simp [labels])]
      simp [findLabel]
    · exact rfl

/-! ## Runs -/

/-- The two generators belong together. -/
def MatchG (w : World Val Heap) (body : Stmt Val Heap) (ps : List Nat) : PGen Val Heap → CGen Val → Prop
  | .fresh env, g => g.state = 0 ∧ env = (copyParams ps g.mem).usr
  | .suspended K env, g => 0 < g.state ∧ ∃ K', findLabel g.state.toNat body [] = some K' ∧
      Match w body .skip K env .skip K' g.mem
  | .finished, _ => False

/-- The results of `next` belong together. -/
def MatchR (w : World Val Heap) (body : Stmt Val Heap) (ps : List Nat) :
    Option (Out Val × PGen Val Heap × Heap) → Option (Bool × CGen Val × Heap) → Prop
  | none, none => True
  | some (.yielded v, p, h), some (false, g, h') => g.value = v ∧ h = h' ∧ MatchG w body ps p g
  | some (.done, _, h), some (false, g, h') => g.state = -1 ∧ h = h'
  | some (.raised, _, h), some (true, _, h') => h = h'
  | _, _ => False

theorem run_match (w : World Val Heap) (body : Stmt Val Heap) (ps : List Nat) (hn : (labels body).Nodup)
    (hl : ∀ l ∈ labels body, 0 < l) : ∀ n s K env s' K' m st val h, Match w body s K env s' K' m →
    MatchR w body ps (prun w n s K env h) (crun w n s' K' st val m h) := by
  intro n
  induction n with
  | zero => intros; trivial
  | succ n ih =>
    intro s K env s' K' m st val h hm
    have := step_match w body hn s K env s' K' m h hm
    simp only [prun, crun]
    cases h1 : pstep w s K env h with
    | go s2 K2 env2 h2 =>
      cases h3 : cstep w s' K' m h with
      | go s3 K3 m3 h4 =>
        rw [h1, h3] at this
        obtain ⟨rfl, hm2⟩ := this
        exact ih _ _ _ _ _ _ st val _ hm2
      | _ => rw [h1, h3] at this; exact this.elim
    | yielded v K2 env2 h2 =>
      cases h3 : cstep w s' K' m h with
      | yielded l v' m3 h4 =>
        rw [h1, h3] at this
        obtain ⟨rfl, rfl, K3, hK, hlb, hm2⟩ := this
        have := hl l hlb
        exact ⟨rfl, rfl, by show (0 : Int) < (l : Int); omega, K3, hK, hm2⟩
      | _ => rw [h1, h3] at this; exact this.elim
    | done h2 =>
      cases h3 : cstep w s' K' m h with
      | done m3 h4 => rw [h1, h3] at this; exact ⟨rfl, this⟩
      | _ => rw [h1, h3] at this; exact this.elim
    | raised h2 =>
      cases h3 : cstep w s' K' m h with
      | raised l m3 h4 => rw [h1, h3] at this; exact this
      | _ => rw [h1, h3] at this; exact this.elim

theorem next_match (w : World Val Heap) (src body : Stmt Val Heap) (ps : List Nat) (hb : build src = some body)
    (hs : Safe src) (n : Nat) (p : PGen Val Heap) (g : CGen Val) (h : Heap) (hm : MatchG w body ps p g) :
    MatchR w body ps (pnext w src n p h) (cnext w body ps n g h) := by
  obtain ⟨hn, hl⟩ := build_labels src body hb
  have hc := build_corr src body hb
  cases p with
  | fresh env =>
    obtain ⟨h0, he⟩ := hm
    simp only [pnext, cnext, h0]
    exact run_match w body ps hn hl n src [] env body [] _ _ _ h
      ⟨hc, corr_safe hc hs, he, trivial, .inr .root, trivial⟩
  | suspended K env =>
    obtain ⟨h0, K', hK, hm⟩ := hm
    simp only [pnext, cnext, h0, if_true, hK]
    exact run_match w body ps hn hl n .skip K env .skip K' _ _ _ h hm
  | finished => exact hm.elim

theorem generator_same_safe (w : World Val Heap) (src body : Stmt Val Heap) (ps : List Nat) (hb : build src = some body)
    (hs : Safe src) (args : Nat → Val) (value : Val) (m : Mem Val) (n : Nat) (fs : List (Heap → Heap)) (h : Heap) :
    cobs w body ps n fs (cnew args value m) h = pobs w src n fs (pnew ps args m) h := by
  have key : ∀ fs (p : PGen Val Heap) (g : CGen Val) h, MatchG w body ps p g →
      cobs w body ps n fs g h = pobs w src n fs p h := by
    intro fs
    induction fs with
    | nil => intros; rfl
    | cons f fs ih =>
      intro p g h hm
      have := next_match w src body ps hb hs n p g (f h) hm
      simp only [cobs, pobs]
      cases h1 : pnext w src n p (f h) with
      | none =>
        cases h2 : cnext w body ps n g (f h) with
        | none => rfl
        | some r => rw [h1, h2] at this; exact this.elim
      | some r =>
        obtain ⟨o, p', h'⟩ := r
        cases h2 : cnext w body ps n g (f h) with
        | none => rw [h1, h2] at this; cases o <;> exact this.elim
        | some r =>
          obtain ⟨ex, g', h''⟩ := r
          rw [h1, h2] at this
          cases o with
          | yielded v =>
            cases ex with
            | true => exact this.elim
            | false =>
              obtain ⟨rfl, rfl, hm2⟩ := this
              have hst : g'.state ≠ -1 := by
                cases p' with
                | fresh env => have := hm2.1; omega
                | suspended K env => have := hm2.1; omega
                | finished => exact hm2.elim
              simp only [cout, hst, if_false, Bool.false_eq_true]
              rw [ih p' g' h' hm2]
          | done =>
            cases ex with
            | true => exact this.elim
            | false =>
              obtain ⟨h3, rfl⟩ := this
              simp [cout, h3]
          | raised =>
            cases ex with
            | false => exact this.elim
            | true => subst this; simp [cout]
  exact key fs _ _ h ⟨rfl, rfl⟩

/-! ## What the compiler accepts -/

/-- `a` is a part of `s`. -/
inductive Sub (a : Stmt Val Heap) : Stmt Val Heap → Prop where
  | refl : Sub a a
  | seqL {x y} : Sub a x → Sub a (.seq x y)
  | seqR {x y} : Sub a y → Sub a (.seq x y)
  | iteL {c x y} : Sub a x → Sub a (.ite c x y)
  | iteR {c x y} : Sub a y → Sub a (.ite c x y)
  | loop {c s} : Sub a s → Sub a (.loop c s)
  | range {v t lo hi st ym s} : Sub a s → Sub a (.range v t lo hi st ym s)
  | forIn {v t e ym s} : Sub a s → Sub a (.forIn v t e ym s)

/-- `s` is a `for` loop, over a range or a container, with the given body. -/
def IsFor (s body : Stmt Val Heap) : Prop :=
  (∃ v t lo hi st ym, s = .range v t lo hi st ym body) ∨ (∃ v t e ym, s = .forIn v t e ym body)

/-- The bodies of `for` loops keep `yield_mode` off. -/
theorem temps_nil (s : Stmt Val Heap) : ∀ n, allYieldMode (relabel n s).1 = true → temps s = [] := by
  induction s with
  | seq a b iha ihb =>
    intro n h
    simp [relabel, allYieldMode] at h
    simp [temps, iha _ h.1, ihb _ h.2]
  | ite c a b iha ihb =>
    intro n h
    simp [relabel, allYieldMode] at h
    simp [temps, iha _ h.1, ihb _ h.2]
  | loop c s ih => intro n h; exact ih n h
  | range v t lo hi st ym s ih => intro n h; simp [relabel, allYieldMode] at h
  | forIn v t e ym s ih => intro n h; simp [relabel, allYieldMode] at h
  | _ => intros; rfl

/-- The upper bound of a range loop is not assigned in its body, and is not its variable; the step is a literal other
than 0; there is no `return`. -/
def Plain : Stmt Val Heap → Prop
  | .seq a b => Plain a ∧ Plain b
  | .ite _ a b => Plain a ∧ Plain b
  | .loop _ s => Plain s
  | .range v _ _ hi st _ s => (∀ x ∈ hi.vars, x ∉ v :: writes s) ∧ (∃ n, st = .imm n ∧ n ≠ 0) ∧ Plain s
  | .forIn _ _ _ _ s => Plain s
  | .ret _ => False
  | _ => True

theorem safe_of_noTemps (s : Stmt Val Heap) (ht : temps s = []) (h : Plain s) : Safe s := by
  induction s with
  | seq a b iha ihb => simp [temps] at ht; exact ⟨iha ht.1 h.1, ihb ht.2 h.2⟩
  | ite c a b iha ihb => simp [temps] at ht; exact ⟨iha ht.1 h.1, ihb ht.2 h.2⟩
  | loop c s ih => exact ih ht h
  | range v t lo hi st ym s ih => simp [temps] at ht
  | forIn v t e ym s ih => simp [temps] at ht
  | _ => exact h

theorem safe_of_plain (s : Stmt Val Heap) : ∀ n, allYieldMode (removeDefs (relabel n s).1) = true → Plain s → Safe s := by
  induction s with
  | seq a b iha ihb =>
    intro n h hp
    simp [relabel, removeDefs, allYieldMode] at h
    exact ⟨iha _ h.1 hp.1, ihb _ h.2 hp.2⟩
  | ite c a b iha ihb =>
    intro n h hp
    simp [relabel, removeDefs, allYieldMode] at h
    exact ⟨iha _ h.1 hp.1, ihb _ h.2 hp.2⟩
  | loop c s ih => intro n h hp; exact ih n h hp
  | range v t lo hi st ym s ih =>
    intro n h hp
    simp [relabel, removeDefs, allYieldMode] at h
    have := temps_nil s _ h
    exact ⟨by simp [this], hp.1, hp.2.1, safe_of_noTemps s this hp.2.2⟩
  | forIn v t e ym s ih =>
    intro n h hp
    simp [relabel, removeDefs, allYieldMode] at h
    have := temps_nil s _ h
    exact ⟨by simp [this], safe_of_noTemps s this hp⟩
  | _ => intro n h hp; exact hp

theorem build_safe (src body : Stmt Val Heap) (hb : build src = some body) (hp : Plain src) : Safe src := by
  unfold build at hb
  simp only at hb
  split at hb
  · rename_i h
    simp at h
    exact safe_of_plain src 1 h.1 hp
  · simp at hb

/-- **C85.**  A caller sees the same from the compiled generator as from Python's, whatever it does to the heap
between the calls: the same values, exceptions, end, and effects; a call that does not return in one does not
return in the other. For programs the compiler accepts, up to the end or the first exception. -/
theorem generator_same_partial (w : World Val Heap) (src body : Stmt Val Heap) (ps : List Nat)
    (hb : build src = some body) (hp : Plain src) (args : Nat → Val) (value : Val) (m : Mem Val) (n : Nat)
    (fs : List (Heap → Heap)) (h : Heap) :
    cobs w body ps n fs (cnew args value m) h = pobs w src n fs (pnew ps args m) h :=
  generator_same_safe w src body ps hb (build_safe src body hb hp) args value m n fs h

theorem sub_temps {a s : Stmt Val Heap} (h : Sub a s) : ∀ t ∈ temps a, t ∈ temps s := by
  induction h with
  | refl => exact fun t h => h
  | seqL _ ih => exact fun t h => by simp [temps, ih t h]
  | seqR _ ih => exact fun t h => by simp [temps, ih t h]
  | iteL _ ih => exact fun t h => by simp [temps, ih t h]
  | iteR _ ih => exact fun t h => by simp [temps, ih t h]
  | loop _ ih => exact fun t h => by simpa [temps] using ih t h
  | range _ ih => exact fun t h => by simp [temps, ih t h]
  | forIn _ ih => exact fun t h => by simp [temps, ih t h]

theorem isFor_temps {s b : Stmt Val Heap} (h : IsFor s b) : temps s ≠ [] := by
  rcases h with ⟨v, t, lo, hi, st, ym, rfl⟩ | ⟨v, t, e, ym, rfl⟩ <;> simp [temps]

theorem nested_notAll {outer body src : Stmt Val Heap} (h1 : Sub outer src) (ho : IsFor outer body)
    (ht : temps body ≠ []) : ∀ n, allYieldMode (removeDefs (relabel n src).1) = false := by
  induction h1 with
  | refl =>
    intro n
    cases ha : allYieldMode (removeDefs (relabel n outer).1) with
    | false => rfl
    | true =>
      rcases ho with ⟨v, t, lo, hi, st, ym, rfl⟩ | ⟨v, t, e, ym, rfl⟩ <;>
      · simp [relabel, removeDefs, allYieldMode] at ha
        exact absurd (temps_nil body _ ha) ht
  | seqL _ ih => intro n; simp [relabel, removeDefs, allYieldMode, ih]
  | seqR _ ih => intro n; simp [relabel, removeDefs, allYieldMode, ih]
  | iteL _ ih => intro n; simp [relabel, removeDefs, allYieldMode, ih]
  | iteR _ ih => intro n; simp [relabel, removeDefs, allYieldMode, ih]
  | loop _ ih => intro n; exact ih n
  | @range v t lo hi st ym s h ih =>
    intro n
    cases ha : allYieldMode (removeDefs (relabel n (.range v t lo hi st ym s)).1) with
    | false => rfl
    | true =>
      simp [relabel, removeDefs, allYieldMode] at ha
      have := temps_nil s _ ha
      obtain ⟨x, hx⟩ := List.exists_mem_of_ne_nil _ (isFor_temps ho)
      have := sub_temps h x hx
      simp_all
  | @forIn v t e ym s h ih =>
    intro n
    cases ha : allYieldMode (removeDefs (relabel n (.forIn v t e ym s)).1) with
    | false => rfl
    | true =>
      simp [relabel, removeDefs, allYieldMode] at ha
      have := temps_nil s _ ha
      obtain ⟨x, hx⟩ := List.exists_mem_of_ne_nil _ (isFor_temps ho)
      have := sub_temps h x hx
      simp_all

/-- A generator with a `for` loop inside a `for` loop does not compile, wherever its yields are. -/
theorem nested_rejected (src outer inner body ibody : Stmt Val Heap) (h1 : Sub outer src) (ho : IsFor outer body)
    (h2 : Sub inner body) (hi : IsFor inner ibody) : build src = none := by
  have ht : temps body ≠ [] := by
    obtain ⟨x, hx⟩ := List.exists_mem_of_ne_nil _ (isFor_temps hi)
    exact List.ne_nil_of_mem (sub_temps h2 x hx)
  unfold build
  simp [nested_notAll h1 ho ht 1]

/-- The statement yields. -/
def Yields (s : Stmt Val Heap) : Prop := ∃ e l, Sub (.yield e l) s

theorem yields_labels {s : Stmt Val Heap} (h : Yields s) : ∀ n, (labels (relabel n s).1).isEmpty = false := by
  obtain ⟨e, l, h⟩ := h
  induction h with
  | refl => intro n; rfl
  | seqL _ ih => intro n; have := ih n; simp_all [relabel, labels]
  | @seqR x y _ ih => intro n; have := ih (relabel n x).2; simp_all [relabel, labels]
  | iteL _ ih => intro n; have := ih n; simp_all [relabel, labels]
  | @iteR c x y _ ih => intro n; have := ih (relabel n x).2; simp_all [relabel, labels]
  | loop _ ih => intro n; exact ih n
  | range _ ih => intro n; exact ih n
  | forIn _ ih => intro n; exact ih n

theorem jumpOk_sub {a b s : Stmt Val Heap} (h : Sub (.seq a b) s) (ha : declares a = true) (hb : Yields b) :
    ∀ n, jumpOk (relabel n s).1 = false := by
  have hd : ∀ n, declares (relabel n a).1 = true := by
    have : ∀ (x : Stmt Val Heap) n, declares (relabel n x).1 = declares x := by
      intro x
      induction x with
      | seq p q ihp ihq => intro n; simp [relabel, declares, ihp, ihq]
      | _ => intro n; simp [relabel, declares]
    intro n
    rw [this, ha]
  induction h with
  | refl =>
    intro n
    have := yields_labels hb (relabel n a).2
    simp only [relabel, jumpOk, hd, this]
    simp
  | seqL _ ih => intro n; simp [relabel, jumpOk, ih]
  | seqR _ ih => intro n; simp [relabel, jumpOk, ih]
  | iteL _ ih => intro n; simp [relabel, jumpOk, ih]
  | iteR _ ih => intro n; simp [relabel, jumpOk, ih]
  | loop _ ih => intro n; exact ih n
  | range _ ih => intro n; exact ih n
  | forIn _ ih => intro n; exact ih n

/-- A generator that first assigns a variable in the body of a `for` loop, before a yield in that body, does not
compile. -/
theorem declared_in_loop_rejected (src outer body b : Stmt Val Heap) (x : Nat) (e : Expr Val Heap)
    (h1 : Sub outer src) (ho : IsFor outer body) (h2 : Sub (.seq (.alloca x e) b) body) (hy : Yields b) :
    build src = none := by
  have key : ∀ n, jumpOk (removeDefs (relabel n src).1) = false := by
    induction h1 with
    | refl =>
      intro n
      rcases ho with ⟨v, t, lo, hi, st, ym, rfl⟩ | ⟨v, t, e, ym, rfl⟩ <;>
      · simp only [relabel, removeDefs, jumpOk]
        exact jumpOk_sub h2 rfl hy n
    | seqL _ ih => intro n; simp [relabel, removeDefs, jumpOk, ih]
    | seqR _ ih => intro n; simp [relabel, removeDefs, jumpOk, ih]
    | iteL _ ih => intro n; simp [relabel, removeDefs, jumpOk, ih]
    | iteR _ ih => intro n; simp [relabel, removeDefs, jumpOk, ih]
    | loop _ ih => intro n; exact ih n
    | range h ih =>
      intro n
      have h3 : Sub (.seq (.alloca x e) b) outer := by
        rcases ho with ⟨v, t, lo, hi, st, ym, rfl⟩ | ⟨v, t, e, ym, rfl⟩
        · exact .range h2
        · exact .forIn h2
      have tr : ∀ {a b c : Stmt Val Heap}, Sub b c → Sub a b → Sub a c := by
        intro a b c hbc hab
        induction hbc with
        | refl => exact hab
        | seqL _ ih => exact .seqL ih
        | seqR _ ih => exact .seqR ih
        | iteL _ ih => exact .iteL ih
        | iteR _ ih => exact .iteR ih
        | loop _ ih => exact .loop ih
        | range _ ih => exact .range ih
        | forIn _ ih => exact .forIn ih
      simp only [relabel, removeDefs, jumpOk]
      exact jumpOk_sub (tr h h3) rfl hy n
    | forIn h ih =>
      intro n
      have h3 : Sub (.seq (.alloca x e) b) outer := by
        rcases ho with ⟨v, t, lo, hi, st, ym, rfl⟩ | ⟨v, t, e, ym, rfl⟩
        · exact .range h2
        · exact .forIn h2
      have tr : ∀ {a b c : Stmt Val Heap}, Sub b c → Sub a b → Sub a c := by
        intro a b c hbc hab
        induction hbc with
        | refl => exact hab
        | seqL _ ih => exact .seqL ih
        | seqR _ ih => exact .seqR ih
        | iteL _ ih => exact .iteL ih
        | iteR _ ih => exact .iteR ih
        | loop _ ih => exact .loop ih
        | range _ ih => exact .range ih
        | forIn _ ih => exact .forIn ih
      simp only [relabel, removeDefs, jumpOk]
      exact jumpOk_sub (tr h h3) rfl hy n
  unfold build
  simp [key 1]

/-- Without `for` loops everything compiles. -/
theorem no_for_accepted (s : Stmt Val Heap) (h : temps s = []) : (build s).isSome = true := by
  have key : ∀ (s : Stmt Val Heap) n, temps s = [] →
      (allYieldMode (removeDefs (relabel n s).1) = true ∧ jumpOk (removeDefs (relabel n s).1) = true) ∧
      declares (removeDefs (relabel n s).1) = false := by
    intro s
    induction s with
    | seq a b iha ihb =>
      intro n h
      simp [temps] at h
      have := iha n h.1
      have := ihb (relabel n a).2 h.2
      simp_all [relabel, removeDefs, allYieldMode, jumpOk, declares]
    | ite c a b iha ihb =>
      intro n h
      simp [temps] at h
      have := iha n h.1
      have := ihb (relabel n a).2 h.2
      simp_all [relabel, removeDefs, allYieldMode, jumpOk, declares]
    | loop c s ih =>
      intro n h
      have := ih n h
      simp_all [relabel, removeDefs, allYieldMode, jumpOk, declares]
    | range v t lo hi st ym s ih => intro n h; simp [temps] at h
    | forIn v t e ym s ih => intro n h; simp [temps] at h
    | _ => intro n h; simp [relabel, removeDefs, allYieldMode, jumpOk, declares]
  unfold build
  have := (key s 1 h).1
  simp [this.1, this.2]

end Verif.Generator
