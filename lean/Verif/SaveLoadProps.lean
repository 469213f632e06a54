import Verif.SaveLoad
import Mathlib.Tactic.Tauto
/-
Proofs about `Verif.SaveLoad`.
-/

namespace Verif.SaveLoad

variable {δ γ : Type}

/-! ### File names -/

theorem takeWhile_no (l : List Char) : ∀ c ∈ l.takeWhile (fun c => c != '/'), c ≠ '/' := by
  induction l with
  | nil => simp
  | cons a r ih =>
    intro c hc
    rw [List.takeWhile_cons] at hc
    split at hc
    · rename_i ha
      rcases List.mem_cons.1 hc with e | e
      · rw [e]; simpa using ha
      · exact ih c e
    · simp at hc

theorem base_no (s : Str) : '/' ∉ baseName s := by
  intro h
  rw [baseName, List.mem_reverse] at h
  exact takeWhile_no _ _ h rfl

theorem split_inj : ∀ {a b c d : List Char}, '/' ∉ b → '/' ∉ d → a ++ '/' :: b = c ++ '/' :: d → a = c ∧ b = d
  | [], b, [], d, _, _, h => by simpa using h
  | [], b, x :: c, d, hb, _, h => by
    simp only [List.nil_append, List.cons_append, List.cons.injEq] at h
    exact absurd (h.2 ▸ by simp) hb
  | x :: a, b, [], d, _, hd, h => by
    simp only [List.nil_append, List.cons_append, List.cons.injEq] at h
    exact absurd (h.2 ▸ by simp) hd
  | x :: a, b, y :: c, d, hb, hd, h => by
    simp only [List.cons_append, List.cons.injEq] at h
    have := split_inj hb hd h.2
    exact ⟨by rw [h.1, this.1], this.2⟩

theorem dst_inj {folder : Str} {o p : Op δ} {f g : Str} (h : dst folder o f = dst folder p g) :
    relDir o = relDir p ∧ baseName f = baseName g := by
  rw [dst, dst] at h
  have h := List.append_cancel_left h
  simp only [List.cons.injEq, true_and] at h
  exact split_inj (base_no f) (base_no g) h

theorem rel_ne (o : Op δ) {f : Str} (h : f ≠ []) : relFile o f = relDir o ++ '/' :: baseName f := if_neg h

/-! ### Copying -/

/-- What is assumed about the files: sources exist, no two resources share a destination, no source is a
destination, and what is at a destination already is older or the same. -/
structure Files (H : Nat → Op δ) (R : Nat → Prop) (folder : Str) (fs : FS γ) : Prop where
  ex : ∀ i, R i → ∀ f ∈ (H i).files, f ≠ [] → ∃ ct, fs ((H i).pre ++ f) = some ct
  dirs : ∀ i j, R i → R j → (∃ f ∈ (H i).files, f ≠ []) → (∃ f ∈ (H j).files, f ≠ []) →
    relDir (H i) = relDir (H j) → i = j
  bases : ∀ i, R i → ∀ f ∈ (H i).files, ∀ g ∈ (H i).files, f ≠ [] → g ≠ [] → baseName f = baseName g → f = g
  apart : ∀ i j, R i → R j → ∀ f ∈ (H i).files, ∀ g ∈ (H j).files, f ≠ [] → g ≠ [] →
    (H i).pre ++ f ≠ dst folder (H j) g
  old : ∀ i, R i → ∀ f ∈ (H i).files, f ≠ [] → ∀ c t c' t', fs ((H i).pre ++ f) = some (c, t) →
    fs (dst folder (H i) f) = some (c', t') → t' < t ∨ c' = c

/-- The resource is in the folder. -/
def Ok (H : Nat → Op δ) (folder : Str) (fs0 fs : FS γ) (i : Nat) (f : Str) : Prop :=
  (fs (dst folder (H i) f)).map (·.1) = (fs0 ((H i).pre ++ f)).map (·.1)

/-- While saving: other files are untouched, a destination is untouched or has its content. -/
structure During (H : Nat → Op δ) (R : Nat → Prop) (folder : Str) (fs0 fs : FS γ) : Prop where
  other : ∀ p, (∀ i, R i → ∀ f ∈ (H i).files, f ≠ [] → p ≠ dst folder (H i) f) → fs p = fs0 p
  each : ∀ i, R i → ∀ f ∈ (H i).files, f ≠ [] → Ok H folder fs0 fs i f ∨
    fs (dst folder (H i) f) = fs0 (dst folder (H i) f)

/-- Files that are done stay done. -/
def Mono (H : Nat → Op δ) (R : Nat → Prop) (folder : Str) (fs0 fs fs' : FS γ) : Prop :=
  ∀ i, R i → ∀ f ∈ (H i).files, f ≠ [] → Ok H folder fs0 fs i f → Ok H folder fs0 fs' i f

section
variable {H : Nat → Op δ} {R : Nat → Prop} {folder : Str} {fs0 : FS γ} {now : Nat}

theorem src_same (hF : Files H R folder fs0) {fs : FS γ} (hD : During H R folder fs0 fs) {i : Nat} (hi : R i)
    {f : Str} (hf : f ∈ (H i).files) (hn : f ≠ []) : fs ((H i).pre ++ f) = fs0 ((H i).pre ++ f) :=
  hD.other _ fun j hj g hg hgn => hF.apart i j hi hj f hf g hg hn hgn

theorem copy_ok (hF : Files H R folder fs0) {fs : FS γ} (hD : During H R folder fs0 fs) {i : Nat} (hi : R i)
    {f : Str} (hf : f ∈ (H i).files) (hn : f ≠ []) :
    ∃ fs', copy now fs ((H i).pre ++ f) (dst folder (H i) f) = some fs' ∧ During H R folder fs0 fs' ∧
      Mono H R folder fs0 fs fs' ∧ Ok H folder fs0 fs' i f := by
  obtain ⟨⟨c, t⟩, hs0⟩ := hF.ex i hi f hf hn
  have hs := (src_same hF hD hi hf hn).trans hs0
  -- writing the file
  have hw : ∀ fs' : FS γ, fs' = (fun p => if p = dst folder (H i) f then some (c, now) else fs p) →
      During H R folder fs0 fs' ∧ Mono H R folder fs0 fs fs' ∧ Ok H folder fs0 fs' i f := by
    intro fs' he
    have hok : Ok H folder fs0 fs' i f := by
      rw [Ok, he, hs0]; simp
    have hother : ∀ j, R j → ∀ g ∈ (H j).files, g ≠ [] →
        (j = i ∧ g = f) ∨ fs' (dst folder (H j) g) = fs (dst folder (H j) g) := by
      intro j hj g hg hgn
      by_cases hd : dst folder (H j) g = dst folder (H i) f
      · left
        have h := dst_inj hd
        have hji := hF.dirs j i hj hi ⟨g, hg, hgn⟩ ⟨f, hf, hn⟩ h.1
        subst hji
        exact ⟨rfl, hF.bases j hj g hg f hf hgn hn h.2⟩
      · right
        rw [he]; simp [hd]
    refine ⟨⟨fun p hp => ?_, fun j hj g hg hgn => ?_⟩, fun j hj g hg hgn ho => ?_, hok⟩
    · have := hp i hi f hf hn
      rw [he]
      simp only [this, if_false]
      exact hD.other p hp
    · rcases hother j hj g hg hgn with ⟨rfl, rfl⟩ | h
      · exact .inl hok
      · rcases hD.each j hj g hg hgn with h' | h'
        · exact .inl (by rw [Ok, h]; exact h')
        · exact .inr (by rw [h]; exact h')
    · rcases hother j hj g hg hgn with ⟨rfl, rfl⟩ | h
      · exact hok
      · rw [Ok, h]; exact ho
  rw [copy, hs]
  dsimp only
  cases hd : fs (dst folder (H i) f) with
  | none => exact ⟨_, rfl, hw _ rfl⟩
  | some ct' =>
    obtain ⟨c', t'⟩ := ct'
    by_cases ht : t' < t
    · refine ⟨_, rfl, ?_⟩
      simp only [ht, if_true]
      exact hw _ rfl
    · refine ⟨_, rfl, ?_⟩
      simp only [ht, if_false]
      refine ⟨hD, fun _ _ _ _ _ h => h, ?_⟩
      rcases hD.each i hi f hf hn with h | h
      · exact h
      · rcases hF.old i hi f hf hn c t c' t' hs0 (h.symm.trans hd) with h' | h'
        · exact absurd h' ht
        · rw [Ok, hd, hs0, h']; rfl

theorem bundle_ok (hF : Files H R folder fs0) {i : Nat} (hi : R i) :
    ∀ (l : List Str), (∀ f ∈ l, f ∈ (H i).files) → ∀ fs : FS γ, During H R folder fs0 fs →
    ∃ fs', bundle now folder (H i) l fs = some (l.map (relFile (H i)), fs') ∧ During H R folder fs0 fs' ∧
      Mono H R folder fs0 fs fs' ∧ ∀ f ∈ l, f ≠ [] → Ok H folder fs0 fs' i f
  | [], _, fs, hD => ⟨fs, rfl, hD, fun _ _ _ _ _ h => h, by simp⟩
  | f :: r, hl, fs, hD => by
    by_cases hn : f = []
    · obtain ⟨fs', h1, h2, h3, h4⟩ := bundle_ok hF hi r (fun g hg => hl g (by simp [hg])) fs hD
      refine ⟨fs', ?_, h2, h3, ?_⟩
      · rw [bundle, bundlePath, if_pos hn]
        dsimp only
        rw [h1]
        simp [relFile, hn]
      · intro g hg hgn
        rcases List.mem_cons.1 hg with h | h
        · exact absurd (h.trans hn) hgn
        · exact h4 g h hgn
    · obtain ⟨fs1, k1, k2, k3, k4⟩ := copy_ok (now := now) hF hD hi (hl f (by simp)) hn
      obtain ⟨fs', h1, h2, h3, h4⟩ := bundle_ok hF hi r (fun g hg => hl g (by simp [hg])) fs1 k2
      refine ⟨fs', ?_, h2, fun j hj g hg hgn ho => h3 j hj g hg hgn (k3 j hj g hg hgn ho), ?_⟩
      · rw [bundle, bundlePath, if_neg hn, k1]
        dsimp only
        rw [h1]
        simp [relFile, hn]
      · intro g hg hgn
        rcases List.mem_cons.1 hg with h | h
        · rw [h]
          exact h3 i hi f (hl f (by simp)) hn k4
        · exact h4 g h hgn

/-! ### The traversal -/

/-- The entry that `DFSSaveOp` writes. -/
def recOf (H : Nat → Op δ) (i : Nat) : Rec δ :=
  ⟨(H i).cls, (H i).name, (H i).data, (H i).files.map (relFile (H i)), (H i).subs.map (key H)⟩

/-- Sub-operators come earlier (the list is in reverse order). -/
def Closed (H : Nat → Op δ) : List Nat → Prop
  | [] => True
  | i :: r => (∀ j ∈ (H i).subs, j ∈ r) ∧ i ∉ r ∧ Closed H r

structure Inv (H : Nat → Op δ) (R : Nat → Prop) (folder : Str) (fs0 : FS γ) (s : Sv δ γ) : Prop where
  during : During H R folder fs0 s.fs
  done : ∀ i ∈ s.visited, ∀ f ∈ (H i).files, f ≠ [] → Ok H folder fs0 s.fs i f
  reach : ∀ i ∈ s.visited, R i
  closed : Closed H s.visited
  recs : s.recs = s.visited.reverse.map (recOf H)

theorem fold_ok {P : Sv δ γ → Prop} {F : Sv δ γ → Nat → Option (Sv δ γ)} :
    ∀ (l : List Nat) (s : Sv δ γ), P s →
    (∀ i ∈ l, ∀ s, P s → ∃ s', F s i = some s' ∧ P s' ∧ i ∈ s'.visited ∧ ∀ j ∈ s.visited, j ∈ s'.visited) →
    ∃ s', l.foldlM F s = some s' ∧ P s' ∧ (∀ i ∈ l, i ∈ s'.visited) ∧ ∀ j ∈ s.visited, j ∈ s'.visited
  | [], s, hs, _ => ⟨s, rfl, hs, by simp, fun _ h => h⟩
  | i :: r, s, hs, hF => by
    obtain ⟨s1, h1, h2, h3, h4⟩ := hF i (by simp) s hs
    obtain ⟨s', k1, k2, k3, k4⟩ := fold_ok r s1 h2 fun j hj => hF j (by simp [hj])
    refine ⟨s', ?_, k2, ?_, fun j hj => k4 j (h4 j hj)⟩
    · rw [List.foldlM_cons, h1]; exact k1
    · intro j hj
      rcases List.mem_cons.1 hj with h | h
      · rw [h]; exact k4 i h3
      · exact k3 j h

theorem dfs_ok (hF : Files H R folder fs0) (hsub : ∀ i, R i → ∀ j ∈ (H i).subs, R j ∧ j < i) :
    ∀ (n : Nat) (s : Sv δ γ) (i : Nat), R i → i < n → Inv H R folder fs0 s →
    ∃ s', dfs H now folder n s i = some s' ∧ Inv H R folder fs0 s' ∧ i ∈ s'.visited ∧
      ∀ j ∈ s.visited, j ∈ s'.visited
  | 0, _, _, _, h, _ => absurd h (by omega)
  | n + 1, s, i, hi, hin, hs => by
    obtain ⟨s1, h1, h2, h3, h4⟩ := fold_ok (P := Inv H R folder fs0) (F := dfs H now folder n) (H i).subs s hs
      fun j hj s hs => dfs_ok hF hsub n s j (hsub i hi j hj).1 (by have := (hsub i hi j hj).2; omega) hs
    rw [dfs, h1]
    dsimp only
    by_cases hv : i ∈ s1.visited
    · rw [if_pos hv]
      exact ⟨s1, rfl, h2, hv, h4⟩
    · rw [if_neg hv]
      obtain ⟨fs', k1, k2, k3, k4⟩ := bundle_ok (now := now) hF hi (H i).files (fun _ h => h) s1.fs h2.during
      rw [k1]
      refine ⟨_, rfl, ⟨k2, ?_, ?_, ⟨h3, hv, h2.closed⟩, ?_⟩, by simp, fun j hj => by simp [h4 j hj]⟩
      · intro j hj f hf hn
        rcases List.mem_cons.1 hj with h | h
        · subst h; exact k4 f hf hn
        · exact k3 j (h2.reach j h) f hf hn (h2.done j h f hf hn)
      · intro j hj
        rcases List.mem_cons.1 hj with h | h
        · rw [h]; exact hi
        · exact h2.reach j h
      · simp [h2.recs, recOf]

theorem saveOps_ok (hF : Files H R folder fs0) (hsub : ∀ i, R i → ∀ j ∈ (H i).subs, R j ∧ j < i) {fuel : Nat}
    {roots : List Nat} (hr : ∀ i ∈ roots, R i ∧ i < fuel) :
    ∃ s, saveOps H now folder fuel fs0 roots = some s ∧ Inv H R folder fs0 s ∧ ∀ i ∈ roots, i ∈ s.visited := by
  have h0 : Inv H R folder fs0 (⟨[], [], fs0⟩ : Sv δ γ) :=
    ⟨⟨fun _ _ => rfl, fun _ _ _ _ _ => .inr rfl⟩, by simp, by simp, trivial, rfl⟩
  obtain ⟨s, h1, h2, h3, -⟩ := fold_ok (P := Inv H R folder fs0) (F := dfs H now folder fuel) roots _ h0
    fun j hj s hs => dfs_ok hF hsub fuel s j (hr j hj).1 (hr j hj).2 hs
  exact ⟨s, h1, h2, h3⟩

theorem closed_mem {l : List Nat} (h : Closed H l) : ∀ i ∈ l, ∀ j ∈ (H i).subs, j ∈ l := by
  induction l with
  | nil => simp
  | cons a r ih =>
    intro i hi j hj
    rcases List.mem_cons.1 hi with e | e
    · rw [e] at hj; simp [h.1 j hj]
    · simp [ih h.2.2 i e j hj]

/-! ### Behaviours -/

theorem allOf_congr {f g : Nat → Option (Beh δ γ)} : ∀ {l : List Nat}, (∀ i ∈ l, f i = g i) → allOf f l = allOf g l
  | [], _ => rfl
  | i :: r, h => by
    rw [allOf, allOf, h i (by simp), allOf_congr fun j hj => h j (by simp [hj])]

theorem behTo_fuel (hsub : ∀ i, R i → ∀ j ∈ (H i).subs, R j ∧ j < i) : ∀ (n m i : Nat), R i → i < n → i < m →
    behTo H fs0 n i = behTo H fs0 m i
  | 0, _, _, _, h, _ => absurd h (by omega)
  | _, 0, _, _, _, h => absurd h (by omega)
  | n + 1, m + 1, i, hi, hn, hm => by
    rw [behTo, behTo, allOf_congr fun j hj => behTo_fuel hsub n m j (hsub i hi j hj).1
      (by have := (hsub i hi j hj).2; omega) (by have := (hsub i hi j hj).2; omega)]

/-- An operator behaves according to its sub-operators and resources. -/
theorem beh_eq (hsub : ∀ i, R i → ∀ j ∈ (H i).subs, R j ∧ j < i) {i : Nat} (hi : R i) :
    beh H fs0 i =
      match allOf (beh H fs0) (H i).subs with
      | none => none
      | some bs =>
        match readFiles fs0 (H i).pre (H i).files with
        | none => none
        | some cs => some (.node (H i).cls (H i).data cs bs) := by
  rw [beh, behTo, allOf_congr (g := beh H fs0) fun j hj => behTo_fuel hsub i (j + 1) j (hsub i hi j hj).1
    (hsub i hi j hj).2 (by omega)]
  cases allOf (beh H fs0) (H i).subs <;> rfl

theorem readFiles_some {fs : FS γ} {pre : Str} : ∀ {l : List Str}, (∀ f ∈ l, f ≠ [] → ∃ ct, fs (pre ++ f) = some ct) →
    ∃ cs, readFiles fs pre l = some cs
  | [], _ => ⟨[], rfl⟩
  | f :: r, h => by
    obtain ⟨cs, hc⟩ := readFiles_some (fs := fs) (pre := pre) (l := r) fun g hg => h g (by simp [hg])
    by_cases hn : f = []
    · exact ⟨none :: cs, by rw [readFiles, if_pos hn, hc]; rfl⟩
    · obtain ⟨ct, hct⟩ := h f (by simp) hn
      exact ⟨some ct.1 :: cs, by rw [readFiles, if_neg hn, hct, hc]; rfl⟩

theorem allOf_some {f : Nat → Option (Beh δ γ)} : ∀ {l : List Nat}, (∀ i ∈ l, ∃ b, f i = some b) →
    ∃ bs, allOf f l = some bs
  | [], _ => ⟨[], rfl⟩
  | i :: r, h => by
    obtain ⟨bs, hb⟩ := allOf_some (f := f) (l := r) fun j hj => h j (by simp [hj])
    obtain ⟨b, hi⟩ := h i (by simp)
    exact ⟨b :: bs, by rw [allOf, hi, hb]; rfl⟩

theorem beh_some (hF : Files H R folder fs0) (hsub : ∀ i, R i → ∀ j ∈ (H i).subs, R j ∧ j < i) (i : Nat) :
    R i → ∃ b, beh H fs0 i = some b := by
  induction i using Nat.strongRecOn with
  | _ i ih =>
    intro hi
    obtain ⟨bs, hb⟩ := allOf_some (f := beh H fs0) (l := (H i).subs) fun j hj =>
      ih j (hsub i hi j hj).2 (hsub i hi j hj).1
    obtain ⟨cs, hc⟩ := readFiles_some (fs := fs0) (pre := (H i).pre) (l := (H i).files) (hF.ex i hi)
    exact ⟨_, by rw [beh_eq hsub hi, hb, hc]⟩

/-! ### Loading -/

theorem readFiles_rel {fs : FS γ} {o : Op δ} : ∀ {l : List Str},
    (∀ f ∈ l, f ≠ [] → (fs (dst folder o f)).map (·.1) = (fs0 (o.pre ++ f)).map (·.1)) →
    readFiles fs (folder ++ ['/']) (l.map (relFile o)) = readFiles fs0 o.pre l
  | [], _ => rfl
  | f :: r, h => by
    have ih := readFiles_rel (fs := fs) (o := o) (l := r) fun g hg => h g (by simp [hg])
    rw [List.map_cons, readFiles, readFiles, ih]
    by_cases hn : f = []
    · simp [relFile, hn]
    · have hf := h f (by simp) hn
      have hne : relFile o f ≠ [] := by rw [rel_ne o hn]; simp
      have hp : folder ++ ['/'] ++ relFile o f = dst folder o f := by rw [rel_ne o hn, dst]; simp
      rw [if_neg hne, if_neg hn, hp]
      cases h1 : fs (dst folder o f) <;> cases h2 : fs0 (o.pre ++ f) <;> rw [h1, h2] at hf <;> simp at hf
      · dsimp only; rw [hf]

theorem findAll_keys {c : Cache δ γ} : ∀ {l : List Nat}, (∀ j ∈ l, c.find (key H j) = beh H fs0 j) →
    findAll c (l.map (key H)) = allOf (beh H fs0) l
  | [], _ => rfl
  | j :: r, h => by
    rw [List.map_cons, findAll, allOf, h j (by simp), findAll_keys fun k hk => h k (by simp [hk])]

theorem find_glob (c : Cache δ γ) (k k' : Str × Str) (b : Beh δ γ) (h : c.loc k = none) :
    ({ c with glob := c.glob.set k b } : Cache δ γ).find k' = if k' = k then some b else c.find k' := by
  by_cases hk : k' = k
  · subst hk
    simp [Cache.find, h, Scope.set]
  · simp [Cache.find, Scope.set, hk]

theorem find_loc (c : Cache δ γ) (k k' : Str × Str) (b : Beh δ γ) :
    ({ c with loc := c.loc.set k b } : Cache δ γ).find k' = if k' = k then some b else c.find k' := by
  by_cases hk : k' = k
  · subst hk
    simp [Cache.find, Scope.set]
  · simp [Cache.find, Scope.set, hk]

theorem find_none {c : Cache δ γ} {k : Str × Str} (h : c.find k = none) : c.loc k = none ∧ c.glob k = none := by
  rw [Cache.find] at h
  cases hl : c.loc k with
  | none => rw [hl] at h; exact ⟨rfl, h⟩
  | some b => rw [hl] at h; simp at h

theorem loadOps_ok (share : Str → δ → Bool) (hF : Files H R folder fs0)
    (hsub : ∀ i, R i → ∀ j ∈ (H i).subs, R j ∧ j < i)
    (hkey : ∀ i j, R i → R j → key H i = key H j → i = j) {fs : FS γ} {g0 : Scope δ γ}
    (hc : ∀ i, R i → g0 (key H i) = none ∨ g0 (key H i) = beh H fs0 i) :
    ∀ (l : List Nat), Closed H l → (∀ i ∈ l, R i) →
    (∀ i ∈ l, ∀ f ∈ (H i).files, f ≠ [] → Ok H folder fs0 fs i f) →
    ∃ c, loadOps share fs folder ⟨fun _ => none, g0⟩ (l.reverse.map (recOf H)) = some c ∧
      (∀ i ∈ l, c.find (key H i) = beh H fs0 i) ∧ (∀ k, (∀ i ∈ l, k ≠ key H i) → c.find k = g0 k) ∧
      (∀ i, R i → c.glob (key H i) = none ∨ c.glob (key H i) = beh H fs0 i) ∧
      ∀ k, (∀ i ∈ l, share (H i).cls (H i).data = true → k ≠ key H i) → c.glob k = g0 k
  | [], _, _, _ => ⟨_, rfl, by simp, fun _ _ => rfl, hc, fun _ _ => rfl⟩
  | i :: r, hcl, hR, hok => by
    obtain ⟨c, h1, h2, h3, h4, h5⟩ := loadOps_ok share hF hsub hkey hc r hcl.2.2 (fun j hj => hR j (by simp [hj]))
      (fun j hj => hok j (by simp [hj]))
    have hi := hR i (by simp)
    have hl : loadOps share fs folder ⟨fun _ => none, g0⟩ ((i :: r).reverse.map (recOf H)) =
        createOp share fs folder c (recOf H i) := by
      rw [loadOps] at h1 ⊢
      rw [List.reverse_cons, List.map_append, List.foldlM_append, h1]
      simp
    have hk0 : c.find (key H i) = g0 (key H i) := h3 _ fun j hj he =>
      hcl.2.1 ((hkey i j hi (hR j (by simp [hj])) he) ▸ hj)
    obtain ⟨b, hb⟩ := beh_some hF hsub i hi
    have hfin : ∀ c' : Cache δ γ, (∀ k, c'.find k = if k = key H i then some b else c.find k) →
        (∀ j ∈ i :: r, c'.find (key H j) = beh H fs0 j) ∧ ∀ k, (∀ j ∈ i :: r, k ≠ key H j) → c'.find k = g0 k := by
      intro c' he
      constructor
      · intro j hj
        rw [he]
        by_cases hji : key H j = key H i
        · rw [if_pos hji, hkey j i (hR j hj) hi hji, hb]
        · rw [if_neg hji]
          rcases List.mem_cons.1 hj with e | e
          · exact absurd (by rw [e]) hji
          · exact h2 j e
      · intro k hk
        rw [he, if_neg (hk i (by simp))]
        exact h3 k fun j hj => hk j (by simp [hj])
    rw [hl, createOp]
    have hkr : ((recOf H i).cls, (recOf H i).name) = key H i := rfl
    rw [hkr, hk0]
    rcases hc i hi with h | h
    · rw [h]
      dsimp only
      have hrefs : findAll c (recOf H i).refs = allOf (beh H fs0) (H i).subs :=
        findAll_keys fun j hj => h2 j (hcl.1 j hj)
      have hfiles : readFiles fs (folder ++ ['/']) (recOf H i).files = readFiles fs0 (H i).pre (H i).files :=
        readFiles_rel (hok i (by simp))
      rw [hrefs, hfiles]
      have hbe := beh_eq (fs0 := fs0) hsub hi
      rw [hb] at hbe
      cases ha : allOf (beh H fs0) (H i).subs with
      | none => rw [ha] at hbe; simp at hbe
      | some bs =>
        cases hr : readFiles fs0 (H i).pre (H i).files with
        | none => rw [ha, hr] at hbe; simp at hbe
        | some cs =>
          rw [ha, hr] at hbe
          dsimp only at hbe ⊢
          rw [show Beh.node (recOf H i).cls (recOf H i).data cs bs = b from (Option.some.inj hbe).symm]
          have hnone := find_none (hk0.trans h)
          by_cases hsh : share (recOf H i).cls (recOf H i).data = true
          · rw [if_pos hsh]
            have hf := hfin { c with glob := c.glob.set (key H i) b } fun k => find_glob c _ k b hnone.1
            refine ⟨_, rfl, hf.1, hf.2, fun j hj => ?_, fun k hk => ?_⟩
            · by_cases hji : key H j = key H i
              · right
                simp only [Scope.set, hji, if_true]
                rw [hkey j i hj hi hji, hb]
              · simp only [Scope.set, hji, if_false]
                exact h4 j hj
            · have hk1 : k ≠ key H i := hk i (by simp) hsh
              simp only [Scope.set, hk1, if_false]
              exact h5 k fun j hj => hk j (by simp [hj])
          · rw [if_neg hsh]
            have hf := hfin { c with loc := c.loc.set (key H i) b } fun k => find_loc c _ k b
            exact ⟨_, rfl, hf.1, hf.2, h4, fun k hk => h5 k fun j hj => hk j (by simp [hj])⟩
    · rw [h, hb]
      dsimp only
      have hf := hfin c fun k => by
        by_cases hk : k = key H i
        · rw [if_pos hk, hk, hk0, h, hb]
        · rw [if_neg hk]
      exact ⟨c, rfl, hf.1, hf.2, h4, fun k hk => h5 k fun j hj => hk j (by simp [hj])⟩

end

end Verif.SaveLoad
