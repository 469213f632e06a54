import Verif.HashMapProps

/-! # Construction and comparison of Dict; the operations of Set -/

namespace Verif.HashMap

variable {K V : Type} {o : Ops K}

/-! ## Construction -/

theorem insertAll_holds (ho : o.Lawful) {lim : Nat} (hlim : lim ≤ 63) (fuel : Nat) :
    ∀ (xs : List (K × V)) (t : Table K V) (m : Map K V), Holds o t m →
      match insertAll (emplace o lim fuel) t xs with
      | .error e => e = .nomem
      | .ok t' => Holds o t' (xs.foldl (fun m x => m.setDefault o x.1 x.2) m) := by
  intro xs
  induction xs with
  | nil => intro t m h; exact h
  | cons x xs ih =>
    intro t m h
    have he := emplace_holds ho hlim fuel h x.1 x.2
    simp only [insertAll]
    revert he
    cases emplace o lim fuel t (x.1, x.2) with
    | error e => exact id
    | ok r =>
      obtain ⟨t', i, new⟩ := r
      rintro ⟨h1, -⟩
      exact ih t' _ h1

theorem foldl_setDefault (ho : o.Lawful) (xs : List (K × V)) (m : Map K V) (k : K)
    (hm : ∀ k k', o.eq k k' = true → m.item k = m.item k') :
    (xs.foldl (fun m x => m.setDefault o x.1 x.2) m).item k =
      (m.item k).or (xs.find? (fun x => o.eq k x.1)) := by
  induction xs generalizing m with
  | nil => simp
  | cons x xs ih =>
    rw [List.foldl_cons, ih, List.find?_cons]
    · unfold Map.setDefault
      cases hx : m.item x.1 with
      | some y =>
        simp only [Option.isSome_some, if_true]
        cases hk : o.eq k x.1 with
        | false => rfl
        | true => rw [hm _ _ hk, hx]; rfl
      | none =>
        simp only [Option.isSome_none, Bool.false_eq_true, if_false, Map.set, hx]
        cases hk : o.eq k x.1 with
        | false => rfl
        | true => rw [hm _ _ hk, hx]; rfl
    · intro a b hab
      unfold Map.setDefault
      split
      · exact hm a b hab
      · simp only [Map.set]
        have : o.eq a x.1 = o.eq b x.1 := by
          cases h1 : o.eq b x.1 with
          | true => exact ho.trans _ _ _ hab h1
          | false =>
            cases h2 : o.eq a x.1 with
            | false => rfl
            | true => rw [ho.trans _ _ _ (ho.symm _ _ hab) h2] at h1; cases h1
        rw [this, hm a b hab]

/-- A Dict built from pairs has under each key what the first pair with that key has. -/
theorem dict_build_first_wins (ho : o.Lawful) {lim : Nat} (hlim : lim ≤ 63) (fuel : Nat)
    (xs : List (K × V)) :
    match Dict.build o lim fuel xs with
    | .error e => e = .nomem
    | .ok t => Inv o t ∧ ∀ k, Dict.get o t k = .ok ((xs.find? (fun x => o.eq k x.1)).map (·.2)) := by
  have hE := emptyTable_inv (V := V) o (log := 0) (by omega)
  have hr := reserve_spec ho hlim fuel hE xs.length
  unfold Dict.build
  unfold Dict.new
  revert hr
  cases reserve o lim fuel (emptyTable K V 0) xs.length with
  | error e => exact id
  | ok t =>
    rintro ⟨h1, h2⟩
    have h := (holds_empty (V := V) o (log := 0) (by omega)).of_perm ho h1 h2
    have hb := insertAll_holds ho hlim fuel xs t _ h
    dsimp only
    revert hb
    cases insertAll (emplace o lim fuel) t xs with
    | error e => exact id
    | ok t' =>
      intro h3
      refine ⟨h3.inv, fun k => ?_⟩
      rw [dict_get_holds ho h3, foldl_setDefault ho _ _ _ (fun _ _ _ => rfl)]
      rfl

/-- **C26** for pairs with different keys: every pair is in the Dict. -/
theorem dict_build_distinct_partial (ho : o.Lawful) {lim : Nat} (hlim : lim ≤ 63) (fuel : Nat)
    {xs : List (K × V)} (hd : Distinct o xs) :
    match Dict.build o lim fuel xs with
    | .error e => e = .nomem
    | .ok t => ∀ k v, Dict.get o t k = .ok (some v) ↔ ∃ x ∈ xs, o.eq k x.1 = true ∧ x.2 = v := by
  have := dict_build_first_wins ho hlim fuel xs
  revert this
  cases Dict.build o lim fuel xs with
  | error e => exact id
  | ok t =>
    rintro ⟨-, h⟩ k v
    rw [h]
    simp only [Except.ok.injEq, Option.map_eq_some_iff]
    constructor
    · rintro ⟨x, h1, h2⟩
      obtain ⟨h3, h4⟩ := (lookup_some ho hd).mp h1
      exact ⟨x, h3, h4, h2⟩
    · rintro ⟨x, h1, h2, h3⟩
      exact ⟨x, (lookup_some ho hd).mpr ⟨h1, h2⟩, h3⟩

/-- Integer keys with the integer as the hash. -/
def natOps : Ops Nat := ⟨id, fun a b => a == b⟩

theorem natOps_lawful : natOps.Lawful :=
  ⟨fun a => by simp [natOps], fun a b => by simpa [natOps] using Eq.symm,
    fun a b c => by simpa [natOps] using Eq.trans, fun a b => by simp [natOps]⟩

theorem get_build_12 : (match Dict.build natOps 40 40 [(1, 10), (2, 20), (1, 30)] with
    | .ok t => (Dict.get natOps t 1, Dict.get natOps t 2, Dict.get natOps t 3)
    | .error e => (.error e, .error e, .error e)) =
    ((.ok (some 10), .ok (some 20), .ok none) : Except Err (Option Nat) × _ × _) := by decide +kernel

/-- **C26** is false: with a repeated key the first value stays, where Python keeps the last. -/
theorem dict_build_last_wins_refuted :
    ¬ ∀ (xs : List (Nat × Nat)) (t : Table Nat Nat), Dict.build natOps 40 40 xs = .ok t →
      ∀ k v, (xs.reverse.find? (fun x => k == x.1)).map (·.2) = some v → Dict.get natOps t k = .ok (some v) := by
  intro h
  have hb := get_build_12
  cases ht : Dict.build natOps 40 40 [(1, 10), (2, 20), (1, 30)] with
  | error e => rw [ht] at hb; simp at hb
  | ok t =>
    rw [ht] at hb
    have := h _ t ht 1 30 (by decide)
    dsimp only at hb
    rw [this] at hb
    have : (.ok (some 30) : Except Err (Option Nat)) = .ok (some 10) := congrArg Prod.fst hb
    exact absurd this (by decide)

/-! ## Comparison -/

/-- Two lists of the same length with pairwise different keys, one covered by the other. -/
theorem cover_symm {W : Type} (ho : o.Lawful) : ∀ (la : List (K × V)) (lb : List (K × W)), Distinct o la →
    Distinct o lb → (∀ x ∈ la, ∃ y ∈ lb, o.eq x.1 y.1 = true) → la.length = lb.length →
    ∀ y ∈ lb, ∃ x ∈ la, o.eq x.1 y.1 = true := by
  intro la
  induction la with
  | nil =>
    intro lb _ _ _ hl y hy
    have : lb = [] := List.length_eq_zero_iff.mp hl.symm
    subst this
    cases hy
  | cons x la ih =>
    intro lb hda hdb hc hl y hy
    obtain ⟨h1, h2⟩ := List.pairwise_cons.mp hda
    obtain ⟨z, hz, hxz⟩ := hc x (by simp)
    obtain ⟨A, B, rfl⟩ := List.append_of_mem hz
    have hp : (A ++ z :: B).Perm (z :: (A ++ B)) := List.perm_middle
    have hdb' := List.pairwise_cons.mp (hdb.perm ho hp)
    rcases List.mem_cons.mp (hp.mem_iff.mp hy) with rfl | hy'
    · exact ⟨x, by simp, hxz⟩
    · obtain ⟨w, hw, hwy⟩ := ih (A ++ B) h2 hdb'.2 (by
        intro w hw
        obtain ⟨y', hy', hwy'⟩ := hc w (List.mem_cons_of_mem _ hw)
        rcases List.mem_cons.mp (hp.mem_iff.mp hy') with rfl | hy''
        · have := h1 w hw
          rw [ho.trans _ _ _ hxz (ho.symm _ _ hwy')] at this
          cases this
        · exact ⟨y', hy'', hwy'⟩) (by simp at hl ⊢; omega) y hy'
      exact ⟨w, List.mem_cons_of_mem _ hw, hwy⟩

/-- Maps with the same keys and related values. -/
def Map.Same (veq : V → V → Bool) (a b : Map K V) : Prop :=
  ∀ k, match a.item k, b.item k with
    | none, none => True
    | some x, some y => veq x.2 y.2 = true
    | _, _ => False

/-- `==` of Dicts is equality of maps. -/
theorem dict_equal_iff (ho : o.Lawful) (veq : V → V → Bool) {a b : Table K V} {ma mb : Map K V}
    (ha : Holds o a ma) (hb : Holds o b mb) :
    ∃ r, Dict.equal o veq a b = .ok r ∧ (r = true ↔ ma.Same veq mb) := by
  have go : ∀ l : List (K × V), ∃ r, Dict.equal.go o veq b l = .ok r ∧
      (r = true ↔ ∀ x ∈ l, ∃ y, mb.item x.1 = some y ∧ veq x.2 y.2 = true) := by
    intro l
    induction l with
    | nil => exact ⟨true, rfl, by simp⟩
    | cons x l ih =>
      simp only [Dict.equal.go, dict_get_holds ho hb]
      cases hx : mb.item x.1 with
      | none => exact ⟨false, rfl, by simp [hx]⟩
      | some y =>
        simp only [Option.map_some]
        by_cases hv : veq x.2 y.2 = true
        · obtain ⟨r, h1, h2⟩ := ih
          refine ⟨r, by simp [hv, h1], ?_⟩
          rw [h2, List.forall_mem_cons]
          exact ⟨fun h => ⟨⟨y, hx, hv⟩, h⟩, fun h => h.2⟩
        · refine ⟨false, by simp [hv], ?_⟩
          rw [List.forall_mem_cons]
          simp only [Bool.false_eq_true, false_iff]
          rintro ⟨⟨z, h1, h2⟩, -⟩
          rw [hx] at h1
          injection h1 with h1
          subst h1
          exact hv h2
  have iff_of : (∀ x ∈ a.toList, ∃ y, mb.item x.1 = some y ∧ veq x.2 y.2 = true) → a.num = b.num →
      ma.Same veq mb := by
    intro h hn k
    cases hk : ma.item k with
    | some x =>
      obtain ⟨hx, hkx⟩ := ((iteration_exact ho ha).2.2 k x).mp hk
      obtain ⟨y, hy, hv⟩ := h x hx
      obtain ⟨hy1, hy2⟩ := ((iteration_exact ho hb).2.2 _ y).mp hy
      rw [((iteration_exact ho hb).2.2 k y).mpr ⟨hy1, ho.trans _ _ _ hkx hy2⟩]
      exact hv
    | none =>
      cases hkb : mb.item k with
      | none => trivial
      | some y =>
        obtain ⟨hy1, hy2⟩ := ((iteration_exact ho hb).2.2 k y).mp hkb
        obtain ⟨x, hx, hxy⟩ := cover_symm ho a.toList b.toList ha.inv.distinct hb.inv.distinct (by
          intro x hx
          obtain ⟨y, hy, -⟩ := h x hx
          obtain ⟨h1, h2⟩ := ((iteration_exact ho hb).2.2 _ y).mp hy
          exact ⟨y, h1, h2⟩) (by rw [← ha.inv.num, ← hb.inv.num, hn]) y hy1
        rw [((iteration_exact ho ha).2.2 k x).mpr ⟨hx, ho.trans _ _ _ hy2 (ho.symm _ _ hxy)⟩] at hk
        cases hk
  have of_iff : ma.Same veq mb → (∀ x ∈ a.toList, ∃ y, mb.item x.1 = some y ∧ veq x.2 y.2 = true) ∧
      a.num = b.num := by
    intro h
    have h1 : ∀ x ∈ a.toList, ∃ y, mb.item x.1 = some y ∧ veq x.2 y.2 = true := by
      intro x hx
      have hs := h x.1
      rw [((iteration_exact ho ha).2.2 x.1 x).mpr ⟨hx, ho.refl _⟩] at hs
      cases hy : mb.item x.1 with
      | none => rw [hy] at hs; exact hs.elim
      | some y => rw [hy] at hs; exact ⟨y, rfl, hs⟩
    refine ⟨h1, ?_⟩
    have cover_le : ∀ (la lb : List (K × V)), Distinct o la → Distinct o lb →
        (∀ x ∈ la, ∃ y ∈ lb, o.eq x.1 y.1 = true) → la.length ≤ lb.length := by
      intro la
      induction la with
      | nil => intro lb _ _ _; simp
      | cons x la ih =>
        intro lb hda hdb hc
        obtain ⟨h1, h2⟩ := List.pairwise_cons.mp hda
        obtain ⟨z, hz, hxz⟩ := hc x (by simp)
        obtain ⟨A, B, rfl⟩ := List.append_of_mem hz
        have hp : (A ++ z :: B).Perm (z :: (A ++ B)) := List.perm_middle
        have hdb' := List.pairwise_cons.mp (hdb.perm ho hp)
        have := ih (A ++ B) h2 hdb'.2 (by
          intro w hw
          obtain ⟨y', hy', hwy'⟩ := hc w (List.mem_cons_of_mem _ hw)
          rcases List.mem_cons.mp (hp.mem_iff.mp hy') with rfl | hy''
          · have := h1 w hw
            rw [ho.trans _ _ _ hxz (ho.symm _ _ hwy')] at this
            cases this
          · exact ⟨y', hy'', hwy'⟩)
        simp at this ⊢
        omega
    rw [ha.inv.num, hb.inv.num]
    apply le_antisymm
    · apply cover_le _ _ ha.inv.distinct hb.inv.distinct
      intro x hx
      obtain ⟨y, hy, -⟩ := h1 x hx
      obtain ⟨h1, h2⟩ := ((iteration_exact ho hb).2.2 _ y).mp hy
      exact ⟨y, h1, h2⟩
    · apply cover_le _ _ hb.inv.distinct ha.inv.distinct
      intro y hy
      have hs := h y.1
      rw [((iteration_exact ho hb).2.2 y.1 y).mpr ⟨hy, ho.refl _⟩] at hs
      cases hx : ma.item y.1 with
      | none => rw [hx] at hs; exact hs.elim
      | some x =>
        obtain ⟨h1, h2⟩ := ((iteration_exact ho ha).2.2 _ x).mp hx
        exact ⟨x, h1, h2⟩
  unfold Dict.equal
  by_cases hn : a.num = b.num
  · rw [if_neg (by simpa using hn)]
    obtain ⟨r, h1, h2⟩ := go a.toList
    exact ⟨r, h1, h2.trans ⟨fun h => iff_of h hn, fun h => (of_iff h).1⟩⟩
  · rw [if_pos hn]
    exact ⟨false, rfl, by simpa using fun h => hn (of_iff h).2⟩

/-! ## Set -/

/-- Membership, by what iteration yields. -/
def Mem (o : Ops K) (k : K) (t : Table K Unit) : Prop := ∃ x ∈ t.toList, o.eq k x.1 = true

/-- The elements a set stores, in iteration order, are pairwise different, and `len` is their number. -/
theorem set_iteration {t : Table K Unit} (h : Inv o t) : t.num = t.toList.length ∧ Distinct o t.toList :=
  ⟨h.num, h.distinct⟩

theorem set_contains (ho : o.Lawful) {t : Table K Unit} (h : Inv o t) (k : K) :
    ∃ r, Dict.contains o t k = .ok r ∧ (r = true ↔ Mem o k t) := by
  unfold Dict.contains
  rcases find_spec ho h k with ⟨i, e, x, h1, h2, h3⟩ | ⟨h1, h2⟩
  · exact ⟨true, by rw [h1]; rfl, by simpa using ⟨x, mem_contents_of_getElem? h.wf h2, h3⟩⟩
  · refine ⟨false, by rw [h1]; rfl, ?_⟩
    simp only [Bool.false_eq_true, false_iff]
    rintro ⟨x, hx, hk⟩
    rw [h2 x hx] at hk
    cases hk

theorem set_add (ho : o.Lawful) {lim : Nat} (hlim : lim ≤ 63) (fuel : Nat) {t : Table K Unit} (h : Inv o t)
    (k : K) :
    match Set.add o lim fuel t k with
    | .error e => e = .nomem
    | .ok t' => Inv o t' ∧ ∀ a, Mem o a t' ↔ Mem o a t ∨ o.eq a k = true := by
  have := emplace_spec ho hlim fuel t (k, ()) h
  unfold Set.add
  revert this
  cases emplace o lim fuel t (k, ()) with
  | error e => exact id
  | ok r =>
    obtain ⟨t', i, new⟩ := r
    cases new with
    | true =>
      simp only [EmpSpec, if_true]
      rintro ⟨h1, h2, h3, h4, h5⟩
      refine ⟨h1, fun a => ?_⟩
      simp only [Mem, h3.mem_iff, List.mem_cons, exists_eq_or_imp]
      exact or_comm
    | false =>
      simp only [EmpSpec]
      rintro ⟨h1, h2, rfl, e, y, h4, h5⟩
      refine ⟨h1, fun a => ⟨.inl, ?_⟩⟩
      rintro (h6 | h6)
      · exact h6
      · exact ⟨y, mem_contents_of_getElem? h1.wf h4, ho.trans _ _ _ h6 h5⟩

theorem set_discard (ho : o.Lawful) {t : Table K Unit} (h : Inv o t) (k : K) :
    ∃ t', Set.discard o t k = .ok t' ∧ Inv o t' ∧ ∀ a, Mem o a t' ↔ Mem o a t ∧ o.eq a k = false := by
  unfold Set.discard
  rcases find_spec ho h k with ⟨i, e, x, h1, h2, h3⟩ | ⟨h1, h2⟩
  · obtain ⟨t', h4, h5, -, h6⟩ := erase_spec ho h h2
    refine ⟨t', by rw [h1]; exact h4, h5, fun a => ?_⟩
    have hd := (List.pairwise_cons.mp (h.distinct.perm ho h6)).1
    constructor
    · rintro ⟨y, hy, hay⟩
      refine ⟨⟨y, h6.mem_iff.mpr (by simp [hy]), hay⟩, ?_⟩
      cases hak : o.eq a k with
      | false => rfl
      | true =>
        have := hd y hy
        rw [ho.trans _ _ _ (ho.symm _ _ (ho.trans _ _ _ hak h3)) hay] at this
        cases this
    · rintro ⟨⟨y, hy, hay⟩, hak⟩
      rcases List.mem_cons.mp (h6.mem_iff.mp hy) with rfl | hy
      · rw [ho.trans _ _ _ hay (ho.symm _ _ h3)] at hak
        cases hak
      · exact ⟨y, hy, hay⟩
  · refine ⟨t, by rw [h1], h, fun a => ⟨fun hm => ⟨hm, ?_⟩, fun hm => hm.1⟩⟩
    obtain ⟨y, hy, hay⟩ := hm
    cases hak : o.eq a k with
    | false => rfl
    | true =>
      have := h2 y hy
      rw [ho.trans _ _ _ (ho.symm _ _ hak) hay] at this
      cases this

theorem set_update (ho : o.Lawful) {lim : Nat} (hlim : lim ≤ 63) (fuel : Nat) (ks : List K)
    {t : Table K Unit} (h : Inv o t) :
    match Set.update o lim fuel t ks with
    | .error e => e = .nomem
    | .ok t' => Inv o t' ∧ ∀ a, Mem o a t' ↔ Mem o a t ∨ ∃ k ∈ ks, o.eq a k = true := by
  unfold Set.update
  induction ks generalizing t with
  | nil => exact ⟨h, fun a => by simp⟩
  | cons k ks ih =>
    have ha := set_add ho hlim fuel h k
    simp only [Set.each]
    revert ha
    cases Set.add o lim fuel t k with
    | error e => exact id
    | ok t' =>
      rintro ⟨h1, h2⟩
      have := ih h1
      dsimp only
      revert this
      cases Set.each (Set.add o lim fuel) t' ks with
      | error e => exact id
      | ok t'' =>
        rintro ⟨h3, h4⟩
        refine ⟨h3, fun a => ?_⟩
        rw [h4, h2]
        simp [or_assoc]

theorem set_difference_update (ho : o.Lawful) (ks : List K) {t : Table K Unit} (h : Inv o t) :
    ∃ t', Set.differenceUpdate o t ks = .ok t' ∧ Inv o t' ∧
      ∀ a, Mem o a t' ↔ Mem o a t ∧ ∀ k ∈ ks, o.eq a k = false := by
  unfold Set.differenceUpdate
  induction ks generalizing t with
  | nil => exact ⟨t, rfl, h, fun a => by simp⟩
  | cons k ks ih =>
    obtain ⟨t', h1, h2, h3⟩ := set_discard ho h k
    obtain ⟨t'', h4, h5, h6⟩ := ih h2
    refine ⟨t'', by simp only [Set.each, h1, h4], h5, fun a => ?_⟩
    rw [h6, h3]
    simp [and_assoc]

theorem mem_perm {t t' : Table K Unit} (hp : t'.toList.Perm t.toList) (a : K) : Mem o a t' ↔ Mem o a t := by
  simp only [Mem, hp.mem_iff]

theorem set_union (ho : o.Lawful) {lim : Nat} (hlim : lim ≤ 63) (fuel : Nat) (ks : List K)
    {t : Table K Unit} (h : Inv o t) :
    match Set.union o lim fuel t ks with
    | .error e => e = .nomem
    | .ok t' => Inv o t' ∧ ∀ a, Mem o a t' ↔ Mem o a t ∨ ∃ k ∈ ks, o.eq a k = true := by
  have hc := copy_spec ho hlim fuel h
  unfold Set.union
  revert hc
  cases copy o lim fuel t with
  | error e => exact id
  | ok t' =>
    rintro ⟨h1, h2⟩
    have := set_update ho hlim fuel ks h1
    dsimp only
    revert this
    cases Set.update o lim fuel t' ks with
    | error e => exact id
    | ok t'' =>
      rintro ⟨h3, h4⟩
      exact ⟨h3, fun a => by rw [h4, mem_perm h2]⟩

theorem set_difference (ho : o.Lawful) {lim : Nat} (hlim : lim ≤ 63) (fuel : Nat) (ks : List K)
    {t : Table K Unit} (h : Inv o t) :
    match Set.difference o lim fuel t ks with
    | .error e => e = .nomem
    | .ok t' => Inv o t' ∧ ∀ a, Mem o a t' ↔ Mem o a t ∧ ∀ k ∈ ks, o.eq a k = false := by
  have hc := copy_spec ho hlim fuel h
  unfold Set.difference
  revert hc
  cases copy o lim fuel t with
  | error e => exact id
  | ok t' =>
    rintro ⟨h1, h2⟩
    obtain ⟨t'', h3, h4, h5⟩ := set_difference_update ho ks h1
    dsimp only
    rw [h3]
    exact ⟨h4, fun a => by rw [h5, mem_perm h2]⟩

theorem set_build (ho : o.Lawful) {lim : Nat} (hlim : lim ≤ 63) (fuel : Nat) (ks : List K) :
    match Set.build o lim fuel ks with
    | .error e => e = .nomem
    | .ok t => Inv o t ∧ ∀ a, Mem o a t ↔ ∃ k ∈ ks, o.eq a k = true := by
  have hE := emptyTable_inv (V := Unit) o (log := 0) (by omega)
  have hr := reserve_spec ho hlim fuel hE ks.length
  unfold Set.build
  revert hr
  cases reserve o lim fuel (emptyTable K Unit 0) ks.length with
  | error e => exact id
  | ok t =>
    rintro ⟨h1, h2⟩
    rw [emptyTable_toList, List.perm_nil] at h2
    have := set_update ho hlim fuel ks h1
    dsimp only
    revert this
    cases Set.update o lim fuel t ks with
    | error e => exact id
    | ok t' =>
      rintro ⟨h3, h4⟩
      refine ⟨h3, fun a => ?_⟩
      rw [h4]
      simp [Mem, h2]

theorem set_clear {t : Table K Unit} (h : Inv o t) : Inv o (clear t) ∧ ∀ a, ¬ Mem o a (clear t) := by
  obtain ⟨h1, h2⟩ := clear_inv h
  exact ⟨h1, fun a => by simp [Mem, h2]⟩

/-- `==` of Sets is equality of their elements. -/
theorem set_equal_iff (ho : o.Lawful) {a b : Table K Unit} (ha : Inv o a) (hb : Inv o b) :
    ∃ r, Set.equal o a b = .ok r ∧ (r = true ↔ ∀ k, Mem o k a ↔ Mem o k b) := by
  have Ha : Holds o a ⟨fun k => a.toList.find? (fun x => o.eq k x.1), a.num⟩ := ⟨ha, rfl, fun _ => rfl⟩
  have Hb : Holds o b ⟨fun k => b.toList.find? (fun x => o.eq k x.1), b.num⟩ := ⟨hb, rfl, fun _ => rfl⟩
  obtain ⟨r, h1, h2⟩ := dict_equal_iff ho (fun _ _ => true) Ha Hb
  have heq : Set.equal o a b = Dict.equal o (fun _ _ => true) a b := by
    unfold Set.equal Dict.equal
    by_cases hn : a.num = b.num
    · rw [if_neg (by simpa using hn), if_neg (by simpa using hn)]
      generalize a.toList = l
      induction l with
      | nil => rfl
      | cons x l ih =>
        simp only [Set.equal.go, Dict.equal.go, Dict.get]
        rcases find_spec ho hb x.1 with ⟨i, e, y, h3, h4, h5⟩ | ⟨h3, h4⟩
        · rw [h3]
          dsimp only
          rw [valueAt_of h4]
          simpa using ih
        · rw [h3]
    · rw [if_pos hn, if_pos hn]
  refine ⟨r, by rw [heq, h1], h2.trans ?_⟩
  have hmem : ∀ (t : Table K Unit) k, Mem o k t ↔ (t.toList.find? (fun x => o.eq k x.1)).isSome := by
    intro t k
    rw [List.find?_isSome]
    simp [Mem]
  constructor
  · intro h k
    have := h k
    rw [hmem, hmem]
    dsimp only at this
    revert this
    cases a.toList.find? (fun x => o.eq k x.1) <;> cases b.toList.find? (fun x => o.eq k x.1) <;> simp
  · intro h k
    have := h k
    rw [hmem, hmem] at this
    dsimp only
    revert this
    cases a.toList.find? (fun x => o.eq k x.1) <;> cases b.toList.find? (fun x => o.eq k x.1) <;> simp

/-! ## A set as the argument of its own methods -/

theorem advance_spec {log : Nat} {c : List (Cell (K × Unit))} {n b : Nat} (h : WF o log n b c) :
    ∃ p, advance c n = some p ∧ n ≤ p ∧ p < n + c.length ∧
      ((∃ e x, c[p - n]? = some (.full e x)) ∨ p + 1 = slotsOf log + maxLOf log) := by
  induction c generalizing n b with
  | nil => exact h.elim
  | cons a r ih =>
    cases a with
    | empty =>
      obtain ⟨p, h1, h2, h3, h4⟩ := ih (WF_empty.mp h)
      refine ⟨p, h1, by omega, by simp; omega, ?_⟩
      rcases h4 with ⟨e, x, h4⟩ | h4
      · left
        refine ⟨e, x, ?_⟩
        rw [show p - n = (p - (n + 1)) + 1 by omega]
        simpa using h4
      · exact .inr h4
    | full d x => exact ⟨n, rfl, le_refl _, by simp, .inl ⟨d, x, by simp⟩⟩
    | fin => exact ⟨n, rfl, le_refl _, by simp, .inr (WF_fin.mp h).2⟩

theorem add_present (ho : o.Lawful) {lim : Nat} (hlim : lim ≤ 63) (fuel : Nat) {t : Table K Unit} (h : Inv o t)
    {i e : Nat} {x : K × Unit} (hx : t.cells[i]? = some (.full e x)) : Set.add o lim fuel t x.1 = .ok t := by
  unfold Set.add
  have hs := step_spec ho h (x.1, ())
  have hm := mem_contents_of_getElem? h.wf hx
  have : ∃ j, emplace o lim fuel t (x.1, ()) = .ok (t, j, false) := by
    revert hs
    cases hst : step o t (x.1, ()) with
    | oob => exact False.elim
    | present j => intro _; cases fuel <;> exact ⟨j, by simp only [emplace, hst]⟩
    | inserted t' i => rintro ⟨-, -, -, -, h5⟩; have := h5 x hm; rw [ho.refl] at this; cases this
    | full t' => rintro ⟨-, -, -, h5⟩; have := h5 x hm; rw [ho.refl] at this; cases this
  obtain ⟨j, hj⟩ := this
  rw [hj]

/-- `s.update(s)` leaves the set as it is. -/
theorem set_update_self (ho : o.Lawful) {lim : Nat} (hlim : lim ≤ 63) (fuel : Nat) {t : Table K Unit}
    (h : Inv o t) : Set.updateSelf o lim fuel t = .ok t := by
  have hlen := h.wf.length
  have key : ∀ (f pos : Nat), t.cells.length ≤ pos + f →
      ((∃ e x, t.cells[pos]? = some (.full e x)) ∨ pos = t.cells.length - 1) →
      Set.eachSelf (Set.add o lim fuel) (f + 1) t pos (t.cells.length - 1) = .ok t := by
    intro f
    induction f with
    | zero =>
      intro pos h1 h2
      rcases h2 with ⟨e, x, h2⟩ | h2
      · rw [List.getElem?_eq_none (by omega)] at h2
        cases h2
      · simp [Set.eachSelf, h2]
    | succ f ih =>
      intro pos h1 h2
      rw [Set.eachSelf]
      by_cases hp : pos = t.cells.length - 1
      · rw [if_pos hp]
      · rw [if_neg hp]
        rcases h2 with ⟨e, x, h2⟩ | h2
        · rw [h2]
          dsimp only
          have hlt : pos < t.cells.length := by
            by_contra hc
            rw [List.getElem?_eq_none (by omega)] at h2
            cases h2
          obtain ⟨b, h3, -⟩ := h.wf.split (i := pos + 1) (by omega)
          simp only [Nat.zero_add] at h3
          obtain ⟨p, h4, h5, h6, h7⟩ := advance_spec h3
          rw [h4]
          dsimp only
          rw [add_present ho hlim fuel h h2]
          dsimp only
          apply ih p (by omega)
          rcases h7 with ⟨e', x', h7⟩ | h7
          · left
            refine ⟨e', x', ?_⟩
            rw [List.getElem?_drop] at h7
            rwa [show pos + 1 + (p - (pos + 1)) = p by omega] at h7
          · right
            omega
        · exact absurd h2 hp
  unfold Set.updateSelf
  obtain ⟨p, h4, h5, h6, h7⟩ := advance_spec h.wf
  rw [h4]
  dsimp only
  apply key _ _ (by omega)
  rcases h7 with ⟨e', x', h7⟩ | h7
  · exact .inl ⟨e', x', by simpa using h7⟩
  · right; omega

/-- **C27** is false for `s.difference_update(s)`: erasing moves the next element under the iterator, which then
reads a destroyed value (Python empties the set). -/
theorem difference_update_self_refuted :
    ∃ t, Set.build natOps 40 40 [0, 2] = .ok t ∧
      ∀ fuel, 2 ≤ fuel → Set.differenceUpdateSelf natOps fuel t = .error .oob := by
  refine ⟨⟨[.full 0 (0, ()), .full 1 (2, ()), .empty, .empty, .empty, .empty, .empty, .fin], 2, 2⟩, ?_, ?_⟩
  · decide +kernel
  · intro fuel hf
    obtain ⟨n, rfl⟩ := Nat.exists_eq_add_of_le hf
    rw [Nat.add_comm]
    rfl

/-- The same call on a set whose elements are all in their desired slots does empty it. -/
example : (match Set.build natOps 40 40 [0, 1] with
    | .ok t => (Set.differenceUpdateSelf natOps 40 t).map Table.toList
    | .error e => .error e) = .ok [] := by decide +kernel

/-- Union, difference and comparison of sets with collisions. -/
example : (match Set.build natOps 40 40 [0, 2, 5, 10, 13, 18, 0], Set.build natOps 40 40 [18, 10, 5, 2, 13, 0, 2] with
    | .ok a, .ok b => (a.num, a.log, Set.equal natOps a b,
        (Set.difference natOps 40 40 a [2, 13, 7]).map (fun t => t.toList.map Prod.fst),
        (Set.union natOps 40 40 a [7]).map (·.num))
    | _, _ => (0, 0, .ok false, .ok [], .ok 0)) = (6, 4, .ok true, .ok [0, 5, 18, 10], .ok 7) := by decide +kernel

end Verif.HashMap
