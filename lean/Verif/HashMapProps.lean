import Verif.HashMapInv

/-! # Dict and Set are finite maps and sets -/

namespace Verif.HashMap

variable {K V : Type} {o : Ops K}

/-! ## Erasing, assigning, clearing -/

theorem erase_spec (ho : o.Lawful) {t : Table K V} (hi : Inv o t) {i e : Nat} {x : K × V}
    (hx : t.cells[i]? = some (.full e x)) :
    ∃ t', eraseAt t i = .ok t' ∧ Inv o t' ∧ t'.log = t.log ∧ t.toList.Perm (x :: t'.toList) := by
  have hlt : i < t.cells.length := by
    by_contra h
    rw [List.getElem?_eq_none (by omega)] at hx
    cases hx
  have hdrop : t.cells.drop i = .full e x :: t.cells.drop (i + 1) := by
    rw [List.drop_eq_getElem_cons hlt]
    rw [List.getElem?_eq_getElem hlt] at hx
    injection hx with hx
    rw [hx]
  obtain ⟨b, h1, h2, h3, -, -⟩ := hi.wf.split hlt
  simp only [Nat.zero_add] at h1 h2
  rw [hdrop, WF_full] at h1
  obtain ⟨r, h4, h5, h6⟩ := shift_spec (p := b) h1.2.2.2 (by omega)
  have hlist : t.toList = contents (t.cells.take i) ++ x :: contents r := by
    unfold Table.toList
    conv_lhs => rw [← List.take_append_drop i t.cells, h3, hdrop]
    rw [h6]
    rfl
  have hlist' : contents (t.cells.take i ++ r) = contents (t.cells.take i) ++ contents r := h3 r
  have hperm : t.toList.Perm (x :: contents (t.cells.take i ++ r)) := by
    rw [hlist, hlist']
    exact List.perm_middle
  refine ⟨{ t with cells := t.cells.take i ++ r, num := t.num - 1 }, ?_, ⟨h2 r h5, ?_, ?_, hi.log, ?_⟩, rfl, hperm⟩
  · unfold eraseAt
    rw [hx]
    dsimp only
    rw [h4]
  · show t.num - 1 = (contents (t.cells.take i ++ r)).length
    rw [hi.num, hperm.length_eq]
    simp
  · exact (List.pairwise_cons.mp (hi.distinct.perm ho hperm)).2
  · intro h0
    have := hi.default h0
    rw [this] at hperm
    have := hperm.length_eq
    simp at this

theorem assign_spec {t : Table K V} (hi : Inv o t) {i e : Nat} {x : K × V} (v : V)
    (hx : t.cells[i]? = some (.full e x)) :
    ∃ t' A B, assignAt t i v = .ok t' ∧ t.toList = A ++ x :: B ∧ t'.toList = A ++ (x.1, v) :: B ∧ Inv o t' ∧
      t'.log = t.log ∧ t'.num = t.num := by
  have hlt : i < t.cells.length := by
    by_contra h
    rw [List.getElem?_eq_none (by omega)] at hx
    cases hx
  have hdrop : t.cells.drop i = .full e x :: t.cells.drop (i + 1) := by
    rw [List.drop_eq_getElem_cons hlt]
    rw [List.getElem?_eq_getElem hlt] at hx
    injection hx with hx
    rw [hx]
  have hset : t.cells.set i (.full e (x.1, v)) = t.cells.take i ++ .full e (x.1, v) :: t.cells.drop (i + 1) := by
    rw [List.set_eq_take_append_cons_drop]
    simp [hlt]
  obtain ⟨b, h1, h2, h3, -, -⟩ := hi.wf.split hlt
  simp only [Nat.zero_add] at h1 h2
  rw [hdrop, WF_full] at h1
  have hlist : t.toList = contents (t.cells.take i) ++ x :: contents (t.cells.drop (i + 1)) := by
    unfold Table.toList
    conv_lhs => rw [← List.take_append_drop i t.cells, h3, hdrop]
    rfl
  have hlist' : contents (t.cells.set i (.full e (x.1, v))) =
      contents (t.cells.take i) ++ (x.1, v) :: contents (t.cells.drop (i + 1)) := by
    rw [hset, h3]
    rfl
  refine ⟨{ t with cells := t.cells.set i (.full e (x.1, v)) }, _, _, ?_, hlist, hlist', ⟨?_, ?_, ?_, hi.log, ?_⟩,
    rfl, rfl⟩
  · unfold assignAt
    rw [hx]
  · show WF o t.log 0 0 (t.cells.set i (.full e (x.1, v)))
    rw [hset]
    exact h2 _ ⟨h1.1, h1.2.1, h1.2.2.1, h1.2.2.2⟩
  · show t.num = (contents (t.cells.set i (.full e (x.1, v)))).length
    rw [hlist', hi.num, hlist]
    simp
  · show Distinct o (contents (t.cells.set i (.full e (x.1, v))))
    have := hi.distinct
    rw [hlist'] 
    rw [hlist] at this
    unfold Distinct at this ⊢
    rw [List.pairwise_append, List.pairwise_cons] at this ⊢
    refine ⟨this.1, ⟨this.2.1.1, this.2.1.2⟩, ?_⟩
    intro a ha b hb
    rcases List.mem_cons.mp hb with rfl | hb
    · exact this.2.2 a ha x (by simp)
    · exact this.2.2 a ha b (by simp [hb])
  · intro h0
    have := hi.default h0
    rw [hlist] at this
    simp at this

theorem clear_inv {t : Table K V} (hi : Inv o t) : Inv o (clear t) ∧ (clear t).toList = [] := by
  have key : ∀ (c : List (Cell (K × V))) n b b', WF o t.log n b c →
      WF o t.log n b' (c.map (fun | .full _ _ => .empty | c => c)) ∧
        contents (c.map (fun | .full _ _ => .empty | c => c)) = [] := by
    intro c
    induction c with
    | nil => intro n b b' h; exact h.elim
    | cons a r ih =>
      intro n b b' h
      cases a with
      | empty => exact ih _ _ 0 (WF_empty.mp h)
      | full d x => exact ih _ _ 0 (WF_full.mp h).2.2.2
      | fin =>
        obtain ⟨rfl, h'⟩ := WF_fin.mp h
        exact ⟨⟨rfl, h'⟩, rfl⟩
  obtain ⟨h1, h2⟩ := key t.cells 0 0 0 hi.wf
  have h2 : (clear t).toList = [] := h2
  refine ⟨⟨h1, ?_, ?_, hi.log, fun _ => h2⟩, h2⟩
  · rw [h2]; rfl
  · rw [h2]; exact List.Pairwise.nil

theorem reserve_spec (ho : o.Lawful) {lim : Nat} (hlim : lim ≤ 63) (fuel : Nat) {t : Table K V} (hi : Inv o t)
    (n : Nat) :
    match reserve o lim fuel t n with
    | .error e => e = .nomem
    | .ok t' => Inv o t' ∧ t'.toList.Perm t.toList := by
  unfold reserve
  by_cases h : bucketCountOf t.log < 2 * n
  · rw [if_pos h]
    have := rehash_spec ho hlim (emplace_spec ho hlim fuel) (n := 2 * n) hi.num hi.distinct (.inl hi)
    revert this
    cases rehash lim (emplace o lim fuel) t (2 * n) with
    | error e => exact id
    | ok t' => exact fun h => ⟨h.1, h.2.1⟩
  · rw [if_neg h]
    exact ⟨hi, List.Perm.refl _⟩

theorem copy_spec (ho : o.Lawful) {lim : Nat} (hlim : lim ≤ 63) (fuel : Nat) {t : Table K V} (hi : Inv o t) :
    match copy o lim fuel t with
    | .error e => e = .nomem
    | .ok t' => Inv o t' ∧ t'.toList.Perm t.toList := by
  unfold copy
  have hE := emptyTable_inv (V := V) o (log := 0) (by omega)
  have := rehash_spec ho hlim (emplace_spec ho hlim fuel) (n := min (2 * t.num) (bucketCountOf t.log))
    hE.num hE.distinct (.inl hE)
  revert this
  cases rehash lim (emplace o lim fuel) (emptyTable K V 0) (min (2 * t.num) (bucketCountOf t.log)) with
  | error e => exact id
  | ok t' =>
    rintro ⟨h1, h2, -⟩
    rw [emptyTable_toList, List.perm_nil] at h2
    dsimp only
    have := insertAll_spec ho (emplace_spec ho hlim fuel) t.toList t' h1 (by
      rw [h2, List.append_nil]; exact hi.distinct)
    revert this
    cases insertAll (emplace o lim fuel) t' t.toList with
    | error e => exact id
    | ok t'' =>
      rintro ⟨h3, -, h4⟩
      rw [h2, List.append_nil] at h4
      exact ⟨h3, h4⟩

/-! ## Finite maps -/

/-- A finite map up to key equality: what is stored under a key, with the key that was first used. -/
structure Map (K V : Type) where
  item : K → Option (K × V)
  size : Nat

namespace Map

def empty (K V : Type) : Map K V := ⟨fun _ => none, 0⟩

/-- Binding a key: an existing entry keeps its key object. -/
def set (o : Ops K) (m : Map K V) (k : K) (v : V) : Map K V where
  item k' := if o.eq k' k then
      match m.item k with
      | some x => some (x.1, v)
      | none => some (k, v)
    else m.item k'
  size := if (m.item k).isSome then m.size else m.size + 1

/-- Binding a key unless it is bound. -/
def setDefault (o : Ops K) (m : Map K V) (k : K) (v : V) : Map K V :=
  if (m.item k).isSome then m else m.set o k v

def remove (o : Ops K) (m : Map K V) (k : K) : Map K V where
  item k' := if o.eq k' k then none else m.item k'
  size := if (m.item k).isSome then m.size - 1 else m.size

end Map

/-- The table holds the map. -/
structure Holds (o : Ops K) (t : Table K V) (m : Map K V) : Prop where
  inv : Inv o t
  size : m.size = t.num
  item : ∀ k, m.item k = t.toList.find? (fun x => o.eq k x.1)

theorem lookup_some (ho : o.Lawful) {l : List (K × V)} (hd : Distinct o l) {k : K} {x : K × V} :
    l.find? (fun y => o.eq k y.1) = some x ↔ x ∈ l ∧ o.eq k x.1 = true := by
  induction l with
  | nil => simp
  | cons y l ih =>
    obtain ⟨h1, h2⟩ := List.pairwise_cons.mp hd
    rw [List.find?_cons]
    cases hk : o.eq k y.1 with
    | true =>
      simp only [Option.some.injEq, List.mem_cons]
      constructor
      · rintro rfl; exact ⟨.inl rfl, hk⟩
      · rintro ⟨rfl | hx, hkx⟩
        · rfl
        · have := h1 x hx
          rw [ho.trans _ _ _ (ho.symm _ _ hk) hkx] at this
          cases this
    | false =>
      simp only [List.mem_cons]
      rw [ih h2]
      constructor
      · rintro ⟨h3, h4⟩; exact ⟨.inr h3, h4⟩
      · rintro ⟨rfl | h3, h4⟩
        · rw [hk] at h4; cases h4
        · exact ⟨h3, h4⟩

theorem lookup_perm (ho : o.Lawful) {l l' : List (K × V)} (hd : Distinct o l) (hp : l.Perm l') (k : K) :
    l.find? (fun y => o.eq k y.1) = l'.find? (fun y => o.eq k y.1) := by
  apply Option.ext
  intro x
  rw [lookup_some ho hd, lookup_some ho (hd.perm ho hp), hp.mem_iff]

theorem eq_congr (ho : o.Lawful) {a b : K} (h : o.eq a b = true) (c : K) : o.eq c a = o.eq c b := by
  cases h1 : o.eq c a with
  | true => exact (ho.trans _ _ _ h1 h).symm
  | false =>
    cases h2 : o.eq c b with
    | false => rfl
    | true => rw [ho.trans _ _ _ h2 (ho.symm _ _ h)] at h1; cases h1

theorem Holds.of_perm (ho : o.Lawful) {t t' : Table K V} {m : Map K V} (h : Holds o t m) (hi : Inv o t')
    (hp : t'.toList.Perm t.toList) : Holds o t' m :=
  ⟨hi, by rw [h.size, hi.num, h.inv.num, hp.length_eq],
    fun k => by rw [h.item, lookup_perm ho hi.distinct hp]⟩

theorem holds_empty (o : Ops K) {log : Nat} (h : log ≤ 63) : Holds o (emptyTable K V log) (Map.empty K V) :=
  ⟨emptyTable_inv o h, rfl, fun k => by rw [emptyTable_toList]; rfl⟩

theorem holds_absent (ho : o.Lawful) {t : Table K V} {m : Map K V} (h : Holds o t m) {k : K} :
    m.item k = none ↔ ∀ y ∈ t.toList, o.eq k y.1 = false := by
  rw [h.item, List.find?_eq_none]
  simp

theorem holds_present (ho : o.Lawful) {t : Table K V} {m : Map K V} (h : Holds o t m) {k : K} {x : K × V}
    (hx : x ∈ t.toList) (hk : o.eq k x.1 = true) : m.item k = some x := by
  rw [h.item, lookup_some ho h.inv.distinct]
  exact ⟨hx, hk⟩

/-- Adding a new entry. -/
theorem holds_insert (ho : o.Lawful) {t t' : Table K V} {m : Map K V} (h : Holds o t m) {k : K} {v : V}
    (hi : Inv o t') (hp : t'.toList.Perm ((k, v) :: t.toList))
    (ha : ∀ y ∈ t.toList, o.eq k y.1 = false) : Holds o t' (m.set o k v) := by
  have hn := (holds_absent ho h).mpr ha
  refine ⟨hi, ?_, ?_⟩
  · simp only [Map.set, hn]
    rw [hi.num, hp.length_eq]
    simp [h.size, h.inv.num]
  · intro k'
    rw [lookup_perm ho hi.distinct hp, List.find?_cons]
    simp only [Map.set, hn]
    cases o.eq k' k with
    | true => rfl
    | false => simpa using h.item k'

/-- Overwriting an entry. -/
theorem holds_overwrite (ho : o.Lawful) {t t' : Table K V} {m : Map K V} (h : Holds o t m) {k : K} {v : V}
    {x : K × V} {A B : List (K × V)} (hi : Inv o t') (h1 : t.toList = A ++ x :: B)
    (h2 : t'.toList = A ++ (x.1, v) :: B) (hk : o.eq k x.1 = true) : Holds o t' (m.set o k v) := by
  have hs := holds_present ho h (by rw [h1]; simp) hk
  refine ⟨hi, ?_, ?_⟩
  · simp only [Map.set, hs]
    rw [hi.num, h2]
    simp [h.size, h.inv.num, h1]
  · intro k'
    have p1 : t.toList.Perm (x :: (A ++ B)) := by rw [h1]; exact List.perm_middle
    have p2 : t'.toList.Perm ((x.1, v) :: (A ++ B)) := by rw [h2]; exact List.perm_middle
    rw [lookup_perm ho hi.distinct p2, List.find?_cons]
    simp only [Map.set, hs]
    rw [eq_congr ho hk k', h.item k', lookup_perm ho h.inv.distinct p1, List.find?_cons]
    cases o.eq k' x.1 with
    | true => rfl
    | false => rfl

theorem holds_remove (ho : o.Lawful) {t t' : Table K V} {m : Map K V} (h : Holds o t m) {k : K} {x : K × V}
    (hi : Inv o t') (hp : t.toList.Perm (x :: t'.toList)) (hk : o.eq k x.1 = true) :
    Holds o t' (m.remove o k) := by
  have hs := holds_present ho h (hp.mem_iff.mpr (by simp)) hk
  refine ⟨hi, ?_, ?_⟩
  · simp only [Map.remove, hs]
    rw [hi.num]
    have := hp.length_eq
    simp only [List.length_cons] at this
    simp [h.size, h.inv.num, this]
  · intro k'
    simp only [Map.remove]
    rw [eq_congr ho hk k', h.item k', lookup_perm ho h.inv.distinct hp, List.find?_cons]
    cases hkx : o.eq k' x.1 with
    | false => rfl
    | true =>
      simp only [if_true]
      symm
      rw [List.find?_eq_none]
      intro y hy
      have := (List.pairwise_cons.mp (h.inv.distinct.perm ho hp)).1 y hy
      cases hky : o.eq k' y.1 with
      | false => simp
      | true => rw [ho.trans _ _ _ (ho.symm _ _ hkx) hky] at this; cases this

theorem holds_remove_absent {t : Table K V} {m : Map K V} (ho : o.Lawful) (h : Holds o t m) {k : K}
    (ha : ∀ y ∈ t.toList, o.eq k y.1 = false) : Holds o t (m.remove o k) := by
  have hn := (holds_absent ho h).mpr ha
  refine ⟨h.inv, by simp [Map.remove, hn, h.size], ?_⟩
  intro k'
  simp only [Map.remove]
  cases hk : o.eq k' k with
  | false => simpa using h.item k'
  | true =>
    simp only [if_true]
    symm
    rw [List.find?_eq_none]
    intro y hy
    have := ha y hy
    cases hky : o.eq k' y.1 with
    | false => simp
    | true => rw [ho.trans _ _ _ (ho.symm _ _ hk) hky] at this; cases this

/-! ## The operations of Dict -/

theorem emplace_holds (ho : o.Lawful) {lim : Nat} (hlim : lim ≤ 63) (fuel : Nat) {t : Table K V} {m : Map K V}
    (h : Holds o t m) (k : K) (v : V) :
    match emplace o lim fuel t (k, v) with
    | .error e => e = .nomem
    | .ok (t', _, new) => Holds o t' (m.setDefault o k v) ∧ new = (m.item k).isNone := by
  have := emplace_spec ho hlim fuel t (k, v) h.inv
  revert this
  cases emplace o lim fuel t (k, v) with
  | error e => exact id
  | ok r =>
    obtain ⟨t', i, new⟩ := r
    cases new with
    | true =>
      simp only [EmpSpec, if_true]
      rintro ⟨h1, h2, h3, h4, h5⟩
      have hn := (holds_absent ho h).mpr h5
      refine ⟨?_, by rw [hn]; rfl⟩
      rw [Map.setDefault, hn]
      exact holds_insert ho h h1 h3 h5
    | false =>
      simp only [EmpSpec]
      rintro ⟨h1, h2, rfl, e, y, h4, h5⟩
      have hs := holds_present ho h (mem_contents_of_getElem? h.inv.wf h4) h5
      refine ⟨?_, by rw [hs]; rfl⟩
      rw [Map.setDefault, hs]
      exact h

theorem dict_set_holds [Inhabited V] (ho : o.Lawful) {lim : Nat} (hlim : lim ≤ 63) (fuel : Nat)
    {t : Table K V} {m : Map K V} (h : Holds o t m) (k : K) (v : V) :
    match Dict.set o lim fuel t k v with
    | .error e => e = .nomem
    | .ok t' => Holds o t' (m.set o k v) := by
  have := emplace_spec ho hlim fuel t (k, default) h.inv
  unfold Dict.set
  revert this
  cases emplace o lim fuel t (k, default) with
  | error e => exact id
  | ok r =>
    obtain ⟨t', i, new⟩ := r
    cases new with
    | true =>
      simp only [EmpSpec, if_true]
      rintro ⟨h1, h2, h3, ⟨e, h4⟩, h5⟩
      obtain ⟨t'', A, B, ha, hA, hB, hi, -, -⟩ := assign_spec h1 v h4
      rw [ha]
      dsimp only at hB ⊢
      refine holds_insert ho h hi ?_ h5
      rw [hB]
      rw [hA] at h3
      exact List.perm_middle.trans (List.Perm.cons _ ((List.perm_middle.symm.trans h3).cons_inv))
    | false =>
      simp only [EmpSpec]
      rintro ⟨h1, h2, rfl, e, y, h4, h5⟩
      obtain ⟨t'', A, B, ha, hA, hB, hi, -, -⟩ := assign_spec h1 v h4
      rw [ha]
      exact holds_overwrite ho h hi hA hB h5

theorem valueAt_of {t : Table K V} {i e : Nat} {x : K × V} (h : t.cells[i]? = some (.full e x)) :
    valueAt t i = .ok x := by
  unfold valueAt; rw [h]

theorem dict_get_holds (ho : o.Lawful) {t : Table K V} {m : Map K V} (h : Holds o t m) (k : K) :
    Dict.get o t k = .ok ((m.item k).map (·.2)) := by
  unfold Dict.get
  rcases find_spec ho h.inv k with ⟨i, e, x, h1, h2, h3⟩ | ⟨h1, h2⟩
  · rw [h1, holds_present ho h (mem_contents_of_getElem? h.inv.wf h2) h3]
    dsimp only
    rw [valueAt_of h2]
    rfl
  · rw [h1, (holds_absent ho h).mpr h2]
    rfl

theorem dict_contains_holds (ho : o.Lawful) {t : Table K V} {m : Map K V} (h : Holds o t m) (k : K) :
    Dict.contains o t k = .ok (m.item k).isSome := by
  unfold Dict.contains
  rcases find_spec ho h.inv k with ⟨i, e, x, h1, h2, h3⟩ | ⟨h1, h2⟩
  · rw [h1, holds_present ho h (mem_contents_of_getElem? h.inv.wf h2) h3]
    rfl
  · rw [h1, (holds_absent ho h).mpr h2]
    rfl

theorem dict_pop_holds (ho : o.Lawful) {t : Table K V} {m : Map K V} (h : Holds o t m) (k : K) :
    ∃ t', Dict.pop o t k = .ok ((m.item k).map (·.2), t') ∧ Holds o t' (m.remove o k) := by
  unfold Dict.pop
  rcases find_spec ho h.inv k with ⟨i, e, x, h1, h2, h3⟩ | ⟨h1, h2⟩
  · obtain ⟨t', he, hi, -, hp⟩ := erase_spec ho h.inv h2
    refine ⟨t', ?_, holds_remove ho h hi hp h3⟩
    rw [h1, holds_present ho h (mem_contents_of_getElem? h.inv.wf h2) h3]
    dsimp only
    rw [valueAt_of h2]
    dsimp only
    rw [he]
    rfl
  · refine ⟨t, ?_, holds_remove_absent ho h h2⟩
    rw [h1, (holds_absent ho h).mpr h2]
    rfl

/-- The calls on a Dict. -/
inductive Op (K V : Type) where
  | set (k : K) (v : V)
  | get (k : K)
  | pop (k : K)
  | contains (k : K)
  | len
  | clear
  | reserve (n : Nat)

/-- Their results. -/
inductive Res (V : Type) where
  | unit
  | val (v : Option V)
  | bool (b : Bool)
  | nat (n : Nat)

/-- A call on the table. -/
def call [Inhabited V] (o : Ops K) (lim fuel : Nat) (t : Table K V) : Op K V → Except Err (Table K V × Res V)
  | .set k v => (Dict.set o lim fuel t k v).map (·, .unit)
  | .get k => (Dict.get o t k).map (t, .val ·)
  | .pop k => (Dict.pop o t k).map (fun r => (r.2, .val r.1))
  | .contains k => (Dict.contains o t k).map (t, .bool ·)
  | .len => .ok (t, .nat t.num)
  | .clear => .ok (HashMap.clear t, .unit)
  | .reserve n => (HashMap.reserve o lim fuel t n).map (·, .unit)

def calls [Inhabited V] (o : Ops K) (lim fuel : Nat) :
    Table K V → List (Op K V) → Except Err (Table K V × List (Res V))
  | t, [] => .ok (t, [])
  | t, c :: cs => match call o lim fuel t c with
    | .error e => .error e
    | .ok (t', r) => (calls o lim fuel t' cs).map (fun q => (q.1, r :: q.2))

/-- The same call on a finite map. -/
def Map.call (o : Ops K) (m : Map K V) : Op K V → Map K V × Res V
  | .set k v => (m.set o k v, .unit)
  | .get k => (m, .val ((m.item k).map (·.2)))
  | .pop k => (m.remove o k, .val ((m.item k).map (·.2)))
  | .contains k => (m, .bool (m.item k).isSome)
  | .len => (m, .nat m.size)
  | .clear => (Map.empty K V, .unit)
  | .reserve _ => (m, .unit)

def Map.calls (o : Ops K) : Map K V → List (Op K V) → Map K V × List (Res V)
  | m, [] => (m, [])
  | m, c :: cs => ((Map.calls o (m.call o c).1 cs).1, (m.call o c).2 :: (Map.calls o (m.call o c).1 cs).2)

theorem call_holds [Inhabited V] (ho : o.Lawful) {lim : Nat} (hlim : lim ≤ 63) (fuel : Nat) {t : Table K V}
    {m : Map K V} (h : Holds o t m) (c : Op K V) :
    match call o lim fuel t c with
    | .error e => e = .nomem
    | .ok (t', r) => Holds o t' (m.call o c).1 ∧ r = (m.call o c).2 := by
  cases c with
  | set k v =>
    have := dict_set_holds ho hlim fuel h k v
    simp only [call]
    revert this
    cases Dict.set o lim fuel t k v with
    | error e => exact id
    | ok t' => exact fun h => ⟨h, rfl⟩
  | get k => simp only [call, dict_get_holds ho h]; exact ⟨h, rfl⟩
  | pop k =>
    obtain ⟨t', h1, h2⟩ := dict_pop_holds ho h k
    simp only [call, h1]
    exact ⟨h2, rfl⟩
  | contains k => simp only [call, dict_contains_holds ho h]; exact ⟨h, rfl⟩
  | len => exact ⟨h, by simp [Map.call, h.size]⟩
  | clear =>
    obtain ⟨h1, h2⟩ := clear_inv h.inv
    exact ⟨⟨h1, rfl, fun k => by rw [h2]; rfl⟩, rfl⟩
  | reserve n =>
    have := reserve_spec ho hlim fuel h.inv n
    simp only [call]
    revert this
    cases reserve o lim fuel t n with
    | error e => exact id
    | ok t' => exact fun hh => ⟨h.of_perm ho hh.1 hh.2, rfl⟩

/-- **C25**: any sequence of calls on a Dict gives the results of the same calls on a finite map, unless memory
runs out; it never touches a slot outside the array or one without a value. -/
theorem dict_history [Inhabited V] (ho : o.Lawful) {lim : Nat} (hlim : lim ≤ 63) (fuel : Nat)
    (cs : List (Op K V)) :
    match calls o lim fuel (Dict.new K V) cs with
    | .error e => e = .nomem
    | .ok (t, rs) => Holds o t (Map.calls o (Map.empty K V) cs).1 ∧ rs = (Map.calls o (Map.empty K V) cs).2 := by
  have key : ∀ (cs : List (Op K V)) (t : Table K V) (m : Map K V), Holds o t m →
      match calls o lim fuel t cs with
      | .error e => e = .nomem
      | .ok (t, rs) => Holds o t (Map.calls o m cs).1 ∧ rs = (Map.calls o m cs).2 := by
    intro cs
    induction cs with
    | nil => intro t m h; exact ⟨h, rfl⟩
    | cons c cs ih =>
      intro t m h
      have hc := call_holds ho hlim fuel h c
      simp only [calls]
      revert hc
      cases call o lim fuel t c with
      | error e => exact id
      | ok r =>
        obtain ⟨t', r⟩ := r
        rintro ⟨h1, h2⟩
        have := ih t' _ h1
        dsimp only
        revert this
        cases calls o lim fuel t' cs with
        | error e => exact id
        | ok q =>
          rintro ⟨h3, h4⟩
          exact ⟨h3, by rw [h2, h4]; rfl⟩
  exact key cs _ _ (holds_empty o (by omega))

/-- Iteration yields every entry of the map exactly once. -/
theorem iteration_exact (ho : o.Lawful) {t : Table K V} {m : Map K V} (h : Holds o t m) :
    t.toList.length = m.size ∧ Distinct o t.toList ∧
      ∀ k x, m.item k = some x ↔ x ∈ t.toList ∧ o.eq k x.1 = true := by
  refine ⟨by rw [h.size, h.inv.num], h.inv.distinct, fun k x => ?_⟩
  rw [h.item, lookup_some ho h.inv.distinct]

end Verif.HashMap
