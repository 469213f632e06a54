import Verif.Rc

/-!
# Reference counts are exact

The count of every object is the number of values that own it, whatever is copied and destroyed,
and destroying a value that is owned never touches a freed object. -/

namespace Verif.Rc

/-- The owners of `a` inside an object. -/
def ownCell (a : Nat) : Option Cell → Nat
  | none => 0
  | some c => c.body.kids.count (.ref a)

/-- The owners of `a` inside the heap. -/
def owners (h : Heap) (a : Nat) : Nat := (h.map (ownCell a)).sum

/-- Counts are exact: `R` are the values that are owned from outside the heap. -/
structure Inv (h : Heap) (R : List V) : Prop where
  live : ∀ a c, get h a = some c → c.rc = owners h a + R.count (.ref a) ∧ 0 < c.rc
  dead : ∀ a, get h a = none → owners h a + R.count (.ref a) = 0

/-! ## The heap as a list -/

theorem sum_set {α : Type} (f : α → Nat) : ∀ (l : List α) (i : Nat) (old new : α),
    l[i]? = some old → ((l.set i new).map f).sum + f old = (l.map f).sum + f new
  | [], i, _, _, h => by simp at h
  | x :: l, 0, old, new, h => by
    simp only [List.getElem?_cons_zero, Option.some.injEq] at h
    subst h
    simp only [List.set_cons_zero, List.map_cons, List.sum_cons]
    omega
  | x :: l, i + 1, old, new, h => by
    simp only [List.getElem?_cons_succ] at h
    have := sum_set f l i old new h
    simp only [List.set_cons_succ, List.map_cons, List.sum_cons]
    omega

theorem get_some {h : Heap} {a : Nat} {c : Cell} : get h a = some c ↔ h[a]? = some (some c) := by
  unfold get
  cases h[a]? with
  | none => simp
  | some o => simp

theorem get_lt {h : Heap} {a : Nat} {c : Cell} (e : get h a = some c) : a < h.length := by
  rw [get_some] at e
  exact (List.getElem?_eq_some_iff.1 e).1

theorem get_ge {h : Heap} {a : Nat} (e : h.length ≤ a) : get h a = none := by
  unfold get
  rw [List.getElem?_eq_none e]
  rfl

theorem get_set {h : Heap} {a b : Nat} {o : Option Cell} (la : a < h.length) :
    get (h.set a o) b = if b = a then o else get h b := by
  unfold get
  rw [List.getElem?_set]
  by_cases e : a = b
  · subst e
    simp [la]
  · rw [if_neg e, if_neg (fun x => e x.symm)]

theorem get_append {h : Heap} {o : Option Cell} {b : Nat} :
    get (h ++ [o]) b = if b = h.length then o else get h b := by
  unfold get
  by_cases e : b = h.length
  · subst e
    simp
  · rw [if_neg e]
    by_cases lt : b < h.length
    · rw [List.getElem?_append_left lt]
    · rw [List.getElem?_eq_none (l := h) (by omega),
        List.getElem?_eq_none (l := h ++ [o]) (by simp; omega)]

theorem owners_set {h : Heap} {a b : Nat} {c : Cell} {o : Option Cell} (e : get h a = some c) :
    owners (h.set a o) b + c.body.kids.count (.ref b) = owners h b + ownCell b o :=
  sum_set (ownCell b) h a (some c) o (get_some.1 e)

theorem owners_append {h : Heap} {o : Option Cell} {b : Nat} :
    owners (h ++ [o]) b = owners h b + ownCell b o := by
  simp [owners]

theorem weight_set {h : Heap} {a : Nat} {c : Cell} {o : Option Cell} (e : get h a = some c) :
    weight (h.set a o) + (c.rc + c.body.kids.length) =
      weight h + (match o with | none => 0 | some c => c.rc + c.body.kids.length) := by
  have := sum_set (fun | none => 0 | some (c : Cell) => c.rc + c.body.kids.length) h a (some c) o
    (get_some.1 e)
  exact this

theorem le_sum {α : Type} (f : α → Nat) : ∀ (l : List α) (i : Nat) (x : α), l[i]? = some x →
    f x ≤ (l.map f).sum
  | [], i, _, h => by simp at h
  | y :: l, 0, x, h => by
    simp only [List.getElem?_cons_zero, Option.some.injEq] at h
    subst h
    simp
  | y :: l, i + 1, x, h => by
    have := le_sum f l i x (by simpa using h)
    simp only [List.map_cons, List.sum_cons]
    omega

theorem kids_le_owners {h : Heap} {a b : Nat} {c : Cell} (e : get h a = some c) :
    c.body.kids.count (.ref b) ≤ owners h b :=
  le_sum (ownCell b) h a (some c) (get_some.1 e)

theorem exists_of_sum_pos {α : Type} (f : α → Nat) : ∀ (l : List α), 0 < (l.map f).sum →
    ∃ (i : Nat) (x : α), l[i]? = some x ∧ 0 < f x
  | [], h => by simp at h
  | y :: l, h => by
    by_cases hy : 0 < f y
    · exact ⟨0, y, rfl, hy⟩
    · simp only [List.map_cons, List.sum_cons] at h
      obtain ⟨i, x, e, p⟩ := exists_of_sum_pos f l (by omega)
      exact ⟨i + 1, x, by simpa using e, p⟩

/-- An object with owners in the heap has one. -/
theorem exists_owner {h : Heap} {b : Nat} (p : 0 < owners h b) :
    ∃ a c, get h a = some c ∧ .ref b ∈ c.body.kids := by
  obtain ⟨a, o, e, q⟩ := exists_of_sum_pos _ _ p
  cases o with
  | none => simp [ownCell] at q
  | some c => exact ⟨a, c, get_some.2 e, List.count_pos_iff.1 q⟩

/-! ## Consequences of the invariant -/

theorem Inv.congr {h : Heap} {R R' : List V} (I : Inv h R)
    (e : ∀ a, R'.count (.ref a) = R.count (.ref a)) : Inv h R' :=
  ⟨fun a c g => by rw [e]; exact I.live a c g, fun a g => by rw [e]; exact I.dead a g⟩

theorem Inv.perm {h : Heap} {R R' : List V} (I : Inv h R) (p : R.Perm R') : Inv h R' :=
  I.congr fun a => (p.count_eq (.ref a)).symm

/-- What is owned from outside is alive. -/
theorem Inv.alive {h : Heap} {R : List V} (I : Inv h R) {a : Nat} (m : .ref a ∈ R) :
    ∃ c, get h a = some c := by
  cases g : get h a with
  | some c => exact ⟨c, rfl⟩
  | none =>
    have := I.dead a g
    have := List.count_pos_iff.2 m
    omega

/-- What is owned by a live object is alive. -/
theorem Inv.kid_alive {h : Heap} {R : List V} (I : Inv h R) {a b : Nat} {c : Cell}
    (g : get h a = some c) (m : .ref b ∈ c.body.kids) : ∃ c, get h b = some c := by
  cases g' : get h b with
  | some c => exact ⟨c, rfl⟩
  | none =>
    have := I.dead b g'
    have := kids_le_owners (b := b) g
    have := List.count_pos_iff.2 m
    omega

theorem Inv.cons_pod {h : Heap} {R : List V} {v : V} (p : v.isPod = true) :
    Inv h (v :: R) ↔ Inv h R := by
  have e : ∀ a, (v :: R).count (.ref a) = R.count (.ref a) := by
    intro a
    rw [List.count_cons_of_ne]
    rintro rfl
    cases p
  exact ⟨fun I => I.congr fun a => (e a).symm, fun I => I.congr e⟩

/-- The heap with nothing in it. -/
theorem inv_empty : Inv [] [] := ⟨fun a c g => by simp [get] at g, fun a _ => rfl⟩

/-- A new object takes its items over. -/
theorem inv_alloc {h : Heap} {R : List V} {b : Body} (I : Inv h (b.kids ++ R)) :
    Inv (alloc h b).1 ((alloc h b).2 :: R) := by
  have d := I.dead h.length (get_ge (Nat.le_refl _))
  rw [List.count_append] at d
  constructor
  · intro a c g
    simp only [alloc] at g ⊢
    rw [get_append] at g
    rw [owners_append]
    simp only [ownCell]
    by_cases e : a = h.length
    · subst e
      rw [if_pos rfl] at g
      cases g
      rw [List.count_cons_self]
      dsimp only
      omega
    · rw [if_neg e] at g
      have := I.live a c g
      rw [List.count_append] at this
      rw [List.count_cons_of_ne (fun x => e (by cases x; rfl))]
      omega
  · intro a g
    simp only [alloc] at g ⊢
    rw [get_append] at g
    rw [owners_append]
    simp only [ownCell]
    by_cases e : a = h.length
    · subst e
      simp at g
    · rw [if_neg e] at g
      have := I.dead a g
      rw [List.count_append] at this
      rw [List.count_cons_of_ne (fun x => e (by cases x; rfl))]
      omega

/-- One owner more. -/
theorem inv_share {h : Heap} {R : List V} {a : Nat} {c : Cell} (I : Inv h R)
    (g : get h a = some c) :
    Inv (h.set a (some { c with rc := c.rc + 1 })) (.ref a :: R) := by
  have la := get_lt g
  have ow : ∀ b, owners (h.set a (some { c with rc := c.rc + 1 })) b = owners h b := by
    intro b
    have := owners_set (b := b) (o := some { c with rc := c.rc + 1 }) g
    simp only [ownCell] at this
    omega
  constructor
  · intro b d e
    rw [get_set la] at e
    rw [ow]
    by_cases eb : b = a
    · subst eb
      rw [if_pos rfl] at e
      cases e
      have := I.live b c g
      rw [List.count_cons_self]
      dsimp only
      omega
    · rw [if_neg eb] at e
      rw [List.count_cons_of_ne (fun x => eb (by cases x; rfl))]
      exact I.live b d e
  · intro b e
    rw [get_set la] at e
    rw [ow]
    by_cases eb : b = a
    · subst eb
      simp at e
    · rw [if_neg eb] at e
      rw [List.count_cons_of_ne (fun x => eb (by cases x; rfl))]
      exact I.dead b e

/-! ## Objects that stay -/

/-- Every object of `h₀` is still in `h`, with the same contents, and nothing freed is back. -/
structure Ext (h₀ h : Heap) : Prop where
  len : h₀.length ≤ h.length
  live : ∀ a c, get h₀ a = some c → ∃ c', get h a = some c' ∧ c'.body = c.body
  dead : ∀ a, a < h₀.length → get h₀ a = none → get h a = none

theorem Ext.refl (h : Heap) : Ext h h :=
  ⟨Nat.le_refl _, fun _ c g => ⟨c, g, rfl⟩, fun _ _ g => g⟩

theorem Ext.trans {h₀ h₁ h₂ : Heap} (p : Ext h₀ h₁) (q : Ext h₁ h₂) : Ext h₀ h₂ := by
  refine ⟨Nat.le_trans p.len q.len, fun a c g => ?_, fun a l g => ?_⟩
  · obtain ⟨c₁, g₁, e₁⟩ := p.live a c g
    obtain ⟨c₂, g₂, e₂⟩ := q.live a c₁ g₁
    exact ⟨c₂, g₂, e₂.trans e₁⟩
  · exact q.dead a (Nat.lt_of_lt_of_le l p.len) (p.dead a l g)

theorem ext_alloc (h : Heap) (b : Body) : Ext h (alloc h b).1 := by
  refine ⟨by simp [alloc], fun a c g => ⟨c, ?_, rfl⟩, fun a l g => ?_⟩
  · have := get_lt g
    simp only [alloc]
    rw [get_append, if_neg (by omega), g]
  · simp only [alloc]
    rw [get_append, if_neg (by omega), g]

theorem ext_set {h : Heap} {a : Nat} {c c' : Cell} (g : get h a = some c)
    (e : c'.body = c.body) : Ext h (h.set a (some c')) := by
  have la := get_lt g
  refine ⟨by simp, fun b d gb => ?_, fun b l gb => ?_⟩
  · rw [get_set la]
    by_cases eb : b = a
    · subst eb
      rw [g] at gb
      cases gb
      exact ⟨c', if_pos rfl, e⟩
    · exact ⟨d, by rw [if_neg eb, gb], rfl⟩
  · rw [get_set la]
    by_cases eb : b = a
    · subst eb
      rw [g] at gb
      cases gb
    · rw [if_neg eb, gb]

theorem sum_map_zero {α : Type} (f : α → Nat) : ∀ l : List α, (∀ y ∈ l, f y = 0) →
    (l.map f).sum = 0
  | [], _ => rfl
  | x :: l, h => by
    have := sum_map_zero f l fun y m => h y (List.mem_cons_of_mem _ m)
    have := h x List.mem_cons_self
    simp only [List.map_cons, List.sum_cons]
    omega

/-- Pointwise comparison of sums. -/
theorem sum_le_sum {α β : Type} (f : α → Nat) (g : β → Nat) : ∀ (l : List α) (m : List β),
    (∀ (i : Nat) (x : α), l[i]? = some x → 0 < f x → ∃ y, m[i]? = some y ∧ f x ≤ g y) →
    (l.map f).sum ≤ (m.map g).sum
  | [], m, _ => by simp
  | x :: l, [], h => by
    have z : ∀ y ∈ x :: l, f y = 0 := by
      intro y my
      obtain ⟨i, e⟩ := List.getElem?_of_mem my
      rcases Nat.eq_zero_or_pos (f y) with p | p
      · exact p
      · obtain ⟨z, ez, _⟩ := h i y e p
        simp at ez
    have := sum_map_zero f _ z
    omega
  | x :: l, y :: m, h => by
    have ih := sum_le_sum f g l m fun i z e p => by
      have := h (i + 1) z (by simpa using e) p
      simpa using this
    have h0 : f x ≤ g y := by
      rcases Nat.eq_zero_or_pos (f x) with p | p
      · omega
      · obtain ⟨z, ez, le⟩ := h 0 x rfl p
        simp only [List.getElem?_cons_zero, Option.some.injEq] at ez
        subst ez
        exact le
    simp only [List.map_cons, List.sum_cons]
    omega

/-- Every object of `h₀` is still in `h`, with the same contents. -/
def Keep (h₀ h : Heap) : Prop :=
  ∀ a c, get h₀ a = some c → ∃ c', get h a = some c' ∧ c'.body = c.body

theorem Keep.owners_le {h₀ h : Heap} (x : Keep h₀ h) (a : Nat) : owners h₀ a ≤ owners h a := by
  refine sum_le_sum _ _ _ _ fun i o e p => ?_
  cases o with
  | none => simp [ownCell] at p
  | some c =>
    obtain ⟨c', g, eb⟩ := x i c (get_some.2 e)
    exact ⟨some c', get_some.1 g, by simp only [ownCell, eb]; exact Nat.le_refl _⟩

theorem Ext.owners_le {h₀ h : Heap} (x : Ext h₀ h) (a : Nat) : owners h₀ a ≤ owners h a :=
  Keep.owners_le x.live a

/-- Nothing but counts changes in what survives, and nothing comes into being. -/
structure Sub (h h' : Heap) : Prop where
  len : h'.length = h.length
  body : ∀ a c', get h' a = some c' → ∃ c, get h a = some c ∧ c'.body = c.body

theorem Sub.refl (h : Heap) : Sub h h := ⟨rfl, fun _ c g => ⟨c, g, rfl⟩⟩

theorem Sub.trans {h₀ h₁ h₂ : Heap} (p : Sub h₀ h₁) (q : Sub h₁ h₂) : Sub h₀ h₂ := by
  refine ⟨q.len.trans p.len, fun a c g => ?_⟩
  obtain ⟨c₁, g₁, e₁⟩ := q.body a c g
  obtain ⟨c₂, g₂, e₂⟩ := p.body a c₁ g₁
  exact ⟨c₂, g₂, e₁.trans e₂⟩

theorem Ext.sub {h₀ h h' : Heap} (x : Ext h₀ h) (s : Sub h h') (k : Keep h₀ h') : Ext h₀ h' := by
  refine ⟨s.len ▸ x.len, k, fun a l g => ?_⟩
  cases e : get h' a with
  | none => rfl
  | some c =>
    obtain ⟨c₀, g₀, _⟩ := s.body a c e
    rw [x.dead a l g] at g₀
    cases g₀

/-! ## Destroying -/

/-- Destroying values that are owned succeeds, leaves the counts exact for the rest, changes nothing
but counts in what survives, and frees no object of an earlier heap whose own references are still
there. -/
theorem release_ok : ∀ (n : Nat) (h : Heap) (w R : List V), Inv h (w ++ R) →
    weight h + w.length ≤ n →
    ∃ h', release n h w = .ok h' ∧ Inv h' R ∧ Sub h h' ∧
      ∀ h₀ R₀, (∀ a, R₀.count (V.ref a) ≤ R.count (V.ref a)) → Inv h₀ R₀ → Keep h₀ h → Keep h₀ h'
  | n, h, [], R, I, _ => by
    cases n <;> exact ⟨h, rfl, I, Sub.refl h, fun _ _ _ _ x => x⟩
  | 0, h, v :: w, R, I, l => by simp at l
  | n + 1, h, v :: w, R, I, l => by
    have pod : ∀ v : V, v.isPod = true → Inv h (v :: (w ++ R)) →
        weight h + (v :: w).length ≤ n + 1 → ∃ h', release n h w = .ok h' ∧ Inv h' R ∧ Sub h h' ∧
      ∀ h₀ R₀, (∀ a, R₀.count (V.ref a) ≤ R.count (V.ref a)) → Inv h₀ R₀ → Keep h₀ h → Keep h₀ h' :=
      fun v p I l => release_ok n h w R ((Inv.cons_pod p).1 I) (by simp at l; omega)
    cases v with
    | none => exact pod .none rfl I l
    | int z => exact pod (.int z) rfl I l
    | flt z => exact pod (.flt z) rfl I l
    | sbytes z => exact pod (.sbytes z) rfl I l
    | sstr z => exact pod (.sstr z) rfl I l
    | ref a =>
      obtain ⟨c, g⟩ := I.alive (a := a) (by simp)
      have la := get_lt g
      have lv := I.live a c g
      simp only [List.cons_append, List.count_cons_self] at lv
      simp only [release, g]
      by_cases one : c.rc ≤ 1
      · rw [if_pos one]
        have wt := weight_set (o := none) g
        have ow : ∀ b, owners (h.set a none) b + c.body.kids.count (.ref b) = owners h b := by
          intro b
          have := owners_set (b := b) (o := none) g
          simpa [ownCell] using this
        have I' : Inv (h.set a none) ((c.body.kids ++ w) ++ R) := by
          constructor
          · intro b d e
            rw [get_set la] at e
            by_cases eb : b = a
            · subst eb; simp at e
            · rw [if_neg eb] at e
              have := I.live b d e
              rw [List.cons_append, List.count_cons_of_ne (fun x => eb (by cases x; rfl))] at this
              have := ow b
              simp only [List.count_append] at *
              omega
          · intro b e
            rw [get_set la] at e
            have := ow b
            by_cases eb : b = a
            · subst eb
              simp only [List.count_append] at *
              omega
            · rw [if_neg eb] at e
              have := I.dead b e
              rw [List.cons_append, List.count_cons_of_ne (fun x => eb (by cases x; rfl))] at this
              simp only [List.count_append] at *
              omega
        obtain ⟨h', r, J, S, F⟩ := release_ok n _ _ R I' (by
          simp only [List.length_append, List.length_cons] at l ⊢
          dsimp only at wt
          omega)
        refine ⟨h', r, J, ⟨by simpa using S.len, fun b d e => ?_⟩, fun h₀ R₀ le I₀ x => ?_⟩
        · obtain ⟨d', e', eb⟩ := S.body b d e
          rw [get_set la] at e'
          by_cases q : b = a
          · subst q; simp at e'
          · rw [if_neg q] at e'
            exact ⟨d', e', eb⟩
        · refine F h₀ R₀ le I₀ fun b d e => ?_
          rw [get_set la]
          by_cases q : b = a
          · exfalso
            subst q
            have l₀ := I₀.live b d e
            have := x.owners_le b
            have := le b
            simp only [List.count_append] at lv
            omega
          · rw [if_neg q]
            exact x b d e
      · rw [if_neg one]
        have wt := weight_set (o := some { c with rc := c.rc - 1 }) g
        have ow : ∀ b, owners (h.set a (some { c with rc := c.rc - 1 })) b = owners h b := by
          intro b
          have := owners_set (b := b) (o := some { c with rc := c.rc - 1 }) g
          simp only [ownCell] at this
          omega
        have I' : Inv (h.set a (some { c with rc := c.rc - 1 })) (w ++ R) := by
          constructor
          · intro b d e
            rw [get_set la] at e
            rw [ow]
            by_cases eb : b = a
            · subst eb
              rw [if_pos rfl] at e
              cases e
              dsimp only
              omega
            · rw [if_neg eb] at e
              have := I.live b d e
              rwa [List.cons_append, List.count_cons_of_ne (fun x => eb (by cases x; rfl))] at this
          · intro b e
            rw [get_set la] at e
            rw [ow]
            by_cases eb : b = a
            · subst eb; simp at e
            · rw [if_neg eb] at e
              have := I.dead b e
              rwa [List.cons_append, List.count_cons_of_ne (fun x => eb (by cases x; rfl))] at this
        obtain ⟨h', r, J, S, F⟩ := release_ok n _ _ R I' (by
          simp only [List.length_cons] at l
          dsimp only at wt
          omega)
        have xs : Ext h (h.set a (some { c with rc := c.rc - 1 })) := ext_set g rfl
        refine ⟨h', r, J, ⟨by simpa using S.len, fun b d e => ?_⟩,
          fun h₀ R₀ le I₀ x => F h₀ R₀ le I₀ fun b d e => ?_⟩
        rotate_left
        · obtain ⟨d₁, e₁, q₁⟩ := x b d e
          obtain ⟨d₂, e₂, q₂⟩ := xs.live b d₁ e₁
          exact ⟨d₂, e₂, q₂.trans q₁⟩
        obtain ⟨d', e', eb⟩ := S.body b d e
        rw [get_set la] at e'
        by_cases q : b = a
        · subst q
          rw [if_pos rfl] at e'
          cases e'
          exact ⟨c, g, eb⟩
        · rw [if_neg q] at e'
          exact ⟨d', e', eb⟩

/-- `release_ok` for `destroy`. -/
theorem destroy_ok {h : Heap} {w R : List V} (I : Inv h (w ++ R)) :
    ∃ h', destroy h w = .ok h' ∧ Inv h' R ∧ Sub h h' ∧
      ∀ h₀ R₀, (∀ a, R₀.count (V.ref a) ≤ R.count (V.ref a)) → Inv h₀ R₀ → Keep h₀ h → Keep h₀ h' :=
  release_ok _ h w R I (Nat.le_refl _)

/-- Copying a value that is owned somewhere succeeds and makes one owner more; the other objects
stay as they are. -/
theorem copy_ok {h : Heap} {R : List V} {v : V} (I : Inv h R)
    (al : ∀ a, v = .ref a → ∃ c, get h a = some c) :
    ∃ h' v', copy h v = .ok (h', v') ∧ Inv h' (v' :: R) ∧ Ext h h' ∧
      (∀ a c', get h' a = some c' → (∃ c, get h a = some c ∧ c'.body = c.body) ∨
        (h.length ≤ a ∧ c'.body.kids = [])) ∧
      (∀ a, v = .ref a → ∃ a' c c', v' = .ref a' ∧ get h a = some c ∧ get h' a' = some c' ∧
        c'.body = c.body) ∧ (v.isPod = true → v' = v ∧ h' = h) := by
  have pod : ∀ v : V, v.isPod = true → ∃ h' v', Except.ok (ε := UB) (h, v) = .ok (h', v') ∧ Inv h' (v' :: R) ∧ Ext h h' ∧
      (∀ a c', get h' a = some c' → (∃ c, get h a = some c ∧ c'.body = c.body) ∨
        (h.length ≤ a ∧ c'.body.kids = [])) ∧
      (∀ a, v = .ref a → ∃ a' c c', v' = .ref a' ∧ get h a = some c ∧ get h' a' = some c' ∧
        c'.body = c.body) ∧ (v.isPod = true → v' = v ∧ h' = h) := by
    intro v p
    refine ⟨h, v, rfl, (Inv.cons_pod p).2 I, Ext.refl h, fun a c g => .inl ⟨c, g, rfl⟩, ?_,
      fun _ => ⟨rfl, rfl⟩⟩
    rintro a rfl
    cases p
  cases v with
  | none => exact pod .none rfl
  | int z => exact pod (.int z) rfl
  | flt z => exact pod (.flt z) rfl
  | sbytes z => exact pod (.sbytes z) rfl
  | sstr z => exact pod (.sstr z) rfl
  | ref a =>
    obtain ⟨c, g⟩ := al a rfl
    simp only [copy, g]
    by_cases d : c.body.deep = true
    · rw [if_pos d]
      have k : c.body.kids = [] := by
        cases eb : c.body with
        | node k ks => rw [eb] at d; cases d
        | _ => rfl
      refine ⟨_, _, rfl, inv_alloc (by rw [k]; exact I), ext_alloc _ _, fun b d e => ?_, ?_,
        fun p => by cases p⟩
      · rw [get_append] at e
        by_cases q : b = h.length
        · rw [if_pos q] at e
          cases e
          exact .inr ⟨by omega, k⟩
        · rw [if_neg q] at e
          exact .inl ⟨d, e, rfl⟩
      · rintro b ⟨⟩
        exact ⟨h.length, c, ⟨1, c.body⟩, rfl, g, by rw [get_append, if_pos rfl],
          rfl⟩
    · rw [if_neg d]
      refine ⟨_, _, rfl, inv_share I g, ext_set g rfl, fun b d e => ?_, ?_, fun p => by cases p⟩
      · rw [get_set (get_lt g)] at e
        by_cases q : b = a
        · subst q
          rw [if_pos rfl] at e
          cases e
          exact .inl ⟨c, g, rfl⟩
        · rw [if_neg q] at e
          exact .inl ⟨d, e, rfl⟩
      · rintro b ⟨⟩
        exact ⟨a, c, { c with rc := c.rc + 1 }, rfl, g, by rw [get_set (get_lt g), if_pos rfl], rfl⟩

/-! ## When nothing is left -/

/-- From address `n` on, objects only own objects made before them. -/
def Acyc (n : Nat) (h : Heap) : Prop :=
  ∀ a c, n ≤ a → get h a = some c → ∀ b, .ref b ∈ c.body.kids → b < a

theorem Acyc.sub {n : Nat} {h h' : Heap} (A : Acyc n h) (s : Sub h h') : Acyc n h' := by
  intro a c l g b m
  obtain ⟨c₀, g₀, e⟩ := s.body a c g
  exact A a c₀ l g₀ b (e ▸ m)

/-- An object owned neither from outside nor by objects that are alive is dead. -/
theorem Inv.dead_of {h : Heap} {R : List V} (I : Inv h R) {a : Nat} (r : V.ref a ∉ R)
    (k : ∀ b c, get h b = some c → .ref a ∉ c.body.kids) : get h a = none := by
  cases g : get h a with
  | none => rfl
  | some c =>
    exfalso
    have lv := I.live a c g
    have : R.count (.ref a) = 0 := List.count_eq_zero.2 r
    obtain ⟨b, d, gb, m⟩ := exists_owner (h := h) (b := a) (by omega)
    exact k b d gb m

/-- With exact counts, objects made since `h₀` are gone as soon as nothing outside owns them, if
they only own older objects. -/
theorem all_new_dead {h₀ h : Heap} {R : List V} (I₀ : Inv h₀ R) (I : Inv h R) (x : Ext h₀ h)
    (A : Acyc h₀.length h) : ∀ a, h₀.length ≤ a → get h a = none := by
  have key : ∀ k a, h₀.length ≤ a → h.length - a ≤ k → get h a = none := by
    intro k
    induction k with
    | zero => intro a _ l; exact get_ge (by omega)
    | succ k ih =>
      intro a la l
      refine I.dead_of (fun m => ?_) fun b c g m => ?_
      · obtain ⟨c, g⟩ := I₀.alive m
        have := get_lt g
        omega
      · by_cases lb : h₀.length ≤ b
        · have lt := A b c lb g a m
          have := ih b lb (by omega)
          rw [this] at g
          cases g
        · cases g₀ : get h₀ b with
          | none => rw [x.dead b (by omega) g₀] at g; cases g
          | some c₀ =>
            obtain ⟨c', g', e⟩ := x.live b c₀ g₀
            rw [g] at g'
            cases g'
            rw [e] at m
            obtain ⟨d, gd⟩ := I₀.kid_alive g₀ m
            have := get_lt gd
            omega
  exact fun a la => key _ a la (Nat.le_refl _)

/-- ... and then the heap is what it was. -/
theorem restored {h₀ h : Heap} {R : List V} (I₀ : Inv h₀ R) (I : Inv h R) (x : Ext h₀ h)
    (A : Acyc h₀.length h) : ∀ a, get h a = get h₀ a := by
  have nd := all_new_dead I₀ I x A
  have le : ∀ a, owners h a ≤ owners h₀ a := by
    intro a
    refine sum_le_sum _ _ _ _ fun i o e p => ?_
    cases o with
    | none => simp [ownCell] at p
    | some c =>
      have g := get_some.2 e
      by_cases l : h₀.length ≤ i
      · rw [nd i l] at g; cases g
      · cases g₀ : get h₀ i with
        | none => rw [x.dead i (by omega) g₀] at g; cases g
        | some c₀ =>
          obtain ⟨c', g', eb⟩ := x.live i c₀ g₀
          rw [g] at g'
          cases g'
          exact ⟨some c₀, get_some.1 g₀, by simp only [ownCell, eb]; exact Nat.le_refl _⟩
  intro a
  cases g₀ : get h₀ a with
  | none =>
    by_cases l : a < h₀.length
    · exact x.dead a l g₀
    · exact nd a (by omega)
  | some c₀ =>
    obtain ⟨c, g, e⟩ := x.live a c₀ g₀
    have l₀ := I₀.live a c₀ g₀
    have l := I.live a c g
    have := le a
    have := x.owners_le a
    rw [g]
    congr 1
    cases c
    cases c₀
    simp only at e l l₀
    simp only [Cell.mk.injEq]
    exact ⟨by omega, e⟩

end Verif.Rc
