import Verif.NDArrayJoinProps
import Verif.NDArrayReadProps
import Verif.NDArrayNested

/-!
# Construction of NDArrays from lists
-/

namespace Verif.NDArray

variable {α D : Type}

/-- Writing a buffer from the front. -/
theorem fill_spec (b : Nat) (w : Nat → α) (g : Nat → Heap α → Res (Heap α)) :
    ∀ (n : Nat) (h : Heap α), n ≤ h.size b → (∀ i < n, ∀ h, g i h = h.write b i (w i)) →
    ∃ h', forN n g h = .ok h' ∧ h'.size = h.size ∧ h'.next = h.next ∧
      (∀ i < n, h'.mem b i = w i) ∧ (∀ b' o, b' ≠ b → h'.mem b' o = h.mem b' o)
  | 0, h, _, _ => ⟨h, rfl, rfl, rfl, by simp, fun _ _ _ => rfl⟩
  | n + 1, h, hn, hg => by
    obtain ⟨h1, e1, e2, e3, e4, e5⟩ := fill_spec b w g n h (by omega) fun i hi => hg i (by omega)
    refine ⟨h1.set b n (w n), ?_, ?_, ?_, ?_, ?_⟩
    · rw [forN, e1, ok_bind, hg n (by omega), Heap.write, if_pos]
      rw [e2]; omega
    · simp [Heap.set, e2]
    · simp [Heap.set, e3]
    · intro i hi
      by_cases e : i = n
      · subst e; simp [Heap.set]
      · have := e4 i (by omega)
        simp only [Heap.set]
        rw [if_neg (by rintro ⟨_, h⟩; omega)]
        exact this
    · intro b' o hb
      simp only [Heap.set]
      rw [if_neg (by rintro ⟨h, _⟩; exact hb h)]
      exact e5 b' o hb

/-- A new array whose buffer has been filled. -/
theorem fill_fresh (h : Heap α) (shape : List Nat) (dt : D) (w : Nat → α)
    (g : Nat → Heap α → Res (Heap α))
    (hg : ∀ i < prod shape, ∀ h1, g i h1 = h1.write (empty h shape dt).1.buf i (w i)) :
    ∃ h', forN (prod shape) g (empty h shape dt).2 = .ok h' ∧
      Fresh h h' (empty h shape dt).1 shape dt fun idx => w (ravel shape idx) := by
  obtain ⟨h', e1, e2, e3, e4, e5⟩ := fill_spec (empty h shape dt).1.buf w g (prod shape)
    (empty h shape dt).2 (by simp [empty, Heap.alloc]) hg
  refine ⟨h', e1, ?_⟩
  exact
    { ok := (empty_ok h shape dt).mono (Nat.le_of_eq e3.symm) fun b _ => by rw [e2]
      shape := rfl
      dt := rfl
      buf := Nat.le_refl _
      next := by rw [e3]; exact Nat.le_succ _
      size := fun b hb => by rw [e2]; simp [empty, Heap.alloc]; omega
      elem := fun idx hv => by
        rw [← e4 _ hv.ravel_lt]
        simp [NDArray.elem, Arr.addr, Arr.base, empty, dot_genStrides]
      frame := fun b hb o => by
        rw [e5 b o (by simp [empty]; omega)]
        simp [empty, Heap.alloc] }

/-- What the constructor makes of a list and a shape: `[v]` fills any given shape, `[]` leaves it
unset, a flat list of the right number of elements is laid out in it, and otherwise the shape is that
of the nested list, given or not. -/
inductive Builds (c : Conv D α) (dt : D) (old : List Nat → α) :
    List (Py α) → List Nat → List Nat → (List Nat → α) → Prop
  | fill {v : α} {s : List Nat} (hne : s ≠ []) :
      Builds c dt old [.num v] s s fun _ => c.store dt v
  | unset {s : List Nat} (hne : s ≠ []) : Builds c dt old [] s s old
  | nested {l : List (Py α)} {s ls : List Nat} {g : List Nat → α} (hl : HasShape ls (.list l))
      (hs : s = [] ∨ s = ls) (hone : s = [] ∨ ∀ v, l ≠ [.num v])
      (hg : ∀ idx, Valid ls idx → ∃ v, pyAt idx (.list l) = some v ∧ g idx = c.store dt v) :
      Builds c dt old l s ls g
  | flat {l : List (Py α)} {s : List Nat} {g : List Nat → α} (hne : s ≠ [])
      (hone : ∀ v, l ≠ [.num v]) (hl : HasShape [prod s] (.list l))
      (hg : ∀ idx, Valid s idx →
        ∃ v, pyAt [ravel s idx] (.list l) = some v ∧ g idx = c.store dt v) :
      Builds c dt old l s s g

/-- The general case of `make`. -/
theorem make_general (c : Conv D α) (l : List (Py α)) (shape : List Nat) (dt : D) (h : Heap α)
    (hn : l ≠ []) (h1 : shape = [] ∨ ∀ v, l ≠ [.num v]) :
    make c l shape dt h = makeNested c l shape dt h := by
  unfold make
  split
  · rename_i v s ss
    rcases h1 with h1 | h1
    · cases h1
    · exact absurd rfl (h1 v)
  · exact absurd rfl hn
  · exact absurd rfl hn
  · rfl

/-- `NDArray(list, shape, dtype)`: what it makes and when it raises. -/
theorem make_spec (c : Conv D α) (l : List (Py α)) (shape : List Nat) (dt : D) (h : Heap α) :
    (∃ r h' s g, make c l shape dt h = .ok (r, h') ∧
      Builds c dt (fun idx => elem h (empty h shape dt).1 idx) l shape s g ∧ Fresh h h' r s dt g) ∨
    (make c l shape dt h = .error .raise ∧
      ¬ ∃ s g, Builds c dt (fun idx => elem h (empty h shape dt).1 idx) l shape s g) := by
  by_cases hn : l = []
  · subst hn
    cases shape with
    | nil =>
      right
      refine ⟨rfl, ?_⟩
      rintro ⟨s, g, hb⟩
      generalize hs : ([] : List Nat) = s' at hb
      generalize hl : ([] : List (Py α)) = l' at hb
      cases hb with
      | fill hne => cases hl
      | unset hne => exact hne hs.symm
      | nested hh _ _ _ =>
        subst hl
        cases s with
        | nil => obtain ⟨v, e⟩ := hh; cases e
        | cons => obtain ⟨l', e, e', _⟩ := hh; cases e; exact e' rfl
      | flat hne => exact hne hs.symm
    | cons d ds =>
      left
      refine ⟨(empty h (d :: ds) dt).1, (empty h (d :: ds) dt).2, d :: ds, _, rfl,
        .unset (by simp), ?_⟩
      exact
        { ok := empty_ok h _ dt
          shape := rfl
          dt := rfl
          buf := Nat.le_refl _
          next := Nat.le_succ _
          size := fun b hb => by simp [empty, Heap.alloc]; omega
          elem := fun idx _ => rfl
          frame := fun b hb o => rfl }
  by_cases hone : shape ≠ [] ∧ ∃ v, l = [.num v]
  · obtain ⟨hne, v, rfl⟩ := hone
    cases shape with
    | nil => exact absurd rfl hne
    | cons d ds =>
      left
      obtain ⟨h', e1, e2⟩ := fill_fresh h (d :: ds) dt (fun _ => c.store dt v)
        (fun i h1 => h1.write (empty h (d :: ds) dt).1.buf i (c.store dt v)) fun i _ h1 => rfl
      refine ⟨_, h', d :: ds, _, ?_, .fill hne, e2⟩
      rw [make]
      dsimp only
      rw [e1, ok_bind]
      rfl
  have hone' : shape = [] ∨ ∀ v, l ≠ [.num v] := by
    by_cases e : shape = []
    · exact Or.inl e
    · exact Or.inr fun v hv => hone ⟨e, v, hv⟩
  rw [make_general c l shape dt h hn hone', makeNested]
  have hraise : (¬ ∃ ls, HasShape ls (.list l) ∧ (shape = [] ∨ ls = [prod shape] ∨ ls = shape)) →
      ¬ ∃ s g, Builds c dt (fun idx => elem h (empty h shape dt).1 idx) l shape s g := by
    rintro hno ⟨s, g, hb⟩
    cases hb with
    | fill hne => exact hone ⟨hne, _, rfl⟩
    | unset hne => exact hn rfl
    | nested hh hs _ _ =>
      refine hno ⟨_, hh, ?_⟩
      rcases hs with e | e
      · exact Or.inl e
      · exact Or.inr (Or.inr e.symm)
    | flat hne _ hh _ => exact hno ⟨_, hh, Or.inr (Or.inl rfl)⟩
  cases hfs : firstShape (.list l) with
  | none =>
    right
    refine ⟨rfl, hraise ?_⟩
    rintro ⟨ls, hh, _⟩
    rw [firstShape_of_hasShape ls _ hh] at hfs
    cases hfs
  | some ls =>
    dsimp only
    by_cases hc : shape = [] ∨ (ls.length = 1 ∧ ls.headD 0 = prod shape) ∨ ls = shape
    · rw [if_neg (not_not.2 hc)]
      have hprod : prod (if shape = [] then ls else shape) = prod ls := by
        split
        · rfl
        · rename_i hne
          rcases hc with e | ⟨e1, e2⟩ | e
          · exact absurd e hne
          · match ls, e1 with
            | [n], _ => simp at e2; simp [prod_cons, e2]; simp [prod]
          · rw [e]
      by_cases hH : HasShape ls (.list l)
      · left
        rw [((flat_spec ls (.list l)).1 hH [])]
        simp only [List.nil_append]
        set s := if shape = [] then ls else shape with hs
        have hlen : (vals ls (.list l)).length = prod s := by rw [vals_length ls _ hH, hprod]
        have hsome : ∀ i < prod s, ∃ v, (vals ls (.list l))[i]? = some v := fun i hi =>
          ⟨_, List.getElem?_eq_getElem (by rw [hlen]; exact hi)⟩
        have hα : Nonempty α ∨ prod s = 0 := by
          by_cases e : prod s = 0
          · exact Or.inr e
          · obtain ⟨v, _⟩ := hsome 0 (by omega)
            exact Or.inl ⟨v⟩
        have hw : ∃ w : Nat → α, ∀ i < prod s, ∃ v, (vals ls (.list l))[i]? = some v ∧
            w i = c.store dt v := by
          refine ⟨fun i => match (vals ls (.list l))[i]? with
            | some v => c.store dt v
            | none => h.mem 0 0, fun i hi => ?_⟩
          obtain ⟨v, hv⟩ := hsome i hi
          exact ⟨v, hv, by simp only [hv]⟩
        obtain ⟨w, hw⟩ := hw
        obtain ⟨h', e1, e2⟩ := fill_fresh h s dt w
          (fun i h1 => match (vals ls (.list l))[i]? with
            | some v => h1.write (empty h s dt).1.buf i (c.store dt v)
            | none => .error .bad) (by
              intro i hi h1
              obtain ⟨v, hv, hv'⟩ := hw i hi
              simp only [hv, hv'])
        refine ⟨(empty h s dt).1, h', s, _, ?_, ?_, e2⟩
        · rw [hlen]
          exact (congrArg (· >>= fun h2 => if true = true then pure ((empty h s dt).1, h2) else .error .raise) e1 :)
        · by_cases hsl : s = ls
          · rw [hsl]
            refine .nested hH ?_ hone' ?_
            · by_cases e : shape = []
              · exact Or.inl e
              · right; rw [← hsl, hs, if_neg e]
            · intro idx hv
              obtain ⟨v, h1, h2⟩ := vals_get ls _ hH idx hv
              obtain ⟨v', h3, h4⟩ := hw (ravel ls idx) (by rw [hprod]; exact hv.ravel_lt)
              rw [h2] at h3
              injection h3 with h3
              exact ⟨v, h1, by rw [h4, h3]⟩
          · have hne : shape ≠ [] := fun e => hsl (by rw [hs, if_pos e])
            have hss : s = shape := by rw [hs, if_neg hne]
            have hls : ls = [prod shape] := by
              rcases hc with e | ⟨e1, e2⟩ | e
              · exact absurd e hne
              · match ls, e1 with
                | [n], _ => simp at e2; rw [e2]
              · exact absurd (hss.trans e.symm) hsl
            rw [hss]
            refine .flat hne ?_ (hls ▸ hH) ?_
            · rcases hone' with e | e
              · exact absurd e hne
              · exact e
            · intro idx hv
              have hr := hv.ravel_lt
              obtain ⟨v, h1, h2⟩ := vals_get ls _ hH [ravel shape idx] (by rw [hls]; exact ⟨hr, trivial⟩)
              have : ravel ls [ravel shape idx] = ravel shape idx := by
                rw [hls]; simp [ravel, prod]
              rw [this] at h2
              obtain ⟨v', h3, h4⟩ := hw (ravel shape idx) (by rw [hss]; exact hr)
              rw [h2] at h3
              injection h3 with h3
              exact ⟨v, h1, by rw [h4, h3]⟩
      · right
        obtain ⟨vs, hf, hle⟩ := (flat_spec ls (.list l)).2 hH []
        rw [hf]
        simp only [List.nil_append]
        set s := if shape = [] then ls else shape with hs
        obtain ⟨h', e1, _⟩ := fill_spec (empty h s dt).1.buf
          (fun i => match vs[i]? with
            | some v => c.store dt v
            | none => h.mem 0 0)
          (fun i h1 => match vs[i]? with
            | some v => h1.write (empty h s dt).1.buf i (c.store dt v)
            | none => .error .bad) vs.length (empty h s dt).2
          (by simp only [empty, Heap.alloc, if_true]; omega)
          (by
            intro i hi h1
            simp only [List.getElem?_eq_getElem hi])
        refine ⟨?_, hraise ?_⟩
        · exact (congrArg (· >>= fun h2 => if false = true then pure ((empty h s dt).1, h2) else .error .raise) e1 :)
        · rintro ⟨ls', hh, _⟩
          rw [firstShape_of_hasShape ls' _ hh] at hfs
          injection hfs with hfs
          exact hH (hfs ▸ hh)
    · rw [if_pos hc]
      right
      refine ⟨rfl, hraise ?_⟩
      rintro ⟨ls', hh, hs⟩
      rw [firstShape_of_hasShape ls' _ hh] at hfs
      injection hfs with hfs
      subst hfs
      refine hc ?_
      rcases hs with e | e | e
      · exact Or.inl e
      · right; left; rw [e]; simp
      · exact Or.inr (Or.inr e)

/-- The nested list is determined by its shape and numbers. -/
theorem npToList_pyAt : ∀ (s : List Nat) (x : Py α) (g : List Nat → α), HasShape s x →
    (∀ idx, Valid s idx → pyAt idx x = some (g idx)) → npToList s g = x
  | [], x, g, ⟨v, e⟩, hg => by
    subst e
    have := hg [] trivial
    simp [pyAt] at this
    simp [npToList, this]
  | d :: ds, x, g, ⟨l, e, _, hl, hh⟩, hg => by
    subst e
    rw [npToList]
    congr 1
    refine List.ext_getElem (by simp [hl]) fun i h1 h2 => ?_
    rw [List.getElem_map, List.getElem_range]
    refine npToList_pyAt ds l[i] _ (hh _ (List.getElem_mem h2)) fun idx hv => ?_
    have := hg (i :: idx) ⟨by omega, hv⟩
    simp only [pyAt, List.getElem?_eq_getElem h2] at this
    exact this

/-- The array of a nested list converts back to the list, when its numbers are representable in the
type of the array. -/
theorem make_toList (c : Conv D α) (l : List (Py α)) (shape : List Nat) (dt : D) (h : Heap α)
    (hl : HasShape shape (.list l))
    (hfix : ∀ idx v, pyAt idx (.list l) = some v → c.store dt v = v) :
    ∃ r h', make c l [] dt h = .ok (r, h') ∧ toList h' r = .ok l := by
  rcases make_spec c l [] dt h with ⟨r, h', s, g, h1, h2, h3⟩ | ⟨_, h2⟩
  · refine ⟨r, h', h1, ?_⟩
    generalize hs : ([] : List Nat) = s' at h2
    cases h2 with
    | fill hne => exact absurd hs.symm hne
    | unset hne => exact absurd hs.symm hne
    | flat hne => exact absurd hs.symm hne
    | nested hh _ _ hg =>
      have e := hasShape_unique _ _ _ hl hh
      subst e
      have hne : r.shape ≠ [] := by
        rw [h3.shape]
        rintro rfl
        obtain ⟨v, e⟩ := hl
        cases e
      obtain ⟨l', e1, e2⟩ := toList_spec_partial h3.ok hne
      rw [e1]
      congr 1
      have := npToList_pyAt shape (.list l) (elem h' r) hl fun idx hv => by
        obtain ⟨v, e3, e4⟩ := hg idx hv
        rw [e3, h3.elem idx hv, e4, hfix idx v e3]
      rw [h3.shape, this] at e2
      injection e2
  · refine (h2 ⟨shape, fun idx => match pyAt idx (.list l) with
      | some v => c.store dt v
      | none => h.mem 0 0, .nested hl (Or.inl rfl) (Or.inl rfl) fun idx hv => ?_⟩).elim
    obtain ⟨v, e, _⟩ := vals_get shape _ hl idx hv
    exact ⟨v, e, by rw [e]⟩

/-- A ragged list, a list with something that is no number, or a list with empty parts never becomes
an array. -/
theorem make_ragged (c : Conv D α) (l : List (Py α)) (shape : List Nat) (dt : D) (h : Heap α)
    (hn : l ≠ []) (hr : ∀ s, ¬ HasShape s (.list l)) : make c l shape dt h = .error .raise := by
  rcases make_spec c l shape dt h with ⟨_, _, s, g, _, h2, _⟩ | ⟨h1, _⟩
  · cases h2 with
    | fill hne => exact (hr [1] ⟨_, rfl, by simp, rfl, fun y hy => ⟨_, List.mem_singleton.1 hy⟩⟩).elim
    | unset hne => exact absurd rfl hn
    | nested hh => exact (hr _ hh).elim
    | flat _ _ hh => exact (hr _ hh).elim
  · exact h1

-- `NDArray([[1, 2], [3, 4]], [], dtype)`
example : ∃ r h', make demoConv [.list [.num 1, .num 2], .list [.num 3, .num 4]] [] ()
      (demoHeap 0) = .ok (r, h') ∧ r.shape = [2, 2] ∧
    (indices [2, 2]).map (elem h' r) = [1, 2, 3, 4] := ⟨_, _, rfl, rfl, rfl⟩

-- a flat list laid out in a shape
example : ∃ r h', make demoConv [.num 1, .num 2, .num 3, .num 4, .num 5, .num 6] [3, 2] ()
      (demoHeap 0) = .ok (r, h') ∧ r.shape = [3, 2] ∧
    (indices [3, 2]).map (elem h' r) = [1, 2, 3, 4, 5, 6] := ⟨_, _, rfl, rfl, rfl⟩

example : (match make demoConv [.list [.num 1, .num 2], .list [.num 3]] [] () (demoHeap 0) with
    | .error e => e = .raise
    | .ok _ => False) := rfl

end Verif.NDArray
