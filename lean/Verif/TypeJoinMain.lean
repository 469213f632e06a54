import Verif.TypeJoinProps
/-
The common type of two types; loop variables; what the compiler accepts.
-/

namespace Verif.TypeJoin

variable {same : Ty → Ty → Bool} {anc : Nat → Nat → Bool}

theorem peel_strip (hs : SameOk same) {t1 : Ty} (h1 : strip t1 = t1) :
    ∀ (t2 : Ty), (peel same t1 t2 = none → strip t2 = t1) ∧ ∀ u, peel same t1 t2 = some u → strip t2 = u := by
  intro t2
  fun_induction peel same t1 t2 with
  | case1 t h => exact ⟨fun _ => (by rw [← hs _ _ h]; exact h1), fun u he => (by cases he)⟩
  | case2 t h ih => rw [strip]; exact ih
  | case3 t hn h => exact ⟨fun _ => (by rw [← hs _ _ h]; exact h1), fun u he => (by cases he)⟩
  | case4 t hn h =>
    refine ⟨fun he => (by cases he), fun u he => ?_⟩
    cases Option.some.inj he
    cases t <;> first | rfl | exact absurd rfl (hn _)

/-! ### The values of the common type -/

mutual
/-- **C134 (part).**  The common type holds the values of the first type. -/
theorem lift_left : ∀ (t1 t2 : Ty) (v : Val), mem anc t1 v → mem anc (lift same t1 t2) v
  | .ref a, t2, v, h => by
    rw [lift]
    split
    · exact h
    · rw [mem] at h; exact lift_left a t2 v h
  | .obj b, t2, v, h => by rw [lift]; split <;> exact mem_obj _ _
  | .prim c b l, t2, v, h => by
    rw [lift]
    split
    · exact h
    · exact liftPrim_left c b l _ h
  | .cls c, t2, v, h => by
    rw [lift]
    split
    · exact h
    · exact liftCls_left c _ h
  | .dict ft k a, t2, v, h => by
    rw [lift]
    split
    · exact h
    · split
      · rw [mem] at h ⊢
        obtain ⟨xs, h1, h2⟩ := h
        exact ⟨xs, h1, fun x hx => ⟨lift_left k _ _ (h2 x hx).1, lift_left a _ _ (h2 x hx).2⟩⟩
      · exact mem_obj _ _
    · exact mem_obj _ _
  | .set ft a, t2, v, h => by
    rw [lift]
    split
    · exact h
    · split
      · rw [mem] at h ⊢
        obtain ⟨xs, h1, h2⟩ := h
        exact ⟨xs, h1, fun x hx => lift_left a _ _ (h2 x hx)⟩
      · exact mem_obj _ _
    · exact mem_obj _ _
  | .list ft a, t2, v, h => by
    rw [lift]
    split
    · exact h
    · split
      · rw [mem] at h ⊢
        obtain ⟨xs, h1, h2⟩ := h
        exact ⟨xs, h1, fun x hx => lift_left a _ _ (h2 x hx)⟩
      · exact mem_obj _ _
    · exact mem_obj _ _
  | .tuple fs, t2, v, h => by
    rw [lift]
    split
    · exact h
    · split
      · exact mem_obj _ _
      · split
        · rename_i hne hl
          rw [mem] at h ⊢
          obtain ⟨xs, h1, h2⟩ := h
          rcases h2 with h2 | h2
          · exact absurd (.inl h2) hne
          · exact ⟨xs, h1, .inr (liftFields_left fs _ hl xs h2)⟩
        · exact mem_obj _ _
    · exact mem_obj _ _
  | .str w, t2, v, h => by rw [lift]; split; exacts [h, liftLeaf_left _ _ h]
  | .uni w, t2, v, h => by rw [lift]; split; exacts [h, liftLeaf_left _ _ h]
  | .userData, t2, v, h => by rw [lift]; split; exacts [h, liftLeaf_left _ _ h]
  | .iter a, t2, v, h => by rw [lift]; split; exacts [h, liftLeaf_left _ _ h]
  | .range, t2, v, h => by rw [lift]; split; exacts [h, liftLeaf_left _ _ h]
  | .file b, t2, v, h => by rw [lift]; split; exacts [h, liftLeaf_left _ _ h]
  | .tensor n d, t2, v, h => by rw [lift]; split; exacts [h, liftLeaf_left _ _ h]
  | .other n, t2, v, h => by rw [lift]; split; exacts [h, liftLeaf_left _ _ h]
theorem liftFields_left : ∀ (ts us : List Ty), ts.length = us.length → ∀ xs, memFields anc ts xs →
    memFields anc (liftFields same ts us) xs
  | [], us, hl, xs, h => by
    cases us with
    | nil => rw [liftFields]; exacts [h, fun _ _ _ _ h => by cases h]
    | cons _ _ => cases hl
  | t :: ts, us, hl, xs, h => by
    cases us with
    | nil => cases hl
    | cons u us =>
      rw [liftFields]
      rw [memFields] at h ⊢
      obtain ⟨y, ys, h1, h2, h3⟩ := h
      exact ⟨y, ys, h1, lift_left t u y h2, liftFields_left ts us (Nat.succ.inj hl) ys h3⟩
end

theorem liftLeaf_right {t u : Ty} (hn : noFile t = true) {v : Val} (h : mem anc u v) : mem anc (liftLeaf t u) v := by
  unfold liftLeaf
  split
  · split
    · rw [mem.eq_def] at h
      obtain ⟨c, h, _⟩ := h
      show mem anc .userData v
      rw [mem]
      exact .inr ⟨c, h⟩
    · exact mem_obj _ _
  · split
    · rename_i he
      exact eqv_mem t u he hn v h
    · exact mem_obj _ _

mutual
/-- **C134 (part).**  The common type holds the values of the second type, if there are no files. -/
theorem lift_right_partial (hs : SameOk same) : ∀ (t1 t2 : Ty) (v : Val), noFile t1 = true → mem anc t2 v →
    mem anc (lift same t1 t2) v
  | .ref a, t2, v, hn, h => by
    rw [lift]
    split
    · rename_i he; rw [hs _ _ he]; exact h
    · rw [noFile] at hn; exact lift_right_partial hs a t2 v hn h
  | .obj b, t2, v, hn, h => by rw [lift]; split <;> exact mem_obj _ _
  | .prim c b l, t2, v, hn, h => by
    rw [lift]
    split
    · rename_i he; rw [← peel_none hs he]; exact h
    · rename_i he; exact liftPrim_right c b l _ (by rw [← peel_some he]; exact h)
  | .cls c, t2, v, hn, h => by
    rw [lift]
    split
    · rename_i he; rw [← peel_none hs he]; exact h
    · rename_i he; exact liftCls_right c _ (by rw [← peel_some he]; exact h)
  | .dict ft k a, t2, v, hn, h => by
    rw [lift]
    rw [noFile, Bool.and_eq_true] at hn
    split
    · rename_i he; rw [← peel_none hs he]; exact h
    · rename_i he
      rw [peel_some he] at h
      split
      · rename_i hf
        subst hf
        rw [mem] at h ⊢
        obtain ⟨xs, h1, h2⟩ := h
        exact ⟨xs, h1, fun x hx => ⟨lift_right_partial hs k _ _ hn.1 (h2 x hx).1,
          lift_right_partial hs a _ _ hn.2 (h2 x hx).2⟩⟩
      · exact mem_obj _ _
    · exact mem_obj _ _
  | .set ft a, t2, v, hn, h => by
    rw [lift]
    rw [noFile] at hn
    split
    · rename_i he; rw [← peel_none hs he]; exact h
    · rename_i he
      rw [peel_some he] at h
      split
      · rename_i hf
        subst hf
        rw [mem] at h ⊢
        obtain ⟨xs, h1, h2⟩ := h
        exact ⟨xs, h1, fun x hx => lift_right_partial hs a _ _ hn (h2 x hx)⟩
      · exact mem_obj _ _
    · exact mem_obj _ _
  | .list ft a, t2, v, hn, h => by
    rw [lift]
    rw [noFile] at hn
    split
    · rename_i he; rw [← peel_none hs he]; exact h
    · rename_i he
      rw [peel_some he] at h
      split
      · rename_i hf
        subst hf
        rw [mem] at h ⊢
        obtain ⟨xs, h1, h2⟩ := h
        exact ⟨xs, h1, fun x hx => lift_right_partial hs a _ _ hn (h2 x hx)⟩
      · exact mem_obj _ _
    · exact mem_obj _ _
  | .tuple fs, t2, v, hn, h => by
    rw [lift]
    rw [noFile] at hn
    split
    · rename_i he; rw [← peel_none hs he]; exact h
    · rename_i he
      rw [peel_some he] at h
      split
      · exact mem_obj _ _
      · split
        · rename_i hne hl
          rw [mem] at h ⊢
          obtain ⟨xs, h1, h2⟩ := h
          rcases h2 with h2 | h2
          · exact absurd (.inr h2) hne
          · exact ⟨xs, h1, .inr (liftFields_right hs fs _ hl hn xs h2)⟩
        · exact mem_obj _ _
    · exact mem_obj _ _
  | .str w, t2, v, hn, h => by
    rw [lift]
    split
    · rename_i he; rw [← peel_none hs he]; exact h
    · rename_i he; exact liftLeaf_right hn (by rw [← peel_some he]; exact h)
  | .uni w, t2, v, hn, h => by
    rw [lift]
    split
    · rename_i he; rw [← peel_none hs he]; exact h
    · rename_i he; exact liftLeaf_right hn (by rw [← peel_some he]; exact h)
  | .userData, t2, v, hn, h => by
    rw [lift]
    split
    · rename_i he; rw [← peel_none hs he]; exact h
    · rename_i he; exact liftLeaf_right hn (by rw [← peel_some he]; exact h)
  | .iter a, t2, v, hn, h => by
    rw [lift]
    split
    · rename_i he; rw [← peel_none hs he]; exact h
    · rename_i he; exact liftLeaf_right hn (by rw [← peel_some he]; exact h)
  | .range, t2, v, hn, h => by
    rw [lift]
    split
    · rename_i he; rw [← peel_none hs he]; exact h
    · rename_i he; exact liftLeaf_right hn (by rw [← peel_some he]; exact h)
  | .file b, t2, v, hn, h => by rw [noFile] at hn; cases hn
  | .tensor n d, t2, v, hn, h => by
    rw [lift]
    split
    · rename_i he; rw [← peel_none hs he]; exact h
    · rename_i he; exact liftLeaf_right hn (by rw [← peel_some he]; exact h)
  | .other n, t2, v, hn, h => by
    rw [lift]
    split
    · rename_i he; rw [← peel_none hs he]; exact h
    · rename_i he; exact liftLeaf_right hn (by rw [← peel_some he]; exact h)
theorem liftFields_right (hs : SameOk same) : ∀ (ts us : List Ty), ts.length = us.length → noFiles ts = true →
    ∀ xs, memFields anc us xs → memFields anc (liftFields same ts us) xs
  | [], us, hl, hn, xs, h => by
    cases us with
    | nil => rw [liftFields]; exacts [h, fun _ _ _ _ h => by cases h]
    | cons _ _ => cases hl
  | t :: ts, us, hl, hn, xs, h => by
    cases us with
    | nil => cases hl
    | cons u us =>
      rw [liftFields]
      rw [noFiles, Bool.and_eq_true] at hn
      rw [memFields] at h ⊢
      obtain ⟨y, ys, h1, h2, h3⟩ := h
      exact ⟨y, ys, h1, lift_right_partial hs t u y hn.1 h2, liftFields_right hs ts us (Nat.succ.inj hl) hn.2 ys h3⟩
end

/-! ### Loops -/

/-- **C134 (part).**  What a loop over a value of a type yields is in the type of the loop variable. -/
theorem iter_covers : ∀ (t : Ty) (v : Val), mem anc t v → ∀ xs, elems v = some xs → ∀ x ∈ xs, mem anc (iterTy t) x := by
  intro t
  fun_induction iterTy t with
  | case1 _ t => intro v h xs hx x hm; rw [mem] at h; obtain ⟨ys, rfl, h2⟩ := h; cases hx; exact h2 x hm
  | case2 _ t => intro v h xs hx x hm; rw [mem] at h; obtain ⟨ys, rfl, h2⟩ := h; cases hx; exact h2 x hm
  | case3 _ k _ =>
    intro v h xs hx x hm
    rw [mem] at h
    obtain ⟨ys, rfl, h2⟩ := h
    cases hx
    obtain ⟨y, hy, rfl⟩ := List.mem_map.1 hm
    exact (h2 y hy).1
  | case4 _ =>
    intro v h xs hx x hm
    rw [mem] at h
    obtain ⟨s, rfl, h2⟩ := h
    cases hx
    obtain ⟨y, hy, rfl⟩ := List.mem_map.1 hm
    have := h2 y hy
    rw [mem]
    refine ⟨_, rfl, rfl, fun z hz => ?_⟩
    rw [List.mem_singleton.1 hz]
    exact .inl ⟨rfl, by omega, by omega⟩
  | case5 _ =>
    intro v h xs hx x hm
    rw [mem] at h
    obtain ⟨s, rfl⟩ := h
    cases hx
    obtain ⟨y, hy, rfl⟩ := List.mem_map.1 hm
    rw [mem]
    exact ⟨_, rfl⟩
  | case6 t ih =>
    intro v h xs hx x hm
    rw [mem] at h
    obtain ⟨w, rfl, h2⟩ := h
    exact ih w h2 xs hx x hm
  | case7 =>
    intro v h xs hx x hm
    rw [mem] at h
    obtain ⟨s, rfl, h2⟩ := h
    cases hx
    obtain ⟨y, hy, rfl⟩ := List.mem_map.1 hm
    rw [mem]
    refine ⟨_, rfl, rfl, fun z hz => ?_⟩
    rw [List.mem_singleton.1 hz]
    exact h2 y hy
  | case8 t =>
    intro v h xs hx x hm
    rw [mem] at h
    obtain ⟨ys, rfl, h2⟩ := h
    cases hx
    rcases h2 with h2 | h2
    · cases h2
    · rw [memFields] at h2
      obtain ⟨y, ys, rfl, h3, h4⟩ := h2
      rw [memFields] at h4
      subst h4
      rw [List.mem_singleton.1 hm]
      exact h3
  | case9 =>
    intro v h xs hx x hm
    rw [mem] at h
    obtain ⟨ls, rfl⟩ := h
    rw [if_pos rfl] at hx
    cases hx
    obtain ⟨y, hy, rfl⟩ := List.mem_map.1 hm
    rw [mem]
    refine ⟨_, rfl, fun z hz => ?_⟩
    obtain ⟨w, _, rfl⟩ := List.mem_map.1 hz
    exact Nat.mod_lt _ (by decide)
  | case10 b hb =>
    intro v h xs hx x hm
    rw [mem] at h
    obtain ⟨ls, rfl⟩ := h
    rw [if_neg hb] at hx
    cases hx
    obtain ⟨y, hy, rfl⟩ := List.mem_map.1 hm
    rw [mem]
    exact ⟨_, rfl⟩
  | case11 t ih => intro v h; rw [mem] at h; exact ih v h
  | case12 => intro v h xs hx x hm; exact mem_obj _ _

theorem memFields_nth : ∀ (ts : List Ty) (xs : List Val), memFields anc ts xs → ∀ (i : Nat) (t : Ty) (x : Val), ts[i]? = some t →
    xs[i]? = some x → mem anc t x := by
  intro ts
  induction ts with
  | nil => intro xs h i t x ht; cases ht
  | cons t ts ih =>
    intro xs h i u x ht hx
    rw [memFields] at h
    obtain ⟨y, ys, rfl, h1, h2⟩ := h
    cases i with
    | zero => cases ht; cases hx; exact h1
    | succ i => exact ih ys h2 i u x ht hx

/-- **C134 (part).**  When a value is unpacked, its `i`-th part is in the type of the `i`-th variable. -/
theorem nth_covers : ∀ (t : Ty) (v : Val), mem anc t v → ∀ i u, nthTy t i = some u → ∀ xs, elems v = some xs →
    ∀ x, xs[i]? = some x → mem anc u x := by
  intro t v h i
  fun_induction nthTy t i with
  | case1 fs i =>
    intro u hu xs hx x hm
    rw [mem] at h
    obtain ⟨ys, rfl, h2⟩ := h
    cases hx
    rcases h2 with rfl | h2
    · cases hu
    · exact memFields_nth fs _ h2 i u x hu hm
  | case2 t i ih => rw [mem] at h; exact ih h
  | case3 t i _ _ =>
    intro u hu xs hx x hm
    cases hu
    exact iter_covers t v h xs hx x (List.mem_of_getElem? hm)

end Verif.TypeJoin
