import Verif.TypeJoin
/-
The common type of two types holds the values of both; a loop variable's type holds what the loop yields.
-/

namespace Verif.TypeJoin

variable {same : Ty → Ty → Bool} {anc : Nat → Nat → Bool}

/-- The oracle for equal nodes. -/
def SameOk (same : Ty → Ty → Bool) : Prop := ∀ a b, same a b = true → a = b

theorem mem_strip (t : Ty) (v : Val) : mem anc (strip t) v = mem anc t v := by
  fun_induction strip t with
  | case1 t ih => rw [ih, mem]
  | case2 t _ => rfl

theorem peel_none (hs : SameOk same) {t1 : Ty} : ∀ {t2 : Ty}, peel same t1 t2 = none → ∀ v, mem anc t2 v = mem anc t1 v := by
  intro t2
  fun_induction peel same t1 t2 with
  | case1 t h => intro _ v; rw [hs _ _ h]
  | case2 t h ih => intro he v; rw [mem]; exact ih he v
  | case3 t _ h => intro _ v; rw [hs _ _ h]
  | case4 t _ h => intro he; cases he

theorem peel_some {t1 : Ty} : ∀ {t2 u : Ty}, peel same t1 t2 = some u → ∀ v, mem anc t2 v = mem anc u v := by
  intro t2
  fun_induction peel same t1 t2 with
  | case1 t h => intro u he; cases he
  | case2 t h ih => intro u he v; rw [mem]; exact ih he v
  | case3 t _ h => intro u he; cases he
  | case4 t _ h => intro u he v; cases he; rfl

theorem mem_obj (b : Bool) (v : Val) : mem anc (.obj b) v := by rw [mem]; trivial

theorem fits_mono {c b b' : Nat} (hc : c = 0 ∨ c = 2) (h : b ≤ b') {x : Num} (hx : fits c b x) : fits c b' x := by
  have hp : (2 : Int) ^ b ≤ (2 : Int) ^ b' := by
    have : 2 ^ b ≤ 2 ^ b' := Nat.pow_le_pow_right (by decide) h
    exact_mod_cast this
  cases x with
  | int n =>
    rcases hx with ⟨h1, h2, h3⟩ | ⟨h1, _⟩
    · exact .inl ⟨h1, by omega, by omega⟩
    · omega
  | bool _ => have := hx.1; omega
  | flt n => exact ⟨hx.1, by have := hx.2; omega⟩
  | handle => exact hx

theorem liftPrim_left (c b l : Nat) (u : Ty) {v : Val} (h : mem anc (.prim c b l) v) : mem anc (liftPrim c b l u) v := by
  cases u with
  | prim c' b' l' =>
    rw [liftPrim]
    split
    · rename_i he
      obtain ⟨rfl, rfl, rfl⟩ := he
      exact h
    · split
      · rename_i he
        rw [mem] at h ⊢
        obtain ⟨xs, h1, h2, h3⟩ := h
        exact ⟨xs, h1, h2, fun x hx => fits_mono (by omega) (by omega) (h3 x hx)⟩
      · exact mem_obj _ _
  | _ => exact mem_obj _ _

theorem liftPrim_right (c b l : Nat) (u : Ty) {v : Val} (h : mem anc u v) : mem anc (liftPrim c b l u) v := by
  cases u with
  | prim c' b' l' =>
    rw [liftPrim]
    split
    · exact h
    · split
      · rename_i he
        rw [mem] at h ⊢
        obtain ⟨xs, h1, h2, h3⟩ := h
        obtain ⟨rfl, hc⟩ := he
        obtain rfl : c = c' := by omega
        exact ⟨xs, h1, h2, fun x hx => fits_mono (by omega) (by omega) (h3 x hx)⟩
      · exact mem_obj _ _
  | _ => exact mem_obj _ _

theorem liftCls_left (c : Nat) (u : Ty) {v : Val} (h : mem anc (.cls c) v) : mem anc (liftCls c u) v := by
  cases u with
  | cls d =>
    rw [liftCls]
    split
    · rename_i he; subst he; exact h
    · exact mem_obj _ _
  | userData =>
    rw [mem] at h
    obtain ⟨d, h1, _⟩ := h
    show mem anc .userData v
    rw [mem]
    exact .inr ⟨d, h1⟩
  | _ => exact mem_obj _ _

theorem liftCls_right (c : Nat) (u : Ty) {v : Val} (h : mem anc u v) : mem anc (liftCls c u) v := by
  cases u with
  | cls d =>
    rw [liftCls]
    split
    · exact h
    · exact mem_obj _ _
  | userData => exact h
  | _ => exact mem_obj _ _

theorem liftLeaf_left (t u : Ty) {v : Val} (h : mem anc t v) : mem anc (liftLeaf t u) v := by
  unfold liftLeaf
  split
  · split
    · exact h
    · exact mem_obj _ _
  · split
    · exact h
    · exact mem_obj _ _

mutual
/-- Equal types have the same values, if there are no files. -/
theorem eqv_mem : ∀ (t u : Ty), eqv t u = true → noFile t = true → ∀ v, mem anc u v → mem anc t v
  | .prim c b l, u, h, _, v, hv => by
    cases u with
    | prim c' b' l' =>
      simp only [eqv, Bool.and_eq_true, decide_eq_true_eq] at h
      obtain ⟨⟨rfl, rfl⟩, rfl⟩ := h
      exact hv
    | _ => simp [eqv] at h
  | .str _, u, h, _, v, hv => by
    cases u with
    | str _ =>
      rw [mem] at hv ⊢; exact hv
    | _ => simp [eqv] at h
  | .uni _, u, h, _, v, hv => by
    cases u with
    | uni _ =>
      rw [mem] at hv ⊢; exact hv
    | _ => simp [eqv] at h
  | .list ft a, u, h, hn, v, hv => by
    cases u with
    | list ft' a' =>
      simp only [eqv, Bool.and_eq_true, decide_eq_true_eq] at h
      rw [noFile] at hn
      obtain ⟨rfl, h⟩ := h
      rw [mem] at hv ⊢
      obtain ⟨xs, h1, h2⟩ := hv
      exact ⟨xs, h1, fun x hx => eqv_mem a a' h hn x (h2 x hx)⟩
    | _ => simp [eqv] at h
  | .set ft a, u, h, hn, v, hv => by
    cases u with
    | set ft' a' =>
      simp only [eqv, Bool.and_eq_true, decide_eq_true_eq] at h
      rw [noFile] at hn
      obtain ⟨rfl, h⟩ := h
      rw [mem] at hv ⊢
      obtain ⟨xs, h1, h2⟩ := hv
      exact ⟨xs, h1, fun x hx => eqv_mem a a' h hn x (h2 x hx)⟩
    | _ => simp [eqv] at h
  | .dict ft k a, u, h, hn, v, hv => by
    cases u with
    | dict ft' k' a' =>
      simp only [eqv, Bool.and_eq_true, decide_eq_true_eq] at h
      simp only [noFile, Bool.and_eq_true] at hn
      obtain ⟨rfl, h, h'⟩ := h
      rw [mem] at hv ⊢
      obtain ⟨xs, h1, h2⟩ := hv
      exact ⟨xs, h1, fun x hx => ⟨eqv_mem k k' h hn.1 _ (h2 x hx).1, eqv_mem a a' h' hn.2 _ (h2 x hx).2⟩⟩
    | _ => simp [eqv] at h
  | .tuple fs, u, h, hn, v, hv => by
    cases u with
    | tuple fs' =>
      rw [eqv] at h
      rw [noFile] at hn
      rw [mem] at hv ⊢
      obtain ⟨xs, h1, h2⟩ := hv
      refine ⟨xs, h1, ?_⟩
      rcases h2 with rfl | h2
      · cases fs with
        | nil => exact .inl rfl
        | cons _ _ => simp [eqvs] at h
      · exact .inr (eqvs_mem fs fs' h hn xs h2)
    | _ => simp [eqv] at h
  | .cls c, u, h, _, v, hv => by
    cases u with
    | cls c' =>
      simp only [eqv, decide_eq_true_eq] at h
      subst h
      exact hv
    | _ => simp [eqv] at h
  | .userData, u, h, _, v, hv => by
    cases u with
    | userData =>
      exact hv
    | _ => simp [eqv] at h
  | .obj _, u, h, _, v, hv => by
    cases u with
    | obj _ =>
      exact mem_obj _ _
    | _ => simp [eqv] at h
  | .ref a, u, h, hn, v, hv => by
    cases u with
    | ref a' =>
      rw [eqv] at h
      rw [noFile] at hn
      rw [mem] at hv ⊢
      exact eqv_mem a a' h hn v hv
    | _ => simp [eqv] at h
  | .iter a, u, h, hn, v, hv => by
    cases u with
    | iter a' =>
      rw [eqv] at h
      rw [noFile] at hn
      rw [mem] at hv ⊢
      obtain ⟨w, h1, h2⟩ := hv
      exact ⟨w, h1, eqv_mem a a' h hn w h2⟩
    | _ => simp [eqv] at h
  | .range, u, h, _, v, hv => by
    cases u with
    | range =>
      exact hv
    | _ => simp [eqv] at h
  | .tensor n d, u, h, _, v, hv => by
    cases u with
    | tensor n' d' =>
      simp only [eqv, Bool.and_eq_true, decide_eq_true_eq] at h
      obtain ⟨rfl, rfl⟩ := h
      exact hv
    | _ => simp [eqv] at h
  | .other n, u, h, _, v, hv => by
    cases u with
    | other n' =>
      simp only [eqv, decide_eq_true_eq] at h
      subst h
      exact hv
    | _ => simp [eqv] at h
  | .file _, _, _, hn, _, _ => by rw [noFile] at hn; cases hn
theorem eqvs_mem : ∀ (ts us : List Ty), eqvs ts us = true → noFiles ts = true → ∀ xs, memFields anc us xs →
    memFields anc ts xs
  | [], [], _, _, xs, h => h
  | t :: ts, u :: us, h, hn, xs, hv => by
    rw [eqvs, Bool.and_eq_true] at h
    rw [noFiles, Bool.and_eq_true] at hn
    rw [memFields] at hv ⊢
    obtain ⟨y, ys, h1, h2, h3⟩ := hv
    exact ⟨y, ys, h1, eqv_mem t u h.1 hn.1 y h2, eqvs_mem ts us h.2 hn.2 ys h3⟩
  | [], _ :: _, h, _, _, _ => by simp [eqvs] at h
  | _ :: _, [], h, _, _, _ => by simp [eqvs] at h
end

end Verif.TypeJoin
