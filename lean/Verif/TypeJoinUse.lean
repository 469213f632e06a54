import Verif.TypeJoinMain
import Mathlib.Tactic.Tauto
/-
What the compiler accepts; files; the order of joins.
-/

namespace Verif.TypeJoin

variable {same : Ty → Ty → Bool} {anc : Nat → Nat → Bool}

/-! ### Equality -/

mutual
theorem eqv_refl : ∀ t : Ty, eqv t t = true
  | .prim _ _ _ => by simp [eqv]
  | .str _ => by simp [eqv]
  | .uni _ => by simp [eqv]
  | .list _ a => by simp [eqv, eqv_refl a]
  | .set _ a => by simp [eqv, eqv_refl a]
  | .dict _ k a => by simp [eqv, eqv_refl k, eqv_refl a]
  | .tuple fs => by rw [eqv]; exact eqvs_refl fs
  | .cls _ => by simp [eqv]
  | .userData => by simp [eqv]
  | .obj _ => by simp [eqv]
  | .ref a => by rw [eqv]; exact eqv_refl a
  | .iter a => by rw [eqv]; exact eqv_refl a
  | .range => by simp [eqv]
  | .file _ => by simp [eqv]
  | .tensor _ _ => by simp [eqv]
  | .other _ => by simp [eqv]
theorem eqvs_refl : ∀ ts : List Ty, eqvs ts ts = true
  | [] => by rw [eqvs]
  | t :: ts => by rw [eqvs, eqv_refl t, eqvs_refl ts]; rfl
end

mutual
theorem eqv_symm : ∀ t u : Ty, eqv t u = true → eqv u t = true
  | .prim _ _ _, u, h => by cases u <;> simp [eqv] at h ⊢; tauto
  | .str _, u, h => by cases u <;> simp [eqv] at h ⊢
  | .uni _, u, h => by cases u <;> simp [eqv] at h ⊢
  | .list _ a, u, h => by
    cases u <;> simp [eqv] at h ⊢
    exact ⟨h.1.symm, eqv_symm a _ h.2⟩
  | .set _ a, u, h => by
    cases u <;> simp [eqv] at h ⊢
    exact ⟨h.1.symm, eqv_symm a _ h.2⟩
  | .dict _ k a, u, h => by
    cases u <;> simp [eqv] at h ⊢
    exact ⟨h.1.symm, eqv_symm k _ h.2.1, eqv_symm a _ h.2.2⟩
  | .tuple fs, u, h => by
    cases u <;> simp [eqv] at h ⊢
    exact eqvs_symm fs _ h
  | .cls _, u, h => by cases u <;> simp [eqv] at h ⊢; exact h.symm
  | .userData, u, h => by cases u <;> simp [eqv] at h ⊢
  | .obj _, u, h => by cases u <;> simp [eqv] at h ⊢
  | .ref a, u, h => by
    cases u <;> simp [eqv] at h ⊢
    exact eqv_symm a _ h
  | .iter a, u, h => by
    cases u <;> simp [eqv] at h ⊢
    exact eqv_symm a _ h
  | .range, u, h => by cases u <;> simp [eqv] at h ⊢
  | .file _, u, h => by cases u <;> simp [eqv] at h ⊢
  | .tensor _ _, u, h => by cases u <;> simp [eqv] at h ⊢; exact ⟨h.1.symm, h.2.symm⟩
  | .other _, u, h => by cases u <;> simp [eqv] at h ⊢; exact h.symm
theorem eqvs_symm : ∀ ts us : List Ty, eqvs ts us = true → eqvs us ts = true
  | [], us, h => by
    cases us with
    | nil => exact h
    | cons _ _ => simp [eqvs] at h
  | t :: ts, us, h => by
    cases us with
    | nil => simp [eqvs] at h
    | cons u us =>
      rw [eqvs, Bool.and_eq_true] at h ⊢
      exact ⟨eqv_symm t u h.1, eqvs_symm ts us h.2⟩
end

/-! ### The compiler accepts both for the common type -/

theorem peel_self (t r : Ty) (h : strip r = r) : peel same t r = none ∨ peel same t r = some r := by
  cases r with
  | ref a =>
    have : ∀ b : Ty, sizeOf (strip b) ≤ sizeOf b := by
      intro b
      fun_induction strip b with
      | case1 b ih => simp only [Ty.ref.sizeOf_spec]; omega
      | case2 => exact Nat.le_refl _
    have h1 := this a
    rw [strip] at h
    rw [h, Ty.ref.sizeOf_spec] at h1
    omega
  | _ => unfold peel; split <;> simp

/-- Types without parts, and iterators. -/
def isLeaf : Ty → Bool
  | .ref _ | .obj _ | .list _ _ | .set _ _ | .dict _ _ _ | .tuple _ => false
  | _ => true

theorem conv_leaf {u r : Ty} (hu : isLeaf u = true) (hr : strip r = r) (h : convLeaf anc u r = true) :
    conv same anc u r = true := by
  cases u with
  | ref _ => cases hu
  | obj _ => cases hu
  | list _ _ => cases hu
  | set _ _ => cases hu
  | dict _ _ _ => cases hu
  | tuple _ => cases hu
  | _ => rw [conv]; rcases peel_self (same := same) _ r hr with e | e <;> rw [e] <;> first | rfl | exact h

theorem convLeaf_eqv {t u : Ty} (ht : isLeaf t = true) (h : eqv t u = true) : convLeaf anc t u = true := by
  cases t <;> cases u <;> simp [eqv, convLeaf, isLeaf, convPrim] at h ht ⊢ <;> first | exact h | tauto | skip
  · obtain ⟨⟨rfl, rfl⟩, rfl⟩ := h
    simp
    omega

theorem conv_obj (b : Bool) : ∀ t : Ty, conv same anc t (.obj b) = true
  | .ref a => by rw [conv, conv_obj b a, Bool.or_true]
  | .obj _ => by rw [conv]
  | .list _ _ => by rw [conv]; rcases peel_self (same := same) _ (.obj b) rfl with e | e <;> rw [e]
  | .set _ _ => by rw [conv]; rcases peel_self (same := same) _ (.obj b) rfl with e | e <;> rw [e]
  | .dict _ _ _ => by rw [conv]; rcases peel_self (same := same) _ (.obj b) rfl with e | e <;> rw [e]
  | .tuple _ => by rw [conv]; rcases peel_self (same := same) _ (.obj b) rfl with e | e <;> rw [e]
  | .prim _ _ _ => conv_leaf rfl rfl (by rw [convLeaf])
  | .cls _ => conv_leaf rfl rfl (by rw [convLeaf])
  | .str _ => conv_leaf rfl rfl (by rw [convLeaf])
  | .uni _ => conv_leaf rfl rfl (by rw [convLeaf])
  | .userData => conv_leaf rfl rfl (by rw [convLeaf])
  | .iter _ => conv_leaf rfl rfl (by rw [convLeaf])
  | .range => conv_leaf rfl rfl (by rw [convLeaf])
  | .file _ => conv_leaf rfl rfl (by rw [convLeaf])
  | .tensor _ _ => conv_leaf rfl rfl (by rw [convLeaf])
  | .other _ => conv_leaf rfl rfl (by rw [convLeaf])

theorem conv_strip_left (r : Ty) : ∀ t : Ty, conv same anc (strip t) r = true → conv same anc t r = true := by
  intro t
  fun_induction strip t with
  | case1 t ih => intro h; rw [conv, ih h, Bool.or_true]
  | case2 t _ => exact id

theorem conv_refl_leaf (hs : SameOk same) {t u : Ty} (ht : isLeaf t = true) (h : strip u = strip t) :
    conv same anc t u = true := by
  have hst : strip t = t := by cases t <;> first | rfl | cases ht
  have hl := convLeaf_eqv (anc := anc) ht (eqv_refl t)
  have hp := peel_strip hs hst u
  rw [hst] at h
  cases t with
  | ref _ => cases ht
  | obj _ => cases ht
  | list _ _ => cases ht
  | set _ _ => cases ht
  | dict _ _ _ => cases ht
  | tuple _ => cases ht
  | _ =>
    rw [conv]
    split
    · rfl
    · rename_i w e
      have := (hp.2 w e).symm.trans h
      subst this
      exact hl

mutual
/-- A type is accepted for itself, with references or without. -/
theorem conv_refl (hs : SameOk same) : ∀ t u : Ty, strip u = strip t → conv same anc t u = true
  | .ref a, u, h => by
    rw [strip] at h
    rw [conv, conv_refl hs a u h, Bool.or_true]
  | .obj _, u, h => by rw [conv]
  | .list ft a, u, h => by
    rw [conv]
    cases e : peel same (.list ft a) u with
    | none => rfl
    | some w =>
      have := ((peel_strip hs rfl u).2 w e).symm.trans h
      subst this
      simp [strip, conv_refl hs a a rfl]
  | .set ft a, u, h => by
    rw [conv]
    cases e : peel same (.set ft a) u with
    | none => rfl
    | some w =>
      have := ((peel_strip hs rfl u).2 w e).symm.trans h
      subst this
      simp [strip, conv_refl hs a a rfl]
  | .dict ft k a, u, h => by
    rw [conv]
    cases e : peel same (.dict ft k a) u with
    | none => rfl
    | some w =>
      have := ((peel_strip hs rfl u).2 w e).symm.trans h
      subst this
      simp [strip, conv_refl hs a a rfl, conv_refl hs k k rfl]
  | .tuple fs, u, h => by
    rw [conv]
    cases e : peel same (.tuple fs) u with
    | none => rfl
    | some w =>
      have := ((peel_strip hs rfl u).2 w e).symm.trans h
      subst this
      simp [strip, convFields_refl hs fs]
  | .prim c b l, u, h => conv_refl_leaf hs rfl h
  | .cls c, u, h => conv_refl_leaf hs rfl h
  | .str c, u, h => conv_refl_leaf hs rfl h
  | .uni c, u, h => conv_refl_leaf hs rfl h
  | .userData, u, h => conv_refl_leaf hs rfl h
  | .iter c, u, h => conv_refl_leaf hs rfl h
  | .range, u, h => conv_refl_leaf hs rfl h
  | .file c, u, h => conv_refl_leaf hs rfl h
  | .tensor c d, u, h => conv_refl_leaf hs rfl h
  | .other c, u, h => conv_refl_leaf hs rfl h
theorem convFields_refl (hs : SameOk same) : ∀ ts : List Ty, convFields same anc ts ts = true
  | [] => by simp [convFields]
  | t :: ts => by rw [convFields, conv_refl hs t t rfl, convFields_refl hs ts]; rfl
end

/-- A join of leaves is accepted for the left one. -/
theorem conv_liftLeaf_left (hs : SameOk same) (t u : Ty) : conv same anc t (liftLeaf t u) = true := by
  unfold liftLeaf
  split
  · split
    · exact conv_refl hs _ _ rfl
    · exact conv_obj _ _
  · split
    · exact conv_refl hs _ _ rfl
    · exact conv_obj _ _

theorem conv_prim {c b l b' : Nat} (h : b ≤ b') : conv same anc (.prim c b l) (.prim c b' l) = true := by
  refine conv_leaf rfl rfl ?_
  simp [convLeaf, convPrim, h]

theorem conv_liftPrim_left (hs : SameOk same) (c b l : Nat) (u : Ty) :
    conv same anc (.prim c b l) (liftPrim c b l u) = true := by
  cases u with
  | prim c' b' l' =>
    rw [liftPrim]
    split
    · rename_i he
      obtain ⟨rfl, rfl, rfl⟩ := he
      exact conv_refl hs _ _ rfl
    · split
      · exact conv_prim (Nat.le_max_left _ _)
      · exact conv_obj _ _
  | _ => exact conv_obj _ _

theorem conv_liftPrim_right (hs : SameOk same) (c b l : Nat) (u : Ty) :
    conv same anc u (liftPrim c b l u) = true := by
  cases u with
  | prim c' b' l' =>
    rw [liftPrim]
    split
    · exact conv_refl hs _ _ rfl
    · split
      · rename_i he
        obtain ⟨rfl, hc⟩ := he
        obtain rfl : c = c' := by omega
        exact conv_prim (Nat.le_max_right _ _)
      · exact conv_obj _ _
  | _ => exact conv_obj _ _

theorem conv_liftCls_left (hs : SameOk same) (c : Nat) (u : Ty) : conv same anc (.cls c) (liftCls c u) = true := by
  cases u with
  | cls d =>
    rw [liftCls]
    split
    · rename_i he; subst he; exact conv_refl hs _ _ rfl
    · exact conv_obj _ _
  | userData => exact conv_leaf rfl rfl (by show convLeaf anc (.cls c) .userData = true; rw [convLeaf])
  | _ => exact conv_obj _ _

theorem conv_liftCls_right (hs : SameOk same) (c : Nat) (u : Ty) : conv same anc u (liftCls c u) = true := by
  cases u with
  | cls d =>
    rw [liftCls]
    split
    · exact conv_refl hs _ _ rfl
    · exact conv_obj _ _
  | userData => exact conv_refl hs _ _ rfl
  | _ => exact conv_obj _ _

theorem conv_liftLeaf_right (t u : Ty) (ht : isLeaf t = true) (hu : strip u = u) :
    conv same anc u (liftLeaf t u) = true := by
  unfold liftLeaf
  split
  · split
    · exact conv_leaf rfl rfl (by rw [convLeaf])
    · exact conv_obj _ _
  · split
    · rename_i he
      have hl : isLeaf u = true := by cases t <;> cases u <;> first | rfl | (simp [isLeaf] at ht; done) | (simp [eqv] at he; done)
      have hst : strip t = t := by cases t <;> first | rfl | cases ht
      exact conv_leaf hl hst (convLeaf_eqv hl (eqv_symm _ _ he))
    · exact conv_obj _ _

theorem conv_to_list {ft : Bool} {a b : Ty} (h : conv same anc a b = true) :
    conv same anc (.list ft a) (.list ft b) = true := by
  rw [conv]
  rcases peel_self (same := same) (.list ft a) (.list ft b) rfl with e | e <;> rw [e]
  simp [h]

theorem conv_to_set {ft : Bool} {a b : Ty} (h : conv same anc a b = true) :
    conv same anc (.set ft a) (.set ft b) = true := by
  rw [conv]
  rcases peel_self (same := same) (.set ft a) (.set ft b) rfl with e | e <;> rw [e]
  simp [h]

theorem conv_to_dict {ft : Bool} {k k' a b : Ty} (hk : conv same anc k k' = true) (h : conv same anc a b = true) :
    conv same anc (.dict ft k a) (.dict ft k' b) = true := by
  rw [conv]
  rcases peel_self (same := same) (.dict ft k a) (.dict ft k' b) rfl with e | e <;> rw [e]
  simp [h, hk]

theorem conv_to_tuple {fs gs : List Ty} (hl : fs.length = gs.length) (h : convFields same anc fs gs = true) :
    conv same anc (.tuple fs) (.tuple gs) = true := by
  rw [conv]
  rcases peel_self (same := same) (.tuple fs) (.tuple gs) rfl with e | e <;> rw [e]
  simp [h, hl]

theorem liftFields_length : ∀ (ts us : List Ty), ts.length = us.length → (liftFields same ts us).length = ts.length
  | [], us, _ => by simp [liftFields]
  | t :: ts, us, h => by
    cases us with
    | nil => cases h
    | cons u us =>
      rw [liftFields, List.length_cons, List.length_cons, liftFields_length ts us (Nat.succ.inj h)]

mutual
/-- **C134 (part).**  The compiler accepts the first type for the common type. -/
theorem conv_lift_left (hs : SameOk same) : ∀ t1 t2 : Ty, conv same anc t1 (lift same t1 t2) = true
  | .ref a, t2 => by
    rw [lift]
    split
    · exact conv_refl hs _ _ rfl
    · rw [conv, conv_lift_left hs a t2, Bool.or_true]
  | .obj b, t2 => by rw [conv]
  | .prim c b l, t2 => by rw [lift]; split; exacts [conv_refl hs _ _ rfl, conv_liftPrim_left hs c b l _]
  | .cls c, t2 => by rw [lift]; split; exacts [conv_refl hs _ _ rfl, conv_liftCls_left hs c _]
  | .dict ft k a, t2 => by
    rw [lift]
    split
    · exact conv_refl hs _ _ rfl
    · split
      · exact conv_to_dict (conv_lift_left hs k _) (conv_lift_left hs a _)
      · exact conv_obj _ _
    · exact conv_obj _ _
  | .set ft a, t2 => by
    rw [lift]
    split
    · exact conv_refl hs _ _ rfl
    · split
      · exact conv_to_set (conv_lift_left hs a _)
      · exact conv_obj _ _
    · exact conv_obj _ _
  | .list ft a, t2 => by
    rw [lift]
    split
    · exact conv_refl hs _ _ rfl
    · split
      · exact conv_to_list (conv_lift_left hs a _)
      · exact conv_obj _ _
    · exact conv_obj _ _
  | .tuple fs, t2 => by
    rw [lift]
    split
    · exact conv_refl hs _ _ rfl
    · split
      · exact conv_obj _ _
      · split
        · rename_i hl
          exact conv_to_tuple (liftFields_length fs _ hl).symm (convFields_lift_left hs fs _)
        · exact conv_obj _ _
    · exact conv_obj _ _
  | .str w, t2 => by rw [lift]; split; exacts [conv_refl hs _ _ rfl, conv_liftLeaf_left hs _ _]
  | .uni w, t2 => by rw [lift]; split; exacts [conv_refl hs _ _ rfl, conv_liftLeaf_left hs _ _]
  | .userData, t2 => by rw [lift]; split; exacts [conv_refl hs _ _ rfl, conv_liftLeaf_left hs _ _]
  | .iter a, t2 => by rw [lift]; split; exacts [conv_refl hs _ _ rfl, conv_liftLeaf_left hs _ _]
  | .range, t2 => by rw [lift]; split; exacts [conv_refl hs _ _ rfl, conv_liftLeaf_left hs _ _]
  | .file b, t2 => by rw [lift]; split; exacts [conv_refl hs _ _ rfl, conv_liftLeaf_left hs _ _]
  | .tensor n d, t2 => by rw [lift]; split; exacts [conv_refl hs _ _ rfl, conv_liftLeaf_left hs _ _]
  | .other n, t2 => by rw [lift]; split; exacts [conv_refl hs _ _ rfl, conv_liftLeaf_left hs _ _]
theorem convFields_lift_left (hs : SameOk same) : ∀ ts us : List Ty,
    convFields same anc ts (liftFields same ts us) = true
  | [], us => by simp [convFields]
  | t :: ts, us => by
    cases us with
    | nil => simp [liftFields, convFields]
    | cons u us => rw [liftFields, convFields, conv_lift_left hs t u, convFields_lift_left hs ts us]; rfl
end

theorem peel_refl (hs : SameOk same) {t1 t2 : Ty} (h1 : strip t1 = t1) (h : peel same t1 t2 = none) :
    conv same anc t2 t1 = true :=
  conv_refl hs _ _ (by rw [h1, (peel_strip hs h1 t2).1 h])

theorem via_strip (hs : SameOk same) {t1 t2 u r : Ty} (h1 : strip t1 = t1) (h : peel same t1 t2 = some u)
    (hc : conv same anc u r = true) : conv same anc t2 r = true :=
  conv_strip_left r t2 (by rw [(peel_strip hs h1 t2).2 u h]; exact hc)

theorem strip_strip (t : Ty) : strip (strip t) = strip t := by
  fun_induction strip t with
  | case1 t ih => exact ih
  | case2 t h => cases t <;> first | rfl | exact absurd rfl (h _)

theorem leaf_right (hs : SameOk same) {t1 t2 u : Ty} (h1 : strip t1 = t1) (hl : isLeaf t1 = true)
    (h : peel same t1 t2 = some u) : conv same anc t2 (liftLeaf t1 u) = true := by
  refine via_strip hs h1 h (conv_liftLeaf_right t1 u hl ?_)
  rw [← (peel_strip hs h1 t2).2 u h, strip_strip]

mutual
/-- **C134 (part).**  The compiler accepts the second type for the common type. -/
theorem conv_lift_right (hs : SameOk same) : ∀ t1 t2 : Ty, conv same anc t2 (lift same t1 t2) = true
  | .ref a, t2 => by
    rw [lift]
    split
    · rename_i he; rw [hs _ _ he]; exact conv_refl hs _ _ rfl
    · exact conv_lift_right hs a t2
  | .obj b, t2 => by rw [lift]; split <;> exact conv_obj _ _
  | .prim c b l, t2 => by
    rw [lift]
    split
    · rename_i e; exact peel_refl hs rfl e
    · rename_i e; exact via_strip hs rfl e (conv_liftPrim_right hs c b l _)
  | .cls c, t2 => by
    rw [lift]
    split
    · rename_i e; exact peel_refl hs rfl e
    · rename_i e; exact via_strip hs rfl e (conv_liftCls_right hs c _)
  | .dict ft k a, t2 => by
    rw [lift]
    split
    · rename_i e; exact peel_refl hs rfl e
    · rename_i e
      split
      · rename_i hf
        subst hf
        exact via_strip hs rfl e (conv_to_dict (conv_lift_right hs k _) (conv_lift_right hs a _))
      · exact conv_obj _ _
    · exact conv_obj _ _
  | .set ft a, t2 => by
    rw [lift]
    split
    · rename_i e; exact peel_refl hs rfl e
    · rename_i e
      split
      · rename_i hf
        subst hf
        exact via_strip hs rfl e (conv_to_set (conv_lift_right hs a _))
      · exact conv_obj _ _
    · exact conv_obj _ _
  | .list ft a, t2 => by
    rw [lift]
    split
    · rename_i e; exact peel_refl hs rfl e
    · rename_i e
      split
      · rename_i hf
        subst hf
        exact via_strip hs rfl e (conv_to_list (conv_lift_right hs a _))
      · exact conv_obj _ _
    · exact conv_obj _ _
  | .tuple fs, t2 => by
    rw [lift]
    split
    · rename_i e; exact peel_refl hs rfl e
    · rename_i e
      split
      · exact conv_obj _ _
      · split
        · rename_i hl
          exact via_strip hs rfl e
            (conv_to_tuple (hl.symm.trans (liftFields_length fs _ hl).symm) (convFields_lift_right hs fs _))
        · exact conv_obj _ _
    · exact conv_obj _ _
  | .str w, t2 => by rw [lift]; split <;> rename_i e; exacts [peel_refl hs rfl e, leaf_right hs rfl rfl e]
  | .uni w, t2 => by rw [lift]; split <;> rename_i e; exacts [peel_refl hs rfl e, leaf_right hs rfl rfl e]
  | .userData, t2 => by rw [lift]; split <;> rename_i e; exacts [peel_refl hs rfl e, leaf_right hs rfl rfl e]
  | .iter a, t2 => by rw [lift]; split <;> rename_i e; exacts [peel_refl hs rfl e, leaf_right hs rfl rfl e]
  | .range, t2 => by rw [lift]; split <;> rename_i e; exacts [peel_refl hs rfl e, leaf_right hs rfl rfl e]
  | .file b, t2 => by rw [lift]; split <;> rename_i e; exacts [peel_refl hs rfl e, leaf_right hs rfl rfl e]
  | .tensor n d, t2 => by rw [lift]; split <;> rename_i e; exacts [peel_refl hs rfl e, leaf_right hs rfl rfl e]
  | .other n, t2 => by rw [lift]; split <;> rename_i e; exacts [peel_refl hs rfl e, leaf_right hs rfl rfl e]
theorem convFields_lift_right (hs : SameOk same) : ∀ ts us : List Ty,
    convFields same anc us (liftFields same ts us) = true
  | [], us => by cases us <;> simp [liftFields, convFields]
  | t :: ts, us => by
    cases us with
    | nil => simp [liftFields, convFields]
    | cons u us => rw [liftFields, convFields, conv_lift_right hs t u, convFields_lift_right hs ts us]; rfl
end

/-! ### Findings -/

/-- Nodes are never shared. -/
def noShare : Ty → Ty → Bool := fun _ _ => false

theorem noShare_ok : SameOk noShare := fun _ _ h => by cases h

/-- **C134 (finding).**  A text file and a binary file have the type of the first as common type, whatever the
oracle: the values of the second are not in it, and its lines are not in the type of the loop variable. -/
theorem files_refuted (hs : SameOk same) (line : List Nat) :
    mem anc (.file true) (.binFile [line]) ∧
    ¬ mem anc (lift same (.file false) (.file true)) (.binFile [line]) ∧
    ¬ mem anc (iterTy (lift same (.file false) (.file true))) (.bytes (line.map (· % 256))) := by
  have he : peel same (.file false) (.file true) = some (.file true) := by
    rw [peel]
    · rw [if_neg]
      intro h
      have := hs _ _ h
      cases this
    · intro t h; cases h
  have hl : lift same (.file false) (.file true) = .file false := by
    rw [lift, he]
    simp [liftLeaf, eqv]
  refine ⟨by rw [mem]; exact ⟨_, rfl⟩, ?_, ?_⟩
  · rw [hl, mem]
    rintro ⟨ls, h⟩
    cases h
  · rw [hl]
    show ¬ mem anc (.uni false) _
    rw [mem]
    rintro ⟨ls, h⟩
    cases h

/-- **C134 (finding).**  The common type of three types depends on their order: two classes and the type of all
objects. -/
theorem order_refuted (c d : Nat) (h : c ≠ d) :
    lift noShare (lift noShare (.cls c) (.cls d)) .userData = .obj false ∧
    lift noShare (lift noShare (.cls c) .userData) (.cls d) = .userData := by
  constructor <;> simp [lift, peel, noShare, liftCls, liftLeaf, h]

/-- **C134 (finding).**  Accepted types do not always hold the values: an unsigned type is accepted for a signed one
of the same width, and -1 is not in it. -/
theorem unsigned_refuted (b : Nat) (hb : 2 ≤ b) :
    conv noShare anc (.prim 0 b 1) (.prim 1 b 1) = true ∧ mem anc (.prim 0 b 1) (.prim [.int (-1)]) ∧
    ¬ mem anc (.prim 1 b 1) (.prim [.int (-1)]) := by
  refine ⟨by simp [conv, peel, noShare, convLeaf, convPrim], ?_, ?_⟩
  · rw [mem]
    refine ⟨_, rfl, rfl, fun x hx => ?_⟩
    rw [List.mem_singleton.1 hx]
    have h2 : (2 : Int) ^ 2 ≤ (2 : Int) ^ b := by
      have : 2 ^ 2 ≤ 2 ^ b := Nat.pow_le_pow_right (by decide) hb
      exact_mod_cast this
    exact .inl ⟨rfl, by omega, by omega⟩
  · rw [mem]
    rintro ⟨xs, h1, _, h3⟩
    cases h1
    rcases h3 _ List.mem_cons_self with ⟨h, _⟩ | ⟨_, _, h, _⟩
    · cases h
    · omega

/-- **C134 (finding).**  The loop variable over a tuple with two fields of one type has no static type. -/
theorem tuple_loop (t u : Ty) (ts : List Ty) : iterTy (.tuple (t :: u :: ts)) = .obj false := by
  rw [iterTy] <;> intros <;> rename_i h <;> cases h

/-! ### Examples -/

/-- `Dict[int32, List[float32]]` and `Dict[int64, List[float64]]`. -/
example : lift noShare (.dict false (.prim 0 32 1) (.list false (.prim 2 32 1)))
    (.ref (.dict false (.prim 0 64 1) (.list false (.prim 2 64 1)))) =
    .dict false (.prim 0 64 1) (.list false (.prim 2 64 1)) := by
  simp [lift, peel, noShare, liftPrim]

/-- A tuple of bytes and an integer, and one of bytes and a float. -/
example : lift noShare (.tuple [.str true, .prim 0 64 1]) (.tuple [.str false, .prim 2 64 1]) =
    .tuple [.str true, .obj false] := by
  simp [lift, peel, noShare, liftPrim, liftLeaf, eqv, liftFields]

/-- Its values: `(b'a', 3)` is in it. -/
example : mem anc (.tuple [.str true, .prim 0 64 1]) (.tuple [.bytes [97], .prim [.int 3]]) := by
  simp [mem, memFields, fits]

/-- A loop over bytes yields small integers. -/
example : elems (.bytes [97, 98]) = some [.prim [.int 97], .prim [.int 98]] := rfl

end Verif.TypeJoin
