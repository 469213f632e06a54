import Verif.Lower
import Mathlib.Data.List.GetD

/-! Lemmas about effects: order of evaluation and the shapes of `and`, `or`. -/

namespace Verif.Lower

variable {W : Type} {α β γ : Type}

@[simp] theorem bnd_pur (a : α) (k : α → Act W β) : bnd (pur a) k = k a := rfl

@[simp] theorem bnd_raise (x : Val) (k : α → Act W β) : bnd (raise x) k = raise x := rfl

theorem pur_apply (a : α) (w : W) : pur a w = (Except.ok a, w) := rfl

theorem bnd_assoc (m : Act W α) (k : α → Act W β) (l : β → Act W γ) :
    bnd (bnd m k) l = bnd m fun a => bnd (k a) l := by
  funext w; unfold bnd; rcases m w with ⟨_ | _, _⟩ <;> rfl

theorem bnd_pur_right (m : Act W α) : bnd m pur = m := by
  funext w; unfold bnd; rcases m w with ⟨_ | _, _⟩ <;> rfl

theorem bnd_congr {m : Act W α} {k l : α → Act W β}
    (h : ∀ w a w', m w = (.ok a, w') → k a w' = l a w') : bnd m k = bnd m l := by
  funext w
  unfold bnd
  rcases hm : m w with ⟨_ | a, w'⟩
  · rfl
  · exact h w a w' hm

theorem bnd_ok {m : Act W α} {k : α → Act W β} {w w'' : W} {b : β}
    (h : bnd m k w = (.ok b, w'')) : ∃ a w', m w = (.ok a, w') ∧ k a w' = (.ok b, w'') := by
  unfold bnd at h
  rcases hm : m w with ⟨_ | a, w'⟩ <;> rw [hm] at h
  · cases h
  · exact ⟨a, w', rfl, h⟩

/-- A computation that only returns a value. -/
def Quiet (m : Act W α) : Prop := ∃ a, m = pur a

theorem quiet_pur (a : α) : Quiet (pur a : Act W α) := ⟨a, rfl⟩

theorem runSeq_map_quiet {ι : Type} (f : ι → Act W α) (val : ι → α) (l : List ι)
    (h : ∀ i ∈ l, f i = pur (val i)) : runSeq (l.map f) = pur (l.map val) := by
  induction l with
  | nil => rfl
  | cons i l ih =>
    have h1 := h i (by simp)
    have h2 := ih fun j hj => h j (by simp [hj])
    simp only [List.map_cons, runSeq, h1, h2, bnd_pur]

/-- All computations but number `k` are quiet: the sequence does what number `k` does. -/
theorem runSeq_map_one {ι : Type} [Inhabited α] (f : ι → Act W α) (k : ι) (l : List ι)
    (hn : l.Nodup) (hk : k ∈ l) (val : α → ι → α) (hv : ∀ a, val a k = a)
    (h : ∀ i ∈ l, i ≠ k → ∀ a, f i = pur (val a i)) :
    runSeq (l.map f) = bnd (f k) fun a => pur (l.map (val a)) := by
  induction l with
  | nil => cases hk
  | cons i l ih =>
    rcases List.nodup_cons.mp hn with ⟨hi, hn'⟩
    by_cases e : i = k
    · subst e
      simp only [List.map_cons, runSeq]
      refine bnd_congr fun w a w' _ => ?_
      have hq := runSeq_map_quiet f (val a) l fun j hj =>
        h j (by simp [hj]) (fun e => hi (e ▸ hj)) a
      rw [hq, hv]
      rfl
    · have hk' : k ∈ l := by
        rcases List.mem_cons.mp hk with e' | h'
        · exact absurd e'.symm e
        · exact h'
      have hm := ih hn' hk' fun j hj => h j (by simp [hj])
      simp only [List.map_cons, runSeq, hm]
      have hi0 := h i (by simp) e default
      rw [hi0, bnd_pur, bnd_assoc]
      refine bnd_congr fun w a w' _ => ?_
      have hia := h i (by simp) e a
      have : val default i = val a i := by
        have := congrFun (hi0.symm.trans hia) w
        simpa [pur] using this
      rw [bnd_pur, this]

theorem unperm_map (π : List Nat) (n : Nat) (hπ : π.Perm (List.range n)) (val : Nat → Val) :
    ((List.range n).map fun i => (π.map val).getD (π.idxOf i) .none) = (List.range n).map val := by
  refine List.map_congr_left fun i hi => ?_
  have hm : i ∈ π := hπ.mem_iff.mpr hi
  have hlt : π.idxOf i < π.length := List.idxOf_lt_length_iff.mpr hm
  rw [List.getD_eq_getElem _ _ (by simpa using hlt)]
  simp

/-- The order in which the compiler evaluates arguments does not matter when at most one of them
does more than return a value. -/
theorem runOrd_eq_runSeq (π : List Nat) (acts : List (Act W Val))
    (hπ : π.Perm (List.range acts.length))
    (h : ∃ k, ∀ i, i < acts.length → i ≠ k → ∃ v, acts[i]? = some (pur v)) :
    runOrd π acts = runSeq acts := by
  obtain ⟨k, hk⟩ := h
  have hacts : acts = (List.range acts.length).map fun i => acts.getD i (pur .none) := by
    apply List.ext_getElem
    · simp
    · intro i h1 h2; simp [h1]
  have hch : ∀ i, ∃ v, (i < acts.length → i ≠ k → acts.getD i (pur .none) = pur v) := by
    intro i
    by_cases hi : i < acts.length ∧ i ≠ k
    · obtain ⟨v, hv⟩ := hk i hi.1 hi.2
      exact ⟨v, fun _ _ => by simp [List.getD, hv]⟩
    · exact ⟨.none, fun a b => absurd ⟨a, b⟩ hi⟩
  obtain ⟨q, hq⟩ := Classical.axiomOfChoice hch
  have hnd : (List.range acts.length).Nodup := List.nodup_range
  unfold runOrd
  by_cases hkl : k < acts.length
  · let val : Val → Nat → Val := fun a i => if i = k then a else q i
    have hv : ∀ a, val a k = a := fun a => by simp [val]
    have hqq : ∀ (l : List Nat), (∀ i ∈ l, i < acts.length) →
        ∀ i ∈ l, i ≠ k → ∀ a, acts.getD i (pur .none) = pur (val a i) := by
      intro l hl i hi hne a
      simp only [val, if_neg hne]
      exact hq i (hl i hi) hne
    have h1 := runSeq_map_one (fun i => acts.getD i (pur .none)) k π (hπ.nodup_iff.mpr hnd)
      (hπ.mem_iff.mpr (by simpa using hkl)) val hv
      (hqq π fun i hi => by simpa using hπ.mem_iff.mp hi)
    have h2 := runSeq_map_one (fun i => acts.getD i (pur .none)) k (List.range acts.length) hnd
      (by simpa using hkl) val hv (hqq _ fun i hi => by simpa using hi)
    rw [h1, bnd_assoc]
    conv => rhs; rw [hacts, h2]
    refine bnd_congr fun w a w' _ => ?_
    rw [bnd_pur, unperm_map π _ hπ]
  · have hq' : ∀ (l : List Nat), (∀ i ∈ l, i < acts.length) →
        ∀ i ∈ l, acts.getD i (pur .none) = pur (q i) := fun l hl i hi =>
      hq i (hl i hi) (fun e => hkl (e ▸ hl i hi))
    rw [runSeq_map_quiet _ q π (hq' π fun i hi => by simpa using hπ.mem_iff.mp hi), bnd_pur,
      unperm_map π _ hπ]
    conv => rhs; rw [hacts, runSeq_map_quiet _ q _ (hq' _ fun i hi => by simpa using hi)]

/-- Two orders, spelled out for a pair of stages. -/
theorem bnd_swap {δ : Type} (m : Act W α) (n : Act W β) (k : α → β → Act W δ)
    (h : Quiet m ∨ Quiet n) :
    (bnd m fun a => bnd n fun b => k a b) = bnd n fun b => bnd m fun a => k a b := by
  rcases h with ⟨a, rfl⟩ | ⟨b, rfl⟩
  · simp
  · simp

theorem runSeq_append (l m : List (Act W α)) :
    runSeq (l ++ m) = bnd (runSeq l) fun a => bnd (runSeq m) fun b => pur (a ++ b) := by
  induction l with
  | nil => simp only [List.nil_append, runSeq, bnd_pur]; exact (bnd_pur_right _).symm
  | cons x l ih =>
    simp only [List.cons_append, runSeq, ih, bnd_assoc, bnd_pur]

theorem quiet_runSeq {l : List (Act W α)} (h : ∀ m ∈ l, Quiet m) : Quiet (runSeq l) := by
  induction l with
  | nil => exact ⟨[], rfl⟩
  | cons m l ih =>
    obtain ⟨a, ha⟩ := h m (by simp)
    obtain ⟨as, hs⟩ := ih fun x hx => h x (by simp [hx])
    exact ⟨a :: as, by simp only [runSeq, ha, hs, bnd_pur]⟩

/-! ## `and` and `or` -/

/-- Operands one after another until one of them decides. -/
def shortSeq (P : Prims W) (isAnd : Bool) : List (Act W Val) → Act W Val
  | [] => pur (.bool isAnd)
  | [m] => m
  | m :: ms => bnd m fun v w =>
      if truth P w v = isAnd then shortSeq P isAnd ms w else (.ok v, w)

theorem shortSeq_cons (P : Prims W) (isAnd : Bool) (m : Act W Val) (ms : List (Act W Val))
    (h : ms ≠ []) : shortSeq P isAnd (m :: ms) = bnd m fun v w =>
      if truth P w v = isAnd then shortSeq P isAnd ms w else (.ok v, w) := by
  cases ms with
  | nil => exact absurd rfl h
  | cons _ _ => rfl

theorem evalPyBool_eq (P : Prims W) (unb : Val) (env : String → Option Val) (isAnd : Bool)
    (es : List Expr) :
    evalPyBool P unb env isAnd es = shortSeq P isAnd (es.map (evalPy P unb env)) := by
  induction es with
  | nil => simp [evalPyBool, shortSeq]
  | cons e es ih =>
    cases es with
    | nil => simp only [evalPyBool, List.map, shortSeq]; exact bnd_pur_right _
    | cons e' es =>
      rw [List.map_cons, shortSeq_cons _ _ _ _ (by simp), ← ih]
      conv => lhs; unfold evalPyBool

theorem evalPyL_eq (P : Prims W) (unb : Val) (env : String → Option Val) (es : List Expr) :
    evalPyL P unb env es = runSeq (es.map (evalPy P unb env)) := by
  induction es with
  | nil => simp [evalPyL, runSeq]
  | cons e es ih => simp only [evalPyL, List.map, runSeq, ih]

theorem evalIRL_eq (P : Prims W) (ord : List IExpr → List Nat) (env : Nat → Option Val)
    (es : List IExpr) : evalIRL P ord env es = es.map (evalIR P ord env) := by
  induction es with
  | nil => simp [evalIRL]
  | cons e es ih => simp only [evalIRL, List.map, ih]

/-! ## Conditions of `if` -/

/-- `bool(v)`. -/
def boolify (P : Prims W) (v : Val) : Act W Val := fun w => (.ok (.bool (truth P w v)), w)

mutual

theorem toBool_eval (P : Prims W) (unb : Val) (env : String → Option Val) : ∀ e : Expr,
    evalPy P unb env (toBool e) = bnd (evalPy P unb env e) (boolify P)
  | .boolop isAnd es => by
    simp only [toBool, evalPy]
    exact toBoolL_eval P unb env isAnd es
  | .notE e => by
    simp only [toBool, evalPy, toBool_eval P unb env e, bnd_assoc]
    refine bnd_congr fun w v w' _ => ?_
    simp [boolify, bnd, truth]
  | .const _ => by simp only [toBool, evalPy]; rfl
  | .name _ => by simp only [toBool, evalPy]; rfl
  | .tup _ => by simp only [toBool, evalPy]; rfl
  | .call _ _ => by simp only [toBool, evalPy]; rfl
  | .compare _ _ => by simp only [toBool, evalPy]; rfl
  | .ifE _ _ _ => by simp only [toBool, evalPy]; rfl
  | .boolE _ => by simp only [toBool, evalPy]; rfl

theorem toBoolL_eval (P : Prims W) (unb : Val) (env : String → Option Val) (isAnd : Bool) :
    ∀ es : List Expr, evalPyBool P unb env isAnd (toBoolL es) =
      bnd (evalPyBool P unb env isAnd es) (boolify P)
  | [] => by funext w; simp [toBoolL, evalPyBool, boolify, pur, bnd, truth]
  | [e] => by
    simp only [evalPyBool_eq, toBoolL, List.map, shortSeq]
    exact toBool_eval P unb env e
  | e :: e' :: es => by
    have h1 := toBool_eval P unb env e
    have h2 := toBoolL_eval P unb env isAnd (e' :: es)
    rw [evalPyBool_eq] at h2 ⊢
    rw [evalPyBool_eq] at h2 ⊢
    rw [toBoolL, List.map_cons, shortSeq_cons _ _ _ _ (by simp [toBoolL]),
      List.map_cons (a := e), shortSeq_cons _ _ _ _ (by simp), h1, bnd_assoc, bnd_assoc, h2]
    refine bnd_congr fun w v w' _ => ?_
    simp only [boolify, bnd]
    by_cases ht : truth P w' v = isAnd
    · rw [if_pos ht, if_pos (show truth P w' (.bool (truth P w' v)) = isAnd from ht)]
    · rw [if_neg ht, if_neg (show ¬ truth P w' (.bool (truth P w' v)) = isAnd from ht)]

end

theorem boolify_truth (P : Prims W) (m : Act W Val) (k : Val → Act W α)
    (l : Bool → Act W α) (hk : ∀ v w, k v w = l (truth P w v) w) :
    bnd (bnd m (boolify P)) k = bnd m k := by
  rw [bnd_assoc]
  refine bnd_congr fun w v w' _ => ?_
  simp only [boolify, bnd]
  rw [hk, hk]
  rfl

/-- Wrapping the leaves of an `if` condition does not change what a Python statement does. -/
theorem ifBool_exec (P : Prims W) (unb : Val) (fuel : Nat) (s : Stmt) :
    ∀ cur st, execPy P unb fuel (ifBool s) cur st = execPy P unb fuel s cur st := by
  induction s with
  | seq a b iha ihb =>
    intro cur st
    simp only [ifBool, execPy, iha]
    congr 1
    funext st; exact ihb cur st
  | ifS c t e iht ihe =>
    intro cur st
    simp only [ifBool, execPy, toBool_eval]
    unfold ev bnd
    rcases evalPy P unb st.env c st.w with ⟨_ | v, w'⟩
    · rfl
    · simp only [boolify, iht, ihe]; rfl
  | whileS c b o ihb iho =>
    intro cur st
    simp only [ifBool, execPy]
    rw [show execPy P unb fuel (ifBool b) cur = execPy P unb fuel b cur from
        funext (ihb cur), show execPy P unb fuel (ifBool o) cur = execPy P unb fuel o cur from
        funext (iho cur)]
  | forRange x a b d body o ihb iho =>
    intro cur st
    simp only [ifBool, execPy, ihb]
    rw [show execPy P unb fuel (ifBool o) cur = execPy P unb fuel o cur from funext (iho cur)]
  | forIn x e body o ihb iho =>
    intro cur st
    simp only [ifBool, execPy, ihb]
    rw [show execPy P unb fuel (ifBool o) cur = execPy P unb fuel o cur from funext (iho cur)]
  | tryS b typ h o f ihb ihh iho ihf =>
    intro cur st
    simp only [ifBool, execPy, ihb, ihh, iho]
    rw [show execPy P unb fuel (ifBool f) cur = execPy P unb fuel f cur from funext (ihf cur)]
  | _ => intro cur st; rfl

end Verif.Lower
