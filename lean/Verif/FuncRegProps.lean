import Verif.FuncReg
import Mathlib.Tactic.ByContra

/-! Functions and methods of a library (C139). -/
namespace Verif.FuncReg

/-- Names are without NUL. -/
def Clean (n : Name) : Prop := ∀ c ∈ n, c ≠ 0

/-! ### Numbers -/

theorem digits_mem (n : Nat) : ∀ c ∈ digits n, 48 ≤ c ∧ c ≤ 57 := by
  fun_induction digits n with
  | case1 n h => intro c hc; simp at hc; omega
  | case2 n h ih =>
    intro c hc
    rcases List.mem_append.1 hc with hc | hc
    · exact ih c hc
    · simp at hc; omega

theorem digits_fold (n : Nat) : (digits n).foldl (fun a c => a * 10 + (c - 48)) 0 = n := by
  fun_induction digits n with
  | case1 n h => simp
  | case2 n h ih => rw [List.foldl_append, ih]; simp; omega

theorem digits_cons (n : Nat) : ∃ d ds, digits n = d :: ds := by
  unfold digits
  split
  · exact ⟨_, _, rfl⟩
  · cases digits (n / 10) <;> exact ⟨_, _, rfl⟩

theorem takeWhile_all {p : Nat → Bool} : ∀ {l : List Nat}, (∀ x ∈ l, p x = true) → l.takeWhile p = l
  | [], _ => rfl
  | a :: l, h => by
    rw [List.takeWhile_cons, if_pos (h a (by simp)), takeWhile_all (fun x hx => h x (by simp [hx]))]

theorem strtoull_digits (n : Nat) (h : n < 2 ^ 64) : strtoull (digits n) = n := by
  unfold strtoull
  rw [takeWhile_all (fun c hc => by simpa using digits_mem n c hc), digits_fold]
  simp only [if_pos h]

/-! ### Names in memory -/

theorem cstr_clean : ∀ {s : Name}, Clean s → ∀ r, cstr (s ++ 0 :: r) = some (s, r)
  | [], _, r => rfl
  | c :: s, h, r => by
    have hc : c ≠ 0 := h c (by simp)
    simp only [List.cons_append, cstr, hc, if_false]
    rw [cstr_clean (fun x hx => h x (by simp [hx]))]
    rfl

theorem readLoop_names : ∀ (names : List Name), (∀ n ∈ names, Clean n) → ∀ r,
    readLoop names.length (names.flatMap (· ++ [0]) ++ r) = some names
  | [], _, r => rfl
  | n :: names, h, r => by
    have e : (n :: names).flatMap (· ++ [0]) ++ r = n ++ 0 :: (names.flatMap (· ++ [0]) ++ r) := by simp
    rw [e, List.length_cons, readLoop, cstr_clean (h n (by simp))]
    simp only [Option.bind_some]
    rw [readLoop_names names (fun m hm => h m (by simp [hm]))]
    rfl

theorem digits_clean (n : Nat) : Clean (digits n) := fun c hc => by have := digits_mem n c hc; omega

theorem literal_eq (names : List Name) :
    literal names = digits names.length ++ 0 :: (names.flatMap (· ++ [0]) ++ [0]) := by
  simp [literal, genNames]

/-- C139: the names written into a library are the names read from it. -/
theorem read_names (names : List Name) (h : ∀ n ∈ names, Clean n) (hl : names.length < 2 ^ 64) :
    readNames (literal names) = some names := by
  rw [literal_eq, readNames, cstr_clean (digits_clean _)]
  simp only [Option.bind_some]
  rw [strtoull_digits _ hl, readLoop_names names h]

/-! ### Tables -/

theorem fill_keep {F : Type} : ∀ (l : List (Name × F)) (t : Table F) (n : Name) (f : F), t n = some f →
    fillTable l t n = some f
  | [], _, _, _, h => h
  | (k, g) :: l, t, n, f, h => by
    rw [fillTable]
    refine fill_keep l _ n f ?_
    unfold emplace
    split
    · rename_i e; subst e; rw [h]; rfl
    · exact h

theorem fill_get {F : Type} : ∀ (l : List (Name × F)) (t : Table F) (n : Name), t n = none →
    fillTable l t n = l.lookup n
  | [], _, _, h => h
  | (k, g) :: l, t, n, h => by
    rw [fillTable]
    by_cases e : n = k
    · subst e
      rw [List.lookup_cons_self]
      refine fill_keep l _ n g ?_
      simp [emplace, h]
    · rw [fill_get l _ n (by simp [emplace, e, h])]
      simp [List.lookup_cons, beq_eq_false_iff_ne.2 e]

theorem lookup_zip {F : Type} : ∀ (names : List Name) (funcs : List F) (i : Nat) (n : Name), names.Nodup →
    names[i]? = some n → names.length = funcs.length → (names.zip funcs).lookup n = funcs[i]?
  | [], _, _, _, _, h, _ => by simp at h
  | _ :: _, [], _, _, _, _, h => by simp at h
  | k :: names, f :: funcs, i, n, hn, h, hl => by
    rw [List.nodup_cons] at hn
    cases i with
    | zero => simp at h; subst h; simp
    | succ i =>
      simp only [List.getElem?_cons_succ] at h
      have hne : n ≠ k := fun e => hn.1 (e ▸ List.mem_of_getElem? h)
      simp only [List.zip_cons_cons, List.lookup_cons, beq_eq_false_iff_ne.2 hne, List.getElem?_cons_succ]
      exact lookup_zip names funcs i n hn.2 h (by simpa using hl)

theorem lookup_zip_none {F : Type} : ∀ (names : List Name) (funcs : List F) (n : Name), n ∉ names →
    (names.zip funcs).lookup n = none
  | [], _, _, _ => rfl
  | _ :: _, [], _, _ => rfl
  | k :: names, f :: funcs, n, h => by
    have hne : n ≠ k := fun e => h (by simp [e])
    simp only [List.zip_cons_cons, List.lookup_cons, beq_eq_false_iff_ne.2 hne]
    exact lookup_zip_none names funcs n (fun e => h (by simp [e]))

/-- C139: a library gives for each registered name the function generated for it, and nothing for other names. -/
theorem library_get {F : Type} (names : List Name) (funcs : List F) (hc : ∀ n ∈ names, Clean n)
    (hl : names.length < 2 ^ 64) (hn : names.Nodup) (he : names.length = funcs.length) :
    ∃ t, library (literal names) funcs = some t ∧ (∀ (i : Nat) n, names[i]? = some n → t n = funcs[i]?) ∧
      ∀ n, n ∉ names → t n = none := by
  refine ⟨_, by rw [library, read_names names hc hl]; rfl, ?_, ?_⟩
  · intro i n h
    dsimp only
    rw [fill_get _ _ _ rfl]
    exact lookup_zip names funcs i n hn h he
  · intro n h
    dsimp only
    rw [fill_get _ _ _ rfl]
    exact lookup_zip_none names funcs n h

/-! ### Function objects -/

theorem lookupLoop_names (target : Name) : ∀ (names : List Name), (∀ n ∈ names, Clean n) → names.Nodup → ∀ (i : Nat),
    names[i]? = some target → ∀ (num k : Nat) (r : List Nat),
    lookupLoop target num k (names.flatMap (· ++ [0]) ++ r) = if i < num then .index (k + i) else .missing
  | [], _, _, _, h, _, _, _ => by simp at h
  | n :: names, hc, hn, i, h, num, k, r => by
    rw [List.nodup_cons] at hn
    have e : (n :: names).flatMap (· ++ [0]) ++ r = n ++ 0 :: (names.flatMap (· ++ [0]) ++ r) := by simp
    cases num with
    | zero => simp [lookupLoop]
    | succ num =>
      rw [e, lookupLoop, cstr_clean (hc n (by simp))]
      cases i with
      | zero => simp at h; subst h; simp
      | succ i =>
        simp only [List.getElem?_cons_succ] at h
        have hne : n ≠ target := fun e => hn.1 (e ▸ List.mem_of_getElem? h)
        simp only [hne, if_false]
        rw [lookupLoop_names target names (fun m hm => hc m (by simp [hm])) hn.2 i h]
        simp only [Nat.add_lt_add_iff_right, show k + 1 + i = k + (i + 1) by omega]

/-- A name that is not made of digits only. -/
def Ident (n : Name) : Prop := ∃ c ∈ n, ¬ (48 ≤ c ∧ c ≤ 57)

/-- C139 fails for function objects: what is taken for the function with a name is the function registered after it,
or the name is not found.  `d` is the first digit of the number of functions. -/
theorem lookup_refuted (names : List Name) (hc : ∀ n ∈ names, Clean n) (hn : names.Nodup) (i : Nat) (target : Name)
    (h : names[i]? = some target) (hi : Ident target) :
    ∃ d ≤ 9, (digits names.length).head? = some (48 + d) ∧
      lookup (literal names) target = if i + 1 < 48 + d then .index (i + 1) else .missing := by
  obtain ⟨d, ds, hd⟩ := digits_cons names.length
  have hm := digits_mem names.length
  have hd0 := hm d (by rw [hd]; simp)
  refine ⟨d - 48, by omega, by rw [hd]; simp; omega, ?_⟩
  have hds : Clean ds := fun c hc => by have := hm c (by rw [hd]; simp [hc]); omega
  have hne : ds ≠ target := by
    rintro rfl
    obtain ⟨c, hc, hx⟩ := hi
    exact hx (hm c (by rw [hd]; simp [hc]))
  rw [literal_eq, hd, List.cons_append, lookup, show d % 256 = (d - 1) + 1 by omega, lookupLoop, cstr_clean hds]
  simp only [hne, if_false]
  rw [lookupLoop_names target names hc hn i h]
  have : 48 + (d - 48) = d := by omega
  rw [this]
  by_cases hx : i + 1 < d
  · rw [if_pos (by omega), if_pos hx, show 0 + 1 + i = i + 1 by omega]
  · rw [if_neg (by omega), if_neg hx]

/-- C139: so a library with a single function takes its function from behind the array. -/
theorem single_refuted {F : Type} (f : Name) (hc : Clean f) (hi : Ident f) (addr : F) :
    lookup (literal [f]) f = .index 1 ∧ [addr][1]? = none := by
  obtain ⟨d, h9, hd, h⟩ := lookup_refuted [f] (by simpa using hc) (by simp) 0 f rfl hi
  refine ⟨?_, rfl⟩
  rw [h, if_pos (by omega)]

/-! ### Methods -/

theorem isMethod_add (cls m : Name) (h : m ≠ []) : isClassMethod cls (addClassPrefix cls m) = true := by
  have : 0 < m.length := List.length_pos_iff.2 h
  simp [isClassMethod, addClassPrefix, List.append_assoc]
  omega

/-- C139: the name of a method is got back from the name of its function. -/
theorem remove_add (cls m : Name) : removeClassPrefix cls (addClassPrefix cls m) = m := by
  unfold removeClassPrefix addClassPrefix
  rw [← List.length_append, List.drop_left]

theorem wrapper_eq (cls : Name) :
    addWrapperSuffix (addClassPrefix cls initName) = addClassPrefix cls (initName ++ wrapperSuffix) := by
  simp [addWrapperSuffix, addClassPrefix]

theorem add_inj {cls m m' : Name} (h : addClassPrefix cls m = addClassPrefix cls m') : m = m' := by
  have := congrArg (removeClassPrefix cls) h
  rwa [remove_add, remove_add] at this

theorem initLoop_methods {F : Type} (cls : Name) : ∀ (ms : List Name), (∀ m ∈ ms, m ≠ []) →
    initName ++ wrapperSuffix ∉ ms → ∀ (funcs : List F) (t : Table F),
    initLoop cls ((ms.map (addClassPrefix cls)).zip funcs) t = fillTable (ms.zip funcs) t
  | [], _, _, _, _ => rfl
  | _ :: _, _, _, [], _ => rfl
  | m :: ms, h, hw, f :: funcs, t => by
    have hne : addClassPrefix cls m ≠ addWrapperSuffix (addClassPrefix cls initName) := by
      rw [wrapper_eq]
      exact fun e => hw (by simp [add_inj e])
    simp only [List.map_cons, List.zip_cons_cons, initLoop, hne, if_false, isMethod_add cls m (h m (by simp)), if_true,
      remove_add, fillTable]
    exact initLoop_methods cls ms (fun x hx => h x (by simp [hx])) (fun e => hw (by simp [e])) funcs _

theorem classNames_clean {cls : Name} {b : Bool} {ms : List Name} (hc : Clean cls) (hm : ∀ m ∈ ms, Clean m) :
    ∀ n ∈ classNames cls b ms, Clean n := by
  have key : ∀ m, Clean m → Clean (addClassPrefix cls m) := by
    intro m h c hx
    simp only [addClassPrefix, List.mem_append] at hx
    rcases hx with (hx | hx) | hx
    · exact hc c hx
    · revert hx; revert c; decide
    · exact h c hx
  intro n hn
  simp only [classNames, List.mem_append, List.mem_map] at hn
  rcases hn with hn | ⟨m, h, rfl⟩
  · cases b with
    | false => simp at hn
    | true =>
      simp only [if_true, List.mem_singleton] at hn
      rw [hn, wrapper_eq]
      exact key _ (by unfold Clean; decide)
  · exact key m (hm m h)

/-- C139: the table of a class has exactly its methods, each with the function generated for it. -/
theorem methods_partial {F : Type} (cls : Name) (hasInit : Bool) (ms : List Name) (hcls : Clean cls)
    (hms : ∀ m ∈ ms, Clean m ∧ m ≠ []) (hn : ms.Nodup) (hw : initName ++ wrapperSuffix ∉ ms)
    (hl : ms.length + 1 < 2 ^ 64) (ctor funcs : List F) (hctor : ctor.length = if hasInit then 1 else 0)
    (hf : ms.length = funcs.length) :
    ∃ t, initTable (literal (classNames cls hasInit ms)) (ctor ++ funcs) cls = some t ∧
      (∀ (i : Nat) m, ms[i]? = some m → t m = funcs[i]?) ∧ ∀ m, m ∉ ms → t m = none := by
  have hlen : (classNames cls hasInit ms).length < 2 ^ 64 := by
    cases hasInit <;> simp [classNames] <;> omega
  have e : initLoop cls ((classNames cls hasInit ms).zip (ctor ++ funcs)) (fun _ => none) =
      fillTable (ms.zip funcs) fun _ => none := by
    rw [← initLoop_methods cls ms (fun m h => (hms m h).2) hw]
    cases hasInit with
    | false =>
      have : ctor = [] := by simpa using hctor
      subst this
      rfl
    | true =>
      match ctor, hctor with
      | [x], _ => simp [classNames, initLoop]
  refine ⟨_, by rw [initTable, read_names _ (classNames_clean hcls (fun m h => (hms m h).1)) hlen]; rfl, ?_, ?_⟩
  · intro i m h
    dsimp only
    rw [e, fill_get _ _ _ rfl]
    exact lookup_zip ms funcs i m hn h hf
  · intro m h
    dsimp only
    rw [e, fill_get _ _ _ rfl]
    exact lookup_zip_none ms funcs m h

theorem initLoop_wrapper {F : Type} (cls : Name) (w : Name) (hw : w = initName ++ wrapperSuffix) :
    ∀ (l : List (Name × F)) (t : Table F), (∀ p ∈ l, ∃ m, p.1 = addClassPrefix cls m) → t w = none →
    initLoop cls l t w = none
  | [], _, _, h => h
  | (n, f) :: l, t, hl, h => by
    have ih := fun t' => initLoop_wrapper cls w hw l t' (fun p hp => hl p (by simp [hp]))
    obtain ⟨m, hm⟩ := hl (n, f) (by simp)
    simp only at hm
    subst hm
    rw [initLoop]
    split
    · exact ih t h
    · rename_i hne
      split
      · refine ih _ ?_
        rw [remove_add]
        have : w ≠ m := by rintro rfl; rw [wrapper_eq, ← hw] at hne; exact hne rfl
        simp [emplace, this, h]
      · exact ih t h

/-- C139 fails for a method called `__init___wrapper`: no class has it in its table. -/
theorem wrapper_refuted {F : Type} (cls : Name) (hasInit : Bool) (ms : List Name) (funcs : List F)
    (t : Table F) (h : initTable (literal (classNames cls hasInit ms)) funcs cls = some t) (hcls : Clean cls)
    (hms : ∀ m ∈ ms, Clean m) (hl : ms.length + 1 < 2 ^ 64) : t (initName ++ wrapperSuffix) = none := by
  have hlen : (classNames cls hasInit ms).length < 2 ^ 64 := by
    cases hasInit <;> simp [classNames] <;> omega
  rw [initTable, read_names _ (classNames_clean hcls hms) hlen] at h
  simp only [Option.map_some, Option.some.injEq] at h
  subst h
  refine initLoop_wrapper cls _ rfl _ _ ?_ rfl
  intro p hp
  have := (List.of_mem_zip (show (p.1, p.2) ∈ _ from hp)).1
  simp only [classNames, List.mem_append, List.mem_map] at this
  rcases this with h | ⟨m, _, h⟩
  · cases hasInit with
    | false => simp at h
    | true => simp only [if_true, List.mem_singleton] at h; exact ⟨_, by rw [h, wrapper_eq]⟩
  · exact ⟨m, h.symm⟩

/-! ### Inheritance -/

theorem join_fold {F : Type} : ∀ (ts : List (Table F)) (acc : Table F) (n : Name),
    ts.foldl (fun acc t n => (acc n).or (t n)) acc n = (acc n).or (ts.findSome? (· n))
  | [], acc, n => by simp
  | t :: ts, acc, n => by
    rw [List.foldl_cons, join_fold ts]
    cases h : acc n <;> cases h2 : t n <;> simp [h2]

theorem join_get {F : Type} (ts : List (Table F)) (n : Name) : joinTables ts n = ts.findSome? (· n) := by
  rw [joinTables, join_fold]; rfl

theorem tables_find {F : Type} (n : Name) : ∀ (own : List (Table F)),
    (classTables own).findSome? (· n) = own.findSome? (· n)
  | [] => rfl
  | t :: own => by
    simp only [classTables, List.findSome?_cons, join_get]
    rw [tables_find n own]
    cases t n with
    | some f => rfl
    | none => simp only []; cases own.findSome? (· n) <;> rfl

/-- C139: a method is that of the nearest class, from the class of the object upwards, that defines it. -/
theorem inherited {F : Type} (own : List (Table F)) (k : Nat) (t : Table F) (h : (classTables own)[k]? = some t)
    (n : Name) : t n = (own.drop k).findSome? (· n) := by
  induction own generalizing k with
  | nil => simp [classTables] at h
  | cons u own ih =>
    cases k with
    | zero =>
      simp only [classTables, List.getElem?_cons_zero, Option.some.injEq] at h
      subst h
      rw [join_get]
      simp only [List.findSome?_cons, List.drop_zero, tables_find]
    | succ k =>
      simp only [classTables, List.getElem?_cons_succ] at h
      rw [ih k h]
      rfl

/-! ### Names of methods -/

/-- The separator occurs in the class name with the separator only at its end. -/
def Good (cls : Name) : Prop := ∀ p s, cls ++ sep = p ++ sep ++ s → s = []

theorem inj_le {c c' m m' : Name} (hg : Good c') (hl : c.length ≤ c'.length)
    (h : addClassPrefix c m = addClassPrefix c' m') : c = c' := by
  unfold addClassPrefix at h
  have h1 : c ++ sep <+: c' ++ sep :=
    List.prefix_of_prefix_length_le (h ▸ List.prefix_append _ _) (List.prefix_append _ m') (by simp; omega)
  obtain ⟨s, hs⟩ := h1
  have := hg c s hs.symm
  subst this
  simpa using hs

/-- C139: methods of classes whose names do not contain the separator have functions of different names. -/
theorem names_partial (c c' m m' : Name) (hg : Good c) (hg' : Good c')
    (h : addClassPrefix c m = addClassPrefix c' m') : c = c' ∧ m = m' := by
  have e : c = c' := by
    rcases Nat.le_total c.length c'.length with hl | hl
    · exact inj_le hg' hl h
    · exact (inj_le hg hl h.symm).symm
  subst e
  exact ⟨rfl, add_inj h⟩

/-- C139 fails otherwise: for all names, different methods of different classes share a function name, also if neither
the classes nor the methods contain the separator. -/
theorem names_refuted (a b m : Name) :
    addClassPrefix (a ++ sep ++ b) m = addClassPrefix a (b ++ sep ++ m) ∧
    addClassPrefix (a ++ [95, 95, 70]) m = addClassPrefix a ([95, 70, 95] ++ m) := by
  simp [addClassPrefix, sep]

/-- Names without underscores are good. -/
theorem good_plain (c : Name) (h : 95 ∉ c) : Good c := by
  intro p s e
  have hl := congrArg List.length e
  simp only [List.length_append] at hl
  by_contra hs
  have : 0 < s.length := List.length_pos_iff.2 hs
  have hp : p.length < c.length := by omega
  have e1 : (c ++ sep)[p.length]? = some 95 := by
    rw [e, List.append_assoc, List.getElem?_append_right (Nat.le_refl _)]
    simp [sep]
  rw [List.getElem?_append_left hp] at e1
  exact h (List.mem_of_getElem? e1)

/-- Three functions "f", "g", "h": the registry is "3\0f\0g\0h\0", and looking for "f" gives the index of "g". -/
example : literal [[102], [103], [104]] = [51, 0, 102, 0, 103, 0, 104, 0, 0] ∧
    readNames (literal [[102], [103], [104]]) = some [[102], [103], [104]] ∧
    lookup (literal [[102], [103], [104]]) [102] = .index 1 ∧
    lookup (literal [[102], [103], [104]]) [104] = .index 3 ∧
    lookup (literal [[102], [103], [104]]) [120] = .beyond := by decide +kernel

/-- Class "A" with methods "f" and "g". -/
example : ((initTable (literal (classNames [65] true [[102], [103]])) [10, 11, 12] [65]).map
    fun t => (t [102], t [103], t [104])) = some (some 11, some 12, none) := by decide +kernel

end Verif.FuncReg
