import Verif.NDArrayArithProps
import Verif.NDArrayMakeProps

/-!
# Programs over NDArrays

Straight-line programs over any number of arrays: every array a program can reach is well-formed, and
no operation touches memory outside a buffer, outside the cases excluded by `Command.fits`.
-/

namespace Verif.NDArray

variable {α D : Type} [DecidableEq D]

/-- A right-hand side of an assignment: an array variable, a nested list, a number or something
else. -/
inductive Rval (α : Type) where
  | var (i : Nat)
  | list (l : List (Py α))
  | num (v : α)
  | other

/-- One statement of a program.  Arrays are numbered in the order in which they were made. -/
inductive Command (α D : Type) where
  | view (i : Nat) (op : ViewOp)
  | contiguous (i : Nat)
  | asType (i : Nat) (dt : D)
  | binary (f : α → α → α) (dt : D) (i j : Nat)
  | scalarOp (f : α → α) (dt : D) (i : Nat)
  | concatenate (is : List Nat) (axis : Int)
  | stack (is : List Nat) (axis : Int)
  | make (l : List (Py α)) (shape : List Nat) (dt : D)
  | setItem (i : Nat) (k : Int) (v : Rval α)
  | setSlice (i : Nat) (b e : Int) (v : Rval α)
  | toList (i : Nat)

/-- The arrays of a program and the memory. -/
structure World (α D : Type) where
  arrays : List (Arr D)
  heap : Heap α

/-- The value of a right-hand side. -/
def Rval.eval (env : List (Arr D)) : Rval α → Option (Value α D)
  | .var i => (env[i]?).map .arr
  | .list l => some (.list l)
  | .num v => some (.num v)
  | .other => some .other

/-- An operation that makes an array. -/
def World.push (w : World α D) (x : Res (Arr D × Heap α)) : Res (World α D) := do
  let (r, h) ← x
  return ⟨w.arrays ++ [r], h⟩

/-- An operation on a variable; a variable that was not made is an error of the program. -/
def World.at (w : World α D) (i : Nat) (f : Arr D → Res (World α D)) : Res (World α D) :=
  match w.arrays[i]? with
  | some a => f a
  | none => .error .raise

/-- One statement. -/
def Command.exec (c : Conv D α) (w : World α D) : Command α D → Res (World α D)
  | .view i op => w.at i fun a => do
    match ← applyView w.heap op a with
    | .view v => return ⟨w.arrays ++ [v], w.heap⟩
    | .scalar _ => return w
  | .contiguous i => w.at i fun a => w.push (NDArray.contiguous c a w.heap)
  | .asType i dt => w.at i fun a => w.push (NDArray.asType c a dt w.heap)
  | .binary f dt i j => w.at i fun a => w.at j fun b => w.push (NDArray.binary f dt a b w.heap)
  | .scalarOp f dt i => w.at i fun a => w.push (NDArray.scalarOp f dt a w.heap)
  | .concatenate is axis => match is.mapM fun i => w.arrays[i]? with
    | some as => w.push (NDArray.concatenate c as axis w.heap)
    | none => .error .raise
  | .stack is axis => match is.mapM fun i => w.arrays[i]? with
    | some as => w.push (NDArray.stack c as axis w.heap)
    | none => .error .raise
  | .make l shape dt => w.push (NDArray.make c l shape dt w.heap)
  | .setItem i k v => w.at i fun a => match v.eval w.arrays with
    | some x => do
      let h ← NDArray.setItem c a k x w.heap
      return { w with heap := h }
    | none => .error .raise
  | .setSlice i b e v => w.at i fun a => match v.eval w.arrays with
    | some x => do
      let h ← NDArray.setSlice c a b e x w.heap
      return { w with heap := h }
    | none => .error .raise
  | .toList i => w.at i fun a => do
    let _ ← NDArray.toList w.heap a
    return w

/-- A program; a statement that raises is skipped, as in `try: ... except: pass`. -/
def exec (c : Conv D α) : List (Command α D) → World α D → Res (World α D)
  | [], w => .ok w
  | s :: ss, w => match s.exec c w with
    | .ok w => exec c ss w
    | .error .raise => exec c ss w
    | .error .bad => .error .bad

/-- What is excluded: views, conversions, lists and items of arrays without dimensions, and
assignments from arrays that share elements with the target. -/
def Command.fits (w : World α D) : Command α D → Prop
  | .view i _ | .asType i _ | .toList i => ∀ a, w.arrays[i]? = some a → a.shape ≠ []
  | .setItem i _ v => ∀ a, w.arrays[i]? = some a → a.shape ≠ [] ∧
      ∀ j b, v = .var j → w.arrays[j]? = some b → b.shape ≠ [] ∧ Disjoint a b
  | .setSlice i _ _ v => ∀ a, w.arrays[i]? = some a → a.shape ≠ [] ∧
      ∀ j b, v = .var j → w.arrays[j]? = some b → Disjoint a b
  | _ => True

/-- Every statement fits in the state it is reached in. -/
def fits (c : Conv D α) : List (Command α D) → World α D → Prop
  | [], _ => True
  | s :: ss, w => s.fits w ∧ match s.exec c w with
    | .ok w => fits c ss w
    | .error .raise => fits c ss w
    | .error .bad => True

/-- All arrays are well-formed. -/
def World.Ok (w : World α D) : Prop := ∀ a ∈ w.arrays, NDArray.Ok w.heap a

omit [DecidableEq D] in
theorem World.Ok.push {w : World α D} {r : Arr D} {h : Heap α}
    (hk : ∀ a ∈ w.arrays, NDArray.Ok h a) (hr : NDArray.Ok h r) : World.Ok ⟨w.arrays ++ [r], h⟩ := by
  intro a ha
  rcases List.mem_append.1 ha with ha | ha
  · exact hk a ha
  · rw [List.mem_singleton.1 ha]; exact hr

omit [DecidableEq D] in
theorem mapM_get_mem : ∀ {is : List Nat} {env as : List (Arr D)},
    (is.mapM fun i => env[i]?) = some as → ∀ a ∈ as, a ∈ env
  | [], env, as, h, a, ha => by
    simp at h; subst h; simp at ha
  | i :: is, env, as, h, a, ha => by
    rw [List.mapM_cons] at h
    cases h1 : env[i]? with
    | none => rw [h1] at h; simp at h
    | some b =>
      rw [h1] at h
      cases h2 : is.mapM fun i => env[i]? with
      | none => rw [h2] at h; simp at h
      | some bs =>
        rw [h2] at h
        simp at h
        subst h
        rcases List.mem_cons.1 ha with e | ha
        · rw [e]; exact List.mem_of_getElem? h1
        · exact mapM_get_mem h2 a ha

/-- One statement: memory is respected and all arrays stay well-formed. -/
theorem Command.exec_safe (c : Conv D α) {w : World α D} (hw : w.Ok) {s : Command α D}
    (hf : s.fits w) : (∃ w', s.exec c w = .ok w' ∧ w'.Ok) ∨ s.exec c w = .error .raise := by
  have hat : ∀ i f, (∀ a, w.arrays[i]? = some a → NDArray.Ok w.heap a →
      (∃ w', f a = .ok w' ∧ World.Ok w') ∨ f a = .error .raise) →
      (∃ w', w.at i f = .ok w' ∧ World.Ok w') ∨ w.at i f = .error .raise := by
    intro i f h
    rw [World.at]
    cases h1 : w.arrays[i]? with
    | none => exact Or.inr rfl
    | some a => exact h a h1 (hw a (List.mem_of_getElem? h1))
  have hpush : ∀ (x : Res (Arr D × Heap α)),
      (∃ r h', x = .ok (r, h') ∧ NDArray.Ok h' r ∧ ∀ b : Arr D, NDArray.Ok w.heap b → NDArray.Ok h' b) ∨
        x = .error .raise →
      (∃ w', w.push x = .ok w' ∧ World.Ok w') ∨ w.push x = .error .raise := by
    rintro x (⟨r, h', rfl, h1, h2⟩ | rfl)
    · exact Or.inl ⟨_, rfl, World.Ok.push (fun a ha => h2 a (hw a ha)) h1⟩
    · exact Or.inr rfl
  cases s with
  | view i op =>
    refine hat i _ fun a h1 ha => ?_
    obtain ⟨h2, h3⟩ := view_safe_partial ha (hf a h1) op
    cases hr : applyView w.heap op a with
    | error e =>
      cases e with
      | raise => exact Or.inr rfl
      | bad => exact (h2 hr).elim
    | ok r =>
      have := h3 r hr
      cases r with
      | scalar v => exact Or.inl ⟨w, rfl, hw⟩
      | view v => exact Or.inl ⟨_, rfl, World.Ok.push hw this.1⟩
  | contiguous i =>
    refine hat i _ fun a h1 ha => hpush _ (Or.inl ?_)
    obtain ⟨r, h', e1, e2, _, _, _, e3⟩ := contiguous_keeps c ha
    exact ⟨r, h', e1, e2, fun b hb => (e3 b hb).1⟩
  | asType i dt =>
    refine hat i _ fun a h1 ha => hpush _ (Or.inl ?_)
    obtain ⟨r, h', e1, e2, _, _, _, e3⟩ := asType_keeps_partial c ha (hf a h1) dt
    exact ⟨r, h', e1, e2, fun b hb => (e3 b hb).2.1⟩
  | binary f dt i j =>
    refine hat i _ fun a h1 ha => hat j _ fun b h2 hb => hpush _ ?_
    rcases binary_spec f dt ha hb with ⟨s, t, h', _, e1, e2⟩ | ⟨e1, _⟩
    · exact Or.inl ⟨t, h', e1, e2.ok, fun b hb => (e2.keeps hb).1⟩
    · exact Or.inr e1
  | scalarOp f dt i =>
    refine hat i _ fun a h1 ha => hpush _ (Or.inl ?_)
    obtain ⟨t, h', e1, e2⟩ := scalarOp_spec f dt ha
    exact ⟨t, h', e1, e2.ok, fun b hb => (e2.keeps hb).1⟩
  | concatenate is axis =>
    rw [Command.exec]
    cases h1 : is.mapM fun i => w.arrays[i]? with
    | none => exact Or.inr rfl
    | some as =>
      refine hpush _ ?_
      rcases concatenate_spec c (fun a ha => hw a (mapM_get_mem h1 a ha)) axis with
        ⟨_, _, r, h', _, _, _, _, _, _, e1, e2, _, _, _, e3⟩ | ⟨e1, _⟩
      · exact Or.inl ⟨r, h', e1, e2, fun b hb => (e3 b hb).2.1⟩
      · exact Or.inr e1
  | stack is axis =>
    rw [Command.exec]
    cases h1 : is.mapM fun i => w.arrays[i]? with
    | none => exact Or.inr rfl
    | some as =>
      refine hpush _ ?_
      rcases stack_spec c (fun a ha => hw a (mapM_get_mem h1 a ha)) axis with
        ⟨_, _, r, h', _, _, _, _, _, _, e1, e2, _, _, _, e3⟩ | ⟨e1, _⟩
      · exact Or.inl ⟨r, h', e1, e2, fun b hb => (e3 b hb).2.1⟩
      · exact Or.inr e1
  | make l shape dt =>
    refine hpush _ ?_
    rcases make_spec c l shape dt w.heap with ⟨r, h', s, g, e1, _, e2⟩ | ⟨e1, _⟩
    · exact Or.inl ⟨r, h', e1, e2.ok, fun b hb => (e2.keeps hb).1⟩
    · exact Or.inr e1
  | setItem i k v =>
    refine hat i _ fun a h1 ha => ?_
    obtain ⟨hne, hv⟩ := hf a h1
    cases hx : v.eval w.arrays with
    | none => exact Or.inr rfl
    | some x =>
      have hsep : Separate w.heap a x ∧ ∀ src, x = .arr src → src.shape ≠ [] := by
        cases v with
        | var j =>
          simp only [Rval.eval] at hx
          cases hj : w.arrays[j]? with
          | none => rw [hj] at hx; cases hx
          | some b =>
            rw [hj] at hx
            injection hx with hx
            subst hx
            have := hv j b rfl hj
            refine ⟨⟨hw b (List.mem_of_getElem? hj), this.2⟩, fun src e => ?_⟩
            injection e with e
            exact e ▸ this.1
        | list l => injection hx with hx; subst hx; exact ⟨trivial, fun _ e => by cases e⟩
        | num n => injection hx with hx; subst hx; exact ⟨trivial, fun _ e => by cases e⟩
        | other => injection hx with hx; subst hx; exact ⟨trivial, fun _ e => by cases e⟩
      rcases setItem_spec_partial c ha hne (i := k) hsep.1 hsep.2 with ⟨np, g, h', _, _, e1, e2⟩ | ⟨e1, _⟩
      · left
        refine ⟨{ w with heap := h' }, ?_, fun b hb => (hw b hb).mono e2.next e2.size⟩
        dsimp only
        rw [e1]; rfl
      · right
        dsimp only
        rw [e1]; rfl
  | setSlice i b e v =>
    refine hat i _ fun a h1 ha => ?_
    obtain ⟨hne, hv⟩ := hf a h1
    cases hx : v.eval w.arrays with
    | none => exact Or.inr rfl
    | some x =>
      have hsep : Separate w.heap a x := by
        cases v with
        | var j =>
          simp only [Rval.eval] at hx
          cases hj : w.arrays[j]? with
          | none => rw [hj] at hx; cases hx
          | some b =>
            rw [hj] at hx
            injection hx with hx
            subst hx
            exact ⟨hw b (List.mem_of_getElem? hj), hv j b rfl hj⟩
        | list l => injection hx with hx; subst hx; trivial
        | num n => injection hx with hx; subst hx; trivial
        | other => injection hx with hx; subst hx; trivial
      obtain ⟨np, _, ⟨g, h', _, e1, e2⟩ | ⟨e1, _⟩⟩ := setSlice_spec_partial c ha hne (b := b) (e := e) hsep
      · left
        refine ⟨{ w with heap := h' }, ?_, fun b hb => (hw b hb).mono e2.next e2.size⟩
        dsimp only
        rw [e1]; rfl
      · right
        dsimp only
        rw [e1]; rfl
  | toList i =>
    refine hat i _ fun a h1 ha => ?_
    obtain ⟨l, e1, _⟩ := toList_spec_partial ha (hf a h1)
    left
    refine ⟨w, ?_, hw⟩
    rw [e1]; rfl

/-- No program reads or writes outside a buffer, however views, copies, results and assignments are
combined, and all its arrays are well-formed at the end. -/
theorem exec_safe_partial (c : Conv D α) : ∀ (ss : List (Command α D)) (w : World α D), w.Ok →
    fits c ss w → ∃ w', exec c ss w = .ok w' ∧ w'.Ok
  | [], w, hw, _ => ⟨w, rfl, hw⟩
  | s :: ss, w, hw, hf => by
    rcases Command.exec_safe c hw hf.1 with ⟨w', h1, h2⟩ | h1
    · have h3 := hf.2
      rw [h1] at h3
      obtain ⟨w'', e1, e2⟩ := exec_safe_partial c ss w' h2 h3
      exact ⟨w'', by rw [exec, h1]; exact e1, e2⟩
    · have h3 := hf.2
      rw [h1] at h3
      obtain ⟨w'', e1, e2⟩ := exec_safe_partial c ss w hw h3
      exact ⟨w'', by rw [exec, h1]; exact e1, e2⟩

/-- Programs start without arrays. -/
theorem start_ok (h : Heap α) : World.Ok (⟨[], h⟩ : World α D) := by
  intro a ha; simp at ha

-- `a = NDArray([[1, 2], [3, 4]]); b = a.transpose(); c = concatenate([a, b]); c[0] = b[1]`
example : (match exec demoConv [.make [.list [.num 1, .num 2], .list [.num 3, .num 4]] [] (),
    .view 0 (.transpose none), .concatenate [0, 1] 0, .view 1 (.item 1), .setItem 2 0 (.var 3)]
    ⟨[], demoHeap 0⟩ with
    | .ok w => (w.arrays[2]?).map fun a => (indices [4, 2]).map (elem w.heap a)
    | .error _ => none) = some [2, 4, 3, 4, 1, 3, 2, 4] := rfl

end Verif.NDArray
