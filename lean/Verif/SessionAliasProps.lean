import Verif.SessionAlias

/-! # Does running a pipeline keep the caller's values? (C44) -/

namespace Verif.SessionAlias

/-- `BuildSimpleGraph` over an operator that returns its argument, with two outputs. -/
def unpack : Node := ⟨[0], [1, 2], fun args h => (args.headD .nil, h)⟩

/-- **C44, finding.**  Feeding the tuple `(7, 8)` to that pipeline returns 7 and 8, but the
caller's tuple is now `(None, None)`, and running again with the same feed returns `None`,
`None`. -/
theorem feed_destroyed_refuted :
    let feed : Pack := fun k => if k = 0 then some (.tup 0) else none
    let heap : Heap := [[.int 7, .int 8]]
    ∃ d1 h1 d2 h2, run [unpack] feed heap = some (d1, h1) ∧
      d1 1 = some (.int 7) ∧ d1 2 = some (.int 8) ∧
      h1 = [[.nil, .nil]] ∧
      run [unpack] feed h1 = some (d2, h2) ∧
      d2 1 = some .nil ∧ d2 2 = some .nil := by
  refine ⟨_, _, _, _, rfl, by rfl, by rfl, by rfl, rfl, by rfl, by rfl⟩

/-- An operator that leaves existing tuples alone and, when it has several outputs, returns a new
tuple. -/
def Fresh (n : Node) : Prop :=
  ∀ args h, h <+: (n.op args h).2 ∧
    (2 ≤ n.outputs.length → ∀ a, (n.op args h).1 = .tup a → h.length ≤ a)

theorem prefix_set {β : Type} {l l' : List β} (h : l <+: l') {a : Nat} (ha : l.length ≤ a) (x : β) :
    l <+: l'.set a x := by
  obtain ⟨t, rfl⟩ := h
  rw [List.set_append_right _ _ ha]
  exact List.prefix_append _ _

/-- **C44, the part that holds.**  If the operators return new tuples, a run changes no tuple that
existed before. -/
theorem feed_preserved_partial : ∀ (ns : List Node) (d d' : Pack) (h h' : Heap),
    (∀ n ∈ ns, Fresh n) → run ns d h = some (d', h') → h <+: h' := by
  intro ns
  induction ns with
  | nil =>
    intro d d' h h' _ e
    simp [run] at e
    rw [e.2]
    exact List.prefix_refl _
  | cons n ns ih =>
    intro d d' h h' hf e
    rw [run] at e
    split at e
    · cases e
    · rename_i d1 h1 e1
      refine List.IsPrefix.trans ?_ (ih d1 d' h1 h' (fun m hm => hf m (by simp [hm])) e)
      unfold runOne at e1
      split at e1
      · cases e1
      · rename_i args _
        obtain ⟨p1, p2⟩ := hf n (by simp) args h
        revert e1 p2
        generalize n.outputs = outs
        intro e1 p2
        match outs with
        | [] => simp [store] at e1
        | [k] =>
          simp [store] at e1
          rw [← e1.2]; exact p1
        | k1 :: k2 :: ks =>
          simp only [store] at e1
          split at e1
          · rename_i a ha
            split at e1
            · cases e1
            · split at e1
              · injection e1 with e1
                injection e1 with _ e1
                rw [← e1]
                exact prefix_set p1 (p2 (by simp) a ha) _
              · cases e1
          · cases e1

/-- A fresh two-output operator: `divmod`. -/
def divmod : Node := ⟨[0], [1, 2], fun args h =>
  match args with
  | [.int n] => (.tup h.length, h ++ [[.int (n / 10), .int (n % 10)]])
  | _ => (.nil, h)⟩

example : Fresh divmod := by
  intro args h
  unfold divmod
  simp only
  split
  · exact ⟨List.prefix_append _ _, fun _ a e => by injection e with e; omega⟩
  · exact ⟨List.prefix_refl _, fun _ a e => by cases e⟩

example : ∃ d h, run [divmod] (fun k => if k = 0 then some (.int 42) else none) [[.int 1]] =
    some (d, h) ∧ d 1 = some (.int 4) ∧ d 2 = some (.int 2) ∧ h = [[.int 1], [.nil, .nil]] :=
  ⟨_, _, rfl, by rfl, by rfl, by rfl⟩

end Verif.SessionAlias
