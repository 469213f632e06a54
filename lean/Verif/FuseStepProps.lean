import Verif.Fuse
import Mathlib.Data.List.Nodup
import Mathlib.Data.List.Dedup

/-!
# One fusion step keeps the values

The invariant of kernel graphs, the effect of `fuse` on a graph that has it, and
the proof that values do not change.
-/

namespace Verif.Fuse

variable {V : Type}

theorem upd_self {α : Type} (f : Nat → α) (k : Nat) (v : α) : upd f k v k = v := by simp [upd]
theorem upd_ne {α : Type} (f : Nat → α) {k x : Nat} (v : α) (h : x ≠ k) : upd f k v x = f x := by
  simp [upd, h]

theorem right_right {r r' : Nat} (h : r ≤ r') (i : List Nat) : right r (right r' i) = right r i := by
  unfold right
  rw [List.length_drop, List.drop_drop]
  congr 1
  omega

/-- The operator `o` computes the scalar `s` from scalars in `nodes`. -/
inductive Good (g : Graph V) (nodes : List Node) (s : Node) (o : Nat) : Prop
  | un {f x} : g.iop o = ⟨.un f, [x]⟩ → x ∈ nodes → o ∈ g.dst x → Good g nodes s o
  | bin {f x y} : g.iop o = ⟨.bin f, [x, y]⟩ → x ≠ y → x ∈ nodes → y ∈ nodes → o ∈ g.dst x →
      o ∈ g.dst y → Good g nodes s o
  | copy {x} : g.iop o = ⟨.copy x, [s, x]⟩ → x ∈ nodes → o ∈ g.dst x → Good g nodes s o

/-- What the sub-graph of an element-wise operator satisfies. -/
structure Sub (g : Graph V) (e : EOp) : Prop where
  keysND : (keys e.subIn).Nodup
  valsND : (vals e.subIn).Nodup
  inputs : ∀ x, x ∈ e.inputs ↔ x ∈ keys e.subIn
  inputsND : e.inputs.Nodup
  rankOut : 0 < g.rank e.out
  rankIn : ∀ x ∈ e.inputs, g.rank x ≤ g.rank e.out
  argNode : ∀ k s, (k, s) ∈ e.subIn → s ∈ e.nodes
  arg : ∀ k s, (k, s) ∈ e.subIn → (s = k ∧ g.rank k = 0) ∨
    (0 < g.rank k ∧ g.src s = [] ∧ e.nodes.count s = 1 ∧ s ≠ k)
  outNode : e.subOut ∈ e.nodes
  outVal : e.subOut ∉ vals e.subIn
  src : ∀ s ∈ e.nodes, s ∉ vals e.subIn → ∃ o, g.src s = [o] ∧ o < g.nIop ∧ Good g e.nodes s o
  dst : ∀ s ∈ e.nodes, (s, s) ∉ e.subIn → ∀ o ∈ g.dst s,
    ∃ s' ∈ e.nodes, s' ∉ vals e.subIn ∧ g.src s' = [o] ∧ s ∈ (g.iop o).inputs ∧ s ≠ s'
  dstND : ∀ s ∈ e.nodes, (s, s) ∉ e.subIn → (g.dst s).Nodup

/-- The invariant of kernel graphs. -/
structure WF (g : Graph V) : Prop where
  outs : (g.ops.map GOp.out).Nodup
  outIn : ∀ x ∈ g.ops, x.out ∉ g.inputs
  sub : ∀ e, .ew e ∈ g.ops → Sub g e
  /-- scalars of different operators differ, up to scalar inputs -/
  disj : ∀ e e', .ew e ∈ g.ops → .ew e' ∈ g.ops → e.out ≠ e'.out → ∀ s, s ∈ e.nodes → s ∈ e'.nodes →
    (s, s) ∈ e.subIn ∧ (s, s) ∈ e'.subIn
  /-- an operator inside a sub-graph computes one scalar -/
  own : ∀ e e', .ew e ∈ g.ops → .ew e' ∈ g.ops → ∀ s s' o, s ∈ e.nodes → s ∉ vals e.subIn →
    s' ∈ e'.nodes → s' ∉ vals e'.subIn → g.src s = [o] → g.src s' = [o] → s = s'
  /-- computed nodes are read by one operator -/
  single : ∀ x ∈ g.ops, ∀ y ∈ g.ops, ∀ t, t ∈ x.ins → t ∈ y.ins → t ∉ g.inputs → x.out = y.out
  /-- no copy reads the scalar of a computed node -/
  noCopy : ∀ e, .ew e ∈ g.ops → ∀ k s, (k, s) ∈ e.subIn → k ∉ g.inputs → 0 < g.rank k →
    ∀ o ∈ g.dst s, ∀ x l, g.iop o ≠ ⟨.copy x, l⟩

theorem mem_keys {l : List (Node × Node)} {k v : Node} (h : (k, v) ∈ l) : k ∈ keys l :=
  List.mem_map.2 ⟨_, h, rfl⟩
theorem mem_vals {l : List (Node × Node)} {k v : Node} (h : (k, v) ∈ l) : v ∈ vals l :=
  List.mem_map.2 ⟨_, h, rfl⟩
theorem of_mem_keys {l : List (Node × Node)} {k : Node} (h : k ∈ keys l) : ∃ v, (k, v) ∈ l := by
  obtain ⟨⟨a, b⟩, h1, h2⟩ := List.mem_map.1 h
  exact ⟨b, by cases h2; exact h1⟩
theorem of_mem_vals {l : List (Node × Node)} {v : Node} (h : v ∈ vals l) : ∃ k, (k, v) ∈ l := by
  obtain ⟨⟨a, b⟩, h1, h2⟩ := List.mem_map.1 h
  exact ⟨a, by cases h2; exact h1⟩

theorem key_unique {l : List (Node × Node)} (h : (keys l).Nodup) {k v v' : Node} (h1 : (k, v) ∈ l)
    (h2 : (k, v') ∈ l) : v = v' := by
  induction l with
  | nil => cases h1
  | cons p l ih =>
    have hnd : p.1 ∉ keys l ∧ (keys l).Nodup := List.nodup_cons.1 h
    rcases List.mem_cons.1 h1 with rfl | h1' <;> rcases List.mem_cons.1 h2 with h2 | h2
    · cases h2; rfl
    · exact absurd (mem_keys h2) hnd.1
    · subst h2; exact absurd (mem_keys h1') hnd.1
    · exact ih hnd.2 h1' h2

theorem val_unique {l : List (Node × Node)} (h : (vals l).Nodup) {k k' v : Node} (h1 : (k, v) ∈ l)
    (h2 : (k', v) ∈ l) : k = k' := by
  induction l with
  | nil => cases h1
  | cons p l ih =>
    have hnd : p.2 ∉ vals l ∧ (vals l).Nodup := List.nodup_cons.1 h
    rcases List.mem_cons.1 h1 with rfl | h1' <;> rcases List.mem_cons.1 h2 with h2 | h2
    · cases h2; rfl
    · exact absurd (mem_vals h2) hnd.1
    · subst h2; exact absurd (mem_vals h1') hnd.1
    · exact ih hnd.2 h1' h2

theorem get_mem {k v : Node} {l : List (Node × Node)} (h : get k l = some v) : (k, v) ∈ l := by
  induction l with
  | nil => cases h
  | cons p l ih =>
    obtain ⟨a, b⟩ := p
    simp only [get] at h
    split at h
    · rename_i e; cases h; subst e; exact List.mem_cons_self
    · exact List.mem_cons_of_mem _ (ih h)

theorem get_none {k : Node} {l : List (Node × Node)} (h : get k l = none) : k ∉ keys l := by
  induction l with
  | nil => simp [keys]
  | cons p l ih =>
    obtain ⟨a, b⟩ := p
    simp only [get] at h
    split at h
    · cases h
    · rename_i e
      intro hk
      rcases List.mem_cons.1 hk with h' | h'
      · exact e h'.symm
      · exact ih h h'

theorem get_of_mem {k v : Node} {l : List (Node × Node)} (hnd : (keys l).Nodup) (h : (k, v) ∈ l) :
    get k l = some v := by
  cases hg : get k l with
  | none => exact absurd (mem_keys h) (get_none hg)
  | some v' => rw [key_unique hnd h (get_mem hg)]

/-! ### The effect of the loops -/

/-- What `mergeIn` does to the heap. -/
structure Merged (t1 : Node) (l acc : List (Node × Node)) (g g' : Graph V) : Prop where
  rank : g'.rank = g.rank
  ops : g'.ops = g.ops
  inputs : g'.inputs = g.inputs
  nIop : g.nIop ≤ g'.nIop
  iop : ∀ o < g.nIop, g'.iop o = g.iop o
  src : ∀ s, (∀ k v1, (k, s) ∈ l → k ≠ t1 → (k, v1) ∉ acc) → g'.src s = g.src s
  new : ∀ k v v1, (k, v) ∈ l → k ≠ t1 → (k, v1) ∈ acc →
    ∃ c, g.nIop ≤ c ∧ c < g'.nIop ∧ g'.src v = g.src v ++ [c] ∧ g'.iop c = ⟨.copy v1, [v, v1]⟩ ∧
      c ∈ g'.dst v1
  dstOld : ∀ s, ∀ o ∈ g.dst s, o ∈ g'.dst s
  dstNew : ∀ s, ∀ o ∈ g'.dst s, o ∈ g.dst s ∨ ∃ k v, (k, v) ∈ l ∧ k ≠ t1 ∧ (k, s) ∈ acc ∧
    g.nIop ≤ o ∧ o < g'.nIop ∧ g'.src v = g.src v ++ [o] ∧ g'.iop o = ⟨.copy s, [v, s]⟩
  srcInj : ∀ k v v1 k' v' v1' c, (k, v) ∈ l → k ≠ t1 → (k, v1) ∈ acc → (k', v') ∈ l → k' ≠ t1 →
    (k', v1') ∈ acc → g'.src v = g.src v ++ [c] → g'.src v' = g.src v' ++ [c] → v = v'
  dstND : ∀ s, (g.dst s).Nodup ∧ (∀ o ∈ g.dst s, o < g.nIop) →
    (g'.dst s).Nodup ∧ (∀ o ∈ g'.dst s, o < g'.nIop)

/-- The dictionary `mergeIn` returns. -/
theorem mergeIn_acc (t1 : Node) (l acc : List (Node × Node)) (g : Graph V) (hk : (keys l).Nodup) :
    (mergeIn t1 l acc g).1 = acc ++ l.filter (fun p => p.1 ≠ t1 ∧ p.1 ∉ keys acc) := by
  induction l generalizing acc g with
  | nil => simp [mergeIn]
  | cons p l ih =>
    obtain ⟨k, v⟩ := p
    have hnd : k ∉ keys l ∧ (keys l).Nodup := List.nodup_cons.1 hk
    simp only [mergeIn]
    by_cases h1 : k = t1
    · rw [if_pos h1, ih _ _ hnd.2, List.filter_cons_of_neg (by simp [h1])]
    · rw [if_neg h1]
      cases hg : get k acc with
      | some v1 =>
        have : k ∈ keys acc := mem_keys (get_mem hg)
        simp only
        rw [ih _ _ hnd.2, List.filter_cons_of_neg (by simp [this])]
      | none =>
        have : k ∉ keys acc := get_none hg
        simp only
        rw [ih _ _ hnd.2, List.filter_cons_of_pos (by simp [h1, this]), List.append_assoc]
        congr 1
        rw [List.singleton_append]
        congr 1
        apply List.filter_congr
        rintro ⟨k', v'⟩ hm
        have hne : k' ≠ k := by rintro rfl; exact hnd.1 (mem_keys hm)
        have : k' ∈ keys (acc ++ [(k, v)]) ↔ k' ∈ keys acc := by simp [keys, hne]
        simp only [this]

theorem mergeIn_spec (t1 : Node) (l acc : List (Node × Node)) (g : Graph V) (hk : (keys l).Nodup)
    (hv : (vals l).Nodup) (ha : (keys acc).Nodup) : Merged t1 l acc g (mergeIn t1 l acc g).2 := by
  induction l generalizing acc g with
  | nil =>
    exact { rank := rfl, ops := rfl, inputs := rfl, nIop := Nat.le_refl _, iop := fun _ _ => rfl,
            src := fun _ _ => rfl, new := fun _ _ _ h => (by cases h), dstOld := fun _ _ h => h,
            dstNew := fun _ _ h => .inl h, srcInj := fun _ _ _ _ _ _ _ h => (by cases h),
            dstND := fun _ h => h }
  | cons p l ih =>
    obtain ⟨k, v⟩ := p
    have hnd : k ∉ keys l ∧ (keys l).Nodup := List.nodup_cons.1 hk
    have hvd : v ∉ vals l ∧ (vals l).Nodup := List.nodup_cons.1 hv
    simp only [mergeIn]
    by_cases h1 : k = t1
    · rw [if_pos h1]
      have I := ih acc g hnd.2 hvd.2 ha
      exact {
        rank := I.rank, ops := I.ops, inputs := I.inputs, nIop := I.nIop, iop := I.iop
        src := fun s h => I.src s (fun k' v1 hm => h k' v1 (List.mem_cons_of_mem _ hm))
        new := fun k' v' v1 hm hne => by
          rcases List.mem_cons.1 hm with e | hm
          · cases e; exact absurd h1 hne
          · exact I.new k' v' v1 hm hne
        dstOld := I.dstOld
        dstNew := fun s o ho => by
          rcases I.dstNew s o ho with h | ⟨k', v', hm, h⟩
          · exact .inl h
          · exact .inr ⟨k', v', List.mem_cons_of_mem _ hm, h⟩
        srcInj := fun a b c a' b' c' d hm hne hc hm' hne' => by
          rcases List.mem_cons.1 hm with e | hm
          · cases e; exact absurd h1 hne
          · rcases List.mem_cons.1 hm' with e | hm'
            · cases e; exact absurd h1 hne'
            · exact I.srcInj a b c a' b' c' d hm hne hc hm' hne'
        dstND := I.dstND }
    · rw [if_neg h1]
      cases hg : get k acc with
      | none =>
        have hka : k ∉ keys acc := get_none hg
        simp only
        have ha' : (keys (acc ++ [(k, v)])).Nodup := by
          simp only [keys, List.map_append, List.map_cons, List.map_nil]
          rw [List.nodup_append]
          refine ⟨ha, List.nodup_singleton _, fun a h b hb => ?_⟩
          rw [List.mem_singleton] at hb
          rintro rfl
          subst hb
          exact hka h
        have I := ih (acc ++ [(k, v)]) g hnd.2 hvd.2 ha'
        have hin : ∀ k' v', (k', v') ∈ acc → (k', v') ∈ acc ++ [(k, v)] := fun _ _ h =>
          List.mem_append_left _ h
        have hout : ∀ k' v' w, (k', w) ∈ l → (k', v') ∈ acc ++ [(k, v)] → (k', v') ∈ acc := by
          intro k' v' w hm h
          rcases List.mem_append.1 h with h | h
          · exact h
          · rw [List.mem_singleton] at h
            cases h
            exact absurd (mem_keys hm) hnd.1
        exact {
          rank := I.rank, ops := I.ops, inputs := I.inputs, nIop := I.nIop, iop := I.iop
          src := fun s h => I.src s (fun k' v1 hm hne hc =>
            h k' v1 (List.mem_cons_of_mem _ hm) hne (hout _ _ _ hm hc))
          new := fun k' v' v1 hm hne hc => by
            rcases List.mem_cons.1 hm with e | hm
            · cases e; exact absurd (mem_keys hc) hka
            · exact I.new k' v' v1 hm hne (hin _ _ hc)
          dstOld := I.dstOld
          dstNew := fun s o ho => by
            rcases I.dstNew s o ho with h | ⟨k', v', hm, hne, hc, h⟩
            · exact .inl h
            · exact .inr ⟨k', v', List.mem_cons_of_mem _ hm, hne, hout _ _ _ hm hc, h⟩
          srcInj := fun a b c a' b' c' d hm hne hc hm' hne' hc' => by
            rcases List.mem_cons.1 hm with e | hm
            · cases e; exact absurd (mem_keys hc) hka
            · rcases List.mem_cons.1 hm' with e | hm'
              · cases e; exact absurd (mem_keys hc') hka
              · exact I.srcInj a b c a' b' c' d hm hne (hin _ _ hc) hm' hne' (hin _ _ hc')
          dstND := I.dstND }
      | some v1 =>
        have hkv := get_mem hg
        simp only
        have I := ih acc (g.addCopy v v1) hnd.2 hvd.2 ha
        have s1 : ∀ s, s ≠ v → (g.addCopy v v1).src s = g.src s := fun s h => upd_ne _ _ h
        have s2 : (g.addCopy v v1).src v = g.src v ++ [g.nIop] := upd_self _ _ _
        have s3 : (mergeIn t1 l acc (g.addCopy v v1)).2.src v = g.src v ++ [g.nIop] := by
          rw [I.src v (fun k' _ hm => absurd (mem_vals hm) hvd.1), s2]
        have n1 : (g.addCopy v v1).nIop = g.nIop + 1 := rfl
        have i1 : (mergeIn t1 l acc (g.addCopy v v1)).2.iop g.nIop = ⟨.copy v1, [v, v1]⟩ := by
          rw [I.iop _ (by rw [n1]; omega)]
          exact upd_self _ _ _
        have hn := I.nIop
        rw [n1] at hn
        have hvne : ∀ k' v', (k', v') ∈ l → v' ≠ v := by
          rintro k' v' hm rfl; exact hvd.1 (mem_vals hm)
        have d1 : g.nIop ∈ (g.addCopy v v1).dst v1 := by
          show g.nIop ∈ upd g.dst v1 (g.dst v1 ++ [g.nIop]) v1
          rw [upd_self]; simp
        exact {
          rank := I.rank, ops := I.ops, inputs := I.inputs
          nIop := by omega
          iop := fun o ho => by
            rw [I.iop o (by rw [n1]; omega)]
            exact upd_ne _ _ (by omega)
          src := fun s h => by
            have hs : s ≠ v := by
              rintro rfl
              exact h k v1 List.mem_cons_self h1 hkv
            rw [I.src s (fun k' v1' hm => h k' v1' (List.mem_cons_of_mem _ hm)), s1 s hs]
          new := fun k' v' v1' hm hne hc => by
            rcases List.mem_cons.1 hm with e | hm
            · cases e
              have := key_unique ha hc hkv
              subst this
              exact ⟨g.nIop, Nat.le_refl _, by omega, s3, i1, I.dstOld _ _ d1⟩
            · obtain ⟨c, h2, h3, h4, h5, h6⟩ := I.new k' v' v1' hm hne hc
              rw [n1] at h2
              rw [s1 v' (hvne _ _ hm)] at h4
              exact ⟨c, by omega, h3, h4, h5, h6⟩
          dstOld := fun s o ho => by
            apply I.dstOld
            show o ∈ upd g.dst v1 (g.dst v1 ++ [g.nIop]) s
            by_cases hs : s = v1
            · subst hs; rw [upd_self]; exact List.mem_append_left _ ho
            · rw [upd_ne _ _ hs]; exact ho
          dstNew := fun s o ho => by
            rcases I.dstNew s o ho with h | ⟨k', v', hm, hne, hc, h2, h3, h4, h5⟩
            · by_cases hs : s = v1
              · subst hs
                have h : o ∈ upd g.dst s (g.dst s ++ [g.nIop]) s := h
                rw [upd_self] at h
                rcases List.mem_append.1 h with h | h
                · exact .inl h
                · rw [List.mem_singleton] at h
                  subst h
                  exact .inr ⟨k, v, List.mem_cons_self, h1, hkv, Nat.le_refl _, by omega, s3, i1⟩
              · have h : o ∈ upd g.dst v1 (g.dst v1 ++ [g.nIop]) s := h
                rw [upd_ne _ _ hs] at h
                exact .inl h
            · rw [n1] at h2
              rw [s1 v' (hvne _ _ hm)] at h4
              exact .inr ⟨k', v', List.mem_cons_of_mem _ hm, hne, hc, by omega, h3, h4, h5⟩
          srcInj := fun a b c a' b' c' d hm hne hc hm' hne' hc' e1 e2 => by
            have ge : ∀ a b c, (a, b) ∈ l → a ≠ t1 → (a, c) ∈ acc →
                (mergeIn t1 l acc (g.addCopy v v1)).2.src b = g.src b ++ [d] → g.nIop < d := by
              intro a b c hm hne hc e
              obtain ⟨x, x1, _, x3, _⟩ := I.new a b c hm hne hc
              rw [n1] at x1
              rw [s1 b (hvne _ _ hm), e] at x3
              have := List.append_cancel_left x3
              simp only [List.cons.injEq, and_true] at this
              omega
            rcases List.mem_cons.1 hm with e | hm <;> rcases List.mem_cons.1 hm' with e' | hm'
            · cases e; cases e'; rfl
            · cases e
              rw [s3] at e1
              have := List.append_cancel_left e1
              simp only [List.cons.injEq, and_true] at this
              have := ge _ _ _ hm' hne' hc' e2
              omega
            · cases e'
              rw [s3] at e2
              have := List.append_cancel_left e2
              simp only [List.cons.injEq, and_true] at this
              have := ge _ _ _ hm hne hc e1
              omega
            · refine I.srcInj a b c a' b' c' d hm hne hc hm' hne' hc' ?_ ?_
              · rw [s1 b (hvne _ _ hm)]; exact e1
              · rw [s1 b' (hvne _ _ hm')]; exact e2
          dstND := fun s h => by
            apply I.dstND
            show (upd g.dst v1 (g.dst v1 ++ [g.nIop]) s).Nodup ∧
              ∀ o ∈ upd g.dst v1 (g.dst v1 ++ [g.nIop]) s, o < g.nIop + 1
            by_cases hs : s = v1
            · subst hs
              rw [upd_self]
              refine ⟨?_, ?_⟩
              · rw [List.nodup_append]
                refine ⟨h.1, List.nodup_singleton _, fun a h' b hb => ?_⟩
                rw [List.mem_singleton] at hb
                have := h.2 a h'
                omega
              · intro o ho
                rcases List.mem_append.1 ho with ho | ho
                · have := h.2 o ho; omega
                · rw [List.mem_singleton] at ho; omega
            · rw [upd_ne _ _ hs]
              exact ⟨h.1, fun o ho => by have := h.2 o ho; omega⟩ }

/-- The first occurrence of `node` replaced, if there is one. -/
def repl (node s : Node) (l : List Node) : List Node := (replaceFirst node s l).getD l

theorem replaceFirst_isSome {node s : Node} {l : List Node} (h : node ∈ l) :
    replaceFirst node s l = some (repl node s l) := by
  have : ∃ l', replaceFirst node s l = some l' := by
    induction l with
    | nil => cases h
    | cons x l ih =>
      simp only [replaceFirst]
      by_cases hx : x = node
      · exact ⟨_, by rw [if_pos hx]⟩
      · rw [if_neg hx]
        obtain ⟨l', hl⟩ := ih (by rcases List.mem_cons.1 h with e | h; exact absurd e.symm hx; exact h)
        exact ⟨_, by rw [hl]; rfl⟩
  obtain ⟨l', hl⟩ := this
  rw [repl, hl]; rfl

theorem replaceIn_spec (node s : Node) (l : List Nat) (g : Graph V) (hnd : l.Nodup)
    (hm : ∀ o ∈ l, node ∈ (g.iop o).inputs) :
    replaceIn node s l g = some { g with
      iop := fun o => if o ∈ l then ⟨(g.iop o).kind, repl node s (g.iop o).inputs⟩ else g.iop o } := by
  induction l generalizing g with
  | nil => simp [replaceIn]
  | cons o l ih =>
    have hnd' := List.nodup_cons.1 hnd
    simp only [replaceIn]
    rw [replaceFirst_isSome (hm o List.mem_cons_self)]
    simp only
    rw [ih _ hnd'.2 (fun o' ho' => by
      have : o' ≠ o := by rintro rfl; exact hnd'.1 ho'
      simp only [upd_ne _ _ this]
      exact hm o' (List.mem_cons_of_mem _ ho'))]
    congr 2
    funext o'
    by_cases h : o' = o
    · subst h
      simp [hnd'.1, upd_self]
    · simp [upd_ne _ _ h, h]

theorem nodeLoop_skip (node : Node) (l : List Node) (os : Option Node) (acc : List Node) (g : Graph V)
    (h : node ∉ l) : nodeLoop node l os acc g = some (acc ++ l, g) := by
  induction l generalizing acc with
  | nil => simp [nodeLoop]
  | cons x l ih =>
    simp only [nodeLoop]
    rw [if_neg (by rintro rfl; exact h List.mem_cons_self),
      ih _ (fun h' => h (List.mem_cons_of_mem _ h'))]
    simp

/-- The graph after the readers of `node` were redirected to `s`. -/
def redirect (g : Graph V) (node s : Node) : Graph V :=
  { g with
    dst := upd g.dst s (g.dst s ++ (g.dst node).filter (fun o => o ∉ g.dst s))
    iop := fun o => if o ∈ g.dst node then ⟨(g.iop o).kind, repl node s (g.iop o).inputs⟩ else g.iop o }

theorem nodeLoop_spec (node s : Node) (l acc : List Node) (g : Graph V) (h : l.count node = 1)
    (hnd : (g.dst node).Nodup) (hm : ∀ o ∈ g.dst node, node ∈ (g.iop o).inputs) :
    nodeLoop node l (some s) acc g = some (acc ++ l.erase node, redirect g node s) := by
  induction l generalizing acc with
  | nil => simp at h
  | cons x l ih =>
    simp only [nodeLoop]
    by_cases hx : x = node
    · subst hx
      rw [if_pos rfl]
      rw [List.count_cons_self] at h
      rw [replaceIn_spec x s (g.dst x)
        { g with dst := upd g.dst s (g.dst s ++ (g.dst x).filter (fun o => o ∉ g.dst s)) } hnd hm]
      dsimp only
      rw [nodeLoop_skip x l none acc _ (List.count_eq_zero.1 (by omega)), List.erase_cons_head]
      rfl
    · rw [if_neg hx, ih _ (by rwa [List.count_cons_of_ne hx] at h), List.erase_cons_tail (by simpa using hx)]
      simp

/-- What `fuse` does. -/
structure Fused (g g' : Graph V) (e1 e2 e' : EOp) (node : Node) : Prop where
  nodeIn : (e1.out, node) ∈ e2.subIn
  rank : g'.rank = g.rank
  gin : g'.inputs = g.inputs
  ops : g'.ops = g.ops.filter (fun o => o.out ≠ e1.out ∧ o.out ≠ e2.out) ++ [.ew e']
  out : e'.out = e2.out
  subOut : e'.subOut = e2.subOut
  inputs : e'.inputs = (e1.inputs ++ e2.inputs.erase e1.out).dedup
  subIn : e'.subIn = e1.subIn ++ e2.subIn.filter (fun p => p.1 ≠ e1.out ∧ p.1 ∉ keys e1.subIn)
  nodes : e'.nodes = e1.nodes ++ e2.nodes.erase node
  nIop : g.nIop ≤ g'.nIop
  iopNode : ∀ o ∈ g.dst node, g'.iop o = ⟨(g.iop o).kind, repl node e1.subOut (g.iop o).inputs⟩
  iop : ∀ o < g.nIop, o ∉ g.dst node → g'.iop o = g.iop o
  src : ∀ s, (∀ k v1, (k, s) ∈ e2.subIn → k ≠ e1.out → (k, v1) ∉ e1.subIn) → g'.src s = g.src s
  new : ∀ k v v1, (k, v) ∈ e2.subIn → k ≠ e1.out → (k, v1) ∈ e1.subIn →
    ∃ c, g.nIop ≤ c ∧ c < g'.nIop ∧ g'.src v = g.src v ++ [c] ∧ g'.iop c = ⟨.copy v1, [v, v1]⟩ ∧
      c ∈ g'.dst v1
  dstOld : ∀ s, ∀ o ∈ g.dst s, o ∈ g'.dst s
  dstNode : ∀ o ∈ g.dst node, o ∈ g'.dst e1.subOut
  dstNew : ∀ s, ∀ o ∈ g'.dst s, o ∈ g.dst s ∨ (s = e1.subOut ∧ o ∈ g.dst node) ∨
    ∃ k v, (k, v) ∈ e2.subIn ∧ k ≠ e1.out ∧ (k, s) ∈ e1.subIn ∧
      g.nIop ≤ o ∧ o < g'.nIop ∧ g'.src v = g.src v ++ [o] ∧ g'.iop o = ⟨.copy s, [v, s]⟩
  srcInj : ∀ k v v1 k' v' v1' c, (k, v) ∈ e2.subIn → k ≠ e1.out → (k, v1) ∈ e1.subIn →
    (k', v') ∈ e2.subIn → k' ≠ e1.out → (k', v1') ∈ e1.subIn →
    g'.src v = g.src v ++ [c] → g'.src v' = g.src v' ++ [c] → v = v'
  dstND : ∀ s, (g.dst s).Nodup ∧ (∀ o ∈ g.dst s, o < g.nIop) → (g'.dst s).Nodup

/-- Two operators of a graph, the output of the first being an input of the
second. -/
structure Pair (g : Graph V) (e1 e2 : EOp) : Prop where
  wf : WF g
  m1 : .ew e1 ∈ g.ops
  m2 : .ew e2 ∈ g.ops
  ne : e1.out ≠ e2.out
  rd : e1.out ∈ e2.inputs

theorem Pair.node_facts {g : Graph V} {e1 e2 : EOp} (P : Pair g e1 e2) {node : Node}
    (hn : (e1.out, node) ∈ e2.subIn) :
    node ∈ e2.nodes ∧ g.src node = [] ∧ e2.nodes.count node = 1 ∧ (node, node) ∉ e2.subIn ∧
      node ∉ e1.nodes ∧ (g.dst node).Nodup ∧ (∀ o ∈ g.dst node, o < g.nIop) ∧
      ∀ o ∈ g.dst node, node ∈ (g.iop o).inputs := by
  have S1 := P.wf.sub _ P.m1
  have S2 := P.wf.sub _ P.m2
  have hnn := S2.argNode _ _ hn
  have hr := S1.rankOut
  rcases S2.arg _ _ hn with h | ⟨_, h1, h2, h3'⟩
  · omega
  · have h3 : (node, node) ∉ e2.subIn := fun h => h3' (val_unique S2.valsND h hn)
    refine ⟨hnn, h1, h2, h3, ?_, S2.dstND _ hnn h3, ?_, ?_⟩
    · intro h
      exact h3 (P.wf.disj _ _ P.m1 P.m2 P.ne _ h hnn).2
    · intro o ho
      obtain ⟨s', a1, a2, a3, a4, a5⟩ := S2.dst _ hnn h3 o ho
      obtain ⟨o', b1, b2, _⟩ := S2.src _ a1 a2
      rw [a3] at b1
      cases b1
      exact b2
    · intro o ho
      obtain ⟨s', a1, a2, a3, a4, a5⟩ := S2.dst _ hnn h3 o ho
      exact a4

theorem fuse_spec {g : Graph V} {e1 e2 : EOp} (P : Pair g e1 e2) :
    ∃ g' e' node, fuse g e1 e2 = some g' ∧ Fused g g' e1 e2 e' node := by
  have S1 := P.wf.sub _ P.m1
  have S2 := P.wf.sub _ P.m2
  obtain ⟨node, hn⟩ := of_mem_keys ((S2.inputs _).1 P.rd)
  obtain ⟨n1, n2, n3, n4, n5, n6, n7, n8⟩ := P.node_facts hn
  have M := mergeIn_spec e1.out e2.subIn e1.subIn g S2.keysND S2.valsND S1.keysND
  have A := mergeIn_acc e1.out e2.subIn e1.subIn g S2.keysND
  have hd : ∀ o, o ∈ (mergeIn e1.out e2.subIn e1.subIn g).2.dst node → o ∈ g.dst node := by
    intro o ho
    rcases M.dstNew _ _ ho with h | ⟨k, v, _, _, hc, _⟩
    · exact h
    · exact absurd (S1.argNode _ _ hc) n5
  have hd' : ∀ o, o ∈ (mergeIn e1.out e2.subIn e1.subIn g).2.dst node ↔ o ∈ g.dst node :=
    fun o => ⟨hd o, M.dstOld _ _⟩
  have hL := nodeLoop_spec node e1.subOut e2.nodes e1.nodes (mergeIn e1.out e2.subIn e1.subIn g).2 n3
    (M.dstND node ⟨n6, n7⟩).1 (fun o ho => by
      rw [M.iop o (n7 o (hd o ho))]; exact n8 o (hd o ho))
  refine ⟨{ redirect (mergeIn e1.out e2.subIn e1.subIn g).2 node e1.subOut with
      ops := (redirect (mergeIn e1.out e2.subIn e1.subIn g).2 node e1.subOut).ops.filter
        (fun o => o.out ≠ e1.out ∧ o.out ≠ e2.out) ++
          [.ew { inputs := (e1.inputs ++ e2.inputs.erase e1.out).dedup
                 out := e2.out
                 subIn := (mergeIn e1.out e2.subIn e1.subIn g).1
                 nodes := e1.nodes ++ e2.nodes.erase node
                 subOut := e2.subOut }] },
          { inputs := (e1.inputs ++ e2.inputs.erase e1.out).dedup
            out := e2.out
            subIn := (mergeIn e1.out e2.subIn e1.subIn g).1
            nodes := e1.nodes ++ e2.nodes.erase node
            subOut := e2.subOut }, node, ?_, ?_⟩
  rotate_right
  · constructor
    case nodeIn => exact hn
    case rank => exact M.rank
    case gin => exact M.inputs
    case ops => simp only [redirect, M.ops]
    case out => rfl
    case subOut => rfl
    case inputs => rfl
    case subIn => exact A
    case nodes => rfl
    case nIop => exact M.nIop
    case iopNode =>
      intro o ho
      simp only [redirect, hd', ho, if_true]
      rw [M.iop o (n7 o ho)]
    case iop =>
      intro o ho hno
      simp only [redirect, hd', hno, if_false]
      exact M.iop o ho
    case src => exact M.src
    case new =>
      intro k v v1 h1 h2 h3
      obtain ⟨c, c1, c2, c3, c4, c5⟩ := M.new k v v1 h1 h2 h3
      have hc : c ∉ g.dst node := fun h => by have := n7 c h; omega
      refine ⟨c, c1, c2, c3, ?_, ?_⟩
      · simp only [redirect, hd', hc, if_false]; exact c4
      · simp only [redirect]
        by_cases hv : v1 = e1.subOut
        · subst hv; rw [upd_self]; exact List.mem_append_left _ c5
        · rw [upd_ne _ _ hv]; exact c5
    case dstOld =>
      intro s o ho
      simp only [redirect]
      by_cases hv : s = e1.subOut
      · subst hv; rw [upd_self]; exact List.mem_append_left _ (M.dstOld _ _ ho)
      · rw [upd_ne _ _ hv]; exact M.dstOld _ _ ho
    case dstNode =>
      intro o ho
      simp only [redirect]
      rw [upd_self]
      by_cases h : o ∈ (mergeIn e1.out e2.subIn e1.subIn g).2.dst e1.subOut
      · exact List.mem_append_left _ h
      · exact List.mem_append_right _ (List.mem_filter.2 ⟨M.dstOld _ _ ho, by simpa using h⟩)
    case dstNew =>
      intro s o ho
      simp only [redirect] at ho
      have key : o ∈ (mergeIn e1.out e2.subIn e1.subIn g).2.dst s → _ := M.dstNew s o
      have key' : o ∈ (mergeIn e1.out e2.subIn e1.subIn g).2.dst s ∨ (s = e1.subOut ∧ o ∈ g.dst node) := by
        by_cases hv : s = e1.subOut
        · subst hv
          rw [upd_self] at ho
          rcases List.mem_append.1 ho with h | h
          · exact .inl h
          · exact .inr ⟨rfl, hd _ (List.mem_filter.1 h).1⟩
        · rw [upd_ne _ _ hv] at ho
          exact .inl ho
      rcases key' with h | h
      · rcases key h with h | ⟨k, v, c1, c2, c3, c4, c5, c6, c7⟩
        · exact .inl h
        · have hc : o ∉ g.dst node := fun h => by have := n7 o h; omega
          refine .inr (.inr ⟨k, v, c1, c2, c3, c4, c5, c6, ?_⟩)
          simp only [redirect, hd', hc, if_false]; exact c7
      · exact .inr (.inl h)
    case srcInj => exact M.srcInj
    case dstND =>
      intro s hs
      simp only [redirect]
      have h1 := (M.dstND s hs).1
      by_cases hv : s = e1.subOut
      · subst hv
        rw [upd_self, List.nodup_append]
        refine ⟨h1, (M.dstND node ⟨n6, n7⟩).1.filter _, ?_⟩
        intro a ha b hb hab
        subst hab
        have := (List.mem_filter.1 hb).2
        simp [ha] at this
      · rw [upd_ne _ _ hv]; exact h1
  · simp only [fuse]
    rw [get_of_mem S2.keysND hn]
    simp only
    rw [if_pos S1.outNode, hL]

end Verif.Fuse
