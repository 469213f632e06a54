import Verif.Session

/-! # Ordering and levels of pipeline graphs (C34, C35) -/

namespace Verif.Session

section Topo
variable {ν : Type} [DecidableEq ν]

/-- `m` is needed, directly or not, to compute `n`. -/
inductive Reach (inp : ν → List (Option ν)) : ν → ν → Prop
  | refl (n) : Reach inp n n
  | step {n m k} (h : some m ∈ inp n) (h' : Reach inp m k) : Reach inp n k

/-- Every node of the list comes after its inputs. -/
def Ordered (inp : ν → List (Option ν)) (l : List ν) : Prop :=
  ∀ pre n post, l = pre ++ n :: post → ∀ m, some m ∈ inp n → m ∈ pre

structure DfsInv (inp : ν → List (Option ν)) (s : Dfs ν) : Prop where
  same : ∀ n, n ∈ s.visited ↔ n ∈ s.nodes
  nodup : s.nodes.Nodup
  ordered : Ordered inp s.nodes

structure DfsStep (inp : ν → List (Option ν)) (s s' : Dfs ν) (os : List (Option ν)) : Prop where
  inv : DfsInv inp s'
  pre : ∀ n ∈ s.nodes, n ∈ s'.nodes
  added : ∀ n, some n ∈ os → n ∈ s'.nodes
  only : ∀ m ∈ s'.nodes, m ∈ s.nodes ∨ ∃ n, some n ∈ os ∧ Reach inp n m

theorem Ordered.snoc {inp : ν → List (Option ν)} {l : List ν} {n : ν} (h : Ordered inp l)
    (hn : ∀ m, some m ∈ inp n → m ∈ l) : Ordered inp (l ++ [n]) := by
  intro pre a post e m hm
  rcases List.eq_nil_or_concat post with rfl | ⟨post', b, rfl⟩
  · have e' : l ++ [n] = pre ++ [a] := by simpa using e
    obtain ⟨rfl, h2⟩ := List.append_inj' e' rfl
    simp at h2
    subst h2
    exact hn m hm
  · have e' : l ++ [n] = (pre ++ a :: post') ++ [b] := by simpa using e
    obtain ⟨rfl, -⟩ := List.append_inj' e' rfl
    exact h pre a post' rfl m hm

theorem dfs_step (inp : ν → List (Option ν)) :
    ∀ (f : Nat) (s : Dfs ν) (o : Option ν) (s' : Dfs ν), DfsInv inp s →
      dfsVisit inp f s o = some s' → DfsStep inp s s' [o] := by
  intro f
  induction f with
  | zero =>
    intro s o s' hi h
    cases o with
    | some n => simp [dfsVisit] at h
    | none =>
      simp only [dfsVisit, Option.some.injEq] at h
      subst h
      exact ⟨⟨hi.same, hi.nodup, hi.ordered⟩, fun _ h => h, by simp, fun m h => .inl h⟩
  | succ f ih =>
    have fold : ∀ (os : List (Option ν)) (s s' : Dfs ν), DfsInv inp s →
        os.foldlM (dfsVisit inp f) s = some s' → DfsStep inp s s' os := by
      intro os
      induction os with
      | nil =>
        intro s s' hi h
        simp at h
        subst h
        exact ⟨hi, fun _ h => h, by simp, fun m h => .inl h⟩
      | cons o os ih2 =>
        intro s s' hi h
        simp only [List.foldlM_cons, Option.bind_eq_bind, Option.bind_eq_some_iff] at h
        obtain ⟨s1, h1, h2⟩ := h
        have a := ih s o s1 hi h1
        have b := ih2 s1 s' a.inv h2
        refine ⟨b.inv, fun n hn => b.pre n (a.pre n hn), ?_, ?_⟩
        · intro n hn
          rcases List.mem_cons.mp hn with rfl | hn
          · exact b.pre n (a.added n (by simp))
          · exact b.added n hn
        · intro m hm
          rcases b.only m hm with h | ⟨n, hn, hr⟩
          · rcases a.only m h with h | ⟨n, hn, hr⟩
            · exact .inl h
            · simp at hn; subst hn
              exact .inr ⟨n, by simp, hr⟩
          · exact .inr ⟨n, by simp [hn], hr⟩
    intro s o s' hi h
    cases o with
    | none =>
      simp only [dfsVisit, Option.some.injEq] at h
      subst h
      exact ⟨⟨hi.same, hi.nodup, hi.ordered⟩, fun _ h => h, by simp, fun m h => .inl h⟩
    | some n =>
      simp only [dfsVisit] at h
      split at h
      · cases h
      · rename_i s1 h1
        injection h with h
        subst h
        have a := fold (inp n) { s with calls := s.calls + 1 } s1 ⟨hi.same, hi.nodup, hi.ordered⟩ h1
        unfold Dfs.add
        by_cases hv : n ∈ s1.visited
        · rw [if_pos hv]
          refine ⟨a.inv, a.pre, ?_, ?_⟩
          · intro m hm; simp at hm; subst hm
            exact (a.inv.same _).mp hv
          · intro m hm
            rcases a.only m hm with h | ⟨k, hk, hr⟩
            · exact .inl h
            · exact .inr ⟨n, by simp, .step hk hr⟩
        · rw [if_neg hv]
          have hn : n ∉ s1.nodes := fun h => hv ((a.inv.same n).mpr h)
          refine ⟨⟨?_, ?_, ?_⟩, ?_, ?_, ?_⟩
          · intro m
            simp only [List.mem_cons, List.mem_append, a.inv.same m]
            constructor
            · rintro (rfl | h)
              · exact .inr (by simp)
              · exact .inl h
            · rintro (h | h)
              · exact .inr h
              · left; simpa using h
          · show (s1.nodes ++ [n]).Nodup
            rw [List.nodup_append]
            refine ⟨a.inv.nodup, by simp, ?_⟩
            intro x hx y hy
            simp at hy; subst hy
            intro e; subst e; exact hn hx
          · exact a.inv.ordered.snoc fun m hm => a.added m hm
          · intro m hm
            exact List.mem_append_left _ (a.pre m hm)
          · intro m hm; simp at hm; subst hm
            simp
          · intro m hm
            rcases List.mem_append.mp hm with hm | hm
            · rcases a.only m hm with h | ⟨k, hk, hr⟩
              · exact .inl h
              · exact .inr ⟨n, by simp, .step hk hr⟩
            · simp at hm; subst hm
              exact .inr ⟨m, by simp, .refl m⟩

theorem dfs_fold (inp : ν → List (Option ν)) (f : Nat) :
    ∀ (os : List (Option ν)) (s s' : Dfs ν), DfsInv inp s →
      os.foldlM (dfsVisit inp f) s = some s' → DfsStep inp s s' os := by
  intro os
  induction os with
  | nil =>
    intro s s' hi h
    simp at h
    subst h
    exact ⟨hi, fun _ h => h, by simp, fun m h => .inl h⟩
  | cons o os ih2 =>
    intro s s' hi h
    simp only [List.foldlM_cons, Option.bind_eq_bind, Option.bind_eq_some_iff] at h
    obtain ⟨s1, h1, h2⟩ := h
    have a := dfs_step inp f s o s1 hi h1
    have b := ih2 s1 s' a.inv h2
    refine ⟨b.inv, fun n hn => b.pre n (a.pre n hn), ?_, ?_⟩
    · intro n hn
      rcases List.mem_cons.mp hn with rfl | hn
      · exact b.pre n (a.added n (by simp))
      · exact b.added n hn
    · intro m hm
      rcases b.only m hm with h | ⟨n, hn, hr⟩
      · rcases a.only m h with h | ⟨n, hn, hr⟩
        · exact .inl h
        · simp at hn; subst hn
          exact .inr ⟨n, by simp, hr⟩
      · exact .inr ⟨n, by simp [hn], hr⟩

omit [DecidableEq ν] in
theorem Ordered.closed {inp : ν → List (Option ν)} {l : List ν} (h : Ordered inp l) {n m : ν}
    (hr : Reach inp n m) : n ∈ l → m ∈ l := by
  induction hr with
  | refl => exact id
  | step hm _ ih =>
    intro hn
    obtain ⟨pre, post, e⟩ := List.append_of_mem hn
    apply ih
    rw [e]
    exact List.mem_append_left _ (h pre _ post e _ hm)

/-- **C34.**  Whenever `topo_sort` returns, its result contains exactly the nodes reachable from
the outputs, each once, and every node after all of its inputs. -/
theorem topo_sort_correct (inp : ν → List (Option ν)) (fuel : Nat) (outputs : List (Option ν))
    (s : Dfs ν) (h : topoSort inp fuel outputs = some s) :
    s.nodes.Nodup ∧
    (∀ n, n ∈ s.nodes ↔ ∃ o, some o ∈ outputs ∧ Reach inp o n) ∧
    (∀ pre n post, s.nodes = pre ++ n :: post → ∀ m, some m ∈ inp n → m ∈ pre) := by
  have a := dfs_fold inp fuel outputs _ s ⟨by simp, by simp, by
    intro pre n post e; simp at e⟩ h
  refine ⟨a.inv.nodup, ?_, a.inv.ordered⟩
  intro n
  constructor
  · intro hn
    rcases a.only n hn with h | h
    · simp at h
    · exact h
  · rintro ⟨o, ho, hr⟩
    exact a.inv.ordered.closed hr (a.added o ho)

theorem dfs_total (inp : ν → List (Option ν)) {n : ν}
    (h : Acc (fun a b => some a ∈ inp b) n) :
    ∃ f0, ∀ f, f0 ≤ f → ∀ s, (dfsVisit inp f s (some n)).isSome := by
  induction h with
  | intro n _ ih =>
    have fold : ∀ os : List (Option ν), (∀ m, some m ∈ os → some m ∈ inp n) →
        ∃ f0, ∀ f, f0 ≤ f → ∀ s, (os.foldlM (dfsVisit inp f) s).isSome := by
      intro os
      induction os with
      | nil => intro _; exact ⟨0, fun f _ s => by simp⟩
      | cons o os ih2 =>
        intro hos
        obtain ⟨f1, h1⟩ := ih2 fun m hm => hos m (by simp [hm])
        have : ∃ f0, ∀ f, f0 ≤ f → ∀ s, (dfsVisit inp f s o).isSome := by
          cases o with
          | none => exact ⟨0, fun f _ s => by cases f <;> simp [dfsVisit]⟩
          | some m => exact ih m (hos m (by simp))
        obtain ⟨f2, h2⟩ := this
        refine ⟨max f1 f2, fun f hf s => ?_⟩
        have := h2 f (by omega) s
        obtain ⟨s1, e1⟩ := Option.isSome_iff_exists.mp this
        simp only [List.foldlM_cons, e1, Option.bind_eq_bind, Option.bind_some]
        exact h1 f (by omega) s1
    obtain ⟨f0, h0⟩ := fold (inp n) fun _ h => h
    refine ⟨f0 + 1, fun f hf s => ?_⟩
    obtain ⟨f, rfl⟩ : ∃ g, f = g + 1 := ⟨f - 1, by omega⟩
    have := h0 f (by omega) { s with calls := s.calls + 1 }
    obtain ⟨s1, e1⟩ := Option.isSome_iff_exists.mp this
    simp [dfsVisit, e1]

theorem fold_isSome_mem (inp : ν → List (Option ν)) (f : Nat) :
    ∀ (os : List (Option ν)) (s : Dfs ν), (os.foldlM (dfsVisit inp f) s).isSome →
      ∀ o ∈ os, ∃ s, (dfsVisit inp f s o).isSome := by
  intro os
  induction os with
  | nil => simp
  | cons o os ih =>
    intro s h o' ho'
    obtain ⟨s', h⟩ := Option.isSome_iff_exists.mp h
    simp only [List.foldlM_cons, Option.bind_eq_bind, Option.bind_eq_some_iff] at h
    obtain ⟨s1, h1, h2⟩ := h
    rcases List.mem_cons.mp ho' with rfl | ho'
    · exact ⟨s, by simp [h1]⟩
    · exact ih s1 (by simp [h2]) o' ho'

theorem dfs_acc (inp : ν → List (Option ν)) :
    ∀ (f : Nat) (s : Dfs ν) (n : ν), (dfsVisit inp f s (some n)).isSome →
      Acc (fun a b => some a ∈ inp b) n := by
  intro f
  induction f with
  | zero => intro s n h; simp [dfsVisit] at h
  | succ f ih =>
    intro s n h
    refine ⟨n, fun m hm => ?_⟩
    simp only [dfsVisit] at h
    split at h
    · simp at h
    · rename_i s1 h1
      obtain ⟨s2, h2⟩ := fold_isSome_mem inp f _ _ (by rw [h1]; rfl) _ hm
      exact ih s2 m h2

/-- **C34.**  `topo_sort` returns (for some recursion depth, and then for every larger one)
exactly when no output depends on a cycle. -/
theorem topo_sort_returns_iff (inp : ν → List (Option ν)) (outputs : List (Option ν)) :
    (∃ f0, ∀ f, f0 ≤ f → ∃ s, topoSort inp f outputs = some s) ↔
      ∀ n, some n ∈ outputs → Acc (fun a b => some a ∈ inp b) n := by
  constructor
  · rintro ⟨f, h⟩ n hn
    obtain ⟨s, h⟩ := h f (Nat.le_refl _)
    obtain ⟨s1, h1⟩ := fold_isSome_mem inp f outputs _ (by unfold topoSort at h; rw [h]; rfl) _ hn
    exact dfs_acc inp f s1 n h1
  · intro h
    have fold : ∀ os : List (Option ν), (∀ m, some m ∈ os → some m ∈ outputs) →
        ∃ f0, ∀ f, f0 ≤ f → ∀ s, ∃ s', os.foldlM (dfsVisit inp f) s = some s' := by
      intro os
      induction os with
      | nil => intro _; exact ⟨0, fun f _ s => ⟨s, by simp⟩⟩
      | cons o os ih2 =>
        intro hos
        obtain ⟨f1, h1⟩ := ih2 fun m hm => hos m (by simp [hm])
        have : ∃ f0, ∀ f, f0 ≤ f → ∀ s, (dfsVisit inp f s o).isSome := by
          cases o with
          | none => exact ⟨0, fun f _ s => by cases f <;> simp [dfsVisit]⟩
          | some m => exact dfs_total inp (h m (hos m (by simp)))
        obtain ⟨f2, h2⟩ := this
        refine ⟨max f1 f2, fun f hf s => ?_⟩
        have := h2 f (by omega) s
        obtain ⟨s1, e1⟩ := Option.isSome_iff_exists.mp this
        simp only [List.foldlM_cons, e1, Option.bind_eq_bind, Option.bind_some]
        exact h1 f (by omega) s1
    obtain ⟨f0, h0⟩ := fold outputs fun _ h => h
    exact ⟨f0, fun f hf => h0 f hf _⟩

/-- A diamond over a variable, one output: 3 needs 1 and 2, which need 0. -/
def diamond : Nat → List (Option Nat)
  | 3 => [some 1, some 2]
  | 2 => [some 0, none]
  | 1 => [some 0]
  | _ => []

example : topoSort diamond 5 [some 3] = some ⟨[0, 1, 2, 3], [3, 2, 1, 0], 6⟩ := by decide
example : topoSort diamond 2 [some 3] = none := by decide

/-! ### The number of calls -/

/-- Node `k + 1` uses node `k` twice (as in `y = f(x, x)`). -/
def doubling : Nat → List (Option Nat)
  | 0 => []
  | k + 1 => [some k, some k]

theorem doubling_calls : ∀ (k f : Nat), k < f → ∀ s : Dfs Nat, ∃ s',
    dfsVisit doubling f s (some k) = some s' ∧ s'.calls + 1 = s.calls + 2 ^ (k + 1) := by
  intro k
  induction k with
  | zero =>
    intro f hf s
    obtain ⟨f, rfl⟩ : ∃ g, f = g + 1 := ⟨f - 1, by omega⟩
    refine ⟨_, by simp only [dfsVisit, doubling, List.foldlM_nil]; rfl, ?_⟩
    simp only [Dfs.add]
    split <;> simp
  | succ k ih =>
    intro f hf s
    obtain ⟨f, rfl⟩ : ∃ g, f = g + 1 := ⟨f - 1, by omega⟩
    obtain ⟨s1, e1, c1⟩ := ih f (by omega) { s with calls := s.calls + 1 }
    obtain ⟨s2, e2, c2⟩ := ih f (by omega) s1
    refine ⟨s2.add (k + 1), ?_, ?_⟩
    · simp [dfsVisit, doubling, e1, e2]
    · have : (s2.add (k + 1)).calls = s2.calls := by unfold Dfs.add; split <;> rfl
      rw [this, Nat.pow_succ 2 (k + 1)]
      simp only at c1
      omega

/-- **C43, finding.**  Tracing visits shared nodes again and again: a pipeline of `k + 1` nodes,
each using the previous one twice, costs `2 ^ (k + 1) - 1` calls. -/
theorem trace_cost_exponential_refuted (k : Nat) : ∃ s,
    topoSort doubling (k + 1) [some k] = some s ∧ s.calls + 1 = 2 ^ (k + 1) ∧
    s.nodes.Perm (List.range (k + 1)) := by
  obtain ⟨s, h, hc⟩ := doubling_calls k (k + 1) (by omega)
    { nodes := [], visited := [], calls := 0 }
  have ht : topoSort doubling (k + 1) [some k] = some s := by simp [topoSort, h]
  refine ⟨s, ht, by simpa using hc, ?_⟩
  obtain ⟨hn, hm, -⟩ := topo_sort_correct doubling (k + 1) [some k] s ht
  have hle : ∀ a b, Reach doubling a b → b ≤ a := by
    intro a b hr
    induction hr with
    | refl => exact Nat.le_refl _
    | @step n m j hmem _ ih =>
      cases n with
      | zero => simp [doubling] at hmem
      | succ n => simp [doubling] at hmem; omega
  have hge : ∀ a b, b ≤ a → Reach doubling a b := by
    intro a
    induction a with
    | zero => intro b hb; have : b = 0 := by omega
              subst this; exact .refl _
    | succ a ih =>
      intro b hb
      rcases Nat.lt_or_ge a b with h | h
      · have : b = a + 1 := by omega
        subst this; exact .refl _
      · exact .step (by simp [doubling]) (ih b h)
  rw [List.perm_ext_iff_of_nodup hn List.nodup_range]
  intro x
  rw [hm x, List.mem_range]
  constructor
  · rintro ⟨o, ho, hr⟩
    simp at ho; subst ho
    have := hle _ _ hr
    omega
  · intro hx
    exact ⟨k, by simp, hge k x (by omega)⟩

example : (topoSort doubling 5 [some 4]).map (fun s => (s.calls, s.nodes)) =
    some (31, [0, 1, 2, 3, 4]) := by decide +kernel

/-- **C43, the part that holds.**  In a pipeline of one-input nodes the cost of tracing an output
is bounded by its depth. -/
theorem trace_cost_chain_partial {ν : Type} [DecidableEq ν] (inp : ν → List (Option ν))
    (h1 : ∀ n, (inp n).length ≤ 1) (fuel : Nat) (o : Option ν) (s : Dfs ν)
    (h : topoSort inp fuel [o] = some s) : s.calls ≤ fuel + 1 := by
  have key : ∀ (f : Nat) (s s' : Dfs ν) (o : Option ν), dfsVisit inp f s o = some s' →
      s'.calls ≤ s.calls + (f + 1) := by
    intro f
    induction f with
    | zero =>
      intro s s' o h
      cases o with
      | none => simp only [dfsVisit, Option.some.injEq] at h; subst h; simp
      | some n => simp [dfsVisit] at h
    | succ f ih =>
      intro s s' o h
      cases o with
      | none => simp only [dfsVisit, Option.some.injEq] at h; subst h; simp
      | some n =>
        simp only [dfsVisit] at h
        split at h
        · cases h
        · rename_i s1 hs1
          injection h with h
          subst h
          have e : (s1.add n).calls = s1.calls := by unfold Dfs.add; split <;> rfl
          rw [e]
          have hl := h1 n
          cases hin : inp n with
          | nil =>
            rw [hin] at hs1
            simp at hs1
            subst hs1
            simp
          | cons m rest =>
            cases rest with
            | nil =>
              rw [hin] at hs1
              simp at hs1
              have := ih _ _ _ hs1
              simp only at this
              omega
            | cons a b => rw [hin] at hl; simp at hl
  have := key fuel _ s o (by simpa [topoSort] using h)
  simpa using this

example : (topoSort (fun n => if n = 0 then [] else [some (n - 1)]) 10 [some 9]).map Dfs.calls =
    some 10 := by decide +kernel

end Topo

/-! ## Levels -/

section Levels
variable {ν : Type} [DecidableEq ν]

/-- What a layering must satisfy: every input of a computed node is a node of the graph and is a
variable or has a smaller rank. -/
def ValidRank (serial : List ν) (isVar : ν → Bool) (deps : ν → List ν) (rank : ν → Nat) : Prop :=
  ∀ n ∈ serial, isVar n = false → ∀ m ∈ deps n, m ∈ serial ∧ (isVar m = true ∨ rank m < rank n)

structure LevelsInv (serial : List ν) (isVar : ν → Bool) (deps : ν → List ν)
    (levels : List (List ν)) : Prop where
  nodup : levels.flatten.Nodup
  sub : ∀ n ∈ levels.flatten, n ∈ serial ∧ isVar n = false
  ready : ∀ pre l post, levels = pre ++ l :: post → ∀ n ∈ l, ∀ m ∈ deps n,
    (m ∈ serial ∧ isVar m = true) ∨ m ∈ pre.flatten
  tight : ∀ pre l l' post, levels = pre ++ l :: l' :: post → ∀ n ∈ l', ∃ m ∈ deps n, m ∈ l
  nonempty : ∀ l ∈ levels, l ≠ []
  last : ∀ pre l, levels = pre ++ [l] →
    l = runNodesOf serial deps (serial.filter isVar ++ pre.flatten)

theorem append_cons_eq_snoc {β : Type} {pre post L : List β} {x r : β}
    (e : L ++ [r] = pre ++ x :: post) :
    (post = [] ∧ pre = L ∧ x = r) ∨ ∃ post', post = post' ++ [r] ∧ L = pre ++ x :: post' := by
  rcases List.eq_nil_or_concat post with rfl | ⟨post', b, rfl⟩
  · have e' : L ++ [r] = pre ++ [x] := by simpa using e
    obtain ⟨rfl, h2⟩ := List.append_inj' e' rfl
    simp at h2
    exact .inl ⟨rfl, rfl, h2.symm⟩
  · have e' : L ++ [r] = (pre ++ x :: post') ++ [b] := by simpa using e
    obtain ⟨rfl, h2⟩ := List.append_inj' e' rfl
    simp at h2
    subst h2
    exact .inr ⟨post', by simp, rfl⟩

theorem LevelsInv.step {serial : List ν} {isVar : ν → Bool} {deps : ν → List ν}
    {levels : List (List ν)} (hs : serial.Nodup) (h : LevelsInv serial isVar deps levels)
    (hne : runNodesOf serial deps (serial.filter isVar ++ levels.flatten) ≠ []) :
    LevelsInv serial isVar deps
      (levels ++ [runNodesOf serial deps (serial.filter isVar ++ levels.flatten)]) := by
  have hmem : ∀ n, n ∈ runNodesOf serial deps (serial.filter isVar ++ levels.flatten) ↔
      n ∈ serial ∧ n ∉ serial.filter isVar ++ levels.flatten ∧
        ∀ m ∈ deps n, m ∈ serial.filter isVar ++ levels.flatten := by
    intro n
    unfold runNodesOf
    rw [List.mem_filter]
    simp only [Bool.and_eq_true, decide_eq_true_eq, List.all_eq_true]
  have hnd : (runNodesOf serial deps (serial.filter isVar ++ levels.flatten)).Nodup :=
    hs.filter _
  generalize hR : runNodesOf serial deps (serial.filter isVar ++ levels.flatten) = R at *
  have hvar : ∀ n ∈ R, isVar n = false := by
    intro n hn
    have := (hmem n).mp hn
    cases hv : isVar n with
    | false => rfl
    | true => exact absurd (List.mem_append_left _ (List.mem_filter.mpr ⟨this.1, hv⟩)) this.2.1
  refine ⟨?_, ?_, ?_, ?_, ?_, ?_⟩
  · rw [List.flatten_append, List.nodup_append]
    refine ⟨h.nodup, by simpa using hnd, ?_⟩
    intro a ha b hb e
    subst e
    simp at hb
    exact ((hmem a).mp hb).2.1 (List.mem_append_right _ ha)
  · intro n hn
    rw [List.flatten_append] at hn
    rcases List.mem_append.mp hn with hn | hn
    · exact h.sub n hn
    · simp at hn
      exact ⟨((hmem n).mp hn).1, hvar n hn⟩
  · intro pre l post e n hn m hm
    rcases append_cons_eq_snoc e with ⟨rfl, rfl, rfl⟩ | ⟨post', -, e'⟩
    · have := ((hmem n).mp hn).2.2 m hm
      rcases List.mem_append.mp this with h | h
      · exact .inl (by simpa using h)
      · exact .inr h
    · exact h.ready pre l post' e' n hn m hm
  · intro pre l l' post e n hn
    have e2 : levels ++ [R] = (pre ++ [l]) ++ l' :: post := by simpa using e
    rcases append_cons_eq_snoc e2 with ⟨rfl, e3, rfl⟩ | ⟨post', -, e'⟩
    · have hl := h.last pre l e3.symm
      have hready := (hmem n).mp hn
      have : n ∉ l := by
        intro hc
        refine hready.2.1 (List.mem_append_right _ ?_)
        rw [← e3]; simp [hc]
      rw [hl] at this
      unfold runNodesOf at this
      rw [List.mem_filter] at this
      have hnot : ¬ ∀ m ∈ deps n, m ∈ serial.filter isVar ++ pre.flatten := by
        intro hall
        apply this
        refine ⟨hready.1, ?_⟩
        simp only [Bool.and_eq_true, decide_eq_true_eq, List.all_eq_true]
        refine ⟨?_, hall⟩
        intro hc
        apply hready.2.1
        rw [← e3]
        rcases List.mem_append.mp hc with hc | hc
        · exact List.mem_append_left _ hc
        · exact List.mem_append_right _ (by simp [List.flatten_append] at hc ⊢; exact .inl hc)
      have : ∃ m, m ∈ deps n ∧ m ∉ serial.filter isVar ++ pre.flatten :=
        Classical.byContradiction fun hc => hnot fun m hm =>
          Classical.byContradiction fun hx => hc ⟨m, hm, hx⟩
      obtain ⟨m, hm, hx⟩ := this
      refine ⟨m, hm, ?_⟩
      have := hready.2.2 m hm
      rw [← e3, List.flatten_append] at this
      rcases List.mem_append.mp this with h | h
      · exact absurd (List.mem_append_left _ h) hx
      · rcases List.mem_append.mp h with h | h
        · exact absurd (List.mem_append_right _ h) hx
        · simpa using h
    · exact h.tight pre l l' post' (by simpa using e') n hn
  · intro l hl
    rcases List.mem_append.mp hl with hl | hl
    · exact h.nonempty l hl
    · simp at hl; subst hl; exact hne
  · intro pre l e
    obtain ⟨rfl, h2⟩ := List.append_inj' e rfl
    simp at h2
    subst h2
    exact hR.symm

theorem buildLoop_spec {serial : List ν} {isVar : ν → Bool} {deps : ν → List ν}
    (hs : serial.Nodup) : ∀ (fin : List ν) (levels : List (List ν)),
      fin = serial.filter isVar ++ levels.flatten → LevelsInv serial isVar deps levels →
      (∀ out, buildLoop serial deps fin levels = some out →
        LevelsInv serial isVar deps out ∧
          ∀ n ∈ serial, n ∈ serial.filter isVar ++ out.flatten) ∧
      (buildLoop serial deps fin levels = none → ¬ ∃ rank, ValidRank serial isVar deps rank) := by
  intro fin levels
  fun_induction buildLoop serial deps fin levels with
  | case1 fin levels hall =>
    intro e hi
    refine ⟨?_, by simp⟩
    intro out ho
    injection ho with ho
    subst ho
    refine ⟨hi, ?_⟩
    intro n hn
    have := List.all_eq_true.mp hall n hn
    rw [← e]
    simpa using this
  | case2 fin levels hall hrun =>
    intro e hi
    refine ⟨by simp, ?_⟩
    rintro - ⟨rank, hr⟩
    -- an unfinished node of least rank is ready
    have : ∃ n, n ∈ serial ∧ n ∉ fin := by
      refine Classical.byContradiction fun hc => hall ?_
      rw [List.all_eq_true]
      intro n hn
      simp only [decide_eq_true_eq]
      exact Classical.byContradiction fun hx => hc ⟨n, hn, hx⟩
    obtain ⟨n0, hn0⟩ := this
    have min : ∀ k n, n ∈ serial → n ∉ fin → rank n ≤ k →
        ∃ n, n ∈ serial ∧ n ∉ fin ∧ ∀ m ∈ deps n, m ∈ fin := by
      intro k
      induction k with
      | zero =>
        intro n hn hf hk
        refine ⟨n, hn, hf, fun m hm => ?_⟩
        have hv : isVar n = false := by
          cases hv : isVar n with
          | false => rfl
          | true => exact absurd (by rw [e]; exact List.mem_append_left _ (List.mem_filter.mpr ⟨hn, hv⟩)) hf
        rcases (hr n hn hv m hm) with ⟨hms, hm | hm⟩
        · rw [e]; exact List.mem_append_left _ (List.mem_filter.mpr ⟨hms, hm⟩)
        · omega
      | succ k ih =>
        intro n hn hf hk
        by_cases hc : ∀ m ∈ deps n, m ∈ fin
        · exact ⟨n, hn, hf, hc⟩
        · have : ∃ m, m ∈ deps n ∧ m ∉ fin :=
            Classical.byContradiction fun hx => hc fun m hm =>
              Classical.byContradiction fun hy => hx ⟨m, hm, hy⟩
          obtain ⟨m, hm, hmf⟩ := this
          have hv : isVar n = false := by
            cases hv : isVar n with
            | false => rfl
            | true => exact absurd (by rw [e]; exact List.mem_append_left _ (List.mem_filter.mpr ⟨hn, hv⟩)) hf
          rcases (hr n hn hv m hm) with ⟨hms, h | h⟩
          · exact absurd (by rw [e]; exact List.mem_append_left _ (List.mem_filter.mpr ⟨hms, h⟩)) hmf
          · exact ih m hms hmf (by omega)
    obtain ⟨n, hn, hf, hd⟩ := min (rank n0) n0 hn0.1 hn0.2 (Nat.le_refl _)
    have : n ∈ runNodesOf serial deps fin := by
      unfold runNodesOf
      rw [List.mem_filter]
      simp only [Bool.and_eq_true, decide_eq_true_eq, List.all_eq_true]
      exact ⟨hn, hf, hd⟩
    rw [hrun] at this
    simp at this
  | case3 fin levels hall r rs hrun ih =>
    intro e hi
    have hi' := hi.step hs (by rw [← e, hrun]; simp)
    rw [← e, hrun] at hi'
    exact ih (by rw [e]; simp [List.flatten_append]) hi'

theorem levelsInv_nil (serial : List ν) (isVar : ν → Bool) (deps : ν → List ν) :
    LevelsInv serial isVar deps [] :=
  ⟨by simp, by simp, by simp, by simp, by simp, by simp⟩

/-- **C35.**  The levels of a session hold every computed node exactly once and no variable; the
inputs of a node are variables or lie in strictly earlier levels; no level is empty. -/
theorem levels_correct {serial : List ν} {isVar : ν → Bool} {deps : ν → List ν}
    (hs : serial.Nodup) {levels : List (List ν)}
    (h : buildRunNodes serial isVar deps = some levels) :
    levels.flatten.Perm (serial.filter fun n => !isVar n) ∧
    (∀ pre l post, levels = pre ++ l :: post → ∀ n ∈ l, ∀ m ∈ deps n,
      (m ∈ serial ∧ isVar m = true) ∨ m ∈ pre.flatten) ∧
    ∀ l ∈ levels, l ≠ [] := by
  obtain ⟨hi, hall⟩ := (buildLoop_spec hs _ [] (by simp) (levelsInv_nil serial isVar deps)).1 levels h
  refine ⟨?_, hi.ready, hi.nonempty⟩
  rw [List.perm_ext_iff_of_nodup hi.nodup (hs.filter _)]
  intro n
  rw [List.mem_filter]
  constructor
  · intro hn
    have := hi.sub n hn
    simp [this]
  · rintro ⟨hn, hv⟩
    rcases List.mem_append.mp (hall n hn) with h | h
    · simp [List.mem_filter] at h
      simp [h.2] at hv
    · exact h

/-- **C35.**  Building the levels fails exactly when no layering exists (a cycle, or an input that
is not a node of the graph). -/
theorem levels_fail_iff {serial : List ν} {isVar : ν → Bool} {deps : ν → List ν}
    (hs : serial.Nodup) :
    buildRunNodes serial isVar deps = none ↔ ¬ ∃ rank, ValidRank serial isVar deps rank := by
  constructor
  · exact (buildLoop_spec hs _ [] (by simp) (levelsInv_nil serial isVar deps)).2
  · intro hno
    cases hb : buildRunNodes serial isVar deps with
    | none => rfl
    | some levels =>
      exfalso
      apply hno
      obtain ⟨hp, hready, -⟩ := levels_correct hs hb
      refine ⟨fun n => levels.findIdx fun l => decide (n ∈ l), ?_⟩
      intro n hn hv m hm
      have hnf : n ∈ levels.flatten := hp.mem_iff.mpr (List.mem_filter.mpr ⟨hn, by simp [hv]⟩)
      obtain ⟨l0, hl0, hnl0⟩ := List.mem_flatten.mp hnf
      have hlt : (levels.findIdx fun l => decide (n ∈ l)) < levels.length :=
        List.findIdx_lt_length.mpr ⟨l0, hl0, by simpa using hnl0⟩
      have hget := List.findIdx_getElem (w := hlt)
      simp only [decide_eq_true_eq] at hget
      have hsplit : levels = levels.take (levels.findIdx fun l => decide (n ∈ l)) ++
          levels[levels.findIdx fun l => decide (n ∈ l)] ::
            levels.drop ((levels.findIdx fun l => decide (n ∈ l)) + 1) := by
        simp
      rcases hready _ _ _ hsplit n hget m hm with h | h
      · exact ⟨h.1, .inl h.2⟩
      · obtain ⟨l, hl, hml⟩ := List.mem_flatten.mp h
        obtain ⟨j, hj, e⟩ := List.mem_iff_getElem.mp hl
        rw [List.length_take] at hj
        rw [List.getElem_take] at e
        refine ⟨?_, .inr ?_⟩
        · have : m ∈ levels.flatten := List.mem_flatten.mpr ⟨l, List.mem_of_mem_take hl, hml⟩
          exact (List.mem_filter.mp (hp.mem_iff.mp this)).1
        · have hle : (levels.findIdx fun l => decide (m ∈ l)) ≤ j := by
            refine Nat.le_of_not_lt fun hc => ?_
            have := List.not_of_lt_findIdx hc
            rw [e] at this
            simp [hml] at this
          show (levels.findIdx fun l => decide (m ∈ l)) < levels.findIdx fun l => decide (n ∈ l)
          omega

/-- **C35.**  The layering is as flat as possible: no valid layering puts a node earlier, so a node
starts as soon as its inputs allow. -/
theorem levels_minimal {serial : List ν} {isVar : ν → Bool} {deps : ν → List ν}
    (hs : serial.Nodup) {levels : List (List ν)}
    (h : buildRunNodes serial isVar deps = some levels) {rank : ν → Nat}
    (hr : ValidRank serial isVar deps rank) :
    ∀ (i : Nat) (l : List ν), levels[i]? = some l → ∀ n ∈ l, i ≤ rank n := by
  obtain ⟨hi, hall⟩ := (buildLoop_spec hs _ [] (by simp) (levelsInv_nil serial isVar deps)).1 levels h
  intro i
  induction i with
  | zero => intros; omega
  | succ i ih =>
    intro l hl n hn
    obtain ⟨hlt, e⟩ := List.getElem?_eq_some_iff.mp hl
    have hsplit : levels = levels.take i ++ levels[i] :: l :: levels.drop (i + 2) := by
      rw [← e]
      conv => lhs; rw [← List.take_append_drop i levels]
      rw [List.drop_eq_getElem_cons (by omega), List.drop_eq_getElem_cons (by omega)]
    obtain ⟨m, hm, hml⟩ := hi.tight _ _ _ _ hsplit n hn
    have h1 := ih levels[i] (List.getElem?_eq_getElem (by omega)) m hml
    have hnm : n ∈ levels.flatten := List.mem_flatten.mpr ⟨l, List.mem_of_getElem? hl, hn⟩
    have hmm : m ∈ levels.flatten := List.mem_flatten.mpr ⟨levels[i], List.getElem_mem _, hml⟩
    have := hr n (hi.sub n hnm).1 (hi.sub n hnm).2 m hm
    rcases this.2 with h | h
    · rw [(hi.sub m hmm).2] at h; cases h
    · omega

/-- Nodes 0 and 1 are variables; 2 and 3 use them, 4 uses 3 and 1, 5 uses 2 and 4. -/
def sixNodes : Nat → List Nat
  | 2 => [0, 1]
  | 3 => [1]
  | 4 => [3, 1]
  | 5 => [2, 4]
  | _ => []

example : buildRunNodes [0, 1, 2, 3, 4, 5] (fun n => decide (n < 2)) sixNodes =
    some [[2, 3], [4], [5]] := by decide +kernel

/-- A cycle is reported. -/
example : buildRunNodes [0, 1, 2] (fun n => decide (n = 0)) (fun n => if n = 1 then [2] else [0, 1]) =
    none := by decide +kernel

end Levels

end Verif.Session
