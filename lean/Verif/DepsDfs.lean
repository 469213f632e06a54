import Verif.Deps
import Mathlib.Tactic.ByContra

/-!
The depth-first search of `topodeps`: it ends, it lists exactly the nodes reachable
from the start, each once; dependencies come first when there are no cycles, and the
first dependency of a node comes first whenever it does not lead back to the node.
-/

namespace Verif.Deps

/-- `b` can be reached from `a` along the edges `E`. -/
inductive Reach (E : Nat → List Nat) : Nat → Nat → Prop
  | refl (a : Nat) : Reach E a a
  | tail {a b c : Nat} : Reach E a b → c ∈ E b → Reach E a c

theorem Reach.trans {E : Nat → List Nat} {a b c : Nat} (h1 : Reach E a b) (h2 : Reach E b c) :
    Reach E a c := by
  induction h2 with
  | refl => exact h1
  | tail _ he ih => exact ih.tail he

theorem Reach.edge {E : Nat → List Nat} {a b : Nat} (h : b ∈ E a) : Reach E a b :=
  (Reach.refl a).tail h

theorem foldlM_inv {α β : Type} (f : β → α → Option β) (I : β → Prop) :
    ∀ (l : List α) (s s' : β), (∀ s s' a, a ∈ l → I s → f s a = some s' → I s') → I s →
    l.foldlM f s = some s' → I s' := by
  intro l
  induction l with
  | nil =>
    intro s s' _ h0 h
    simp only [List.foldlM_nil, Option.pure_def, Option.some.injEq] at h
    exact h ▸ h0
  | cons a l ih =>
    intro s s' hstep h0 h
    rw [List.foldlM_cons] at h
    cases hf : f s a with
    | none => rw [hf] at h; simp at h
    | some s1 =>
      rw [hf] at h
      simp only [Option.bind_eq_bind, Option.bind_some] at h
      exact ih s1 s' (fun s s' b hb => hstep s s' b (List.mem_cons_of_mem _ hb))
        (hstep s s1 a List.mem_cons_self h0 hf) h

theorem foldlM_all {α β : Type} (f : β → α → Option β) (I : β → Prop) (Q : α → β → Prop)
    (l : List α) : ∀ (s s' : β),
    (∀ s s' a, a ∈ l → I s → f s a = some s' → I s' ∧ Q a s') →
    (∀ s s' a b, b ∈ l → I s → f s a = some s' → a ∈ l → Q b s → Q b s') → I s →
    l.foldlM f s = some s' → ∀ a ∈ l, Q a s' := by
  induction l with
  | nil => intro s s' _ _ _ _ a ha; simp at ha
  | cons a l ih =>
    intro s s' hstep hmono h0 h b hb
    rw [List.foldlM_cons] at h
    cases hf : f s a with
    | none => rw [hf] at h; simp at h
    | some s1 =>
      rw [hf] at h
      simp only [Option.bind_eq_bind, Option.bind_some] at h
      obtain ⟨hI, hQ⟩ := hstep s s1 a List.mem_cons_self h0 hf
      rcases List.mem_cons.mp hb with rfl | hb
      · have := foldlM_inv f (fun s => I s ∧ Q b s) l s1 s' (fun s s' c hc hs he =>
          ⟨(hstep s s' c (List.mem_cons_of_mem _ hc) hs.1 he).1,
            hmono s s' c b List.mem_cons_self hs.1 he (List.mem_cons_of_mem _ hc) hs.2⟩) ⟨hI, hQ⟩ h
        exact this.2
      · exact ih s1 s' (fun s s' c hc => hstep s s' c (List.mem_cons_of_mem _ hc))
          (fun s s' c d hd hs he hc => hmono s s' c d (List.mem_cons_of_mem _ hd) hs he
            (List.mem_cons_of_mem _ hc)) hI h b hb

/-- The edges between nodes. -/
def edges (deps : Nat → Option (List Nat)) (i : Nat) : List Nat := (deps i).getD []

section
variable (raw : Nat → Nat) (deps : Nat → Option (List Nat)) (n : Nat)

/-- The graph has the nodes `0, ..., n - 1`, with different objects. -/
structure Wf : Prop where
  inj : ∀ i j, i < n → j < n → raw i = raw j → i = j
  closed : ∀ i, i < n → ∀ j ∈ edges deps i, j < n

/-- What is true of the variables of `topodeps` at any time. -/
structure TInv (s : TSt) : Prop where
  vr : ∀ x, x ∈ s.vr ↔ ∃ j ∈ s.out, raw j = x
  lt : ∀ j ∈ s.out, j < n
  nd : s.out.Nodup

/-- What one call of `dfs_visit` does. -/
structure Post (i : Nat) (s s' : TSt) : Prop where
  inv : TInv raw n s'
  pre : ∃ new, s'.out = s.out ++ new
  vd : ∀ x ∈ s.vd, x ∈ s'.vd
  done : i ∈ s'.out
  full : ∀ u, u < n → raw u ∈ s'.vd → raw u ∉ s.vd → u ∈ s'.out ∧ ∀ j ∈ edges deps u, j ∈ s'.out
  marked : ∀ u ∈ s'.out, u ∉ s.out → raw u ∈ s'.vd ∨ edges deps u = []
  reach : ∀ u ∈ s'.out, u ∉ s.out → Reach (edges deps) i u

variable {raw deps n}

theorem Post.mem {i : Nat} {s s' : TSt} (h : Post raw deps n i s s') {u : Nat} (hu : u ∈ s.out) :
    u ∈ s'.out := by
  obtain ⟨new, e⟩ := h.pre
  rw [e]
  exact List.mem_append_left _ hu

/-- The same for a sequence of calls for dependencies of `i`. -/
structure Mid (i : Nat) (s s' : TSt) : Prop where
  inv : TInv raw n s'
  pre : ∃ new, s'.out = s.out ++ new
  vd : ∀ x ∈ s.vd, x ∈ s'.vd
  full : ∀ u, u < n → raw u ∈ s'.vd → raw u ∉ s.vd → u ∈ s'.out ∧ ∀ j ∈ edges deps u, j ∈ s'.out
  marked : ∀ u ∈ s'.out, u ∉ s.out → raw u ∈ s'.vd ∨ edges deps u = []
  reach : ∀ u ∈ s'.out, u ∉ s.out → Reach (edges deps) i u

theorem Mid.start {i : Nat} {s : TSt} (h : TInv raw n s) : Mid (raw := raw) (deps := deps) (n := n) i s s :=
  ⟨h, ⟨[], by simp⟩, fun _ hx => hx, fun _ _ h1 h2 => absurd h1 h2, fun _ h1 h2 => absurd h1 h2,
    fun _ h1 h2 => absurd h1 h2⟩

theorem Mid.step {i j : Nat} {s s1 s2 : TSt} (h1 : Mid (raw := raw) (deps := deps) (n := n) i s s1)
    (hj : j ∈ edges deps i) (h2 : Post raw deps n j s1 s2) :
    Mid (raw := raw) (deps := deps) (n := n) i s s2 := by
  refine ⟨h2.inv, ?_, fun x hx => h2.vd x (h1.vd x hx), ?_, ?_, ?_⟩
  · obtain ⟨a, ha⟩ := h1.pre
    obtain ⟨b, hb⟩ := h2.pre
    exact ⟨a ++ b, by rw [hb, ha, List.append_assoc]⟩
  · intro u hu hv hn
    by_cases hm : raw u ∈ s1.vd
    · obtain ⟨ha, hb⟩ := h1.full u hu hm hn
      exact ⟨h2.mem ha, fun j hj => h2.mem (hb j hj)⟩
    · exact h2.full u hu hv hm
  · intro u hu hn
    by_cases hm : u ∈ s1.out
    · rcases h1.marked u hm hn with h | h
      · exact Or.inl (h2.vd _ h)
      · exact Or.inr h
    · exact h2.marked u hu hm
  · intro u hu hn
    by_cases hm : u ∈ s1.out
    · exact h1.reach u hm hn
    · exact (Reach.edge hj).trans (h2.reach u hu hm)

/-- The last lines of `dfs_visit`. -/
def emit (raw : Nat → Nat) (i : Nat) (s : TSt) : TSt :=
  if raw i ∈ s.vr then s else { s with out := s.out ++ [i], vr := raw i :: s.vr }

theorem dfs_succ (raw : Nat → Nat) (deps : Nat → Option (List Nat)) (fuel i : Nat) (s : TSt) :
    dfs raw deps (fuel + 1) i s =
      (if edges deps i ≠ [] ∧ raw i ∉ s.vd then
        (edges deps i).foldlM (fun s j => dfs raw deps fuel j s) { s with vd := raw i :: s.vd }
      else some s).bind (fun s1 => some (emit raw i s1)) := by
  have hk : ∀ s1 : TSt, (if raw i ∈ s1.vr then some s1
      else some { s1 with out := s1.out ++ [i], vr := raw i :: s1.vr }) = some (emit raw i s1) := by
    intro s1; rw [emit]; split <;> rfl
  by_cases hc : edges deps i ≠ [] ∧ raw i ∉ s.vd
  · have hc' : (deps i).getD [] ≠ [] ∧ raw i ∉ s.vd := hc
    rw [if_pos hc, dfs]
    simp only [if_pos hc', hk, Option.bind_eq_bind]
    rfl
  · have hc' : ¬ ((deps i).getD [] ≠ [] ∧ raw i ∉ s.vd) := hc
    rw [if_neg hc, dfs]
    simp only [if_neg hc', hk, Option.bind_eq_bind]

theorem emit_vd (i : Nat) (s : TSt) : (emit raw i s).vd = s.vd := by
  rw [emit]; split <;> rfl

theorem emit_out (hw : Wf raw deps n) {i : Nat} (hi : i < n) {s : TSt} (h : TInv raw n s) :
    (i ∈ s.out ∧ emit raw i s = s) ∨
    (i ∉ s.out ∧ emit raw i s = { s with out := s.out ++ [i], vr := raw i :: s.vr }) := by
  rw [emit]
  by_cases hv : raw i ∈ s.vr
  · left
    rw [if_pos hv]
    obtain ⟨j, hj, e⟩ := (h.vr _).mp hv
    rw [hw.inj j i (h.lt j hj) hi e] at hj
    exact ⟨hj, rfl⟩
  · right
    rw [if_neg hv]
    exact ⟨fun hi => hv ((h.vr _).mpr ⟨i, hi, rfl⟩), rfl⟩

theorem emit_inv (hw : Wf raw deps n) {i : Nat} (hi : i < n) {s : TSt} (h : TInv raw n s) :
    TInv raw n (emit raw i s) := by
  rcases emit_out hw hi h with ⟨_, e⟩ | ⟨hn, e⟩
  · rw [e]; exact h
  · rw [e]
    refine ⟨?_, ?_, ?_⟩
    · intro x
      rw [List.mem_cons, h.vr]
      constructor
      · rintro (rfl | ⟨j, hj, e⟩)
        · exact ⟨i, by simp, rfl⟩
        · exact ⟨j, List.mem_append_left _ hj, e⟩
      · rintro ⟨j, hj, e⟩
        rcases List.mem_append.mp hj with h | h
        · exact Or.inr ⟨j, h, e⟩
        · rw [List.mem_singleton] at h
          exact Or.inl (by rw [← e, h])
    · intro j hj
      rcases List.mem_append.mp hj with h' | h'
      · exact h.lt j h'
      · rw [List.mem_singleton.mp h']; exact hi
    · rw [List.nodup_append]
      refine ⟨h.nd, by simp, ?_⟩
      intro a ha b hb e
      rw [List.mem_singleton] at hb
      exact hn (hb ▸ e ▸ ha)

theorem emit_mem (hw : Wf raw deps n) {i : Nat} (hi : i < n) {s : TSt} (h : TInv raw n s) (u : Nat) :
    u ∈ (emit raw i s).out ↔ u ∈ s.out ∨ u = i := by
  rcases emit_out hw hi h with ⟨hm, e⟩ | ⟨_, e⟩
  · rw [e]
    constructor
    · exact Or.inl
    · rintro (h | rfl)
      · exact h
      · exact hm
  · rw [e]; simp

theorem emit_prefix (hw : Wf raw deps n) {i : Nat} (hi : i < n) {s : TSt} (h : TInv raw n s) :
    ∃ new, (emit raw i s).out = s.out ++ new := by
  rcases emit_out hw hi h with ⟨_, e⟩ | ⟨_, e⟩
  · exact ⟨[], by rw [e]; simp⟩
  · exact ⟨[i], by rw [e]⟩

/-- What a call of `dfs_visit` does, if it ends within the bound. -/
theorem dfs_post (hw : Wf raw deps n) : ∀ (fuel i : Nat) (s s' : TSt), i < n → TInv raw n s →
    dfs raw deps fuel i s = some s' → Post raw deps n i s s' := by
  intro fuel
  induction fuel with
  | zero => intro i s s' _ _ h; rw [dfs] at h; simp at h
  | succ fuel ih =>
    intro i s s' hi hs h
    rw [dfs_succ] at h
    by_cases hc : edges deps i ≠ [] ∧ raw i ∉ s.vd
    · rw [if_pos hc] at h
      obtain ⟨s1, hf, h⟩ := Option.bind_eq_some_iff.mp h
      rw [Option.some.injEq] at h
      subst h
      have hstart : TInv raw n { s with vd := raw i :: s.vd } := ⟨hs.vr, hs.lt, hs.nd⟩
      have hmid : Mid (raw := raw) (deps := deps) (n := n) i { s with vd := raw i :: s.vd } s1 :=
        foldlM_inv _ (fun t => Mid (raw := raw) (deps := deps) (n := n) i
          { s with vd := raw i :: s.vd } t) _ _ _
          (fun t t' j hj ht he => ht.step hj
            (ih j t t' (hw.closed i hi j hj) ht.inv he)) (Mid.start hstart) hf
      have hall : ∀ j ∈ edges deps i, j ∈ s1.out :=
        foldlM_all _ (fun t => TInv raw n t) (fun j t => j ∈ t.out) _ _ _
          (fun t t' j hj ht he =>
            have := ih j t t' (hw.closed i hi j hj) ht he
            ⟨this.inv, this.done⟩)
          (fun t t' j k _ ht he hj hk => (ih j t t' (hw.closed i hi j hj) ht he).mem hk) hstart hf
      refine ⟨emit_inv hw hi hmid.inv, ?_, ?_, ?_, ?_, ?_, ?_⟩
      · obtain ⟨a, ha⟩ := hmid.pre
        obtain ⟨b, hb⟩ := emit_prefix hw hi hmid.inv
        exact ⟨a ++ b, by rw [hb, ha, List.append_assoc]⟩
      · intro x hx
        rw [emit_vd]
        exact hmid.vd x (List.mem_cons_of_mem _ hx)
      · exact (emit_mem hw hi hmid.inv i).mpr (Or.inr rfl)
      · intro u hu hv hn
        rw [emit_vd] at hv
        by_cases hui : u = i
        · subst hui
          exact ⟨(emit_mem hw hi hmid.inv u).mpr (Or.inr rfl),
            fun j hj => (emit_mem hw hi hmid.inv j).mpr (Or.inl (hall j hj))⟩
        · obtain ⟨ha, hb⟩ := hmid.full u hu hv (by
            intro hm
            rcases List.mem_cons.mp hm with h | h
            · exact hui (hw.inj u i hu hi h)
            · exact hn h)
          exact ⟨(emit_mem hw hi hmid.inv u).mpr (Or.inl ha),
            fun j hj => (emit_mem hw hi hmid.inv j).mpr (Or.inl (hb j hj))⟩
      · intro u hu hn
        rw [emit_vd]
        rcases (emit_mem hw hi hmid.inv u).mp hu with h | rfl
        · exact hmid.marked u h hn
        · exact Or.inl (hmid.vd _ List.mem_cons_self)
      · intro u hu hn
        rcases (emit_mem hw hi hmid.inv u).mp hu with h | rfl
        · exact hmid.reach u h hn
        · exact Reach.refl u
    · rw [if_neg hc, Option.bind_some, Option.some.injEq] at h
      subst h
      refine ⟨emit_inv hw hi hs, emit_prefix hw hi hs, ?_, ?_, ?_, ?_, ?_⟩
      · intro x hx; rw [emit_vd]; exact hx
      · exact (emit_mem hw hi hs i).mpr (Or.inr rfl)
      · intro u hu hv hn
        rw [emit_vd] at hv
        exact absurd hv hn
      · intro u hu hn
        rw [emit_vd]
        rcases (emit_mem hw hi hs u).mp hu with h | rfl
        · exact absurd h hn
        · by_cases hm : raw u ∈ s.vd
          · exact Or.inl hm
          · right
            by_contra hne
            exact hc ⟨hne, hm⟩
      · intro u hu hn
        rcases (emit_mem hw hi hs u).mp hu with h | rfl
        · exact absurd h hn
        · exact Reach.refl u

/-! ### The search ends -/

/-- How many nodes are not marked. -/
def unmarked (raw : Nat → Nat) (n : Nat) (vd : List Nat) : Nat :=
  (List.range n).countP (fun u => raw u ∉ vd)

theorem unmarked_le {vd vd' : List Nat} (h : ∀ x ∈ vd, x ∈ vd') :
    unmarked raw n vd' ≤ unmarked raw n vd := by
  refine List.countP_mono_left ?_
  intro u _ hu
  simp only [decide_eq_true_eq] at hu ⊢
  exact fun hm => hu (h _ hm)

theorem countP_lt {p q : Nat → Bool} : ∀ {l : List Nat} {i : Nat}, (∀ x ∈ l, p x = true → q x = true) →
    i ∈ l → q i = true → p i = false → l.countP p < l.countP q := by
  intro l
  induction l with
  | nil => intro i _ h; simp at h
  | cons a l ih =>
    intro i hpq hi hq hp
    have hle : l.countP p ≤ l.countP q :=
      List.countP_mono_left (fun x hx => hpq x (List.mem_cons_of_mem _ hx))
    rw [List.countP_cons, List.countP_cons]
    rcases List.mem_cons.mp hi with rfl | h
    · simp [hq, hp]; omega
    · have := ih (fun x hx => hpq x (List.mem_cons_of_mem _ hx)) h hq hp
      have ha := hpq a List.mem_cons_self
      cases hpa : p a with
      | true => rw [ha hpa]; simp; omega
      | false => simp; omega

theorem unmarked_lt {vd : List Nat} {i : Nat} (hi : i < n) (hn : raw i ∉ vd) :
    unmarked raw n (raw i :: vd) < unmarked raw n vd := by
  refine countP_lt (i := i) ?_ (List.mem_range.mpr hi) (by simpa using hn) (by simp)
  intro u _ hu
  simp only [decide_eq_true_eq] at hu ⊢
  exact fun hm => hu (List.mem_cons_of_mem _ hm)

theorem foldlM_total (hw : Wf raw deps n) (fuel i : Nat) (hi : i < n)
    (ih : ∀ (i : Nat) (s : TSt), i < n → TInv raw n s → unmarked raw n s.vd < fuel →
      ∃ s', dfs raw deps fuel i s = some s') :
    ∀ (l : List Nat) (s : TSt), (∀ j ∈ l, j ∈ edges deps i) → TInv raw n s →
    unmarked raw n s.vd < fuel → ∃ s', l.foldlM (fun s j => dfs raw deps fuel j s) s = some s' := by
  intro l
  induction l with
  | nil => intro s _ _ _; exact ⟨s, rfl⟩
  | cons j l ihl =>
    intro s hl hs hf
    have hj := hw.closed i hi j (hl j List.mem_cons_self)
    obtain ⟨s1, h1⟩ := ih j s hj hs hf
    have hp := dfs_post hw fuel j s s1 hj hs h1
    obtain ⟨s2, h2⟩ := ihl s1 (fun k hk => hl k (List.mem_cons_of_mem _ hk)) hp.inv
      (Nat.lt_of_le_of_lt (unmarked_le hp.vd) hf)
    exact ⟨s2, by rw [List.foldlM_cons, h1]; simpa using h2⟩

/-- The depth of the recursion is at most the number of unmarked nodes. -/
theorem dfs_total (hw : Wf raw deps n) : ∀ (fuel i : Nat) (s : TSt), i < n → TInv raw n s →
    unmarked raw n s.vd < fuel → ∃ s', dfs raw deps fuel i s = some s' := by
  intro fuel
  induction fuel with
  | zero => intro i s _ _ h; omega
  | succ fuel ih =>
    intro i s hi hs hf
    rw [dfs_succ]
    by_cases hc : edges deps i ≠ [] ∧ raw i ∉ s.vd
    · rw [if_pos hc]
      have hlt := unmarked_lt (raw := raw) hi hc.2
      obtain ⟨s1, h1⟩ := foldlM_total hw fuel i hi ih (edges deps i) { s with vd := raw i :: s.vd }
        (fun _ h => h) ⟨hs.vr, hs.lt, hs.nd⟩ (by simp only; omega)
      exact ⟨_, by rw [h1, Option.bind_some]⟩
    · rw [if_neg hc]
      exact ⟨_, by rw [Option.bind_some]⟩

/-! ### The order without cycles -/

/-- Everything listed comes after what it depends on. -/
def Sorted (E : Nat → List Nat) (out : List Nat) : Prop :=
  ∀ pre u post, out = pre ++ u :: post → ∀ j ∈ E u, j ∈ pre

/-- A position in `l ++ [i]` is one in `l` or the last one. -/
theorem append_singleton_split {l : List Nat} {i u : Nat} {pre post : List Nat}
    (h : l ++ [i] = pre ++ u :: post) :
    (pre = l ∧ u = i ∧ post = []) ∨ ∃ post', l = pre ++ u :: post' := by
  rcases List.eq_nil_or_concat post with rfl | ⟨post', x, rfl⟩
  · left
    have := List.append_inj' h rfl
    exact ⟨this.1.symm, by simpa using this.2.symm, rfl⟩
  · right
    refine ⟨post', ?_⟩
    have h' : l ++ [i] = (pre ++ u :: post') ++ [x] := by rw [h]; simp
    exact (List.append_inj' h' rfl).1

theorem Sorted.snoc {E : Nat → List Nat} {out : List Nat} {i : Nat} (h : Sorted E out)
    (hi : ∀ j ∈ E i, j ∈ out) : Sorted E (out ++ [i]) := by
  intro pre u post e j hj
  rcases append_singleton_split e with ⟨rfl, rfl, _⟩ | ⟨post', e⟩
  · exact hi j hj
  · exact h pre u post' e j hj

theorem dfs_sorted (hw : Wf raw deps n) (rank : Nat → Nat) (root : Nat)
    (hr : ∀ i, Reach (edges deps) root i → ∀ j ∈ edges deps i, rank j < rank i) :
    ∀ (fuel i : Nat) (s s' : TSt), i < n → Reach (edges deps) root i → TInv raw n s →
    Sorted (edges deps) s.out →
    (∀ u, u < n → raw u ∈ s.vd → u ∈ s.out ∨ rank i < rank u) →
    dfs raw deps fuel i s = some s' → Sorted (edges deps) s'.out := by
  intro fuel
  induction fuel with
  | zero => intro i s s' _ _ _ _ _ h; rw [dfs] at h; simp at h
  | succ fuel ih =>
    intro i s s' hi hroot hs hso hopen h
    rw [dfs_succ] at h
    by_cases hc : edges deps i ≠ [] ∧ raw i ∉ s.vd
    · rw [if_pos hc] at h
      obtain ⟨s1, hf, h⟩ := Option.bind_eq_some_iff.mp h
      rw [Option.some.injEq] at h
      subst h
      have hstart : TInv raw n { s with vd := raw i :: s.vd } := ⟨hs.vr, hs.lt, hs.nd⟩
      have hI := foldlM_inv _ (fun t => TInv raw n t ∧ Sorted (edges deps) t.out ∧
          ∀ u, u < n → raw u ∈ t.vd → u ∈ t.out ∨ rank i ≤ rank u) _ _ _
          (fun t t' j hj ht he => by
            have hjn := hw.closed i hi j hj
            have hlt := hr i hroot j hj
            have hp := dfs_post hw fuel j t t' hjn ht.1 he
            refine ⟨hp.inv, ih j t t' hjn (hroot.tail hj) ht.1 ht.2.1 ?_ he, ?_⟩
            · intro u hu hv
              rcases ht.2.2 u hu hv with h | h
              · exact Or.inl h
              · exact Or.inr (by omega)
            · intro u hu hv
              by_cases hm : raw u ∈ t.vd
              · rcases ht.2.2 u hu hm with h | h
                · exact Or.inl (hp.mem h)
                · exact Or.inr h
              · exact Or.inl (hp.full u hu hv hm).1)
          ⟨hstart, hso, by
            intro u hu hv
            rcases List.mem_cons.mp hv with h | h
            · exact Or.inr (Nat.le_of_eq (by rw [hw.inj u i hu hi h]))
            · rcases hopen u hu h with h | h
              · exact Or.inl h
              · exact Or.inr (by omega)⟩ hf
      have hall : ∀ j ∈ edges deps i, j ∈ s1.out :=
        foldlM_all _ (fun t => TInv raw n t) (fun j t => j ∈ t.out) _ _ _
          (fun t t' j hj ht he =>
            have := dfs_post hw fuel j t t' (hw.closed i hi j hj) ht he
            ⟨this.inv, this.done⟩)
          (fun t t' j k _ ht he hj hk =>
            (dfs_post hw fuel j t t' (hw.closed i hi j hj) ht he).mem hk) hstart hf
      rcases emit_out hw hi hI.1 with ⟨_, e⟩ | ⟨_, e⟩
      · rw [e]; exact hI.2.1
      · rw [e]; exact hI.2.1.snoc hall
    · rw [if_neg hc, Option.bind_some, Option.some.injEq] at h
      subst h
      rcases emit_out hw hi hs with ⟨_, e⟩ | ⟨hn, e⟩
      · rw [e]; exact hso
      · rw [e]
        refine hso.snoc ?_
        intro j hj
        by_cases hm : raw i ∈ s.vd
        · rcases hopen i hi hm with h | h
          · exact absurd h hn
          · omega
        · exact absurd ⟨List.ne_nil_of_mem hj, hm⟩ hc

/-! ### The first dependency -/

/-- The first dependency of everything listed comes before it, unless it leads back. -/
def FirstOk (E : Nat → List Nat) (out : List Nat) : Prop :=
  ∀ pre u post, out = pre ++ u :: post → ∀ v tl, E u = v :: tl → ¬ Reach E v u → v ∈ pre

theorem FirstOk.snoc {E : Nat → List Nat} {out : List Nat} {i : Nat} (h : FirstOk E out)
    (hi : ∀ v tl, E i = v :: tl → ¬ Reach E v i → v ∈ out) : FirstOk E (out ++ [i]) := by
  intro pre u post e v tl he hn
  rcases append_singleton_split e with ⟨rfl, rfl, _⟩ | ⟨post', e⟩
  · exact hi v tl he hn
  · exact h pre u post' e v tl he hn

theorem foldlM_first (hw : Wf raw deps n) (fuel i : Nat) (hi : i < n) (P : Nat → Prop)
    (hP : ∀ v, P v → Reach (edges deps) v i)
    (ih : ∀ (P : Nat → Prop) (j : Nat) (s s' : TSt), j < n → TInv raw n s →
      FirstOk (edges deps) s.out → (∀ v, P v → Reach (edges deps) v j) →
      (∀ u, u < n → raw u ∈ s.vd → ∀ v tl, edges deps u = v :: tl → v ∈ s.out ∨ P v) →
      dfs raw deps fuel j s = some s' → FirstOk (edges deps) s'.out) :
    ∀ (l : List Nat) (s s' : TSt), (∀ j ∈ l, j ∈ edges deps i) → TInv raw n s →
    FirstOk (edges deps) s.out →
    (∀ u, u < n → raw u ∈ s.vd → ∀ v tl, edges deps u = v :: tl →
      v ∈ s.out ∨ P v ∨ l.head? = some v) →
    l.foldlM (fun s j => dfs raw deps fuel j s) s = some s' →
    TInv raw n s' ∧ FirstOk (edges deps) s'.out := by
  intro l
  induction l with
  | nil =>
    intro s s' _ hs hso _ h
    simp only [List.foldlM_nil, Option.pure_def, Option.some.injEq] at h
    exact h ▸ ⟨hs, hso⟩
  | cons j l ihl =>
    intro s s' hl hs hso hopen h
    rw [List.foldlM_cons] at h
    simp only [Option.bind_eq_bind] at h
    obtain ⟨s1, h1, h2⟩ := Option.bind_eq_some_iff.mp h
    have hje := hl j List.mem_cons_self
    have hj := hw.closed i hi j hje
    have hp := dfs_post hw fuel j s s1 hj hs h1
    have hf1 := ih (fun v => P v ∨ v = j) j s s1 hj hs hso
      (fun v hv => by
        rcases hv with h | rfl
        · exact (hP v h).tail hje
        · exact Reach.refl v)
      (fun u hu hv v tl he => by
        rcases hopen u hu hv v tl he with h | h | h
        · exact Or.inl h
        · exact Or.inr (Or.inl h)
        · exact Or.inr (Or.inr (by simpa using h.symm))) h1
    refine ihl s1 s' (fun k hk => hl k (List.mem_cons_of_mem _ hk)) hp.inv hf1 ?_ h2
    intro u hu hv v tl he
    by_cases hm : raw u ∈ s.vd
    · rcases hopen u hu hm v tl he with h | h | h
      · exact Or.inl (hp.mem h)
      · exact Or.inr (Or.inl h)
      · have : v = j := by simpa using h.symm
        exact Or.inl (this ▸ hp.done)
    · exact Or.inl ((hp.full u hu hv hm).2 v (by rw [he]; exact List.mem_cons_self))

theorem dfs_first (hw : Wf raw deps n) :
    ∀ (fuel : Nat) (P : Nat → Prop) (i : Nat) (s s' : TSt), i < n → TInv raw n s →
    FirstOk (edges deps) s.out → (∀ v, P v → Reach (edges deps) v i) →
    (∀ u, u < n → raw u ∈ s.vd → ∀ v tl, edges deps u = v :: tl → v ∈ s.out ∨ P v) →
    dfs raw deps fuel i s = some s' → FirstOk (edges deps) s'.out := by
  intro fuel
  induction fuel with
  | zero => intro P i s s' _ _ _ _ _ h; rw [dfs] at h; simp at h
  | succ fuel ih =>
    intro P i s s' hi hs hso hP hopen h
    rw [dfs_succ] at h
    by_cases hc : edges deps i ≠ [] ∧ raw i ∉ s.vd
    · rw [if_pos hc] at h
      obtain ⟨s1, hf, h⟩ := Option.bind_eq_some_iff.mp h
      rw [Option.some.injEq] at h
      subst h
      have hstart : TInv raw n { s with vd := raw i :: s.vd } := ⟨hs.vr, hs.lt, hs.nd⟩
      obtain ⟨hi1, hf1⟩ := foldlM_first hw fuel i hi P hP (fun P j s s' => ih P j s s')
        (edges deps i) { s with vd := raw i :: s.vd } s1 (fun _ h => h) hstart hso
        (fun u hu hv v tl he => by
          rcases List.mem_cons.mp hv with h | h
          · have := hw.inj u i hu hi h
            subst this
            rw [he]
            exact Or.inr (Or.inr rfl)
          · rcases hopen u hu h v tl he with h | h
            · exact Or.inl h
            · exact Or.inr (Or.inl h)) hf
      have hall : ∀ j ∈ edges deps i, j ∈ s1.out :=
        foldlM_all _ (fun t => TInv raw n t) (fun j t => j ∈ t.out) _ _ _
          (fun t t' j hj ht he =>
            have := dfs_post hw fuel j t t' (hw.closed i hi j hj) ht he
            ⟨this.inv, this.done⟩)
          (fun t t' j k _ ht he hj hk =>
            (dfs_post hw fuel j t t' (hw.closed i hi j hj) ht he).mem hk) hstart hf
      rcases emit_out hw hi hi1 with ⟨_, e⟩ | ⟨_, e⟩
      · rw [e]; exact hf1
      · rw [e]
        exact hf1.snoc (fun v tl he _ => hall v (by rw [he]; exact List.mem_cons_self))
    · rw [if_neg hc, Option.bind_some, Option.some.injEq] at h
      subst h
      rcases emit_out hw hi hs with ⟨_, e⟩ | ⟨_, e⟩
      · rw [e]; exact hso
      · rw [e]
        refine hso.snoc ?_
        intro v tl he hn
        by_cases hm : raw i ∈ s.vd
        · rcases hopen i hi hm v tl he with h | h
          · exact h
          · exact absurd (hP v h) hn
        · exact absurd ⟨by rw [he]; simp, hm⟩ hc

/-! ### The whole search -/

theorem tinv_empty : TInv raw n {} := ⟨by simp, by simp, by simp⟩

theorem search_total (hw : Wf raw deps n) (hn : 0 < n) :
    ∃ t, dfs raw deps (n + 1) 0 {} = some t := by
  refine dfs_total hw (n + 1) 0 {} hn tinv_empty ?_
  have : unmarked raw n ({} : TSt).vd ≤ n := by
    rw [unmarked]
    exact Nat.le_trans List.countP_le_length (by simp)
  omega

/-- The search lists exactly what can be reached. -/
theorem search_mem (hw : Wf raw deps n) (hn : 0 < n) {fuel : Nat} {t : TSt}
    (h : dfs raw deps fuel 0 {} = some t) (u : Nat) : u ∈ t.out ↔ Reach (edges deps) 0 u := by
  have hp := dfs_post hw fuel 0 {} t hn tinv_empty h
  constructor
  · intro hu
    exact hp.reach u hu (by simp)
  · intro hr
    induction hr with
    | refl => exact hp.done
    | tail _ he ih =>
      rename_i b c _
      rcases hp.marked b ih (by simp) with hm | hm
      · exact (hp.full b (hp.inv.lt b ih) hm (by simp)).2 c he
      · rw [hm] at he; simp at he

end

end Verif.Deps
