import Verif.CedarPlaceProps
/-
The chains of siblings: the children of a node in the order of their labels, and the loops that
follow them.
-/
namespace Verif.Cedar

/-- `d` is the element after `c`, or 0 after the last. -/
def Next (Q : Nat → Prop) (c d : Nat) : Prop :=
  (d = 0 ∧ ∀ k, Q k → k ≤ c) ∨ (c < d ∧ Q d ∧ ∀ k, Q k → k ≤ c ∨ d ≤ k)

def First (Q : Nat → Prop) (c : Nat) : Prop := Q c ∧ ∀ k, Q k → c ≤ k

/-- The siblings of the slots below `b` link the labels of `Q`. -/
structure Chain (ni : Nat → NInfo) (b : Int) (Q : Nat → Prop) : Prop where
  lt : ∀ c, Q c → c < 256
  sib : ∀ c, Q c → Next Q c (ni (slot b c)).sibling

variable {s : St} {b : Int} {Q : Nat → Prop}

theorem labels_spec (h : Chain s.ni b Q) : ∀ (fuel c : Nat), Q c → c ≠ 0 → 256 - c < fuel →
    ∃ l, labels s b fuel c = some l ∧ l.Pairwise (· < ·) ∧ ∀ k, k ∈ l ↔ Q k ∧ c ≤ k
  | 0, c, _, _, hf => by omega
  | fuel + 1, c, hc, h0, hf => by
    have hlt := h.lt c hc
    unfold labels
    rw [if_neg h0]
    rcases h.sib c hc with ⟨h1, h2⟩ | ⟨h1, h2, h3⟩
    · rw [h1]
      obtain ⟨f, rfl⟩ : ∃ f, fuel = f + 1 := ⟨fuel - 1, by omega⟩
      refine ⟨[c], by simp [labels], by simp, ?_⟩
      intro k
      simp only [List.mem_singleton]
      constructor
      · rintro rfl; exact ⟨hc, Nat.le_refl _⟩
      · rintro ⟨h4, h5⟩; have := h2 k h4; omega
    · obtain ⟨l, e1, e2, e3⟩ := labels_spec h fuel _ h2 (by omega) (by omega)
      rw [e1]
      refine ⟨c :: l, rfl, List.pairwise_cons.mpr ⟨?_, e2⟩, ?_⟩
      · intro k hk; have := ((e3 k).mp hk).2; omega
      · intro k
        rw [List.mem_cons, e3]
        constructor
        · rintro (rfl | ⟨h4, h5⟩)
          · exact ⟨hc, Nat.le_refl _⟩
          · exact ⟨h4, by omega⟩
        · rintro ⟨h4, h5⟩
          rcases h3 k h4 with h6 | h6
          · exact Or.inl (by omega)
          · exact Or.inr ⟨h4, h6⟩

/-- The labels after the first 0, if there is one. -/
theorem setChildren_aux (h : Chain s.ni b Q) {c : Nat} (hc : First Q c) :
    ∃ l, labels s b 257 (if c = 0 then (s.ni (slot b 0)).sibling else c) = some l ∧
      l.Pairwise (· < ·) ∧ ∀ k, k ∈ l ↔ Q k ∧ k ≠ 0 := by
  have hlt := h.lt c hc.1
  by_cases h0 : c = 0
  · rw [if_pos h0]
    subst h0
    rcases h.sib 0 hc.1 with ⟨h1, h2⟩ | ⟨h1, h2, h3⟩
    · rw [h1]
      refine ⟨[], by simp [labels], by simp, ?_⟩
      intro k
      simp only [List.not_mem_nil, false_iff]
      rintro ⟨h3, h4⟩; have := h2 k h3; omega
    · obtain ⟨l, e1, e2, e3⟩ := labels_spec h 257 _ h2 (by omega) (by omega)
      refine ⟨l, e1, e2, ?_⟩
      intro k
      rw [e3]
      constructor
      · rintro ⟨h4, h5⟩; exact ⟨h4, by omega⟩
      · rintro ⟨h4, h5⟩
        rcases h3 k h4 with h6 | h6
        · omega
        · exact ⟨h4, h6⟩
  · rw [if_neg h0]
    obtain ⟨l, e1, e2, e3⟩ := labels_spec h 257 _ hc.1 h0 (by omega)
    refine ⟨l, e1, e2, ?_⟩
    intro k
    rw [e3]
    constructor
    · rintro ⟨h4, h5⟩; exact ⟨h4, by omega⟩
    · rintro ⟨h4, h5⟩; exact ⟨h4, hc.2 k h4⟩

theorem setChildren_spec (h : Chain s.ni b Q) {c : Nat} (hc : First Q c) :
    ∃ l, setChildren s b c none = some l ∧ l.Pairwise (· < ·) ∧ ∀ k, k ∈ l ↔ Q k := by
  obtain ⟨l, e1, e2, e3⟩ := setChildren_aux h hc
  unfold setChildren
  dsimp only
  rw [e1]
  refine ⟨_, rfl, ?_, ?_⟩
  · split
    · rw [List.cons_append, List.nil_append, List.pairwise_cons]
      exact ⟨fun k hk => by have := ((e3 k).mp hk).2; omega, e2⟩
    · simpa using e2
  · intro k
    split
    · rename_i h0
      rw [h0] at hc
      simp only [List.cons_append, List.nil_append, List.mem_cons, e3]
      constructor
      · rintro (rfl | ⟨h1, _⟩)
        · exact hc.1
        · exact h1
      · intro h1
        by_cases hk : k = 0
        · exact Or.inl hk
        · exact Or.inr ⟨h1, hk⟩
    · rename_i h0
      simp only [List.nil_append, e3]
      refine ⟨fun h => h.1, fun h => ⟨h, ?_⟩⟩
      have := hc.2 k h; omega

theorem pairwise_insert {l : List Nat} {x : Nat} (h : l.Pairwise (· < ·)) (hx : x ∉ l) :
    (l.takeWhile (· < x) ++ x :: l.dropWhile (· < x)).Pairwise (· < ·) := by
  induction l with
  | nil => simp
  | cons a l ih =>
    have h' := List.pairwise_cons.mp h
    simp only [List.mem_cons, not_or] at hx
    by_cases ha : a < x
    · simp only [List.takeWhile_cons, List.dropWhile_cons, ha, decide_true, if_true, List.cons_append,
        List.pairwise_cons]
      refine ⟨?_, ih h'.2 hx.2⟩
      intro k hk
      simp only [List.mem_append, List.mem_cons] at hk
      rcases hk with hk | hk | hk
      · exact h'.1 k ((List.takeWhile_sublist _).subset hk)
      · omega
      · exact h'.1 k ((List.dropWhile_sublist _).subset hk)
    · simp only [List.takeWhile_cons, List.dropWhile_cons, ha, decide_false, Bool.false_eq_true, if_false,
        List.nil_append, List.pairwise_cons]
      refine ⟨?_, h'⟩
      intro k hk
      rcases List.mem_cons.mp hk with rfl | hk
      · omega
      · have := h'.1 k hk; omega

theorem mem_insert {l : List Nat} {x k : Nat} :
    k ∈ l.takeWhile (· < x) ++ x :: l.dropWhile (· < x) ↔ k ∈ l ∨ k = x := by
  have : l.takeWhile (· < x) ++ l.dropWhile (· < x) = l := List.takeWhile_append_dropWhile
  conv => rhs; rw [← this]
  simp only [List.mem_append, List.mem_cons]
  tauto

theorem setChildren_insert (h : Chain s.ni b Q) {c x : Nat} (hc : First Q c) (hx : ¬ Q x) :
    ∃ l, setChildren s b c (some x) = some l ∧ l.Pairwise (· < ·) ∧ ∀ k, k ∈ l ↔ Q k ∨ k = x := by
  obtain ⟨l, e1, e2, e3⟩ := setChildren_aux h hc
  unfold setChildren
  dsimp only
  rw [e1]
  have hxl : x ∉ l := fun c => hx ((e3 x).mp c).1
  refine ⟨_, rfl, ?_, ?_⟩
  · split
    · rename_i h0
      rw [h0] at hc
      have hx0 : x ≠ 0 := by rintro rfl; exact hx hc.1
      rw [List.append_assoc, List.cons_append, List.nil_append, List.pairwise_cons]
      refine ⟨?_, pairwise_insert e2 hxl⟩
      intro k hk
      rcases mem_insert.mp hk with hk | hk
      · have := ((e3 k).mp hk).2; omega
      · omega
    · simpa using pairwise_insert e2 hxl
  · intro k
    rw [List.append_assoc, List.mem_append, mem_insert, e3]
    split
    · rename_i h0
      rw [h0] at hc
      simp only [List.mem_singleton]
      constructor
      · rintro (rfl | ⟨h1, _⟩ | h1)
        · exact Or.inl hc.1
        · exact Or.inl h1
        · exact Or.inr h1
      · rintro (h1 | h1)
        · by_cases hk : k = 0
          · exact Or.inl hk
          · exact Or.inr (Or.inl ⟨h1, hk⟩)
        · exact Or.inr (Or.inr h1)
    · rename_i h0
      simp only [List.not_mem_nil, false_or]
      constructor
      · rintro (⟨h1, _⟩ | h1)
        · exact Or.inl h1
        · exact Or.inr h1
      · rintro (h1 | h1)
        · exact Or.inl ⟨h1, by have := hc.2 k h1; omega⟩
        · exact Or.inr h1

theorem consult_spec {b' : Int} {Q' : Nat → Prop} (h : Chain s.ni b Q) (h' : Chain s.ni b' Q') :
    ∀ (fuel c c' : Nat), Q c → Q' c' → 256 - c < fuel → ∃ r, consult s b b' fuel c c' = some r
  | 0, c, c', _, _, hf => by omega
  | fuel + 1, c, c', hc, hc', hf => by
    have hlt := h.lt c hc
    unfold consult
    dsimp only
    split
    · rename_i h1
      rcases h.sib c hc with ⟨h2, _⟩ | ⟨h2, h3, _⟩
      · exact absurd h2 h1.1
      · rcases h'.sib c' hc' with ⟨h2', _⟩ | ⟨h2', h3', _⟩
        · exact absurd h2' h1.2
        · exact consult_spec h h' fuel _ _ h3 h3' (by omega)
    · exact ⟨_, rfl⟩

theorem sibWalk_spec (h : Chain s.ni b Q) {x : Nat} : ∀ (fuel c : Nat), Q c → c < x → 256 - c < fuel →
    ∃ c', sibWalk s b x fuel c = some (slot b c') ∧ Q c' ∧ c' < x ∧
      ((s.ni (slot b c')).sibling = 0 ∨ x ≤ (s.ni (slot b c')).sibling)
  | 0, c, _, _, hf => by omega
  | fuel + 1, c, hc, hcx, hf => by
    have hlt := h.lt c hc
    unfold sibWalk
    dsimp only
    split
    · rename_i h1
      rcases h.sib c hc with ⟨h2, _⟩ | ⟨h2, h3, _⟩
      · exact absurd h2 h1.1
      · exact sibWalk_spec h fuel _ h3 h1.2 (by omega)
    · rename_i h1
      exact ⟨c, rfl, hc, hcx, by omega⟩

/-- What `adopt` does. -/
structure Adopted (s s' : St) (b : Int) (dst : Nat) (P : Nat → Prop) : Prop where
  ni : s'.ni = s.ni
  blk : s'.blk = s.blk
  head : s'.head = s.head
  size : s'.size = s.size
  base : ∀ m, (s'.arr m).base = (s.arr m).base
  new : ∀ d, P d → (s'.arr (slot b d)).check = dst
  other : ∀ m, (∀ d, P d → m ≠ slot b d) → s'.arr m = s.arr m

theorem slot_inj {b : Int} {c d : Nat} (h : slot b c = slot b d) : c = d := by
  unfold slot at h
  have := congrArg (b.toNat ^^^ ·) h
  simpa [← Nat.xor_assoc] using this

theorem adopt_spec {dst : Nat} : ∀ (fuel : Nat) (s : St) (c : Nat), Chain s.ni b Q → Q c → 256 - c < fuel →
    ∃ s', adopt b dst fuel s c = some s' ∧ Adopted s s' b dst (fun d => Q d ∧ c ≤ d)
  | 0, s, c, _, _, hf => by omega
  | fuel + 1, s, c, h, hc, hf => by
    have hlt := h.lt c hc
    unfold adopt
    dsimp only
    have one : Adopted s (s.setCheck (slot b c) dst) b dst (fun d => d = c) := by
      refine ⟨rfl, rfl, rfl, rfl, ?_, ?_, ?_⟩
      · intro m; simp only [St.setCheck, upd_apply]; split <;> simp_all
      · rintro d rfl; simp [St.setCheck]
      · intro m hm; simp only [St.setCheck]; rw [upd_ne _ _ (hm c rfl)]
    have hni : (s.setCheck (slot b c) dst).ni = s.ni := rfl
    rw [hni]
    rcases h.sib c hc with ⟨h2, h3⟩ | ⟨h2, h3, h4⟩
    · rw [if_neg (by omega)]
      refine ⟨_, rfl, one.1, one.2, one.3, one.4, one.5, ?_, ?_⟩
      · rintro d ⟨h5, h6⟩; exact one.6 d (by have := h3 d h5; omega)
      · intro m hm; exact one.7 m (fun d hd => hm d ⟨hd ▸ hc, by omega⟩)
    · rw [if_pos (by omega)]
      obtain ⟨s', e1, e2⟩ := adopt_spec (dst := dst) fuel (s.setCheck (slot b c) dst) _ h h3 (by omega)
      refine ⟨s', e1, e2.1, e2.2, e2.3, e2.4, ?_, ?_, ?_⟩
      · intro m; rw [e2.5, one.5]
      · rintro d ⟨h5, h6⟩
        rcases h4 d h5 with h7 | h7
        · have : d = c := by omega
          rw [e2.7, one.6 d this]
          rintro d' ⟨_, h8⟩ h9
          have := slot_inj h9
          omega
        · exact e2.6 d ⟨h5, h7⟩
      · intro m hm
        rw [e2.7 m (fun d hd => hm d ⟨hd.1, by omega⟩), one.7 m (fun d hd => hm d ⟨hd ▸ hc, by omega⟩)]

/-! Inserting a label. -/

theorem First.insert {c x : Nat} (h : First Q c) (hx : ¬ Q x) :
    First (fun k => Q k ∨ k = x) (if c < x then c else x) := by
  have hne : c ≠ x := by rintro rfl; exact hx h.1
  split
  · exact ⟨Or.inl h.1, by rintro k (hk | rfl); exact h.2 k hk; omega⟩
  · exact ⟨Or.inr rfl, by rintro k (hk | rfl); have := h.2 k hk; omega; omega⟩

/-- The successor of an element other than the one before the new label. -/
theorem Next.insert {c d x : Nat} (h : Next Q c d) (hx : x < c ∨ (d ≠ 0 ∧ d < x)) :
    Next (fun k => Q k ∨ k = x) c d := by
  rcases h with ⟨h1, h2⟩ | ⟨h1, h2, h3⟩
  · exact Or.inl ⟨h1, by rintro k (hk | rfl); exact h2 k hk; omega⟩
  · exact Or.inr ⟨h1, Or.inl h2, by rintro k (hk | rfl); exact h3 k hk; omega⟩

theorem Next.before {c d x : Nat} (h : Next Q c d) (hc : c < x) (hd : d = 0 ∨ x ≤ d) :
    Next (fun k => Q k ∨ k = x) c x := by
  refine Or.inr ⟨hc, Or.inr rfl, ?_⟩
  rintro k (hk | rfl)
  · rcases h with ⟨h1, h2⟩ | ⟨h1, h2, h3⟩
    · exact Or.inl (h2 k hk)
    · have := h3 k hk; omega
  · omega

theorem Next.after {c d x : Nat} (h : Next Q c d) (hq : ¬ Q x) (hc : c < x) (hd : d = 0 ∨ x ≤ d) :
    Next (fun k => Q k ∨ k = x) x d := by
  rcases h with ⟨h1, h2⟩ | ⟨h1, h2, h3⟩
  · exact Or.inl ⟨h1, by rintro k (hk | rfl); have := h2 k hk; omega; omega⟩
  · have : d ≠ x := by rintro rfl; exact hq h2
    exact Or.inr ⟨by omega, Or.inl h2, by rintro k (hk | rfl); have := h3 k hk; omega; omega⟩

theorem First.after {c x : Nat} (h : First Q c) (hx : x < c) : Next (fun k => Q k ∨ k = x) x c :=
  Or.inr ⟨hx, Or.inl h.1, by rintro k (hk | rfl); exact Or.inr (h.2 k hk); omega⟩

/-- The successors in the chain after inserting `x` behind `c'`. -/
theorem Next.others {c d c' d' x : Nat} (h : Next Q c d) (h' : Next Q c' d') (hc : Q c) (hc' : Q c')
    (hne : c ≠ c') (hq : ¬ Q x) (hcx : c' < x) (hdx : d' = 0 ∨ x ≤ d') :
    Next (fun k => Q k ∨ k = x) c d := by
  apply h.insert
  have hcx' : c ≠ x := by rintro rfl; exact hq hc
  by_cases hlt : c' < c
  · rcases h' with ⟨h1, h2⟩ | ⟨h1, h2, h3⟩
    · have := h2 c hc; omega
    · have := h3 c hc; omega
  · rcases h with ⟨h1, h2⟩ | ⟨h1, h2, h3⟩
    · have := h2 c' hc'; omega
    · have := h3 c' hc'; omega

/-- The rest of a sorted list of all labels. -/
theorem next_of_sorted {dn l : List Nat} {c : Nat} (h : (dn ++ c :: l).Pairwise (· < ·))
    (hm : ∀ k, k ∈ dn ++ c :: l ↔ Q k) : Next Q c (l.headD 0) := by
  rw [List.pairwise_append, List.pairwise_cons] at h
  obtain ⟨h1, ⟨h2, h3⟩, h4⟩ := h
  cases l with
  | nil =>
    refine Or.inl ⟨rfl, ?_⟩
    intro k hk
    rcases List.mem_append.mp ((hm k).mpr hk) with h | h
    · have := h4 k h c (by simp); omega
    · simp at h; omega
  | cons d l =>
    refine Or.inr ⟨h2 d (by simp), (hm d).mp (by simp), ?_⟩
    intro k hk
    rcases List.mem_append.mp ((hm k).mpr hk) with h | h
    · have := h4 k h c (by simp); omega
    · rcases List.mem_cons.mp h with h | h
      · omega
      · rcases List.mem_cons.mp h with h | h
        · exact Or.inr (by simp [h])
        · have := (List.pairwise_cons.mp h3).1 k h
          exact Or.inr (by simp; omega)

/-- What `pushSibling` does to the chain `Q` of the node `src`. -/
structure Pushed (s s' : St) (src : Nat) (b : Int) (Q : Nat → Prop) (x : Nat) : Prop where
  arr : s'.arr = s.arr
  blk : s'.blk = s.blk
  head : s'.head = s.head
  size : s'.size = s.size
  first : First (fun k => Q k ∨ k = x) (s'.ni src).child
  child : ∀ m, m ≠ src → (s'.ni m).child = (s.ni m).child
  sib : ∀ d, (Q d ∨ d = x) → Next (fun k => Q k ∨ k = x) d (s'.ni (slot b d)).sibling
  other : ∀ m, (∀ d, (Q d ∨ d = x) → m ≠ slot b d) → (s'.ni m).sibling = (s.ni m).sibling

theorem sibling_setSibling (s : St) (i x m : Nat) :
    ((s.setSibling i x).ni m).sibling = if m = i then x else (s.ni m).sibling := by
  simp only [St.setSibling, upd_apply]; split <;> simp_all
theorem child_setSibling (s : St) (i x m : Nat) :
    ((s.setSibling i x).ni m).child = (s.ni m).child := by
  simp only [St.setSibling, upd_apply]; split <;> simp_all
theorem child_setChild (s : St) (i x m : Nat) :
    ((s.setChild i x).ni m).child = if m = i then x else (s.ni m).child := by
  simp only [St.setChild, upd_apply]; split <;> simp_all
theorem sibling_setChild (s : St) (i x m : Nat) :
    ((s.setChild i x).ni m).sibling = (s.ni m).sibling := by
  simp only [St.setChild, upd_apply]; split <;> simp_all

theorem pushSibling_spec {src x : Nat} (h : Chain s.ni b Q) (hf : First Q (s.ni src).child)
    (hx : ¬ Q x) : ∃ s', pushSibling s src b x true = some s' ∧ Pushed s s' src b Q x := by
  unfold pushSibling
  dsimp only
  have hne : (s.ni src).child ≠ x := fun e => hx (e ▸ hf.1)
  by_cases hlt : (s.ni src).child < x
  · rw [if_pos ⟨rfl, hlt⟩]
    obtain ⟨c, e1, e2, e3, e4⟩ := sibWalk_spec (x := x) h 257 _ hf.1 hlt (by omega)
    rw [e1]
    have hcx : slot b x ≠ slot b c := fun e => by have := slot_inj e; omega
    refine ⟨_, rfl, rfl, rfl, rfl, rfl, ?_, ?_, ?_, ?_⟩
    · rw [child_setSibling, child_setSibling]
      have := hf.insert hx
      rwa [if_pos hlt] at this
    · intro m _; rw [child_setSibling, child_setSibling]
    · intro d hd
      rw [sibling_setSibling, sibling_setSibling]
      by_cases hdc : d = c
      · rw [if_pos (by rw [hdc]), hdc]
        exact (h.sib c e2).before e3 e4
      · rw [if_neg (fun e => hdc (slot_inj e))]
        by_cases hdx : d = x
        · rw [if_pos (by rw [hdx]), hdx]
          exact (h.sib c e2).after hx e3 e4
        · rw [if_neg (fun e => hdx (slot_inj e))]
          have hd' := hd.resolve_right hdx
          exact (h.sib d hd').others (h.sib c e2) hd' e2 hdc hx e3 e4
    · intro m hm
      rw [sibling_setSibling, sibling_setSibling, if_neg (hm c (Or.inl e2)), if_neg (hm x (Or.inr rfl))]
  · rw [if_neg (fun c => hlt c.2)]
    refine ⟨_, rfl, rfl, rfl, rfl, rfl, ?_, ?_, ?_, ?_⟩
    · rw [child_setChild, if_pos rfl]
      have := hf.insert hx
      rwa [if_neg hlt] at this
    · intro m hm; rw [child_setChild, if_neg hm, child_setSibling]
    · intro d hd
      rw [sibling_setChild, sibling_setSibling]
      by_cases hdx : d = x
      · rw [if_pos (by rw [hdx]), hdx]
        exact hf.after (by omega)
      · rw [if_neg (fun e => hdx (slot_inj e))]
        have hd' := hd.resolve_right hdx
        exact (h.sib d hd').insert (Or.inl (by have := hf.2 d hd'; omega))
    · intro m hm
      rw [sibling_setChild, sibling_setSibling, if_neg (hm x (Or.inr rfl))]

end Verif.Cedar
