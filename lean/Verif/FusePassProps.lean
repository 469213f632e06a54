import Verif.FuseWFProps

/-!
# The fusion pass terminates and keeps the values

Values are unique; the pass performs a sequence of fusion steps, raises no error
and ends, and the value of the node it starts from is the same before and after.
-/

namespace Verif.Fuse

variable {V : Type}

theorem Val.inv_ten {g : Graph V} {inp : Node → List Nat → V} {t : Node} {i : List Nat} {v : V}
    (h : Val g inp (.ten t i) v) :
    (t ∈ g.inputs ∧ v = inp t i) ∨
    (∃ e, .ew e ∈ g.ops ∧ e.out = t ∧ Val g inp (.sc e i e.subOut) v) ∨
    (∃ ins fn, ∃ vs : Node → List Nat → V, .opq ins t fn ∈ g.ops ∧
      (∀ k ∈ ins, ∀ j, Val g inp (.ten k j) (vs k j)) ∧ v = fn (ins.map vs) i) := by
  generalize hx : Site.ten t i = x at h
  cases h with
  | input h => cases hx; exact .inl ⟨h, rfl⟩
  | ew h h' => cases hx; exact .inr (.inl ⟨_, h, rfl, h'⟩)
  | opq vs h h' => cases hx; exact .inr (.inr ⟨_, _, vs, h, h', rfl⟩)
  | arg => cases hx
  | un => cases hx
  | bin => cases hx
  | copy => cases hx

theorem Val.inv_arg {g : Graph V} {inp : Node → List Nat → V} {e : EOp} {i : List Nat} {s : Node} {v : V}
    (h : Val g inp (.sc e i s) v) (hs : s ∈ vals e.subIn) :
    ∃ k, (k, s) ∈ e.subIn ∧ Val g inp (.ten k (right (g.rank k) i)) v := by
  cases h with
  | arg h h' => exact ⟨_, h, h'⟩
  | un h => exact absurd hs h
  | bin h => exact absurd hs h
  | copy h => exact absurd hs h

theorem Val.inv_un {g : Graph V} {inp : Node → List Nat → V} {e : EOp} {i : List Nat} {s x : Node} {o : Nat}
    {f : V → V} {v : V} (h : Val g inp (.sc e i s) v) (hs : s ∉ vals e.subIn) (ho : g.src s = [o])
    (hi : g.iop o = ⟨.un f, [x]⟩) : ∃ w, Val g inp (.sc e i x) w ∧ v = f w := by
  cases h with
  | arg h h' => exact absurd (mem_vals h) hs
  | un _ h2 h3 h4 =>
    rw [ho] at h2; cases h2; rw [hi] at h3; cases h3; exact ⟨_, h4, rfl⟩
  | bin _ h2 h3 => rw [ho] at h2; cases h2; rw [hi] at h3; cases h3
  | copy _ h2 h3 => rw [ho] at h2; cases h2; rw [hi] at h3; cases h3

theorem Val.inv_bin {g : Graph V} {inp : Node → List Nat → V} {e : EOp} {i : List Nat} {s x y : Node}
    {o : Nat} {f : V → V → V} {v : V} (h : Val g inp (.sc e i s) v) (hs : s ∉ vals e.subIn)
    (ho : g.src s = [o]) (hi : g.iop o = ⟨.bin f, [x, y]⟩) :
    ∃ w z, Val g inp (.sc e i x) w ∧ Val g inp (.sc e i y) z ∧ v = f w z := by
  cases h with
  | arg h h' => exact absurd (mem_vals h) hs
  | un _ h2 h3 h4 => rw [ho] at h2; cases h2; rw [hi] at h3; cases h3
  | bin _ h2 h3 h4 h5 => rw [ho] at h2; cases h2; rw [hi] at h3; cases h3; exact ⟨_, _, h4, h5, rfl⟩
  | copy _ h2 h3 => rw [ho] at h2; cases h2; rw [hi] at h3; cases h3

theorem Val.inv_copy {g : Graph V} {inp : Node → List Nat → V} {e : EOp} {i : List Nat} {s x : Node}
    {o : Nat} {l : List Node} {v : V} (h : Val g inp (.sc e i s) v) (hs : s ∉ vals e.subIn)
    (ho : g.src s = [o]) (hi : g.iop o = ⟨.copy x, l⟩) : Val g inp (.sc e i x) v := by
  cases h with
  | arg h h' => exact absurd (mem_vals h) hs
  | un _ h2 h3 h4 => rw [ho] at h2; cases h2; rw [hi] at h3; cases h3
  | bin _ h2 h3 h4 h5 => rw [ho] at h2; cases h2; rw [hi] at h3; cases h3
  | copy _ h2 h3 h4 => rw [ho] at h2; cases h2; rw [hi] at h3; cases h3; exact h4

/-- Places in operators of the graph. -/
def Site.In (g : Graph V) : Site → Prop
  | .ten _ _ => True
  | .sc e _ _ => .ew e ∈ g.ops

/-- A place has at most one value. -/
theorem Val.det {g : Graph V} (W : WF g) {inp : Node → List Nat → V} {x : Site} {v : V}
    (h : Val g inp x v) : x.In g → ∀ v', Val g inp x v' → v = v' := by
  induction h with
  | input h =>
    intro _ v' h'
    rcases h'.inv_ten with ⟨_, h'⟩ | ⟨e, h1, h2, _⟩ | ⟨ins, fn, vs, h1, _⟩
    · exact h'.symm
    · exact absurd h (h2 ▸ W.outIn _ h1)
    · exact absurd h (W.outIn _ h1)
  | @ew e0 i v hm _ ih =>
    intro _ v' h'
    rcases h'.inv_ten with ⟨h', _⟩ | ⟨e, h1, h2, h3⟩ | ⟨ins, fn, vs, h1, _⟩
    · exact absurd h' (W.outIn _ hm)
    · have : e = e0 := by injection out_inj W h1 hm h2
      subst this
      exact ih hm v' h3
    · cases out_inj W h1 hm rfl
  | @opq ins out fn i vs hm _ ih =>
    intro _ v' h'
    rcases h'.inv_ten with ⟨h', _⟩ | ⟨e, h1, h2, h3⟩ | ⟨ins', fn', vs', h1, h2, h3⟩
    · exact absurd h' (W.outIn _ hm)
    · cases out_inj W h1 hm h2
    · cases out_inj W h1 hm rfl
      rw [h3]
      congr 1
      apply List.map_congr_left
      intro k hk
      funext j
      exact ih k hk j trivial _ (h2 k hk j)
  | @arg e i k s v hm _ ih =>
    intro he v' h'
    obtain ⟨k', h1, h2⟩ := h'.inv_arg (mem_vals hm)
    have := val_unique (W.sub _ he).valsND hm h1
    subst this
    exact ih trivial v' h2
  | un hv ho hi _ ih =>
    intro he v' h'
    obtain ⟨w, h1, rfl⟩ := h'.inv_un hv ho hi
    rw [ih he w h1]
  | bin hv ho hi _ _ ih1 ih2 =>
    intro he v' h'
    obtain ⟨w, z, h1, h2, rfl⟩ := h'.inv_bin hv ho hi
    rw [ih1 he w h1, ih2 he z h2]
  | copy hv ho hi _ ih =>
    intro he v' h'
    exact ih he v' (h'.inv_copy hv ho hi)

/-! ### The pass -/

/-- The invariant of the pass. -/
structure PassInv (g : Graph V) : Prop where
  wf : WF g
  /-- operators read nodes made earlier -/
  ord : ∀ x ∈ g.ops, ∀ t ∈ x.ins, t < x.out
  closed : ∀ x ∈ g.ops, ∀ t ∈ x.ins, t ∈ g.inputs ∨ ∃ y ∈ g.ops, y.out = t
  /-- a written node is a scalar of a sub-graph only as a scalar input -/
  outNode : ∀ x ∈ g.ops, ∀ e, .ew e ∈ g.ops → x.out ∈ e.nodes → (x.out, x.out) ∈ e.subIn
  noSrc : ∀ x ∈ g.ops, g.src x.out = []

theorem Ctx.passInv {g g' : Graph V} {e1 e2 e' : EOp} {node : Node} (C : Ctx g g' e1 e2 e' node)
    (I : PassInv g) : PassInv g' := by
  have W := I.wf
  have ins' : ∀ t, t ∈ e'.inputs → t ∈ e1.inputs ∨ (t ∈ e2.inputs ∧ t ≠ e1.out) := by
    intro t ht
    rw [C.F.inputs, List.mem_dedup, List.mem_append, C.S2.inputsND.mem_erase_iff] at ht
    rcases ht with h | h
    · exact .inl h
    · exact .inr ⟨h.2, h.1⟩
  have o1 : ∀ t ∈ e1.inputs, t < e1.out := I.ord _ C.P.m1
  have o2 : ∀ t ∈ e2.inputs, t < e2.out := I.ord _ C.P.m2
  have o12 := o2 _ C.P.rd
  -- every operator of the new graph has the output of an old one
  have oldOut : ∀ x ∈ g'.ops, ∃ y ∈ g.ops, y.out = x.out ∧ y.out ≠ e1.out := by
    intro x hx
    rcases C.ofOps hx with ⟨a, b, c⟩ | h
    · exact ⟨x, a, rfl, b⟩
    · subst h
      exact ⟨.ew e2, C.P.m2, C.F.out.symm, C.P.ne.symm⟩
  constructor
  case wf => exact C.wf
  case ord =>
    intro x hx t ht
    rcases C.ofOps hx with ⟨a, b, c⟩ | h
    · exact I.ord x a t ht
    · subst h
      show t < e'.out
      rw [C.F.out]
      rcases ins' t ht with h | h
      · exact Nat.lt_trans (o1 t h) o12
      · exact o2 t h.1
  case closed =>
    have key : ∀ t, t ≠ e1.out → (t ∈ g.inputs ∨ ∃ y ∈ g.ops, y.out = t) →
        t ∈ g'.inputs ∨ ∃ y ∈ g'.ops, y.out = t := by
      rintro t ht (h | ⟨y, hy, rfl⟩)
      · exact .inl (C.F.gin ▸ h)
      · right
        by_cases h2 : y.out = e2.out
        · exact ⟨_, C.e'Mem, C.F.out.trans h2.symm⟩
        · exact ⟨y, C.opsKeep hy ht h2, rfl⟩
    intro x hx t ht
    rcases C.ofOps hx with ⟨a, b, c⟩ | h
    · refine key t ?_ (I.closed x a t ht)
      rintro rfl
      exact c (C.readT1 a ht)
    · subst h
      rcases ins' t ht with h | h
      · exact key t (Nat.ne_of_lt (o1 t h)) (I.closed _ C.P.m1 t h)
      · exact key t h.2 (I.closed _ C.P.m2 t h.1)
  case outNode =>
    intro x hx e he h
    obtain ⟨y, hy, hyx, _⟩ := oldOut x hx
    rw [← hyx] at h ⊢
    rcases C.ofOps he with ⟨a, b, c⟩ | h'
    · exact I.outNode y hy e a h
    · injection h' with h'
      subst h'
      rcases C.ofNode' h with h1 | ⟨h2, _⟩
      · exact C.mem1 (I.outNode y hy e1 C.P.m1 h1)
      · exact C.self2 (I.outNode y hy e2 C.P.m2 h2)
  case noSrc =>
    intro x hx
    obtain ⟨y, hy, hyx, _⟩ := oldOut x hx
    rw [← hyx, C.F.src y.out, I.noSrc y hy]
    intro k v1 h2 hne h1
    have hs := I.outNode y hy e2 C.P.m2 (C.S2.argNode _ _ h2)
    have hk := val_unique C.S2.valsND h2 hs
    subst hk
    exact C.P.ne (W.single _ C.P.m1 _ C.P.m2 y.out ((C.S1.inputs _).2 (mem_keys h1))
      ((C.S2.inputs _).2 (mem_keys h2)) (W.outIn y hy))

/-- `g'` is `g` after fusion steps that keep the nodes from `b` on. -/
structure Keeps (b : Node) (g g' : Graph V) : Prop where
  gin : g'.inputs = g.inputs
  rank : g'.rank = g.rank
  len : g'.ops.length ≤ g.ops.length
  val : ∀ (inp : Node → List Nat → V) t i v, b ≤ t →
    (Val g inp (.ten t i) v ↔ Val g' inp (.ten t i) v)
  /-- a written node from `b` on stays written -/
  written : ∀ x ∈ g.ops, b ≤ x.out → ∃ y ∈ g'.ops, y.out = x.out
  writtenOld : ∀ y ∈ g'.ops, ∃ x ∈ g.ops, x.out = y.out

theorem Keeps.refl (b : Node) (g : Graph V) : Keeps b g g :=
  ⟨rfl, rfl, Nat.le_refl _, fun _ _ _ _ _ => Iff.rfl, fun x hx _ => ⟨x, hx, rfl⟩, fun y hy => ⟨y, hy, rfl⟩⟩

theorem Keeps.trans {b : Node} {g g' g'' : Graph V} (h : Keeps b g g') (h' : Keeps b g' g'') :
    Keeps b g g'' :=
  ⟨h'.gin.trans h.gin, h'.rank.trans h.rank, Nat.le_trans h'.len h.len,
    fun inp t i v ht => (h.val inp t i v ht).trans (h'.val inp t i v ht),
    fun x hx hb => by
      obtain ⟨y, hy, e⟩ := h.written x hx hb
      obtain ⟨z, hz, e'⟩ := h'.written y hy (e ▸ hb)
      exact ⟨z, hz, e'.trans e⟩,
    fun z hz => by
      obtain ⟨y, hy, e⟩ := h'.writtenOld z hz
      obtain ⟨x, hx, e'⟩ := h.writtenOld y hy
      exact ⟨x, hx, e'.trans e⟩⟩

theorem Keeps.mono {b b' : Node} {g g' : Graph V} (h : Keeps b g g') (hb : b ≤ b') : Keeps b' g g' :=
  ⟨h.gin, h.rank, h.len, fun inp t i v ht => h.val inp t i v (Nat.le_trans hb ht),
    fun x hx hx' => h.written x hx (Nat.le_trans hb hx'), h.writtenOld⟩

/-- Filtering out two members of a list without duplicate keys. -/
theorem filter_two_lt {α : Type} (f : α → Nat) (l : List α) (h : (l.map f).Nodup) (a b : α) (ha : a ∈ l)
    (hb : b ∈ l) (hab : f a ≠ f b) :
    (l.filter (fun x => f x ≠ f a ∧ f x ≠ f b)).length + 2 ≤ l.length := by
  induction l with
  | nil => cases ha
  | cons x l ih =>
    have hnd : f x ∉ l.map f ∧ (l.map f).Nodup := List.nodup_cons.1 h
    have one : ∀ c d, c ∈ l → f x = f d →
        (l.filter (fun y => f y ≠ f c ∧ f y ≠ f d)).length + 1 ≤ l.length := by
      intro c d hc hd
      have : (l.filter (fun y => f y ≠ f c ∧ f y ≠ f d)).length < l.length := by
        rw [List.length_filter_lt_length_iff_exists]
        exact ⟨c, hc, by simp⟩
      omega
    by_cases hx : f x = f a
    · have hb' : b ∈ l := by
        rcases List.mem_cons.1 hb with e | h
        · subst e; exact absurd hx.symm hab
        · exact h
      rw [List.filter_cons_of_neg (by simp [hx])]
      have := one b a hb' hx
      have e : l.filter (fun y => f y ≠ f a ∧ f y ≠ f b) = l.filter (fun y => f y ≠ f b ∧ f y ≠ f a) :=
        List.filter_congr (fun y _ => by simp only [and_comm])
      rw [e, List.length_cons]
      omega
    · have ha' : a ∈ l := by
        rcases List.mem_cons.1 ha with e | h
        · subst e; exact absurd rfl hx
        · exact h
      by_cases hx' : f x = f b
      · rw [List.filter_cons_of_neg (by simp [hx'])]
        have := one a b ha' hx'
        rw [List.length_cons]
        omega
      · have hb' : b ∈ l := by
          rcases List.mem_cons.1 hb with e | h
          · subst e; exact absurd rfl hx'
          · exact h
        rw [List.filter_cons_of_pos (by simp [hx, hx'])]
        have := ih hnd.2 ha' hb'
        simp only [List.length_cons]
        omega

/-- One fusion step of the pass. -/
theorem fuse_step {g : Graph V} {e1 e2 : EOp} (I : PassInv g) (m1 : .ew e1 ∈ g.ops) (m2 : .ew e2 ∈ g.ops)
    (rd : e1.out ∈ e2.inputs) :
    ∃ g', fuse g e1 e2 = some g' ∧ PassInv g' ∧ Keeps e2.out g g' ∧ g'.ops.length < g.ops.length := by
  have lt : e1.out < e2.out := I.ord _ m2 _ rd
  have P : Pair g e1 e2 := ⟨I.wf, m1, m2, Nat.ne_of_lt lt, rd⟩
  obtain ⟨g', e', node, h, F⟩ := fuse_spec P
  have C : Ctx g g' e1 e2 e' node := ⟨P, F⟩
  have hlen : g'.ops.length < g.ops.length := by
    have := filter_two_lt GOp.out g.ops I.wf.outs _ _ m1 m2 P.ne
    rw [F.ops, List.length_append]
    have e : (g.ops.filter (fun o => o.out ≠ e1.out ∧ o.out ≠ e2.out)).length + 2 ≤ g.ops.length := this
    rw [List.length_singleton]
    omega
  refine ⟨g', h, C.passInv I, ⟨F.gin, F.rank, Nat.le_of_lt hlen, ?_, ?_, ?_⟩, hlen⟩
  · intro inp t i v ht
    have ht : t ≠ e1.out := Nat.ne_of_gt (Nat.lt_of_lt_of_le lt ht)
    exact ⟨fun hv => (C.forward hv).1 ht, fun hv => C.backward hv ht⟩
  · intro x hx hb
    have h1 : x.out ≠ e1.out := Nat.ne_of_gt (Nat.lt_of_lt_of_le lt hb)
    by_cases h2 : x.out = e2.out
    · exact ⟨_, C.e'Mem, F.out.trans h2.symm⟩
    · exact ⟨x, C.opsKeep hx h1 h2, rfl⟩
  · intro y hy
    rcases C.ofOps hy with ⟨a, _⟩ | h
    · exact ⟨y, a, rfl⟩
    · subst h; exact ⟨_, m2, F.out.symm⟩

theorem writers_eq {g : Graph V} (W : WF g) {x : GOp V} (hx : x ∈ g.ops) : g.writers x.out = [x] := by
  have hnd : (g.writers x.out).Nodup := (List.Nodup.of_map _ W.outs).filter _
  have hm : x ∈ g.writers x.out := List.mem_filter.2 ⟨hx, by simp⟩
  have hall : ∀ y ∈ g.writers x.out, y = x := by
    intro y hy
    have := List.mem_filter.1 hy
    exact out_inj W this.1 hx (by simpa using this.2)
  match hw : g.writers x.out with
  | [] => rw [hw] at hm; cases hm
  | [y] => rw [hw] at hall; rw [hall y (by simp)]
  | y :: z :: l =>
    rw [hw] at hall hnd
    have h1 := hall y (by simp)
    have h2 := hall z (by simp)
    subst h1
    subst h2
    simp at hnd

theorem checkSrc_eq {g : Graph V} (I : PassInv g) {x : GOp V} (hx : x ∈ g.ops) :
    g.checkSrc x.out = some x := by
  unfold Graph.checkSrc
  rw [writers_eq I.wf hx, I.noSrc x hx]

theorem checkSrc_mem {g : Graph V} {t : Node} {x : GOp V} (h : g.checkSrc t = some x) :
    x ∈ g.ops ∧ x.out = t := by
  unfold Graph.checkSrc at h
  split at h
  · rename_i o h1 h2
    cases h
    have : x ∈ g.writers t := by rw [h1]; exact List.mem_singleton.2 rfl
    have := List.mem_filter.1 this
    exact ⟨this.1, by simpa using this.2⟩
  · cases h

/-- What `tryFuse` does. -/
theorem tryFuse_spec {g : Graph V} {e1 e2 : EOp} (I : PassInv g) (m1 : .ew e1 ∈ g.ops)
    (m2 : .ew e2 ∈ g.ops) (rd : e1.out ∈ e2.inputs) :
    tryFuse g e1 e2 e1.out = some none ∨
    ∃ g', tryFuse g e1 e2 e1.out = some (some g') ∧ PassInv g' ∧ Keeps e2.out g g' ∧
      g'.ops.length < g.ops.length := by
  obtain ⟨g', h, a, b, c⟩ := fuse_step I m1 m2 rd
  unfold tryFuse
  split
  · right
    exact ⟨g', by rw [h]; rfl, a, b, c⟩
  · exact .inl rfl

theorem helper_spec {g : Graph V} {e : EOp} (I : PassInv g) (m : .ew e ∈ g.ops) (l : List Node)
    (hl : ∀ t ∈ l, t ∈ e.inputs) :
    (∃ q, helper g e l = some (none, q) ∧ ∀ t ∈ q, t < e.out) ∨
    ∃ g' q, helper g e l = some (some g', q) ∧ PassInv g' ∧ Keeps e.out g g' ∧
      g'.ops.length < g.ops.length ∧ ∀ t ∈ q, t < e.out := by
  induction l with
  | nil => exact .inl ⟨[], rfl, by simp⟩
  | cons t l ih =>
    have ih := ih (fun t ht => hl t (List.mem_cons_of_mem _ ht))
    have ht := hl t List.mem_cons_self
    have lt : t < e.out := I.ord _ m t ht
    have push : ((∃ q, (helper g e l).map (fun r => (r.1, t :: r.2)) = some (none, q) ∧ ∀ t ∈ q, t < e.out) ∨
        ∃ g' q, (helper g e l).map (fun r => (r.1, t :: r.2)) = some (some g', q) ∧ PassInv g' ∧
          Keeps e.out g g' ∧ g'.ops.length < g.ops.length ∧ ∀ t ∈ q, t < e.out) := by
      rcases ih with ⟨q, h1, h2⟩ | ⟨g', q, h1, h2, h3, h4, h5⟩
      · refine .inl ⟨t :: q, by rw [h1]; rfl, ?_⟩
        intro x hx
        rcases List.mem_cons.1 hx with e | h
        · subst e; exact lt
        · exact h2 x h
      · refine .inr ⟨g', t :: q, by rw [h1]; rfl, h2, h3, h4, ?_⟩
        intro x hx
        rcases List.mem_cons.1 hx with e | h
        · subst e; exact lt
        · exact h5 x h
    simp only [helper]
    by_cases hin : t ∈ g.inputs
    · rw [if_pos hin]; exact ih
    · rw [if_neg hin]
      rcases I.closed _ m t ht with h | ⟨x, hx, rfl⟩
      · exact absurd h hin
      · rw [checkSrc_eq I hx]
        cases x with
        | opq ins out fn => exact push
        | ew e1 =>
          dsimp only [GOp.out] at *
          rcases tryFuse_spec I hx m ht with h | ⟨g', h, a, b, c⟩
          · rw [h]; exact push
          · rw [h]
            exact .inr ⟨g', [], rfl, a, b, c, by simp⟩

/-- The iteration order of Python's sets: some list of the members. -/
def IsOrder (order : List Node → List Node) : Prop := ∀ l x, x ∈ order l → x ∈ l

theorem fuseAll_spec {order : List Node → List Node} (ho : IsOrder order) (n : Nat) {g : Graph V}
    (I : PassInv g) (hn : g.ops.length < n) {x : GOp V} (hx : x ∈ g.ops) (q : List Node)
    (hq : ∀ t ∈ q, t < x.out) :
    ∃ g' q', fuseAll order n g x.out q = some (g', q') ∧ PassInv g' ∧ Keeps x.out g g' ∧
      ∀ t ∈ q', t < x.out := by
  induction n generalizing g x q with
  | zero => omega
  | succ n ih =>
    simp only [fuseAll]
    rw [checkSrc_eq I hx]
    cases x with
    | opq ins out fn => exact ⟨g, ins, rfl, I, Keeps.refl _ _, I.ord _ hx⟩
    | ew e =>
      dsimp only
      rcases helper_spec I hx (order e.inputs) (ho _) with ⟨q', h1, h2⟩ | ⟨g', q', h1, h2, h3, h4, h5⟩
      · rw [h1]
        refine ⟨g, q ++ q', rfl, I, Keeps.refl _ _, ?_⟩
        intro t ht
        rcases List.mem_append.1 ht with h | h
        · exact hq t h
        · exact h2 t h
      · rw [h1]
        dsimp only
        obtain ⟨y, hy, hye⟩ := h3.written _ hx (Nat.le_refl _)
        have hq' : ∀ t ∈ q ++ q', t < y.out := by
          intro t ht
          rw [hye]
          rcases List.mem_append.1 ht with h | h
          · exact hq t h
          · exact h5 t h
        obtain ⟨g'', q'', a, b, c, d⟩ := ih h2 (by omega) hy (q ++ q') hq'
        rw [hye] at a c d
        exact ⟨g'', q'', a, b, h3.trans c, d⟩

theorem writers_nonempty {g : Graph V} {t : Node} (h : ¬(g.writers t).isEmpty) :
    ∃ x ∈ g.ops, x.out = t := by
  match hw : g.writers t with
  | [] => rw [hw] at h; simp at h
  | x :: l =>
    have : x ∈ g.writers t := by rw [hw]; exact List.mem_cons_self
    have := List.mem_filter.1 this
    exact ⟨x, this.1, by simpa using this.2⟩

/-- Nodes up to `b` not visited yet. -/
def todo (b : Node) (visited : List Node) : Nat := (List.range (b + 1)).countP (fun t => t ∉ visited)

theorem todo_lt {b t : Node} {visited : List Node} (ht : t ≤ b) (hv : t ∉ visited) :
    todo b (t :: visited) < todo b visited := by
  unfold todo
  have hm : t ∈ List.range (b + 1) := List.mem_range.2 (Nat.lt_succ_of_le ht)
  have e : (List.range (b + 1)).countP (fun x => x ∉ visited) =
      (List.range (b + 1)).countP (fun x => x ∉ t :: visited) +
      (List.range (b + 1)).countP (fun x => x = t) := by
    generalize List.range (b + 1) = l
    induction l with
    | nil => rfl
    | cons y l ih =>
      simp only [List.countP_cons, ih]
      by_cases h : y = t
      · subst h; simp [hv]; omega
      · by_cases h' : y ∈ visited <;> simp [h, h']
        omega
  have : 0 < (List.range (b + 1)).countP (fun x => x = t) :=
    List.countP_pos_iff.2 ⟨t, hm, by simp⟩
  omega

/-- The pass ends without an error. -/
theorem visit_total {order : List Node → List Node} (ho : IsOrder order) (b m k : Nat) :
    ∀ (g : Graph V) (visited l : List Node), PassInv g → todo b visited ≤ m → l.length ≤ k →
      (∀ t ∈ l, t ≤ b) → ∃ n g', visit order n g visited l = some g' := by
  induction m generalizing k with
  | zero =>
    induction k with
    | zero =>
      intro g visited l _ _ hk _
      have : l = [] := List.length_eq_zero_iff.1 (by omega)
      subst this
      exact ⟨0, g, rfl⟩
    | succ k ih =>
      intro g visited l I hm hk hb
      match l with
      | [] => exact ⟨0, g, rfl⟩
      | t :: l =>
        obtain ⟨n, g', h⟩ := ih g visited l I hm (by simp at hk; omega)
          (fun t ht => hb t (List.mem_cons_of_mem _ ht))
        refine ⟨n + 1, g', ?_⟩
        simp only [visit]
        have : t ∈ visited := by
          by_contra hv
          have := todo_lt (hb t List.mem_cons_self) hv
          omega
        rw [if_pos (.inl this), h]
  | succ m ihm =>
    induction k with
    | zero =>
      intro g visited l _ _ hk _
      have : l = [] := List.length_eq_zero_iff.1 (by omega)
      subst this
      exact ⟨0, g, rfl⟩
    | succ k ih =>
      intro g visited l I hm hk hb
      match l with
      | [] => exact ⟨0, g, rfl⟩
      | t :: l =>
        have hbl : ∀ t ∈ l, t ≤ b := fun t ht => hb t (List.mem_cons_of_mem _ ht)
        by_cases hc : t ∈ visited ∨ t ∈ g.inputs ∨ (g.writers t).isEmpty
        · obtain ⟨n, g', h⟩ := ih g visited l I hm (by simp at hk; omega) hbl
          exact ⟨n + 1, g', by simp only [visit]; rw [if_pos hc, h]⟩
        · have hc' : t ∉ visited ∧ ¬(g.writers t).isEmpty := ⟨fun h => hc (.inl h), fun h => hc (.inr (.inr h))⟩
          obtain ⟨x, hx, hxt⟩ := writers_nonempty hc'.2
          have htb := hb t List.mem_cons_self
          obtain ⟨g1, q, h1, h2, h3, h4⟩ := fuseAll_spec ho (g.ops.length + 1) I (by omega) hx []
            (fun _ h => by cases h)
          rw [hxt] at h1 h4
          have hlt := todo_lt htb hc'.1
          obtain ⟨n, g', h⟩ := ihm (q ++ l).length g1 (t :: visited) (q ++ l) h2 (by omega) (Nat.le_refl _)
            (by
              intro y hy
              rcases List.mem_append.1 hy with h | h
              · exact Nat.le_trans (Nat.le_of_lt (h4 y h)) htb
              · exact hbl y h)
          refine ⟨n + 1, g', ?_⟩
          simp only [visit]
          rw [if_neg hc, h1]
          exact h

/-- The pass keeps the values of the nodes from `b` on, when it starts from nodes
up to `b`. -/
theorem visit_keeps {order : List Node → List Node} (ho : IsOrder order) (b n : Nat) {g g' : Graph V}
    {visited l : List Node} (I : PassInv g) (hb : ∀ t ∈ l, t ≤ b)
    (h : visit order n g visited l = some g') : PassInv g' ∧ Keeps b g g' := by
  induction n generalizing g visited l with
  | zero =>
    cases l with
    | nil => cases h; exact ⟨I, Keeps.refl _ _⟩
    | cons t l => cases h
  | succ n ih =>
    cases l with
    | nil => cases h; exact ⟨I, Keeps.refl _ _⟩
    | cons t l =>
      have hbl : ∀ t ∈ l, t ≤ b := fun t ht => hb t (List.mem_cons_of_mem _ ht)
      simp only [visit] at h
      by_cases hc : t ∈ visited ∨ t ∈ g.inputs ∨ (g.writers t).isEmpty
      · rw [if_pos hc] at h
        exact ih I hbl h
      · rw [if_neg hc] at h
        have hc' : ¬(g.writers t).isEmpty := fun h => hc (.inr (.inr h))
        obtain ⟨x, hx, hxt⟩ := writers_nonempty hc'
        have htb := hb t List.mem_cons_self
        obtain ⟨g1, q, h1, h2, h3, h4⟩ := fuseAll_spec ho (g.ops.length + 1) I (by omega) hx []
          (fun _ h => by cases h)
        rw [hxt] at h1 h4 h3
        rw [h1] at h
        have := ih (l := q ++ l) h2 (by
          intro y hy
          rcases List.mem_append.1 hy with h | h
          · exact Nat.le_trans (Nat.le_of_lt (h4 y h)) htb
          · exact hbl y h) h
        exact ⟨this.1, (h3.mono htb).trans this.2⟩

end Verif.Fuse
