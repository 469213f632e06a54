import Verif.FuseStepProps

/-!
# One fusion step keeps the values

Consequences of `Fused` for the scalars of the two operators and of the others,
and the two directions of the proof.
-/

namespace Verif.Fuse

variable {V : Type}

theorem Sub.unIn {g : Graph V} {e : EOp} (S : Sub g e) {s x : Node} {o : Nat} {f : V → V}
    (h1 : s ∈ e.nodes) (h2 : s ∉ vals e.subIn) (h3 : g.src s = [o]) (h4 : g.iop o = ⟨.un f, [x]⟩) :
    x ∈ e.nodes := by
  obtain ⟨o', a1, a2, a3⟩ := S.src s h1 h2
  rw [h3] at a1
  cases a1
  rcases a3 with ⟨h, hx, _⟩ | ⟨h, _⟩ | ⟨h, _⟩
  · rw [h4] at h; cases h; exact hx
  · rw [h4] at h; cases h
  · rw [h4] at h; cases h

theorem Sub.binIn {g : Graph V} {e : EOp} (S : Sub g e) {s x y : Node} {o : Nat} {f : V → V → V}
    (h1 : s ∈ e.nodes) (h2 : s ∉ vals e.subIn) (h3 : g.src s = [o]) (h4 : g.iop o = ⟨.bin f, [x, y]⟩) :
    x ∈ e.nodes ∧ y ∈ e.nodes := by
  obtain ⟨o', a1, a2, a3⟩ := S.src s h1 h2
  rw [h3] at a1
  cases a1
  rcases a3 with ⟨h, _⟩ | ⟨h, _, hx, hy, _⟩ | ⟨h, _⟩
  · rw [h4] at h; cases h
  · rw [h4] at h; cases h; exact ⟨hx, hy⟩
  · rw [h4] at h; cases h

theorem Sub.copyIn {g : Graph V} {e : EOp} (S : Sub g e) {s x : Node} {o : Nat} {l : List Node}
    (h1 : s ∈ e.nodes) (h2 : s ∉ vals e.subIn) (h3 : g.src s = [o]) (h4 : g.iop o = ⟨.copy x, l⟩) :
    x ∈ e.nodes := by
  obtain ⟨o', a1, a2, a3⟩ := S.src s h1 h2
  rw [h3] at a1
  cases a1
  rcases a3 with ⟨h, _⟩ | ⟨h, _⟩ | ⟨h, hx, _⟩
  · rw [h4] at h; cases h
  · rw [h4] at h; cases h
  · rw [h4] at h; cases h; exact hx

theorem Sub.dstLt {g : Graph V} {e : EOp} (S : Sub g e) {s : Node} (h1 : s ∈ e.nodes)
    (h2 : (s, s) ∉ e.subIn) : ∀ o ∈ g.dst s, o < g.nIop := by
  intro o ho
  obtain ⟨s', a1, a2, a3, _⟩ := S.dst s h1 h2 o ho
  obtain ⟨o', b1, b2, _⟩ := S.src s' a1 a2
  rw [a3] at b1
  cases b1
  exact b2

theorem out_inj {g : Graph V} (W : WF g) {x y : GOp V} (hx : x ∈ g.ops) (hy : y ∈ g.ops)
    (h : x.out = y.out) : x = y := List.inj_on_of_nodup_map W.outs hx hy h

/-- A pair and the result of fusing it. -/
structure Ctx (g g' : Graph V) (e1 e2 e' : EOp) (node : Node) : Prop where
  P : Pair g e1 e2
  F : Fused g g' e1 e2 e' node

/-- Another operator. -/
structure Other (g : Graph V) (e1 e2 e : EOp) : Prop where
  mem : .ew e ∈ g.ops
  ne1 : e.out ≠ e1.out
  ne2 : e.out ≠ e2.out

/-- The renaming. -/
def ren (node s1 s : Node) : Node := if s = node then s1 else s

namespace Ctx

variable {g g' : Graph V} {e1 e2 e' : EOp} {node : Node}

theorem S1 (C : Ctx g g' e1 e2 e' node) : Sub g e1 := C.P.wf.sub _ C.P.m1
theorem S2 (C : Ctx g g' e1 e2 e' node) : Sub g e2 := C.P.wf.sub _ C.P.m2

theorem disj12 (C : Ctx g g' e1 e2 e' node) {s : Node} (h1 : s ∈ e1.nodes) (h2 : s ∈ e2.nodes) :
    (s, s) ∈ e1.subIn ∧ (s, s) ∈ e2.subIn := C.P.wf.disj _ _ C.P.m1 C.P.m2 C.P.ne s h1 h2

theorem t1Pos (C : Ctx g g' e1 e2 e' node) : 0 < g.rank e1.out := C.S1.rankOut

theorem t1In (C : Ctx g g' e1 e2 e' node) : e1.out ∉ g.inputs := C.P.wf.outIn _ C.P.m1

theorem selfRank {g : Graph V} {e : EOp} (S : Sub g e) {s : Node} (h : (s, s) ∈ e.subIn) :
    g.rank s = 0 := by
  rcases S.arg _ _ h with h | ⟨_, _, _, h⟩
  · exact h.2
  · exact absurd rfl h

theorem readT1 (C : Ctx g g' e1 e2 e' node) {x : GOp V} (hx : x ∈ g.ops) (h : e1.out ∈ x.ins) :
    x.out = e2.out := C.P.wf.single _ hx _ C.P.m2 _ h C.P.rd C.t1In

/-- The keys of other operators differ from the fused tensor. -/
theorem keyNe (C : Ctx g g' e1 e2 e' node) {e : EOp} (he : .ew e ∈ g.ops) (hne : e.out ≠ e2.out)
    {k s : Node} (h : (k, s) ∈ e.subIn) : k ≠ e1.out := by
  rintro rfl
  exact hne (C.readT1 he (((C.P.wf.sub _ he).inputs _).2 (mem_keys h)))

theorem mem1 (C : Ctx g g' e1 e2 e' node) {p : Node × Node} (h : p ∈ e1.subIn) : p ∈ e'.subIn := by
  rw [C.F.subIn]; exact List.mem_append_left _ h

theorem mem2 (C : Ctx g g' e1 e2 e' node) {k s : Node} (h : (k, s) ∈ e2.subIn) (h1 : k ≠ e1.out)
    (h2 : k ∉ keys e1.subIn) : (k, s) ∈ e'.subIn := by
  rw [C.F.subIn]
  exact List.mem_append_right _ (List.mem_filter.2 ⟨h, by simp [h1, h2]⟩)

theorem ofMem (C : Ctx g g' e1 e2 e' node) {k s : Node} (h : (k, s) ∈ e'.subIn) :
    (k, s) ∈ e1.subIn ∨ ((k, s) ∈ e2.subIn ∧ k ≠ e1.out ∧ k ∉ keys e1.subIn) := by
  rw [C.F.subIn] at h
  rcases List.mem_append.1 h with h | h
  · exact .inl h
  · have h := List.mem_filter.1 h
    exact .inr ⟨h.1, by simpa using h.2⟩

theorem valsE' (C : Ctx g g' e1 e2 e' node) {s : Node} (h : s ∈ vals e'.subIn) :
    s ∈ vals e1.subIn ∨ s ∈ vals e2.subIn := by
  obtain ⟨k, hk⟩ := of_mem_vals h
  rcases C.ofMem hk with h | h
  · exact .inl (mem_vals h)
  · exact .inr (mem_vals h.1)

theorem nodeFacts (C : Ctx g g' e1 e2 e' node) :
    node ∈ e2.nodes ∧ g.src node = [] ∧ e2.nodes.count node = 1 ∧ (node, node) ∉ e2.subIn ∧
      node ∉ e1.nodes ∧ (g.dst node).Nodup ∧ (∀ o ∈ g.dst node, o < g.nIop) ∧
      ∀ o ∈ g.dst node, node ∈ (g.iop o).inputs := C.P.node_facts C.F.nodeIn

theorem nodeVal (C : Ctx g g' e1 e2 e' node) : node ∈ vals e2.subIn := mem_vals C.F.nodeIn

theorem nodeKey (C : Ctx g g' e1 e2 e' node) {k : Node} (h : (k, node) ∈ e2.subIn) : k = e1.out :=
  val_unique C.S2.valsND h C.F.nodeIn

theorem valNode (C : Ctx g g' e1 e2 e' node) {s : Node} (h : (e1.out, s) ∈ e2.subIn) : s = node :=
  key_unique C.S2.keysND h C.F.nodeIn

/-- A scalar of another operator is a scalar of one of the two only as a scalar
input. -/
theorem otherNode (C : Ctx g g' e1 e2 e' node) {e : EOp} (O : Other g e1 e2 e) {s : Node}
    (h : s ∈ e.nodes) (h' : s ∈ e1.nodes ∨ s ∈ e2.nodes) : (s, s) ∈ e.subIn := by
  rcases h' with h' | h'
  · exact (C.P.wf.disj _ _ O.mem C.P.m1 O.ne1 s h h').1
  · exact (C.P.wf.disj _ _ O.mem C.P.m2 O.ne2 s h h').1

/-- An operator that reads `node` computes a scalar of the second operator. -/
theorem dstNode (C : Ctx g g' e1 e2 e' node) {o : Nat} (h : o ∈ g.dst node) :
    ∃ s' ∈ e2.nodes, s' ∉ vals e2.subIn ∧ g.src s' = [o] := by
  obtain ⟨n1, _, _, n4, _⟩ := C.nodeFacts
  obtain ⟨s', a1, a2, a3, _⟩ := C.S2.dst _ n1 n4 o h
  exact ⟨s', a1, a2, a3⟩

theorem keep (C : Ctx g g' e1 e2 e' node) {e : EOp} (he : .ew e ∈ g.ops) (hne : e.out ≠ e2.out)
    {s : Node} (hs : s ∈ e.nodes) (hv : s ∉ vals e.subIn) :
    g'.src s = g.src s ∧ ∀ o, g.src s = [o] → g'.iop o = g.iop o := by
  have h2 : s ∉ e2.nodes := fun h => hv (mem_vals (C.P.wf.disj _ _ he C.P.m2 hne s hs h).1)
  refine ⟨C.F.src s (fun k v1 h => absurd (C.S2.argNode _ _ h) h2), fun o ho => ?_⟩
  have hlt : o < g.nIop := by
    obtain ⟨o', a1, a2, _⟩ := (C.P.wf.sub _ he).src s hs hv
    rw [ho] at a1; cases a1; exact a2
  refine C.F.iop o hlt (fun hd => ?_)
  obtain ⟨s', a1, a2, a3⟩ := C.dstNode hd
  have := C.P.wf.own _ _ he C.P.m2 s s' o hs hv a1 a2 ho a3
  subst this
  exact h2 a1

theorem out1 (C : Ctx g g' e1 e2 e' node) {s : Node} (hs : s ∈ e1.nodes) (hv : s ∉ vals e1.subIn) :
    s ∉ vals e'.subIn := by
  intro h
  rcases C.valsE' h with h | h
  · exact hv h
  · obtain ⟨k, hk⟩ := of_mem_vals h
    exact hv (mem_vals (C.disj12 hs (C.S2.argNode _ _ hk)).1)

theorem out2 (C : Ctx g g' e1 e2 e' node) {s : Node} (hs : s ∈ e2.nodes) (hv : s ∉ vals e2.subIn) :
    s ∉ vals e'.subIn := by
  intro h
  rcases C.valsE' h with h | h
  · obtain ⟨k, hk⟩ := of_mem_vals h
    exact hv (mem_vals (C.disj12 (C.S1.argNode _ _ hk) hs).2)
  · exact hv h

theorem src2 (C : Ctx g g' e1 e2 e' node) {s : Node} (hv : s ∉ vals e2.subIn) :
    g'.src s = g.src s := C.F.src s (fun _ _ h => absurd (mem_vals h) hv)

theorem repl_one (node s : Node) : repl node s [node] = [s] := by simp [repl, replaceFirst]

theorem repl_fst (node s y : Node) : repl node s [node, y] = [s, y] := by simp [repl, replaceFirst]

theorem repl_snd (node s x : Node) (h : x ≠ node) : repl node s [x, node] = [x, s] := by
  simp [repl, replaceFirst, h]

/-- How the operators of the second sub-graph change. -/
theorem iop2 (C : Ctx g g' e1 e2 e' node) {s : Node} {o : Nat} (hs : s ∈ e2.nodes)
    (hv : s ∉ vals e2.subIn) (ho : g.src s = [o]) :
    o < g.nIop ∧
    ((∃ f x, g.iop o = ⟨.un f, [x]⟩ ∧ g'.iop o = ⟨.un f, [ren node e1.subOut x]⟩ ∧ x ∈ e2.nodes ∧
        o ∈ g.dst x) ∨
     (∃ f x y, g.iop o = ⟨.bin f, [x, y]⟩ ∧
        g'.iop o = ⟨.bin f, [ren node e1.subOut x, ren node e1.subOut y]⟩ ∧ x ≠ y ∧ x ∈ e2.nodes ∧
        y ∈ e2.nodes ∧ o ∈ g.dst x ∧ o ∈ g.dst y) ∨
     (∃ x, g.iop o = ⟨.copy x, [s, x]⟩ ∧ g'.iop o = ⟨.copy x, [s, x]⟩ ∧ x ≠ node ∧ x ∈ e2.nodes ∧
        o ∈ g.dst x)) := by
  obtain ⟨n1, n2, n3, n4, n5, n6, n7, n8⟩ := C.nodeFacts
  obtain ⟨o', a1, a2, a3⟩ := C.S2.src s hs hv
  rw [ho] at a1
  cases a1
  refine ⟨a2, ?_⟩
  by_cases hd : o ∈ g.dst node
  · have hi := C.F.iopNode o hd
    have hin := n8 o hd
    rcases a3 with ⟨h, hx, hox⟩ | ⟨h, hxy, hx, hy, hox, hoy⟩ | ⟨h, _⟩
    · rename_i f x
      rw [h] at hi hin
      have hx' : node = x := by simpa using hin
      subst hx'
      refine .inl ⟨f, node, h, ?_, hx, hox⟩
      rw [hi, repl_one, ren, if_pos rfl]
    · rename_i f x y
      rw [h] at hi hin
      have hx' : node = x ∨ node = y := by simpa using hin
      refine .inr (.inl ⟨f, x, y, h, ?_, hxy, hx, hy, hox, hoy⟩)
      rw [hi]
      rcases hx' with rfl | rfl
      · rw [repl_fst, ren, if_pos rfl, ren, if_neg hxy.symm]
      · rw [repl_snd _ _ _ hxy, ren, if_neg hxy, ren, if_pos rfl]
    · exact absurd h (C.P.wf.noCopy _ C.P.m2 _ _ C.F.nodeIn C.t1In C.t1Pos o hd _ _)
  · have hi := C.F.iop o a2 hd
    have hne : ∀ x, o ∈ g.dst x → x ≠ node := by rintro x h rfl; exact hd h
    rcases a3 with ⟨h, hx, hox⟩ | ⟨h, hxy, hx, hy, hox, hoy⟩ | ⟨h, hx, hox⟩
    · exact .inl ⟨_, _, h, by rw [hi, h, ren, if_neg (hne _ hox)], hx, hox⟩
    · exact .inr (.inl ⟨_, _, _, h, by
        rw [hi, h, ren, if_neg (hne _ hox), ren, if_neg (hne _ hoy)], hxy, hx, hy, hox, hoy⟩)
    · exact .inr (.inr ⟨_, h, by rw [hi, h], hne _ hox, hx, hox⟩)

/-- An input both operators read. -/
theorem shared (C : Ctx g g' e1 e2 e' node) {k s v1 : Node} (h2 : (k, s) ∈ e2.subIn)
    (hne : k ≠ e1.out) (h1 : (k, v1) ∈ e1.subIn) :
    (s = k ∧ v1 = k ∧ g.rank k = 0) ∨
    (s ≠ k ∧ 0 < g.rank k ∧ g.src s = [] ∧ s ∉ vals e'.subIn ∧ s ∉ e1.nodes ∧
      ∃ c, g.nIop ≤ c ∧ c < g'.nIop ∧ g'.src s = [c] ∧ g'.iop c = ⟨.copy v1, [s, v1]⟩ ∧ c ∈ g'.dst v1) := by
  rcases C.S2.arg _ _ h2 with ⟨a, b⟩ | ⟨a1, a2, a3, a4⟩
  · left
    rcases C.S1.arg _ _ h1 with ⟨c, _⟩ | ⟨c, _⟩
    · exact ⟨a, c, b⟩
    · omega
  · right
    have hn1 : s ∉ e1.nodes := fun h => a4 (val_unique C.S2.valsND (C.disj12 h (C.S2.argNode _ _ h2)).2 h2)
    refine ⟨a4, a1, a2, ?_, hn1, ?_⟩
    · intro h
      obtain ⟨k', hk⟩ := of_mem_vals h
      rcases C.ofMem hk with h | ⟨h, _, h'⟩
      · exact hn1 (C.S1.argNode _ _ h)
      · rw [val_unique C.S2.valsND h h2] at h'
        exact h' (mem_keys h1)
    · obtain ⟨c, c1, c2, c3, c4, c5⟩ := C.F.new _ _ _ h2 hne h1
      rw [a2] at c3
      exact ⟨c, c1, c2, by simpa using c3, c4, c5⟩

theorem e'Mem (C : Ctx g g' e1 e2 e' node) : GOp.ew e' ∈ g'.ops := by rw [C.F.ops]; simp

theorem opsKeep (C : Ctx g g' e1 e2 e' node) {x : GOp V} (h : x ∈ g.ops) (h1 : x.out ≠ e1.out)
    (h2 : x.out ≠ e2.out) : x ∈ g'.ops := by
  rw [C.F.ops]
  exact List.mem_append_left _ (List.mem_filter.2 ⟨h, by simp [h1, h2]⟩)

theorem ofOps (C : Ctx g g' e1 e2 e' node) {x : GOp V} (h : x ∈ g'.ops) :
    (x ∈ g.ops ∧ x.out ≠ e1.out ∧ x.out ≠ e2.out) ∨ x = .ew e' := by
  rw [C.F.ops] at h
  rcases List.mem_append.1 h with h | h
  · have h := List.mem_filter.1 h
    exact .inl ⟨h.1, by simpa using h.2⟩
  · exact .inr (List.mem_singleton.1 h)

theorem subOutNe (C : Ctx g g' e1 e2 e' node) : e2.subOut ≠ node := by
  intro h
  exact C.S2.outVal (h ▸ C.nodeVal)

/-! ### Values before fusion are values after -/

/-- What is proved about a value of the graph before. -/
def Fwd (g g' : Graph V) (e1 e2 e' : EOp) (node : Node) (inp : Node → List Nat → V) : Site → V → Prop
  | .ten t i, v => (t ≠ e1.out → Val g' inp (.ten t i) v) ∧
      (t = e1.out → ∀ j, right (g.rank e1.out) j = i → Val g' inp (.sc e' j e1.subOut) v)
  | .sc e i s, v =>
      (e = e1 → s ∈ e1.nodes → ∀ j, right (g.rank e1.out) j = i → Val g' inp (.sc e' j s) v) ∧
      (e = e2 → s ∈ e2.nodes → Val g' inp (.sc e' i (ren node e1.subOut s)) v) ∧
      (Other g e1 e2 e → s ∈ e.nodes → Val g' inp (.sc e i s) v)

theorem forward (C : Ctx g g' e1 e2 e' node) {inp : Node → List Nat → V} {x : Site} {v : V}
    (h : Val g inp x v) : Fwd g g' e1 e2 e' node inp x v := by
  induction h with
  | input h =>
    exact ⟨fun _ => .input (C.F.gin ▸ h), fun e => absurd h (e ▸ C.t1In)⟩
  | @ew e i v hm _ ih =>
    have S := C.P.wf.sub _ hm
    refine ⟨fun hne => ?_, fun he j hj => ?_⟩
    · by_cases h2 : e.out = e2.out
      · have : e = e2 := by injection out_inj C.P.wf hm C.P.m2 h2
        subst this
        have := ih.2.1 rfl S.outNode
        rw [ren, if_neg C.subOutNe, ← C.F.subOut] at this
        have := Val.ew C.e'Mem this
        rwa [C.F.out] at this
      · exact .ew (C.opsKeep hm hne h2) (ih.2.2 ⟨hm, hne, h2⟩ S.outNode)
    · have : e = e1 := by injection out_inj C.P.wf hm C.P.m1 he
      subst this
      exact ih.1 rfl S.outNode j hj
  | @opq ins out fn i vs hm _ ih =>
    have hne : out ≠ e1.out := fun h => by injection out_inj C.P.wf hm C.P.m1 h
    have hne2 : out ≠ e2.out := fun h => by injection out_inj C.P.wf hm C.P.m2 h
    refine ⟨fun _ => .opq vs (C.opsKeep hm hne hne2) (fun k hk j => ?_), fun h => absurd h hne⟩
    refine (ih k hk j).1 ?_
    rintro rfl
    exact hne2 (C.readT1 hm hk)
  | @arg e i k s v hm _ ih =>
    refine ⟨?_, ?_, ?_⟩
    · rintro rfl _ j hj
      have hk := C.keyNe C.P.m1 C.P.ne hm
      refine .arg (C.mem1 hm) ?_
      have := ih.1 hk
      rw [← hj, right_right (C.S1.rankIn _ ((C.S1.inputs _).2 (mem_keys hm)))] at this
      rwa [C.F.rank]
    · rintro rfl _
      by_cases hk : k = e1.out
      · subst hk
        have := C.valNode hm
        subst this
        rw [ren, if_pos rfl]
        exact ih.2 rfl i rfl
      · have hs : s ≠ node := by rintro rfl; exact hk (C.nodeKey hm)
        rw [ren, if_neg hs]
        have hv := ih.1 hk
        by_cases h1 : k ∈ keys e1.subIn
        · obtain ⟨v1, hv1⟩ := of_mem_keys h1
          rcases C.shared hm hk hv1 with ⟨a, b, _⟩ | ⟨_, _, _, a, _, c, _, _, c1, c2, _⟩
          · refine .arg (k := k) (C.mem1 ?_) (C.F.rank ▸ hv)
            rw [a.trans b.symm]
            exact hv1
          · exact .copy a c1 c2 (.arg (C.mem1 hv1) (C.F.rank ▸ hv))
        · exact .arg (C.mem2 hm hk h1) (C.F.rank ▸ hv)
    · intro O _
      exact .arg hm (C.F.rank ▸ ih.1 (C.keyNe O.mem O.ne2 hm))
  | @un e i s o f x v hv ho hi _ ih =>
    refine ⟨?_, ?_, ?_⟩
    · rintro rfl hs j hj
      have K := C.keep C.P.m1 C.P.ne hs hv
      exact .un (C.out1 hs hv) (K.1 ▸ ho) (K.2 o ho ▸ hi) (ih.1 rfl (C.S1.unIn hs hv ho hi) j hj)
    · rintro rfl hs
      have hn : s ≠ node := by rintro rfl; exact hv C.nodeVal
      rw [ren, if_neg hn]
      rcases (C.iop2 hs hv ho).2 with ⟨f', x', b1, b2, b3, _⟩ | ⟨_, _, _, b1, _⟩ | ⟨_, b1, _⟩
      · rw [hi] at b1
        cases b1
        exact .un (C.out2 hs hv) (C.src2 hv ▸ ho) b2 (ih.2.1 rfl b3)
      · rw [hi] at b1; cases b1
      · rw [hi] at b1; cases b1
    · intro O hs
      have K := C.keep O.mem O.ne2 hs hv
      exact .un hv (K.1 ▸ ho) (K.2 o ho ▸ hi) (ih.2.2 O ((C.P.wf.sub _ O.mem).unIn hs hv ho hi))
  | @bin e i s o f x y v w hv ho hi _ _ ih1 ih2 =>
    refine ⟨?_, ?_, ?_⟩
    · rintro rfl hs j hj
      have K := C.keep C.P.m1 C.P.ne hs hv
      have hin := C.S1.binIn hs hv ho hi
      exact .bin (C.out1 hs hv) (K.1 ▸ ho) (K.2 o ho ▸ hi) (ih1.1 rfl hin.1 j hj) (ih2.1 rfl hin.2 j hj)
    · rintro rfl hs
      have hn : s ≠ node := by rintro rfl; exact hv C.nodeVal
      rw [ren, if_neg hn]
      rcases (C.iop2 hs hv ho).2 with ⟨_, _, b1, _⟩ | ⟨_, _, _, b1, b2, _, b3, b4, _⟩ | ⟨_, b1, _⟩
      · rw [hi] at b1; cases b1
      · rw [hi] at b1
        cases b1
        exact .bin (C.out2 hs hv) (C.src2 hv ▸ ho) b2 (ih1.2.1 rfl b3) (ih2.2.1 rfl b4)
      · rw [hi] at b1; cases b1
    · intro O hs
      have K := C.keep O.mem O.ne2 hs hv
      have hin := (C.P.wf.sub _ O.mem).binIn hs hv ho hi
      exact .bin hv (K.1 ▸ ho) (K.2 o ho ▸ hi) (ih1.2.2 O hin.1) (ih2.2.2 O hin.2)
  | @copy e i s o x l v hv ho hi _ ih =>
    refine ⟨?_, ?_, ?_⟩
    · rintro rfl hs j hj
      have K := C.keep C.P.m1 C.P.ne hs hv
      exact .copy (C.out1 hs hv) (K.1 ▸ ho) (K.2 o ho ▸ hi) (ih.1 rfl (C.S1.copyIn hs hv ho hi) j hj)
    · rintro rfl hs
      have hn : s ≠ node := by rintro rfl; exact hv C.nodeVal
      rw [ren, if_neg hn]
      rcases (C.iop2 hs hv ho).2 with ⟨_, _, b1, _⟩ | ⟨_, _, _, b1, _⟩ | ⟨x', b1, b2, b3, b4, _⟩
      · rw [hi] at b1; cases b1
      · rw [hi] at b1; cases b1
      · rw [hi] at b1
        cases b1
        have := ih.2.1 rfl b4
        rw [ren, if_neg b3] at this
        exact .copy (C.out2 hs hv) (C.src2 hv ▸ ho) b2 this
    · intro O hs
      have K := C.keep O.mem O.ne2 hs hv
      exact .copy hv (K.1 ▸ ho) (K.2 o ho ▸ hi) (ih.2.2 O ((C.P.wf.sub _ O.mem).copyIn hs hv ho hi))

/-! ### Values after fusion are values before -/

/-- What is proved about a value of the graph after. -/
def Bwd (g : Graph V) (e1 e2 e' : EOp) (node : Node) (inp : Node → List Nat → V) : Site → V → Prop
  | .ten t i, v => t ≠ e1.out → Val g inp (.ten t i) v
  | .sc e i s, v =>
      (e = e' → s ∈ e1.nodes → Val g inp (.sc e1 (right (g.rank e1.out) i) s) v) ∧
      (e = e' → s ∈ e2.nodes → s ≠ node → Val g inp (.sc e2 i s) v) ∧
      (Other g e1 e2 e → s ∈ e.nodes → Val g inp (.sc e i s) v)

theorem Bwd.pull (C : Ctx g g' e1 e2 e' node) {inp : Node → List Nat → V} {i : List Nat} {x : Node}
    {v : V} (h : Bwd g e1 e2 e' node inp (.sc e' i (ren node e1.subOut x)) v) (hx : x ∈ e2.nodes) :
    Val g inp (.sc e2 i x) v := by
  by_cases hn : x = node
  · subst hn
    rw [ren, if_pos rfl] at h
    exact .arg C.F.nodeIn (.ew C.P.m1 (h.1 rfl C.S1.outNode))
  · rw [ren, if_neg hn] at h
    exact h.2.1 rfl hx hn

/-- Cases of a scalar of the second operator in the fused one. -/
theorem cases2 (C : Ctx g g' e1 e2 e' node) {s : Node} {o : Nat} (hs : s ∈ e2.nodes) (hn : s ≠ node)
    (hv : s ∉ vals e'.subIn) (ho : g'.src s = [o]) :
    (s ∉ vals e2.subIn ∧ g.src s = [o]) ∨
    ∃ k v1, (k, s) ∈ e2.subIn ∧ k ≠ e1.out ∧ (k, v1) ∈ e1.subIn ∧ g'.iop o = ⟨.copy v1, [s, v1]⟩ ∧
      g.src s = [] ∧ g.nIop ≤ o ∧ o < g'.nIop ∧ o ∈ g'.dst v1 := by
  by_cases h2 : s ∈ vals e2.subIn
  · right
    obtain ⟨k, hk⟩ := of_mem_vals h2
    have hne : k ≠ e1.out := by rintro rfl; exact hn (C.valNode hk)
    have h1 : k ∈ keys e1.subIn := by
      by_contra h1
      exact hv (mem_vals (C.mem2 hk hne h1))
    obtain ⟨v1, hv1⟩ := of_mem_keys h1
    rcases C.shared hk hne hv1 with ⟨a, b, _⟩ | ⟨_, _, a, _, _, c, c3, c4, c1, c2, c5⟩
    · exact absurd (mem_vals (C.mem1 hv1)) (by rw [b, ← a]; exact hv)
    · rw [ho] at c1
      cases c1
      exact ⟨k, v1, hk, hne, hv1, c2, a, c3, c4, c5⟩
  · left
    exact ⟨h2, by rw [← C.src2 h2]; exact ho⟩

theorem src1 (C : Ctx g g' e1 e2 e' node) {s : Node} {o : Nat} (hs : s ∈ e1.nodes)
    (hv : s ∉ vals e'.subIn) (ho : g'.src s = [o]) :
    s ∉ vals e1.subIn ∧ g.src s = [o] ∧ g'.iop o = g.iop o := by
  have h1 : s ∉ vals e1.subIn := by
    intro h
    obtain ⟨k, hk⟩ := of_mem_vals h
    exact hv (mem_vals (C.mem1 hk))
  have K := C.keep C.P.m1 C.P.ne hs h1
  rw [K.1] at ho
  exact ⟨h1, ho, K.2 o ho⟩

theorem backward (C : Ctx g g' e1 e2 e' node) {inp : Node → List Nat → V} {x : Site} {v : V}
    (h : Val g' inp x v) : Bwd g e1 e2 e' node inp x v := by
  induction h with
  | input h => exact fun _ => .input (C.F.gin ▸ h)
  | @ew e i v hm _ ih =>
    intro hne
    rcases C.ofOps hm with ⟨a, b, c⟩ | h
    · exact .ew a (ih.2.2 ⟨a, b, c⟩ (C.P.wf.sub _ a).outNode)
    · injection h with h
      subst h
      rw [C.F.out]
      refine .ew C.P.m2 ?_
      have := ih.2.1 rfl (by rw [C.F.subOut]; exact C.S2.outNode) (by rw [C.F.subOut]; exact C.subOutNe)
      rwa [C.F.subOut] at this
  | @opq ins out fn i vs hm _ ih =>
    intro _
    rcases C.ofOps hm with ⟨a, b, c⟩ | h
    · refine .opq vs a (fun k hk j => ih k hk j ?_)
      rintro rfl
      exact c (C.readT1 a hk)
    · cases h
  | @arg e i k s v hm _ ih =>
    rw [C.F.rank] at ih
    refine ⟨?_, ?_, ?_⟩
    · rintro rfl hs
      rcases C.ofMem hm with h | ⟨h, _, h'⟩
      · refine .arg h ?_
        rw [right_right (C.S1.rankIn _ ((C.S1.inputs _).2 (mem_keys h)))]
        exact ih (C.keyNe C.P.m1 C.P.ne h)
      · have := C.disj12 hs (C.S2.argNode _ _ h)
        rw [val_unique C.S2.valsND h this.2] at h'
        exact absurd (mem_keys this.1) h'
    · rintro rfl hs hn
      rcases C.ofMem hm with h | ⟨h, h1, _⟩
      · have := C.disj12 (C.S1.argNode _ _ h) hs
        have hk := val_unique C.S1.valsND h this.1
        exact .arg (hk ▸ this.2) (ih (C.keyNe C.P.m1 C.P.ne h))
      · exact .arg h (ih h1)
    · intro O _
      exact .arg hm (ih (C.keyNe O.mem O.ne2 hm))
  | @un e i s o f x v hv ho hi _ ih =>
    refine ⟨?_, ?_, ?_⟩
    · rintro rfl hs
      obtain ⟨a1, a2, a3⟩ := C.src1 hs hv ho
      rw [a3] at hi
      exact .un a1 a2 hi (ih.1 rfl (C.S1.unIn hs a1 a2 hi))
    · rintro rfl hs hn
      rcases C.cases2 hs hn hv ho with ⟨h2, h3⟩ | ⟨_, _, _, _, _, h, _⟩
      · rcases (C.iop2 hs h2 h3).2 with ⟨f', x', b1, b2, b3, _⟩ | ⟨_, _, _, _, b1, _⟩ | ⟨_, _, b1, _⟩
        · rw [hi] at b2
          cases b2
          exact .un h2 h3 b1 (Bwd.pull C ih b3)
        · rw [hi] at b1; cases b1
        · rw [hi] at b1; cases b1
      · rw [hi] at h; cases h
    · intro O hs
      have K := C.keep O.mem O.ne2 hs hv
      rw [K.1] at ho
      rw [K.2 o ho] at hi
      exact .un hv ho hi (ih.2.2 O ((C.P.wf.sub _ O.mem).unIn hs hv ho hi))
  | @bin e i s o f x y v w hv ho hi _ _ ih1 ih2 =>
    refine ⟨?_, ?_, ?_⟩
    · rintro rfl hs
      obtain ⟨a1, a2, a3⟩ := C.src1 hs hv ho
      rw [a3] at hi
      have hin := C.S1.binIn hs a1 a2 hi
      exact .bin a1 a2 hi (ih1.1 rfl hin.1) (ih2.1 rfl hin.2)
    · rintro rfl hs hn
      rcases C.cases2 hs hn hv ho with ⟨h2, h3⟩ | ⟨_, _, _, _, _, h, _⟩
      · rcases (C.iop2 hs h2 h3).2 with ⟨_, _, _, b1, _⟩ | ⟨_, _, _, b1, b2, _, b3, b4, _⟩ | ⟨_, _, b1, _⟩
        · rw [hi] at b1; cases b1
        · rw [hi] at b2
          cases b2
          exact .bin h2 h3 b1 (Bwd.pull C ih1 b3) (Bwd.pull C ih2 b4)
        · rw [hi] at b1; cases b1
      · rw [hi] at h; cases h
    · intro O hs
      have K := C.keep O.mem O.ne2 hs hv
      rw [K.1] at ho
      rw [K.2 o ho] at hi
      have hin := (C.P.wf.sub _ O.mem).binIn hs hv ho hi
      exact .bin hv ho hi (ih1.2.2 O hin.1) (ih2.2.2 O hin.2)
  | @copy e i s o x l v hv ho hi _ ih =>
    refine ⟨?_, ?_, ?_⟩
    · rintro rfl hs
      obtain ⟨a1, a2, a3⟩ := C.src1 hs hv ho
      rw [a3] at hi
      exact .copy a1 a2 hi (ih.1 rfl (C.S1.copyIn hs a1 a2 hi))
    · rintro rfl hs hn
      rcases C.cases2 hs hn hv ho with ⟨h2, h3⟩ | ⟨k, v1, k1, k2, k3, h, _⟩
      · rcases (C.iop2 hs h2 h3).2 with ⟨_, _, _, b1, _⟩ | ⟨_, _, _, _, b1, _⟩ | ⟨x', b1, b2, b3, b4, _⟩
        · rw [hi] at b1; cases b1
        · rw [hi] at b1; cases b1
        · rw [hi] at b2
          cases b2
          exact .copy h2 h3 b1 (ih.2.1 rfl b4 b3)
      · rw [hi] at h
        cases h
        have := ih.1 rfl (C.S1.argNode _ _ k3)
        have hv1 := mem_vals k3
        cases this with
        | arg hm hval =>
          have hk := val_unique C.S1.valsND hm k3
          subst hk
          rw [right_right (C.S1.rankIn _ ((C.S1.inputs _).2 (mem_keys k3)))] at hval
          exact .arg k1 hval
        | un h => exact absurd hv1 h
        | bin h => exact absurd hv1 h
        | copy h => exact absurd hv1 h
    · intro O hs
      have K := C.keep O.mem O.ne2 hs hv
      rw [K.1] at ho
      rw [K.2 o ho] at hi
      exact .copy hv ho hi (ih.2.2 O ((C.P.wf.sub _ O.mem).copyIn hs hv ho hi))

end Ctx

end Verif.Fuse
