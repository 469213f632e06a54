import Verif.FuseValProps

/-!
# One fusion step keeps the invariant
-/

namespace Verif.Fuse

variable {V : Type}

theorem mem_repl {node s x : Node} {l : List Node} (h : x ∈ l) (hx : x ≠ node) : x ∈ repl node s l := by
  unfold repl
  induction l with
  | nil => cases h
  | cons y l ih =>
    simp only [replaceFirst]
    by_cases hy : y = node
    · rw [if_pos hy]
      rcases List.mem_cons.1 h with e | h
      · exact absurd (e.trans hy) hx
      · exact List.mem_cons_of_mem _ h
    · rw [if_neg hy]
      rcases List.mem_cons.1 h with e | h
      · subst e
        cases replaceFirst node s l <;> exact List.mem_cons_self
      · have := ih h
        revert this
        cases replaceFirst node s l
        · intro h; exact List.mem_cons_of_mem _ h
        · intro h; exact List.mem_cons_of_mem _ h

theorem mem_repl_new {node s : Node} {l : List Node} (h : node ∈ l) : s ∈ repl node s l := by
  unfold repl
  induction l with
  | nil => cases h
  | cons y l ih =>
    simp only [replaceFirst]
    by_cases hy : y = node
    · rw [if_pos hy]; exact List.mem_cons_self
    · rw [if_neg hy]
      have h' : node ∈ l := by
        rcases List.mem_cons.1 h with e | h
        · exact absurd e.symm hy
        · exact h
      have := ih h'
      have hs := replaceFirst_isSome (s := s) h'
      rw [hs] at this ⊢
      exact List.mem_cons_of_mem _ this

namespace Ctx

variable {g g' : Graph V} {e1 e2 e' : EOp} {node : Node}

theorem node'1 (C : Ctx g g' e1 e2 e' node) {s : Node} (h : s ∈ e1.nodes) : s ∈ e'.nodes := by
  rw [C.F.nodes]; exact List.mem_append_left _ h

theorem node'2 (C : Ctx g g' e1 e2 e' node) {s : Node} (h : s ∈ e2.nodes) (hn : s ≠ node) :
    s ∈ e'.nodes := by
  rw [C.F.nodes]
  exact List.mem_append_right _ ((List.mem_erase_of_ne hn).2 h)

theorem ofNode' (C : Ctx g g' e1 e2 e' node) {s : Node} (h : s ∈ e'.nodes) :
    s ∈ e1.nodes ∨ (s ∈ e2.nodes ∧ s ≠ node) := by
  rw [C.F.nodes] at h
  rcases List.mem_append.1 h with h | h
  · exact .inl h
  · refine .inr ⟨List.mem_of_mem_erase h, ?_⟩
    rintro rfl
    obtain ⟨_, _, n3, _⟩ := C.nodeFacts
    have : (e2.nodes.erase s).count s = 0 := by rw [List.count_erase_self, n3]
    exact (List.count_eq_zero.1 this) h

/-- A scalar input of the second operator is one of the fused operator. -/
theorem self2 (C : Ctx g g' e1 e2 e' node) {s : Node} (h : (s, s) ∈ e2.subIn) : (s, s) ∈ e'.subIn := by
  have hr := selfRank C.S2 h
  have hne : s ≠ e1.out := by
    rintro rfl
    have := C.t1Pos
    omega
  by_cases h1 : s ∈ keys e1.subIn
  · obtain ⟨v1, hv1⟩ := of_mem_keys h1
    rcases C.shared h hne hv1 with ⟨_, b, _⟩ | ⟨a, _⟩
    · rw [b] at hv1
      exact C.mem1 hv1
    · exact absurd rfl a
  · exact C.mem2 h hne h1

/-- The other operators keep their sub-graphs. -/
theorem dstOther (C : Ctx g g' e1 e2 e' node) {e : EOp} (O : Other g e1 e2 e) {s : Node}
    (hs : s ∈ e.nodes) (hss : (s, s) ∉ e.subIn) {o : Nat} (ho : o ∈ g'.dst s) : o ∈ g.dst s := by
  rcases C.F.dstNew s o ho with h | ⟨h, _⟩ | ⟨k, v, _, _, h, _⟩
  · exact h
  · exact absurd (C.otherNode O hs (.inl (h ▸ C.S1.outNode))) hss
  · exact absurd (C.otherNode O hs (.inl (C.S1.argNode _ _ h))) hss

theorem good_mono {e : EOp} {s : Node} {o : Nat} (G : Good g e.nodes s o) (hi : g'.iop o = g.iop o)
    (hd : ∀ s, ∀ o ∈ g.dst s, o ∈ g'.dst s) {l : List Node} (hl : ∀ x ∈ e.nodes, x ∈ l) :
    Good g' l s o := by
  rcases G with ⟨h, hx, hox⟩ | ⟨h, hxy, hx, hy, hox, hoy⟩ | ⟨h, hx, hox⟩
  · exact .un (hi.trans h) (hl _ hx) (hd _ _ hox)
  · exact .bin (hi.trans h) hxy (hl _ hx) (hl _ hy) (hd _ _ hox) (hd _ _ hoy)
  · exact .copy (hi.trans h) (hl _ hx) (hd _ _ hox)

theorem subOther (C : Ctx g g' e1 e2 e' node) {e : EOp} (O : Other g e1 e2 e) : Sub g' e := by
  have S := C.P.wf.sub _ O.mem
  have N := C.F.nIop
  exact {
    keysND := S.keysND
    valsND := S.valsND
    inputs := S.inputs
    inputsND := S.inputsND
    rankOut := C.F.rank ▸ S.rankOut
    rankIn := C.F.rank ▸ S.rankIn
    argNode := S.argNode
    arg := fun k s h => by
      rw [C.F.rank]
      rcases S.arg k s h with h' | ⟨a, b, c, d⟩
      · exact .inl h'
      · refine .inr ⟨a, ?_, c, d⟩
        rw [C.F.src s (fun k' v1 h2 => ?_)]
        · exact b
        · exact absurd (val_unique S.valsND
            (C.otherNode O (S.argNode _ _ h) (.inr (C.S2.argNode _ _ h2))) h) d
    outNode := S.outNode
    outVal := S.outVal
    src := fun s hs hv => by
      obtain ⟨o, a, b, G⟩ := S.src s hs hv
      have K := C.keep O.mem O.ne2 hs hv
      exact ⟨o, K.1.trans a, by omega, good_mono G (K.2 o a) C.F.dstOld (fun _ h => h)⟩
    dst := fun s hs hss o ho => by
      obtain ⟨s', a1, a2, a3, a4, a5⟩ := S.dst s hs hss o (C.dstOther O hs hss ho)
      have K := C.keep O.mem O.ne2 a1 a2
      exact ⟨s', a1, a2, K.1.trans a3, by rw [K.2 o a3]; exact a4, a5⟩
    dstND := fun s hs hss => C.F.dstND s ⟨S.dstND s hs hss, S.dstLt hs hss⟩ }

theorem not_self (C : Ctx g g' e1 e2 e' node) {s : Node} (h : (s, s) ∉ e'.subIn) :
    (s, s) ∉ e1.subIn ∧ (s, s) ∉ e2.subIn :=
  ⟨fun h' => h (C.mem1 h'), fun h' => h (C.self2 h')⟩

theorem subNew (C : Ctx g g' e1 e2 e' node) : Sub g' e' := by
  have S1 := C.S1
  have S2 := C.S2
  have N := C.F.nIop
  obtain ⟨n1, n2, n3, n4, n5, n6, n7, n8⟩ := C.nodeFacts
  have hkn : ∀ {k s}, (k, s) ∈ e2.subIn → k ≠ e1.out → s ≠ node := by
    rintro k s h hk rfl
    exact hk (C.nodeKey h)
  constructor
  case keysND =>
    rw [C.F.subIn]
    simp only [keys, List.map_append]
    rw [List.nodup_append]
    refine ⟨S1.keysND, S2.keysND.sublist (List.Sublist.map _ List.filter_sublist), ?_⟩
    intro a ha b hb hab
    subst hab
    obtain ⟨⟨k, v⟩, h1, h2⟩ := List.mem_map.1 hb
    have := (List.mem_filter.1 h1).2
    subst h2
    exact (of_decide_eq_true this).2 ha
  case valsND =>
    rw [C.F.subIn]
    simp only [vals, List.map_append]
    rw [List.nodup_append]
    refine ⟨S1.valsND, S2.valsND.sublist (List.Sublist.map _ List.filter_sublist), ?_⟩
    intro a ha b hb hab
    subst hab
    obtain ⟨⟨k, v⟩, h1, h2⟩ := List.mem_map.1 hb
    have h1 := List.mem_filter.1 h1
    subst h2
    simp only [ne_eq, decide_eq_true_eq] at h1
    obtain ⟨k', hk'⟩ := of_mem_vals ha
    have D := C.disj12 (S1.argNode _ _ hk') (S2.argNode _ _ h1.1)
    have := val_unique S2.valsND h1.1 D.2
    subst this
    exact h1.2.2 (mem_keys D.1)
  case inputs =>
    intro x
    rw [C.F.inputs, List.mem_dedup, List.mem_append, S2.inputsND.mem_erase_iff, S1.inputs, S2.inputs]
    constructor
    · rintro (h | ⟨h1, h2⟩)
      · obtain ⟨v, hv⟩ := of_mem_keys h
        exact mem_keys (C.mem1 hv)
      · obtain ⟨v, hv⟩ := of_mem_keys h2
        by_cases h : x ∈ keys e1.subIn
        · obtain ⟨v, hv⟩ := of_mem_keys h
          exact mem_keys (C.mem1 hv)
        · exact mem_keys (C.mem2 hv h1 h)
    · intro h
      obtain ⟨v, hv⟩ := of_mem_keys h
      rcases C.ofMem hv with h | ⟨h, h', _⟩
      · exact .inl (mem_keys h)
      · exact .inr ⟨h', mem_keys h⟩
  case inputsND => rw [C.F.inputs]; exact List.nodup_dedup _
  case rankOut => rw [C.F.rank, C.F.out]; exact S2.rankOut
  case rankIn =>
    intro x hx
    rw [C.F.inputs, List.mem_dedup, List.mem_append] at hx
    rw [C.F.rank, C.F.out]
    rcases hx with h | h
    · exact Nat.le_trans (S1.rankIn x h) (S2.rankIn _ C.P.rd)
    · exact S2.rankIn x (List.mem_of_mem_erase h)
  case argNode =>
    intro k s h
    rcases C.ofMem h with h | ⟨h, h', _⟩
    · exact C.node'1 (S1.argNode _ _ h)
    · exact C.node'2 (S2.argNode _ _ h) (hkn h h')
  case arg =>
    intro k s h
    rw [C.F.rank, C.F.nodes, List.count_append]
    rcases C.ofMem h with h | ⟨h, h', h''⟩
    · rcases S1.arg k s h with h' | ⟨a, b, c, d⟩
      · exact .inl h'
      · have h2 : s ∉ e2.nodes := fun h2 =>
          d (val_unique S1.valsND (C.disj12 (S1.argNode _ _ h) h2).1 h)
        refine .inr ⟨a, ?_, ?_, d⟩
        · rw [C.F.src s (fun k' v1 hk => absurd (S2.argNode _ _ hk) h2)]
          exact b
        · rw [c, List.count_eq_zero.2 (fun hm => h2 (List.mem_of_mem_erase hm))]
    · rcases S2.arg k s h with h3 | ⟨a, b, c, d⟩
      · exact .inl h3
      · have h1 : s ∉ e1.nodes := fun h1 =>
          d (val_unique S2.valsND (C.disj12 h1 (S2.argNode _ _ h)).2 h)
        refine .inr ⟨a, ?_, ?_, d⟩
        · rw [C.F.src s (fun k' v1 hk _ hc => ?_)]
          · exact b
          · rw [val_unique S2.valsND hk h] at hc
            exact h'' (mem_keys hc)
        · rw [List.count_eq_zero.2 h1, List.count_erase_of_ne (hkn h h'), c]
  case outNode => rw [C.F.subOut]; exact C.node'2 S2.outNode C.subOutNe
  case outVal => rw [C.F.subOut]; exact C.out2 S2.outNode S2.outVal
  case src =>
    intro s hs hv
    rcases C.ofNode' hs with h | ⟨h, hn⟩
    · have h1 : s ∉ vals e1.subIn := by
        intro h
        obtain ⟨k, hk⟩ := of_mem_vals h
        exact hv (mem_vals (C.mem1 hk))
      obtain ⟨o, a, b, G⟩ := S1.src s h h1
      have K := C.keep C.P.m1 C.P.ne h h1
      exact ⟨o, K.1.trans a, by omega, good_mono G (K.2 o a) C.F.dstOld (fun _ h => C.node'1 h)⟩
    · by_cases h2 : s ∈ vals e2.subIn
      · obtain ⟨k, hk⟩ := of_mem_vals h2
        have hne : k ≠ e1.out := by rintro rfl; exact hn (C.valNode hk)
        have h1 : k ∈ keys e1.subIn := by
          by_contra h1
          exact hv (mem_vals (C.mem2 hk hne h1))
        obtain ⟨v1, hv1⟩ := of_mem_keys h1
        rcases C.shared hk hne hv1 with ⟨a, b, _⟩ | ⟨_, _, a, _, _, c, c3, c4, c1, c2, c5⟩
        · exact absurd (mem_vals (C.mem1 hv1)) (by rw [b, ← a]; exact hv)
        · exact ⟨c, c1, c4, .copy c2 (C.node'1 (S1.argNode _ _ hv1)) c5⟩
      · obtain ⟨o, a, b, _⟩ := S2.src s h h2
        have hren : ∀ x ∈ e2.nodes, o ∈ g.dst x →
            ren node e1.subOut x ∈ e'.nodes ∧ o ∈ g'.dst (ren node e1.subOut x) := by
          intro x hx hox
          by_cases hxn : x = node
          · subst hxn
            rw [ren, if_pos rfl]
            exact ⟨C.node'1 S1.outNode, C.F.dstNode _ hox⟩
          · rw [ren, if_neg hxn]
            exact ⟨C.node'2 hx hxn, C.F.dstOld _ _ hox⟩
        have hso : ∀ y ∈ e2.nodes, e1.subOut ≠ y := by
          rintro y hy rfl
          exact S1.outVal (mem_vals (C.disj12 S1.outNode hy).1)
        refine ⟨o, (C.src2 h2).trans a, by omega, ?_⟩
        rcases (C.iop2 h h2 a).2 with ⟨f, x, _, b2, b3, b4⟩ | ⟨f, x, y, _, b2, b3, b4, b5, b6, b7⟩ |
          ⟨x, _, b2, b3, b4, b5⟩
        · exact .un b2 (hren x b3 b4).1 (hren x b3 b4).2
        · refine .bin b2 ?_ (hren x b4 b6).1 (hren y b5 b7).1 (hren x b4 b6).2 (hren y b5 b7).2
          by_cases hx : x = node
          · subst hx
            rw [ren, if_pos rfl, ren, if_neg b3.symm]
            exact hso y b5
          · by_cases hy : y = node
            · subst hy
              rw [ren, if_neg hx, ren, if_pos rfl]
              exact (hso x b4).symm
            · rwa [ren, if_neg hx, ren, if_neg hy]
        · exact .copy b2 (C.node'2 b4 b3) (C.F.dstOld _ _ b5)
  case dst =>
    intro s hs hss o ho
    obtain ⟨hs1, hs2⟩ := C.not_self hss
    rcases C.F.dstNew s o ho with h | ⟨h, hd⟩ | ⟨k, v, hk, hne, hk1, c1, c2, c3, c4⟩
    · rcases C.ofNode' hs with h1 | ⟨h2, hn⟩
      · obtain ⟨s', a1, a2, a3, a4, a5⟩ := S1.dst s h1 hs1 o h
        have K := C.keep C.P.m1 C.P.ne a1 a2
        exact ⟨s', C.node'1 a1, C.out1 a1 a2, K.1.trans a3, by rw [K.2 o a3]; exact a4, a5⟩
      · obtain ⟨s', a1, a2, a3, a4, a5⟩ := S2.dst s h2 hs2 o h
        have hs'n : s' ≠ node := by rintro rfl; exact a2 C.nodeVal
        refine ⟨s', C.node'2 a1 hs'n, C.out2 a1 a2, (C.src2 a2).trans a3, ?_, a5⟩
        by_cases hd : o ∈ g.dst node
        · rw [C.F.iopNode o hd]
          exact mem_repl a4 hn
        · rw [C.F.iop o (S2.dstLt h2 hs2 o h) hd]
          exact a4
    · subst h
      obtain ⟨s', a1, a2, a3, a4, a5⟩ := S2.dst node n1 n4 o hd
      have hs'n : s' ≠ node := by rintro rfl; exact a2 C.nodeVal
      refine ⟨s', C.node'2 a1 hs'n, C.out2 a1 a2, (C.src2 a2).trans a3, ?_, ?_⟩
      · rw [C.F.iopNode o hd]
        exact mem_repl_new a4
      · rintro h
        rw [← h] at a1
        exact S1.outVal (mem_vals (C.disj12 S1.outNode a1).1)
    · rcases C.shared hk hne hk1 with ⟨a, b, _⟩ | ⟨d1, d2, d3, d4, d5, c, _⟩
      · subst b
        exact absurd hk1 hs1
      · rw [d3] at c3
        refine ⟨v, C.node'2 (S2.argNode _ _ hk) (hkn hk hne), d4, by simpa using c3, by simp [c4], ?_⟩
        rintro rfl
        exact d5 (S1.argNode _ _ hk1)
  case dstND =>
    intro s hs hss
    obtain ⟨hs1, hs2⟩ := C.not_self hss
    apply C.F.dstND
    rcases C.ofNode' hs with h1 | ⟨h2, hn⟩
    · exact ⟨S1.dstND s h1 hs1, S1.dstLt h1 hs1⟩
    · exact ⟨S2.dstND s h2 hs2, S2.dstLt h2 hs2⟩

/-- Where a computed scalar of the new graph comes from. -/
theorem origin (C : Ctx g g' e1 e2 e' node) {e : EOp} (he : .ew e ∈ g'.ops) {s : Node} {o : Nat}
    (hs : s ∈ e.nodes) (hv : s ∉ vals e.subIn) (ho : g'.src s = [o]) :
    (∃ e0, .ew e0 ∈ g.ops ∧ s ∈ e0.nodes ∧ s ∉ vals e0.subIn ∧ g.src s = [o] ∧ o < g.nIop) ∨
    ∃ k v1, (k, s) ∈ e2.subIn ∧ k ≠ e1.out ∧ (k, v1) ∈ e1.subIn ∧ g.src s = [] ∧ g.nIop ≤ o := by
  have lt : ∀ e0, .ew e0 ∈ g.ops → s ∈ e0.nodes → s ∉ vals e0.subIn → g.src s = [o] → o < g.nIop := by
    intro e0 h1 h2 h3 h4
    obtain ⟨o', a1, a2, _⟩ := (C.P.wf.sub _ h1).src s h2 h3
    rw [h4] at a1; cases a1; exact a2
  rcases C.ofOps he with ⟨a, b, c⟩ | h
  · have K := C.keep a c hs hv
    rw [K.1] at ho
    exact .inl ⟨e, a, hs, hv, ho, lt e a hs hv ho⟩
  · injection h with h
    subst h
    rcases C.ofNode' hs with h1 | ⟨h2, hn⟩
    · obtain ⟨a1, a2, _⟩ := C.src1 h1 hv ho
      exact .inl ⟨e1, C.P.m1, h1, a1, a2, lt e1 C.P.m1 h1 a1 a2⟩
    · rcases C.cases2 h2 hn hv ho with ⟨a1, a2⟩ | ⟨k, v1, k1, k2, k3, _, k4, k5, _⟩
      · exact .inl ⟨e2, C.P.m2, h2, a1, a2, lt e2 C.P.m2 h2 a1 a2⟩
      · exact .inr ⟨k, v1, k1, k2, k3, k4, k5⟩

theorem wf (C : Ctx g g' e1 e2 e' node) : WF g' := by
  have W := C.P.wf
  have S1 := C.S1
  have S2 := C.S2
  constructor
  case outs =>
    rw [C.F.ops, List.map_append, List.nodup_append]
    refine ⟨W.outs.sublist (List.Sublist.map _ List.filter_sublist), List.nodup_singleton _, ?_⟩
    intro a ha b hb hab
    subst hab
    obtain ⟨x, hx, rfl⟩ := List.mem_map.1 ha
    have := (List.mem_filter.1 hx).2
    simp only [ne_eq, decide_eq_true_eq] at this
    have hb : x.out = e'.out := List.mem_singleton.1 hb
    rw [C.F.out] at hb
    exact this.2 hb
  case outIn =>
    intro x hx
    rw [C.F.gin]
    rcases C.ofOps hx with h | h
    · exact W.outIn x h.1
    · subst h
      show e'.out ∉ g.inputs
      rw [C.F.out]
      exact W.outIn _ C.P.m2
  case sub =>
    intro e he
    rcases C.ofOps he with ⟨a, b, c⟩ | h
    · exact C.subOther ⟨a, b, c⟩
    · injection h with h
      subst h
      exact C.subNew
  case disj =>
    have key : ∀ e, Other g e1 e2 e → ∀ s, s ∈ e'.nodes → s ∈ e.nodes →
        (s, s) ∈ e'.subIn ∧ (s, s) ∈ e.subIn := by
      intro e O s h1 h2
      rcases C.ofNode' h1 with h | ⟨h, _⟩
      · have := W.disj _ _ C.P.m1 O.mem O.ne1.symm s h h2
        exact ⟨C.mem1 this.1, this.2⟩
      · have := W.disj _ _ C.P.m2 O.mem O.ne2.symm s h h2
        exact ⟨C.self2 this.1, this.2⟩
    intro e f he hf hne s h1 h2
    rcases C.ofOps he with ⟨a, b, c⟩ | h <;> rcases C.ofOps hf with ⟨a', b', c'⟩ | h'
    · exact W.disj _ _ a a' hne s h1 h2
    · injection h' with h'
      subst h'
      exact (key e ⟨a, b, c⟩ s h2 h1).symm
    · injection h with h
      subst h
      exact key f ⟨a', b', c'⟩ s h1 h2
    · injection h with h
      injection h' with h'
      subst h
      subst h'
      exact absurd rfl hne
  case own =>
    intro e f he hf s s' o h1 h2 h3 h4 h5 h6
    rcases C.origin he h1 h2 h5 with ⟨e0, a1, a2, a3, a4, a5⟩ | ⟨k, v1, a1, a2, a3, a4, a5⟩ <;>
      rcases C.origin hf h3 h4 h6 with ⟨f0, b1, b2, b3, b4, b5⟩ | ⟨k', v1', b1, b2, b3, b4, b5⟩
    · exact W.own _ _ a1 b1 s s' o a2 a3 b2 b3 a4 b4
    · omega
    · omega
    · exact C.F.srcInj k s v1 k' s' v1' o a1 a2 a3 b1 b2 b3 (by rw [a4]; exact h5) (by rw [b4]; exact h6)
  case single =>
    have key : ∀ x ∈ g.ops, x.out ≠ e1.out → x.out ≠ e2.out → ∀ t, t ∈ x.ins → t ∈ e'.inputs →
        t ∉ g.inputs → False := by
      intro x hx h1 h2 t ht ht' hi
      rw [C.F.inputs, List.mem_dedup, List.mem_append] at ht'
      rcases ht' with h | h
      · exact h1 (W.single x hx _ C.P.m1 t ht h hi)
      · exact h2 (W.single x hx _ C.P.m2 t ht (List.mem_of_mem_erase h) hi)
    intro x hx y hy t h1 h2 hi
    rw [C.F.gin] at hi
    rcases C.ofOps hx with ⟨a, b, c⟩ | h <;> rcases C.ofOps hy with ⟨a', b', c'⟩ | h'
    · exact W.single x a y a' t h1 h2 hi
    · subst h'
      exact (key x a b c t h1 h2 hi).elim
    · subst h
      exact (key y a' b' c' t h2 h1 hi).elim
    · rw [h, h']
  case noCopy =>
    have key : ∀ e, .ew e ∈ g.ops → ∀ k s, (k, s) ∈ e.subIn → k ∉ g.inputs → 0 < g.rank k →
        ∀ o ∈ g.dst s, ∀ x l, g'.iop o ≠ ⟨.copy x, l⟩ := by
      intro e he k s h1 h2 h3 o ho x l hc
      have S := W.sub _ he
      have hss : (s, s) ∉ e.subIn := by
        intro hss
        have := val_unique S.valsND h1 hss
        subst this
        have := selfRank S hss
        omega
      have hlt := S.dstLt (S.argNode _ _ h1) hss o ho
      have hN := W.noCopy e he k s h1 h2 h3 o ho
      by_cases hd : o ∈ g.dst node
      · rw [C.F.iopNode o hd] at hc
        have hk : (g.iop o).kind = .copy x := by injection hc
        apply hN x (g.iop o).inputs
        rw [← hk]
      · rw [C.F.iop o hlt hd] at hc
        exact hN x l hc
    intro e he k s h1 h2 h3 o ho x l
    rw [C.F.gin] at h2
    rw [C.F.rank] at h3
    have main : ∀ f, .ew f ∈ g.ops → (k, s) ∈ f.subIn →
        (∀ k', (k', s) ∈ f.subIn → f = e1 ∨ s ∉ e1.nodes) →
        g'.iop o ≠ ⟨.copy x, l⟩ := by
      intro f hf hk hor
      have Sf := W.sub _ hf
      rcases C.F.dstNew s o ho with h | ⟨h, hd⟩ | ⟨k', v, hk', hne, hk1, _⟩
      · exact key f hf k s hk h2 h3 o h x l
      · rcases hor k hk with h' | h'
        · subst h'
          exact absurd (mem_vals hk) (h ▸ S1.outVal)
        · exact absurd (h ▸ S1.outNode) h'
      · rcases hor k hk with h' | h'
        · subst h'
          have := val_unique S1.valsND hk1 hk
          subst this
          exact absurd (W.single _ C.P.m1 _ C.P.m2 k' ((S1.inputs _).2 (mem_keys hk1))
            ((S2.inputs _).2 (mem_keys hk')) h2) C.P.ne
        · exact absurd (S1.argNode _ _ hk1) h'
    have noself : ∀ f, .ew f ∈ g.ops → (k, s) ∈ f.subIn → (s, s) ∉ f.subIn := by
      intro f hf hk hss
      have S := W.sub _ hf
      have := val_unique S.valsND hk hss
      subst this
      have := selfRank S hss
      omega
    rcases C.ofOps he with ⟨a, b, c⟩ | h
    · refine main e a h1 (fun _ _ => .inr (fun hs => ?_))
      exact noself e a h1 (C.otherNode ⟨a, b, c⟩ ((W.sub _ a).argNode _ _ h1) (.inl hs))
    · injection h with h
      subst h
      rcases C.ofMem h1 with h | ⟨h, _, _⟩
      · exact main e1 C.P.m1 h (fun _ _ => .inl rfl)
      · refine main e2 C.P.m2 h (fun _ _ => .inr (fun hs => ?_))
        exact noself e2 C.P.m2 h (C.disj12 hs (S2.argNode _ _ h)).2

end Ctx

/-- One fusion step succeeds, keeps the invariant and keeps the value of every
element of every tensor but the one fused away. -/
theorem fuse_keeps {g : Graph V} {e1 e2 : EOp} (P : Pair g e1 e2) :
    ∃ g' e', fuse g e1 e2 = some g' ∧ WF g' ∧ g'.inputs = g.inputs ∧ g'.rank = g.rank ∧
      g'.ops = g.ops.filter (fun o => o.out ≠ e1.out ∧ o.out ≠ e2.out) ++ [.ew e'] ∧ e'.out = e2.out ∧
      (∀ t, t ∈ e'.inputs ↔ t ∈ e1.inputs ∨ (t ∈ e2.inputs ∧ t ≠ e1.out)) ∧
      ∀ (inp : Node → List Nat → V) t i v, t ≠ e1.out →
        (Val g inp (.ten t i) v ↔ Val g' inp (.ten t i) v) := by
  obtain ⟨g', e', node, h, F⟩ := fuse_spec P
  have C : Ctx g g' e1 e2 e' node := ⟨P, F⟩
  refine ⟨g', e', h, C.wf, F.gin, F.rank, F.ops, F.out, ?_, ?_⟩
  · intro t
    rw [F.inputs, List.mem_dedup, List.mem_append, (P.wf.sub _ P.m2).inputsND.mem_erase_iff, and_comm (a := t ≠ e1.out)]
  · intro inp t i v ht
    exact ⟨fun hv => (C.forward hv).1 ht, fun hv => C.backward hv ht⟩

end Verif.Fuse
