import Verif.FusePassProps

/-!
# Graphs built from kernels satisfy the invariant and compute the kernel
-/

namespace Verif.Fuse

variable {V : Type}

/-- The values an instruction reads. -/
def Instr.reads : Instr V → List Nat
  | .bin _ l r => [l, r]
  | .un _ x => [x]
  | .opq ins _ _ => ins

/-- What an instruction means: operands of lower rank are aligned on the right.
A value is a rank and a function of the index. -/
def Instr.eval (env : List (Nat × (List Nat → V))) : Instr V → Option (Nat × (List Nat → V))
  | .bin f l r =>
    match env[l]?, env[r]? with
    | some a, some b => some (max a.1 b.1, fun i => f (a.2 (right a.1 i)) (b.2 (right b.1 i)))
    | _, _ => none
  | .un f x => (env[x]?).map (fun a => (a.1, fun i => f (a.2 (right a.1 i))))
  | .opq ins rank fn => (ins.mapM (fun x => env[x]?)).map (fun l => (rank, fn (l.map (·.2))))

/-- What a kernel body means. -/
def run : List (Instr V) → List (Nat × (List Nat → V)) → Option (List (Nat × (List Nat → V)))
  | [], env => some env
  | c :: p, env =>
    match c.eval env with
    | none => none
    | some w => run p (env ++ [w])

/-- The invariant of the construction. -/
structure BInv (g : Graph V) (vars : List Nat) : Prop where
  pass : PassInv g
  nd : vars.Nodup
  lt : ∀ v ∈ vars, v < g.next
  inVar : ∀ t ∈ g.inputs, t ∈ vars
  outVar : ∀ x ∈ g.ops, x.out ∈ vars
  insVar : ∀ x ∈ g.ops, ∀ t ∈ x.ins, t ∈ vars
  made : ∀ v ∈ vars, v ∈ g.inputs ∨ ∃ y ∈ g.ops, y.out = v
  nodeLt : ∀ e, .ew e ∈ g.ops → ∀ s ∈ e.nodes, s < g.next
  nodeVar : ∀ e, .ew e ∈ g.ops → ∀ s ∈ e.nodes, s ∈ vars → (s, s) ∈ e.subIn
  fresh : ∀ s, g.next ≤ s → g.src s = [] ∧ g.dst s = []

/-- Adding the operator `x`. -/
structure NewOp (g g' : Graph V) (vars : List Nat) (x : GOp V) : Prop where
  rank : ∀ t, t < g.next → g'.rank t = g.rank t
  gin : g'.inputs = g.inputs
  nIop : g.nIop ≤ g'.nIop
  iop : ∀ o, o < g.nIop → g'.iop o = g.iop o
  src : ∀ s, s < g.next → g'.src s = g.src s
  dst : ∀ s, ∀ o ∈ g.dst s, o ∈ g'.dst s
  dstSame : ∀ s, s < g.next → s ∉ vars → g'.dst s = g.dst s
  ops : g'.ops = g.ops ++ [x]
  out : x.out = g.next
  next : g.next < g'.next
  ins : ∀ t ∈ x.ins, t ∈ vars
  once : ∀ t ∈ x.ins, t ∉ g.inputs → ∀ y ∈ g.ops, t ∉ y.ins
  sub : ∀ e, x = .ew e → Sub g' e
  nodes : ∀ e, x = .ew e → ∀ s ∈ e.nodes, (s ∈ vars ∧ (s, s) ∈ e.subIn) ∨ (g.next < s ∧ s < g'.next)
  own : ∀ e, x = .ew e → ∀ s s' o, s ∈ e.nodes → s ∉ vals e.subIn → s' ∈ e.nodes → s' ∉ vals e.subIn →
    g'.src s = [o] → g'.src s' = [o] → s = s'
  newOp : ∀ e, x = .ew e → ∀ s o, s ∈ e.nodes → s ∉ vals e.subIn → g'.src s = [o] → g.nIop ≤ o
  noCopy : ∀ e, x = .ew e → ∀ k s, (k, s) ∈ e.subIn → 0 < g'.rank k → ∀ o ∈ g'.dst s, ∀ y l,
    g'.iop o ≠ ⟨.copy y, l⟩
  fresh : ∀ s, g'.next ≤ s → g'.src s = [] ∧ g'.dst s = []
  noSrc : g'.src g.next = []

namespace NewOp

variable {g g' : Graph V} {vars : List Nat} {x : GOp V}

theorem ofOps (N : NewOp g g' vars x) {y : GOp V} (h : y ∈ g'.ops) : y ∈ g.ops ∨ y = x := by
  rw [N.ops] at h
  rcases List.mem_append.1 h with h | h
  · exact .inl h
  · exact .inr (List.mem_singleton.1 h)

theorem keep (N : NewOp g g' vars x) {y : GOp V} (h : y ∈ g.ops) : y ∈ g'.ops := by
  rw [N.ops]; exact List.mem_append_left _ h

theorem mem (N : NewOp g g' vars x) : x ∈ g'.ops := by
  rw [N.ops]; exact List.mem_append_right _ List.mem_cons_self

theorem keyVar (B : BInv g vars) {e : EOp} (he : .ew e ∈ g.ops) {k s : Node} (h : (k, s) ∈ e.subIn) :
    k ∈ vars := B.insVar _ he k (((B.pass.wf.sub _ he).inputs k).2 (mem_keys h))

theorem subOld (N : NewOp g g' vars x) (B : BInv g vars) {e : EOp} (he : .ew e ∈ g.ops) : Sub g' e := by
  have S := B.pass.wf.sub _ he
  have nl := B.nodeLt e he
  have hr : ∀ k ∈ vars, g'.rank k = g.rank k := fun k hk => N.rank k (B.lt k hk)
  have hin : ∀ t ∈ e.inputs, t ∈ vars := B.insVar _ he
  have hout : g'.rank e.out = g.rank e.out := hr _ (B.outVar _ he)
  have hnv : ∀ s ∈ e.nodes, (s, s) ∉ e.subIn → s ∉ vars := fun s hs hss hv => hss (B.nodeVar e he s hs hv)
  have hd : ∀ s ∈ e.nodes, (s, s) ∉ e.subIn → g'.dst s = g.dst s := fun s hs hss =>
    N.dstSame s (nl s hs) (hnv s hs hss)
  have hN := N.nIop
  exact {
    keysND := S.keysND, valsND := S.valsND, inputs := S.inputs, inputsND := S.inputsND
    rankOut := by rw [hout]; exact S.rankOut
    rankIn := fun t ht => by rw [hout, hr t (hin t ht)]; exact S.rankIn t ht
    argNode := S.argNode
    arg := fun k s h => by
      rw [hr k (keyVar B he h), N.src s (nl s (S.argNode k s h))]
      exact S.arg k s h
    outNode := S.outNode, outVal := S.outVal
    src := fun s hs hv => by
      obtain ⟨o, a, b, G⟩ := S.src s hs hv
      exact ⟨o, by rw [N.src s (nl s hs)]; exact a, by omega,
        Ctx.good_mono G (N.iop o b) N.dst (fun _ h => h)⟩
    dst := fun s hs hss o ho => by
      rw [hd s hs hss] at ho
      obtain ⟨s', a1, a2, a3, a4, a5⟩ := S.dst s hs hss o ho
      exact ⟨s', a1, a2, by rw [N.src s' (nl s' a1)]; exact a3,
        by rw [N.iop o (S.dstLt hs hss o ho)]; exact a4, a5⟩
    dstND := fun s hs hss => by rw [hd s hs hss]; exact S.dstND s hs hss }

theorem wf (N : NewOp g g' vars x) (B : BInv g vars) : WF g' := by
  have W := B.pass.wf
  have outNe : ∀ y ∈ g.ops, y.out ≠ x.out := by
    intro y hy h
    have h1 := B.lt _ (B.outVar y hy)
    rw [h, N.out] at h1
    exact Nat.lt_irrefl _ h1
  have lt : ∀ e, .ew e ∈ g.ops → ∀ s o, s ∈ e.nodes → s ∉ vals e.subIn → g'.src s = [o] →
      g.src s = [o] ∧ o < g.nIop := by
    intro e he s o h1 h2 h3
    rw [N.src s (B.nodeLt e he s h1)] at h3
    obtain ⟨o', a1, a2, _⟩ := (W.sub _ he).src s h1 h2
    rw [h3] at a1; cases a1; exact ⟨h3, a2⟩
  constructor
  case outs =>
    rw [N.ops, List.map_append, List.nodup_append]
    refine ⟨W.outs, List.nodup_singleton _, ?_⟩
    intro a ha b hb hab
    obtain ⟨y, hy, rfl⟩ := List.mem_map.1 ha
    have hb : b = x.out := List.mem_singleton.1 hb
    exact outNe y hy (hab.trans hb)
  case outIn =>
    intro y hy
    rw [N.gin]
    rcases N.ofOps hy with h | h
    · exact W.outIn y h
    · subst h
      intro h
      have h1 := B.lt _ (B.inVar _ h)
      rw [N.out] at h1
      exact Nat.lt_irrefl _ h1
  case sub =>
    intro e he
    rcases N.ofOps he with h | h
    · exact N.subOld B h
    · exact N.sub e h.symm
  case disj =>
    have key : ∀ e f, .ew e ∈ g.ops → x = .ew f → ∀ s, s ∈ e.nodes → s ∈ f.nodes →
        (s, s) ∈ e.subIn ∧ (s, s) ∈ f.subIn := by
      intro e f he hf s h1 h2
      have l1 := B.nodeLt e he s h1
      rcases N.nodes f hf s h2 with ⟨a, b⟩ | ⟨a, _⟩
      · exact ⟨B.nodeVar e he s h1 a, b⟩
      · exact absurd (Nat.lt_trans l1 a) (Nat.lt_irrefl _)
    intro e f he hf hne s h1 h2
    rcases N.ofOps he with h | h <;> rcases N.ofOps hf with h' | h'
    · exact W.disj e f h h' hne s h1 h2
    · exact key e f h h'.symm s h1 h2
    · exact (key f e h' h.symm s h2 h1).symm
    · rw [← h'] at h
      injection h with h
      subst h
      exact absurd rfl hne
  case own =>
    intro e f he hf s s' o h1 h2 h3 h4 h5 h6
    rcases N.ofOps he with h | h <;> rcases N.ofOps hf with h' | h'
    · exact W.own e f h h' s s' o h1 h2 h3 h4 (lt e h s o h1 h2 h5).1 (lt f h' s' o h3 h4 h6).1
    · have a := (lt e h s o h1 h2 h5).2
      have b := N.newOp f h'.symm s' o h3 h4 h6
      omega
    · have a := (lt f h' s' o h3 h4 h6).2
      have b := N.newOp e h.symm s o h1 h2 h5
      omega
    · have : e = f := by rw [← h'] at h; injection h
      subst this
      exact N.own e h.symm s s' o h1 h2 h3 h4 h5 h6
  case single =>
    intro y hy z hz t h1 h2 hi
    rw [N.gin] at hi
    rcases N.ofOps hy with h | h <;> rcases N.ofOps hz with h' | h'
    · exact W.single y h z h' t h1 h2 hi
    · subst h'
      exact absurd h1 (N.once t h2 hi y h)
    · subst h
      exact absurd h2 (N.once t h1 hi z h')
    · rw [h, h']
  case noCopy =>
    intro e he k s h1 h2 h3 o ho y l
    rw [N.gin] at h2
    rcases N.ofOps he with h | h
    · have S := W.sub _ h
      have hs := S.argNode _ _ h1
      rw [N.rank k (B.lt k (keyVar B h h1))] at h3
      have hss : (s, s) ∉ e.subIn := by
        intro hss
        have := val_unique S.valsND h1 hss
        subst this
        have := Ctx.selfRank S hss
        omega
      rw [N.dstSame s (B.nodeLt e h s hs) (fun hv => hss (B.nodeVar e h s hs hv))] at ho
      rw [N.iop o (S.dstLt hs hss o ho)]
      exact W.noCopy e h k s h1 h2 h3 o ho y l
    · exact N.noCopy e h.symm k s h1 h3 o ho y l

theorem binv (N : NewOp g g' vars x) (B : BInv g vars) : BInv g' (vars ++ [g.next]) := by
  have I := B.pass
  have hN := N.next
  have mv : ∀ v, v ∈ vars → v ∈ vars ++ [g.next] := fun v h => List.mem_append_left _ h
  have nv : g.next ∉ vars := fun h => Nat.lt_irrefl _ (B.lt _ h)
  have ofv : ∀ v, v ∈ vars ++ [g.next] → v ∈ vars ∨ v = g.next := by
    intro v h
    rcases List.mem_append.1 h with h | h
    · exact .inl h
    · exact .inr (List.mem_singleton.1 h)
  have made : ∀ v ∈ vars, v ∈ g'.inputs ∨ ∃ y ∈ g'.ops, y.out = v := by
    intro v hv
    rcases B.made v hv with h | ⟨y, hy, h⟩
    · exact .inl (N.gin ▸ h)
    · exact .inr ⟨y, N.keep hy, h⟩
  have nodeVar : ∀ e, .ew e ∈ g'.ops → ∀ s ∈ e.nodes, s ∈ vars ++ [g.next] → (s, s) ∈ e.subIn := by
    intro e he s hs hv
    rcases N.ofOps he with h | h
    · rcases ofv s hv with h' | h'
      · exact B.nodeVar e h s hs h'
      · subst h'
        exact absurd (B.nodeLt e h _ hs) (Nat.lt_irrefl _)
    · rcases N.nodes e h.symm s hs with ⟨_, b⟩ | ⟨a, _⟩
      · exact b
      · rcases ofv s hv with h' | h'
        · exact absurd (Nat.lt_trans (B.lt s h') a) (Nat.lt_irrefl _)
        · subst h'
          exact absurd a (Nat.lt_irrefl _)
  have outVar : ∀ y ∈ g'.ops, y.out ∈ vars ++ [g.next] := by
    intro y hy
    rcases N.ofOps hy with h | h
    · exact mv _ (B.outVar y h)
    · subst h
      rw [N.out]
      exact List.mem_append_right _ List.mem_cons_self
  constructor
  case pass =>
    constructor
    case wf => exact N.wf B
    case ord =>
      intro y hy t ht
      rcases N.ofOps hy with h | h
      · exact I.ord y h t ht
      · subst h
        rw [N.out]
        exact B.lt t (N.ins t ht)
    case closed =>
      intro y hy t ht
      rcases N.ofOps hy with h | h
      · exact made t (B.insVar y h t ht)
      · subst h
        exact made t (N.ins t ht)
    case outNode =>
      intro y hy e he h
      exact nodeVar e he _ h (outVar y hy)
    case noSrc =>
      intro y hy
      rcases N.ofOps hy with h | h
      · rw [N.src _ (B.lt _ (B.outVar y h))]
        exact I.noSrc y h
      · subst h
        rw [N.out]
        exact N.noSrc
  case nd =>
    rw [List.nodup_append]
    refine ⟨B.nd, List.nodup_singleton _, ?_⟩
    intro a ha b hb hab
    rw [List.mem_singleton] at hb
    subst hb
    subst hab
    exact nv ha
  case lt =>
    intro v hv
    rcases ofv v hv with h | h
    · exact Nat.lt_trans (B.lt v h) hN
    · omega
  case inVar =>
    intro t ht
    rw [N.gin] at ht
    exact mv _ (B.inVar t ht)
  case outVar => exact outVar
  case insVar =>
    intro y hy t ht
    rcases N.ofOps hy with h | h
    · exact mv _ (B.insVar y h t ht)
    · subst h
      exact mv _ (N.ins t ht)
  case made =>
    intro v hv
    rcases ofv v hv with h | h
    · exact made v h
    · exact .inr ⟨x, N.mem, N.out.trans h.symm⟩
  case nodeLt =>
    intro e he s hs
    rcases N.ofOps he with h | h
    · exact Nat.lt_trans (B.nodeLt e h s hs) hN
    · rcases N.nodes e h.symm s hs with ⟨a, _⟩ | ⟨_, b⟩
      · exact Nat.lt_trans (B.lt s a) hN
      · exact b
  case nodeVar => exact nodeVar
  case fresh => exact N.fresh

/-- Values of the old graph are values of the new one. -/
def Mono (g g' : Graph V) (inp : Node → List Nat → V) : Site → V → Prop
  | .ten t i, v => Val g' inp (.ten t i) v
  | .sc e i s, v => .ew e ∈ g.ops → s ∈ e.nodes → Val g' inp (.sc e i s) v

theorem mono (N : NewOp g g' vars x) (B : BInv g vars) {inp : Node → List Nat → V} {y : Site} {v : V}
    (h : Val g inp y v) : Mono g g' inp y v := by
  have W := B.pass.wf
  have lt : ∀ {e}, .ew e ∈ g.ops → ∀ {s o}, s ∈ e.nodes → s ∉ vals e.subIn → g.src s = [o] →
      g'.src s = [o] ∧ g'.iop o = g.iop o := by
    intro e he s o h1 h2 h3
    obtain ⟨o', a1, a2, _⟩ := (W.sub _ he).src s h1 h2
    rw [h3] at a1; cases a1
    exact ⟨by rw [N.src s (B.nodeLt e he s h1)]; exact h3, N.iop o a2⟩
  induction h with
  | input h => exact .input (N.gin ▸ h)
  | ew hm _ ih => exact .ew (N.keep hm) (ih hm (W.sub _ hm).outNode)
  | opq vs hm _ ih => exact .opq vs (N.keep hm) ih
  | @arg e i k s v hm _ ih =>
    intro he hs
    refine .arg hm ?_
    rw [N.rank k (B.lt k (keyVar B he hm))]
    exact ih
  | un hv ho hi _ ih =>
    intro he hs
    obtain ⟨a, b⟩ := lt he hs hv ho
    exact .un hv a (b.trans hi) (ih he ((W.sub _ he).unIn hs hv ho hi))
  | bin hv ho hi _ _ ih1 ih2 =>
    intro he hs
    obtain ⟨a, b⟩ := lt he hs hv ho
    have := (W.sub _ he).binIn hs hv ho hi
    exact .bin hv a (b.trans hi) (ih1 he this.1) (ih2 he this.2)
  | copy hv ho hi _ ih =>
    intro he hs
    obtain ⟨a, b⟩ := lt he hs hv ho
    exact .copy hv a (b.trans hi) (ih he ((W.sub _ he).copyIn hs hv ho hi))

end NewOp

/-! ### The three kinds of operators -/

theorem newOpq {g : Graph V} {vars : List Nat} (B : BInv g vars) (ins : List Nat) (rank : Nat)
    (fn : List (List Nat → V) → List Nat → V) (hi : ∀ t ∈ ins, t ∈ vars)
    (ho : ∀ t ∈ ins, t ∉ g.inputs → ∀ y ∈ g.ops, t ∉ y.ins) :
    NewOp g (g.addOpq ins rank fn).1 vars (.opq ins g.next fn) where
  rank t ht := upd_ne _ _ (Nat.ne_of_lt ht)
  gin := rfl
  nIop := Nat.le_refl _
  iop _ _ := rfl
  src _ _ := rfl
  dst _ _ h := h
  dstSame _ _ _ := rfl
  ops := rfl
  out := rfl
  next := Nat.lt_succ_self _
  ins := hi
  once := ho
  sub e h := by cases h
  nodes e h := by cases h
  own e h := by cases h
  newOp e h := by cases h
  noCopy e h := by cases h
  fresh s hs := B.fresh s (by
    have : g.next + 1 ≤ s := hs
    omega)
  noSrc := (B.fresh _ (Nat.le_refl _)).1

theorem newUn {g : Graph V} {vars : List Nat} (B : BInv g vars) (f : V → V) (x : Nat) (hx : x ∈ vars)
    (hr : 0 < g.rank x) (ho : x ∉ g.inputs → ∀ y ∈ g.ops, x ∉ y.ins) :
    NewOp g (g.addUn f x).1 vars 
      (.ew ⟨[x], g.next, [(x, g.next + 1)], [g.next + 1, g.next + 2, g.next + 3], g.next + 3⟩) := by
  have lx := B.lt x hx
  have F := B.fresh
  generalize hg : (g.addUn f x).1 = g'
  have e1 : g'.rank = upd g.rank g.next (g.rank x) := by rw [← hg]; rfl
  have e2 : g'.src = upd (upd g.src (g.next + 2) [g.nIop]) (g.next + 3) [g.nIop + 1] := by rw [← hg]; rfl
  have e3 : g'.dst = upd (upd g.dst (g.next + 1) (g.dst (g.next + 1) ++ [g.nIop])) (g.next + 2) [g.nIop + 1] := by
    rw [← hg]; rfl
  have e4 : g'.iop = upd (upd g.iop g.nIop ⟨.un f, [g.next + 1]⟩) (g.nIop + 1)
      ⟨.copy (g.next + 2), [g.next + 3, g.next + 2]⟩ := by rw [← hg]; rfl
  have e5 : g'.nIop = g.nIop + 2 := by rw [← hg]; rfl
  have e6 : g'.next = g.next + 4 := by rw [← hg]; rfl
  have s0 : ∀ s, s ≠ g.next + 2 → s ≠ g.next + 3 → g'.src s = g.src s := by
    intro s h1 h2; rw [e2, upd_ne _ _ h2, upd_ne _ _ h1]
  have s2 : g'.src (g.next + 2) = [g.nIop] := by rw [e2, upd_ne _ _ (by omega), upd_self]
  have s3 : g'.src (g.next + 3) = [g.nIop + 1] := by rw [e2, upd_self]
  have d0 : ∀ s, s ≠ g.next + 1 → s ≠ g.next + 2 → g'.dst s = g.dst s := by
    intro s h1 h2; rw [e3, upd_ne _ _ h2, upd_ne _ _ h1]
  have d1 : g'.dst (g.next + 1) = [g.nIop] := by
    rw [e3, upd_ne _ _ (by omega), upd_self, (F _ (by omega)).2]; rfl
  have d2 : g'.dst (g.next + 2) = [g.nIop + 1] := by rw [e3, upd_self]
  have d3 : g'.dst (g.next + 3) = [] := by rw [d0 _ (by omega) (by omega), (F _ (by omega)).2]
  have i0 : g'.iop g.nIop = ⟨.un f, [g.next + 1]⟩ := by rw [e4, upd_ne _ _ (by omega), upd_self]
  have i1 : g'.iop (g.nIop + 1) = ⟨.copy (g.next + 2), [g.next + 3, g.next + 2]⟩ := by rw [e4, upd_self]
  have r0 : g'.rank g.next = g.rank x := by rw [e1, upd_self]
  have r1 : g'.rank x = g.rank x := by rw [e1, upd_ne _ _ (by omega)]
  constructor
  case rank => intro t ht; rw [e1, upd_ne _ _ (by omega)]
  case gin => rw [← hg]; rfl
  case nIop => omega
  case iop => intro o ho; rw [e4, upd_ne _ _ (by omega), upd_ne _ _ (by omega)]
  case src => intro s hs; exact s0 s (by omega) (by omega)
  case dst =>
    intro s o h
    by_cases h1 : s = g.next + 1
    · subst h1; rw [(F _ (by omega)).2] at h; cases h
    · by_cases h2 : s = g.next + 2
      · subst h2; rw [(F _ (by omega)).2] at h; cases h
      · rw [d0 s h1 h2]; exact h
  case dstSame => intro s hs _; exact d0 s (by omega) (by omega)
  case ops => rw [← hg]; rfl
  case out => rfl
  case next => omega
  case ins => intro t ht; rw [List.mem_singleton.1 ht]; exact hx
  case once => intro t ht; rw [List.mem_singleton.1 ht]; exact ho
  case sub =>
    intro e h
    cases h
    constructor
    case keysND => exact List.nodup_singleton _
    case valsND => exact List.nodup_singleton _
    case inputs => intro y; simp [keys]
    case inputsND => exact List.nodup_singleton _
    case rankOut => show 0 < g'.rank g.next; omega
    case rankIn =>
      intro y hy
      rw [List.mem_singleton.1 hy]
      show g'.rank x ≤ g'.rank g.next
      omega
    case argNode => intro k s h; cases List.mem_singleton.1 h; simp
    case arg =>
      intro k s h
      cases List.mem_singleton.1 h
      refine .inr ⟨by omega, ?_, ?_, by omega⟩
      · rw [s0 _ (by omega) (by omega)]; exact (F _ (by omega)).1
      · simp
    case outNode => simp
    case outVal => simp [vals]
    case src =>
      intro s hs hv
      simp only [vals, List.map_cons, List.map_nil, List.mem_singleton] at hv
      simp only [List.mem_cons, List.not_mem_nil, or_false] at hs
      rcases hs with h | h | h
      · exact absurd h hv
      · subst h
        exact ⟨_, s2, by omega, .un i0 (by simp) (by rw [d1]; simp)⟩
      · subst h
        exact ⟨_, s3, by omega, .copy i1 (by simp) (by rw [d2]; simp)⟩
    case dst =>
      intro s hs _ o ho
      simp only [List.mem_cons, List.not_mem_nil, or_false] at hs
      rcases hs with h | h | h
      · subst h
        rw [d1] at ho
        cases List.mem_singleton.1 ho
        exact ⟨g.next + 2, by simp, by simp [vals], s2, by simp [i0], by omega⟩
      · subst h
        rw [d2] at ho
        cases List.mem_singleton.1 ho
        exact ⟨g.next + 3, by simp, by simp [vals], s3, by simp [i1], by omega⟩
      · subst h
        rw [d3] at ho
        cases ho
    case dstND =>
      intro s hs _
      simp only [List.mem_cons, List.not_mem_nil, or_false] at hs
      rcases hs with h | h | h
      · subst h; rw [d1]; exact List.nodup_singleton _
      · subst h; rw [d2]; exact List.nodup_singleton _
      · subst h; rw [d3]; exact List.nodup_nil
  case nodes =>
    rintro e h s hs
    cases h
    simp only [List.mem_cons, List.not_mem_nil, or_false] at hs
    right
    rw [e6]
    rcases hs with h | h | h <;> subst h <;> exact ⟨by omega, by omega⟩
  case own =>
    rintro e h s s' o hs hv hs' hv' h1 h2
    cases h
    simp only [vals, List.map_cons, List.map_nil, List.mem_singleton] at hv hv'
    simp only [List.mem_cons, List.not_mem_nil, or_false] at hs hs'
    rcases hs with h | h | h <;> rcases hs' with h' | h' | h'
    all_goals first
      | exact absurd h hv
      | exact absurd h' hv'
      | (subst h; subst h'; rfl)
      | (subst h; subst h'; rw [s2] at h1; rw [s3] at h2; rw [← h1] at h2; simp at h2)
      | (subst h; subst h'; rw [s3] at h1; rw [s2] at h2; rw [← h1] at h2; simp at h2)
  case newOp =>
    rintro e h s o hs hv h1
    cases h
    simp only [vals, List.map_cons, List.map_nil, List.mem_singleton] at hv
    simp only [List.mem_cons, List.not_mem_nil, or_false] at hs
    rcases hs with h | h | h
    · exact absurd h hv
    · subst h; rw [s2] at h1; cases h1; exact Nat.le_refl _
    · subst h; rw [s3] at h1; cases h1; exact Nat.le_succ _
  case noCopy =>
    rintro e h k s hk _ o ho y l
    cases h
    cases List.mem_singleton.1 hk
    rw [d1] at ho
    cases List.mem_singleton.1 ho
    rw [i0]
    intro h
    cases h
  case fresh =>
    intro s hs
    rw [e6] at hs
    rw [s0 s (by omega) (by omega), d0 s (by omega) (by omega)]
    exact F s (by omega)
  case noSrc => rw [s0 _ (by omega) (by omega)]; exact (F _ (Nat.le_refl _)).1

/-- The scalar that stands for an operand. -/
theorem scalarOf_cases (g : Graph V) (x fr : Nat) :
    (scalarOf g x fr = x ∧ g.rank x = 0) ∨ (scalarOf g x fr = fr ∧ 0 < g.rank x) := by
  unfold scalarOf
  by_cases h : g.rank x = 0
  · rw [if_pos h]; exact .inl ⟨rfl, h⟩
  · rw [if_neg h]; exact .inr ⟨rfl, by omega⟩

theorem newBin {g g' : Graph V} {vars : List Nat} (B : BInv g vars) (f : V → V → V) (l r : Nat)
    (hl : l ∈ vars) (hr : r ∈ vars) (hrk : ¬(g.rank l = 0 ∧ g.rank r = 0))
    (ol : l ∉ g.inputs → ∀ y ∈ g.ops, l ∉ y.ins) (or : r ∉ g.inputs → ∀ y ∈ g.ops, r ∉ y.ins) (n : Node)
    (h : g.addBin f l r = some (g', n)) :
    l ≠ r ∧ n = g.next ∧
    NewOp g g' vars (.ew ⟨[l, r], g.next,
      [(l, scalarOf g l (g.next + 1)), (r, scalarOf g r (g.next + 2))],
      [scalarOf g l (g.next + 1), scalarOf g r (g.next + 2), g.next + 3, g.next + 4], g.next + 4⟩) ∧
    g'.rank g.next = max (g.rank l) (g.rank r) ∧
    g'.src (g.next + 3) = [g.nIop] ∧ g'.src (g.next + 4) = [g.nIop + 1] ∧
    g'.iop g.nIop = ⟨.bin f, [scalarOf g l (g.next + 1), scalarOf g r (g.next + 2)]⟩ ∧
    g'.iop (g.nIop + 1) = ⟨.copy (g.next + 3), [g.next + 4, g.next + 3]⟩ := by
  have lr : l ≠ r := by
    intro e
    rw [Graph.addBin, if_pos e] at h
    cases h
  have ll := B.lt l hl
  have rl := B.lt r hr
  have F := B.fresh
  rw [Graph.addBin, if_neg lr] at h
  dsimp only at h
  have cl := scalarOf_cases g l (g.next + 1)
  have cr := scalarOf_cases g r (g.next + 2)
  revert h cl cr
  generalize scalarOf g l (g.next + 1) = a
  generalize scalarOf g r (g.next + 2) = b
  intro h cl cr
  have h' := Option.some.inj h
  have hn : n = g.next := (congrArg Prod.snd h').symm
  have hg : _ = g' := congrArg Prod.fst h'
  clear h h'
  dsimp only at hg
  have ab : a ≠ b := by rcases cl with c | c <;> rcases cr with d | d <;> omega
  have a0 : a < g.next ∨ a = g.next + 1 := by omega
  have b0 : b < g.next ∨ b = g.next + 2 := by omega
  have e1 : g'.rank = upd g.rank g.next (max (g.rank l) (g.rank r)) := by rw [← hg]
  have e2 : g'.src = upd (upd g.src (g.next + 3) [g.nIop]) (g.next + 4) [g.nIop + 1] := by rw [← hg]
  have e3 : g'.dst = upd (upd (upd g.dst a (g.dst a ++ [g.nIop])) b
      ((upd g.dst a (g.dst a ++ [g.nIop])) b ++ [g.nIop])) (g.next + 3) [g.nIop + 1] := by
    rw [← hg]
  have e4 : g'.iop = upd (upd g.iop g.nIop ⟨.bin f, [a, b]⟩) (g.nIop + 1)
      ⟨.copy (g.next + 3), [g.next + 4, g.next + 3]⟩ := by rw [← hg]
  have e5 : g'.nIop = g.nIop + 2 := by rw [← hg]
  have e6 : g'.next = g.next + 5 := by rw [← hg]
  have s0 : ∀ s, s ≠ g.next + 3 → s ≠ g.next + 4 → g'.src s = g.src s := by
    intro s h1 h2; rw [e2, upd_ne _ _ h2, upd_ne _ _ h1]
  have s2 : g'.src (g.next + 3) = [g.nIop] := by rw [e2, upd_ne _ _ (by omega), upd_self]
  have s3 : g'.src (g.next + 4) = [g.nIop + 1] := by rw [e2, upd_self]
  have d0 : ∀ s, s ≠ a → s ≠ b → s ≠ g.next + 3 → g'.dst s = g.dst s := by
    intro s h1 h2 h3; rw [e3, upd_ne _ _ h3, upd_ne _ _ h2, upd_ne _ _ h1]
  have da : g'.dst a = g.dst a ++ [g.nIop] := by
    rw [e3, upd_ne _ _ (by omega), upd_ne _ _ ab, upd_self]
  have db : g'.dst b = g.dst b ++ [g.nIop] := by
    rw [e3, upd_ne _ _ (by omega), upd_self, upd_ne _ _ ab.symm]
  have d2 : g'.dst (g.next + 3) = [g.nIop + 1] := by rw [e3, upd_self]
  have d3 : g'.dst (g.next + 4) = [] := by
    rw [d0 _ (by omega) (by omega) (by omega), (F _ (by omega)).2]
  have i0 : g'.iop g.nIop = ⟨.bin f, [a, b]⟩ := by rw [e4, upd_ne _ _ (by omega), upd_self]
  have i1 : g'.iop (g.nIop + 1) = ⟨.copy (g.next + 3), [g.next + 4, g.next + 3]⟩ := by rw [e4, upd_self]
  have r0 : g'.rank g.next = max (g.rank l) (g.rank r) := by rw [e1, upd_self]
  have r1 : g'.rank l = g.rank l := by rw [e1, upd_ne _ _ (by omega)]
  have r2 : g'.rank r = g.rank r := by rw [e1, upd_ne _ _ (by omega)]
  have av : a ∈ vars ∧ a = l ∨ a = g.next + 1 := by
    rcases cl with c | c
    · rw [c.1]; exact .inl ⟨hl, rfl⟩
    · exact .inr c.1
  have bv : b ∈ vars ∧ b = r ∨ b = g.next + 2 := by
    rcases cr with c | c
    · rw [c.1]; exact .inl ⟨hr, rfl⟩
    · exact .inr c.1
  -- a fresh operand scalar is read by the new operator only
  have fa : a = g.next + 1 → g'.dst a = [g.nIop] := by
    intro e; rw [da, (F a (by omega)).2]; rfl
  have fb : b = g.next + 2 → g'.dst b = [g.nIop] := by
    intro e; rw [db, (F b (by omega)).2]; rfl
  have sa : a = g.next + 1 → g'.src a = [] := by
    intro e; rw [s0 _ (by omega) (by omega)]; exact (F a (by omega)).1
  have sb : b = g.next + 2 → g'.src b = [] := by
    intro e; rw [s0 _ (by omega) (by omega)]; exact (F b (by omega)).1
  have lv : l < g.next ∧ r < g.next := ⟨ll, rl⟩
  refine ⟨lr, hn, ?_, r0, s2, s3, i0, i1⟩
  constructor
  case rank => intro t ht; rw [e1, upd_ne _ _ (by omega)]
  case gin => rw [← hg]
  case nIop => omega
  case iop => intro o ho; rw [e4, upd_ne _ _ (by omega), upd_ne _ _ (by omega)]
  case src => intro s hs; exact s0 s (by omega) (by omega)
  case dst =>
    intro s o h
    by_cases h1 : s = a
    · subst h1; rw [da]; exact List.mem_append_left _ h
    · by_cases h2 : s = b
      · subst h2; rw [db]; exact List.mem_append_left _ h
      · by_cases h3 : s = g.next + 3
        · subst h3; rw [(F _ (by omega)).2] at h; cases h
        · rw [d0 s h1 h2 h3]; exact h
  case dstSame =>
    intro s hs hv
    refine d0 s ?_ ?_ (by omega)
    · rintro rfl
      rcases av with h | h
      · exact hv h.1
      · omega
    · rintro rfl
      rcases bv with h | h
      · exact hv h.1
      · omega
  case ops => rw [← hg]
  case out => rfl
  case next => omega
  case ins =>
    intro t ht
    rcases List.mem_cons.1 ht with h | h
    · rw [h]; exact hl
    · rw [List.mem_singleton.1 h]; exact hr
  case once =>
    intro t ht
    rcases List.mem_cons.1 ht with h | h
    · rw [h]; exact ol
    · rw [List.mem_singleton.1 h]; exact or
  case sub =>
    intro e h
    cases h
    constructor
    case keysND => simp [keys, lr]
    case valsND => simp [vals, ab]
    case inputs => intro y; simp [keys]
    case inputsND => simp [lr]
    case rankOut =>
      show 0 < g'.rank g.next
      rw [r0]
      omega
    case rankIn =>
      intro y hy
      show g'.rank y ≤ g'.rank g.next
      rw [r0]
      rcases List.mem_cons.1 hy with h | h
      · rw [h, r1]; omega
      · rw [List.mem_singleton.1 h, r2]; omega
    case argNode =>
      intro k s h
      rcases List.mem_cons.1 h with h | h
      · cases h; simp
      · cases List.mem_singleton.1 h; simp
    case arg =>
      intro k s h
      rcases List.mem_cons.1 h with h | h
      · cases h
        rw [r1]
        rcases cl with c | c
        · exact .inl c
        · refine .inr ⟨c.2, sa c.1, ?_, by omega⟩
          show List.count a [a, b, g.next + 3, g.next + 4] = 1
          have h1 : b ≠ a := ab.symm
          have h2 : g.next + 3 ≠ a := by omega
          have h3 : g.next + 4 ≠ a := by omega
          simp [List.count_cons, h1, h2, h3]
      · cases List.mem_singleton.1 h
        rw [r2]
        rcases cr with c | c
        · exact .inl c
        · refine .inr ⟨c.2, sb c.1, ?_, by omega⟩
          show List.count b [a, b, g.next + 3, g.next + 4] = 1
          have h2 : g.next + 3 ≠ b := by omega
          have h3 : g.next + 4 ≠ b := by omega
          simp [List.count_cons, ab, h2, h3]
    case outNode => simp
    case outVal =>
      have h2 : g.next + 4 ≠ a := by omega
      have h3 : g.next + 4 ≠ b := by omega
      simp [vals, h2, h3]
    case src =>
      intro s hs hv
      simp only [vals, List.map_cons, List.map_nil, List.mem_cons, List.not_mem_nil, or_false, not_or] at hv
      simp only [List.mem_cons, List.not_mem_nil, or_false] at hs
      rcases hs with h | h | h | h
      · exact absurd h hv.1
      · exact absurd h hv.2
      · subst h
        exact ⟨_, s2, by omega, .bin i0 ab (by simp) (by simp) (by rw [da]; simp) (by rw [db]; simp)⟩
      · subst h
        exact ⟨_, s3, by omega, .copy i1 (by simp) (by rw [d2]; simp)⟩
    case dst =>
      have v3 : g.next + 3 ∉ vals [(l, a), (r, b)] := by
        have h2 : g.next + 3 ≠ a := by omega
        have h3 : g.next + 3 ≠ b := by omega
        simp [vals, h2, h3]
      have v4 : g.next + 4 ∉ vals [(l, a), (r, b)] := by
        have h2 : g.next + 4 ≠ a := by omega
        have h3 : g.next + 4 ≠ b := by omega
        simp [vals, h2, h3]
      intro s hs hss o ho
      simp only [List.mem_cons, List.not_mem_nil, or_false] at hs hss
      rcases hs with h | h | h | h
      · subst h
        rcases av with c | c
        · exact absurd (Or.inl (by rw [← c.2])) hss
        · rw [fa c] at ho
          cases List.mem_singleton.1 ho
          exact ⟨g.next + 3, by simp, v3, s2, by simp [i0], by omega⟩
      · subst h
        rcases bv with c | c
        · exact absurd (Or.inr (by rw [← c.2])) hss
        · rw [fb c] at ho
          cases List.mem_singleton.1 ho
          exact ⟨g.next + 3, by simp, v3, s2, by simp [i0], by omega⟩
      · subst h
        rw [d2] at ho
        cases List.mem_singleton.1 ho
        exact ⟨g.next + 4, by simp, v4, s3, by simp [i1], by omega⟩
      · subst h
        rw [d3] at ho
        cases ho
    case dstND =>
      intro s hs hss
      simp only [List.mem_cons, List.not_mem_nil, or_false] at hs hss
      rcases hs with h | h | h | h
      · subst h
        rcases av with c | c
        · exact absurd (Or.inl (by rw [← c.2])) hss
        · rw [fa c]; exact List.nodup_singleton _
      · subst h
        rcases bv with c | c
        · exact absurd (Or.inr (by rw [← c.2])) hss
        · rw [fb c]; exact List.nodup_singleton _
      · subst h; rw [d2]; exact List.nodup_singleton _
      · subst h; rw [d3]; exact List.nodup_nil
  case nodes =>
    rintro e h s hs
    cases h
    simp only [List.mem_cons, List.not_mem_nil, or_false] at hs
    rw [e6]
    rcases hs with h | h | h | h
    · subst h
      rcases av with c | c
      · exact .inl ⟨c.1, by simp [← c.2]⟩
      · exact .inr ⟨by omega, by omega⟩
    · subst h
      rcases bv with c | c
      · exact .inl ⟨c.1, by simp [← c.2]⟩
      · exact .inr ⟨by omega, by omega⟩
    · subst h; exact .inr ⟨by omega, by omega⟩
    · subst h; exact .inr ⟨by omega, by omega⟩
  case own =>
    rintro e h s s' o hs hv hs' hv' h1 h2
    cases h
    simp only [vals, List.map_cons, List.map_nil, List.mem_cons, List.not_mem_nil, or_false, not_or] at hv hv'
    simp only [List.mem_cons, List.not_mem_nil, or_false] at hs hs'
    have hs : s = g.next + 3 ∨ s = g.next + 4 := by
      rcases hs with h | h | h | h
      · exact absurd h hv.1
      · exact absurd h hv.2
      · exact .inl h
      · exact .inr h
    have hs' : s' = g.next + 3 ∨ s' = g.next + 4 := by
      rcases hs' with h | h | h | h
      · exact absurd h hv'.1
      · exact absurd h hv'.2
      · exact .inl h
      · exact .inr h
    rcases hs with h | h <;> rcases hs' with h' | h'
    · rw [h, h']
    · subst h; subst h'; rw [s2] at h1; rw [s3] at h2; rw [← h1] at h2; simp at h2
    · subst h; subst h'; rw [s3] at h1; rw [s2] at h2; rw [← h1] at h2; simp at h2
    · rw [h, h']
  case newOp =>
    rintro e h s o hs hv h1
    cases h
    simp only [vals, List.map_cons, List.map_nil, List.mem_cons, List.not_mem_nil, or_false, not_or] at hv
    simp only [List.mem_cons, List.not_mem_nil, or_false] at hs
    rcases hs with h | h | h | h
    · exact absurd h hv.1
    · exact absurd h hv.2
    · subst h; rw [s2] at h1; cases h1; exact Nat.le_refl _
    · subst h; rw [s3] at h1; cases h1; exact Nat.le_succ _
  case noCopy =>
    rintro e h k s hk hrank o ho y l
    cases h
    rcases List.mem_cons.1 hk with h | h
    · cases h
      rw [r1] at hrank
      rcases cl with c | c
      · omega
      · rw [fa c.1] at ho
        cases List.mem_singleton.1 ho
        rw [i0]
        intro h
        cases h
    · cases List.mem_singleton.1 h
      rw [r2] at hrank
      rcases cr with c | c
      · omega
      · rw [fb c.1] at ho
        cases List.mem_singleton.1 ho
        rw [i0]
        intro h
        cases h
  case fresh =>
    intro s hs
    rw [e6] at hs
    rw [s0 s (by omega) (by omega), d0 s (by omega) (by omega) (by omega)]
    exact F s (by omega)
  case noSrc => rw [s0 _ (by omega) (by omega)]; exact (F _ (Nat.le_refl _)).1

end Verif.Fuse
