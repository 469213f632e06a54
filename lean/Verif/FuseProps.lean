import Verif.FuseBuildProps

/-!
# C42: fused kernels compute what the kernel body says
-/

namespace Verif.Fuse

variable {V : Type}

/-- The nodes `vars` have the values `env`. -/
def Sem (g : Graph V) (inp : Node → List Nat → V) (vars : List Nat) (env : List (Nat × (List Nat → V))) : Prop :=
  ∃ val : Node → List Nat → V, (∀ v ∈ vars, ∀ i, Val g inp (.ten v i) (val v i)) ∧
    vars.map (fun v => (g.rank v, val v)) = env

theorem Sem.step {g g' : Graph V} {vars : List Nat} {x : GOp V} {inp : Node → List Nat → V}
    {val : Node → List Nat → V} (N : NewOp g g' vars x) (B : BInv g vars)
    (h : ∀ v ∈ vars, ∀ i, Val g inp (.ten v i) (val v i)) (r : Nat) (w : List Nat → V)
    (hr : g'.rank g.next = r) (hw : ∀ i, Val g' inp (.ten g.next i) (w i)) :
    Sem g' inp (vars ++ [g.next]) (vars.map (fun v => (g.rank v, val v)) ++ [(r, w)]) := by
  refine ⟨upd val g.next w, ?_, ?_⟩
  · intro v hv i
    rcases List.mem_append.1 hv with hv | hv
    · rw [upd_ne _ _ (Nat.ne_of_lt (B.lt v hv))]
      exact N.mono B (h v hv i)
    · rw [List.mem_singleton.1 hv, upd_self]
      exact hw i
  · rw [List.map_append]
    congr 1
    · apply List.map_congr_left
      intro v hv
      have lt := B.lt v hv
      rw [N.rank v lt, upd_ne _ _ (Nat.ne_of_lt lt)]
    · simp [upd_self, hr]

theorem mapM_map {α β γ : Type} (f : α → Option β) (k : β → γ) (l : List α) (m : List β)
    (h : l.mapM f = some m) : l.mapM (fun x => (f x).map k) = some (m.map k) ∧ ∀ b ∈ m, ∃ a ∈ l, f a = some b := by
  induction l generalizing m with
  | nil => cases h; exact ⟨rfl, fun b hb => by cases hb⟩
  | cons a l ih =>
    rw [List.mapM_cons] at h
    cases ha : f a with
    | none => rw [ha] at h; cases h
    | some b =>
      rw [ha] at h
      cases hl : l.mapM f with
      | none => rw [hl] at h; cases h
      | some m' =>
        rw [hl] at h
        cases h
        obtain ⟨i1, i2⟩ := ih m' hl
        refine ⟨?_, ?_⟩
        · rw [List.mapM_cons, ha, i1]; rfl
        · intro c hc
          rcases List.mem_cons.1 hc with e | hc
          · exact ⟨a, List.mem_cons_self, by rw [ha, e]⟩
          · obtain ⟨a', h1, h2⟩ := i2 c hc
            exact ⟨a', List.mem_cons_of_mem _ h1, h2⟩

theorem step_sound [Inhabited V] {g g' : Graph V} {vars : List Nat} {n : Nat} {inp : Node → List Nat → V}
    {env : List (Nat × (List Nat → V))} {c : Instr V} (B : BInv g vars) (S : Sem g inp vars env)
    (once : ∀ x ∈ c.reads, ∀ a, vars[x]? = some a → a ∉ g.inputs → ∀ y ∈ g.ops, a ∉ y.ins)
    (h : step g vars c = some (g', n)) :
    n = g.next ∧ BInv g' (vars ++ [n]) ∧ g'.inputs = g.inputs ∧
    (∃ x, g'.ops = g.ops ++ [x] ∧ ∀ t ∈ x.ins, ∃ j ∈ c.reads, vars[j]? = some t) ∧
    ∃ w, c.eval env = some w ∧ Sem g' inp (vars ++ [n]) (env ++ [w]) := by
  obtain ⟨val, hv, rfl⟩ := S
  have look : ∀ j : Nat, (vars.map (fun v => (g.rank v, val v)))[j]? = (vars[j]?).map (fun v => (g.rank v, val v)) :=
    fun j => List.getElem?_map
  cases c with
  | bin f l r =>
    simp only [step] at h
    cases ha : vars[l]? with
    | none => rw [ha] at h; cases h
    | some a =>
      cases hb : vars[r]? with
      | none => rw [ha, hb] at h; cases h
      | some b =>
        rw [ha, hb] at h
        dsimp only at h
        have ma := List.mem_of_getElem? ha
        have mb := List.mem_of_getElem? hb
        have oa := once l (by simp [Instr.reads]) a ha
        have ob := once r (by simp [Instr.reads]) b hb
        have ev : (Instr.bin f l r).eval (vars.map (fun v => (g.rank v, val v))) =
            some (max (g.rank a) (g.rank b),
              fun i => f (val a (right (g.rank a) i)) (val b (right (g.rank b) i))) := by
          simp only [Instr.eval, look, ha, hb, Option.map_some]
        by_cases h0 : g.rank a = 0 ∧ g.rank b = 0
        · rw [if_pos h0] at h
          have N := newOpq B [a, b] 0 (scalarBin f)
            (by intro t ht; rcases List.mem_cons.1 ht with e | ht
                · rw [e]; exact ma
                · rw [List.mem_singleton.1 ht]; exact mb)
            (by intro t ht; rcases List.mem_cons.1 ht with e | ht
                · rw [e]; exact oa
                · rw [List.mem_singleton.1 ht]; exact ob)
          have h := Option.some.inj h
          have hn : g.next = n := congrArg Prod.snd h
          have hg : (g.addOpq [a, b] 0 (scalarBin f)).1 = g' := congrArg Prod.fst h
          subst hn
          rw [hg] at N
          refine ⟨rfl, N.binv B, N.gin, ⟨_, N.ops, ?_⟩, _, ev, ?_⟩
          · intro t ht
            rcases List.mem_cons.1 ht with e | ht
            · exact ⟨l, by simp [Instr.reads], by rw [e]; exact ha⟩
            · exact ⟨r, by simp [Instr.reads], by rw [List.mem_singleton.1 ht]; exact hb⟩
          · refine Sem.step N B hv _ _ ?_ ?_
            · rw [← hg, h0.1, h0.2]
              exact upd_self _ _ _
            · intro i
              have := Val.opq (g := g') (inp := inp) (i := i) val N.mem (fun k hk j => by
                have : k ∈ vars := by
                  rcases List.mem_cons.1 hk with e | hk
                  · rw [e]; exact ma
                  · rw [List.mem_singleton.1 hk]; exact mb
                exact N.mono B (hv k this j))
              have e : scalarBin f (List.map val [a, b]) i =
                  f (val a (right (g.rank a) i)) (val b (right (g.rank b) i)) := by
                rw [h0.1, h0.2]; rfl
              rw [e] at this
              exact this
        · rw [if_neg h0] at h
          obtain ⟨lr, hn, N, r0, s2, s3, i0, i1⟩ := newBin B f a b ma mb h0 oa ob n h
          subst hn
          refine ⟨rfl, N.binv B, N.gin, ⟨_, N.ops, ?_⟩, _, ev, ?_⟩
          · intro t ht
            rcases List.mem_cons.1 ht with e | ht
            · exact ⟨l, by simp [Instr.reads], by rw [e]; exact ha⟩
            · exact ⟨r, by simp [Instr.reads], by rw [List.mem_singleton.1 ht]; exact hb⟩
          · refine Sem.step N B hv _ _ r0 ?_
            intro i
            have S := N.sub _ rfl
            have la := B.lt a ma
            have lb := B.lt b mb
            have na : g.next + 3 ∉ vals [(a, scalarOf g a (g.next + 1)), (b, scalarOf g b (g.next + 2))] := by
              have c1 := scalarOf_cases g a (g.next + 1)
              have c2 := scalarOf_cases g b (g.next + 2)
              have n1 : g.next + 3 ≠ scalarOf g a (g.next + 1) := by omega
              have n2 : g.next + 3 ≠ scalarOf g b (g.next + 2) := by omega
              simp [vals, n1, n2]
            refine Val.ew N.mem ?_
            refine Val.copy S.outVal s3 i1 (Val.bin na s2 i0 ?_ ?_)
            · refine Val.arg (k := a) (by simp) ?_
              rw [N.rank a la]
              exact N.mono B (hv a ma _)
            · refine Val.arg (k := b) (by simp) ?_
              rw [N.rank b lb]
              exact N.mono B (hv b mb _)
  | un f x =>
    simp only [step] at h
    cases ha : vars[x]? with
    | none => rw [ha] at h; cases h
    | some a =>
      rw [ha] at h
      dsimp only at h
      have ma := List.mem_of_getElem? ha
      have oa := once x (by simp [Instr.reads]) a ha
      have ev : (Instr.un f x).eval (vars.map (fun v => (g.rank v, val v))) =
          some (g.rank a, fun i => f (val a (right (g.rank a) i))) := by
        simp only [Instr.eval, look, ha, Option.map_some]
      have rd : ∀ t ∈ [a], ∃ j ∈ (Instr.un f x).reads, vars[j]? = some t := by
        intro t ht
        exact ⟨x, by simp [Instr.reads], by rw [List.mem_singleton.1 ht]; exact ha⟩
      by_cases h0 : g.rank a = 0
      · rw [if_pos h0] at h
        have N := newOpq B [a] 0 (scalarUn f)
          (by intro t ht; rw [List.mem_singleton.1 ht]; exact ma)
          (by intro t ht; rw [List.mem_singleton.1 ht]; exact oa)
        have h := Option.some.inj h
        have hn : g.next = n := congrArg Prod.snd h
        have hg : (g.addOpq [a] 0 (scalarUn f)).1 = g' := congrArg Prod.fst h
        subst hn
        rw [hg] at N
        refine ⟨rfl, N.binv B, N.gin, ⟨_, N.ops, rd⟩, _, ev, ?_⟩
        refine Sem.step N B hv _ _ ?_ ?_
        · rw [← hg, h0]
          exact upd_self _ _ _
        · intro i
          have := Val.opq (g := g') (inp := inp) (i := i) val N.mem (fun k hk j => by
            rw [List.mem_singleton.1 hk]
            exact N.mono B (hv a ma j))
          have e : scalarUn f (List.map val [a]) i = f (val a (right (g.rank a) i)) := by
            rw [h0]; rfl
          rw [e] at this
          exact this
      · rw [if_neg h0] at h
        have N := newUn B f a ma (by omega) oa
        have h := Option.some.inj h
        have hn : g.next = n := congrArg Prod.snd h
        have hg : (g.addUn f a).1 = g' := congrArg Prod.fst h
        subst hn
        rw [hg] at N
        refine ⟨rfl, N.binv B, N.gin, ⟨_, N.ops, rd⟩, _, ev, ?_⟩
        refine Sem.step N B hv _ _ ?_ ?_
        · rw [← hg]
          exact upd_self _ _ _
        · intro i
          have S := N.sub _ rfl
          have s2 : g'.src (g.next + 2) = [g.nIop] := by
            rw [← hg]
            show upd (upd g.src (g.next + 2) [g.nIop]) (g.next + 3) [g.nIop + 1] (g.next + 2) = _
            rw [upd_ne _ _ (by omega), upd_self]
          have s3 : g'.src (g.next + 3) = [g.nIop + 1] := by
            rw [← hg]; exact upd_self _ _ _
          have i0 : g'.iop g.nIop = ⟨.un f, [g.next + 1]⟩ := by
            rw [← hg]
            show upd (upd g.iop g.nIop ⟨.un f, [g.next + 1]⟩) (g.nIop + 1) _ g.nIop = _
            rw [upd_ne _ _ (by omega), upd_self]
          have i1 : g'.iop (g.nIop + 1) = ⟨.copy (g.next + 2), [g.next + 3, g.next + 2]⟩ := by
            rw [← hg]; exact upd_self _ _ _
          refine Val.ew N.mem ?_
          refine Val.copy S.outVal s3 i1 (Val.un (by simp [vals]) s2 i0 ?_)
          refine Val.arg (k := a) (by simp) ?_
          rw [N.rank a (B.lt a ma)]
          exact N.mono B (hv a ma _)
  | opq ins rank fn =>
    simp only [step] at h
    cases hm : ins.mapM (fun x => vars[x]?) with
    | none => rw [hm] at h; cases h
    | some l =>
      rw [hm] at h
      have h : g.addOpq l rank fn = (g', n) := Option.some.inj h
      obtain ⟨m1, m2⟩ := mapM_map _ (fun v => (g.rank v, val v)) _ _ hm
      have mv : ∀ t ∈ l, t ∈ vars := by
        intro t ht
        obtain ⟨j, _, hj⟩ := m2 t ht
        exact List.mem_of_getElem? hj
      have N := newOpq B l rank fn mv (by
        intro t ht
        obtain ⟨j, hj, hj'⟩ := m2 t ht
        exact once j hj t hj')
      have hn : g.next = n := congrArg Prod.snd h
      have hg : (g.addOpq l rank fn).1 = g' := congrArg Prod.fst h
      subst hn
      rw [hg] at N
      have ev : (Instr.opq ins rank fn).eval (vars.map (fun v => (g.rank v, val v))) =
          some (rank, fn (l.map val)) := by
        simp only [Instr.eval, look, m1, Option.map_some, List.map_map]
        rfl
      refine ⟨rfl, N.binv B, N.gin, ⟨_, N.ops, ?_⟩, _, ev, ?_⟩
      · intro t ht
        exact m2 t ht
      · refine Sem.step N B hv _ _ ?_ ?_
        · rw [← hg]
          exact upd_self _ _ _
        · intro i
          exact Val.opq val N.mem (fun k hk j => N.mono B (hv k (mv k hk) j))

/-- Computed values, those from `n0` on, are read by one instruction at most. -/
def SingleUse (n0 : Nat) (p : List (Instr V)) : Prop :=
  p.Pairwise (fun c d => ∀ x ∈ c.reads, x ∈ d.reads → x < n0)

theorem build_sound [Inhabited V] (n0 : Nat) {p : List (Instr V)} {g g' : Graph V} {vars vars' used : List Nat}
    {inp : Node → List Nat → V} {env : List (Nat × (List Nat → V))} (B : BInv g vars) (S : Sem g inp vars env)
    (hin : ∀ x, x < n0 → ∃ a, vars[x]? = some a ∧ a ∈ g.inputs)
    (hu : ∀ y ∈ g.ops, ∀ t ∈ y.ins, ∃ j ∈ used, vars[j]? = some t)
    (hp : SingleUse n0 p) (hup : ∀ c ∈ p, ∀ x ∈ used, x ∈ c.reads → x < n0)
    (h : build p g vars = some (g', vars')) :
    BInv g' vars' ∧ ∃ env', run p env = some env' ∧ Sem g' inp vars' env' := by
  induction p generalizing g vars used env with
  | nil => cases h; exact ⟨B, env, rfl, S⟩
  | cons c p ih =>
    simp only [build] at h
    cases hs : step g vars c with
    | none => rw [hs] at h; cases h
    | some r =>
      obtain ⟨g1, n⟩ := r
      rw [hs] at h
      dsimp only at h
      have hp' := List.pairwise_cons.1 hp
      have once : ∀ x ∈ c.reads, ∀ a, vars[x]? = some a → a ∉ g.inputs → ∀ y ∈ g.ops, a ∉ y.ins := by
        intro x hx a ha hi y hy hya
        obtain ⟨j, hj, hja⟩ := hu y hy a hya
        have hlt : x < vars.length := by
          rcases Nat.lt_or_ge x vars.length with h | h
          · exact h
          · rw [List.getElem?_eq_none h] at ha; cases ha
        have : x = j := (List.getElem?_inj hlt B.nd).1 (ha.trans hja.symm)
        subst this
        obtain ⟨a', h1, h2⟩ := hin x (hup c List.mem_cons_self x hj hx)
        rw [ha] at h1
        cases h1
        exact hi h2
      obtain ⟨hn, B1, gi, ⟨x, hops, hxr⟩, w, ew, S1⟩ := step_sound B S once hs
      have grow : ∀ {j t : Nat}, vars[j]? = some t → (vars ++ [n])[j]? = some t := by
        intro j t hj
        have hlt : j < vars.length := by
          rcases Nat.lt_or_ge j vars.length with h | h
          · exact h
          · rw [List.getElem?_eq_none h] at hj; cases hj
        rw [List.getElem?_append_left hlt]
        exact hj
      have := ih (used := used ++ c.reads) B1 S1
        (fun x hx => by
          obtain ⟨a, h1, h2⟩ := hin x hx
          exact ⟨a, grow h1, gi ▸ h2⟩)
        (by
          intro y hy t ht
          rw [hops] at hy
          rcases List.mem_append.1 hy with hy | hy
          · obtain ⟨j, h1, h2⟩ := hu y hy t ht
            exact ⟨j, List.mem_append_left _ h1, grow h2⟩
          · rw [List.mem_singleton.1 hy] at ht
            obtain ⟨j, h1, h2⟩ := hxr t ht
            exact ⟨j, List.mem_append_right _ h1, grow h2⟩)
        hp'.2
        (by
          intro d hd x hx hxd
          rcases List.mem_append.1 hx with h | h
          · exact hup d (List.mem_cons_of_mem _ hd) x h hxd
          · exact hp'.1 d hd x h hxd) h
      obtain ⟨B', env', h1, h2⟩ := this
      exact ⟨B', env', by simp only [run, ew]; exact h1, h2⟩

/-- The values of the arguments and constants. -/
def initEnv (ranks : List Nat) (inp : Node → List Nat → V) : List (Nat × (List Nat → V)) :=
  (List.range ranks.length).map (fun t => (ranks.getD t 0, inp t))

theorem init_binv [Inhabited V] (ranks : List Nat) :
    BInv (initGraph (V := V) ranks) (List.range ranks.length) where
  pass := {
    wf := {
      outs := List.nodup_nil
      outIn := fun _ h => by cases h
      sub := fun _ h => by cases h
      disj := fun _ _ h => by cases h
      own := fun _ _ h => by cases h
      single := fun _ h => by cases h
      noCopy := fun _ h => by cases h }
    ord := fun _ h => by cases h
    closed := fun _ h => by cases h
    outNode := fun _ h => by cases h
    noSrc := fun _ h => by cases h }
  nd := List.nodup_range
  lt := fun v h => List.mem_range.1 h
  inVar := fun t h => h
  outVar := fun _ h => by cases h
  insVar := fun _ h => by cases h
  made := fun v h => .inl h
  nodeLt := fun _ h => by cases h
  nodeVar := fun _ h => by cases h
  fresh := fun _ _ => ⟨rfl, rfl⟩

theorem init_sem [Inhabited V] (ranks : List Nat) (inp : Node → List Nat → V) :
    Sem (initGraph (V := V) ranks) inp (List.range ranks.length) (initEnv ranks inp) :=
  ⟨inp, fun _ h _ => .input h, rfl⟩

/-- The graph built from a kernel whose computed values are read once computes
what the kernel means, before any fusion. -/
theorem built_graph_computes [Inhabited V] (ranks : List Nat) (p : List (Instr V)) {g : Graph V}
    {vars : List Nat} (hp : SingleUse ranks.length p)
    (h : build p (initGraph ranks) (List.range ranks.length) = some (g, vars))
    (inp : Node → List Nat → V) :
    BInv g vars ∧ ∃ env, run p (initEnv ranks inp) = some env ∧ Sem g inp vars env :=
  build_sound ranks.length (used := []) (init_binv ranks) (init_sem ranks inp)
    (fun x hx => ⟨x, List.getElem?_range hx, List.mem_range.2 hx⟩) (fun _ h => by cases h) hp
    (fun _ _ _ h => by cases h) h

/-- Fusion preserves what a kernel computes.  Take a kernel body whose computed
values are read by at most one instruction each, for which the graph can be
built.  In whatever order the sets of inputs are iterated, the pass started at
any value ends without an error, and at every index the graph it leaves computes
the value that the body defines, and no other. -/
theorem fused_kernel_computes_partial [Inhabited V] (ranks : List Nat) (p : List (Instr V)) {g : Graph V}
    {vars : List Nat} (hp : SingleUse ranks.length p)
    (h : build p (initGraph ranks) (List.range ranks.length) = some (g, vars))
    {order : List Nat → List Nat} (ho : ∀ l x, x ∈ order l → x ∈ l) {j out : Nat} (hj : vars[j]? = some out) :
    (∃ n g', visit order n g [] [out] = some g') ∧
    ∀ n g', visit order n g [] [out] = some g' → ∀ inp : Node → List Nat → V,
      ∃ env r w, run p (initEnv ranks inp) = some env ∧ env[j]? = some (r, w) ∧ g'.rank out = r ∧
        ∀ i v, Val g' inp (.ten out i) v ↔ v = w i := by
  have B : BInv g vars := (built_graph_computes ranks p hp h (fun _ _ => default)).1
  refine ⟨visit_total ho out _ _ g [] [out] B.pass (Nat.le_refl _) (Nat.le_refl _)
    (fun t ht => by rw [List.mem_singleton.1 ht]; exact Nat.le_refl _), ?_⟩
  intro n g' hv inp
  obtain ⟨_, env, hr, val, hval, henv⟩ := built_graph_computes ranks p hp h inp
  obtain ⟨I', K⟩ := visit_keeps ho out n B.pass (fun t ht => by rw [List.mem_singleton.1 ht]; exact Nat.le_refl _) hv
  have hm := List.mem_of_getElem? hj
  refine ⟨env, g.rank out, val out, hr, ?_, by rw [K.rank], ?_⟩
  · rw [← henv, List.getElem?_map, hj]
    rfl
  · intro i v
    have h1 := (K.val inp out i _ (Nat.le_refl _)).1 (hval out hm i)
    constructor
    · intro h2
      exact (h1.det I'.wf trivial v h2).symm
    · rintro rfl
      exact h1

/-- Building succeeds exactly when the body makes sense and no operator has the
same node twice as its operands with a tensor among them. -/
theorem build_total [Inhabited V] (n0 : Nat) {p : List (Instr V)} {g : Graph V} {vars : List Nat}
    {inp : Node → List Nat → V} {env : List (Nat × (List Nat → V))} {env' : List (Nat × (List Nat → V))}
    {used : List Nat} (B : BInv g vars) (S : Sem g inp vars env)
    (hin : ∀ x, x < n0 → ∃ a, vars[x]? = some a ∧ a ∈ g.inputs)
    (hu : ∀ y ∈ g.ops, ∀ t ∈ y.ins, ∃ j ∈ used, vars[j]? = some t)
    (hp : SingleUse n0 p) (hup : ∀ c ∈ p, ∀ x ∈ used, x ∈ c.reads → x < n0)
    (hd : ∀ f l r, Instr.bin f l r ∈ p → l ≠ r) (hr : run p env = some env') :
    ∃ g' vars', build p g vars = some (g', vars') := by
  induction p generalizing g vars used env with
  | nil => exact ⟨g, vars, rfl⟩
  | cons c p ih =>
    simp only [run] at hr
    cases he : c.eval env with
    | none => rw [he] at hr; cases hr
    | some w =>
      rw [he] at hr
      dsimp only at hr
      have S' := S
      obtain ⟨val, hv, henv⟩ := S'
      have look : ∀ j : Nat, env[j]? = (vars[j]?).map (fun v => (g.rank v, val v)) := by
        intro j; rw [← henv]; exact List.getElem?_map
      have hp' := List.pairwise_cons.1 hp
      have some_step : ∃ r, step g vars c = some r := by
        cases c with
        | bin f l r =>
          simp only [Instr.eval, look] at he
          simp only [step]
          cases ha : vars[l]? with
          | none => rw [ha] at he; cases he
          | some a =>
            cases hb : vars[r]? with
            | none => rw [ha, hb] at he; cases he
            | some b =>
              dsimp only
              by_cases h0 : g.rank a = 0 ∧ g.rank b = 0
              · rw [if_pos h0]; exact ⟨_, rfl⟩
              · rw [if_neg h0]
                have hab : a ≠ b := by
                  rintro rfl
                  have hlt : l < vars.length := by
                    rcases Nat.lt_or_ge l vars.length with h | h
                    · exact h
                    · rw [List.getElem?_eq_none h] at ha; cases ha
                  exact hd f l r List.mem_cons_self ((List.getElem?_inj hlt B.nd).1 (ha.trans hb.symm))
                rw [Graph.addBin, if_neg hab]
                exact ⟨_, rfl⟩
        | un f x =>
          simp only [Instr.eval, look] at he
          simp only [step]
          cases ha : vars[x]? with
          | none => rw [ha] at he; cases he
          | some a =>
            dsimp only
            by_cases h0 : g.rank a = 0
            · rw [if_pos h0]; exact ⟨_, rfl⟩
            · rw [if_neg h0]; exact ⟨_, rfl⟩
        | opq ins rank fn =>
          simp only [Instr.eval, look] at he
          simp only [step]
          cases hm : ins.mapM (fun x => vars[x]?) with
          | some l => exact ⟨_, rfl⟩
          | none =>
            exfalso
            have key : ∀ l : List Nat, l.mapM (fun x => vars[x]?) = none →
                l.mapM (fun x => (vars[x]?).map (fun v => (g.rank v, val v))) = none := by
              intro l hl
              induction l with
              | nil => cases hl
              | cons a l ih =>
                rw [List.mapM_cons] at hl ⊢
                cases ha : vars[a]? with
                | none => rfl
                | some b =>
                  rw [ha] at hl
                  cases hl' : l.mapM (fun x => vars[x]?) with
                  | none => rw [ih hl']; rfl
                  | some m => rw [hl'] at hl; cases hl
            rw [key ins hm] at he
            cases he
      obtain ⟨⟨g1, n⟩, hs⟩ := some_step
      have once : ∀ x ∈ c.reads, ∀ a, vars[x]? = some a → a ∉ g.inputs → ∀ y ∈ g.ops, a ∉ y.ins := by
        intro x hx a ha hi y hy hya
        obtain ⟨j, hj, hja⟩ := hu y hy a hya
        have hlt : x < vars.length := by
          rcases Nat.lt_or_ge x vars.length with h | h
          · exact h
          · rw [List.getElem?_eq_none h] at ha; cases ha
        have : x = j := (List.getElem?_inj hlt B.nd).1 (ha.trans hja.symm)
        subst this
        obtain ⟨a', h1, h2⟩ := hin x (hup c List.mem_cons_self x hj hx)
        rw [ha] at h1
        cases h1
        exact hi h2
      obtain ⟨hn, B1, gi, ⟨x, hops, hxr⟩, w', ew, S1⟩ := step_sound B S once hs
      rw [he] at ew
      cases ew
      have grow : ∀ {j t : Nat}, vars[j]? = some t → (vars ++ [n])[j]? = some t := by
        intro j t hj
        have hlt : j < vars.length := by
          rcases Nat.lt_or_ge j vars.length with h | h
          · exact h
          · rw [List.getElem?_eq_none h] at hj; cases hj
        rw [List.getElem?_append_left hlt]
        exact hj
      obtain ⟨g', vars', h⟩ := ih (used := used ++ c.reads) B1 S1
        (fun x hx => by
          obtain ⟨a, h1, h2⟩ := hin x hx
          exact ⟨a, grow h1, gi ▸ h2⟩)
        (by
          intro y hy t ht
          rw [hops] at hy
          rcases List.mem_append.1 hy with hy | hy
          · obtain ⟨j, h1, h2⟩ := hu y hy t ht
            exact ⟨j, List.mem_append_left _ h1, grow h2⟩
          · rw [List.mem_singleton.1 hy] at ht
            obtain ⟨j, h1, h2⟩ := hxr t ht
            exact ⟨j, List.mem_append_right _ h1, grow h2⟩)
        hp'.2
        (by
          intro d hd x hx hxd
          rcases List.mem_append.1 hx with h | h
          · exact hup d (List.mem_cons_of_mem _ hd) x h hxd
          · exact hp'.1 d hd x h hxd)
        (fun f l r hm => hd f l r (List.mem_cons_of_mem _ hm)) hr
      exact ⟨g', vars', by simp only [build, hs]; exact h⟩

/-- A kernel body that makes sense, reads computed values once and has no binary
operator with one value for both operands is compiled and computes its meaning
after fusion. -/
theorem fused_kernel_total_partial [Inhabited V] (ranks : List Nat) (p : List (Instr V))
    (hp : SingleUse ranks.length p) (hd : ∀ f l r, Instr.bin f l r ∈ p → l ≠ r)
    (inp : Node → List Nat → V) {env : List (Nat × (List Nat → V))} (hr : run p (initEnv ranks inp) = some env)
    {order : List Nat → List Nat} (ho : ∀ l x, x ∈ order l → x ∈ l) {j r : Nat} {w : List Nat → V}
    (hj : env[j]? = some (r, w)) :
    ∃ g vars out n g', build p (initGraph ranks) (List.range ranks.length) = some (g, vars) ∧
      vars[j]? = some out ∧ visit order n g [] [out] = some g' ∧ g'.rank out = r ∧
      ∀ i v, Val g' inp (.ten out i) v ↔ v = w i := by
  obtain ⟨g, vars, h⟩ := build_total ranks.length (used := []) (init_binv ranks) (init_sem ranks inp)
    (fun x hx => ⟨x, List.getElem?_range hx, List.mem_range.2 hx⟩) (fun _ h => by cases h) hp
    (fun _ _ _ h => by cases h) hd hr
  obtain ⟨_, env', hr', val, hval, henv⟩ := built_graph_computes ranks p hp h inp
  rw [hr] at hr'
  cases hr'
  rw [← henv, List.getElem?_map] at hj
  cases ho' : vars[j]? with
  | none => rw [ho'] at hj; cases hj
  | some out =>
    obtain ⟨⟨n, g', hv⟩, K⟩ := fused_kernel_computes_partial ranks p hp h ho ho'
    obtain ⟨env', r', w', h1, h2, h3, h4⟩ := K n g' hv inp
    rw [hr] at h1
    cases h1
    rw [← henv, List.getElem?_map, hj] at h2
    cases h2
    exact ⟨g, vars, out, n, g', h, ho', hv, h3, h4⟩

/-! ### Kernels outside the guard, and examples -/

theorem Val.no_src {g : Graph V} {inp : Node → List Nat → V} {e : EOp} {i : List Nat} {s : Node} {v : V}
    (hs : s ∉ vals e.subIn) (ho : g.src s = []) : ¬ Val g inp (.sc e i s) v := by
  intro h
  cases h with
  | arg h _ => exact hs (mem_vals h)
  | un _ h => rw [ho] at h; cases h
  | bin _ h => rw [ho] at h; cases h
  | copy _ h => rw [ho] at h; cases h

/-- `t = a + b; y = t * c; return y + t` -/
def reuse : List (Instr Int) := [.bin (· + ·) 0 1, .bin (· * ·) 3 2, .bin (· + ·) 4 3]

/-- When a computed tensor is used twice, fusion loses the value: the kernel
`reuse` means `(a + b) * c + (a + b)`, and the fused graph has no value for its
result, since a copy still reads a scalar that no operator computes. -/
theorem reused_tensor_loses_value_refuted :
    ∃ g vars g', build reuse (initGraph [1, 1, 1]) [0, 1, 2] = some (g, vars) ∧ vars[5]? = some 13 ∧
      visit id 20 g [] [13] = some g' ∧
      (∀ inp : Nat → List Nat → Int, ∃ env w, run reuse (initEnv [1, 1, 1] inp) = some env ∧
        env[5]? = some (1, w) ∧ ∀ k, w [k] = (inp 0 [k] + inp 1 [k]) * inp 2 [k] + (inp 0 [k] + inp 1 [k])) ∧
      ∀ (inp : Nat → List Nat → Int) i v, ¬ Val g' inp (.ten 13 i) v := by
  refine ⟨_, _, _, rfl, rfl, rfl, ?_, ?_⟩
  · intro inp
    exact ⟨_, _, rfl, rfl, fun k => rfl⟩
  · intro inp i v h
    rcases h.inv_ten with ⟨h, _⟩ | ⟨e, he, _, h⟩ | ⟨ins, fn, vs, he, _⟩
    · revert h; decide
    · have he' := List.mem_singleton.1 he
      injection he' with he'
      subst he'
      have h1 := h.inv_copy (by decide) rfl rfl
      obtain ⟨w, z, h2, h3, _⟩ := h1.inv_bin (by decide) rfl rfl
      have h4 := h3.inv_copy (by decide) rfl rfl
      exact Val.no_src (by decide) rfl h4
    · cases List.mem_singleton.1 he

/-- `a + a` on a tensor cannot be built. -/
theorem same_operand_raises_refuted :
    build [.bin (· + ·) 0 0] (initGraph (V := Int) [1]) [0] = none ∧
    ∀ inp : Nat → List Nat → Int, ∃ env, run [.bin (· + ·) 0 0] (initEnv [1] inp) = some env :=
  ⟨rfl, fun _ => ⟨_, rfl⟩⟩

/-- `s = a + b; return (x * s) * (y * s)` with scalars `a` and `b` raises: the copy
made for the scalar used twice counts as a second source of it. -/
theorem reused_scalar_raises_refuted :
    ∃ g vars, build [.bin (· + ·) 0 1, .bin (· * ·) 2 4, .bin (· * ·) 3 4, .bin (· * ·) 5 6]
        (initGraph (V := Int) [0, 0, 1, 1]) [0, 1, 2, 3] = some (g, vars) ∧ vars[7]? = some 15 ∧
      visit id 20 g [] [15] = none := ⟨_, _, rfl, rfl, rfl⟩

/-- `return -((a + b) * c)` with tensors of ranks 2, 1 and 2 becomes one operator. -/
def chain : List (Instr Int) := [.bin (· + ·) 0 1, .bin (· * ·) 3 2, .un (- ·) 4]

example : SingleUse 3 chain := by simp [SingleUse, chain, Instr.reads]

example : ∃ g vars g', build chain (initGraph [2, 1, 2]) [0, 1, 2] = some (g, vars) ∧
    visit id 20 g [] [13] = some g' ∧ g.ops.length = 3 ∧ g'.ops.length = 1 ∧
    ∀ (inp : Nat → List Nat → Int) a b v,
      Val g' inp (.ten 13 [a, b]) v ↔ v = -((inp 0 [a, b] + inp 1 [b]) * inp 2 [a, b]) := by
  have hv : ∃ g vars g', build chain (initGraph [2, 1, 2]) [0, 1, 2] = some (g, vars) ∧
    visit id 20 g [] [13] = some g' ∧ g.ops.length = 3 ∧ g'.ops.length = 1 ∧ vars[5]? = some 13 :=
    ⟨_, _, _, rfl, rfl, rfl, rfl, rfl⟩
  obtain ⟨g, vars, g', h1, h2, h3, h4, h5⟩ := hv
  refine ⟨g, vars, g', h1, h2, h3, h4, ?_⟩
  intro inp a b v
  obtain ⟨env, r, w, e1, e2, _, e4⟩ := (fused_kernel_computes_partial (V := Int) [2, 1, 2] chain
    (by simp [SingleUse, chain, Instr.reads]) h1 (order := id) (fun _ _ h => h) h5).2 20 g' h2 inp
  cases e1
  cases e2
  exact e4 [a, b] v

/-- A tensor argument read by both fused operators: `(a + b) * a`. -/
example : ∃ g vars g', build [.bin (· + ·) 0 1, .bin (· * ·) 2 0] (initGraph (V := Int) [1, 1]) [0, 1] = some (g, vars) ∧
    visit List.reverse 20 g [] [7] = some g' ∧ g'.ops.length = 1 ∧
    ∀ (inp : Nat → List Nat → Int) i v, Val g' inp (.ten 7 i) v →
      v = (inp 0 (right 1 (right 1 i)) + inp 1 (right 1 (right 1 i))) * inp 0 (right 1 i) := by
  have hv : ∃ g vars g', build [.bin (· + ·) 0 1, .bin (· * ·) 2 0] (initGraph (V := Int) [1, 1]) [0, 1] =
      some (g, vars) ∧ visit List.reverse 20 g [] [7] = some g' ∧ g'.ops.length = 1 ∧ vars[3]? = some 7 :=
    ⟨_, _, _, rfl, rfl, rfl, rfl⟩
  obtain ⟨g, vars, g', h1, h2, h3, h4⟩ := hv
  refine ⟨g, vars, g', h1, h2, h3, ?_⟩
  intro inp i v h
  obtain ⟨env, r, w, e1, e2, _, e4⟩ := (fused_kernel_computes_partial (V := Int) [1, 1]
    [.bin (· + ·) 0 1, .bin (· * ·) 2 0] (by simp [SingleUse, Instr.reads]) h1 (order := List.reverse)
    (fun _ _ h => List.mem_reverse.1 h) h4).2 20 g' h2 inp
  cases e1
  cases e2
  exact (e4 i v).1 h

end Verif.Fuse
