import Verif.CfgBuildProps
import Verif.ReachDefProps

/-!
# The data-flow analyses on the graphs the builder makes

The results about liveness, reaching definitions and dominators hold for
graphs that satisfy some well-formedness; here they are applied to the graphs
made from function bodies, and related to executions of the bodies.
-/

namespace Verif.CfgPipeline

open Verif.CfgBuild

/-- The graph `init_var_life_info` and `compute_live_out_var` work on; `sem`
gives the loads and stores of each atom. -/
def liveGraph (g : St) (sem : Nat → Liveness.Stmt) : Liveness.Graph :=
  ⟨g.n, fun b => (g.code b).map sem, g.next⟩

/-- The graph `compute_reaching_defines` works on. -/
def reachGraph (g : St) (sem : Nat → ReachDef.Stmt) : ReachDef.Graph :=
  ⟨g.n, fun b => (g.code b).map sem, g.next, g.prev⟩

/-- The graph `fill_dominates` works on, for a function without nested
functions: the registered blocks are those of the function's scope. -/
def domGraph (g : St) : Dominators.Graph :=
  ⟨0, (List.range g.n).filter g.reg, g.next, g.prev⟩

/-! ### Well-formedness -/

theorem live_closed {decl : Nat} {body : List Stm} {g : St} (h : buildFn decl body = some g)
    (sem : Nat → Liveness.Stmt) : Liveness.Closed (liveGraph g sem) :=
  fun b _ c hc => ((buildFn_gr h).inn b c hc).2

theorem reach_ok {decl : Nat} {body : List Stm} {g : St} (h : buildFn decl body = some g)
    (sem : Nat → ReachDef.Stmt) : ReachDef.Ok (reachGraph g sem) :=
  ⟨fun b _ c hc => ((buildFn_gr h).inn b c hc).2,
   fun b _ p hp => ((buildFn_gr h).inn p b (((buildFn_gr h).conv p b).2 hp)).1,
   (buildFn_gr h).conv⟩

/-- **C37 for every function body** the graph is built for, whatever its
statements: the analysis stops, and its sets are exactly the names read before
being assigned on some continuation. -/
theorem build_live_exact (decl : Nat) (body : List Stm) (g : St) (h : buildFn decl body = some g)
    (sem : Nat → Liveness.Stmt) :
    ∃ lo, Liveness.computeLiveOut (liveGraph g sem) = some lo ∧
      ∀ b < g.n, ∀ v, v ∈ lo b ↔ Liveness.Live (liveGraph g sem) b v := by
  obtain ⟨lo, hlo⟩ := Liveness.live_terminates _ (live_closed h sem)
  exact ⟨lo, hlo, fun b hb v => Liveness.live_exact _ (live_closed h sem) lo hlo b hb v⟩

/-- **C38 for every function body** the graph is built for. -/
theorem build_reach_exact (decl : Nat) (body : List Stm) (g : St) (h : buildFn decl body = some g)
    (sem : Nat → ReachDef.Stmt) :
    ∃ st, ReachDef.computeReach (reachGraph g sem) = .done st ∧
      ∀ b < g.n, ∀ d, (d ∈ st.inn b ↔ ReachDef.ReachesAt (reachGraph g sem) b [] d) ∧
        (d ∈ st.out b ↔
          ReachDef.ReachesAt (reachGraph g sem) b ((reachGraph g sem).code b) d) := by
  obtain ⟨st, hst⟩ := ReachDef.reach_terminates _ (reach_ok h sem)
  exact ⟨st, hst, fun b hb d => ⟨ReachDef.reach_in_exact _ (reach_ok h sem) st hst b hb d,
    ReachDef.reach_out_exact _ (reach_ok h sem) st hst b hb d⟩⟩

/-! ### Executions and the analyses -/

/-- Successive blocks are linked. -/
def Linked (g : St) : Nat → List Nat → Prop
  | _, [] => True
  | b, c :: p => c ∈ g.next b ∧ Linked g c p

theorem path_linked {g : St} {b e : Nat} {tr : List Nat} (h : Path g b tr e) :
    ∃ p, Linked g b p ∧ tr = (b :: p).flatMap g.code := by
  induction h with
  | one b => exact ⟨[], trivial, by simp⟩
  | @cons b c tr e hc _ ih =>
    obtain ⟨p, hp, rfl⟩ := ih
    exact ⟨c :: p, ⟨hc, hp⟩, by simp⟩

theorem linked_split {g : St} (p1 : List Nat) : ∀ (a : Nat) (b : Nat) (p2 p : List Nat),
    Linked g a p → a :: p = p1 ++ b :: p2 → Linked g b p2 := by
  induction p1 with
  | nil => intro a b p2 p h e; cases e; exact h
  | cons x p1 ih =>
    intro a b p2 p h e
    obtain ⟨rfl, rfl⟩ := List.cons.inj e
    cases p1 with
    | nil => exact h.2
    | cons y p1 => exact ih y b p2 _ h.2 rfl

theorem linked_walk {g : St} (sem : Nat → Liveness.Stmt) (p : List Nat) : ∀ b, Linked g b p →
    Liveness.Walk (liveGraph g sem) b p := by
  induction p with
  | nil => intro b _; trivial
  | cons c p ih => intro b h; exact ⟨h.1, ih c h.2⟩

theorem linked_lt {g : St} (hg : Gr g) (p : List Nat) : ∀ b, b < g.n → Linked g b p →
    ∀ x ∈ b :: p, x < g.n := by
  induction p with
  | nil => intro b hb _ x hx; rw [List.mem_singleton.1 hx]; exact hb
  | cons c p ih =>
    intro b hb h x hx
    rcases List.mem_cons.1 hx with rfl | hx
    · exact hb
    · exact ih c (hg.inn b c h.1).2 h.2 x hx

theorem readFirst_append (v : Nat) (l l' : List Liveness.Stmt) (h : Liveness.ReadFirst v l) :
    Liveness.ReadFirst v (l ++ l') := by
  induction l with
  | nil => exact h.elim
  | cons s l ih => exact h.imp_right fun h => ⟨h.1, ih h.2⟩

theorem flatMap_map_sem {g : St} {β : Type} (sem : Nat → β) (p : List Nat) :
    (p.flatMap fun b => (g.code b).map sem) = (p.flatMap g.code).map sem := by
  rw [List.map_flatMap]

/-- **C37 and C40 together.** Take a body without `try` and without `else` on
`while` loops, and any execution of it.  The execution runs through blocks of
the graph, and whenever, from the end of one of these blocks on, it reads a
name before assigning it, the name is in the block's live-out set. -/
theorem live_sound_exec_partial (decl : Nat) (body : List Stm) (hne : body ≠ [])
    (hok : OkL body) (sem : Nat → Liveness.Stmt) :
    ∃ g lo, buildFn decl body = some g ∧
      Liveness.computeLiveOut (liveGraph g sem) = some lo ∧
      ∀ tr o, semL body tr o → ∃ p, Linked g 0 p ∧ decl :: tr <+: (0 :: p).flatMap g.code ∧
        ∀ p1 b p2, 0 :: p = p1 ++ b :: p2 →
          ∀ rest, decl :: tr = (p1 ++ [b]).flatMap g.code ++ rest →
            ∀ v, Liveness.ReadFirst v (rest.map sem) → v ∈ lo b := by
  obtain ⟨g, hg, hcov⟩ := cfg_covers_partial decl body hne hok
  obtain ⟨lo, hlo, hex⟩ := build_live_exact decl body g hg sem
  refine ⟨g, lo, hg, hlo, fun tr o hrun => ?_⟩
  obtain ⟨⟨e, tr', hp, hpre⟩, -⟩ := hcov tr o hrun
  obtain ⟨p, hl, rfl⟩ := path_linked hp
  refine ⟨p, hl, hpre, fun p1 b p2 he rest hr v hv => ?_⟩
  have h0 : 0 < g.n := by
    cases p with
    | nil =>
      rcases Nat.eq_zero_or_pos g.n with h | h
      · exfalso
        obtain ⟨R, h1, h2⟩ := parseL_done body [] (fresh (St.empty.add [decl] false)) hok
          (wf_fresh _)
        have : buildFn decl body = some (R.st.connectOpt 0 R.head) := by unfold buildFn; rw [h1]
        rw [hg] at this
        cases this
        rw [connectOpt_n] at h
        have := h2.ext.le
        change 1 ≤ _ at this
        omega
      · exact h
    | cons c p => exact ((buildFn_gr hg).inn 0 c hl.1).1
  have hb : b < g.n := linked_lt (buildFn_gr hg) p 0 h0 hl b (by rw [he]; simp)
  refine (hex b hb v).2 ⟨p2, linked_walk sem p2 b (linked_split p1 0 b p2 p hl he), ?_⟩
  have hpre' : rest <+: p2.flatMap g.code := by
    have : (p1 ++ [b]).flatMap g.code ++ rest <+:
        (p1 ++ [b]).flatMap g.code ++ p2.flatMap g.code := by
      rw [← hr, ← List.flatMap_append]
      have : 0 :: p = p1 ++ [b] ++ p2 := by rw [he]; simp
      rw [← this]
      exact hpre
    exact (List.prefix_append_right_inj _).1 this
  obtain ⟨t, ht⟩ := hpre'
  show Liveness.ReadFirst v (p2.flatMap fun b => (g.code b).map sem)
  rw [flatMap_map_sem, ← ht, List.map_append]
  exact readFirst_append v _ _ hv

theorem flatMap_split {g : St} (p : List Nat) : ∀ (before : List Nat) (a : Nat) (after : List Nat),
    before ++ a :: after <+: p.flatMap g.code →
    ∃ p1 b p2 pre post, p = p1 ++ b :: p2 ∧ g.code b = pre ++ a :: post ∧
      before = p1.flatMap g.code ++ pre := by
  induction p with
  | nil => intro before a after h; have := h.length_le; simp at this
  | cons c p ih =>
    intro before a after h
    rw [List.flatMap_cons] at h
    by_cases hlt : before.length < (g.code c).length
    · refine ⟨[], c, p, before, (g.code c).drop (before.length + 1), rfl, ?_, by simp⟩
      have h1 : before ++ [a] <+: g.code c ++ p.flatMap g.code :=
        List.IsPrefix.trans ⟨after, by simp⟩ h
      have h2 : before ++ [a] <+: g.code c :=
        List.prefix_of_prefix_length_le h1 (List.prefix_append _ _) (by simp; omega)
      obtain ⟨t, ht⟩ := h2
      rw [← ht]
      simp [List.drop_append]
    · have h1 : g.code c <+: before ++ a :: after :=
        List.prefix_of_prefix_length_le (List.prefix_append _ _) h (by simp; omega)
      have h2 : g.code c <+: before :=
        List.prefix_of_prefix_length_le h1 (List.prefix_append _ _) (by omega)
      obtain ⟨t, rfl⟩ := h2
      rw [List.append_assoc] at h
      obtain ⟨p1, b, p2, pre, post, rfl, h4, rfl⟩ := ih t a after ((List.prefix_append_right_inj _).1 h)
      exact ⟨c :: p1, b, p2, pre, post, rfl, h4, by simp⟩

theorem linked_pathTo {g : St} (hg : Gr g) (sem : Nat → ReachDef.Stmt) (p1 : List Nat) :
    ∀ (a b : Nat) (p2 p : List Nat), Linked g a p → a :: p = p1 ++ b :: p2 →
      ∀ r, ReachDef.PathTo (reachGraph g sem) r a →
        ReachDef.PathTo (reachGraph g sem) (p1.reverse ++ r) b := by
  induction p1 with
  | nil => intro a b p2 p h e r hr; cases e; exact hr
  | cons x p1 ih =>
    intro a b p2 p h e r hr
    obtain ⟨rfl, rfl⟩ := List.cons.inj e
    rw [List.reverse_cons, List.append_assoc]
    cases p1 with
    | nil => exact ⟨(hg.conv _ _).1 h.1, hr⟩
    | cons y p1 => exact ih y b p2 _ h.2 rfl (a :: r) ⟨(hg.conv _ _).1 h.1, hr⟩

/-- **C38 and C40 together.** Take a body without `try` and without `else` on
`while` loops, an execution of it, and any atom `a` it executes.  Whatever
name the atom loads, the assignment that executed last for that name is among
the definitions the use-define chain gives for the load. -/
theorem use_def_sound_exec_partial (decl : Nat) (body : List Stm) (hne : body ≠ [])
    (hok : OkL body) (sem : Nat → ReachDef.Stmt) :
    ∃ g st, buildFn decl body = some g ∧
      ReachDef.computeReach (reachGraph g sem) = .done st ∧
      ∀ tr o, semL body tr o → ∀ before a after, decl :: tr = before ++ a :: after →
        ∃ b < g.n, ∃ pre post, g.code b = pre ++ a :: post ∧
          ∀ l ∈ (sem a).loads, ∃ ds, (l, ds) ∈ ReachDef.useDefs (reachGraph g sem) st b ∧
            ∀ d, ReachDef.lastDef l.name (before.map sem) = some d → d ∈ ds := by
  obtain ⟨g, hg, hcov⟩ := cfg_covers_partial decl body hne hok
  obtain ⟨st, hst⟩ := ReachDef.reach_terminates _ (reach_ok hg sem)
  refine ⟨g, st, hg, hst, fun tr o hrun before a after he => ?_⟩
  obtain ⟨⟨e, tr', hp, hpre⟩, -⟩ := hcov tr o hrun
  obtain ⟨p, hl, rfl⟩ := path_linked hp
  rw [he] at hpre
  obtain ⟨p1, b, p2, pre, post, hsp, hcode, hbef⟩ := flatMap_split _ before a after hpre
  have hgr := buildFn_gr hg
  have hb : b < g.n := by
    by_contra hb
    have hc : g.code b ≠ [] := by rw [hcode]; simp
    obtain ⟨R, h1, h2⟩ := parseL_done body [] (fresh (St.empty.add [decl] false)) hok (wf_fresh _)
    have h3 : buildFn decl body = some (R.st.connectOpt 0 R.head) := by unfold buildFn; rw [h1]
    rw [hg] at h3
    have h0 : 0 < g.n := by
      cases h3
      rw [connectOpt_n]
      exact Nat.lt_of_lt_of_le Nat.zero_lt_one h2.ext.le
    exact hb (linked_lt hgr p 0 h0 hl b (by rw [hsp]; simp))
  refine ⟨b, hb, pre, post, hcode, fun l hll => ?_⟩
  obtain ⟨ds, h1, h2⟩ := (ReachDef.use_def_exact _ (reach_ok hg sem) st hst b hb).1
    (pre.map sem) (sem a) (post.map sem) l (by show (g.code b).map sem = _; rw [hcode]; simp) hll
  refine ⟨ds, h1, fun d hd => (h2 d).2 ?_⟩
  have hname : d.name = l.name := by
    unfold ReachDef.lastDef at hd
    have := List.mem_of_getLast? hd
    simpa using (List.mem_filter.1 this).2
  refine ⟨hname, p1.reverse, ?_, ?_⟩
  · have := linked_pathTo hgr sem p1 0 b p2 p hl hsp [] trivial
    simpa using this
  · rw [hname, ← hd, hbef]
    congr 1
    show (p1.reverse.reverse.flatMap fun b => (g.code b).map sem) ++ _ = _
    rw [List.reverse_reverse, flatMap_map_sem, List.map_append]

/-! ### `try` -/

/-- Decides, up to some length, whether atoms can be executed along a path. -/
def follow (g : St) : Nat → Nat → List Nat → Bool
  | 0, _, _ => true
  | k + 1, b, tr => tr.isPrefixOf (g.code b) ||
      ((g.code b).isPrefixOf tr && (g.next b).any fun c => follow g k c (tr.drop (g.code b).length))

theorem follow_of {g : St} {b e : Nat} {tr' : List Nat} (h : Path g b tr' e) :
    ∀ (k : Nat) (tr : List Nat), tr <+: tr' → follow g k b tr = true := by
  induction h with
  | one b =>
    intro k tr ht
    cases k with
    | zero => rfl
    | succ k => unfold follow; simp [List.isPrefixOf_iff_prefix, ht]
  | @cons b c tr' e hc _ ih =>
    intro k tr ht
    cases k with
    | zero => rfl
    | succ k =>
      unfold follow
      rw [Bool.or_eq_true, Bool.and_eq_true, List.isPrefixOf_iff_prefix,
        List.isPrefixOf_iff_prefix, List.any_eq_true]
      rcases List.prefix_or_prefix_of_prefix ht (List.prefix_append (g.code b) tr') with h | h
      · exact .inl h
      · refine .inr ⟨h, c, hc, ih k _ ?_⟩
        obtain ⟨t, rfl⟩ := h
        rw [List.drop_left]
        exact (List.prefix_append_right_inj _).1 ht

/-- `x = 0` (1), `try:` (2) `x = f()` (3), `except:` (4) `x = 1` (5), and then
`return x` (6); 0 is the function's declaration. -/
def tryProg : List Stm := [.simple 1, .tryS 2 [.simple 3] [4] [[.simple 5]] [] [], .ret 6]

/-- The name `x` is 0. -/
def trySem : Nat → Liveness.Stmt
  | 1 => ⟨∅, {0}⟩
  | 3 => ⟨∅, {0}⟩
  | 5 => ⟨∅, {0}⟩
  | 6 => ⟨{0}, ∅⟩
  | _ => ⟨∅, ∅⟩

theorem tryProg_run : semL tryProg [1, 2, 3, 6] .ret := by
  refine .inr ⟨[1], [2, 3, 6], rfl, ⟨rfl, .inl rfl⟩, .inr ⟨[2, 3], [6], rfl, ?_, .inl ⟨⟨rfl, .inl rfl⟩, by decide⟩⟩⟩
  refine ⟨[3], rfl, [3], .normal, [], .normal, rfl, .inl ⟨[3], [], rfl, ?_, rfl, rfl⟩, ⟨rfl, rfl⟩, rfl⟩
  exact .inr ⟨[3], [], rfl, ⟨rfl, .inl rfl⟩, rfl, rfl⟩

/-- **C40 fails for `try`.** The execution of the program in which no exception
is raised does not follow the graph, and the name assigned in the `try` body
and read after it is not in the live-out set of the block that assigns it. -/
theorem try_refuted :
    ∃ g lo, buildFn 0 tryProg = some g ∧ semL tryProg [1, 2, 3, 6] .ret ∧
      ¬ Follows g 0 [0, 1, 2, 3, 6] ∧
      Liveness.computeLiveOut (liveGraph g trySem) = some lo ∧ g.code 2 = [3] ∧ 0 ∉ lo 2 := by
  have hb : (buildFn 0 tryProg).isSome = true := by decide +kernel
  obtain ⟨g, hg⟩ := Option.isSome_iff_exists.1 hb
  obtain ⟨lo, hlo, -⟩ := build_live_exact 0 tryProg g hg trySem
  refine ⟨g, lo, hg, tryProg_run, ?_, hlo, ?_, ?_⟩
  · rintro ⟨e, tr', hp, hpre⟩
    have h1 := follow_of hp 10 _ hpre
    have h2 : (buildFn 0 tryProg).map (fun g => follow g 10 0 [0, 1, 2, 3, 6]) = some false := by
      decide +kernel
    rw [hg] at h2
    rw [Option.map_some, h1] at h2
    cases h2
  · have h2 : (buildFn 0 tryProg).map (fun g => g.code 2) = some [3] := by decide +kernel
    rw [hg] at h2
    exact Option.some.inj h2
  · have h2 : (buildFn 0 tryProg).bind (fun g => (Liveness.computeLiveOut (liveGraph g trySem)).map
        fun lo => decide (0 ∈ lo 2)) = some false := by decide +kernel
    rw [hg] at h2
    rw [Option.bind_some, hlo, Option.map_some] at h2
    exact of_decide_eq_false (Option.some.inj h2)

/-- **C40 fails for `while … else`.** A statement after the loop makes the
construction fail. -/
theorem while_else_refuted :
    semL [.whileS 1 [.simple 2] [.simple 3], .simple 4] [1, 2, 1, 3, 4] .normal ∧
      buildFn 0 [.whileS 1 [.simple 2] [.simple 3], .simple 4] = none := by
  constructor
  · refine .inr ⟨[1, 2, 1, 3], [4], rfl, ?_, .inr ⟨[4], [], rfl, ⟨rfl, .inl rfl⟩, rfl, rfl⟩⟩
    exact .again (tr := [2]) (tr' := [1, 3]) (.inr ⟨[2], [], rfl, ⟨rfl, .inl rfl⟩, rfl, rfl⟩) (.inl rfl)
      (.exit (.inr ⟨[3], [], rfl, ⟨rfl, .inl rfl⟩, rfl, rfl⟩))
  · have : (buildFn 0 [.whileS 1 [.simple 2] [.simple 3], .simple 4]).isNone = true := by
      decide +kernel
    exact Option.isNone_iff_eq_none.1 this

/-! ### Dominators on built graphs -/

/-- `a = 1` (1), `while c:` (2) `b` (3), and then `d` (4). -/
def loopProg : List Stm := [.simple 1, .whileS 2 [.simple 3] [], .simple 4]

/-- **C39 fails after a loop.** In the graph of `loopProg` every run to the
block of statement 4 passes through the function label and the block of
statement 1; neither is among the computed dominators. -/
theorem dom_exact_refuted :
    ∃ g dom, buildFn 0 loopProg = some g ∧ g.code 4 = [4] ∧
      Dominators.fillDominates (domGraph g) = some dom ∧
      Dominators.Dominates (domGraph g) 1 4 ∧ dom 4 = {4} := by
  have hb : (buildFn 0 loopProg).isSome = true := by decide +kernel
  obtain ⟨g, hg⟩ := Option.isSome_iff_exists.1 hb
  have hd : ∃ dom, Dominators.fillDominates (domGraph g) = some dom := by
    refine Dominators.dom_terminates _ ?_
    have h2 : (buildFn 0 loopProg).map (fun g => g.reg 0) = some false := by decide +kernel
    rw [hg] at h2
    have h2 : g.reg 0 = false := Option.some.inj h2
    show 0 ∉ (List.range g.n).filter g.reg
    intro h
    rw [(List.mem_filter.1 h).2] at h2
    cases h2
  obtain ⟨dom, hdom⟩ := hd
  have hp : (buildFn 0 loopProg).map (fun g => (List.range 5).map g.prev) =
      some [[], [0], [1, 3], [2], [2]] := by decide +kernel
  rw [hg] at hp
  have hp := Option.some.inj hp
  simp only [List.range_succ, List.range_zero, List.nil_append, List.cons_append, List.map_cons,
    List.map_nil, List.cons.injEq, and_true] at hp
  obtain ⟨p0, p1, p2, p3, p4⟩ := hp
  refine ⟨g, dom, hg, ?_, hdom, ?_, ?_⟩
  · have h2 : (buildFn 0 loopProg).map (fun g => g.code 4) = some [4] := by decide +kernel
    rw [hg] at h2
    exact Option.some.inj h2
  · have key : ∀ r b, Dominators.Walk (domGraph g) r b → b = 1 ∨ b = 2 ∨ b = 3 ∨ b = 4 → 1 ∈ r := by
      intro r b hw
      induction hw with
      | start => rintro (h | h | h | h) <;> cases h
      | @step r p b hw hpb ih =>
        change p ∈ g.prev b at hpb
        rintro (rfl | rfl | rfl | rfl)
        · simp
        · rw [p2] at hpb
          rcases List.mem_cons.1 hpb with rfl | hpb
          · exact List.mem_cons_of_mem _ (ih (by simp))
          · rw [List.mem_singleton] at hpb
            subst hpb
            exact List.mem_cons_of_mem _ (ih (by simp))
        · rw [p3, List.mem_singleton] at hpb
          subst hpb
          exact List.mem_cons_of_mem _ (ih (by simp))
        · rw [p4, List.mem_singleton] at hpb
          subst hpb
          exact List.mem_cons_of_mem _ (ih (by simp))
    intro r hr
    exact key r 4 hr (by simp)
  · have h2 : (buildFn 0 loopProg).bind (fun g => (Dominators.fillDominates (domGraph g)).map
        fun dom => dom 4) = some {4} := by decide +kernel
    rw [hg] at h2
    rw [Option.bind_some, hdom, Option.map_some] at h2
    exact Option.some.inj h2

/-! ### A concrete case -/

/-- `x` (1); `while c:` (2) { `if d:` (3) { `break` (4) } ; `y` (5) } ; `z` (6). -/
def demo : List Stm :=
  [.simple 1, .whileS 2 [.ifS 3 [.brk 4] [], .simple 5] [], .simple 6]

example : OkL demo := by
  simp [demo, OkL, OkS]

example : (buildFn 0 demo).map (fun g => (List.range g.n).map fun b => (g.code b, g.next b)) =
    some [([0], [1]), ([1], [2]), ([2], [3, 6]), ([3], [4, 5]), ([4], [6]), ([5], [2]),
      ([6], [])] := by decide +kernel

end Verif.CfgPipeline
