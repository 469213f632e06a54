import Verif.CfgBuild
import Verif.LivenessProps
import Verif.DominatorsProps
import Mathlib.Tactic.ByContra

/-!
# Theorems about the construction of the control-flow graph
-/

namespace Verif.CfgBuild

open Verif.Liveness (put put_self put_ne)

/-! ### Executions

The Python semantics of statements, as the sequences of atoms they run through
and the way they end.  Conditions, the number of iterations and the points
where exceptions are raised are left open, so every actual execution is among
these.  An execution observed at an intermediate moment is covered by the
outcome `raise`. -/

inductive Out where
  | normal | brk | cont | ret | raise
  deriving DecidableEq, Repr

/-- Sets of executions. -/
abbrev Runs := List Nat → Out → Prop

/-- Runs of a loop with header `t`, body `B` and `else` part `E`. -/
inductive Loop (t : Nat) (B E : Runs) : Runs
  | raise : Loop t B E [t] .raise
  | exit {tr o} : E tr o → Loop t B E (t :: tr) o
  | again {tr o tr' o'} : B tr o → o = .normal ∨ o = .cont → Loop t B E tr' o' →
      Loop t B E (t :: (tr ++ tr')) o'
  | brk {tr} : B tr .brk → Loop t B E (t :: tr) .normal
  | out {tr o} : B tr o → o = .ret ∨ o = .raise → Loop t B E (t :: tr) o

/-- `finally`: the part `F` runs after `R`; if it completes normally the
outcome of `R` stands, otherwise its own outcome does. -/
def withFinally (R F : Runs) : Runs := fun tr o =>
  ∃ tr1 o1 tr2 o2, tr = tr1 ++ tr2 ∧ R tr1 o1 ∧ F tr2 o2 ∧
    o = (if o2 = .normal then o1 else o2)

/-- `try … except … else`: the body completes and the `else` part runs; or the
body leaves by `break`, `continue` or `return`; or an exception is raised in
the body and is caught by one of the handlers or not caught. -/
def tryRuns (B E : Runs) (H : Runs) : Runs := fun tr o =>
  (∃ tr1 tr2, tr = tr1 ++ tr2 ∧ B tr1 .normal ∧ E tr2 o) ∨
  (B tr o ∧ o ≠ .normal) ∨
  (∃ tr1 tr2, tr = tr1 ++ tr2 ∧ B tr1 .raise ∧ H tr2 o)

mutual

def semS : Stm → Runs
  | .simple a => fun tr o => tr = [a] ∧ (o = .normal ∨ o = .raise)
  | .ret a => fun tr o => tr = [a] ∧ (o = .ret ∨ o = .raise)
  | .brk a => fun tr o => tr = [a] ∧ o = .brk
  | .cont a => fun tr o => tr = [a] ∧ o = .cont
  | .ifS t body orelse => fun tr o =>
    (tr = [t] ∧ o = .raise) ∨ ∃ tr', tr = t :: tr' ∧ (semL body tr' o ∨ semL orelse tr' o)
  | .whileS t body orelse => Loop t (semL body) (semL orelse)
  | .forS t body orelse => Loop t (semL body) (semL orelse)
  | .tryS a body labels bodies orelse final => fun tr o =>
    ∃ tr', tr = a :: tr' ∧
      withFinally (tryRuns (semL body) (semL orelse) (semHs labels bodies)) (semL final) tr' o

def semL : List Stm → Runs
  | [] => fun tr o => tr = [] ∧ o = .normal
  | s :: l => fun tr o =>
    (semS s tr o ∧ o ≠ .normal) ∨
    ∃ tr1 tr2, tr = tr1 ++ tr2 ∧ semS s tr1 .normal ∧ semL l tr2 o

/-- Runs of one of the handlers. -/
def semHs : List Nat → List (List Stm) → Runs
  | label :: labels, body :: bodies => fun tr o =>
    (∃ tr', tr = label :: tr' ∧ semL body tr' o) ∨ semHs labels bodies tr o
  | _, _ => fun _ _ => False

end

/-! ### Paths of the graph -/

/-- Control runs through whole blocks from `b` to `e`, along links, executing
the atoms `tr`. -/
inductive Path (g : St) : Nat → List Nat → Nat → Prop
  | one (b) : Path g b (g.code b) b
  | cons {b c tr e} : c ∈ g.next b → Path g c tr e → Path g b (g.code b ++ tr) e

theorem Path.comp {g : St} {b c e f : Nat} {tr tr' : List Nat} (h : Path g b tr e)
    (hc : c ∈ g.next e) (h' : Path g c tr' f) : Path g b (tr ++ tr') f := by
  induction h with
  | one b => exact .cons hc h'
  | cons hn _ ih => rw [List.append_assoc]; exact .cons hn (ih hc)

/-- The atoms `tr` are executed along some path starting with block `b`
(the path may go on). -/
def Follows (g : St) (b : Nat) (tr : List Nat) : Prop := ∃ e tr', Path g b tr' e ∧ tr <+: tr'

/-! ### Growth of the graph -/

/-- `g` contains the blocks of `s` with the same statements, and all its
links. -/
structure Ext (s g : St) : Prop where
  le : s.n ≤ g.n
  code : ∀ b < s.n, g.code b = s.code b
  next : ∀ b < s.n, ∀ c ∈ s.next b, c ∈ g.next b

theorem Ext.refl (s : St) : Ext s s := ⟨Nat.le_refl _, fun _ _ => rfl, fun _ _ _ h => h⟩

theorem Ext.trans {a b c : St} (h1 : Ext a b) (h2 : Ext b c) : Ext a c :=
  ⟨Nat.le_trans h1.le h2.le,
   fun x hx => (h2.code x (Nat.lt_of_lt_of_le hx h1.le)).trans (h1.code x hx),
   fun x hx y hy => h2.next x (Nat.lt_of_lt_of_le hx h1.le) y (h1.next x hx y hy)⟩

theorem ext_add (s : St) (code : List Nat) (r : Bool) : Ext s (s.add code r) := by
  refine ⟨Nat.le_succ _, fun b hb => ?_, fun b hb c hc => ?_⟩
  · exact put_ne _ _ (by omega)
  · show c ∈ put s.next s.n [] b
    rw [put_ne _ _ (by omega)]; exact hc

theorem next_connect (s : St) (a b : Nat) : b ∈ (s.connect a b).next a := by
  show b ∈ put s.next a (s.next a ++ [b]) a
  rw [put_self]; simp

theorem ext_connect (s : St) (a b : Nat) : Ext s (s.connect a b) := by
  refine ⟨Nat.le_refl _, fun _ _ => rfl, fun x _ c hc => ?_⟩
  show c ∈ put s.next a (s.next a ++ [b]) x
  by_cases h : x = a
  · subst h; rw [put_self]; simp [hc]
  · rw [put_ne _ _ h]; exact hc

theorem ext_connectOpt (s : St) (a : Nat) (h : Option Nat) : Ext s (s.connectOpt a h) := by
  cases h with
  | none => exact Ext.refl s
  | some b => exact ext_connect s a b

/-- No list among the tails, and all tails are blocks made already. -/
def Blocks (n : Nat) (ts : List Tail) : Prop := ∀ t ∈ ts, ∃ b < n, t = .block b

theorem link_ok (ts : List Tail) (b : Nat) : ∀ (s : St), Blocks s.n ts →
    ∃ s', link s ts b = some s' ∧ s'.n = s.n ∧ Ext s s' ∧
      ∀ t, Tail.block t ∈ ts → b ∈ s'.next t := by
  induction ts with
  | nil => exact fun s _ => ⟨s, rfl, rfl, Ext.refl s, by simp⟩
  | cons t ts ih =>
    intro s hb
    obtain ⟨x, hx, rfl⟩ := hb t (by simp)
    obtain ⟨s', h1, h2, h3, h4⟩ := ih (s.connect x b) (fun t ht => hb t (by simp [ht]))
    refine ⟨s', h1, h2, (ext_connect s x b).trans h3, fun t ht => ?_⟩
    rcases List.mem_cons.1 ht with h | h
    · injection h with h
      subst h
      exact h3.next t hx b (next_connect s t b)
    · exact h4 t h

theorem Blocks.mono {n m : Nat} {ts : List Tail} (h : Blocks n ts) (hm : n ≤ m) : Blocks m ts :=
  fun t ht => by
    obtain ⟨b, hb, e⟩ := h t ht
    exact ⟨b, Nat.lt_of_lt_of_le hb hm, e⟩

theorem Blocks.append {n : Nat} {a b : List Tail} (ha : Blocks n a) (hb : Blocks n b) :
    Blocks n (a ++ b) := fun t ht => (List.mem_append.1 ht).elim (ha t) (hb t)

theorem blocks_one {n b : Nat} (h : b < n) : Blocks n [.block b] := by
  intro t ht; exact ⟨b, h, List.mem_singleton.1 ht⟩

theorem blocks_nil (n : Nat) : Blocks n [] := by intro t ht; cases ht

/-- Loop tails are blocks made already. -/
def LBlocks (n : Nat) (ls : List (Nat × Bool)) : Prop := ∀ e ∈ ls, e.1 < n

theorem blocks_pick {n : Nat} {ls : List (Nat × Bool)} (k : Bool) (h : LBlocks n ls) :
    Blocks n (pickTails k ls) := by
  intro t ht
  obtain ⟨e, he, rfl⟩ := List.mem_map.1 ht
  exact ⟨e.1, h e (List.mem_filter.1 he).1, rfl⟩

theorem mem_pick {ls : List (Nat × Bool)} {k : Bool} {b : Nat} (h : (b, k) ∈ ls) :
    Tail.block b ∈ pickTails k ls :=
  List.mem_map.2 ⟨(b, k), List.mem_filter.2 ⟨h, by simp⟩, rfl⟩

/-! ### Programs on which the graph is faithful -/

mutual

/-- No `try` statement and no `while … else`; `if` and loop bodies are
non-empty, as the Python grammar demands. -/
def OkS : Stm → Prop
  | .simple _ => True
  | .ret _ => True
  | .brk _ => True
  | .cont _ => True
  | .ifS _ body orelse => body ≠ [] ∧ OkL body ∧ OkL orelse
  | .whileS _ body orelse => body ≠ [] ∧ OkL body ∧ orelse = []
  | .forS _ body orelse => body ≠ [] ∧ OkL body ∧ OkL orelse
  | .tryS _ _ _ _ _ _ => False

def OkL : List Stm → Prop
  | [] => True
  | s :: l => OkS s ∧ OkL l

end

/-! ### Coverage -/

/-- The run `tr`, `o` is followed by a path of `g` that starts with block `f`
(which begins with the atoms `pre`) and ends where the result `R` says. -/
def Cov (g : St) (f : Nat) (pre : List Nat) (R : Acc) (tr : List Nat) : Out → Prop
  | .normal => ∃ e, Tail.block e ∈ R.tails ∧ Path g f (pre ++ tr) e
  | .brk => ∃ e, (e, true) ∈ R.loops ∧ Path g f (pre ++ tr) e
  | .cont => ∃ e, (e, false) ∈ R.loops ∧ Path g f (pre ++ tr) e
  | .ret => ∃ e, Path g f (pre ++ tr) e
  | .raise => Follows g f (pre ++ tr)

/-- The invariant of the local state of `parse`. -/
structure Wf (a : Acc) : Prop where
  tails : Blocks a.st.n a.tails
  loops : LBlocks a.st.n a.loops
  head : ∀ h, a.head = some h → h < a.st.n

/-- What parsing `l` with `cache` pending achieves. -/
structure Done (l : List Stm) (cache : List Nat) (acc R : Acc) : Prop where
  ext : Ext acc.st R.st
  wf : Wf R
  loops : ∀ e ∈ acc.loops, e ∈ R.loops
  head : ∀ h, acc.head = some h → R.head = some h
  same : cache = [] → l = [] → R = acc
  cov : cache ≠ [] ∨ l ≠ [] → ∃ f < R.st.n, (acc.head = none → R.head = some f) ∧
    ∀ g, Ext R.st g → (∀ t, Tail.block t ∈ acc.tails → f ∈ g.next t) ∧
      ∀ tr o, semL l tr o → Cov g f cache R tr o

theorem wf_fresh (s : St) : Wf (fresh s) :=
  ⟨blocks_nil _, by (intro e he; cases he), by (intro h hh; cases hh)⟩

theorem follows_of_path {g : St} {f e : Nat} {tr : List Nat} (h : Path g f tr e) :
    Follows g f tr := ⟨e, tr, h, List.prefix_refl tr⟩

theorem follows_prefix {g : St} {f : Nat} {tr tr' : List Nat} (h : Follows g f tr)
    (hp : tr' <+: tr) : Follows g f tr' := by
  obtain ⟨e, t, h1, h2⟩ := h
  exact ⟨e, t, h1, hp.trans h2⟩

theorem Path.follows {g : St} {b c e : Nat} {tr tr' : List Nat} (h : Path g b tr e)
    (hc : c ∈ g.next e) (h' : Follows g c tr') : Follows g b (tr ++ tr') := by
  obtain ⟨f, t, h1, h2⟩ := h'
  exact ⟨f, tr ++ t, h.comp hc h1, (List.prefix_append_right_inj tr).2 h2⟩

/-- Joining a path with coverage of what comes next. -/
theorem Cov.after {g : St} {f c e : Nat} {pre tr tr' : List Nat} {R R' : Acc} {o : Out}
    (h : Path g f (pre ++ tr) e) (hc : c ∈ g.next e) (h' : Cov g c [] R tr' o)
    (ht : ∀ t ∈ R.tails, t ∈ R'.tails) (hl : ∀ x ∈ R.loops, x ∈ R'.loops) :
    Cov g f pre R' (tr ++ tr') o := by
  cases o with
  | normal =>
    obtain ⟨x, hx, hp⟩ := h'
    exact ⟨x, ht _ hx, by rw [← List.append_assoc]; exact h.comp hc hp⟩
  | brk =>
    obtain ⟨x, hx, hp⟩ := h'
    exact ⟨x, hl _ hx, by rw [← List.append_assoc]; exact h.comp hc hp⟩
  | cont =>
    obtain ⟨x, hx, hp⟩ := h'
    exact ⟨x, hl _ hx, by rw [← List.append_assoc]; exact h.comp hc hp⟩
  | ret =>
    obtain ⟨x, hp⟩ := h'
    exact ⟨x, by rw [← List.append_assoc]; exact h.comp hc hp⟩
  | raise =>
    show Follows g f (pre ++ (tr ++ tr'))
    rw [← List.append_assoc]
    exact h.follows hc h'

/-- `finish` succeeds when the pending tails are blocks. -/
theorem finish_ok {acc : Acc} {s : St} {b : Nat} {tails : List Tail} {loops : List (Nat × Bool)}
    {funcs : List Nat} (hw : Wf acc) (hs : Ext acc.st s) :
    ∃ R, finish acc s b tails loops funcs = some R ∧ R.st.n = s.n ∧ Ext s R.st ∧
      R.head = acc.head.or (some b) ∧ R.tails = tails ∧ R.loops = acc.loops ++ loops ∧
      ∀ t, Tail.block t ∈ acc.tails → b ∈ R.st.next t := by
  obtain ⟨s', h1, h2, h3, h4⟩ := link_ok acc.tails b s (hw.tails.mono hs.le)
  exact ⟨⟨s', acc.head.or (some b), tails, acc.loops ++ loops, acc.funcs ++ funcs⟩,
    by unfold finish; rw [h1], h2, h3, rfl, rfl, rfl, h4⟩

/-- What visiting one statement that completes a block achieves: the new block
`b` begins with `cache`. -/
structure SDone (S : Runs) (cache : List Nat) (acc R : Acc) : Prop where
  ext : Ext acc.st R.st
  wf : Wf R
  loops : ∀ e ∈ acc.loops, e ∈ R.loops
  cov : ∃ b < R.st.n, R.head = acc.head.or (some b) ∧
    ∀ g, Ext R.st g → (∀ t, Tail.block t ∈ acc.tails → b ∈ g.next t) ∧
      ∀ tr o, S tr o → Cov g b cache R tr o

/-- From the facts `finish` gives to `SDone`. -/
theorem sdone_of {S : Runs} {cache : List Nat} {acc R : Acc} {st : St} {b : Nat}
    {tails : List Tail} {loops : List (Nat × Bool)} (hw : Wf acc) (hs : Ext acc.st st)
    (hb : b < st.n) (ht : Blocks st.n tails) (hl : LBlocks st.n loops)
    (hR : R.st.n = st.n ∧ Ext st R.st ∧ R.head = acc.head.or (some b) ∧ R.tails = tails ∧
      R.loops = acc.loops ++ loops ∧ ∀ t, Tail.block t ∈ acc.tails → b ∈ R.st.next t)
    (hcov : ∀ g, Ext R.st g → ∀ tr o, S tr o → Cov g b cache R tr o) :
    SDone S cache acc R := by
  obtain ⟨h1, h2, h3, h4, h5, h6⟩ := hR
  refine ⟨hs.trans h2, ⟨?_, ?_, ?_⟩, ?_, b, by omega, h3, fun g hg => ⟨?_, hcov g hg⟩⟩
  · rw [h4, h1]; exact ht
  · rw [h5, h1]
    intro e he
    rcases List.mem_append.1 he with he | he
    · exact Nat.lt_of_lt_of_le (hw.loops e he) hs.le
    · exact hl e he
  · intro h hh
    rw [h3] at hh
    rw [h1]
    cases hc : acc.head with
    | none => rw [hc] at hh; simp at hh; omega
    | some x =>
      rw [hc] at hh
      simp at hh
      subst hh
      exact Nat.lt_of_lt_of_le (hw.head x hc) hs.le
  · intro e he; rw [h5]; simp [he]
  · intro t ht
    obtain ⟨x, hx, e⟩ := hw.tails _ ht
    injection e with e
    subst e
    exact hg.next t (by have := hs.le; omega) b (h6 t ht)

theorem code_add (s : St) (code : List Nat) (r : Bool) : (s.add code r).code s.n = code :=
  put_self _ _ _

/-- A run of a body nested in a statement, seen from the block `b` holding the
statement's header. -/
theorem cov_nested {g : St} {b f : Nat} {cache hd : List Nat} {rb R : Acc} {tr : List Nat} {o : Out}
    (hcode : g.code b = cache ++ hd) (hlink : f ∈ g.next b) (hcov : Cov g f [] rb tr o)
    (ht : ∀ t ∈ rb.tails, t ∈ R.tails) (hl : ∀ x ∈ rb.loops, x ∈ R.loops) :
    Cov g b cache R (hd ++ tr) o := by
  refine Cov.after (R := rb) (e := b) ?_ hlink hcov ht hl
  rw [← hcode]
  exact .one b

/-! ### Single statements -/

theorem single_done {s : Stm} {a : Nat} {cache : List Nat} {acc : Acc} {loops : List (Nat × Bool)}
    {funcs : List Nat} (hw : Wf acc) (hl : loops = [] ∨ ∃ k, loops = [(acc.st.n, k)])
    (hsem : ∀ tr o, semS s tr o → tr = [a] ∧ (o = .ret ∨ o = .raise ∨
      (o = .brk ∧ (acc.st.n, true) ∈ loops) ∨ (o = .cont ∧ (acc.st.n, false) ∈ loops))) :
    ∃ R, finish acc (acc.st.add (cache ++ [a]) true) acc.st.n [] loops funcs = some R ∧
      SDone (semS s) cache acc R := by
  have he := ext_add acc.st (cache ++ [a]) true
  obtain ⟨R, h1, h2⟩ := finish_ok (b := acc.st.n) (tails := []) (loops := loops) (funcs := funcs)
    hw he
  have hlt : acc.st.n < (acc.st.add (cache ++ [a]) true).n := Nat.lt_succ_self _
  refine ⟨R, h1, sdone_of hw he hlt (blocks_nil _) ?_ h2 ?_⟩
  · rcases hl with rfl | ⟨k, rfl⟩
    · intro e he; cases he
    · intro e he
      rw [List.mem_singleton.1 he]; exact hlt
  · intro g hg tr o hs
    obtain ⟨rfl, ho⟩ := hsem tr o hs
    have hcode : g.code acc.st.n = cache ++ [a] := by
      rw [(h2.2.1.trans hg).code _ hlt, code_add]
    have hp : Path g acc.st.n (cache ++ [a]) acc.st.n := by
      rw [← hcode]; exact .one _
    rcases ho with rfl | rfl | ⟨rfl, hm⟩ | ⟨rfl, hm⟩
    · exact ⟨_, hp⟩
    · exact follows_of_path hp
    · exact ⟨_, by rw [h2.2.2.2.2.1]; simp [hm], hp⟩
    · exact ⟨_, by rw [h2.2.2.2.2.1]; simp [hm], hp⟩

/-! ### `if` -/

theorem if_done {t : Nat} {body orelse : List Stm} {cache : List Nat} {acc rb re : Acc}
    (hw : Wf acc) (hne : body ≠ [])
    (hb : Done body [] (fresh (acc.st.add (cache ++ [t]) true)) rb)
    (he : Done orelse [] (fresh (rb.st.connectOpt acc.st.n rb.head)) re) :
    ∃ R, ifDone acc acc.st.n rb re = some R ∧ SDone (semS (.ifS t body orelse)) cache acc R := by
  have hlt : acc.st.n < (acc.st.add (cache ++ [t]) true).n := Nat.lt_succ_self _
  have e1 : Ext (acc.st.add (cache ++ [t]) true) rb.st := hb.ext
  have e2 : Ext rb.st (rb.st.connectOpt acc.st.n rb.head) := ext_connectOpt _ _ _
  have e3 : Ext (rb.st.connectOpt acc.st.n rb.head) re.st := he.ext
  have hn1 : acc.st.n < rb.st.n := Nat.lt_of_lt_of_le hlt e1.le
  have hn2 : rb.st.n ≤ re.st.n := (e2.trans e3).le
  obtain ⟨f, hf, hfh, hfc⟩ := hb.cov (.inr hne)
  have hfh : rb.head = some f := hfh rfl
  -- facts about any later graph
  have main : ∀ g, Ext re.st g → g.code acc.st.n = cache ++ [t] ∧ f ∈ g.next acc.st.n := by
    intro g hg
    refine ⟨?_, ?_⟩
    · rw [((e1.trans e2).trans (e3.trans hg)).code _ hlt, code_add]
    · refine (e3.trans hg).next acc.st.n (Nat.lt_of_lt_of_le hn1 e2.le) f ?_
      rw [hfh]; exact next_connect _ _ _
  have eacc : Ext acc.st re.st := ((ext_add acc.st (cache ++ [t]) true).trans e1).trans (e2.trans e3)
  by_cases hoe : orelse = []
  · subst hoe
    have hre : re = fresh (rb.st.connectOpt acc.st.n rb.head) := he.same rfl rfl
    have hh : re.head = none := by rw [hre]; rfl
    obtain ⟨R, h1, h2⟩ := finish_ok (b := acc.st.n) (tails := rb.tails ++ [.block acc.st.n])
      (loops := rb.loops) (funcs := rb.funcs) hw eacc
    refine ⟨R, by unfold ifDone; rw [hh]; exact h1, sdone_of hw eacc (by omega)
      ((hb.wf.tails.mono hn2).append (blocks_one (by omega)))
      (fun e he => Nat.lt_of_lt_of_le (hb.wf.loops e he) hn2) h2 ?_⟩
    intro g hg tr o hs
    obtain ⟨-, h22, -, h24, h25, -⟩ := h2
    obtain ⟨hcode, hlink⟩ := main g (h22.trans hg)
    have hp : Path g acc.st.n (cache ++ [t]) acc.st.n := by rw [← hcode]; exact .one _
    rcases hs with ⟨rfl, rfl⟩ | ⟨tr', rfl, hs | hs⟩
    · exact follows_of_path hp
    · refine cov_nested (hd := [t]) hcode hlink
        ((hfc g ((e2.trans e3).trans (h22.trans hg))).2 tr' o hs) ?_ ?_
      · intro x hx; rw [h24]; simp [hx]
      · intro x hx; rw [h25]; simp [hx]
    · obtain ⟨rfl, rfl⟩ := hs
      exact ⟨acc.st.n, by rw [h24]; simp, hp⟩
  · obtain ⟨f2, hf2, hfh2, hfc2⟩ := he.cov (.inr hoe)
    have hfh2 : re.head = some f2 := hfh2 rfl
    have e4 : Ext re.st (re.st.connect acc.st.n f2) := ext_connect _ _ _
    obtain ⟨R, h1, h2⟩ := finish_ok (b := acc.st.n) (tails := rb.tails ++ re.tails)
      (loops := rb.loops ++ re.loops) (funcs := rb.funcs ++ re.funcs) hw (eacc.trans e4)
    refine ⟨R, by unfold ifDone; rw [hfh2]; exact h1, sdone_of hw (eacc.trans e4)
      (Nat.lt_of_lt_of_le hn1 hn2) ((hb.wf.tails.mono hn2).append he.wf.tails) ?_ h2 ?_⟩
    · intro e hm
      rcases List.mem_append.1 hm with hm | hm
      · exact Nat.lt_of_lt_of_le (hb.wf.loops e hm) hn2
      · exact he.wf.loops e hm
    intro g hg tr o hs
    obtain ⟨-, h22, -, h24, h25, -⟩ := h2
    obtain ⟨hcode, hlink⟩ := main g (e4.trans (h22.trans hg))
    have hlink2 : f2 ∈ g.next acc.st.n :=
      (h22.trans hg).next acc.st.n (Nat.lt_of_lt_of_le hn1 hn2) f2 (next_connect _ _ _)
    have hp : Path g acc.st.n (cache ++ [t]) acc.st.n := by rw [← hcode]; exact .one _
    rcases hs with ⟨rfl, rfl⟩ | ⟨tr', rfl, hs | hs⟩
    · exact follows_of_path hp
    · refine cov_nested (hd := [t]) hcode hlink
        ((hfc g ((e2.trans e3).trans (e4.trans (h22.trans hg)))).2 tr' o hs) ?_ ?_
      · intro x hx; rw [h24]; simp [hx]
      · intro x hx; rw [h25]; simp [hx]
    · refine cov_nested (hd := [t]) hcode hlink2
        ((hfc2 g (e4.trans (h22.trans hg))).2 tr' o hs) ?_ ?_
      · intro x hx; rw [h24]; simp [hx]
      · intro x hx; rw [h25]; simp [hx]

/-! ### Loops -/

/-- What `separate_block` leaves: the block `build` continues with begins with
the pending statements and leads to the loop block, which holds the header. -/
theorem separate_ok (s : St) (cache : List Nat) (t : Nat) :
    Ext s (separate s cache t).1 ∧ (separate s cache t).2.1 < (separate s cache t).1.n ∧
    (separate s cache t).2.2 < (separate s cache t).1.n ∧
    ∀ g, Ext (separate s cache t).1 g → g.code (separate s cache t).2.2 = [t] ∧
      ∀ R tr o, Cov g (separate s cache t).2.2 [] R tr o →
        Cov g (separate s cache t).2.1 cache R tr o := by
  unfold separate
  by_cases hc : cache = []
  · subst hc
    rw [if_pos rfl]
    exact ⟨ext_add _ _ _, Nat.lt_succ_self _, Nat.lt_succ_self _, fun g hg =>
      ⟨by rw [hg.code _ (Nat.lt_succ_self _)]; exact code_add _ _ _, fun _ _ _ h => h⟩⟩
  · rw [if_neg hc]
    dsimp only
    have a1 := ext_add s cache true
    have a2 := ext_add (s.add cache true) [t] false
    have a3 := ext_connect ((s.add cache true).add [t] false) s.n (s.n + 1)
    have n2 : ((s.add cache true).add [t] false).n = s.n + 2 := rfl
    have n3 : (((s.add cache true).add [t] false).connect s.n (s.n + 1)).n = s.n + 2 := rfl
    refine ⟨a1.trans (a2.trans a3), by omega, by omega, fun g hg => ?_⟩
    have c1 : g.code (s.n + 1) = [t] := by
      rw [hg.code _ (by omega), a3.code _ (by omega)]
      exact code_add (s.add cache true) [t] false
    have c2 : g.code s.n = cache := by
      rw [hg.code _ (by omega), a3.code _ (by omega), a2.code _ (Nat.lt_succ_self _)]
      exact code_add s cache true
    have c3 : s.n + 1 ∈ g.next s.n := hg.next s.n (by omega) _ (next_connect _ _ _)
    refine ⟨c1, fun R tr o h => ?_⟩
    have hp : Path g s.n (cache ++ []) s.n := by
      rw [List.append_nil, ← c2]; exact .one _
    have := Cov.after (tr := []) (R' := R) hp c3 h (fun _ h => h) (fun _ h => h)
    simpa using this

/-- Runs of a loop are followed by paths from its loop block. -/
theorem loop_cov {g : St} {t w f : Nat} {body orelse : List Stm} {rb R : Acc}
    (hcode : g.code w = [t]) (hlink : f ∈ g.next w)
    (hbody : ∀ tr o, semL body tr o → Cov g f [] rb tr o)
    (hback : ∀ x, Tail.block x ∈ rb.tails → w ∈ g.next x)
    (hcont : ∀ x, (x, false) ∈ rb.loops → w ∈ g.next x)
    (hbrk : ∀ x, (x, true) ∈ rb.loops → Tail.block x ∈ R.tails)
    (helse : ∀ tr o, semL orelse tr o → Cov g w [] R (t :: tr) o)
    {tr : List Nat} {o : Out} (h : Loop t (semL body) (semL orelse) tr o) :
    Cov g w [] R tr o := by
  have hp : Path g w [t] w := by rw [← hcode]; exact .one w
  induction h with
  | raise => exact follows_of_path hp
  | exit hs => exact helse _ _ hs
  | @again tr o tr' o' hs ho _ ih =>
    have : ∃ e, w ∈ g.next e ∧ Path g f tr e := by
      have hc := hbody tr o hs
      rcases ho with rfl | rfl
      · obtain ⟨e, he, hp⟩ := hc
        exact ⟨e, hback e he, hp⟩
      · obtain ⟨e, he, hp⟩ := hc
        exact ⟨e, hcont e he, hp⟩
    obtain ⟨e, he, hpe⟩ := this
    have := Cov.after (pre := []) (tr := [t] ++ tr) (R' := R) (hp.comp hlink hpe) he ih
      (fun _ h => h) (fun _ h => h)
    simpa using this
  | @brk tr hs =>
    obtain ⟨e, he, hpe⟩ := hbody tr _ hs
    exact ⟨e, hbrk e he, hp.comp hlink hpe⟩
  | @out tr o hs ho =>
    have hc := hbody tr o hs
    rcases ho with rfl | rfl
    · obtain ⟨e, hpe⟩ := hc
      exact ⟨e, hp.comp hlink hpe⟩
    · exact hp.follows hlink hc

/-- The links back to the loop block. -/
theorem loopBack_ok {w : Nat} {rb : Acc} (hw : Wf rb) :
    ∃ s1, loopBack w rb = some s1 ∧ s1.n = rb.st.n ∧ Ext rb.st s1 ∧
      (∀ f, rb.head = some f → w < rb.st.n → f ∈ s1.next w) ∧
      (∀ x, Tail.block x ∈ rb.tails → w ∈ s1.next x) ∧
      (∀ x, (x, false) ∈ rb.loops → w ∈ s1.next x) := by
  have e0 := ext_connectOpt rb.st w rb.head
  have n0 : (rb.st.connectOpt w rb.head).n = rb.st.n := by cases rb.head <;> rfl
  obtain ⟨s1, h1, h2, h3, h4⟩ := link_ok rb.tails w (rb.st.connectOpt w rb.head)
    (hw.tails.mono e0.le)
  obtain ⟨s2, k1, k2, k3, k4⟩ := link_ok (pickTails false rb.loops) w s1
    (blocks_pick false (fun e he => by rw [h2, n0]; exact hw.loops e he))
  refine ⟨s2, by unfold loopBack; rw [h1]; exact k1, by omega, e0.trans (h3.trans k3),
    fun f hf hwn => ?_, fun x hx => ?_, fun x hx => ?_⟩
  · refine (h3.trans k3).next w (by omega) f ?_
    rw [hf]; exact next_connect _ _ _
  · obtain ⟨y, hy, e⟩ := hw.tails _ hx
    injection e with e
    subst e
    exact k3.next x (by omega) w (h4 x hx)
  · exact k4 x (mem_pick hx)

theorem loop_done {s : Stm} {t : Nat} {body orelse : List Stm} {cache : List Nat} {acc rb re : Acc}
    {s1 : St} {isFor : Bool} (hw : Wf acc) (hne : body ≠ []) (hk : isFor = false → orelse = [])
    (hsem : semS s = Loop t (semL body) (semL orelse))
    (hb : Done body [] (fresh (separate acc.st cache t).1) rb)
    (h1 : loopBack (separate acc.st cache t).2.2 rb = some s1)
    (he : Done orelse [] (fresh s1) re) :
    ∃ R, (if isFor then
        forDone acc (separate acc.st cache t).2.1 (separate acc.st cache t).2.2 rb (!orelse.isEmpty) re
      else whileDone acc (separate acc.st cache t).2.1 (separate acc.st cache t).2.2 rb
        (!orelse.isEmpty) re) = some R ∧ SDone (semS s) cache acc R := by
  obtain ⟨p1, p2, p3, p4⟩ := separate_ok acc.st cache t
  generalize (separate acc.st cache t).1 = s0 at *
  generalize (separate acc.st cache t).2.1 = b at *
  generalize (separate acc.st cache t).2.2 = w at *
  obtain ⟨s1', q1, q2, q3, q4, q5, q6⟩ := loopBack_ok (w := w) hb.wf
  rw [h1] at q1
  have : s1 = s1' := Option.some.inj q1
  subst this
  have e1 : Ext s0 rb.st := hb.ext
  have e3 : Ext s1 re.st := he.ext
  have hwn : w < rb.st.n := Nat.lt_of_lt_of_le p3 e1.le
  have hn : rb.st.n ≤ re.st.n := (q3.trans e3).le
  obtain ⟨f, hf, hfh, hfc⟩ := hb.cov (.inr hne)
  have hfh : rb.head = some f := hfh rfl
  have eacc : Ext acc.st re.st := p1.trans (e1.trans (q3.trans e3))
  -- any result with these tails covers the loop
  have cover : ∀ (R : Acc) g, Ext re.st g →
      (∀ x, (x, true) ∈ rb.loops → Tail.block x ∈ R.tails) →
      (∀ tr o, semL orelse tr o → Cov g w [] R (t :: tr) o) →
      ∀ tr o, semS s tr o → Cov g b cache R tr o := by
    intro R g hg hbrk helse tr o hs
    rw [hsem] at hs
    obtain ⟨hcode, hsep⟩ := p4 g (e1.trans (q3.trans (e3.trans hg)))
    refine hsep R tr o (loop_cov hcode ?_ (hfc g (q3.trans (e3.trans hg))).2 ?_ ?_ hbrk helse hs)
    · exact (e3.trans hg).next w (by omega) f (q4 f hfh hwn)
    · intro x hx
      obtain ⟨y, hy, e⟩ := hb.wf.tails _ hx
      injection e with e
      subst e
      exact (e3.trans hg).next x (by omega) w (q5 x hx)
    · intro x hx
      exact (e3.trans hg).next x (by have := hb.wf.loops _ hx; simp only at this; omega) w (q6 x hx)
  have hcodew : ∀ g, Ext re.st g → g.code w = [t] := fun g hg =>
    (p4 g (e1.trans (q3.trans (e3.trans hg)))).1
  have hpick : Blocks re.st.n (pickTails true rb.loops) :=
    blocks_pick true fun e he => Nat.lt_of_lt_of_le (hb.wf.loops e he) hn
  by_cases hoe : orelse = []
  · subst hoe
    obtain ⟨R, r1, r2⟩ := finish_ok (b := b) (tails := pickTails true rb.loops ++ [.block w])
      (loops := []) (funcs := rb.funcs) hw eacc
    refine ⟨R, ?_, sdone_of hw eacc (Nat.lt_of_lt_of_le p2 (e1.trans (q3.trans e3)).le)
      (hpick.append (blocks_one (by omega))) (by intro e he; cases he) r2 ?_⟩
    · cases isFor <;> simpa [whileDone, forDone] using r1
    · intro g hg
      obtain ⟨-, r22, -, r24, r25, -⟩ := r2
      refine cover R g (r22.trans hg) (fun x hx => by rw [r24]; simp [mem_pick hx]) ?_
      rintro tr o ⟨rfl, rfl⟩
      refine ⟨w, by rw [r24]; simp, ?_⟩
      rw [List.nil_append, ← hcodew g (r22.trans hg)]
      exact .one w
  · have hfor : isFor = true := by
      cases isFor with
      | true => rfl
      | false => exact absurd (hk rfl) hoe
    subst hfor
    obtain ⟨f2, hf2, hfh2, hfc2⟩ := he.cov (.inr hoe)
    have hfh2 : re.head = some f2 := hfh2 rfl
    have e4 : Ext re.st (re.st.connectOpt w re.head) := ext_connectOpt _ _ _
    have n4 : (re.st.connectOpt w re.head).n = re.st.n := by rw [hfh2]; rfl
    obtain ⟨R, r1, r2⟩ := finish_ok (b := b) (tails := pickTails true rb.loops ++ re.tails)
      (loops := re.loops) (funcs := re.funcs) hw (eacc.trans e4)
    refine ⟨R, ?_, sdone_of hw (eacc.trans e4)
      (Nat.lt_of_lt_of_le p2 ((e1.trans (q3.trans e3)).trans e4).le)
      ((hpick.append he.wf.tails).mono e4.le)
      (fun e hm => Nat.lt_of_lt_of_le (he.wf.loops e hm) e4.le) r2 ?_⟩
    · have : (!orelse.isEmpty) = true := by cases orelse <;> simp_all
      rw [if_pos rfl, this]
      simpa [forDone] using r1
    · intro g hg
      obtain ⟨-, r22, -, r24, r25, -⟩ := r2
      refine cover R g (e4.trans (r22.trans hg)) (fun x hx => by rw [r24]; simp [mem_pick hx]) ?_
      intro tr o hs
      have hlink2 : f2 ∈ g.next w := (r22.trans hg).next w (by omega) f2 (by
        rw [hfh2]; exact next_connect _ _ _)
      refine cov_nested (cache := []) (hd := [t]) (hcodew g (e4.trans (r22.trans hg))) hlink2
        ((hfc2 g (e4.trans (r22.trans hg))).2 tr o hs) ?_ ?_
      · intro x hx; rw [r24]; simp [hx]
      · intro x hx; rw [r25]; simp [hx]

/-! ### Statement lists -/

theorem cov_loops {g : St} {f : Nat} {pre : List Nat} {R R' : Acc} {tr : List Nat} {o : Out}
    (h : Cov g f pre R tr o) (ho : o ≠ .normal) (hl : ∀ x ∈ R.loops, x ∈ R'.loops) :
    Cov g f pre R' tr o := by
  cases o with
  | normal => exact absurd rfl ho
  | brk => obtain ⟨e, he, hp⟩ := h; exact ⟨e, hl _ he, hp⟩
  | cont => obtain ⟨e, he, hp⟩ := h; exact ⟨e, hl _ he, hp⟩
  | ret => exact h
  | raise => exact h

theorem dead_done {s : Stm} {l : List Stm} {cache : List Nat} {acc R : Acc}
    (h : SDone (semS s) cache acc R) (hn : ∀ tr, ¬ semS s tr .normal) : Done (s :: l) cache acc R := by
  obtain ⟨b, hb, hh, hc⟩ := h.cov
  refine ⟨h.ext, h.wf, h.loops, fun x hx => by rw [hh, hx]; rfl, fun _ h => (by cases h), fun _ =>
    ⟨b, hb, fun hn => by rw [hh, hn]; rfl, fun g hg => ⟨(hc g hg).1, fun tr o hs => ?_⟩⟩⟩
  rcases hs with ⟨hs, -⟩ | ⟨tr1, tr2, -, hs, -⟩
  · exact (hc g hg).2 tr o hs
  · exact absurd hs (hn tr1)

theorem seq_done {s : Stm} {l : List Stm} {cache : List Nat} {acc R1 R : Acc}
    (h : SDone (semS s) cache acc R1) (hd : Done l [] R1 R) : Done (s :: l) cache acc R := by
  obtain ⟨b, hb, hh, hc⟩ := h.cov
  refine ⟨h.ext.trans hd.ext, hd.wf, fun e he => hd.loops e (h.loops e he),
    fun x hx => hd.head x (by rw [hh, hx]; rfl), fun _ h => (by cases h), fun _ =>
    ⟨b, Nat.lt_of_lt_of_le hb hd.ext.le, fun hn => hd.head b (by rw [hh, hn]; rfl),
      fun g hg => ⟨(hc g (hd.ext.trans hg)).1, fun tr o hs => ?_⟩⟩⟩
  have hcg := (hc g (hd.ext.trans hg)).2
  rcases hs with ⟨hs, ho⟩ | ⟨tr1, tr2, rfl, hs, hl⟩
  · exact cov_loops (hcg tr o hs) ho hd.loops
  · obtain ⟨e, he, hp⟩ := hcg tr1 .normal hs
    by_cases hl0 : l = []
    · subst hl0
      obtain ⟨rfl, rfl⟩ := hl
      have : R = R1 := hd.same rfl rfl
      subst this
      exact ⟨e, he, by simpa using hp⟩
    · obtain ⟨f, hf, -, hfc⟩ := hd.cov (.inr hl0)
      obtain ⟨hlink, hcov⟩ := hfc g hg
      exact Cov.after hp (hlink e he) (hcov tr2 o hl) (fun _ h => h) (fun _ h => h)

theorem cov_follows {g : St} {f : Nat} {pre : List Nat} {R : Acc} {tr : List Nat} {o : Out}
    (h : Cov g f pre R tr o) : Follows g f (pre ++ tr) := by
  cases o with
  | normal => obtain ⟨e, -, hp⟩ := h; exact follows_of_path hp
  | brk => obtain ⟨e, -, hp⟩ := h; exact follows_of_path hp
  | cont => obtain ⟨e, -, hp⟩ := h; exact follows_of_path hp
  | ret => obtain ⟨e, hp⟩ := h; exact follows_of_path hp
  | raise => exact h

theorem semL_inhabited (l : List Stm) (hok : OkL l) : ∃ tr o, semL l tr o := by
  cases l with
  | nil => exact ⟨[], .normal, rfl, rfl⟩
  | cons s l =>
    cases s with
    | simple a => exact ⟨[a], .raise, .inl ⟨⟨rfl, .inr rfl⟩, by simp⟩⟩
    | ret a => exact ⟨[a], .raise, .inl ⟨⟨rfl, .inr rfl⟩, by simp⟩⟩
    | brk a => exact ⟨[a], .brk, .inl ⟨⟨rfl, rfl⟩, by simp⟩⟩
    | cont a => exact ⟨[a], .cont, .inl ⟨⟨rfl, rfl⟩, by simp⟩⟩
    | ifS t b e => exact ⟨[t], .raise, .inl ⟨.inl ⟨rfl, rfl⟩, by simp⟩⟩
    | whileS t b e => exact ⟨[t], .raise, .inl ⟨.raise, by simp⟩⟩
    | forS t b e => exact ⟨[t], .raise, .inl ⟨.raise, by simp⟩⟩
    | tryS => exact hok.1.elim

theorem simple_done {a : Nat} {l : List Stm} {cache : List Nat} {acc R : Acc} (hok : OkL l)
    (hd : Done l (cache ++ [a]) acc R) : Done (.simple a :: l) cache acc R := by
  refine ⟨hd.ext, hd.wf, hd.loops, hd.head, fun _ h => (by cases h), fun _ => ?_⟩
  obtain ⟨f, hf, hh, hc⟩ := hd.cov (.inl (by simp))
  refine ⟨f, hf, hh, fun g hg => ⟨(hc g hg).1, fun tr o hs => ?_⟩⟩
  have hcg := (hc g hg).2
  have key : ∀ tr2, semL l tr2 o → Cov g f cache R ([a] ++ tr2) o := by
    intro tr2 hl
    have := hcg tr2 o hl
    cases o <;> simpa [Cov] using this
  have pre : Follows g f (cache ++ [a]) := by
    obtain ⟨tr2, o2, h2⟩ := semL_inhabited l hok
    exact follows_prefix (cov_follows (hcg tr2 o2 h2)) (List.prefix_append _ _)
  rcases hs with ⟨⟨rfl, ho⟩, hne⟩ | ⟨tr1, tr2, rfl, ⟨rfl, -⟩, hl⟩
  · rcases ho with rfl | rfl
    · exact absurd rfl hne
    · exact pre
  · exact key tr2 hl

theorem last_done {cache : List Nat} {acc : Acc} (hw : Wf acc) (hc : cache ≠ []) :
    ∃ R, finish acc (acc.st.add cache true) acc.st.n [.block acc.st.n] [] [] = some R ∧
      Done [] cache acc R := by
  have he := ext_add acc.st cache true
  have hlt : acc.st.n < (acc.st.add cache true).n := Nat.lt_succ_self _
  obtain ⟨R, h1, h2⟩ := finish_ok (b := acc.st.n) (tails := [.block acc.st.n]) (loops := [])
    (funcs := []) hw he
  have hs : SDone (semL []) cache acc R := sdone_of hw he hlt (blocks_one hlt)
    (by intro e he; cases he) h2 (by
      rintro g hg tr o ⟨rfl, rfl⟩
      refine ⟨acc.st.n, by rw [h2.2.2.2.1]; simp, ?_⟩
      rw [List.append_nil, ← code_add acc.st cache true, ← (h2.2.1.trans hg).code _ hlt]
      exact .one _)
  obtain ⟨b, hb, hh, hcov⟩ := hs.cov
  exact ⟨R, h1, hs.ext, hs.wf, hs.loops, fun x hx => by rw [hh, hx]; rfl, fun h => absurd h hc,
    fun _ => ⟨b, hb, fun hn => by rw [hh, hn]; rfl, hcov⟩⟩

theorem done_nil {acc : Acc} (hw : Wf acc) : Done [] [] acc acc :=
  ⟨Ext.refl _, hw, fun _ h => h, fun _ h => h, fun _ _ => rfl, fun h => by
    rcases h with h | h <;> exact absurd rfl h⟩

/-- `parse` of a statement list raises no exception and the part of the graph
it makes follows every run of the list. -/
theorem parseL_done : ∀ (l : List Stm) (cache : List Nat) (acc : Acc), OkL l → Wf acc →
    ∃ R, parseL l cache acc = some R ∧ Done l cache acc R
  | [], cache, acc, _, hw => by
    unfold parseL
    by_cases hc : cache = []
    · subst hc; exact ⟨acc, by rw [if_pos rfl], done_nil hw⟩
    · rw [if_neg hc]; exact last_done hw hc
  | .simple a :: l, cache, acc, hok, hw => by
    obtain ⟨R, h1, h2⟩ := parseL_done l (cache ++ [a]) acc hok.2 hw
    exact ⟨R, by rw [parseL, parseS]; exact h1, simple_done hok.2 h2⟩
  | .ret a :: l, cache, acc, hok, hw => by
    obtain ⟨R1, h1, h2⟩ := single_done (s := .ret a) (a := a) (cache := cache) (loops := [])
      (funcs := [acc.st.n]) hw (.inl rfl) (by
        rintro tr o ⟨rfl, h⟩
        exact ⟨rfl, h.elim .inl fun h => .inr (.inl h)⟩)
    obtain ⟨R, h3, h4⟩ := parseL_done l [] R1 hok.2 h2.wf
    exact ⟨R, by rw [parseL, parseS, h1]; exact h3, seq_done h2 h4⟩
  | .brk a :: l, cache, acc, hok, hw => by
    obtain ⟨R, h1, h2⟩ := single_done (s := .brk a) (a := a) (cache := cache)
      (loops := [(acc.st.n, true)]) (funcs := []) hw (.inr ⟨true, rfl⟩) (by
        rintro tr o ⟨rfl, rfl⟩
        exact ⟨rfl, .inr (.inr (.inl ⟨rfl, by simp⟩))⟩)
    exact ⟨R, by rw [parseL, parseS, h1]; rfl, dead_done h2 (by rintro tr ⟨-, h⟩; cases h)⟩
  | .cont a :: l, cache, acc, hok, hw => by
    obtain ⟨R, h1, h2⟩ := single_done (s := .cont a) (a := a) (cache := cache)
      (loops := [(acc.st.n, false)]) (funcs := []) hw (.inr ⟨false, rfl⟩) (by
        rintro tr o ⟨rfl, rfl⟩
        exact ⟨rfl, .inr (.inr (.inr ⟨rfl, by simp⟩))⟩)
    exact ⟨R, by rw [parseL, parseS, h1]; rfl, dead_done h2 (by rintro tr ⟨-, h⟩; cases h)⟩
  | .ifS t body orelse :: l, cache, acc, hok, hw => by
    obtain ⟨⟨hne, hb, he⟩, hl⟩ := hok
    obtain ⟨rb, b1, b2⟩ := parseL_done body [] (fresh (acc.st.add (cache ++ [t]) true)) hb
      (wf_fresh _)
    obtain ⟨re, c1, c2⟩ := parseL_done orelse [] (fresh (rb.st.connectOpt acc.st.n rb.head)) he
      (wf_fresh _)
    obtain ⟨R1, h1, h2⟩ := if_done hw hne b2 c2
    obtain ⟨R, h3, h4⟩ := parseL_done l [] R1 hl h2.wf
    refine ⟨R, ?_, seq_done h2 h4⟩
    rw [parseL, parseS, b1]
    dsimp only
    rw [c1]
    dsimp only
    rw [h1]
    exact h3
  | .whileS t body orelse :: l, cache, acc, hok, hw => by
    obtain ⟨⟨hne, hb, he⟩, hl⟩ := hok
    obtain ⟨rb, b1, b2⟩ := parseL_done body [] (fresh (separate acc.st cache t).1) hb (wf_fresh _)
    obtain ⟨s1, d1, -⟩ := loopBack_ok (w := (separate acc.st cache t).2.2) b2.wf
    have c : parseL orelse [] (fresh s1) = some (fresh s1) := by rw [he, parseL, if_pos rfl]
    have c2 : Done orelse [] (fresh s1) (fresh s1) := by rw [he]; exact done_nil (wf_fresh s1)
    obtain ⟨R1, h1, h2⟩ := loop_done (s := .whileS t body orelse) (isFor := false) hw hne
      (fun _ => he) (by rw [semS]) b2 d1 c2
    obtain ⟨R, h3, h4⟩ := parseL_done l [] R1 hl h2.wf
    refine ⟨R, ?_, seq_done h2 h4⟩
    rw [if_neg (by simp)] at h1
    rw [parseL, parseS, b1]
    dsimp only
    rw [d1]
    dsimp only
    rw [c]
    dsimp only
    rw [h1]
    exact h3
  | .forS t body orelse :: l, cache, acc, hok, hw => by
    obtain ⟨⟨hne, hb, he⟩, hl⟩ := hok
    obtain ⟨rb, b1, b2⟩ := parseL_done body [] (fresh (separate acc.st cache t).1) hb (wf_fresh _)
    obtain ⟨s1, d1, -⟩ := loopBack_ok (w := (separate acc.st cache t).2.2) b2.wf
    obtain ⟨re, c1, c2⟩ := parseL_done orelse [] (fresh s1) he (wf_fresh _)
    obtain ⟨R1, h1, h2⟩ := loop_done (s := .forS t body orelse) (isFor := true) hw hne
      (by simp) (by rw [semS]) b2 d1 c2
    obtain ⟨R, h3, h4⟩ := parseL_done l [] R1 hl h2.wf
    refine ⟨R, ?_, seq_done h2 h4⟩
    rw [if_pos rfl] at h1
    rw [parseL, parseS, b1]
    dsimp only
    rw [d1]
    dsimp only
    rw [c1]
    dsimp only
    rw [h1]
    exact h3
  | .tryS a body labels bodies orelse final :: l, cache, acc, hok, hw => hok.1.elim

/-! ### The property -/

/-- **C40** (functions without `try` and without `while … else`).  The
construction raises no exception, and every execution of the function body --
whichever way the conditions go, however often loops iterate, and wherever an
exception stops it -- runs along a path of the graph from the function label.
An execution that reaches the end of the body or a `return` ends exactly where
the path's last block ends. -/
theorem cfg_covers_partial (decl : Nat) (body : List Stm) (hne : body ≠ []) (hok : OkL body) :
    ∃ g, buildFn decl body = some g ∧ ∀ tr o, semL body tr o →
      Follows g 0 (decl :: tr) ∧ (o = .normal ∨ o = .ret → ∃ e, Path g 0 (decl :: tr) e) := by
  obtain ⟨R, h1, h2⟩ := parseL_done body [] (fresh (St.empty.add [decl] false)) hok (wf_fresh _)
  obtain ⟨f, hf, hh, hc⟩ := h2.cov (.inr hne)
  have hh : R.head = some f := hh rfl
  refine ⟨R.st.connectOpt 0 R.head, by unfold buildFn; rw [h1], fun tr o hs => ?_⟩
  have hcov := (hc _ (ext_connectOpt R.st 0 R.head)).2 tr o hs
  have h0 : 0 < (St.empty.add [decl] false).n := Nat.zero_lt_one
  have hcode : (R.st.connectOpt 0 R.head).code 0 = [decl] := by
    rw [(h2.ext.trans (ext_connectOpt R.st 0 R.head)).code 0 h0]
    exact code_add St.empty [decl] false
  have hlink : f ∈ (R.st.connectOpt 0 R.head).next 0 := by
    rw [hh]; exact next_connect _ _ _
  have hp : Path (R.st.connectOpt 0 R.head) 0 [decl] 0 := by rw [← hcode]; exact .one 0
  refine ⟨hp.follows hlink (cov_follows hcov), fun ho => ?_⟩
  rcases ho with rfl | rfl
  · obtain ⟨e, -, he⟩ := hcov
    exact ⟨e, hp.comp hlink he⟩
  · obtain ⟨e, he⟩ := hcov
    exact ⟨e, hp.comp hlink he⟩

/-! ### Every built graph is well-formed

For all programs, including those with `try` and `while … else`: if the
construction succeeds, links stay inside the block list and `prev_block_list`
is the converse of `next_block_list`.  These are the hypotheses of the
theorems about liveness and reaching definitions. -/

structure Gr (s : St) : Prop where
  inn : ∀ b c, c ∈ s.next b → b < s.n ∧ c < s.n
  conv : ∀ b c, c ∈ s.next b ↔ b ∈ s.prev c

theorem gr_add {s : St} (h : Gr s) (code : List Nat) (r : Bool) : Gr (s.add code r) := by
  have hn : ∀ b c, c ∈ (s.add code r).next b ↔ c ∈ s.next b := by
    intro b c
    show c ∈ put s.next s.n [] b ↔ _
    by_cases hb : b = s.n
    · subst hb
      rw [put_self]
      exact ⟨fun h => (by cases h), fun hc => absurd (h.inn _ _ hc).1 (Nat.lt_irrefl _)⟩
    · rw [put_ne _ _ hb]
  have hp : ∀ b c, b ∈ (s.add code r).prev c ↔ b ∈ s.prev c := by
    intro b c
    show b ∈ put s.prev s.n [] c ↔ _
    by_cases hb : c = s.n
    · subst hb
      rw [put_self]
      exact ⟨fun h => (by cases h), fun hc =>
        absurd (h.inn _ _ ((h.conv _ _).2 hc)).2 (Nat.lt_irrefl _)⟩
    · rw [put_ne _ _ hb]
  refine ⟨fun b c hc => ?_, fun b c => by rw [hn, hp]; exact h.conv b c⟩
  have := h.inn b c ((hn b c).1 hc)
  exact ⟨Nat.lt_succ_of_lt this.1, Nat.lt_succ_of_lt this.2⟩

theorem gr_connect {s : St} (h : Gr s) {a b : Nat} (ha : a < s.n) (hb : b < s.n) :
    Gr (s.connect a b) := by
  have hn : ∀ x c, c ∈ (s.connect a b).next x ↔ c ∈ s.next x ∨ (x = a ∧ c = b) := by
    intro x c
    show c ∈ put s.next a (s.next a ++ [b]) x ↔ _
    by_cases hx : x = a
    · subst hx; rw [put_self]; simp
    · rw [put_ne _ _ hx]; simp [hx]
  have hp : ∀ x c, x ∈ (s.connect a b).prev c ↔ x ∈ s.prev c ∨ (x = a ∧ c = b) := by
    intro x c
    show x ∈ put s.prev b (s.prev b ++ [a]) c ↔ _
    by_cases hx : c = b
    · subst hx; rw [put_self]; simp
    · rw [put_ne _ _ hx]; simp [hx]
  refine ⟨fun x c hc => ?_, fun x c => by rw [hn, hp, h.conv]⟩
  rcases (hn x c).1 hc with hc | ⟨rfl, rfl⟩
  · exact h.inn x c hc
  · exact ⟨ha, hb⟩

theorem gr_connectOpt {s : St} (h : Gr s) {a : Nat} {o : Option Nat} (ha : a < s.n)
    (hb : ∀ b, o = some b → b < s.n) : Gr (s.connectOpt a o) := by
  cases o with
  | none => exact h
  | some b => exact gr_connect h ha (hb b rfl)

theorem connectOpt_n (s : St) (a : Nat) (o : Option Nat) : (s.connectOpt a o).n = s.n := by
  cases o <;> rfl

/-- The blocks among the tails have been made. -/
def TB (n : Nat) (ts : List Tail) : Prop := ∀ b, Tail.block b ∈ ts → b < n

theorem TB.mono {n m : Nat} {ts : List Tail} (h : TB n ts) (hm : n ≤ m) : TB m ts :=
  fun b hb => Nat.lt_of_lt_of_le (h b hb) hm

theorem TB.append {n : Nat} {a b : List Tail} (ha : TB n a) (hb : TB n b) : TB n (a ++ b) :=
  fun x hx => (List.mem_append.1 hx).elim (ha x) (hb x)

theorem LBlocks.mono {n m : Nat} {ls : List (Nat × Bool)} (h : LBlocks n ls) (hm : n ≤ m) :
    LBlocks m ls := fun e he => Nat.lt_of_lt_of_le (h e he) hm

theorem LBlocks.append {n : Nat} {a b : List (Nat × Bool)} (ha : LBlocks n a) (hb : LBlocks n b) :
    LBlocks n (a ++ b) := fun x hx => (List.mem_append.1 hx).elim (ha x) (hb x)

theorem tb_nil (n : Nat) : TB n [] := by intro b hb; cases hb

theorem lb_nil (n : Nat) : LBlocks n [] := by intro b hb; cases hb

theorem tb_pick {n : Nat} {ls : List (Nat × Bool)} (k : Bool) (h : LBlocks n ls) :
    TB n (pickTails k ls) := by
  intro b hb
  obtain ⟨e, he, h'⟩ := List.mem_map.1 hb
  injection h' with h'
  subst h'
  exact h e (List.mem_filter.1 he).1

theorem link_gr {b : Nat} (ts : List Tail) : ∀ {s s' : St}, Gr s → TB s.n ts → b < s.n →
    link s ts b = some s' → Gr s' ∧ s'.n = s.n := by
  induction ts with
  | nil => intro s s' h _ _ e; cases e; exact ⟨h, rfl⟩
  | cons t ts ih =>
    intro s s' h ht hb e
    cases t with
    | junk => cases e
    | block x =>
      have hx := ht x (by simp)
      obtain ⟨h1, h2⟩ := ih (s := s.connect x b) (gr_connect h hx hb)
        (fun y hy => ht y (by simp [hy])) hb e
      exact ⟨h1, h2⟩

structure AInv (a : Acc) : Prop where
  gr : Gr a.st
  tails : TB a.st.n a.tails
  loops : LBlocks a.st.n a.loops
  head : ∀ h, a.head = some h → h < a.st.n

theorem ainv_fresh {s : St} (h : Gr s) : AInv (fresh s) :=
  ⟨h, tb_nil _, lb_nil _, by (intro x hx; cases hx)⟩

theorem finish_gr {acc R : Acc} {s : St} {b : Nat} {tails : List Tail}
    {loops : List (Nat × Bool)} {funcs : List Nat} (ha : AInv acc) (hs : Gr s)
    (hle : acc.st.n ≤ s.n) (hb : b < s.n) (ht : TB s.n tails) (hl : LBlocks s.n loops)
    (e : finish acc s b tails loops funcs = some R) : AInv R ∧ acc.st.n ≤ R.st.n := by
  unfold finish at e
  cases hk : link s acc.tails b with
  | none => rw [hk] at e; cases e
  | some s' =>
    rw [hk] at e
    obtain ⟨h1, h2⟩ := link_gr _ hs (ha.tails.mono hle) hb hk
    cases e
    dsimp only
    refine ⟨⟨h1, by rw [h2]; exact ht, ?_, ?_⟩, by rw [h2]; exact hle⟩
    · rw [h2]; exact (ha.loops.mono hle).append hl
    · intro x hx
      dsimp only at hx ⊢
      rw [h2]
      cases hc : acc.head with
      | none => rw [hc] at hx; simp at hx; omega
      | some y =>
        rw [hc] at hx
        simp at hx
        subst hx
        exact Nat.lt_of_lt_of_le (ha.head y hc) hle

theorem separate_gr {s : St} (h : Gr s) (cache : List Nat) (t : Nat) :
    Gr (separate s cache t).1 ∧ s.n ≤ (separate s cache t).1.n ∧
      (separate s cache t).2.1 < (separate s cache t).1.n ∧
      (separate s cache t).2.2 < (separate s cache t).1.n := by
  unfold separate
  split
  · exact ⟨gr_add h _ _, Nat.le_succ _, Nat.lt_succ_self _, Nat.lt_succ_self _⟩
  · have n2 : ((s.add cache true).add [t] false).n = s.n + 2 := rfl
    have n3 : (((s.add cache true).add [t] false).connect s.n (s.n + 1)).n = s.n + 2 := rfl
    dsimp only
    exact ⟨gr_connect (gr_add (gr_add h _ _) _ _) (by omega) (by omega), by omega, by omega,
      by omega⟩

theorem loopBack_gr {w : Nat} {rb : Acc} {s1 : St} (h : AInv rb) (hw : w < rb.st.n)
    (e : loopBack w rb = some s1) : Gr s1 ∧ s1.n = rb.st.n := by
  unfold loopBack at e
  have g0 := gr_connectOpt h.gr hw h.head
  have n0 := connectOpt_n rb.st w rb.head
  cases hk : link (rb.st.connectOpt w rb.head) rb.tails w with
  | none => rw [hk] at e; cases e
  | some s' =>
    rw [hk] at e
    dsimp only at e
    obtain ⟨h1, h2⟩ := link_gr _ g0 (by rw [n0]; exact h.tails) (by omega) hk
    obtain ⟨h3, h4⟩ := link_gr _ h1 (tb_pick false (by rw [h2, n0]; exact h.loops)) (by omega) e
    exact ⟨h3, by omega⟩

structure HInv (n : Nat) (h : Hs) : Prop where
  gr : Gr h.st
  le : n ≤ h.st.n
  labels : ∀ x ∈ h.labels, x < h.st.n
  tails : TB h.st.n h.tails
  loops : LBlocks h.st.n h.loops

theorem linkHandlers_gr {tb : Nat} {fin : Option Nat} (hs : List Nat) :
    ∀ {s s' : St} {bt bt' : List Tail}, Gr s → TB s.n bt → tb < s.n → (∀ f, fin = some f → f < s.n) →
      (∀ x ∈ hs, x < s.n) → linkHandlers tb fin s bt hs = some (s', bt') →
      Gr s' ∧ s'.n = s.n ∧ TB s'.n bt' := by
  induction hs with
  | nil => intro s s' bt bt' h1 h2 _ _ _ e; cases e; exact ⟨h1, rfl, h2⟩
  | cons x xs ih =>
    intro s s' bt bt' h1 h2 h3 h4 h5 e
    unfold linkHandlers at e
    have hx := h5 x (by simp)
    cases hk : link (s.connect tb x) bt x with
    | none => rw [hk] at e; cases e
    | some s1 =>
      rw [hk] at e
      dsimp only at e
      obtain ⟨k1, k2⟩ := link_gr _ (gr_connect h1 h3 hx) (by exact h2) (by exact hx) hk
      have k2' : s1.n = s.n := k2
      cases fin with
      | none =>
        obtain ⟨r1, r2, r3⟩ := ih k1 (tb_nil _) (by omega) (by intro f hf; cases hf)
          (fun y hy => by have := h5 y (by simp [hy]); omega) e
        exact ⟨r1, by omega, r3⟩
      | some f =>
        have hf := h4 f rfl
        have n1 : (s1.connect x f).n = s1.n := rfl
        obtain ⟨r1, r2, r3⟩ := ih (gr_connect k1 (by omega) (by omega)) (tb_nil _) (by omega)
          (by intro f' hf'; cases hf'; omega)
          (fun y hy => by have := h5 y (by simp [hy]); omega) e
        exact ⟨r1, by omega, r3⟩

theorem stepOf_some {d : Bool} {o : Option Acc} {r : Step} (h : stepOf d o = some r) :
    o = some r.acc := by
  cases o with
  | none => cases h
  | some a => cases h; rfl

theorem tryExcept_gr {acc rb re R : Acc} {tb : Nat} {s : St} {hs : Hs} {he : Bool}
    (ha : AInv acc) (hs0 : Gr s) (hle : acc.st.n ≤ s.n) (htb : tb < s.n)
    (hrb : TB s.n rb.tails) (hrbl : LBlocks s.n rb.loops) (hhl : ∀ x ∈ hs.labels, x < s.n)
    (hht : TB s.n hs.tails) (hhp : LBlocks s.n hs.loops) (hret : TB s.n re.tails)
    (hrel : LBlocks s.n re.loops) (hreh : ∀ x, re.head = some x → x < s.n)
    (e : tryExcept acc tb s rb hs he re = some R) : AInv R ∧ acc.st.n ≤ R.st.n := by
  unfold tryExcept at e
  cases hk : linkHandlers tb none s rb.tails hs.labels with
  | none => rw [hk] at e; cases e
  | some p =>
    obtain ⟨s1, bt⟩ := p
    rw [hk] at e
    dsimp only at e
    obtain ⟨k1, k2, k3⟩ := linkHandlers_gr _ hs0 hrb htb (by intro f hf; cases hf) hhl hk
    rw [k2] at k3
    cases he with
    | false =>
      simp only [Bool.false_eq_true, if_false] at e
      exact finish_gr ha k1 (by omega) (by omega) (by rw [k2]; exact hht.append k3)
        (by rw [k2]; exact hrbl.append hhp) e
    | true =>
      simp only [if_true] at e
      cases hh : re.head with
      | none => rw [hh] at e; cases e
      | some eh =>
        rw [hh] at e
        dsimp only at e
        cases hl : link s1 bt eh with
        | none => rw [hl] at e; cases e
        | some s2 =>
          rw [hl] at e
          dsimp only at e
          obtain ⟨l1, l2⟩ := link_gr _ k1 (by rw [k2]; exact k3) (by rw [k2]; exact hreh eh hh) hl
          have l3 : s2.n = s.n := by omega
          exact finish_gr ha l1 (by omega) (by omega) (by rw [l3]; exact hht.append hret)
            (by rw [l3]; exact (hrbl.append hhp).append hrel) e

theorem tryFinally_gr {acc rb re rf R : Acc} {tb fh : Nat} {hs : Hs} {hx he : Bool}
    (ha : AInv acc) (hrf : AInv rf) (hle : acc.st.n ≤ rf.st.n) (htb : tb < rf.st.n)
    (hfh : fh < rf.st.n)
    (hrb : TB rf.st.n rb.tails) (hrbl : LBlocks rf.st.n rb.loops)
    (hhl : ∀ x ∈ hs.labels, x < rf.st.n)
    (hht : TB rf.st.n hs.tails) (hhp : LBlocks rf.st.n hs.loops) (hret : TB rf.st.n re.tails)
    (hrel : LBlocks rf.st.n re.loops) (hreh : ∀ x, re.head = some x → x < rf.st.n)
    (e : tryFinally acc tb rb hs hx he re rf fh = some R) : AInv R ∧ acc.st.n ≤ R.st.n := by
  have hloops : LBlocks rf.st.n
      (rb.loops ++ hs.loops ++ (if he then re.loops else []) ++ rf.loops) := by
    refine ((hrbl.append hhp).append ?_).append hrf.loops
    cases he
    · exact lb_nil _
    · exact hrel
  have fin : ∀ s', Gr s' → s'.n = rf.st.n → ∀ fn, finish acc s' tb rf.tails
      (rb.loops ++ hs.loops ++ (if he then re.loops else []) ++ rf.loops) fn = some R →
      AInv R ∧ acc.st.n ≤ R.st.n := fun s' h1 h2 fn e =>
    finish_gr ha h1 (by omega) (by omega) (by rw [h2]; exact hrf.tails) (by rw [h2]; exact hloops) e
  unfold tryFinally at e
  dsimp only at e
  cases hx with
  | false =>
    simp only [Bool.false_eq_true, if_false] at e
    cases hl : link (rf.st.connect tb fh) rb.tails fh with
    | none => rw [hl] at e; cases e
    | some s1 =>
      rw [hl] at e
      obtain ⟨l1, l2⟩ := link_gr _ (gr_connect hrf.gr htb hfh) (by exact hrb) (by exact hfh) hl
      exact fin s1 l1 l2 _ e
  | true =>
    simp only [if_true] at e
    cases hk : linkHandlers tb (some fh) rf.st rb.tails hs.labels with
    | none => rw [hk] at e; cases e
    | some p =>
      obtain ⟨s1, bt⟩ := p
      rw [hk] at e
      dsimp only at e
      obtain ⟨k1, k2, k3⟩ := linkHandlers_gr _ hrf.gr hrb htb (by intro f hf; cases hf; exact hfh)
        hhl hk
      cases hl : link s1 hs.tails fh with
      | none => rw [hl] at e; cases e
      | some s2 =>
        rw [hl] at e
        dsimp only at e
        obtain ⟨l1, l2⟩ := link_gr _ k1 (by rw [k2]; exact hht) (by rw [k2]; exact hfh) hl
        cases he with
        | false =>
          simp only [Bool.false_eq_true, if_false] at e
          cases hm : link s2 bt fh with
          | none => rw [hm] at e; cases e
          | some s3 =>
            rw [hm] at e
            obtain ⟨m1, m2⟩ := link_gr _ l1 (by rw [l2]; exact k3) (by omega) hm
            exact fin s3 m1 (by omega) _ e
        | true =>
          simp only [if_true] at e
          cases hh : re.head with
          | none => rw [hh] at e; cases e
          | some eh =>
            rw [hh] at e
            dsimp only at e
            have heh := hreh eh hh
            cases hm : link s2 bt eh with
            | none => rw [hm] at e; cases e
            | some s3 =>
              rw [hm] at e
              dsimp only at e
              obtain ⟨m1, m2⟩ := link_gr _ l1 (by rw [l2]; exact k3) (by omega) hm
              cases hq : link s3 re.tails fh with
              | none => rw [hq] at e; cases e
              | some s4 =>
                rw [hq] at e
                obtain ⟨q1, q2⟩ := link_gr _ m1 (by rw [m2, l2, k2]; exact hret) (by omega) hq
                exact fin s4 q1 (by omega) _ e

mutual

theorem parseS_gr : ∀ (s : Stm) (cache : List Nat) (acc : Acc) (r : Step), AInv acc →
    parseS s cache acc = some r → AInv r.acc ∧ acc.st.n ≤ r.acc.st.n
  | .simple a, cache, acc, r, ha, e => by
    unfold parseS at e
    cases e
    exact ⟨ha, Nat.le_refl _⟩
  | .ret a, cache, acc, r, ha, e => by
    unfold parseS at e
    exact finish_gr ha (gr_add ha.gr _ _) (Nat.le_succ _) (Nat.lt_succ_self _) (tb_nil _) (lb_nil _)
      (stepOf_some e)
  | .brk a, cache, acc, r, ha, e => by
    unfold parseS at e
    exact finish_gr ha (gr_add ha.gr _ _) (Nat.le_succ _) (Nat.lt_succ_self _) (tb_nil _)
      (by intro x hx; rw [List.mem_singleton.1 hx]; exact Nat.lt_succ_self _) (stepOf_some e)
  | .cont a, cache, acc, r, ha, e => by
    unfold parseS at e
    exact finish_gr ha (gr_add ha.gr _ _) (Nat.le_succ _) (Nat.lt_succ_self _) (tb_nil _)
      (by intro x hx; rw [List.mem_singleton.1 hx]; exact Nat.lt_succ_self _) (stepOf_some e)
  | .ifS t body orelse, cache, acc, r, ha, e => by
    unfold parseS at e
    have g0 := gr_add ha.gr (cache ++ [t]) true
    have n0 : (acc.st.add (cache ++ [t]) true).n = acc.st.n + 1 := rfl
    cases hb : parseL body [] (fresh (acc.st.add (cache ++ [t]) true)) with
    | none => rw [hb] at e; cases e
    | some rb =>
      rw [hb] at e
      dsimp only at e
      obtain ⟨b1, b2⟩ := parseL_gr body [] _ rb (ainv_fresh g0) hb
      have b2' : acc.st.n + 1 ≤ rb.st.n := b2
      have n1 := connectOpt_n rb.st acc.st.n rb.head
      cases he : parseL orelse [] (fresh (rb.st.connectOpt acc.st.n rb.head)) with
      | none => rw [he] at e; cases e
      | some re =>
        rw [he] at e
        dsimp only at e
        obtain ⟨c1, c2⟩ := parseL_gr orelse [] _ re
          (ainv_fresh (gr_connectOpt b1.gr (by omega) b1.head)) he
        have c2' : rb.st.n ≤ re.st.n := by
          have : (rb.st.connectOpt acc.st.n rb.head).n ≤ re.st.n := c2
          omega
        have e := stepOf_some e
        unfold ifDone at e
        cases hh : re.head with
        | none =>
          rw [hh] at e
          refine finish_gr ha c1.gr (by omega) (by omega) ((b1.tails.mono c2').append ?_)
            (b1.loops.mono c2') e
          intro x hx
          have hx := List.mem_singleton.1 hx
          injection hx with hx
          omega
        | some h =>
          rw [hh] at e
          have hlt := c1.head h hh
          exact finish_gr ha (gr_connect c1.gr (by omega) hlt) (by show _ ≤ re.st.n; omega)
            (by show _ < re.st.n; omega) ((b1.tails.mono c2').append c1.tails)
            ((b1.loops.mono c2').append c1.loops) e
  | .whileS t body orelse, cache, acc, r, ha, e => by
    unfold parseS at e
    obtain ⟨s1, s2, s3, s4⟩ := separate_gr ha.gr cache t
    generalize (separate acc.st cache t).1 = s0 at *
    generalize (separate acc.st cache t).2.1 = b at *
    generalize (separate acc.st cache t).2.2 = w at *
    cases hb : parseL body [] (fresh s0) with
    | none => rw [hb] at e; cases e
    | some rb =>
      rw [hb] at e
      dsimp only at e
      obtain ⟨b1, b2⟩ := parseL_gr body [] _ rb (ainv_fresh s1) hb
      have b2' : s0.n ≤ rb.st.n := b2
      cases hk : loopBack w rb with
      | none => rw [hk] at e; cases e
      | some s5 =>
        rw [hk] at e
        dsimp only at e
        obtain ⟨k1, k2⟩ := loopBack_gr b1 (by omega) hk
        cases he : parseL orelse [] (fresh s5) with
        | none => rw [he] at e; cases e
        | some re =>
          rw [he] at e
          dsimp only at e
          obtain ⟨c1, c2⟩ := parseL_gr orelse [] _ re (ainv_fresh k1) he
          have c2' : s5.n ≤ re.st.n := c2
          have e := stepOf_some e
          have hp : TB re.st.n (pickTails true rb.loops) := tb_pick true (b1.loops.mono (by omega))
          unfold whileDone at e
          split at e
          · have n1 := connectOpt_n re.st w re.head
            refine finish_gr ha (gr_connectOpt c1.gr (by omega) c1.head) (by omega) (by omega)
              (by rw [n1]; exact hp.append (by intro x hx; simp at hx)) (by rw [n1]; exact c1.loops) e
          · refine finish_gr ha c1.gr (by omega) (by omega) (hp.append ?_) (lb_nil _) e
            intro x hx
            have hx := List.mem_singleton.1 hx
            injection hx with hx
            omega
  | .forS t body orelse, cache, acc, r, ha, e => by
    unfold parseS at e
    obtain ⟨s1, s2, s3, s4⟩ := separate_gr ha.gr cache t
    generalize (separate acc.st cache t).1 = s0 at *
    generalize (separate acc.st cache t).2.1 = b at *
    generalize (separate acc.st cache t).2.2 = w at *
    cases hb : parseL body [] (fresh s0) with
    | none => rw [hb] at e; cases e
    | some rb =>
      rw [hb] at e
      dsimp only at e
      obtain ⟨b1, b2⟩ := parseL_gr body [] _ rb (ainv_fresh s1) hb
      have b2' : s0.n ≤ rb.st.n := b2
      cases hk : loopBack w rb with
      | none => rw [hk] at e; cases e
      | some s5 =>
        rw [hk] at e
        dsimp only at e
        obtain ⟨k1, k2⟩ := loopBack_gr b1 (by omega) hk
        cases he : parseL orelse [] (fresh s5) with
        | none => rw [he] at e; cases e
        | some re =>
          rw [he] at e
          dsimp only at e
          obtain ⟨c1, c2⟩ := parseL_gr orelse [] _ re (ainv_fresh k1) he
          have c2' : s5.n ≤ re.st.n := c2
          have e := stepOf_some e
          have hp : TB re.st.n (pickTails true rb.loops) := tb_pick true (b1.loops.mono (by omega))
          unfold forDone at e
          split at e
          · have n1 := connectOpt_n re.st w re.head
            refine finish_gr ha (gr_connectOpt c1.gr (by omega) c1.head) (by omega) (by omega)
              (by rw [n1]; exact hp.append c1.tails) (by rw [n1]; exact c1.loops) e
          · refine finish_gr ha c1.gr (by omega) (by omega) (hp.append ?_) (lb_nil _) e
            intro x hx
            have hx := List.mem_singleton.1 hx
            injection hx with hx
            omega
  | .tryS a body labels bodies orelse final, cache, acc, r, ha, e => by
    unfold parseS at e
    have g0 := gr_add ha.gr (cache ++ [a]) true
    have n0 : (acc.st.add (cache ++ [a]) true).n = acc.st.n + 1 := rfl
    cases hb : parseL body [] (fresh (acc.st.add (cache ++ [a]) true)) with
    | none => rw [hb] at e; cases e
    | some rb =>
      rw [hb] at e
      dsimp only at e
      obtain ⟨b1, b2⟩ := parseL_gr body [] _ rb (ainv_fresh g0) hb
      have b2' : acc.st.n + 1 ≤ rb.st.n := b2
      cases hh : parseHs labels bodies rb.st with
      | none => rw [hh] at e; cases e
      | some hs =>
        rw [hh] at e
        dsimp only at e
        have H := parseHs_gr labels bodies rb.st hs b1.gr hh
        have H1 := H.le
        cases he : parseL orelse [] (fresh hs.st) with
        | none => rw [he] at e; cases e
        | some re =>
          rw [he] at e
          dsimp only at e
          obtain ⟨c1, c2⟩ := parseL_gr orelse [] _ re (ainv_fresh H.gr) he
          have c2' : hs.st.n ≤ re.st.n := c2
          have n1 := connectOpt_n re.st acc.st.n rb.head
          have g1 : Gr (re.st.connectOpt acc.st.n rb.head) :=
            gr_connectOpt c1.gr (by omega) (fun b hb => by have := b1.head b hb; omega)
          cases hf : parseL final [] (fresh (re.st.connectOpt acc.st.n rb.head)) with
          | none => rw [hf] at e; cases e
          | some rf =>
            rw [hf] at e
            dsimp only at e
            obtain ⟨d1, d2⟩ := parseL_gr final [] _ rf (ainv_fresh g1) hf
            have d2' : re.st.n ≤ rf.st.n := by
              have : (re.st.connectOpt acc.st.n rb.head).n ≤ rf.st.n := d2
              omega
            cases hfh : rf.head with
            | some fh =>
              rw [hfh] at e
              exact tryFinally_gr ha d1 (by omega) (by omega) (d1.head fh hfh)
                (b1.tails.mono (by omega)) (b1.loops.mono (by omega))
                (fun x hx => by have := H.labels x hx; omega) (H.tails.mono (by omega))
                (H.loops.mono (by omega)) (c1.tails.mono d2') (c1.loops.mono d2')
                (fun x hx => by have := c1.head x hx; omega) (stepOf_some e)
            | none =>
              rw [hfh] at e
              exact tryExcept_gr ha d1.gr (by omega) (by omega)
                (b1.tails.mono (by omega)) (b1.loops.mono (by omega))
                (fun x hx => by have := H.labels x hx; omega) (H.tails.mono (by omega))
                (H.loops.mono (by omega)) (c1.tails.mono d2') (c1.loops.mono d2')
                (fun x hx => by have := c1.head x hx; omega) (stepOf_some e)

theorem parseL_gr : ∀ (l : List Stm) (cache : List Nat) (acc R : Acc), AInv acc →
    parseL l cache acc = some R → AInv R ∧ acc.st.n ≤ R.st.n
  | [], cache, acc, R, ha, e => by
    unfold parseL at e
    split at e
    · cases e; exact ⟨ha, Nat.le_refl _⟩
    · refine finish_gr ha (gr_add ha.gr _ _) (Nat.le_succ _) (Nat.lt_succ_self _) ?_ (lb_nil _) e
      intro x hx
      have hx := List.mem_singleton.1 hx
      injection hx with hx
      subst hx
      exact Nat.lt_succ_self _
  | s :: l, cache, acc, R, ha, e => by
    unfold parseL at e
    cases hs : parseS s cache acc with
    | none => rw [hs] at e; cases e
    | some r =>
      rw [hs] at e
      dsimp only at e
      obtain ⟨h1, h2⟩ := parseS_gr s cache acc r ha hs
      split at e
      · cases e; exact ⟨h1, h2⟩
      · obtain ⟨h3, h4⟩ := parseL_gr l r.cache r.acc R h1 e
        exact ⟨h3, Nat.le_trans h2 h4⟩

theorem parseHs_gr : ∀ (labels : List Nat) (bodies : List (List Stm)) (s : St) (hs : Hs), Gr s →
    parseHs labels bodies s = some hs → HInv s.n hs
  | label :: labels, body :: bodies, s, hs, hg, e => by
    unfold parseHs at e
    have g0 := gr_add hg [label] false
    cases hb : parseL body [] (fresh (s.add [label] false)) with
    | none => rw [hb] at e; cases e
    | some rh =>
      rw [hb] at e
      dsimp only at e
      obtain ⟨b1, b2⟩ := parseL_gr body [] _ rh (ainv_fresh g0) hb
      have b2' : s.n + 1 ≤ rh.st.n := b2
      have n1 := connectOpt_n rh.st s.n rh.head
      cases hh : parseHs labels bodies (rh.st.connectOpt s.n rh.head) with
      | none => rw [hh] at e; cases e
      | some hs' =>
        rw [hh] at e
        cases e
        have H := parseHs_gr labels bodies _ hs' (gr_connectOpt b1.gr (by omega) b1.head) hh
        have hle := H.le
        refine ⟨H.gr, ?_, ?_, ?_, ?_⟩
        · show s.n ≤ hs'.st.n; omega
        · intro x hx
          show x < hs'.st.n
          rcases List.mem_cons.1 hx with rfl | hx
          · omega
          · exact H.labels x hx
        · exact (b1.tails.mono (by show _ ≤ hs'.st.n; omega)).append H.tails
        · exact (b1.loops.mono (by show _ ≤ hs'.st.n; omega)).append H.loops
  | [], _, s, hs, hg, e => by
    unfold parseHs at e
    cases e
    exact ⟨hg, Nat.le_refl _, by simp, tb_nil _, lb_nil _⟩
  | _ :: _, [], s, hs, hg, e => by
    unfold parseHs at e
    cases e
    exact ⟨hg, Nat.le_refl _, by simp, tb_nil _, lb_nil _⟩

end

theorem buildFn_gr {decl : Nat} {body : List Stm} {g : St} (h : buildFn decl body = some g) :
    Gr g := by
  unfold buildFn at h
  have g0 : Gr (St.empty.add [decl] false) :=
    gr_add ⟨by simp [St.empty], by simp [St.empty]⟩ _ _
  cases hp : parseL body [] (fresh (St.empty.add [decl] false)) with
  | none => rw [hp] at h; cases h
  | some R =>
    rw [hp] at h
    cases h
    obtain ⟨h1, h2⟩ := parseL_gr body [] _ R (ainv_fresh g0) hp
    exact gr_connectOpt h1.gr (Nat.lt_of_lt_of_le Nat.zero_lt_one h2) h1.head

end Verif.CfgBuild
