/-
C86: loops over compiled generators, and where compiled generators differ from Python's (C85).
-/
import Verif.GeneratorProps

namespace Verif.Generator

variable {Val Heap : Type}

/-! ## Loops -/

theorem cfor_zero (w : World Val Heap) (body : Stmt Val Heap) (ps : List Nat) (n : Nat) (g : CGen Val) (h : Heap) :
    cfor w body ps n 0 g h = match cnext w body ps n g h with
      | some (false, g, h) => some ([], g, h)
      | _ => none := by
  unfold cfor
  rfl

theorem cfor_succ (w : World Val Heap) (body : Stmt Val Heap) (ps : List Nat) (n k : Nat) (g : CGen Val) (h : Heap) :
    cfor w body ps n (k + 1) g h = match cnext w body ps n g h with
      | some (false, g, h) =>
        if g.state = -1 then some ([], g, h)
        else (cfor w body ps n k g h).map fun (vs, r) => (g.value :: vs, r)
      | _ => none := by
  rw [cfor]
  cases hc : cnext w body ps n g h with
  | none => rfl
  | some r =>
    obtain ⟨b, g1, h1⟩ := r
    cases b with
    | true => rfl
    | false =>
      simp only [cfor.loop]
      split
      · rfl
      · rw [cfor]
        cases hc2 : cnext w body ps n g1 h1 with
        | none => rfl
        | some r2 =>
          obtain ⟨b2, g2, h2⟩ := r2
          cases b2 <;> rfl

theorem matchG_state {w : World Val Heap} {body : Stmt Val Heap} {ps : List Nat} {p : PGen Val Heap} {g : CGen Val}
    (h : MatchG w body ps p g) : g.state ≠ -1 := by
  cases p with
  | fresh env => have := h.1; omega
  | suspended K env => have := h.1; omega
  | finished => exact h.elim

/-- A `next` that yields in Python yields the same compiled, and the generators keep belonging together. -/
theorem next_yielded {w : World Val Heap} {src body : Stmt Val Heap} {ps : List Nat} (hb : build src = some body)
    (hs : Safe src) {n : Nat} {p p' : PGen Val Heap} {g : CGen Val} {h h' : Heap} {v : Val} (hm : MatchG w body ps p g)
    (hp : pnext w src n p h = some (.yielded v, p', h')) :
    ∃ g', cnext w body ps n g h = some (false, g', h') ∧ g'.value = v ∧ MatchG w body ps p' g' := by
  have := next_match w src body ps hb hs n p g h hm
  rw [hp] at this
  cases hc : cnext w body ps n g h with
  | none => rw [hc] at this; exact this.elim
  | some r =>
    obtain ⟨b, g', h2⟩ := r
    rw [hc] at this
    cases b with
    | true => exact this.elim
    | false =>
      obtain ⟨h3, rfl, h5⟩ := this
      exact ⟨g', rfl, h3, h5⟩

theorem next_done {w : World Val Heap} {src body : Stmt Val Heap} {ps : List Nat} (hb : build src = some body)
    (hs : Safe src) {n : Nat} {p p' : PGen Val Heap} {g : CGen Val} {h h' : Heap} (hm : MatchG w body ps p g)
    (hp : pnext w src n p h = some (.done, p', h')) :
    ∃ g', cnext w body ps n g h = some (false, g', h') ∧ g'.state = -1 := by
  have := next_match w src body ps hb hs n p g h hm
  rw [hp] at this
  cases hc : cnext w body ps n g h with
  | none => rw [hc] at this; exact this.elim
  | some r =>
    obtain ⟨b, g', h2⟩ := r
    rw [hc] at this
    cases b with
    | true => exact this.elim
    | false =>
      obtain ⟨h3, rfl⟩ := this
      exact ⟨g', rfl, h3⟩

/-- **C86.**  A `for` loop over a new generator that Python runs to the end sees the same elements compiled, and the
generator's effects are the same. -/
theorem for_same_partial (w : World Val Heap) (src body : Stmt Val Heap) (ps : List Nat) (hb : build src = some body)
    (hp : Plain src) (args : Nat → Val) (value : Val) (m : Mem Val) (n k : Nat) (h h' : Heap) (vs : List Val)
    (hr : pfor w src n k (pnew ps args m) h = some (vs, .finished, h')) :
    ∃ g, cfor w body ps n k (cnew args value m) h = some (vs, g, h') := by
  have hs := build_safe src body hb hp
  have key : ∀ k (p : PGen Val Heap) (g : CGen Val) h vs, MatchG w body ps p g →
      pfor w src n k p h = some (vs, .finished, h') → ∃ g', cfor w body ps n k g h = some (vs, g', h') := by
    intro k
    induction k with
    | zero =>
      intro p g h vs hm hr
      simp only [pfor, Option.some.injEq, Prod.mk.injEq] at hr
      obtain ⟨_, rfl, _⟩ := hr
      exact hm.elim
    | succ k ih =>
      intro p g h vs hm hr
      rw [pfor] at hr
      rw [cfor_succ]
      cases hpn : pnext w src n p h with
      | none => rw [hpn] at hr; simp at hr
      | some r =>
        obtain ⟨o, p1, h1⟩ := r
        rw [hpn] at hr
        cases o with
        | yielded v =>
          obtain ⟨g1, hc, rfl, hm1⟩ := next_yielded hb hs hm hpn
          simp only at hr
          cases hpf : pfor w src n k p1 h1 with
          | none => rw [hpf] at hr; simp at hr
          | some r2 =>
            obtain ⟨vs2, p2, h2⟩ := r2
            rw [hpf] at hr
            simp only [Option.map_some, Option.some.injEq, Prod.mk.injEq] at hr
            obtain ⟨rfl, rfl, rfl⟩ := hr
            obtain ⟨g2, hg2⟩ := ih p1 g1 h1 vs2 hm1 hpf
            refine ⟨g2, ?_⟩
            simp only [hc, matchG_state hm1, if_false, hg2, Option.map_some]
        | done =>
          obtain ⟨g1, hc, hst⟩ := next_done hb hs hm hpn
          simp only [Option.some.injEq, Prod.mk.injEq] at hr
          obtain ⟨rfl, _, rfl⟩ := hr
          exact ⟨g1, by simp only [hc, hst, if_true]⟩
        | raised => simp at hr
  exact key k (pnew ps args m) (cnew args value m) h vs ⟨rfl, rfl⟩ hr

/-- C86 is false of a loop that ends with `break`: it takes one more element from the generator than Python's, and
that element is lost. Whatever the generator: if Python's yields `a`, `b`, `c`, a loop that breaks at the first
element leaves Python's generator at `b`, and the compiled one at `c`. -/
theorem for_break_refuted (w : World Val Heap) (src body : Stmt Val Heap) (ps : List Nat) (hb : build src = some body)
    (hp : Plain src) (args : Nat → Val) (value : Val) (m : Mem Val) (n : Nat) (h h1 h2 h3 : Heap) (a b c : Val)
    (p1 p2 p3 : PGen Val Heap)
    (ha : pnext w src n (pnew ps args m) h = some (.yielded a, p1, h1))
    (hb2 : pnext w src n p1 h1 = some (.yielded b, p2, h2))
    (hc : pnext w src n p2 h2 = some (.yielded c, p3, h3)) :
    pfor w src n 1 (pnew ps args m) h = some ([a], p1, h1) ∧
    ∃ g, cfor w body ps n 1 (cnew args value m) h = some ([a], g, h2) ∧
      ∃ r, cnext w body ps n g h2 = some r ∧ cout r = .yielded c := by
  have hs := build_safe src body hb hp
  have hm0 : MatchG w body ps (pnew ps args m) (cnew args value m) := ⟨rfl, rfl⟩
  obtain ⟨g1, c1, rfl, m1⟩ := next_yielded hb hs hm0 ha
  obtain ⟨g2, c2, rfl, m2⟩ := next_yielded hb hs m1 hb2
  obtain ⟨g3, c3, rfl, m3⟩ := next_yielded hb hs m2 hc
  refine ⟨by simp [pfor, ha], g2, ?_, (false, g3, h3), c3, ?_⟩
  · rw [cfor_succ]
    simp only [c1, matchG_state m1, if_false]
    rw [cfor_zero]
    simp only [c2, Option.map_some]
  · simp [cout, matchG_state m3]

/-! ## After the end -/

/-- A call of `next` after the end runs the body from its start: it does what the call on a new object with the same
members does, and does not look at the state. -/
theorem exhausted_restarts (w : World Val Heap) (body : Stmt Val Heap) (ps : List Nat) (n : Nat) (value : Val)
    (m : Mem Val) (h : Heap) (s1 s2 : Int) (h1 : s1 ≤ 0) (h2 : s2 ≤ 0) :
    (cnext w body ps n ⟨s1, value, m⟩ h).map (fun r => (r.1, r.2.1.value, r.2.1.mem, r.2.2)) =
    (cnext w body ps n ⟨s2, value, m⟩ h).map (fun r => (r.1, r.2.1.value, r.2.1.mem, r.2.2)) := by
  have key : ∀ n s K m h, (crun w n s K s1 value m h).map (fun r => (r.1, r.2.1.value, r.2.1.mem, r.2.2)) =
      (crun w n s K s2 value m h).map (fun r => (r.1, r.2.1.value, r.2.1.mem, r.2.2)) := by
    intro n
    induction n with
    | zero => intros; rfl
    | succ n ih =>
      intro s K m h
      simp only [crun]
      cases cstep w s K m h <;> first | exact ih _ _ _ _ | rfl
  have e1 : ¬ (0 < s1) := by omega
  have e2 : ¬ (0 < s2) := by omega
  simp only [cnext, e1, e2, if_false]
  exact key n body [] _ h

/-- An expression that is a constant. -/
def lit (v : Val) : Expr Val Heap := ⟨[], fun _ h => (some v, h)⟩

/-- An expression that raises. -/
def raise : Expr Val Heap := ⟨[], fun _ h => (none, h)⟩

/-- Calls `next` `k` times, whatever it does. -/
def cnexts (w : World Val Heap) (body : Stmt Val Heap) (ps : List Nat) (n : Nat) : Nat → CGen Val → Heap → List (Out Val)
  | 0, _, _ => []
  | k + 1, g, h =>
    match cnext w body ps n g h with
    | none => []
    | some r => cout r :: cnexts w body ps n k r.2.1 r.2.2

def pnexts (w : World Val Heap) (body : Stmt Val Heap) (n : Nat) : Nat → PGen Val Heap → Heap → List (Out Val)
  | 0, _, _ => []
  | k + 1, g, h =>
    match pnext w body n g h with
    | none => []
    | some (o, g, h) => o :: pnexts w body n k g h

/-- In Python the end is the end. -/
theorem python_end (w : World Val Heap) (body : Stmt Val Heap) (n k : Nat) (h : Heap) :
    pnexts w body n k .finished h = List.replicate k .done := by
  induction k with
  | zero => rfl
  | succ k ih => simp [pnexts, pnext, ih, List.replicate_succ]

/-- C85 after the end: of `def f(): yield v`, calls of `next` alternate between `v` and the end for ever; Python's
generator yields `v` once. -/
theorem exhausted_refuted (w : World Val Heap) (v value : Val) (args : Nat → Val) (m : Mem Val) (n k : Nat) (h : Heap) :
    ∃ body, build (.yield (lit v) 0 : Stmt Val Heap) = some body ∧
      cnexts w body [] (n + 2) (2 * k) (cnew args value m) h = (List.replicate k [.yielded v, .done]).flatten ∧
      pnexts w (.yield (lit v) 0) (n + 2) (k + 1) (pnew [] args m) h = .yielded v :: List.replicate k .done := by
  refine ⟨.yield (lit v) 1, rfl, ?_, ?_⟩
  · have key : ∀ k (g : CGen Val) h, g.state ≤ 0 → cnexts w (.yield (lit v) 1) [] (n + 2) (2 * k) g h =
        (List.replicate k [Out.yielded v, .done]).flatten := by
      intro k
      induction k with
      | zero => intros; rfl
      | succ k ih =>
        intro g h hg
        have hg' : ¬ (0 < g.state) := by omega
        have e1 : cnext w (.yield (lit v) 1) [] (n + 2) g h = some (false, ⟨1, v, copyParams [] g.mem⟩, h) := by
          simp [cnext, hg', crun, cstep, lit, Expr.eval]
        have e2 : cnext w (.yield (lit v) 1) [] (n + 2) ⟨1, v, copyParams [] g.mem⟩ h =
            some (false, ⟨-1, v, copyParams [] g.mem⟩, h) := by
          simp [cnext, findLabel, crun, cstep, ccontinue]
        rw [show 2 * (k + 1) = 2 * k + 1 + 1 by omega, cnexts]
        simp only [e1]
        rw [cnexts]
        simp only [e2]
        rw [ih _ _ (by simp)]
        simp [cout, List.replicate_succ]
    exact key k _ h (by simp [cnew])
  · cases k with
    | zero => simp [pnexts, pnew, pnext, prun, pstep, lit, Expr.eval]
    | succ k =>
      rw [pnexts]
      simp only [pnew, pnext, prun, pstep, lit, Expr.eval]
      rw [pnexts]
      simp only [pnext, prun, pstep, pcontinue]
      rw [python_end, List.replicate_succ]

/-- C85 with `return`: of `def f(): yield v; return u`, every call of `next` gives `v`; Python's generator ends after
the first. -/
theorem return_refuted (w : World Val Heap) (v u value : Val) (args : Nat → Val) (m : Mem Val) (n k : Nat) (h : Heap) :
    ∃ body, build (.seq (.yield (lit v) 0) (.ret (lit u)) : Stmt Val Heap) = some body ∧
      cnexts w body [] (n + 2) k (cnew args value m) h = List.replicate k (.yielded v) ∧
      pnexts w (.seq (.yield (lit v) 0) (.ret (lit u))) (n + 2) (k + 1) (pnew [] args m) h =
        .yielded v :: List.replicate k .done := by
  refine ⟨.seq (.yield (lit v) 1) (.ret (lit u)), rfl, ?_, ?_⟩
  · have rest : ∀ k (m : Mem Val) h, cnexts w (.seq (.yield (lit v) 1) (.ret (lit u))) [] (n + 2) k ⟨1, v, m⟩ h =
        List.replicate k (.yielded v) := by
      intro k
      induction k with
      | zero => intros; rfl
      | succ k ih =>
        intro m h
        have e2 : cnext w (.seq (.yield (lit v) 1) (.ret (lit u))) [] (n + 2) ⟨1, v, m⟩ h =
            some (false, ⟨1, v, m⟩, h) := by
          simp [cnext, findLabel, crun, cstep, ccontinue, lit, Expr.eval]
        rw [cnexts]
        simp only [e2]
        rw [ih]
        simp [cout, List.replicate_succ]
    cases k with
    | zero => rfl
    | succ k =>
      have e1 : cnext w (.seq (.yield (lit v) 1) (.ret (lit u))) [] (n + 2) (cnew args value m) h =
          some (false, ⟨1, v, copyParams [] (cnew args value m).mem⟩, h) := by
        simp [cnext, cnew, crun, cstep, lit, Expr.eval]
      rw [cnexts]
      simp only [e1]
      rw [rest]
      simp [cout, List.replicate_succ]
  · cases k with
    | zero => simp [pnexts, pnew, pnext, prun, pstep, lit, Expr.eval]
    | succ k =>
      rw [pnexts]
      simp only [pnew, pnext, prun, pstep, lit, Expr.eval]
      rw [pnexts]
      simp only [pnext, prun, pstep, pcontinue, lit, Expr.eval]
      rw [python_end, List.replicate_succ]

/-- C85 after an exception: of `def f(): yield v; g(); yield u` where `g()` raises, every later call raises again;
Python's generator has ended. -/
theorem raised_refuted (w : World Val Heap) (v u value : Val) (args : Nat → Val) (m : Mem Val) (n k : Nat) (h : Heap) :
    ∃ body, build (.seq (.yield (lit v) 0) (.seq (.eff raise) (.yield (lit u) 0)) : Stmt Val Heap) = some body ∧
      cnexts w body [] (n + 3) (k + 1) (cnew args value m) h = .yielded v :: List.replicate k .raised ∧
      pnexts w (.seq (.yield (lit v) 0) (.seq (.eff raise) (.yield (lit u) 0))) (n + 3) (k + 2) (pnew [] args m) h =
        .yielded v :: .raised :: List.replicate k .done := by
  refine ⟨.seq (.yield (lit v) 1) (.seq (.eff raise) (.yield (lit u) 2)), rfl, ?_, ?_⟩
  · have rest : ∀ k (m : Mem Val) h, cnexts w (.seq (.yield (lit v) 1) (.seq (.eff raise) (.yield (lit u) 2))) []
        (n + 3) k ⟨1, v, m⟩ h = List.replicate k .raised := by
      intro k
      induction k with
      | zero => intros; rfl
      | succ k ih =>
        intro m h
        have e2 : cnext w (.seq (.yield (lit v) 1) (.seq (.eff raise) (.yield (lit u) 2))) [] (n + 3) ⟨1, v, m⟩ h =
            some (true, ⟨1, v, m⟩, h) := by
          simp [cnext, findLabel, crun, cstep, ccontinue, raise, Expr.eval]
        rw [cnexts]
        simp only [e2]
        rw [ih]
        simp [cout, List.replicate_succ]
    have e1 : cnext w (.seq (.yield (lit v) 1) (.seq (.eff raise) (.yield (lit u) 2))) [] (n + 3) (cnew args value m) h =
        some (false, ⟨1, v, copyParams [] (cnew args value m).mem⟩, h) := by
      simp [cnext, cnew, crun, cstep, lit, Expr.eval]
    rw [cnexts]
    simp only [e1]
    rw [rest]
    simp [cout]
  · rw [pnexts]
    simp only [pnew, pnext, prun, pstep, lit, Expr.eval]
    rw [pnexts]
    simp only [pnext, prun, pstep, pcontinue, raise, Expr.eval]
    rw [python_end]

/-- C85 after an exception in a yielded expression: of `def f(): yield g(); yield u` where `g()` raises, the next call
gives `u`; Python's generator has ended. -/
theorem raised_in_yield_refuted (w : World Val Heap) (u value : Val) (args : Nat → Val) (m : Mem Val) (n : Nat) (h : Heap) :
    ∃ body, build (.seq (.yield raise 0) (.yield (lit u) 0) : Stmt Val Heap) = some body ∧
      cnexts w body [] (n + 2) 2 (cnew args value m) h = [.raised, .yielded u] ∧
      pnexts w (.seq (.yield raise 0) (.yield (lit u) 0)) (n + 2) 2 (pnew [] args m) h = [.raised, .done] := by
  refine ⟨.seq (.yield raise 1) (.yield (lit u) 2), rfl, ?_, ?_⟩
  · have e1 : cnext w (.seq (.yield raise 1) (.yield (lit u) 2)) [] (n + 2) (cnew args value m) h =
        some (true, ⟨1, value, copyParams [] (cnew args value m).mem⟩, h) := by
      simp [cnext, cnew, crun, cstep, raise, Expr.eval]
    have e2 : ∀ m : Mem Val, cnext w (.seq (.yield raise 1) (.yield (lit u) 2)) [] (n + 2) ⟨1, value, m⟩ h =
        some (false, ⟨2, u, m⟩, h) := by
      intro m
      simp [cnext, findLabel, crun, cstep, ccontinue, lit, Expr.eval]
    simp [cnexts, e1, e2, cout]
  · simp [pnexts, pnew, pnext, prun, pstep, raise, Expr.eval]

/-- C85 with a step of 0 in a variable: Python raises, the compiled loop does not run and the generator ends, for every
body and lower bound not above the upper bound. -/
theorem zero_step_refuted (w : World Val Heap) (s : Stmt Val Heap) (v t x : Nat) (lo hi : Int) (ym : Bool)
    (hlo : lo ≤ hi) (value : Val) (args : Nat → Val) (hx : w.toInt (args x) = 0) (m : Mem Val) (n : Nat) (h : Heap)
    (body : Stmt Val Heap) (hb : build (.range v t (.imm lo) (.imm hi) (.var x) ym s) = some body) :
    cnexts w body [x] (n + 2) 1 (cnew args value m) h = [.done] ∧
      pnexts w (.range v t (.imm lo) (.imm hi) (.var x) ym s) (n + 2) 1 (pnew [x] args m) h = [.raised] := by
  have hbody : ∃ s' ym', body = .range v t (.imm lo) (.imm hi) (.var x) ym' s' := by
    unfold build at hb
    simp only at hb
    split at hb
    · injection hb with hb
      exact ⟨_, true, hb.symm⟩
    · simp at hb
  obtain ⟨s', ym', rfl⟩ := hbody
  constructor
  · have hle : ¬ hi < lo := by omega
    simp [cnexts, cnext, cnew, crun, cstep, Atom.eval, copyParams, Mem.setT, hx, test, ccontinue, w.toInt_int, upd, hle,
      cout]
  · simp [pnexts, pnext, pnew, prun, pstep, Atom.eval, hx]

/-! ## Examples -/

/-- Lists of integers as values; an integer is a list of one element. -/
def listWorld : World (List Int) Unit where
  truthy v := v.headD 0 != 0
  int n := [n]
  toInt v := v.headD 0
  toInt_int _ := rfl
  iter v _ := some v
  next v _ := match v with
    | [] => none
    | x :: xs => some ([x], xs)

/-- `def f(xs): n = 0; for x in xs: n = n + x; if n: yield n` and after the loop `while n: n = n - 1; yield x`. -/
def sample : Stmt (List Int) Unit :=
  .seq (.alloca 1 (lit [0]))
    (.seq (.forIn 2 0 ⟨[0], fun vs h => (vs.head?, h)⟩ false
        (.seq (.assign 1 ⟨[1, 2], fun vs h => (some [vs.flatten.sum], h)⟩)
          (.ite ⟨[1], fun vs h => (vs.head?, h)⟩ (.yield ⟨[1], fun vs h => (vs.head?, h)⟩ 0) .skip)))
      (.loop ⟨[1], fun vs h => (vs.head?, h)⟩
        (.seq (.assign 1 ⟨[1], fun vs h => (some [vs.flatten.sum - 1], h)⟩)
          (.yield ⟨[2], fun vs h => (vs.head?, h)⟩ 0))))

theorem sample_plain : Plain sample := by simp [sample, Plain]

example : (build sample).isSome = true := rfl

/-- It yields 1, 3, 2 for `[1, 2, -3, 2]`, then the last `x` twice. -/
example : (pnexts listWorld sample 30 6 (pnew [0] (fun _ => [1, 2, -3, 2]) ⟨fun _ => [], fun _ => [], fun _ => []⟩) ()) =
    [.yielded [1], .yielded [3], .yielded [2], .yielded [2], .yielded [2], .done] := rfl

example : ∃ b, build sample = some b ∧
    cnexts listWorld b [0] 30 6 (cnew (fun _ => [1, 2, -3, 2]) [] ⟨fun _ => [], fun _ => [], fun _ => []⟩) () =
      [.yielded [1], .yielded [3], .yielded [2], .yielded [2], .yielded [2], .done] := ⟨_, rfl, rfl⟩

/-- A loop in full, and the loop with a `break` at the first element. -/
example : (pfor listWorld sample 30 9 (pnew [0] (fun _ => [1, 2]) ⟨fun _ => [], fun _ => [], fun _ => []⟩) ()).map
    (fun r => r.1) = some [[1], [3], [2], [2], [2]] := rfl

example : ∃ b, build sample = some b ∧
    (cfor listWorld b [0] 30 9 (cnew (fun _ => [1, 2]) [] ⟨fun _ => [], fun _ => [], fun _ => []⟩) ()).map
      (fun r => r.1) = some [[1], [3], [2], [2], [2]] := ⟨_, rfl, rfl⟩

/-- `for i in range(0, 2): for j in range(0, 2): yield j` is rejected. -/
example : build (.range 0 0 (.imm 0) (.imm 2) (.imm 1) false
    (.range 1 1 (.imm 0) (.imm 2) (.imm 1) false (.yield ⟨[1], fun vs h => (vs.head?, h)⟩ 0)) : Stmt (List Int) Unit) = none :=
  rfl

/-- `for i in range(0, 2): y = i; yield y` is rejected; with `y = 0` before the loop it is accepted. -/
example : build (.range 0 0 (.imm 0) (.imm 2) (.imm 1) false
    (.seq (.alloca 1 ⟨[0], fun vs h => (vs.head?, h)⟩) (.yield ⟨[1], fun vs h => (vs.head?, h)⟩ 0)) : Stmt (List Int) Unit) =
    none := rfl

example : (build (.seq (.alloca 1 (lit [0])) (.range 0 0 (.imm 0) (.imm 2) (.imm 1) false
    (.seq (.assign 1 ⟨[0], fun vs h => (vs.head?, h)⟩) (.yield ⟨[1], fun vs h => (vs.head?, h)⟩ 0))) :
      Stmt (List Int) Unit)).isSome = true := rfl

end Verif.Generator
