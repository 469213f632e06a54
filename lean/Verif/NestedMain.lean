import Verif.NestedProps
/-
Nested parallel calls end; with two pools that wait for each other they need not.
-/

namespace Verif.Nested

/-! ### Every execution ends -/

def Prog.size : Prog → Nat
  | .nil => 1
  | .act k => k.size + 1
  | .sub _ c k => c.size + k.size + 4
  | .get _ k => k.size + 1

def framesSize : List Frame → Nat
  | [] => 0
  | f :: fs => f.prog.size + framesSize fs

def Status.size : Status → Nat
  | .queued => 2
  | .running _ => 1
  | .done => 0

def Task.size (t : Task) : Nat := t.st.size + framesSize t.frames

/-- What is left to do. -/
def St.size (s : St) : Nat := (s.tasks.map Task.size).sum + (s.clients.map framesSize).sum

theorem framesSize_drop (fs : List Frame) (n : Nat) : framesSize (fs.drop n) ≤ framesSize fs := by
  induction fs generalizing n with
  | nil => rw [List.drop_nil]; exact Nat.le_refl _
  | cons f fs ih =>
    cases n with
    | zero => exact Nat.le_refl _
    | succ n =>
      show framesSize (fs.drop n) ≤ f.prog.size + framesSize fs
      have := ih n
      omega

theorem local_size {tasks : List Task} {self : Option Nat} {fs fs' : List Frame} (h : Local tasks self fs fs') :
    framesSize fs' < framesSize fs := by
  cases h with
  | act k e fs => simp only [framesSize, Prog.size]; omega
  | get i k e fs _ => simp only [framesSize, Prog.size]; omega
  | inline p c k e fs _ => simp only [framesSize, Prog.size]; omega
  | ret e fs => simp only [framesSize, Prog.size]; omega
  | throw k e fs n =>
    have := framesSize_drop fs n
    simp only [framesSize, Prog.size]
    omega
  | rethrow i k e fs n _ =>
    have := framesSize_drop fs n
    simp only [framesSize, Prog.size]
    omega

theorem sum_set {α : Type} (g : α → Nat) {l : List α} {n : Nat} {a : α} (h : l[n]? = some a) (b : α) :
    ((l.set n b).map g).sum + g a = (l.map g).sum + g b := by
  induction l generalizing n with
  | nil => cases h
  | cons x l ih =>
    cases n with
    | zero =>
      cases h
      simp only [List.set_cons_zero, List.map_cons, List.sum_cons]
      omega
    | succ n =>
      have := ih (n := n) h
      simp only [List.set_cons_succ, List.map_cons, List.sum_cons]
      omega

/-- **C133 (part).**  Every step leaves less to do: no execution goes on for ever. -/
theorem step_size {P : Pools} {s s' : St} (h : Step P s s') : s'.size < s.size := by
  cases h with
  | client i fs fs' hi hl =>
    have h1 := sum_set framesSize hi fs'
    have h2 := local_size hl
    simp only [St.size]
    omega
  | clientSub i p c k e fs r hi _ _ =>
    have h1 := sum_set framesSize hi (⟨k, e ++ [some s.tasks.length]⟩ :: fs)
    simp only [framesSize, Prog.size] at h1
    simp only [St.size, List.map_append, List.sum_append, List.map_cons, List.map_nil, List.sum_cons, List.sum_nil,
      newTask, Task.size, Status.size, framesSize]
    omega
  | task n t w fs' ht hw hl =>
    have h1 := sum_set Task.size ht { t with frames := fs' }
    have h2 := local_size hl
    have h3 : Task.size t = t.st.size + framesSize t.frames := rfl
    have h4 : Task.size { t with frames := fs' } = t.st.size + framesSize fs' := rfl
    simp only [St.size]
    omega
  | taskSub n t w p c k e fs r ht hw hfr _ _ _ =>
    have h1 := sum_set Task.size ht { t with frames := ⟨k, e ++ [some s.tasks.length]⟩ :: fs }
    have h3 : Task.size t = t.st.size + (c.size + k.size + 4 + framesSize fs) := by
      unfold Task.size; rw [hfr]; rfl
    have h4 : Task.size { t with frames := ⟨k, e ++ [some s.tasks.length]⟩ :: fs } =
      t.st.size + (k.size + framesSize fs) := rfl
    have h5 : Task.size (newTask p r c e) = 2 + (c.size + 0) := rfl
    simp only [St.size, List.map_append, List.sum_append, List.map_cons, List.map_nil, List.sum_cons, List.sum_nil]
    omega
  | start n t w ht hq _ _ _ _ =>
    have h1 := sum_set Task.size ht { t with st := .running w }
    have h3 : Task.size t = 2 + framesSize t.frames := by unfold Task.size; rw [hq]; rfl
    have h4 : Task.size { t with st := .running w } = 1 + framesSize t.frames := rfl
    simp only [St.size]
    omega
  | finish n t w ht hw hfr =>
    have h1 := sum_set Task.size ht { t with st := .done }
    have h3 : Task.size t = 1 + framesSize t.frames := by unfold Task.size; rw [hw]; rfl
    have h4 : Task.size { t with st := .done } = 0 + framesSize t.frames := rfl
    simp only [St.size]
    omega

/-- **C133 (part).**  No execution is infinite, whatever the pools. -/
theorem no_infinite (P : Pools) (f : Nat → St) : ¬ ∀ n, Step P (f n) (f (n + 1)) := by
  intro h
  have : ∀ n, (f n).size + n ≤ (f 0).size := by
    intro n
    induction n with
    | zero => exact Nat.le_refl _
    | succ n ih =>
      have := step_size (h n)
      omega
  have := this ((f 0).size + 1)
  omega

/-! ### An execution that cannot go on has done everything -/

/-- **C133 (part).**  Calls that submit to and wait for their own pool and later ones: in every state that can be
reached, some step is possible or everything is done. -/
theorem layered_done_partial (P : Pools) (hsz : ∀ p, 0 < P.size p) (hc : 0 < P.cap) (progs : List Prog)
    (h : ∀ p ∈ progs, p.layered 0 []) {s : St} (hr : Reach P progs s) (hstuck : ∀ s', ¬ Step P s s') :
    Finished s := by
  apply Classical.byContradiction
  intro hn
  obtain ⟨s', hs'⟩ := progress_inv hsz hc (inv_reach h hr) hn
  exact hstuck s' hs'

theorem only_layered {p : Prog} (h : p.only 0) : ∀ es : List Nat, (∀ q ∈ es, q = 0) → p.layered 0 es := by
  induction p with
  | nil => exact fun _ _ => trivial
  | act k ih => exact fun es he => ih h es he
  | sub q c k ihc ihk =>
    intro es he
    obtain ⟨hq, h1, h2⟩ := h
    subst hq
    refine ⟨Nat.le_refl _, ihc h1 es he, ihk h2 _ ?_⟩
    intro q hq
    rcases List.mem_append.1 hq with hq | hq
    · exact he q hq
    · exact List.mem_singleton.1 hq
  | get i k ih => exact fun es he => ⟨fun _ _ => Nat.zero_le _, ih h es he⟩

/-- **C133 (part).**  One pool: calls may be nested and wait for any futures they know, at any depth. -/
theorem one_pool_done (P : Pools) (hsz : ∀ p, 0 < P.size p) (hc : 0 < P.cap) (progs : List Prog)
    (h : ∀ p ∈ progs, p.only 0) {s : St} (hr : Reach P progs s) (hstuck : ∀ s', ¬ Step P s s') : Finished s :=
  layered_done_partial P hsz hc progs (fun p hp => only_layered (h p hp) [] (fun _ hq => by cases hq)) hr hstuck

/-! ### Two pools that wait for each other -/

/-- A call on pool 0 that waits for a call on pool 1, which waits for a call on pool 0: an op on a scheduling thread
that calls `pmap` with a function that calls `apply_async` and waits. -/
def cross : Prog := .sub 0 (.sub 1 (.sub 0 .nil (.get 0 .nil)) (.get 0 .nil)) (.get 0 .nil)

/-- The queue of a pool whose only thread is thread 0. -/
def route0 (lf : Bool) : Option Nat := if lf then some 0 else none

/-- Both threads wait. -/
def deadlock (lf : Bool) : St :=
  ⟨[⟨0, route0 lf, .running 0, [⟨.get 0 .nil, [some 1]⟩]⟩, ⟨1, route0 lf, .running 0, [⟨.get 0 .nil, [some 2]⟩]⟩,
    ⟨0, route0 lf, .queued, [⟨.nil, []⟩]⟩], [[⟨.get 0 .nil, [some 0]⟩]]⟩

theorem route0_ok (lf : Bool) (cap p : Nat) : Pools.routeOk ⟨fun _ => 1, lf, cap⟩ p (route0 lf) := by
  cases lf
  · rfl
  · exact ⟨rfl, Nat.zero_lt_one⟩

theorem route0_start (lf : Bool) : route0 lf = none ∨ route0 lf = some 0 := by
  cases lf
  · exact .inl rfl
  · exact .inr rfl

theorem deadlock_reach (lf : Bool) {cap : Nat} (hc : 0 < cap) : Reach ⟨fun _ => 1, lf, cap⟩ [cross] (deadlock lf) := by
  have r0 := Reach.init (P := ⟨fun _ => 1, lf, cap⟩) (progs := [cross])
  have r1 := r0.step (.clientSub 0 0 _ _ _ _ (route0 lf) rfl (route0_ok lf cap 0) (fun _ => hc))
  have r2 := r1.step (.start 0 _ 0 rfl rfl Nat.zero_lt_one (route0_start lf)
    (by intro x hx; rcases List.mem_singleton.1 hx with rfl; intro _ h; cases h) (by intro m x hm; omega))
  have r3 := r2.step (.taskSub 0 _ 0 1 _ _ _ _ (route0 lf) rfl rfl rfl Nat.one_ne_zero (route0_ok lf cap 1)
    (by cases lf <;> exact fun _ => hc))
  have r4 := r3.step (.start 1 _ 0 rfl rfl Nat.zero_lt_one (route0_start lf)
    (by
      intro x hx hp hs
      rcases List.mem_cons.1 hx with rfl | hx
      · cases hp
      · rcases List.mem_cons.1 hx with rfl | hx
        · cases hs
        · cases hx)
    (by
      intro m x hm hx
      obtain rfl : m = 0 := by omega
      cases hx
      rfl))
  have r5 := r4.step (.taskSub 1 _ 0 0 _ _ _ _ (route0 lf) rfl rfl rfl (Ne.symm Nat.one_ne_zero) (route0_ok lf cap 0)
    (by cases lf <;> exact fun _ => hc))
  exact r5

/-- **C133 (finding).**  Two pools with one thread each, locked or not: the calls wait for each other for ever. -/
theorem two_pools_refuted (lf : Bool) {cap : Nat} (hc : 0 < cap) :
    ∃ s, Reach ⟨fun _ => 1, lf, cap⟩ [cross] s ∧ (∀ s', ¬ Step ⟨fun _ => 1, lf, cap⟩ s s') ∧ ¬ Finished s := by
  refine ⟨deadlock lf, deadlock_reach lf hc, fun s' h => ?_, fun h => ?_⟩
  · have nr : ∀ m, m < 3 → ¬ ready (deadlock lf).tasks [some m] 0 := by
      intro m hm h
      obtain ⟨x, hx, hd⟩ := h m rfl
      have : m = 0 ∨ m = 1 ∨ m = 2 := by omega
      rcases this with rfl | rfl | rfl <;> cases hx <;> cases hd
    have nl : ∀ (m : Nat) (o : Option Nat) (fs' : List Frame), m < 3 →
        ¬ Local (deadlock lf).tasks o [⟨.get 0 .nil, [some m]⟩] fs' := by
      intro m o fs' hm h
      cases h with
      | get _ _ _ _ h => exact nr m hm h
      | rethrow _ _ _ _ _ h => exact nr m hm h
    have three : ∀ {n : Nat} {t : Task}, (deadlock lf).tasks[n]? = some t → n = 0 ∨ n = 1 ∨ n = 2 := by
      intro n t ht
      have := (List.getElem?_eq_some_iff.1 ht).1
      have : n < 3 := this
      omega
    cases h with
    | client i fs fs' hi hl =>
      have : i < 1 := (List.getElem?_eq_some_iff.1 hi).1
      obtain rfl : i = 0 := by omega
      cases hi
      exact nl 0 _ _ (by omega) hl
    | clientSub i p c k e fs r hi _ _ =>
      have : i < 1 := (List.getElem?_eq_some_iff.1 hi).1
      obtain rfl : i = 0 := by omega
      cases hi
    | task n t w fs' ht hw hl =>
      rcases three ht with rfl | rfl | rfl <;> cases ht
      · exact nl 1 _ _ (by omega) hl
      · exact nl 2 _ _ (by omega) hl
      · cases hw
    | taskSub n t w p c k e fs r ht hw hfr _ _ _ =>
      rcases three ht with rfl | rfl | rfl <;> cases ht
      · cases hfr
      · cases hfr
      · cases hw
    | start n t w ht hq hw _ hfree _ =>
      rcases three ht with rfl | rfl | rfl <;> cases ht
      · cases hq
      · cases hq
      · have hw : w < 1 := hw
        obtain rfl : w = 0 := by omega
        exact hfree _ List.mem_cons_self rfl rfl
    | finish n t w ht hw hfr =>
      rcases three ht with rfl | rfl | rfl <;> cases ht
      · cases hfr
      · cases hfr
      · cases hw
  · cases h.2 _ List.mem_cons_self

/-- **C133 (finding).**  A pool without threads takes a call and never runs it. -/
theorem no_threads_refuted (cap : Nat) :
    ∃ s, Reach ⟨fun _ => 0, false, cap⟩ [.sub 0 .nil (.get 0 .nil)] s ∧
      (∀ s', ¬ Step ⟨fun _ => 0, false, cap⟩ s s') ∧ ¬ Finished s := by
  have r0 := Reach.init (P := ⟨fun _ => 0, false, cap⟩) (progs := [.sub 0 .nil (.get 0 .nil)])
  have r1 := r0.step (.clientSub 0 0 _ _ _ _ none rfl rfl (fun h => by cases h))
  refine ⟨_, r1, fun s' h => ?_, fun h => ?_⟩
  · have nr : ¬ ready [newTask 0 none .nil []] [some 0] 0 := by
      intro h
      obtain ⟨x, hx, hd⟩ := h 0 rfl
      cases hx
      cases hd
    cases h with
    | client i fs fs' hi hl =>
      have : i < 1 := (List.getElem?_eq_some_iff.1 hi).1
      obtain rfl : i = 0 := by omega
      cases hi
      cases hl with
      | get _ _ _ _ h => exact nr h
      | rethrow _ _ _ _ _ h => exact nr h
    | clientSub i p c k e fs r hi _ _ =>
      have : i < 1 := (List.getElem?_eq_some_iff.1 hi).1
      obtain rfl : i = 0 := by omega
      cases hi
    | task n t w fs' ht hw hl =>
      have : n < 1 := (List.getElem?_eq_some_iff.1 ht).1
      obtain rfl : n = 0 := by omega
      cases ht
      cases hw
    | taskSub n t w p c k e fs r ht hw hfr _ _ _ =>
      have : n < 1 := (List.getElem?_eq_some_iff.1 ht).1
      obtain rfl : n = 0 := by omega
      cases ht
      cases hw
    | start n t w ht hq hw _ hfree _ => exact absurd hw (Nat.not_lt_zero _)
    | finish n t w ht hw hfr =>
      have : n < 1 := (List.getElem?_eq_some_iff.1 ht).1
      obtain rfl : n = 0 := by omega
      cases ht
      cases hw
  · cases h.2 _ List.mem_cons_self

/-- The same nesting is fine on one pool of one thread. -/
example (lf : Bool) {s : St}
    (hr : Reach ⟨fun _ => 1, lf, 1⟩ [.sub 0 (.sub 0 (.sub 0 .nil (.get 0 .nil)) (.get 0 .nil)) (.get 0 .nil)] s)
    (hs : ∀ s', ¬ Step ⟨fun _ => 1, lf, 1⟩ s s') : Finished s :=
  one_pool_done _ (fun _ => Nat.zero_lt_one) Nat.zero_lt_one _
    (fun p hp => by rw [List.mem_singleton.1 hp]; simp [Prog.only]) hr hs

/-- So is going from one pool to a later one, from two threads at once. -/
example (lf : Bool) {s : St}
    (hr : Reach ⟨fun _ => 1, lf, 1⟩ [.sub 0 (.sub 1 (.act .nil) (.get 0 .nil)) (.get 0 .nil), .sub 1 .nil (.get 0 .nil)] s)
    (hs : ∀ s', ¬ Step ⟨fun _ => 1, lf, 1⟩ s s') : Finished s :=
  layered_done_partial _ (fun _ => Nat.zero_lt_one) Nat.zero_lt_one _
    (fun p hp => by
      rcases List.mem_cons.1 hp with rfl | hp
      · simp [Prog.layered]
      · rw [List.mem_singleton.1 hp]
        simp [Prog.layered]) hr hs

/-- The crossing calls are not layered. -/
example : ¬ cross.layered 0 [] := by simp [cross, Prog.layered]

end Verif.Nested
