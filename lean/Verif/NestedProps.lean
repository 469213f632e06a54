import Verif.Nested
/-
What holds in every state, and why a step is possible as long as something is left.
-/

namespace Verif.Nested

/-- Tasks are kept, in their pools. -/
def Grow (a b : List Task) : Prop := ∀ (m : Nat) (x : Task), a[m]? = some x → ∃ y : Task, b[m]? = some y ∧ y.pool = x.pool

theorem Grow.set {l : List Task} {n : Nat} {t t' : Task} (h : l[n]? = some t) (hp : t'.pool = t.pool) :
    Grow l (l.set n t') := by
  intro m x hx
  by_cases e : n = m
  · subst e
    rw [h] at hx
    cases hx
    refine ⟨t', ?_, hp⟩
    rw [List.getElem?_set_self]
    exact (List.getElem?_eq_some_iff.1 h).1
  · exact ⟨x, by rw [List.getElem?_set_ne e]; exact hx, rfl⟩

theorem Grow.append (l r : List Task) : Grow l (l ++ r) := by
  intro m x hx
  exact ⟨x, by rw [List.getElem?_append_left (List.getElem?_eq_some_iff.1 hx).1]; exact hx, rfl⟩

theorem Grow.trans {a b c : List Task} (h : Grow a b) (h' : Grow b c) : Grow a c := by
  intro m x hx
  obtain ⟨y, hy, e⟩ := h m x hx
  obtain ⟨z, hz, e'⟩ := h' m y hy
  exact ⟨z, hz, e'.trans e⟩

theorem Grow.rfl' (l : List Task) : Grow l l := fun _ x hx => ⟨x, hx, rfl⟩

/-- A call of pool `p` that keeps to the layers; futures of its own pool are of tasks before `b`. -/
def FrameOk (tasks : List Task) (p b : Nat) (f : Frame) : Prop :=
  ∃ es : List Nat, es.length = f.env.length ∧ f.prog.layered p es ∧
    ∀ i m : Nat, f.env[i]? = some (some m) → ∃ x : Task, tasks[m]? = some x ∧ es[i]? = some x.pool ∧ (x.pool = p → m < b)

theorem FrameOk.mono {tasks tasks' : List Task} {p b b' : Nat} {f : Frame} (h : FrameOk tasks p b f)
    (hg : Grow tasks tasks') (hb : b ≤ b') : FrameOk tasks' p b' f := by
  obtain ⟨es, h1, h2, h3⟩ := h
  refine ⟨es, h1, h2, fun i m hi => ?_⟩
  obtain ⟨x, hx, he, hm⟩ := h3 i m hi
  obtain ⟨y, hy, hp⟩ := hg m x hx
  exact ⟨y, hy, by rw [hp]; exact he, fun e => Nat.lt_of_lt_of_le (hm (hp ▸ e)) hb⟩

theorem local_ok {tasks : List Task} {self : Option Nat} {p b : Nat} {fs fs' : List Frame}
    (hs : self = some p ∨ self = none) (h : Local tasks self fs fs') (ho : ∀ f ∈ fs, FrameOk tasks p b f) :
    ∀ f ∈ fs', FrameOk tasks p b f := by
  cases h with
  | act k e fs =>
    intro f hf
    rcases List.mem_cons.1 hf with rfl | hf
    · exact ho ⟨.act k, e⟩ (List.mem_cons_self ..)
    · exact ho f (List.mem_cons_of_mem _ hf)
  | get i k e fs _ =>
    intro f hf
    rcases List.mem_cons.1 hf with rfl | hf
    · obtain ⟨es, h1, h2, h3⟩ := ho _ (List.mem_cons_self ..)
      exact ⟨es, h1, h2.2, h3⟩
    · exact ho f (List.mem_cons_of_mem _ hf)
  | inline q c k e fs hq =>
    have hp : q = p := by
      rcases hs with h | h
      · exact Option.some.inj (hq.symm.trans h)
      · rw [h] at hq; cases hq
    subst hp
    obtain ⟨es, h1, h2, h3⟩ := ho _ (List.mem_cons_self ..)
    intro f hf
    rcases List.mem_cons.1 hf with rfl | hf
    · exact ⟨es, h1, h2.2.1, h3⟩
    rcases List.mem_cons.1 hf with rfl | hf
    · refine ⟨es ++ [q], by rw [List.length_append, List.length_append]; exact congrArg (· + 1) h1, h2.2.2,
        fun i m hi => ?_⟩
      have hi : (e ++ [none])[i]? = some (some m) := hi
      by_cases hl : i < e.length
      · rw [List.getElem?_append_left hl] at hi
        obtain ⟨x, hx, he, hm⟩ := h3 i m hi
        refine ⟨x, hx, ?_, hm⟩
        rw [List.getElem?_append_left (by have : es.length = e.length := h1; omega)]
        exact he
      · rw [List.getElem?_append_right (by omega)] at hi
        exfalso
        cases hd : i - e.length with
        | zero => rw [hd] at hi; cases hi
        | succ d => rw [hd] at hi; cases hi
    · exact ho f (List.mem_cons_of_mem _ hf)
  | ret e fs => exact fun f hf => ho f (List.mem_cons_of_mem _ hf)
  | throw k e fs n => exact fun f hf => ho f (List.mem_cons_of_mem _ (List.mem_of_mem_drop hf))
  | rethrow i k e fs n _ => exact fun f hf => ho f (List.mem_cons_of_mem _ (List.mem_of_mem_drop hf))

/-- After a submission. -/
theorem sub_ok {tasks tasks' : List Task} {p b b' q : Nat} {c k : Prog} {e : List Fut} {new : Task}
    (h : FrameOk tasks p b ⟨.sub q c k, e⟩) (hg : Grow tasks tasks') (hn : tasks'[tasks.length]? = some new)
    (hq : new.pool = q) (hb : b ≤ b') (hpq : q = p → tasks.length < b') :
    FrameOk tasks' p b' ⟨k, e ++ [some tasks.length]⟩ ∧ FrameOk tasks' q tasks.length ⟨c, e⟩ := by
  obtain ⟨es, h1, h2, h3⟩ := h
  have h1 : es.length = e.length := h1
  constructor
  · refine ⟨es ++ [q], by rw [List.length_append, List.length_append]; exact congrArg (· + 1) h1, h2.2.2,
      fun i m hi => ?_⟩
    have hi : (e ++ [some tasks.length])[i]? = some (some m) := hi
    by_cases hl : i < e.length
    · rw [List.getElem?_append_left hl] at hi
      obtain ⟨x, hx, he, hm⟩ := h3 i m hi
      obtain ⟨y, hy, hp⟩ := hg m x hx
      refine ⟨y, hy, ?_, fun e' => Nat.lt_of_lt_of_le (hm (hp ▸ e')) hb⟩
      rw [List.getElem?_append_left (by omega), hp]
      exact he
    · rw [List.getElem?_append_right (by omega)] at hi
      cases hd : i - e.length with
      | zero =>
        rw [hd] at hi
        have hm : tasks.length = m := Option.some.inj (Option.some.inj hi)
        subst hm
        refine ⟨new, hn, ?_, fun e' => hpq (hq ▸ e')⟩
        rw [List.getElem?_append_right (by omega), h1, hd, hq]
        rfl
      | succ d => rw [hd] at hi; cases hi
  · refine ⟨es, h1, h2.2.1, fun i m hi => ?_⟩
    obtain ⟨x, hx, he, _⟩ := h3 i m hi
    obtain ⟨y, hy, hp⟩ := hg m x hx
    exact ⟨y, hy, by rw [hp]; exact he, fun _ => (List.getElem?_eq_some_iff.1 hx).1⟩

/-- What holds in every state. -/
structure Inv (P : Pools) (s : St) : Prop where
  clients : ∀ fs ∈ s.clients, ∀ f ∈ fs, FrameOk s.tasks 0 s.tasks.length f
  frames : ∀ (n : Nat) (t : Task), s.tasks[n]? = some t → ∀ f ∈ t.frames, FrameOk s.tasks t.pool n f
  route : ∀ (n : Nat) (t : Task), s.tasks[n]? = some t → P.routeOk t.pool t.route
  own : ∀ (n : Nat) (t : Task) (w : Nat), s.tasks[n]? = some t → t.st = .running w → t.route = none ∨ t.route = some w
  fifo : ∀ (m n : Nat) (x y : Task), m < n → s.tasks[m]? = some x → s.tasks[n]? = some y → x.pool = y.pool → x.route = y.route →
    x.st = .queued → y.st = .queued

theorem getElem?_set_cases {α : Type} {l : List α} {n m : Nat} {a b : α} (h : (l.set n a)[m]? = some b) :
    (n = m ∧ b = a) ∨ (n ≠ m ∧ l[m]? = some b) := by
  by_cases e : n = m
  · subst e
    left
    have hl : n < l.length := by
      have := (List.getElem?_eq_some_iff.1 h).1
      rw [List.length_set] at this
      exact this
    rw [List.getElem?_set_self hl] at h
    exact ⟨rfl, (Option.some.inj h).symm⟩
  · right
    rw [List.getElem?_set_ne e] at h
    exact ⟨e, h⟩

theorem mem_set_cases {α : Type} {l : List α} {n : Nat} {a b : α} (h : b ∈ l.set n a) : b = a ∨ b ∈ l := by
  rcases List.mem_or_eq_of_mem_set h with h | h
  · exact Or.inr h
  · exact Or.inl h

/-- A task is replaced, in the same pool and queue. -/
theorem inv_set {P : Pools} {s : St} (h : Inv P s) {n : Nat} {t t' : Task} (ht : s.tasks[n]? = some t)
    (hp : t'.pool = t.pool) (hr : t'.route = t.route)
    (hf : ∀ f ∈ t'.frames, FrameOk s.tasks t.pool n f)
    (ho : ∀ w, t'.st = .running w → t.route = none ∨ t.route = some w)
    (hq : t'.st = .queued → t.st = .queued)
    (hs : t.st = .queued → t'.st ≠ .queued → ∀ (m : Nat) (x : Task), m < n → s.tasks[m]? = some x → waitingIn t.pool t.route x = false) :
    Inv P { s with tasks := s.tasks.set n t' } := by
  have hg := Grow.set (t' := t') ht hp
  refine ⟨fun fs hfs f hf' => (h.clients fs hfs f hf').mono hg (by rw [List.length_set]; exact Nat.le_refl _),
    fun m x hx f hf' => ?_, fun m x hx => ?_, fun m x w hx hw => ?_, fun m k x y hmk hx hy hxy hrr hst => ?_⟩
  · rcases getElem?_set_cases hx with ⟨e, e'⟩ | ⟨e, hx⟩
    · subst e; subst e'
      rw [hp]
      exact (hf f hf').mono hg (Nat.le_refl _)
    · exact (h.frames m x hx f hf').mono hg (Nat.le_refl _)
  · rcases getElem?_set_cases hx with ⟨e, e'⟩ | ⟨e, hx⟩
    · subst e; subst e'
      rw [hp, hr]
      exact h.route n t ht
    · exact h.route m x hx
  · rcases getElem?_set_cases hx with ⟨e, e'⟩ | ⟨e, hx⟩
    · subst e; subst e'
      rw [hr]
      exact ho w hw
    · exact h.own m x w hx hw
  · rcases getElem?_set_cases hx with ⟨e, e'⟩ | ⟨_, hx'⟩
    · subst e; subst e'
      rcases getElem?_set_cases hy with ⟨e, _⟩ | ⟨_, hy⟩
      · omega
      · rw [hp] at hxy
        rw [hr] at hrr
        exact h.fifo n k t y hmk ht hy hxy hrr (hq hst)
    · rcases getElem?_set_cases hy with ⟨e, e'⟩ | ⟨_, hy⟩
      · subst e; subst e'
        rw [hp] at hxy
        rw [hr] at hrr
        have h1 := h.fifo m n x t hmk hx' ht hxy hrr hst
        apply Classical.byContradiction
        intro hne
        have h2 := hs h1 hne m x hmk hx'
        rw [waitingIn, hxy, hrr, hst] at h2
        simp at h2
      · exact h.fifo m k x y hmk hx' hy hxy hrr hst

/-- A task is added. -/
theorem inv_append {P : Pools} {s : St} (h : Inv P s) {t : Task} (hq : t.st = .queued)
    (hf : ∀ f ∈ t.frames, FrameOk (s.tasks ++ [t]) t.pool s.tasks.length f) (hr : P.routeOk t.pool t.route) :
    Inv P { s with tasks := s.tasks ++ [t] } := by
  have hg := Grow.append s.tasks [t]
  have hc : ∀ {m : Nat} {x : Task}, (s.tasks ++ [t])[m]? = some x → (m = s.tasks.length ∧ x = t) ∨ s.tasks[m]? = some x := by
    intro m x hx
    by_cases hl : m < s.tasks.length
    · rw [List.getElem?_append_left hl] at hx
      exact Or.inr hx
    · rw [List.getElem?_append_right (by omega)] at hx
      cases hd : m - s.tasks.length with
      | zero => rw [hd] at hx; exact Or.inl ⟨by omega, (Option.some.inj hx).symm⟩
      | succ d => rw [hd] at hx; cases hx
  refine ⟨fun fs hfs f hf' => (h.clients fs hfs f hf').mono hg (by rw [List.length_append]; exact Nat.le_add_right ..),
    fun m x hx f hf' => ?_, fun m x hx => ?_, fun m x w hx hw => ?_, fun m k x y hmk hx hy hxy hrr hst => ?_⟩
  · rcases hc hx with ⟨e, e'⟩ | hx
    · subst e; subst e'; exact hf f hf'
    · exact (h.frames m x hx f hf').mono hg (Nat.le_refl _)
  · rcases hc hx with ⟨e, e'⟩ | hx
    · subst e; subst e'; exact hr
    · exact h.route m x hx
  · rcases hc hx with ⟨e, e'⟩ | hx
    · subst e; subst e'; rw [hq] at hw; cases hw
    · exact h.own m x w hx hw
  · rcases hc hy with ⟨e, e'⟩ | hy
    · subst e; subst e'; exact hq
    · rcases hc hx with ⟨e, _⟩ | hx
      · have := (List.getElem?_eq_some_iff.1 hy).1
        omega
      · exact h.fifo m k x y hmk hx hy hxy hrr hst

theorem inv_init {P : Pools} {progs : List Prog} (h : ∀ p ∈ progs, p.layered 0 []) : Inv P (init progs) := by
  refine ⟨fun fs hfs f hf => ?_, fun n t ht => (by cases ht), fun n t ht => (by cases ht),
    fun n t w ht => (by cases ht), fun m n x y _ hx => (by cases hx)⟩
  obtain ⟨p, hp, rfl⟩ := List.mem_map.1 hfs
  rw [List.mem_singleton] at hf
  subst hf
  exact ⟨[], rfl, h p hp, fun i m hi => by cases hi⟩

theorem inv_step {P : Pools} {s s' : St} (h : Inv P s) (hs : Step P s s') : Inv P s' := by
  cases hs with
  | client i fs fs' hi hl =>
    have hm : fs ∈ s.clients := List.mem_of_getElem? hi
    refine ⟨fun gs hgs => ?_, h.frames, h.route, h.own, h.fifo⟩
    rcases mem_set_cases hgs with rfl | hgs
    · exact local_ok (Or.inr rfl) hl (h.clients fs hm)
    · exact h.clients gs hgs
  | clientSub i p c k e fs r hi hr hroom =>
    have hm := h.clients _ (List.mem_of_getElem? hi)
    have hnew : (s.tasks ++ [newTask p r c e])[s.tasks.length]? = some (newTask p r c e) := by
      rw [List.getElem?_append_right (Nat.le_refl _), Nat.sub_self]; rfl
    have hg := Grow.append s.tasks [newTask p r c e]
    have hsub := sub_ok (b' := (s.tasks ++ [newTask p r c e]).length) (hm _ (List.mem_cons_self ..)) hg hnew rfl
      (by rw [List.length_append]; exact Nat.le_add_right ..)
      (fun _ => by rw [List.length_append]; exact Nat.lt_succ_self _)
    have h1 : Inv P { s with tasks := s.tasks ++ [newTask p r c e] } := by
      refine inv_append h rfl (fun f hf => ?_) hr
      have hf : f ∈ [⟨c, e⟩] := hf
      rw [List.mem_singleton] at hf
      subst hf
      exact hsub.2
    refine ⟨fun gs hgs => ?_, h1.frames, h1.route, h1.own, h1.fifo⟩
    rcases mem_set_cases hgs with rfl | hgs
    · intro f hf
      rcases List.mem_cons.1 hf with rfl | hf
      · exact hsub.1
      · exact (hm f (List.mem_cons_of_mem _ hf)).mono hg (by rw [List.length_append]; exact Nat.le_add_right ..)
    · exact h1.clients gs hgs
  | task n t w fs' ht hw hl =>
    exact inv_set h ht rfl rfl (local_ok (Or.inl rfl) hl (h.frames n t ht)) (fun w' hw' => h.own n t w' ht hw')
      (fun e => e) (fun hq => by rw [hw] at hq; cases hq)
  | taskSub n t w p c k e fs r ht hw hfr hne hr hroom =>
    have hok := h.frames n t ht
    rw [hfr] at hok
    have hl := (List.getElem?_eq_some_iff.1 ht).1
    -- first the new task, then the frame of the one that submits
    have happ : Inv P { s with tasks := s.tasks ++ [newTask p r c e] } := by
      have hnew' : (s.tasks ++ [newTask p r c e])[s.tasks.length]? = some (newTask p r c e) := by
        rw [List.getElem?_append_right (Nat.le_refl _), Nat.sub_self]; rfl
      have hsub' := sub_ok (b' := n) (hok _ (List.mem_cons_self ..)) (Grow.append s.tasks [newTask p r c e]) hnew' rfl
        (Nat.le_refl _) (fun e' => absurd e' hne)
      refine inv_append h rfl (fun f hf => ?_) hr
      have hf : f ∈ [⟨c, e⟩] := hf
      rw [List.mem_singleton] at hf
      subst hf
      exact hsub'.2
    have hnew' : (s.tasks ++ [newTask p r c e])[s.tasks.length]? = some (newTask p r c e) := by
      rw [List.getElem?_append_right (Nat.le_refl _), Nat.sub_self]; rfl
    have hga := Grow.append s.tasks [newTask p r c e]
    have hsub' := sub_ok (b' := n) (hok _ (List.mem_cons_self ..)) hga hnew' rfl
      (Nat.le_refl _) (fun e' => absurd e' hne)
    have ht' : (s.tasks ++ [newTask p r c e])[n]? = some t := by
      rw [List.getElem?_append_left hl]; exact ht
    have hfin := inv_set happ (n := n) (t := t)
      (t' := { t with frames := ⟨k, e ++ [some s.tasks.length]⟩ :: fs }) ht' rfl rfl
      (fun f hf => by
        rcases List.mem_cons.1 hf with rfl | hf
        · exact hsub'.1
        · exact (hok f (List.mem_cons_of_mem _ hf)).mono hga (Nat.le_refl _))
      (fun w' hw' => h.own n t w' ht hw') (fun e => e) (fun hq => by rw [hw] at hq; cases hq)
    have he : (s.tasks ++ [newTask p r c e]).set n { t with frames := ⟨k, e ++ [some s.tasks.length]⟩ :: fs } =
        s.tasks.set n { t with frames := ⟨k, e ++ [some s.tasks.length]⟩ :: fs } ++ [newTask p r c e] := by
      rw [List.set_append_left _ _ hl]
    exact he ▸ hfin
  | start n t w ht hq hw hr hidle hfirst =>
    exact inv_set h ht rfl rfl (h.frames n t ht)
      (fun w' hw' => by
        have : Status.running w = .running w' := hw'
        cases this
        exact hr)
      (fun _ => hq) (fun _ _ => hfirst)
  | finish n t w ht hw hfr =>
    exact inv_set h ht rfl rfl (h.frames n t ht) (fun w' hw' => by cases (show Status.done = .running w' from hw'))
      (fun hq => by cases (show Status.done = .queued from hq)) (fun hq => by rw [hw] at hq; cases hq)

theorem inv_reach {P : Pools} {progs : List Prog} (h : ∀ p ∈ progs, p.layered 0 []) {s : St}
    (hr : Reach P progs s) : Inv P s := by
  induction hr with
  | init => exact inv_init h
  | step _ hs ih => exact inv_step ih hs

/-! ### A step is possible -/

/-- Among the tasks that are not done: the first one of the last pool. -/
theorem exists_extreme (l : List Task) (h : ∃ t ∈ l, t.st ≠ .done) :
    ∃ (n : Nat) (t : Task), l[n]? = some t ∧ t.st ≠ .done ∧
      ∀ (m : Nat) (y : Task), l[m]? = some y → y.st ≠ .done → y.pool < t.pool ∨ (y.pool = t.pool ∧ n ≤ m) := by
  induction l with
  | nil => obtain ⟨t, ht, _⟩ := h; cases ht
  | cons a l ih =>
    by_cases hl : ∃ t ∈ l, t.st ≠ .done
    · obtain ⟨n, t, ht, hd, hmax⟩ := ih hl
      by_cases ha : a.st ≠ .done ∧ t.pool ≤ a.pool
      · refine ⟨0, a, rfl, ha.1, fun m y hy hyd => ?_⟩
        cases m with
        | zero => right; cases hy; exact ⟨rfl, Nat.le_refl _⟩
        | succ m =>
          have := hmax m y hy hyd
          have := ha.2
          omega
      · refine ⟨n + 1, t, ht, hd, fun m y hy hyd => ?_⟩
        cases m with
        | zero =>
          left
          cases hy
          apply Classical.byContradiction
          intro hge
          exact ha ⟨hyd, by omega⟩
        | succ m =>
          have := hmax m y hy hyd
          omega
    · obtain ⟨t, ht, hd⟩ := h
      rcases List.mem_cons.1 ht with rfl | ht
      · refine ⟨0, t, rfl, hd, fun m y hy hyd => ?_⟩
        cases m with
        | zero => right; cases hy; exact ⟨rfl, Nat.le_refl _⟩
        | succ m => exact absurd ⟨y, List.mem_of_getElem? hy, hyd⟩ hl
      · exact absurd ⟨t, ht, hd⟩ hl

/-- A queue to submit to. -/
def Pools.pick (P : Pools) : Option Nat := if P.lockFree then some 0 else none

theorem pick_ok (P : Pools) (hs : ∀ p, 0 < P.size p) (p : Nat) : P.routeOk p P.pick := by
  unfold Pools.pick
  cases h : P.lockFree with
  | true => exact ⟨h, hs p⟩
  | false => exact h

theorem room_of_done (P : Pools) (hc : 0 < P.cap) {tasks : List Task} {p : Nat} {r : Option Nat}
    (h : ∀ t ∈ tasks, t.pool = p → t.st = .done) : P.room tasks p r := by
  intro _
  have : tasks.filter (waitingIn p r) = [] := by
    rw [List.filter_eq_nil_iff]
    intro t ht hw
    simp only [waitingIn, Bool.and_eq_true, decide_eq_true_eq] at hw
    have := h t ht hw.1.1
    rw [hw.2] at this
    cases this
  rw [this]
  exact hc

theorem progress_inv {P : Pools} (hsz : ∀ p, 0 < P.size p) (hc : 0 < P.cap) {s : St} (h : Inv P s)
    (hn : ¬ Finished s) : ∃ s', Step P s s' := by
  by_cases hu : ∃ t ∈ s.tasks, t.st ≠ .done
  · obtain ⟨n, t, ht, hd, hmax⟩ := exists_extreme s.tasks hu
    have hdone : ∀ (m : Nat) (y : Task), s.tasks[m]? = some y → t.pool ≤ y.pool → (y.pool = t.pool → m < n) → y.st = .done := by
      intro m y hy hp hm
      apply Classical.byContradiction
      intro hyd
      rcases hmax m y hy hyd with h1 | ⟨h1, h2⟩
      · omega
      · have := hm h1
        omega
    cases hst : t.st with
    | done => exact absurd hst hd
    | running w =>
      cases hfr : t.frames with
      | nil => exact ⟨_, .finish n t w ht hst hfr⟩
      | cons f fs =>
        have hf := h.frames n t ht f (by rw [hfr]; exact List.mem_cons_self ..)
        obtain ⟨es, h1, h2, h3⟩ := hf
        obtain ⟨pr, e⟩ := f
        cases pr with
        | nil => exact ⟨_, .task n t w fs ht hst (by rw [hfr]; exact .ret e fs)⟩
        | act k => exact ⟨_, .task n t w (⟨k, e⟩ :: fs) ht hst (by rw [hfr]; exact .act k e fs)⟩
        | get i k =>
          have hrd : ready s.tasks e i := by
            intro m hm
            obtain ⟨x, hx, he, hb⟩ := h3 i m hm
            exact ⟨x, hx, hdone m x hx (h2.1 _ he) hb⟩
          exact ⟨_, .task n t w (⟨k, e⟩ :: fs) ht hst (by rw [hfr]; exact .get i k e fs hrd)⟩
        | sub q c k =>
          by_cases hq : q = t.pool
          · exact ⟨_, .task n t w (⟨c, e⟩ :: ⟨k, e ++ [none]⟩ :: fs) ht hst
              (by rw [hfr]; exact .inline q c k e fs (by rw [hq]))⟩
          · refine ⟨_, .taskSub n t w q c k e fs P.pick ht hst hfr hq (pick_ok P hsz q) (room_of_done P hc ?_)⟩
            intro x hx hxp
            obtain ⟨m, hm⟩ := List.mem_iff_getElem?.1 hx
            have hle : t.pool ≤ q := h2.1
            exact hdone m x hm (by omega) (fun e' => absurd (hxp.symm.trans e') hq)
    | queued =>
      have hroute := h.route n t ht
      have hw : ∃ w, w < P.size t.pool ∧ (t.route = none ∨ t.route = some w) := by
        cases hr : t.route with
        | none => exact ⟨0, hsz _, Or.inl rfl⟩
        | some w => rw [hr] at hroute; exact ⟨w, hroute.2, Or.inr rfl⟩
      obtain ⟨w, hws, hwr⟩ := hw
      refine ⟨_, .start n t w ht hst hws hwr ?_ ?_⟩
      · intro x hx hxp hrun
        obtain ⟨m, hm⟩ := List.mem_iff_getElem?.1 hx
        have hge : n < m := by
          rcases hmax m x hm (by rw [hrun]; simp) with h1 | ⟨_, h1⟩
          · omega
          · rcases Nat.lt_or_eq_of_le h1 with h1 | h1
            · exact h1
            · subst h1
              rw [ht] at hm
              cases hm
              rw [hst] at hrun
              cases hrun
        have hrr : t.route = x.route := by
          have hx2 := h.route m x hm
          have hx3 := h.own m x w hm hrun
          rcases hwr with e | e
          · rw [e] at hroute ⊢
            rcases hx3 with e' | e'
            · exact e'.symm
            · rw [e'] at hx2
              have h4 : P.lockFree = false := hroute
              have h5 : P.lockFree = true := hx2.1
              rw [h4] at h5
              cases h5
          · rw [e] at hroute ⊢
            rcases hx3 with e' | e'
            · rw [e'] at hx2
              have h4 : P.lockFree = false := hx2
              have h5 : P.lockFree = true := hroute.1
              rw [h4] at h5
              cases h5
            · exact e'.symm
        have := h.fifo n m t x hge ht hm hxp.symm hrr hst
        rw [hrun] at this
        cases this
      · intro m x hmn hm
        cases hwt : waitingIn t.pool t.route x with
        | false => rfl
        | true =>
          simp only [waitingIn, Bool.and_eq_true, decide_eq_true_eq] at hwt
          rcases hmax m x hm (by rw [hwt.2]; simp) with h1 | h1 <;> omega
  · have hall : ∀ t ∈ s.tasks, t.st = .done := fun t ht =>
      Classical.byContradiction fun hd => hu ⟨t, ht, hd⟩
    have hcl : ∃ fs ∈ s.clients, fs ≠ [] := Classical.byContradiction fun hno =>
      hn ⟨hall, fun fs hfs => Classical.byContradiction fun hne => hno ⟨fs, hfs, hne⟩⟩
    obtain ⟨fs, hfs, hne⟩ := hcl
    obtain ⟨i, hi⟩ := List.mem_iff_getElem?.1 hfs
    cases fs with
    | nil => exact absurd rfl hne
    | cons f fs =>
      obtain ⟨es, h1, h2, h3⟩ := h.clients _ hfs f (List.mem_cons_self ..)
      obtain ⟨pr, e⟩ := f
      cases pr with
      | nil => exact ⟨_, .client i _ fs hi (.ret e fs)⟩
      | act k => exact ⟨_, .client i _ _ hi (.act k e fs)⟩
      | get j k =>
        refine ⟨_, .client i _ _ hi (.get j k e fs ?_)⟩
        intro m hm
        obtain ⟨x, hx, _, _⟩ := h3 j m hm
        exact ⟨x, hx, hall x (List.mem_of_getElem? hx)⟩
      | sub q c k =>
        exact ⟨_, .clientSub i q c k e fs P.pick hi (pick_ok P hsz q)
          (room_of_done P hc (fun t ht _ => hall t ht))⟩

end Verif.Nested
