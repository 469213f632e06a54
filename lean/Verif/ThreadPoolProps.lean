import Verif.ThreadPool
import Mathlib.Data.List.Perm.Basic

/-!
# Properties of the thread pools (C31, C32)
-/

namespace Verif.ThreadPool

theorem flatMap_set_perm {α β : Type} (f : α → List β) :
    ∀ (ws : List α) (i : Nat) (a b : α), ws[i]? = some a →
      ((ws.set i b).flatMap f ++ f a).Perm (ws.flatMap f ++ f b)
  | [], _, _, _, h => by simp at h
  | x :: xs, 0, a, b, h => by
    simp at h; subst h
    simp only [List.set_cons_zero, List.flatMap_cons]
    refine (List.perm_append_comm).trans ?_
    rw [List.append_assoc]
    exact List.Perm.append_left _ List.perm_append_comm
  | x :: xs, i + 1, a, b, h => by
    simp only [List.set_cons_succ, List.flatMap_cons, List.append_assoc]
    exact List.Perm.append_left _ (flatMap_set_perm f xs i a b (by simpa using h))

theorem sum_set {α : Type} (f : α → Nat) :
    ∀ (ws : List α) (i : Nat) (a b : α), ws[i]? = some a →
      ((ws.set i b).map f).sum + f a = (ws.map f).sum + f b
  | [], _, _, _, h => by simp at h
  | x :: xs, 0, a, b, h => by
    simp at h; subst h; simp; omega
  | x :: xs, i + 1, a, b, h => by
    have := sum_set f xs i a b (by simpa using h)
    simp only [List.set_cons_succ, List.map_cons, List.sum_cons]; omega

theorem mem_set_imp {α : Type} {ws : List α} {i : Nat} {b x : α} (h : x ∈ ws.set i b) :
    x ∈ ws ∨ x = b := List.mem_or_eq_of_mem_set h

theorem mem_set_self {α : Type} {ws : List α} {i : Nat} {a b : α} (h : ws[i]? = some a) :
    b ∈ ws.set i b := by
  have hi := (List.getElem?_eq_some_iff.mp h).1
  exact List.mem_set hi b

namespace Locked

variable {τ : Type}

/-- The task a worker is executing. -/
def held : W τ → List τ
  | .running t => [t]
  | _ => []

def active : W τ → Bool
  | .ready => true
  | .running _ => true
  | _ => false

structure Inv (n : Nat) (s : St τ) : Prop where
  len : s.workers.length = n
  fifo : s.submitted = s.started ++ s.queue
  once : s.started.Perm (s.done ++ s.workers.flatMap held)
  exit : W.exited ∈ s.workers → s.stop = true ∧ s.queue = []
  stopped : s.stop = true → W.waiting ∉ s.workers
  awake : s.queue ≠ [] → s.workers ≠ [] → 0 < s.pending ∨ ∃ w ∈ s.workers, active w = true

theorem held_wake (w : W τ) : held (wake w) = held w := by cases w <;> rfl

theorem noneWaiting_iff (ws : List (W τ)) : noneWaiting ws = true ↔ W.waiting ∉ ws := by
  unfold noneWaiting
  rw [List.all_eq_true]
  constructor
  · intro h hm; simpa using h _ hm
  · intro h x hx
    cases x <;> simp_all

/-- Replacing a worker that holds nothing by one that holds nothing. -/
theorem once_same {s : St τ} {w : Nat} {a b : W τ} (ha : s.workers[w]? = some a)
    (h1 : held a = []) (h2 : held b = []) (h : s.started.Perm (s.done ++ s.workers.flatMap held)) :
    s.started.Perm (s.done ++ (s.workers.set w b).flatMap held) := by
  have := flatMap_set_perm held s.workers w a b ha
  rw [h1, h2, List.append_nil, List.append_nil] at this
  exact h.trans (List.Perm.append_left _ this.symm)

theorem inv_init (n : Nat) : Inv n (init τ n) := by
  refine ⟨by simp [init], by simp [init], ?_, ?_, ?_, ?_⟩
  · have : (List.replicate n (W.ready : W τ)).flatMap held = [] := by
      rw [List.flatMap_eq_nil_iff]
      intro x hx
      rw [(List.mem_replicate.mp hx).2]; rfl
    simp [init, this]
  · intro h; simp [init] at h
  · intro h; simp [init] at h
  · intro h; simp [init] at h

theorem inv_step (n : Nat) (s s' : St τ) (l : Lab τ) (h : Inv n s) (hs : step s l = some s') :
    Inv n s' := by
  cases l with
  | submit t =>
    simp only [step] at hs
    split at hs
    · cases hs
    injection hs with hs; subst hs
    rename_i hstop
    refine ⟨h.len, ?_, h.once, ?_, h.stopped, fun _ _ => .inl (Nat.succ_pos _)⟩
    · simp only; rw [h.fifo, List.append_assoc]
    · intro he
      exact absurd (h.exit he).1 hstop
  | notify w =>
    simp only [step] at hs
    split at hs
    · cases hs
    split at hs
    · rename_i hw
      injection hs with hs; subst hs
      refine ⟨by simpa using h.len, h.fifo, once_same hw rfl rfl h.once, ?_, ?_, ?_⟩
      · intro he
        rcases mem_set_imp he with he | he
        · exact h.exit he
        · cases he
      · intro hst hm
        rcases mem_set_imp hm with hm | hm
        · exact h.stopped hst hm
        · cases hm
      · intro _ _
        exact .inr ⟨.ready, mem_set_self hw, rfl⟩
    · cases hs
  | notifyNone =>
    simp only [step] at hs
    split at hs
    · cases hs
    split at hs
    · rename_i hnw
      injection hs with hs; subst hs
      rw [noneWaiting_iff] at hnw
      refine ⟨h.len, h.fifo, h.once, h.exit, h.stopped, ?_⟩
      intro hq hne
      right
      obtain ⟨w, ws, hw⟩ := List.exists_cons_of_ne_nil hne
      have hm : w ∈ s.workers := by simp only at hw; rw [hw]; simp
      refine ⟨w, hm, ?_⟩
      cases w with
      | ready => rfl
      | running t => rfl
      | waiting => exact absurd hm hnw
      | exited => exact absurd (h.exit hm).2 hq
    · cases hs
  | spurious w =>
    simp only [step] at hs
    split at hs
    · rename_i hw
      injection hs with hs; subst hs
      refine ⟨by simpa using h.len, h.fifo, once_same hw rfl rfl h.once, ?_, ?_, ?_⟩
      · intro he
        rcases mem_set_imp he with he | he
        · exact h.exit he
        · cases he
      · intro hst hm
        rcases mem_set_imp hm with hm | hm
        · exact h.stopped hst hm
        · cases hm
      · intro _ _
        exact .inr ⟨.ready, mem_set_self hw, rfl⟩
    · cases hs
  | check w =>
    simp only [step] at hs
    split at hs
    · rename_i hw
      split at hs
      · rename_i t q hq
        injection hs with hs; subst hs
        refine ⟨by simpa using h.len, ?_, ?_, ?_, ?_, ?_⟩
        · simp only; rw [h.fifo, hq, List.append_assoc]; rfl
        · simp only
          have := flatMap_set_perm held s.workers w _ (.running t) hw
          simp only [held, List.append_nil] at this
          exact (List.Perm.append_right [t] h.once).trans
            (by rw [List.append_assoc]; exact List.Perm.append_left _ this.symm)
        · intro he
          rcases mem_set_imp he with he | he
          · have := (h.exit he).2; rw [hq] at this; cases this
          · cases he
        · intro hst hm
          rcases mem_set_imp hm with hm | hm
          · exact h.stopped hst hm
          · cases hm
        · intro _ _
          exact .inr ⟨.running t, mem_set_self hw, rfl⟩
      · rename_i hq
        split at hs
        · rename_i hst
          injection hs with hs; subst hs
          refine ⟨by simpa using h.len, h.fifo, once_same hw rfl rfl h.once,
            fun _ => ⟨hst, hq⟩, ?_, fun hne => absurd hq hne⟩
          intro hst hm
          rcases mem_set_imp hm with hm | hm
          · exact h.stopped hst hm
          · cases hm
        · rename_i hst
          injection hs with hs; subst hs
          refine ⟨by simpa using h.len, h.fifo, once_same hw rfl rfl h.once, ?_,
            fun hst' => absurd hst' hst, fun hne => absurd hq hne⟩
          intro he
          rcases mem_set_imp he with he | he
          · exact h.exit he
          · cases he
    · cases hs
  | finish w =>
    simp only [step] at hs
    split at hs
    · rename_i t hw
      injection hs with hs; subst hs
      refine ⟨by simpa using h.len, h.fifo, ?_, ?_, ?_, ?_⟩
      · simp only
        have := flatMap_set_perm held s.workers w _ .ready hw
        simp only [held, List.append_nil] at this
        refine h.once.trans ?_
        rw [List.append_assoc]
        exact List.Perm.append_left _ (this.symm.trans List.perm_append_comm)
      · intro he
        rcases mem_set_imp he with he | he
        · exact h.exit he
        · cases he
      · intro hst hm
        rcases mem_set_imp hm with hm | hm
        · exact h.stopped hst hm
        · cases hm
      · intro _ _
        exact .inr ⟨.ready, mem_set_self hw, rfl⟩
    · cases hs
  | shutdown =>
    simp only [step] at hs
    split at hs
    · cases hs
    rename_i hst
    injection hs with hs; subst hs
    have hno : W.exited ∉ s.workers.map wake := by
      intro hm
      rw [List.mem_map] at hm
      obtain ⟨x, hx, hx2⟩ := hm
      cases x <;> simp [wake] at hx2
      exact hst (h.exit hx).1
    refine ⟨by simpa using h.len, h.fifo, ?_, fun he => absurd he hno, ?_, ?_⟩
    · simp only [List.flatMap_map]
      have : (fun a => held (wake a)) = (held : W τ → List τ) := funext held_wake
      rw [this]; exact h.once
    · intro _ hm
      simp only [List.mem_map] at hm
      obtain ⟨x, _, hx2⟩ := hm
      cases x <;> simp [wake] at hx2
    · intro _ hne
      right
      obtain ⟨w, ws, hw⟩ := List.exists_cons_of_ne_nil hne
      have hm : w ∈ s.workers.map wake := by simp only at hw; rw [hw]; simp
      refine ⟨w, hm, ?_⟩
      cases w with
      | ready => rfl
      | running t => rfl
      | waiting =>
        rw [List.mem_map] at hm
        obtain ⟨x, _, hx2⟩ := hm
        cases x <;> simp [wake] at hx2
      | exited => exact absurd hm hno

theorem reach_inv (n : Nat) (s : St τ) (h : Reach n s) : Inv n s := by
  induction h with
  | init => exact inv_init n
  | step l _ hs ih => exact inv_step n _ _ l ih hs

/-- **C31, order and no duplication.**  In every reachable state the tasks started are exactly the
first ones submitted, in submission order, the rest being still queued; and every started task is
either finished (once) or being executed by exactly one worker. -/
theorem fifo_exactly_once (n : Nat) (s : St τ) (h : Reach n s) :
    s.submitted = s.started ++ s.queue ∧
    s.started.Perm (s.done ++ s.workers.flatMap held) :=
  ⟨(reach_inv n s h).fifo, (reach_inv n s h).once⟩

/-- **C31, shutdown.**  A worker exits only after shutdown and with an empty queue; when the
destructor has joined all workers of a non-empty pool every task submitted has been executed
exactly once. -/
theorem exit_only_when_drained (n : Nat) (s : St τ) (h : Reach n s)
    (he : W.exited ∈ s.workers) : s.stop = true ∧ s.queue = [] := (reach_inv n s h).exit he

theorem destroyed_all_done (n : Nat) (hn : 0 < n) (s : St τ) (h : Reach n s) (hd : destroyed s) :
    s.submitted.Perm s.done := by
  have hi := reach_inv n s h
  have hne : s.workers ≠ [] := by
    intro h0; have := hi.len; rw [h0] at this; simp at this; omega
  obtain ⟨w, ws, hw⟩ := List.exists_cons_of_ne_nil hne
  have hx : W.exited ∈ s.workers := by
    have hm : w ∈ s.workers := by rw [hw]; simp
    rw [hd.2 w hm] at hm; exact hm
  have hq := (hi.exit hx).2
  have hheld : s.workers.flatMap held = [] := by
    rw [List.flatMap_eq_nil_iff]
    intro x hx; rw [hd.2 x hx]; rfl
  rw [hi.fifo, hq, List.append_nil]
  have := hi.once
  rwa [hheld, List.append_nil] at this

/-! ### No deadlock and termination -/

def weight : W τ → Nat
  | .waiting => 0
  | .ready => 1
  | .running _ => 2
  | .exited => 0

/-- Bounds the number of steps the pool can take by itself. -/
def potential (s : St τ) : Nat :=
  2 * s.queue.length + 2 * s.pending + (s.workers.map weight).sum

theorem internal_decreases (s s' : St τ) (l : Lab τ) (hl : l.internal = true)
    (hs : step s l = some s') : potential s' < potential s := by
  cases l with
  | submit t => simp [Lab.internal] at hl
  | shutdown => simp [Lab.internal] at hl
  | spurious w => simp [Lab.internal] at hl
  | notify w =>
    simp only [step] at hs
    split at hs
    · cases hs
    split at hs
    · rename_i hw
      injection hs with hs; subst hs
      have := sum_set weight s.workers w _ .ready hw
      simp only [potential, weight] at this ⊢
      omega
    · cases hs
  | notifyNone =>
    simp only [step] at hs
    split at hs
    · cases hs
    split at hs
    · injection hs with hs; subst hs
      simp only [potential]; omega
    · cases hs
  | check w =>
    simp only [step] at hs
    split at hs
    · rename_i hw
      split at hs
      · rename_i t q hq
        injection hs with hs; subst hs
        have := sum_set weight s.workers w _ (.running t) hw
        simp only [potential, weight, hq, List.length_cons] at this ⊢
        omega
      · split at hs
        · injection hs with hs; subst hs
          have := sum_set weight s.workers w _ .exited hw
          simp only [potential, weight] at this ⊢
          omega
        · injection hs with hs; subst hs
          have := sum_set weight s.workers w _ .waiting hw
          simp only [potential, weight] at this ⊢
          omega
    · cases hs
  | finish w =>
    simp only [step] at hs
    split at hs
    · rename_i t hw
      injection hs with hs; subst hs
      have := sum_set weight s.workers w _ .ready hw
      simp only [potential, weight] at this ⊢
      omega
    · cases hs

/-- No step of the pool itself is possible. -/
def stuck (s : St τ) : Prop := ∀ l : Lab τ, l.internal = true → step s l = none

theorem stuck_inactive (s : St τ) (h : stuck s) : ∀ w ∈ s.workers, active w = false := by
  intro w hm
  obtain ⟨i, hi, hiw⟩ := List.getElem_of_mem hm
  have hget : s.workers[i]? = some w := by rw [List.getElem?_eq_getElem hi, hiw]
  cases w with
  | waiting => rfl
  | exited => rfl
  | ready =>
    have := h (.check i) rfl
    simp only [step, hget] at this
    split at this
    · cases this
    · split at this <;> cases this
  | running t =>
    have := h (.finish i) rfl
    simp only [step, hget] at this
    cases this

/-- **C31, no lost wake-up.**  In every reachable state of a non-empty pool in which the pool
cannot take a step by itself, every submitted task has been executed exactly once; after shutdown
moreover all workers have exited, so the destructor returns. -/
theorem stuck_all_done (n : Nat) (hn : 0 < n) (s : St τ) (h : Reach n s) (hst : stuck s) :
    s.submitted.Perm s.done ∧ (s.stop = true → destroyed s) := by
  have hi := reach_inv n s h
  have hina := stuck_inactive s hst
  have hne : s.workers ≠ [] := by
    intro h0; have := hi.len; rw [h0] at this; simp at this; omega
  have hpend : s.pending = 0 := by
    by_contra hp
    by_cases hnw : noneWaiting s.workers = true
    · have := hst .notifyNone rfl
      simp [step, hp, hnw] at this
    · rw [noneWaiting_iff, not_not] at hnw
      obtain ⟨i, hi', hiw⟩ := List.getElem_of_mem hnw
      have := hst (.notify i) rfl
      simp [step, hp, List.getElem?_eq_getElem hi', hiw] at this
  have hq : s.queue = [] := by
    by_contra hq
    rcases hi.awake hq hne with h1 | ⟨w, hm, hw⟩
    · omega
    · rw [hina w hm] at hw; cases hw
  have hheld : s.workers.flatMap held = [] := by
    rw [List.flatMap_eq_nil_iff]
    intro x hx
    have := hina x hx
    cases x <;> simp_all [active, held]
  refine ⟨?_, ?_⟩
  · rw [hi.fifo, hq, List.append_nil]
    have := hi.once
    rwa [hheld, List.append_nil] at this
  · intro hstop
    refine ⟨hstop, ?_⟩
    intro w hm
    have h1 := hina w hm
    cases w with
    | exited => rfl
    | ready => simp [active] at h1
    | running t => simp [active] at h1
    | waiting => exact absurd hm (hi.stopped hstop)

/-- A concrete run: two workers, three tasks, shutdown while one is queued. -/
def runLabs (s : St τ) : List (Lab τ) → Option (St τ)
  | [] => some s
  | l :: ls => match step s l with
    | some s' => runLabs s' ls
    | none => none

example : (runLabs (init Nat 2) [.check 0, .submit 7, .submit 8, .notify 0, .check 1, .submit 9,
      .check 0, .shutdown, .notifyNone, .finish 0, .check 0, .finish 0, .check 0, .finish 1, .check 1,
      .notifyNone]).map (fun s => (s.submitted, s.started, s.done, s.workers)) =
    some ([7, 8, 9], [7, 8, 9], [8, 9, 7], [.exited, .exited]) := by decide

end Locked

namespace LockFree

variable {τ : Type}

def held : W τ → List τ
  | .running t => [t]
  | .got (some t) => [t]
  | _ => []

/-- Every task is in exactly one place. -/
structure Inv (n : Nat) (s : St τ) : Prop where
  len : s.workers.length = n
  once : s.submitted.Perm (s.done ++ s.dropped ++ s.workers.flatMap held ++ s.queue)
  drop : s.stop = false → s.dropped = []
  gotNone : W.got none ∈ s.workers → s.stop = true
  exit : W.exited ∈ s.workers → s.stop = true

theorem inv_init (n : Nat) : Inv n (init τ n) := by
  have : (List.replicate n (W.polling : W τ)).flatMap held = [] := by
    rw [List.flatMap_eq_nil_iff]
    intro x hx
    rw [(List.mem_replicate.mp hx).2]; rfl
  refine ⟨by simp [init], by simp [init, this], by simp [init], ?_, ?_⟩
  · intro h; simp [init] at h
  · intro h; simp [init] at h

theorem inv_step (n : Nat) (s s' : St τ) (l : Lab τ) (h : Inv n s) (hs : step s l = some s') :
    Inv n s' := by
  cases l with
  | submit t =>
    simp only [step] at hs
    split at hs
    · cases hs
    injection hs with hs; subst hs
    refine ⟨h.len, ?_, h.drop, h.gotNone, h.exit⟩
    simp only
    rw [← List.append_assoc]
    exact List.Perm.append_right _ h.once
  | shutdown =>
    simp only [step] at hs
    split at hs
    · cases hs
    injection hs with hs; subst hs
    exact ⟨h.len, h.once, fun h' => by simp at h', fun _ => rfl, fun _ => rfl⟩
  | work w =>
    simp only [step] at hs
    split at hs
    · cases hs
    · rename_i c hne hc
      injection hs with hs; subst hs
      cases c with
      | polling =>
        simp only [workStep]
        split
        · rename_i t q hq
          refine ⟨by simpa using h.len, ?_, h.drop, ?_, ?_⟩
          · simp only
            have hp := flatMap_set_perm held s.workers w _ (.got (some t)) hc
            simp only [held, List.append_nil] at hp
            refine h.once.trans ?_
            rw [hq]
            refine List.Perm.trans ?_ (List.Perm.append_right q (List.Perm.append_left _ hp.symm))
            simp [List.append_assoc]
          · intro hm
            rcases mem_set_imp hm with hm | hm
            · exact h.gotNone hm
            · cases hm
          · intro hm
            rcases mem_set_imp hm with hm | hm
            · exact h.exit hm
            · cases hm
        · refine ⟨by simpa using h.len, ?_, h.drop, ?_, ?_⟩
          · have hp := flatMap_set_perm held s.workers w _ .empty hc
            simp only [held, List.append_nil] at hp
            exact h.once.trans (List.Perm.append_right _ (List.Perm.append_left _ hp.symm))
          · intro hm
            rcases mem_set_imp hm with hm | hm
            · exact h.gotNone hm
            · cases hm
          · intro hm
            rcases mem_set_imp hm with hm | hm
            · exact h.exit hm
            · cases hm
      | empty =>
        simp only [workStep]
        split
        · rename_i hst
          refine ⟨by simpa using h.len, ?_, h.drop, fun _ => hst, fun _ => hst⟩
          have hp := flatMap_set_perm held s.workers w _ (.got none) hc
          simp only [held, List.append_nil] at hp
          exact h.once.trans (List.Perm.append_right _ (List.Perm.append_left _ hp.symm))
        · refine ⟨by simpa using h.len, ?_, h.drop, ?_, ?_⟩
          · have hp := flatMap_set_perm held s.workers w _ .polling hc
            simp only [held, List.append_nil] at hp
            exact h.once.trans (List.Perm.append_right _ (List.Perm.append_left _ hp.symm))
          · intro hm
            rcases mem_set_imp hm with hm | hm
            · exact h.gotNone hm
            · cases hm
          · intro hm
            rcases mem_set_imp hm with hm | hm
            · exact h.exit hm
            · cases hm
      | got t =>
        simp only [workStep]
        split
        · rename_i hst
          refine ⟨by simpa using h.len, ?_, fun h' => ?_, fun _ => hst, fun _ => hst⟩
          · have hp := flatMap_set_perm held s.workers w _ .exited hc
            refine h.once.trans (List.Perm.append_right _ ?_)
            simp only [List.append_assoc]
            refine List.Perm.append_left _ (List.Perm.append_left _ ?_)
            cases t with
            | none =>
              simp only [held, List.append_nil] at hp
              exact hp.symm
            | some t =>
              simp only [held, List.append_nil] at hp
              exact hp.symm.trans List.perm_append_comm
          · simp only at h'; rw [hst] at h'; cases h'
        · rename_i hst
          cases t with
          | none => exact absurd (h.gotNone (List.mem_of_getElem? hc)) hst
          | some t =>
            refine ⟨by simpa using h.len, ?_, h.drop, ?_, ?_⟩
            · have hp := flatMap_set_perm held s.workers w _ (.running t) hc
              have hp' := (List.perm_append_right_iff _).mp hp
              exact h.once.trans (List.Perm.append_right _ (List.Perm.append_left _ hp'.symm))
            · intro hm
              rcases mem_set_imp hm with hm | hm
              · exact h.gotNone hm
              · cases hm
            · intro hm
              rcases mem_set_imp hm with hm | hm
              · exact h.exit hm
              · cases hm
      | running t =>
        simp only [workStep]
        refine ⟨by simpa using h.len, ?_, h.drop, ?_, ?_⟩
        · have hp := flatMap_set_perm held s.workers w _ .polling hc
          simp only [held, List.append_nil] at hp
          refine h.once.trans (List.Perm.append_right _ ?_)
          simp only [List.append_assoc]
          refine List.Perm.append_left _ ?_
          refine (List.Perm.append_left _ hp.symm).trans ?_
          rw [← List.append_assoc]
          exact List.perm_append_comm
        · intro hm
          rcases mem_set_imp hm with hm | hm
          · exact h.gotNone hm
          · cases hm
        · intro hm
          rcases mem_set_imp hm with hm | hm
          · exact h.exit hm
          · cases hm
      | exited => exact absurd rfl hne
    · cases hs

theorem reach_inv (n : Nat) (s : St τ) (h : Reach n s) : Inv n s := by
  induction h with
  | init => exact inv_init n
  | step l _ hs ih => exact inv_step n _ _ l ih hs

/-- **C32, until shutdown.**  Before the destructor starts no task is lost or duplicated: each
submitted task is finished, held by one worker, or queued. -/
theorem no_loss_before_stop_partial (n : Nat) (s : St τ) (h : Reach n s) (hs : s.stop = false) :
    s.submitted.Perm (s.done ++ s.workers.flatMap held ++ s.queue) := by
  have hi := reach_inv n s h
  have := hi.once
  rwa [hi.drop hs, List.append_nil] at this

/-- In general a task may also be dropped: it is in exactly one of four places. -/
theorem accounted (n : Nat) (s : St τ) (h : Reach n s) :
    s.submitted.Perm (s.done ++ s.dropped ++ s.workers.flatMap held ++ s.queue) :=
  (reach_inv n s h).once

/-- No worker holds a task it has taken but not started. -/
def settled (s : St τ) : Prop := ∀ t, W.got (some t) ∉ s.workers

/-- Executions from `s`. -/
inductive From (s : St τ) : St τ → Prop
  | refl : From s s
  | step {a b : St τ} (l : Lab τ) : From s a → step a l = some b → From s b

/-- After shutdown in a settled state with an empty queue nothing is dropped. -/
theorem quiet_step (s s' : St τ) (l : Lab τ) (hs : s.stop = true) (hq : s.queue = [])
    (hg : settled s) (hd : s.dropped = []) (h : step s l = some s') :
    s'.stop = true ∧ s'.queue = [] ∧ settled s' ∧ s'.dropped = [] := by
  cases l with
  | submit t => simp [step, hs] at h
  | shutdown => simp [step, hs] at h
  | work w =>
    simp only [step] at h
    split at h
    · cases h
    · rename_i c hne hc
      injection h with h; subst h
      have key : ∀ b : W τ, (∀ t, b ≠ .got (some t)) → ∀ t, W.got (some t) ∉ s.workers.set w b := by
        intro b hb t hm
        rcases mem_set_imp hm with hm | hm
        · exact hg t hm
        · exact hb t hm.symm
      cases c with
      | polling =>
        simp only [workStep, hq]
        exact ⟨hs, trivial, key _ (by simp), hd⟩
      | empty =>
        simp only [workStep, hs, if_true]
        exact ⟨trivial, hq, key _ (by simp), hd⟩
      | got t =>
        cases t with
        | some t => exact absurd (List.mem_of_getElem? hc) (hg t)
        | none =>
          simp only [workStep, hs, if_true]
          exact ⟨trivial, hq, key _ (by simp), by simp [hd]⟩
      | running t =>
        simp only [workStep]
        exact ⟨hs, hq, key _ (by simp), hd⟩
      | exited => exact absurd rfl hne
    · cases h

/-- **C32, partial.**  If the destructor is called when the queue is empty and no worker holds an
unstarted task (e.g. after waiting for all submitted tasks), then every execution that reaches the
end of the destructor has executed every submitted task exactly once.  Missing: the same for a
destructor called while tasks are queued, which is false. -/
theorem quiet_shutdown_all_done_partial (n : Nat) (s s1 s2 : St τ) (h : Reach n s)
    (hq : s.queue = []) (hg : settled s) (hsd : step s .shutdown = some s1) (hf : From s1 s2)
    (hd : destroyed s2) : s2.submitted.Perm s2.done := by
  have h1 : Reach n s1 := .step .shutdown h hsd
  have hdrop : s.stop = false := by
    simp only [step] at hsd
    split at hsd
    · cases hsd
    · rename_i hx; simpa using hx
  have hs1 : s1.stop = true ∧ s1.queue = [] ∧ settled s1 ∧ s1.dropped = [] := by
    have hd0 := (reach_inv n s h).drop hdrop
    simp only [step, hdrop, Bool.false_eq_true, if_false] at hsd
    injection hsd with hsd; subst hsd
    exact ⟨rfl, hq, hg, hd0⟩
  have key : Reach n s2 ∧ s2.stop = true ∧ s2.queue = [] ∧ settled s2 ∧ s2.dropped = [] := by
    clear hd
    induction hf with
    | refl => exact ⟨h1, hs1⟩
    | step l _ hst ih =>
      exact ⟨.step l ih.1 hst, quiet_step _ _ l ih.2.1 ih.2.2.1 ih.2.2.2.1 ih.2.2.2.2 hst⟩
  have hi := (reach_inv n s2 key.1).once
  have hheld : s2.workers.flatMap held = [] := by
    rw [List.flatMap_eq_nil_iff]
    intro x hx; rw [hd.2 x hx]; rfl
  rwa [hheld, key.2.2.1, key.2.2.2.2, List.append_nil, List.append_nil, List.append_nil] at hi

theorem reach_runLabs (n : Nat) : ∀ (ls : List (Lab τ)) (s s' : St τ), Reach n s →
    runLabs s ls = some s' → Reach n s'
  | [], s, s', h, hr => by simp only [runLabs, Option.some.injEq] at hr; exact hr ▸ h
  | l :: ls, s, s', h, hr => by
    simp only [runLabs] at hr
    split at hr
    · rename_i hs
      exact reach_runLabs n ls _ s' (.step l h hs) hr
    · cases hr

/-- **C32 is false.**  There is an execution (with one worker) in which the pool is
destroyed and a task it accepted was never executed: here the worker takes the task, the destructor
sets `stop_`, the worker sees it and returns, dropping the task. -/
theorem shutdown_loses_task_refuted :
    ∃ s : St Nat, Reach 1 s ∧ destroyed s ∧ 7 ∈ s.submitted ∧ 7 ∉ s.done ∧ s.dropped = [7] := by
  refine ⟨_, reach_runLabs 1 [.submit 7, .work 0, .shutdown, .work 0] (init Nat 1) _ .init rfl,
    ⟨rfl, ?_⟩, ?_, ?_, rfl⟩ <;> decide

/-- A task can also be left in the queue: the worker leaves as soon as it sees `stop_`. -/
theorem shutdown_leaves_queue_refuted :
    ∃ s : St Nat, Reach 1 s ∧ destroyed s ∧ s.queue = [8] ∧ s.done = [] := by
  refine ⟨_, reach_runLabs 1 [.submit 7, .submit 8, .work 0, .shutdown, .work 0] (init Nat 1) _
    .init rfl, ⟨rfl, ?_⟩, rfl, rfl⟩
  decide

example : (runLabs (init Nat 2) [.submit 7, .submit 8, .work 0, .work 1, .work 0, .work 1, .work 1,
    .work 0, .work 1]).map (fun s => (s.done, s.queue, s.workers)) =
    some ([8, 7], [], [.polling, .empty]) := by decide

end LockFree

end Verif.ThreadPool
