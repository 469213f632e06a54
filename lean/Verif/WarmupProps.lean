import Verif.Warmup
/-
A warmup runs the pipeline once on each thread and ends, if no op throws and it is the only one.
-/

namespace Verif.Warmup

/-! ### Sums -/

theorem sum_set {α : Type} (f : α → Nat) {l : List α} {n : Nat} {a : α} (h : l[n]? = some a) (b : α) :
    ((l.set n b).map f).sum + f a = (l.map f).sum + f b := by
  induction l generalizing n with
  | nil => cases h
  | cons x l ih =>
    cases n with
    | zero =>
      cases h
      simp only [List.set_cons_zero, List.map_cons, List.sum_cons]
      omega
    | succ n =>
      have := ih (n := n) h
      simp only [List.set_cons_succ, List.map_cons, List.sum_cons]
      omega

theorem le_sum {α : Type} (f : α → Nat) {l : List α} {a : α} (h : a ∈ l) : f a ≤ (l.map f).sum := by
  induction l with
  | nil => cases h
  | cons x l ih =>
    simp only [List.map_cons, List.sum_cons]
    rcases List.mem_cons.1 h with rfl | h
    · omega
    · have := ih h
      omega

/-! ### Every execution ends -/

def Job.size (j : Job) : Nat := j.steps + 4

def jobsSize (js : List Job) : Nat := (js.map fun j => j.size + 1).sum

def Th.size : Th → Nat
  | .idle => 0
  | .run j => j.steps + 3
  | .wait _ => 1

def St.size (s : St) : Nat :=
  (s.callers.map jobsSize).sum + (s.queue.map Job.size).sum + (s.threads.map Th.size).sum

theorem step_size {b : Bool} {s s' : St} (h : Step b s s') : s'.size < s.size := by
  cases h with
  | submit c j js hc =>
    have := sum_set jobsSize hc js
    have e : jobsSize (j :: js) = j.size + 1 + jobsSize js := rfl
    simp only [St.size, List.map_append, List.sum_append, List.map_cons, List.map_nil, List.sum_cons, List.sum_nil]
    omega
  | take w j q hw hq =>
    have := sum_set Th.size hw (.run j)
    simp only [St.size, hq, List.map_cons, List.sum_cons]
    simp only [Th.size, Job.size] at this ⊢
    omega
  | work w g k hw =>
    have := sum_set Th.size hw (.run ⟨g, k⟩)
    simp only [St.size]
    simp only [Th.size] at this ⊢
    omega
  | finish w hw =>
    have := sum_set Th.size hw .idle
    simp only [St.size]
    simp only [Th.size] at this ⊢
    omega
  | arrive w g hw =>
    have := sum_set Th.size hw (.wait g)
    simp only [St.size]
    simp only [Th.size] at this ⊢
    omega
  | leave w g hw _ =>
    have := sum_set Th.size hw .idle
    simp only [St.size]
    simp only [Th.size] at this ⊢
    omega
  | throw w g k _ hw =>
    have := sum_set Th.size hw .idle
    simp only [St.size]
    simp only [Th.size] at this ⊢
    omega

/-- **C135 (part).**  No execution is infinite. -/
theorem no_infinite (b : Bool) (f : Nat → St) : ¬ ∀ n, Step b (f n) (f (n + 1)) := by
  intro h
  have : ∀ n, (f n).size + n ≤ (f 0).size := by
    intro n
    induction n with
    | zero => exact Nat.le_refl _
    | succ n ih =>
      have := step_size (h n)
      omega
  have := this ((f 0).size + 1)
  omega

/-! ### Tasks of a warmup are conserved -/

def Job.of (g : Nat) (j : Job) : Nat := if j.group = some g then 1 else 0

def jobsOf (g : Nat) (js : List Job) : Nat := (js.map (Job.of g)).sum

def Th.of (g : Nat) : Th → Nat
  | .run j => j.of g
  | _ => 0

/-- The tasks of a warmup: to be put into the queue, in the queue, running, counted, thrown. -/
def St.total (g : Nat) (s : St) : Nat :=
  (s.callers.map (jobsOf g)).sum + jobsOf g s.queue + (s.threads.map (Th.of g)).sum + s.count g + s.thrown g

theorem bump_self (f : Nat → Nat) (i : Nat) : bump f i i = f i + 1 := by unfold bump; rw [if_pos rfl]

theorem bump_ne (f : Nat → Nat) {i j : Nat} (h : j ≠ i) : bump f i j = f j := by unfold bump; rw [if_neg h]

theorem step_total (g : Nat) {b : Bool} {s s' : St} (h : Step b s s') : s'.total g = s.total g := by
  cases h with
  | submit c j js hc =>
    have := sum_set (jobsOf g) hc js
    have e : jobsOf g (j :: js) = j.of g + jobsOf g js := rfl
    have e2 : jobsOf g (s.queue ++ [j]) = jobsOf g s.queue + j.of g := by
      simp only [jobsOf, List.map_append, List.sum_append, List.map_cons, List.map_nil, List.sum_cons, List.sum_nil]
      omega
    simp only [St.total, e2]
    omega
  | take w j q hw hq =>
    have := sum_set (Th.of g) hw (.run j)
    have e : jobsOf g (j :: q) = j.of g + jobsOf g q := rfl
    simp only [St.total, hq, e]
    simp only [Th.of] at this ⊢
    omega
  | work w g' k hw =>
    have := sum_set (Th.of g) hw (.run ⟨g', k⟩)
    simp only [St.total]
    simp only [Th.of, Job.of] at this ⊢
    omega
  | finish w hw =>
    have := sum_set (Th.of g) hw .idle
    simp only [St.total]
    have e : (none : Option Nat) ≠ some g := by simp
    simp only [Th.of, Job.of, if_neg e] at this ⊢
    omega
  | arrive w g' hw =>
    have := sum_set (Th.of g) hw (.wait g')
    simp only [St.total]
    simp only [Th.of, Job.of, Option.some.injEq] at this ⊢
    by_cases e : g = g'
    · subst e
      rw [bump_self]
      rw [if_pos rfl] at this
      omega
    · rw [bump_ne _ e]
      rw [if_neg (fun h => e h.symm)] at this
      omega
  | leave w g' hw _ =>
    have := sum_set (Th.of g) hw .idle
    simp only [St.total]
    simp only [Th.of] at this ⊢
    omega
  | throw w g' k _ hw =>
    have := sum_set (Th.of g) hw .idle
    simp only [St.total]
    simp only [Th.of, Job.of, Option.some.injEq] at this ⊢
    by_cases e : g = g'
    · subst e
      rw [bump_self]
      rw [if_pos rfl] at this
      omega
    · rw [bump_ne _ e]
      rw [if_neg (fun h => e h.symm)] at this
      omega

theorem reach_total (g : Nat) {b : Bool} {s0 s : St} (h : Reach b s0 s) : s.total g = s0.total g := by
  induction h with
  | refl => rfl
  | step _ hs ih => rw [step_total g hs, ih]

theorem step_length {b : Bool} {s s' : St} (h : Step b s s') : s'.threads.length = s.threads.length := by
  cases h <;> simp only [List.length_set]

theorem reach_length {b : Bool} {s0 s : St} (h : Reach b s0 s) : s.threads.length = s0.threads.length := by
  induction h with
  | refl => rfl
  | step _ hs ih => rw [step_length hs, ih]

theorem jobsOf_replicate (g k n : Nat) : jobsOf g (warmup n g k) = n := by
  unfold jobsOf warmup
  induction n with
  | zero => rfl
  | succ n ih =>
    rw [List.replicate_succ, List.map_cons, List.sum_cons, ih]
    simp only [Job.of, if_true]
    omega

theorem of_idle (g n : Nat) : ((List.replicate n Th.idle).map (Th.of g)).sum = 0 := by
  induction n with
  | zero => rfl
  | succ n ih =>
    rw [List.replicate_succ, List.map_cons, List.sum_cons, ih]
    rfl

theorem jobsOf_other (g : Nat) {js : List Job} (h : ∀ j ∈ js, j.group ≠ some g) : jobsOf g js = 0 := by
  induction js with
  | nil => rfl
  | cons j js ih =>
    have e : jobsOf g (j :: js) = j.of g + jobsOf g js := rfl
    rw [e, ih fun x hx => h x (List.mem_cons_of_mem _ hx)]
    simp [Job.of, h j List.mem_cons_self]

theorem init_total (n g k : Nat) (others : List (List Job)) (h : ∀ js ∈ others, ∀ j ∈ js, j.group ≠ some g) :
    (init n (warmup n g k :: others)).total g = n := by
  have h0 : (others.map (jobsOf g)).sum = 0 := by
    induction others with
    | nil => rfl
    | cons js os ih =>
      rw [List.map_cons, List.sum_cons, jobsOf_other g (h js List.mem_cons_self),
        ih fun x hx => h x (List.mem_cons_of_mem _ hx)]
  simp only [St.total, init, List.map_cons, List.sum_cons, h0, jobsOf_replicate, of_idle]
  simp [jobsOf]

end Verif.Warmup
