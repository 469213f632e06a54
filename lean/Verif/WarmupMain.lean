import Verif.WarmupProps
/-
A single warmup; warmups that throw; two warmups at once.
-/

namespace Verif.Warmup

/-- How often the threads have run the pipeline, added up. -/
def ranSum (f : Nat → Nat) : Nat → Nat
  | 0 => 0
  | n + 1 => ranSum f n + f n

theorem ranSum_congr {f f' : Nat → Nat} {n : Nat} (h : ∀ w < n, f w = f' w) : ranSum f n = ranSum f' n := by
  induction n with
  | zero => rfl
  | succ n ih => rw [ranSum, ranSum, ih fun w hw => h w (by omega), h n (by omega)]

theorem ranSum_bump {f f' : Nat → Nat} {n w : Nat} (hw : w < n) (h1 : f' w = f w + 1) (h2 : ∀ v, v ≠ w → f' v = f v) :
    ranSum f' n = ranSum f n + 1 := by
  induction n with
  | zero => omega
  | succ n ih =>
    rw [ranSum, ranSum]
    by_cases e : w = n
    · subst e
      rw [h1, ranSum_congr (f := f') (f' := f) fun v hv => h2 v (by omega)]
      omega
    · rw [ih (by omega), h2 n (by omega)]
      omega

theorem ranSum_ones {f : Nat → Nat} {n : Nat} (h : ∀ w < n, f w = 1) : ranSum f n = n := by
  induction n with
  | zero => rfl
  | succ n ih => rw [ranSum, ih fun w hw => h w (by omega), h n (by omega)]

theorem ranSum_full {f : Nat → Nat} {n : Nat} (h : ∀ w < n, f w ≤ 1) : ranSum f n ≤ n ∧ (ranSum f n = n → ∀ w < n, f w = 1) := by
  induction n with
  | zero => exact ⟨Nat.le_refl _, fun _ w hw => by omega⟩
  | succ n ih =>
    have := ih fun w hw => h w (by omega)
    have h1 := h n (by omega)
    rw [ranSum]
    refine ⟨by omega, fun he w hw => ?_⟩
    by_cases e : w = n
    · subst e; omega
    · exact this.2 (by omega) w (by omega)

/-- The only warmup is `g`, nothing has thrown. -/
structure Inv (g n : Nat) (s : St) : Prop where
  len : s.threads.length = n
  total : s.total g = n
  once : ∀ w, s.ran w g ≤ 1
  sum : ranSum (fun w => s.ran w g) n = s.count g
  waits : ∀ w, w < n → s.ran w g = 1 → s.count g = n ∨ s.threads[w]? = some (.wait g)
  waited : ∀ (w h : Nat), s.threads[w]? = some (.wait h) → h = g ∧ s.ran w g = 1
  only : ∀ (w : Nat) (j : Job) (h : Nat), s.threads[w]? = some (.run j) → j.group = some h → h = g
  queue : ∀ j ∈ s.queue, ∀ h, j.group = some h → h = g
  callers : ∀ js ∈ s.callers, ∀ j ∈ js, ∀ h, j.group = some h → h = g
  thrown : s.thrown g = 0

theorem get_set {α : Type} {l : List α} {w v : Nat} {a b : α} (h : (l.set w b)[v]? = some a) :
    (v = w ∧ a = b) ∨ (v ≠ w ∧ l[v]? = some a) := by
  by_cases e : v = w
  · subst e
    rw [List.getElem?_set_self'] at h
    cases hv : l[v]? with
    | none => rw [hv] at h; cases h
    | some x => rw [hv] at h; exact .inl ⟨rfl, (Option.some.inj h).symm⟩
  · rw [List.getElem?_set_ne (fun h => e h.symm)] at h
    exact .inr ⟨e, h⟩

/-- A thread that runs a task of the warmup has not run one before. -/
theorem fresh {g n : Nat} {s : St} (h : Inv g n s) {w k : Nat} (hw : s.threads[w]? = some (.run ⟨some g, k⟩)) :
    s.ran w g = 0 ∧ s.count g < n ∧ w < n := by
  have hlt : w < n := by rw [← h.len]; exact (List.getElem?_eq_some_iff.1 hw).1
  have h1 := le_sum (Th.of g) (List.mem_of_getElem? hw)
  have e : Th.of g (.run ⟨some g, k⟩) = 1 := by simp [Th.of, Job.of]
  have ht := h.total
  unfold St.total at ht
  have hc : s.count g < n := by omega
  refine ⟨?_, hc, hlt⟩
  have h2 := h.once w
  by_cases e1 : s.ran w g = 1
  · rcases h.waits w hlt e1 with h3 | h3
    · omega
    · rw [hw] at h3; cases h3
  · omega

theorem inv_step {g n : Nat} {s s' : St} (h : Inv g n s) (hs : Step false s s') : Inv g n s' := by
  have hlen := (step_length hs).trans h.len
  have htot := (step_total g hs).trans h.total
  cases hs with
  | submit c j js hc =>
    have hm := List.mem_of_getElem? hc
    refine ⟨hlen, htot, h.once, h.sum, h.waits, h.waited, h.only, ?_, ?_, h.thrown⟩
    · intro x hx
      rcases List.mem_append.1 hx with hx | hx
      · exact h.queue x hx
      · rw [List.mem_singleton.1 hx]
        exact h.callers _ hm j List.mem_cons_self
    · intro x hx y hy
      rcases List.mem_or_eq_of_mem_set hx with hx | rfl
      · exact h.callers x hx y hy
      · exact h.callers _ hm y (List.mem_cons_of_mem _ hy)
  | take w j q hw hq =>
    refine ⟨hlen, htot, h.once, h.sum, ?_, ?_, ?_, ?_, h.callers, h.thrown⟩
    · intro v hv hr
      rcases h.waits v hv hr with h1 | h1
      · exact .inl h1
      · refine .inr ?_
        have e : w ≠ v := by intro e; subst e; rw [hw] at h1; cases h1
        show (s.threads.set w _)[v]? = _
        rw [List.getElem?_set_ne e]
        exact h1
    · intro v x hv
      rcases get_set hv with ⟨rfl, he⟩ | ⟨_, hv⟩
      · cases he
      · exact h.waited v x hv
    · intro v x y hv hy
      rcases get_set hv with ⟨rfl, he⟩ | ⟨_, hv⟩
      · cases he
        exact h.queue _ (by rw [hq]; exact List.mem_cons_self) y hy
      · exact h.only v x y hv hy
    · intro x hx
      exact h.queue x (by rw [hq]; exact List.mem_cons_of_mem _ hx)
  | work w g' k hw =>
    refine ⟨hlen, htot, h.once, h.sum, ?_, ?_, ?_, h.queue, h.callers, h.thrown⟩
    · intro v hv hr
      rcases h.waits v hv hr with h1 | h1
      · exact .inl h1
      · refine .inr ?_
        have e : w ≠ v := by intro e; subst e; rw [hw] at h1; cases h1
        show (s.threads.set w _)[v]? = _
        rw [List.getElem?_set_ne e]
        exact h1
    · intro v x hv
      rcases get_set hv with ⟨rfl, he⟩ | ⟨_, hv⟩
      · cases he
      · exact h.waited v x hv
    · intro v x y hv hy
      rcases get_set hv with ⟨rfl, he⟩ | ⟨_, hv⟩
      · cases he
        exact h.only v _ y hw hy
      · exact h.only v x y hv hy
  | finish w hw =>
    refine ⟨hlen, htot, h.once, h.sum, ?_, ?_, ?_, h.queue, h.callers, h.thrown⟩
    · intro v hv hr
      rcases h.waits v hv hr with h1 | h1
      · exact .inl h1
      · refine .inr ?_
        have e : w ≠ v := by intro e; subst e; rw [hw] at h1; cases h1
        show (s.threads.set w _)[v]? = _
        rw [List.getElem?_set_ne e]
        exact h1
    · intro v x hv
      rcases get_set hv with ⟨rfl, he⟩ | ⟨_, hv⟩
      · cases he
      · exact h.waited v x hv
    · intro v x y hv hy
      rcases get_set hv with ⟨rfl, he⟩ | ⟨_, hv⟩
      · cases he
      · exact h.only v x y hv hy
  | arrive w g' hw =>
    obtain rfl : g' = g := h.only w _ g' hw rfl
    obtain ⟨h0, hc, hlt⟩ := fresh h hw
    have hr : ∀ v, (if v = w then bump (s.ran v) g' else s.ran v) g' = if v = w then s.ran v g' + 1 else s.ran v g' := by
      intro v
      split
      · exact bump_self _ _
      · rfl
    refine ⟨hlen, htot, ?_, ?_, ?_, ?_, ?_, h.queue, h.callers, h.thrown⟩
    · intro v
      show (if v = w then bump (s.ran v) g' else s.ran v) g' ≤ 1
      rw [hr]
      split
      · rename_i e; subst e; omega
      · exact h.once v
    · show ranSum (fun v => (if v = w then bump (s.ran v) g' else s.ran v) g') n = bump s.count g' g'
      rw [bump_self, ← h.sum]
      refine ranSum_bump hlt ?_ ?_
      · show (if w = w then bump (s.ran w) g' else s.ran w) g' = _
        rw [hr, if_pos rfl]
      · intro v hv
        show (if v = w then bump (s.ran v) g' else s.ran v) g' = _
        rw [hr, if_neg hv]
    · intro v hv hr'
      show bump s.count g' g' = n ∨ (s.threads.set w (.wait g'))[v]? = some (.wait g')
      by_cases e : v = w
      · subst e
        refine .inr ?_
        rw [List.getElem?_set_self (by rw [h.len]; exact hlt)]
      · have hr' : (if v = w then bump (s.ran v) g' else s.ran v) g' = 1 := hr'
        rw [hr, if_neg e] at hr'
        rcases h.waits v hv hr' with h1 | h1
        · omega
        · refine .inr ?_
          rw [List.getElem?_set_ne (fun h => e h.symm)]
          exact h1
    · intro v x hv
      show x = g' ∧ (if v = w then bump (s.ran v) g' else s.ran v) g' = 1
      rw [hr]
      rcases get_set hv with ⟨rfl, he⟩ | ⟨e, hv⟩
      · cases he
        rw [if_pos rfl]
        exact ⟨rfl, by omega⟩
      · rw [if_neg e]
        exact h.waited v x hv
    · intro v x y hv hy
      rcases get_set hv with ⟨rfl, he⟩ | ⟨_, hv⟩
      · cases he
      · exact h.only v x y hv hy
  | leave w g' hw hcnt =>
    obtain ⟨rfl, h1⟩ := h.waited w g' hw
    refine ⟨hlen, htot, h.once, h.sum, ?_, ?_, ?_, h.queue, h.callers, h.thrown⟩
    · intro v hv hr
      exact .inl (hcnt.trans h.len)
    · intro v x hv
      rcases get_set hv with ⟨rfl, he⟩ | ⟨_, hv⟩
      · cases he
      · exact h.waited v x hv
    · intro v x y hv hy
      rcases get_set hv with ⟨rfl, he⟩ | ⟨_, hv⟩
      · cases he
      · exact h.only v x y hv hy
  | throw w g' k hf _ => cases hf

theorem inv_init (n g k : Nat) (others : List (List Job)) (h : ∀ js ∈ others, ∀ j ∈ js, j.group = none) :
    Inv g n (init n (warmup n g k :: others)) := by
  have hw : ∀ (v : Nat) (t : Th), (List.replicate n Th.idle)[v]? = some t → t = .idle := fun v t hv =>
    List.eq_of_mem_replicate (List.mem_of_getElem? hv)
  have hz : ∀ m, ranSum (fun _ => 0) m = 0 := by
    intro m
    induction m with
    | zero => rfl
    | succ m ih => rw [ranSum, ih]
  refine ⟨List.length_replicate, ?_, fun _ => Nat.zero_le _, hz n, fun w _ hr => ?_, ?_, ?_, ?_, ?_, rfl⟩
  · exact init_total n g k others fun js hjs j hj => by rw [h js hjs j hj]; simp
  · cases hr
  · intro w x hx; cases hw w _ hx
  · intro w x y hx; cases hw w _ hx
  · intro j hj; cases hj
  · intro js hjs j hj x hx
    rcases List.mem_cons.1 hjs with rfl | hjs
    · rw [List.eq_of_mem_replicate hj] at hx
      exact (Option.some.inj hx).symm
    · rw [h js hjs j hj] at hx; cases hx

theorem inv_reach {n g k : Nat} {others : List (List Job)} (h : ∀ js ∈ others, ∀ j ∈ js, j.group = none) {s : St}
    (hr : Reach false (init n (warmup n g k :: others)) s) : Inv g n s := by
  induction hr with
  | refl => exact inv_init n g k others h
  | step _ hs ih => exact inv_step ih hs

/-- The tasks of the warmup are used up when there is nothing to put into the queue, to take and to run. -/
theorem count_full {g n : Nat} {s : St} (h : Inv g n s) (hc : ∀ c ∈ s.callers, c = []) (hq : s.queue = [])
    (ht : ∀ (w : Nat) (j : Job), s.threads[w]? ≠ some (.run j)) : s.count g = n := by
  have h1 : (s.callers.map (jobsOf g)).sum = 0 := by
    have : ∀ l : List (List Job), (∀ c ∈ l, c = []) → (l.map (jobsOf g)).sum = 0 := by
      intro l
      induction l with
      | nil => intro _; rfl
      | cons a l ih =>
        intro hl
        rw [List.map_cons, List.sum_cons, ih fun c hc => hl c (List.mem_cons_of_mem _ hc), hl a List.mem_cons_self]
        rfl
    exact this _ hc
  have h2 : (s.threads.map (Th.of g)).sum = 0 := by
    have : ∀ l : List Th, (∀ t ∈ l, ∀ j, t ≠ .run j) → (l.map (Th.of g)).sum = 0 := by
      intro l
      induction l with
      | nil => intro _; rfl
      | cons a l ih =>
        intro hl
        rw [List.map_cons, List.sum_cons, ih fun c hc => hl c (List.mem_cons_of_mem _ hc)]
        cases a with
        | run j => exact absurd rfl (hl _ List.mem_cons_self j)
        | idle => rfl
        | wait _ => rfl
    refine this _ fun t htm j e => ?_
    obtain ⟨w, hw⟩ := List.mem_iff_getElem?.1 htm
    exact ht w j (by rw [hw, e])
  have := h.total
  unfold St.total at this
  rw [h1, h2, hq, h.thrown] at this
  have e : jobsOf g [] = 0 := rfl
  omega

/-- **C135 (part).**  One warmup on a pool of at least one thread, with any other work on the pool, and ops that do
not throw: when nothing can go on, everything is done, and each thread has run the pipeline exactly once. -/
theorem warmup_done_partial {n g k : Nat} (hn : 0 < n) (others : List (List Job))
    (h : ∀ js ∈ others, ∀ j ∈ js, j.group = none) {s : St}
    (hr : Reach false (init n (warmup n g k :: others)) s) (hstuck : ∀ s', ¬ Step false s s') :
    Finished s ∧ ∀ w < n, s.ran w g = 1 := by
  have hi := inv_reach h hr
  have hrun : ∀ (w : Nat) (j : Job), s.threads[w]? ≠ some (.run j) := by
    rintro w ⟨gr, k'⟩ hw
    cases k' with
    | succ k' => exact hstuck _ (.work w gr k' hw)
    | zero =>
      cases gr with
      | none => exact hstuck _ (.finish w hw)
      | some g' => exact hstuck _ (.arrive w g' hw)
  have hcall : ∀ c ∈ s.callers, c = [] := by
    intro c hc
    obtain ⟨i, hi⟩ := List.mem_iff_getElem?.1 hc
    cases c with
    | nil => rfl
    | cons j js => exact absurd (Step.submit i j js hi) (hstuck _)
  have hfull : s.count g = n → Finished s ∧ ∀ w < n, s.ran w g = 1 := by
    intro hc
    have hidle : ∀ t ∈ s.threads, t = .idle := by
      intro t ht
      obtain ⟨w, hw⟩ := List.mem_iff_getElem?.1 ht
      cases t with
      | idle => rfl
      | run j => exact absurd hw (hrun w j)
      | wait g' =>
        obtain ⟨rfl, _⟩ := hi.waited w g' hw
        exact absurd (Step.leave w g' hw (hc.trans hi.len.symm)) (hstuck _)
    refine ⟨⟨hcall, ?_, hidle⟩, ?_⟩
    · cases hq : s.queue with
      | nil => rfl
      | cons j q =>
        have h0 : 0 < s.threads.length := by rw [hi.len]; exact hn
        have hw : s.threads[0]? = some .idle := by
          rw [List.getElem?_eq_getElem h0, hidle _ (List.getElem_mem h0)]
        exact absurd (Step.take 0 j q hw hq) (hstuck _)
    · have := ranSum_full (f := fun w => s.ran w g) (n := n) fun w _ => hi.once w
      exact this.2 (hi.sum.trans hc)
  by_cases hex : ∃ w : Nat, s.threads[w]? = some .idle
  · obtain ⟨w, hw⟩ := hex
    have hq : s.queue = [] := by
      cases hq : s.queue with
      | nil => rfl
      | cons j q => exact absurd (Step.take w j q hw hq) (hstuck _)
    exact hfull (count_full hi hcall hq hrun)
  · apply hfull
    rw [← hi.sum]
    refine ranSum_ones fun w hw => ?_
    have hl : w < s.threads.length := by rw [hi.len]; exact hw
    have hg := List.getElem?_eq_getElem hl
    cases ht : s.threads[w] with
    | idle => exact absurd ⟨w, by rw [hg, ht]⟩ hex
    | run j => exact absurd (by rw [hg, ht]) (hrun w j)
    | wait g' => exact (hi.waited w g' (by rw [hg, ht])).2

/-! ### An op that throws -/

/-- **C135 (finding).**  Once one task of a warmup has ended with an exception, a thread that waits for the others
waits for ever, whatever happens. -/
theorem throw_refuted {n g k : Nat} (others : List (List Job)) (h : ∀ js ∈ others, ∀ j ∈ js, j.group ≠ some g) {s s' : St}
    (hr : Reach true (init n (warmup n g k :: others)) s) (ht : 0 < s.thrown g) {w : Nat}
    (hw : s.threads[w]? = some (.wait g)) (hr' : Reach true s s') : s'.threads[w]? = some (.wait g) ∧ ¬ Finished s' := by
  have key : s'.threads[w]? = some (.wait g) ∧ 0 < s'.thrown g := by
    induction hr' with
    | refl => exact ⟨hw, ht⟩
    | @step a b ha hs ih =>
      obtain ⟨h1, h2⟩ := ih
      have htot : a.total g = n := by
        rw [reach_total g ha, reach_total g hr]
        exact init_total n g k others h
      have hlen : a.threads.length = n := by
        rw [reach_length ha, reach_length hr]
        exact List.length_replicate
      have other : ∀ (v : Nat) (x y : Th), a.threads[v]? = some x → x ≠ .wait g →
          (a.threads.set v y)[w]? = some (.wait g) := by
        intro v x y hv hx
        have e : v ≠ w := by
          intro e
          subst e
          rw [hv] at h1
          exact hx (Option.some.inj h1)
        rw [List.getElem?_set_ne e]
        exact h1
      cases hs with
      | submit c j js hc => exact ⟨h1, h2⟩
      | take v j q hv hq => exact ⟨other v _ _ hv (by simp), h2⟩
      | work v g' k' hv => exact ⟨other v _ _ hv (by simp), h2⟩
      | finish v hv => exact ⟨other v _ _ hv (by simp), h2⟩
      | arrive v g' hv => exact ⟨other v _ _ hv (by simp), h2⟩
      | leave v g' hv hcnt =>
        refine ⟨other v _ _ hv ?_, h2⟩
        intro e
        cases e
        unfold St.total at htot
        omega
      | throw v g' k' _ hv =>
        refine ⟨other v _ _ hv (by simp), ?_⟩
        show 0 < bump a.thrown g' g
        unfold bump
        split <;> omega
  exact ⟨key.1, fun hf => by cases hf.2.2 _ (List.mem_of_getElem? key.1)⟩

/-- This state is reached: two threads, one throws and the other arrives. -/
example (k : Nat) : ∃ s, Reach true (init 2 [warmup 2 0 k]) s ∧ 0 < s.thrown 0 ∧ s.threads[1]? = some (.wait 0) := by
  have r0 := Reach.refl (throws := true) (s0 := init 2 [warmup 2 0 k])
  have r1 := r0.step (.submit 0 ⟨some 0, k⟩ [⟨some 0, k⟩] rfl)
  have r2 := r1.step (.submit 0 ⟨some 0, k⟩ [] rfl)
  have r3 := r2.step (.take 0 ⟨some 0, k⟩ [⟨some 0, k⟩] rfl rfl)
  have r4 := r3.step (.take 1 ⟨some 0, k⟩ [] rfl rfl)
  have r5 := r4.step (.throw 0 0 k rfl rfl)
  have work : ∀ (m : Nat) (s : St), Reach true (init 2 [warmup 2 0 k]) s → s.threads[1]? = some (.run ⟨some 0, m⟩) →
      0 < s.thrown 0 →
      ∃ s', Reach true (init 2 [warmup 2 0 k]) s' ∧ s'.threads[1]? = some (.run ⟨some 0, 0⟩) ∧ 0 < s'.thrown 0 := by
    intro m
    induction m with
    | zero => exact fun s h1 h2 h3 => ⟨s, h1, h2, h3⟩
    | succ m ih =>
      intro s h1 h2 h3
      exact ih _ (h1.step (.work 1 (some 0) m h2))
        (List.getElem?_set_self (List.getElem?_eq_some_iff.1 h2).1) h3
  obtain ⟨s, h1, h2, h3⟩ := work k _ r5 rfl (by simp [bump])
  exact ⟨_, h1.step (.arrive 1 0 h2), h3, List.getElem?_set_self (List.getElem?_eq_some_iff.1 h2).1⟩

/-! ### Two warmups at once -/

/-- **C135 (finding).**  Two warmups whose tasks are mixed in the queue of one pool of two threads: each thread waits
for a task that no thread will take. -/
theorem two_warmups_refuted :
    ∃ s, Reach false (init 2 [warmup 2 0 0, warmup 2 1 0]) s ∧ (∀ s', ¬ Step false s s') ∧ ¬ Finished s := by
  have r0 := Reach.refl (throws := false) (s0 := init 2 [warmup 2 0 0, warmup 2 1 0])
  have r1 := r0.step (.submit 0 ⟨some 0, 0⟩ [⟨some 0, 0⟩] rfl)
  have r2 := r1.step (.submit 1 ⟨some 1, 0⟩ [⟨some 1, 0⟩] rfl)
  have r3 := r2.step (.submit 0 ⟨some 0, 0⟩ [] rfl)
  have r4 := r3.step (.submit 1 ⟨some 1, 0⟩ [] rfl)
  have r5 := r4.step (.take 0 ⟨some 0, 0⟩ [⟨some 1, 0⟩, ⟨some 0, 0⟩, ⟨some 1, 0⟩] rfl rfl)
  have r6 := r5.step (.take 1 ⟨some 1, 0⟩ [⟨some 0, 0⟩, ⟨some 1, 0⟩] rfl rfl)
  have r7 := r6.step (.arrive 0 0 rfl)
  have r8 := r7.step (.arrive 1 1 rfl)
  obtain ⟨s, hr, h1, h2, h3, h4, h5⟩ : ∃ s, Reach false (init 2 [warmup 2 0 0, warmup 2 1 0]) s ∧
      s.callers = [[], []] ∧ s.queue = [⟨some 0, 0⟩, ⟨some 1, 0⟩] ∧ s.threads = [.wait 0, .wait 1] ∧
      s.count 0 = 1 ∧ s.count 1 = 1 := ⟨_, r8, rfl, rfl, rfl, rfl, rfl⟩
  refine ⟨s, hr, fun s' hs => ?_, fun hf => ?_⟩
  · have two : ∀ {w : Nat} {t : Th}, s.threads[w]? = some t → t = .wait 0 ∨ t = .wait 1 := by
      intro w t h
      have := List.mem_of_getElem? h
      rw [h3] at this
      simpa using this
    cases hs with
    | submit c j js hc =>
      have hm := List.mem_of_getElem? hc
      rw [h1] at hm
      simp at hm
    | take w j q hw hq => rcases two hw with h | h <;> cases h
    | work w g k hw => rcases two hw with h | h <;> cases h
    | finish w hw => rcases two hw with h | h <;> cases h
    | arrive w g hw => rcases two hw with h | h <;> cases h
    | leave w g hw hcnt =>
      rw [h3] at hcnt
      have hcnt : s.count g = 2 := hcnt
      rcases two hw with h | h <;> cases h <;> omega
    | throw w g k hf _ => cases hf
  · have := hf.2.1
    rw [h2] at this
    cases this

/-- A warmup on three threads, with two other callers, ends as promised. -/
example {s : St} (hr : Reach false (init 3 [warmup 3 0 5, [⟨none, 2⟩, ⟨none, 7⟩], [⟨none, 1⟩]]) s)
    (hs : ∀ s', ¬ Step false s s') : Finished s ∧ ∀ w < 3, s.ran w 0 = 1 :=
  warmup_done_partial (by decide) [[⟨none, 2⟩, ⟨none, 7⟩], [⟨none, 1⟩]]
    (by intro js hjs j hj; simp at hjs; rcases hjs with rfl | rfl <;> simp at hj <;> aesop) hr hs

end Verif.Warmup
