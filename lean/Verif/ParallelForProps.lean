import Mathlib.Tactic.Linarith
import Mathlib.Tactic.Ring
import Verif.ParallelFor

/-! # Properties of the parallel map (C29, C30) -/

namespace Verif.ParallelFor

/-! ## C29: the partition -/

/-- Once the step is final, `r` more steps reach the end. -/
theorem splitLoop_const (n T stepL step : Nat) (hs : 0 < step) :
    ∀ (r fuel i pos : Nat) (nc : Bool), (nc = false ∨ stepL = 0) → r ≤ fuel → pos + step * r = n →
      Chain pos (splitLoop n T stepL fuel i pos step nc) n ∧
      (splitLoop n T stepL fuel i pos step nc).length = r ∧
      ∀ t ∈ splitLoop n T stepL fuel i pos step nc, t.2 = step := by
  intro r
  induction r with
  | zero =>
    intro fuel i pos nc _ _ h
    have : pos = n := by omega
    subst this
    cases fuel with
    | zero => simp [splitLoop, Chain]
    | succ f => simp [splitLoop, Chain]
  | succ r ih =>
    intro fuel i pos nc hnc hf h
    cases fuel with
    | zero => omega
    | succ f =>
      have hpos : pos < n := by
        have : 0 < step * (r + 1) := Nat.mul_pos hs (by omega)
        omega
      have hno : (nc && decide (stepL ≠ 0) && decide (pos + stepL * (T - i) = n)) = false := by
        rcases hnc with h | h <;> simp [h]
      have e : splitLoop n T stepL (f + 1) i pos step nc =
          (pos, step) :: splitLoop n T stepL f (i + 1) (pos + step) step nc := by
        rw [splitLoop, if_pos hpos, hno]; rfl
      have := ih f (i + 1) (pos + step) nc hnc (by omega) (by rw [← h]; ring)
      rw [e]
      refine ⟨⟨rfl, hs, this.1⟩, by simp [this.2.1], ?_⟩
      intro t ht
      rcases List.mem_cons.mp ht with rfl | ht
      · rfl
      · exact this.2.2 t ht

/-- Before the change of step: `i` large steps have been taken, the change happens at step `i0`. -/
theorem splitLoop_change (n T stepL step i0 : Nat) (hL : 0 < stepL) (hs : stepL < step)
    (hn : step * i0 + stepL * (T - i0) = n) (hi0 : i0 ≤ T) :
    ∀ (d i : Nat), i + d = i0 →
      Chain (step * i) (splitLoop n T stepL (T - i) i (step * i) step true) n ∧
      (splitLoop n T stepL (T - i) i (step * i) step true).length = T - i ∧
      ∀ t ∈ splitLoop n T stepL (T - i) i (step * i) step true, t.2 = step ∨ t.2 = stepL := by
  intro d
  induction d with
  | zero =>
    intro i hi
    have : i = i0 := by omega
    subst this
    rcases Nat.lt_or_ge i T with hiT | hiT
    · obtain ⟨f, hf⟩ : ∃ f, T - i = f + 1 := ⟨T - i - 1, by omega⟩
      have hpos : step * i < n := by
        have : 0 < stepL * (T - i) := Nat.mul_pos hL (by omega)
        omega
      have e : splitLoop n T stepL (T - i) i (step * i) step true =
          (step * i, stepL) :: splitLoop n T stepL f (i + 1) (step * i + stepL) stepL false := by
        rw [hf, splitLoop, if_pos hpos]
        have : (true && decide (stepL ≠ 0) && decide (step * i + stepL * (T - i) = n)) = true := by
          simp [hn]; omega
        rw [this]; rfl
      have h := splitLoop_const n T stepL stepL hL f f (i + 1) (step * i + stepL) false (.inl rfl)
        (Nat.le_refl _) (by rw [← hn, hf]; ring)
      rw [e]
      refine ⟨⟨rfl, hL, h.1⟩, by simp [h.2.1, hf], ?_⟩
      intro t ht
      rcases List.mem_cons.mp ht with rfl | ht
      · right; rfl
      · right; exact h.2.2 t ht
    · have : T - i = 0 := by omega
      rw [this] at hn ⊢
      simp only [Nat.mul_zero, Nat.add_zero] at hn
      simp [splitLoop, Chain, hn]
  | succ d ih =>
    intro i hi
    have hiT : i < T := by omega
    obtain ⟨f, hf⟩ : ∃ f, T - i = f + 1 := ⟨T - i - 1, by omega⟩
    have key : step * i + stepL * (T - i) < n := by
      -- replacing a large step by a small one loses `step - stepL` for each of `i0 - i` steps
      have h1 : T - i = (T - i0) + (d + 1) := by omega
      have h2 : i0 = i + (d + 1) := by omega
      have h3 : step * i0 = step * i + step * (d + 1) := by rw [h2]; ring
      have h4 : stepL * (T - i) = stepL * (T - i0) + stepL * (d + 1) := by rw [h1]; ring
      have h5 : stepL * (d + 1) < step * (d + 1) := Nat.mul_lt_mul_of_pos_right hs (by omega)
      omega
    have hpos : step * i < n := by omega
    have e : splitLoop n T stepL (T - i) i (step * i) step true =
        (step * i, step) :: splitLoop n T stepL (T - (i + 1)) (i + 1) (step * (i + 1)) step true := by
      rw [hf, splitLoop, if_pos hpos]
      have : (true && decide (stepL ≠ 0) && decide (step * i + stepL * (T - i) = n)) = false := by
        simp; omega
      rw [this]
      have h6 : f = T - (i + 1) := by omega
      have h7 : step * i + step = step * (i + 1) := by ring
      rw [h6, h7]; rfl
    have h := ih (i + 1) (by omega)
    rw [e]
    refine ⟨⟨rfl, by omega, ?_⟩, by simp only [List.length_cons, h.2.1]; omega, ?_⟩
    · have h7 : step * i + step = step * (i + 1) := by ring
      rw [h7]; exact h.1
    · intro t ht
      rcases List.mem_cons.mp ht with rfl | ht
      · left; rfl
      · exact h.2.2 t ht

/-- **C29.**  Whenever `n > 0` is a multiple of the group size, the tasks form a chain of non-empty
consecutive intervals from `0` to `n`; there are at most as many as threads; each length is a
multiple of the group size; and any two lengths differ by at most one group. -/
theorem split_partition (poolThreads : Nat) (expt group : Int) (n : Nat) (hn : 0 < n)
    (hd : n % groups group = 0) :
    ∃ ts, split poolThreads expt group n = some ts ∧ Chain 0 ts n ∧
      ts.length ≤ threads poolThreads expt ∧
      (∀ t ∈ ts, groups group ∣ t.2) ∧
      (∀ t ∈ ts, ∀ u ∈ ts, t.2 ≤ u.2 + groups group) := by
  have hT : 0 < threads poolThreads expt := by unfold threads; split <;> omega
  have hg : 0 < groups group := by unfold groups; split <;> omega
  unfold split
  simp only
  rw [if_pos hd]
  generalize threads poolThreads expt = T at *
  generalize groups group = g at *
  obtain ⟨m, rfl⟩ : ∃ m, n = g * m := ⟨n / g, by rw [Nat.mul_comm]; exact (Nat.div_mul_cancel (Nat.dvd_of_mod_eq_zero hd)).symm⟩
  have hm : 0 < m := Nat.pos_of_ne_zero (by rintro rfl; simp at hn)
  rw [Nat.mul_div_cancel_left m hg]
  refine ⟨_, rfl, ?_⟩
  -- the rounded-up number of groups per thread
  obtain ⟨c, hc⟩ : ∃ c, c = (m + T - 1) / T := ⟨_, rfl⟩
  have hcpos : 0 < c := by rw [hc]; exact Nat.div_pos (by omega) hT
  have h1 : c * T ≤ m + T - 1 := by rw [hc]; exact Nat.div_mul_le_self _ _
  have h2 : m ≤ c * T := by
    have := Nat.lt_div_mul_add (a := m + T - 1) hT
    rw [← hc] at this
    omega
  rw [← hc]
  have hsub : g * c - g = g * (c - 1) := by rw [Nat.mul_sub, Nat.mul_one]
  rw [hsub]
  rcases Nat.eq_or_lt_of_le hcpos with hc1 | hc1
  · -- one group per task
    have hc1 : c = 1 := by omega
    subst hc1
    have hmT : m ≤ T := by omega
    have h := splitLoop_const (g * m) T (g * (1 - 1)) (g * 1) (by omega) m T 0 0 true
      (.inr (by simp)) hmT (by ring)
    refine ⟨h.1, by rw [h.2.1]; exact hmT, ?_, ?_⟩
    · intro t ht; rw [h.2.2 t ht]; exact ⟨1, rfl⟩
    · intro t ht u hu; rw [h.2.2 t ht, h.2.2 u hu]; omega
  · obtain ⟨k, rfl⟩ : ∃ k, c = k + 1 := ⟨c - 1, by omega⟩
    have hk : 0 < k := by omega
    have e1 : (k + 1) * T = k * T + T := by ring
    have hi0 : m - k * T ≤ T := by omega
    have hkm : k * T ≤ m := by omega
    have hn' : g * (k + 1) * (m - k * T) + g * (k + 1 - 1) * (T - (m - k * T)) = g * m := by
      obtain ⟨r, hr⟩ : ∃ r, m = k * T + r := ⟨m - k * T, by omega⟩
      have hr' : m - k * T = r := by omega
      have hrT : r ≤ T := by omega
      obtain ⟨q, hq⟩ : ∃ q, T = r + q := ⟨T - r, by omega⟩
      have hq' : T - r = q := by omega
      rw [hr', hq', hr, hq, Nat.add_sub_cancel]
      ring
    have h := splitLoop_change (g * m) T (g * (k + 1 - 1)) (g * (k + 1)) (m - k * T)
      (by rw [Nat.add_sub_cancel]; exact Nat.mul_pos hg hk)
      (by rw [Nat.add_sub_cancel]; exact Nat.mul_lt_mul_of_pos_left (by omega) hg) hn' hi0
      (m - k * T) 0 (by omega)
    simp only [Nat.mul_zero, Nat.sub_zero] at h
    refine ⟨h.1, by rw [h.2.1], ?_, ?_⟩
    · intro t ht
      rcases h.2.2 t ht with e | e <;> rw [e] <;> exact ⟨_, rfl⟩
    · intro t ht u hu
      have e2 : g * (k + 1) = g * k + g := by ring
      have e3 : k + 1 - 1 = k := rfl
      rcases h.2.2 t ht with e | e <;> rcases h.2.2 u hu with e' | e' <;> rw [e, e'] <;>
        rw [e3] at * <;> omega

/-- The check rejects exactly the sizes which are not a multiple of the group size. -/
theorem split_rejects (poolThreads : Nat) (expt group : Int) (n : Nat) :
    split poolThreads expt group n = none ↔ ¬ groups group ∣ n := by
  unfold split
  simp only
  split
  · rename_i h; simp; exact Nat.dvd_of_mod_eq_zero h
  · rename_i h; simp; exact fun h' => h (Nat.mod_eq_zero_of_dvd h')

theorem Chain.le : ∀ {ts : List Task} {s e : Nat}, Chain s ts e → s ≤ e
  | [], _, _, h => by simp [Chain] at h; omega
  | (_, l) :: _, s, e, h => by have := Chain.le h.2.2; omega

theorem Chain.bounds : ∀ {ts : List Task} {s e : Nat}, Chain s ts e →
    ∀ (i : Nat) (t : Task), ts[i]? = some t → s ≤ t.1 ∧ 0 < t.2 ∧ t.1 + t.2 ≤ e
  | [], _, _, _, i, t, ht => by simp at ht
  | (p, l) :: r, s, e, h, i, t, ht => by
    obtain ⟨rfl, hl, hr⟩ := h
    cases i with
    | zero => simp at ht; subst ht; exact ⟨Nat.le_refl _, hl, hr.le⟩
    | succ i => have := Chain.bounds hr i t (by simpa using ht); omega

/-- Earlier tasks end before later ones start. -/
theorem Chain.mono : ∀ {ts : List Task} {s e : Nat}, Chain s ts e →
    ∀ (i j : Nat) (t u : Task), i < j → ts[i]? = some t → ts[j]? = some u → t.1 + t.2 ≤ u.1
  | [], _, _, _, i, j, t, u, _, ht, _ => by simp at ht
  | (p, l) :: r, s, e, h, i, j, t, u, hij, ht, hu => by
    obtain ⟨rfl, hl, hr⟩ := h
    cases j with
    | zero => omega
    | succ j =>
      have hu' : r[j]? = some u := by simpa using hu
      cases i with
      | zero => simp at ht; subst ht; exact (hr.bounds j u hu').1
      | succ i => exact Chain.mono hr i j t u (by omega) (by simpa using ht) hu'

theorem Chain.exists : ∀ {ts : List Task} {s e : Nat}, Chain s ts e →
    ∀ k, s ≤ k → k < e → ∃ i : Nat, ∃ t : Task, ts[i]? = some t ∧ t.1 ≤ k ∧ k < t.1 + t.2
  | [], s, e, h, k, h1, h2 => by simp [Chain] at h; omega
  | (p, l) :: r, s, e, h, k, h1, h2 => by
    obtain ⟨rfl, hl, hr⟩ := h
    rcases Nat.lt_or_ge k (p + l) with hk | hk
    · exact ⟨0, (p, l), rfl, h1, hk⟩
    · obtain ⟨i, t, ht, h3⟩ := Chain.exists hr k hk h2
      exact ⟨i + 1, t, by simpa using ht, h3⟩

theorem Chain.unique {ts : List Task} {s e : Nat} (h : Chain s ts e) {k i j : Nat} {t u : Task}
    (ht : ts[i]? = some t) (hu : ts[j]? = some u) (h1 : t.1 ≤ k) (h2 : k < t.1 + t.2)
    (h3 : u.1 ≤ k) (h4 : k < u.1 + u.2) : i = j := by
  rcases Nat.lt_trichotomy i j with hij | hij | hij
  · have := h.mono i j t u hij ht hu; omega
  · exact hij
  · have := h.mono j i u t hij hu ht; omega

/-- **C29, coverage.**  Every index of the input is processed by exactly one task. -/
theorem split_covers_once (poolThreads : Nat) (expt group : Int) (n : Nat) (hn : 0 < n) (ts : List Task)
    (h : split poolThreads expt group n = some ts) (k : Nat) (hk : k < n) :
    ∃! i : Nat, ∃ t : Task, ts[i]? = some t ∧ t.1 ≤ k ∧ k < t.1 + t.2 := by
  have hd : n % groups group = 0 := by
    by_contra hc
    have : split poolThreads expt group n = none := by
      rw [split_rejects]; exact fun h' => hc (Nat.mod_eq_zero_of_dvd h')
    rw [this] at h; cases h
  obtain ⟨ts', h', hc, _⟩ := split_partition poolThreads expt group n hn hd
  rw [h] at h'; injection h' with h'; subst h'
  obtain ⟨i, t, ht, h1, h2⟩ := hc.exists k (Nat.zero_le _) hk
  refine ⟨i, ⟨t, ht, h1, h2⟩, ?_⟩
  rintro j ⟨u, hu, h3, h4⟩
  exact hc.unique hu ht h3 h4 h1 h2

/-- 14 elements in groups of 2 for 3 threads: 6 + 4 + 4. -/
example : split 8 3 2 14 = some [(0, 6), (6, 4), (10, 4)] := by decide
/-- Fewer groups than threads: one group per task. -/
example : split 8 16 1 3 = some [(0, 1), (1, 1), (2, 1)] := by decide
example : split 2 (-1) 0 7 = some [(0, 3), (3, 2), (5, 2)] := by decide
example : split 2 3 4 6 = none := by decide

/-! ## C30: every schedule gives the sequential result -/

variable {α β ε : Type}

/-- The part of the invariant concerning task `t` in state `τ`. -/
structure TaskInv (op : α → Except ε β) (inputs : List α) (out : List (Option β)) (t : Task)
    (τ : TaskSt ε) : Prop where
  stop : τ.stop = t.1 + t.2
  lo : t.1 ≤ τ.cur
  hi : τ.cur ≤ τ.stop
  done : ∀ k, t.1 ≤ k → k < τ.cur → ∃ x y, inputs[k]? = some x ∧ op x = .ok y ∧ out[k]? = some (some y)
  err : ∀ e, τ.err = some e → τ.cur < τ.stop ∧ ∃ x, inputs[τ.cur]? = some x ∧ op x = .error e

structure Inv (op : α → Except ε β) (inputs : List α) (ts : List Task) (s : St β ε) : Prop where
  len : s.tasks.length = ts.length
  outlen : s.out.length = inputs.length
  task : ∀ (i : Nat) (t : Task) (τ : TaskSt ε), ts[i]? = some t → s.tasks[i]? = some τ →
    TaskInv op inputs s.out t τ

theorem inv_init (op : α → Except ε β) (inputs : List α) (ts : List Task) :
    Inv op inputs ts (init ts inputs.length) := by
  refine ⟨by simp [init], by simp [init], ?_⟩
  intro i t τ ht hτ
  simp only [init, List.getElem?_map, ht, Option.map_some, Option.some.injEq] at hτ
  subst hτ
  exact ⟨rfl, Nat.le_refl _, Nat.le_add_right _ _, fun k h1 h2 => by simp at h2; omega,
    fun e h => by simp at h⟩

theorem inv_step (op : α → Except ε β) (inputs : List α) (ts : List Task)
    (hc : Chain 0 ts inputs.length) (s : St β ε) (h : Inv op inputs ts s) (i : Nat) :
    Inv op inputs ts (step op inputs s i) := by
  unfold step
  split
  · exact h
  rename_i τ hτ
  split
  · exact h
  rename_i hfin
  split
  · exact h
  rename_i x hx
  have hi : i < ts.length := by
    rw [← h.len]; exact (List.getElem?_eq_some_iff.mp hτ).1
  obtain ⟨t, ht⟩ : ∃ t, ts[i]? = some t := ⟨ts[i], List.getElem?_eq_getElem hi⟩
  have ti := h.task i t τ ht hτ
  simp only [TaskSt.finished, Bool.or_eq_true, Option.isSome_iff_ne_none, decide_eq_true_eq,
    not_or, not_not, Nat.not_le] at hfin
  have hi' : i < s.tasks.length := by rw [h.len]; exact hi
  split
  · rename_i y hy
    refine ⟨by simpa using h.len, by simpa using h.outlen, ?_⟩
    intro j u υ hu hυ
    simp only at hυ ⊢
    rw [List.getElem?_set] at hυ
    split at hυ
    · rename_i hij
      subst hij
      injection hυ with hυ; subst hυ
      rw [ht] at hu; injection hu with hu; subst hu
      refine ⟨ti.stop, by have := ti.lo; simp only; omega, by simp only; omega, ?_, ?_⟩
      · intro k h1 h2
        simp only at h2
        rcases Nat.lt_or_ge k τ.cur with hk | hk
        · obtain ⟨x', y', h3, h4, h5⟩ := ti.done k h1 hk
          refine ⟨x', y', h3, h4, ?_⟩
          rw [List.getElem?_set_ne (by omega)]; exact h5
        · have : k = τ.cur := by omega
          subst this
          refine ⟨x, y, hx, hy, ?_⟩
          rw [List.getElem?_set_self]
          rw [h.outlen]; exact (List.getElem?_eq_some_iff.mp hx).1
      · intro e he
        simp only at he
        rw [hfin.1] at he; cases he
    · rename_i hij
      have tj := h.task j u υ hu hυ
      refine ⟨tj.stop, tj.lo, tj.hi, ?_, tj.err⟩
      intro k h1 h2
      obtain ⟨x', y', h3, h4, h5⟩ := tj.done k h1 h2
      refine ⟨x', y', h3, h4, ?_⟩
      rw [List.getElem?_set_ne]
      · exact h5
      · intro hkc
        subst hkc
        have a1 := tj.hi
        have a2 := tj.stop
        have a3 := ti.stop
        exact hij (hc.unique ht hu ti.lo (by omega) h1 (by omega))
  · rename_i e he
    refine ⟨by simpa using h.len, h.outlen, ?_⟩
    intro j u υ hu hυ
    simp only at hυ ⊢
    rw [List.getElem?_set] at hυ
    split at hυ
    · rename_i hij
      subst hij
      injection hυ with hυ; subst hυ
      rw [ht] at hu; injection hu with hu; subst hu
      refine ⟨ti.stop, ti.lo, ti.hi, ti.done, ?_⟩
      intro e' he'
      simp only [Option.some.injEq] at he'
      subst he'
      exact ⟨hfin.2, x, hx, he⟩
    · exact h.task j u υ hu hυ

theorem inv_run (op : α → Except ε β) (inputs : List α) (ts : List Task)
    (hc : Chain 0 ts inputs.length) : ∀ (sched : List Nat) (s : St β ε), Inv op inputs ts s →
      Inv op inputs ts (run op inputs s sched)
  | [], _, h => h
  | t :: sched, s, h => by
    simp only [run, List.foldl_cons]
    exact inv_run op inputs ts hc sched _ (inv_step op inputs ts hc s h t)

theorem seqMap_all_ok (op : α → Except ε β) : ∀ (inputs : List α) (out : List (Option β)),
    out.length = inputs.length →
    (∀ k, k < inputs.length → ∃ x y, inputs[k]? = some x ∧ op x = .ok y ∧ out[k]? = some (some y)) →
    ∃ ys, seqMap op inputs = .ok ys ∧ out = ys.map some
  | [], [], _, _ => ⟨[], rfl, rfl⟩
  | [], _ :: _, h, _ => by simp at h
  | _ :: _, [], h, _ => by simp at h
  | x :: xs, o :: os, h, hk => by
    obtain ⟨ys, h1, h2⟩ := seqMap_all_ok op xs os (by simpa using h) (fun k hk' => by
      simpa using hk (k + 1) (by simpa using hk'))
    obtain ⟨x', y, h3, h4, h5⟩ := hk 0 (by simp)
    simp at h3 h5
    subst h3
    refine ⟨y :: ys, ?_, ?_⟩
    · simp [seqMap, h4, h1]
    · simp [h5, h2]

theorem seqMap_first_err (op : α → Except ε β) : ∀ (inputs : List α) (c : Nat) (x : α) (e : ε),
    inputs[c]? = some x → op x = .error e →
    (∀ k, k < c → ∃ x y, inputs[k]? = some x ∧ op x = .ok y) → seqMap op inputs = .error e
  | [], _, _, _, h, _, _ => by simp at h
  | x :: xs, 0, x', e, h, he, _ => by
    simp at h; subst h; simp [seqMap, he]
  | x :: xs, c + 1, x', e, h, he, hk => by
    have ih := seqMap_first_err op xs c x' e (by simpa using h) he (fun k hk' => by
      simpa using hk (k + 1) (by omega))
    obtain ⟨x'', y, h3, h4⟩ := hk 0 (by omega)
    simp at h3; subst h3
    simp [seqMap, h4, ih]

/-- The result of the sequential loop, as the API returns it. -/
def seqResult (op : α → Except ε β) (inputs : List α) : Except ε (List (Option β)) :=
  match seqMap op inputs with
  | .ok ys => .ok (ys.map some)
  | .error e => .error e

theorem result_of_inv (op : α → Except ε β) (inputs : List α) (ts : List Task)
    (hc : Chain 0 ts inputs.length) (s : St β ε) (h : Inv op inputs ts s) (hf : allFinished s) :
    waitBulk s = seqResult op inputs := by
  have complete : ∀ (i : Nat) (t : Task) (τ : TaskSt ε), ts[i]? = some t → s.tasks[i]? = some τ →
      τ.err = none → ∀ k, t.1 ≤ k → k < t.1 + t.2 →
        ∃ x y, inputs[k]? = some x ∧ op x = .ok y ∧ s.out[k]? = some (some y) := by
    intro i t τ ht hτ herr k h1 h2
    have ti := h.task i t τ ht hτ
    have := hf τ (List.mem_of_getElem? hτ)
    simp only [TaskSt.finished, herr, Option.isSome_none, Bool.false_or, decide_eq_true_eq] at this
    exact ti.done k h1 (by have := ti.stop; omega)
  unfold waitBulk seqResult
  cases hfs : s.tasks.findSome? (·.err) with
  | none =>
    rw [List.findSome?_eq_none_iff] at hfs
    obtain ⟨ys, h1, h2⟩ := seqMap_all_ok op inputs s.out h.outlen (by
      intro k hk
      obtain ⟨i, t, ht, h3, h4⟩ := hc.exists k (Nat.zero_le _) hk
      have hi : i < s.tasks.length := by
        rw [h.len]; exact (List.getElem?_eq_some_iff.mp ht).1
      exact complete i t s.tasks[i] ht (List.getElem?_eq_getElem hi)
        (hfs _ (List.getElem_mem hi)) k h3 h4)
    simp only [h1, h2]
  | some e =>
    rw [List.findSome?_eq_some_iff] at hfs
    obtain ⟨l1, τ, l2, hl, he, hbefore⟩ := hfs
    have hτ : s.tasks[l1.length]? = some τ := by rw [hl]; simp
    have hi : l1.length < ts.length := by
      rw [← h.len]; exact (List.getElem?_eq_some_iff.mp hτ).1
    have ht : ts[l1.length]? = some ts[l1.length] := List.getElem?_eq_getElem hi
    have ti := h.task _ _ τ ht hτ
    obtain ⟨h1, x, hx, hopx⟩ := ti.err e he
    rw [seqMap_first_err op inputs τ.cur x e hx hopx]
    intro k hk
    have hkn : k < inputs.length := by
      have := (List.getElem?_eq_some_iff.mp hx).1; omega
    obtain ⟨j, u, hu, h3, h4⟩ := hc.exists k (Nat.zero_le _) hkn
    rcases Nat.lt_trichotomy j l1.length with hj | hj | hj
    · have hj' : j < s.tasks.length := by
        rw [h.len]; exact (List.getElem?_eq_some_iff.mp hu).1
      have hje : s.tasks[j]? = some l1[j] := by
        rw [hl, List.getElem?_append_left hj]; exact List.getElem?_eq_getElem hj
      obtain ⟨x', y', a, b, _⟩ := complete j u l1[j] hu hje
        (by simpa using hbefore _ (List.getElem_mem hj)) k h3 h4
      exact ⟨x', y', a, b⟩
    · subst hj
      rw [ht] at hu; injection hu with hu; subst hu
      obtain ⟨x', y', a, b, _⟩ := ti.done k h3 hk
      exact ⟨x', y', a, b⟩
    · have := hc.mono _ _ _ _ hj ht hu
      have := ti.stop
      omega

/-- **C30.**  For every input, every thread count and group size accepted, and every schedule
after which all tasks have finished, the parallel map returns what the sequential map returns:
the list of results in input order or the exception of the first element (in input order) on
which `op` raises. -/
theorem parallel_eq_sequential (op : α → Except ε β) (inputs : List α) (hne : inputs ≠ [])
    (poolThreads : Nat) (expt group : Int) (ts : List Task)
    (hs : split poolThreads expt group inputs.length = some ts) (sched : List Nat)
    (hf : allFinished (run op inputs (init ts inputs.length) sched)) :
    waitBulk (run op inputs (init ts inputs.length) sched) = seqResult op inputs := by
  have hn : 0 < inputs.length := List.length_pos_iff.mpr hne
  have hd : inputs.length % groups group = 0 := by
    by_contra hcon
    have : split poolThreads expt group inputs.length = none := by
      rw [split_rejects]; exact fun h' => hcon (Nat.mod_eq_zero_of_dvd h')
    rw [this] at hs; cases hs
  obtain ⟨ts', h', hc, _⟩ := split_partition poolThreads expt group _ hn hd
  rw [hs] at h'; injection h' with h'; subst h'
  exact result_of_inv op inputs ts hc _ (inv_run op inputs ts hc sched _ (inv_init op inputs ts)) hf

/-- Work left in a task. -/
def TaskSt.left (τ : TaskSt ε) : Nat := if τ.err.isSome then 0 else τ.stop - τ.cur

theorem step_left (op : α → Except ε β) (inputs : List α) (ts : List Task)
    (hc : Chain 0 ts inputs.length) (s : St β ε) (h : Inv op inputs ts s) (i j : Nat) (τ : TaskSt ε)
    (hτ : s.tasks[j]? = some τ) :
    ∃ τ', (step op inputs s i).tasks[j]? = some τ' ∧
      τ'.left ≤ τ.left - (if i = j then 1 else 0) := by
  have hj : j < s.tasks.length := (List.getElem?_eq_some_iff.mp hτ).1
  by_cases hij : i = j
  · subst hij
    rw [if_pos rfl]
    unfold step
    simp only [hτ]
    split
    · rename_i hfin
      refine ⟨τ, hτ, ?_⟩
      simp only [TaskSt.finished, Bool.or_eq_true, decide_eq_true_eq] at hfin
      unfold TaskSt.left
      split
      · omega
      · rcases hfin with h1 | h1
        · simp_all
        · omega
    · rename_i hfin
      have hi : i < ts.length := by rw [← h.len]; exact hj
      have ti := h.task i _ τ (List.getElem?_eq_getElem hi) hτ
      have hb := hc.bounds i _ (List.getElem?_eq_getElem hi)
      simp only [TaskSt.finished, Bool.or_eq_true, Option.isSome_iff_ne_none, decide_eq_true_eq,
        not_or, not_not, Nat.not_le] at hfin
      have hcn : τ.cur < inputs.length := by have := ti.stop; omega
      rw [List.getElem?_eq_getElem hcn]
      simp only
      split
      · refine ⟨_, List.getElem?_set_self hj, ?_⟩
        simp only [TaskSt.left, hfin.1, Option.isSome_none, Bool.false_eq_true, if_false]
        omega
      · refine ⟨_, List.getElem?_set_self hj, ?_⟩
        simp [TaskSt.left]
  · rw [if_neg hij]
    refine ⟨τ, ?_, Nat.le_refl _⟩
    unfold step
    split
    · exact hτ
    split
    · exact hτ
    split
    · exact hτ
    split
    · simp only; rw [List.getElem?_set_ne hij]; exact hτ
    · simp only; rw [List.getElem?_set_ne hij]; exact hτ

theorem run_left (op : α → Except ε β) (inputs : List α) (ts : List Task)
    (hc : Chain 0 ts inputs.length) (j : Nat) :
    ∀ (sched : List Nat) (s : St β ε), Inv op inputs ts s → ∀ τ, s.tasks[j]? = some τ →
      ∃ τ', (run op inputs s sched).tasks[j]? = some τ' ∧ τ'.left ≤ τ.left - sched.count j
  | [], s, _, τ, hτ => ⟨τ, hτ, by simp⟩
  | i :: sched, s, h, τ, hτ => by
    obtain ⟨τ', h1, h2⟩ := step_left op inputs ts hc s h i j τ hτ
    obtain ⟨τ'', h3, h4⟩ := run_left op inputs ts hc j sched _ (inv_step op inputs ts hc s h i) τ' h1
    refine ⟨τ'', h3, ?_⟩
    rw [List.count_cons]
    by_cases hij : i = j
    · subst hij; simp at h2 ⊢; omega
    · simp [hij] at h2 ⊢; omega

/-- Every schedule that gives each task enough turns (its number of elements) finishes all tasks,
so the hypothesis of `parallel_eq_sequential` is met by every fair schedule. -/
theorem fair_schedule_finishes (op : α → Except ε β) (inputs : List α) (ts : List Task)
    (hc : Chain 0 ts inputs.length) (sched : List Nat)
    (hfair : ∀ (i : Nat) (t : Task), ts[i]? = some t → t.2 ≤ sched.count i) :
    allFinished (run op inputs (init ts inputs.length) sched) := by
  intro τ hτ
  obtain ⟨j, hj, hjτ⟩ := List.getElem_of_mem hτ
  have hinv := inv_run op inputs ts hc sched _ (inv_init (β := β) op inputs ts)
  have hj' : j < ts.length := by rw [← hinv.len]; exact hj
  have h0 : (init (β := β) (ε := ε) ts inputs.length).tasks[j]? =
      some { cur := ts[j].1, stop := ts[j].1 + ts[j].2, err := none } := by
    simp [init, hj']
  obtain ⟨τ', h1, h2⟩ := run_left op inputs ts hc j sched _ (inv_init (β := β) op inputs ts) _ h0
  rw [List.getElem?_eq_getElem hj, hjτ] at h1
  injection h1 with h1; subst h1
  have hf := hfair j ts[j] (List.getElem?_eq_getElem hj')
  simp only [TaskSt.left, Option.isSome_none, Bool.false_eq_true, if_false] at h2
  simp only [TaskSt.finished, Bool.or_eq_true, decide_eq_true_eq]
  split at h2
  · left; assumption
  · right; omega

/-- Two schedules of `x ↦ 10 / x` over five elements on two threads. -/
example :
    let op : Nat → Except String Nat := fun x => if x = 0 then .error "zero" else .ok (10 / x)
    split 1 (-1) 1 5 = some [(0, 3), (3, 2)] ∧
    waitBulk (run op [1, 2, 5, 10, 3] (init [(0, 3), (3, 2)] 5) [1, 0, 0, 1, 0]) =
      .ok [some 10, some 5, some 2, some 1, some 3] ∧
    waitBulk (run op [1, 2, 0, 0, 3] (init [(0, 3), (3, 2)] 5) [1, 1, 0, 0, 0]) =
      .error "zero" := by
  refine ⟨by decide, by rfl, by rfl⟩

end Verif.ParallelFor
