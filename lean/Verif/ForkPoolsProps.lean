import Verif.ForkPools

/-! Thread pools across a fork (C140). -/
namespace Verif.ForkPools

/-! ### The two phases -/

theorem before_sess : ∀ (op : Option Op) (l : List Sess), (beforeAll op l).2 = l.map fun x => { x with pool := none }
  | _, [] => rfl
  | op, x :: l => by
    simp only [beforeAll, before_sess, List.map_cons, List.cons.injEq, and_true]
    unfold beforeOne
    obtain ⟨n, b, p⟩ := x
    cases p <;> simp

theorem beforeOne_threads (op : Option Op) (x : Sess) : (beforeOne op x).1.map Op.threads = op.map Op.threads := by
  unfold beforeOne
  repeat' split
  all_goals cases op <;> rfl

theorem before_threads : ∀ (op : Option Op) (l : List Sess), (beforeAll op l).1.map Op.threads = op.map Op.threads
  | _, [] => rfl
  | op, x :: l => by simp only [beforeAll, before_threads, beforeOne_threads]

theorem beforeOne_none (op : Option Op) (x : Sess) (h : op.bind Op.pool = none) :
    (beforeOne op x).1.bind Op.pool = none := by
  unfold beforeOne
  repeat' split
  all_goals first | exact h | (cases op <;> rfl)

theorem before_none : ∀ (op : Option Op) (l : List Sess), op.bind Op.pool = none →
    (beforeAll op l).1.bind Op.pool = none
  | _, [], h => h
  | op, x :: l, h => by simp only [beforeAll]; exact before_none _ l (beforeOne_none op x h)

theorem before_drop : ∀ (op : Option Op) (l : List Sess), (∃ x ∈ l, x.share = true ∧ x.pool.isSome = true) →
    (beforeAll op l).1.bind Op.pool = none
  | _, [], h => by simp at h
  | op, x :: l, h => by
    simp only [beforeAll]
    obtain ⟨y, hy, h1, h2⟩ := h
    rcases List.mem_cons.1 hy with rfl | hy
    · refine before_none _ l ?_
      unfold beforeOne
      rw [if_pos h2, if_pos h1]
      cases op <;> rfl
    · exact before_drop _ l ⟨y, hy, h1, h2⟩

theorem afterOne_threads (n : Nat) (op : Option Op) (x : Sess) :
    (afterOne n op x).2.1.map Op.threads = op.map Op.threads := by
  unfold afterOne
  repeat' split
  all_goals rfl

theorem after_get : ∀ (l : List Sess) (n : Nat) (op : Option Op) (i : Nat) (x : Sess), l[i]? = some x →
    ∃ y, (afterAll n op l).2.2[i]? = some y ∧ y.nums = x.nums ∧ y.share = x.share ∧
      y.threads = if 0 < x.nums then (if x.share then (op.map Op.threads).getD x.threads else x.nums.toNat)
        else x.threads
  | [], _, _, _, _, h => by simp at h
  | a :: l, n, op, 0, x, h => by
    simp only [List.getElem?_cons_zero, Option.some.injEq] at h
    subst h
    simp only [afterAll, List.getElem?_cons_zero, Option.some.injEq, exists_eq_left']
    unfold afterOne
    by_cases h1 : 0 < a.nums
    · cases h2 : a.share
      · simp [h1, h2, Sess.threads]
      · cases op <;> simp [h1, h2, Sess.threads]
    · simp [h1]
  | a :: l, n, op, i + 1, x, h => by
    simp only [List.getElem?_cons_succ] at h
    obtain ⟨y, h1, h2, h3, h4⟩ := after_get l (afterOne n op a).1 (afterOne n op a).2.1 i x h
    rw [afterOne_threads] at h4
    exact ⟨y, by simpa only [afterAll, List.getElem?_cons_succ] using h1, h2, h3, h4⟩

/-- C140: what a session has after a fork is determined by its options and by the op that is in the cache. -/
theorem fork_threads (s : St) (i : Nat) (x : Sess) (h : s.sess[i]? = some x) :
    ∃ y, (step s .fork).sess[i]? = some y ∧ y.nums = x.nums ∧ y.share = x.share ∧
      y.threads = if 0 < x.nums then (if x.share then (s.op.map Op.threads).getD 0 else x.nums.toNat) else 0 := by
  have hb : (before s).sess[i]? = some { x with pool := none } := by
    simp only [before, before_sess, List.getElem?_map, h, Option.map_some]
  obtain ⟨y, h1, h2, h3, h4⟩ := after_get _ s.next (before s).op i _ hb
  refine ⟨y, h1, h2, h3, ?_⟩
  rw [h4]
  simp only [before, before_threads]
  rfl

/-! ### Sessions that do not share -/

/-- Actions of sessions that have pools, with numbers of threads that are accepted. -/
def Act.fine : Act → Prop
  | .create num _ => num < 256
  | .createOff _ => False
  | .set _ num _ => num < 256
  | _ => True

def Sess.fine (x : Sess) : Prop := x.threads = if 0 < x.nums then x.nums.toNat else 0

theorem setOne_fine (n : Nat) (x : Sess) (num : Int) (share : Bool) (h : num < 256) :
    (setOne n x num share).2.2.fine ∧ (setOne n x num share).2.2.share = share ∧
    (share = true → 0 < (setOne n x num share).2.2.nums →
      (setOne n x num share).2.1.map Op.threads = some (setOne n x num share).2.2.nums.toNat) := by
  unfold setOne Sess.fine
  by_cases h0 : num ≥ 0
  · by_cases h1 : num = 0
    · subst h1; cases share <;> simp [Sess.threads]
    · have : 0 < num := by omega
      cases share <;> simp [Sess.threads, h0, h1, h, this]
  · simp [h0, Sess.threads]

def Own (s : St) : Prop := ∀ (i : Nat) (x : Sess), s.sess[i]? = some x → x.share = false → x.fine

theorem own_step (s : St) (a : Act) (ha : a.fine) (h : Own s) : Own (step s a) := by
  intro i y hy hs
  cases a with
  | create num share =>
    simp only [step] at hy
    rw [List.getElem?_append] at hy
    split at hy
    · exact h i y hy hs
    · have := List.mem_of_getElem? hy
      simp only [List.mem_singleton] at this
      subst this
      exact (setOne_fine _ _ _ _ (by simp only [Act.fine] at ha; split <;> omega)).1
  | createOff share => exact ha.elim
  | set k num share =>
    simp only [step] at hy
    cases hk : s.sess[k]? with
    | none => rw [hk] at hy; exact h i y hy hs
    | some x =>
      rw [hk] at hy
      simp only at hy
      rw [List.getElem?_set] at hy
      split at hy
      · split at hy
        · simp only [Option.some.injEq] at hy
          subst hy
          exact (setOne_fine _ _ _ _ ha).1
        · cases hy
      · exact h i y hy hs
  | close k =>
    simp only [step] at hy
    rw [List.getElem?_eraseIdx] at hy
    split at hy
    · exact h _ y hy hs
    · exact h _ y hy hs
  | fork =>
    cases hx : s.sess[i]? with
    | none =>
      have hl : ∀ (l : List Sess) n op, (afterAll n op l).2.2.length = l.length := by
        intro l
        induction l with
        | nil => intros; rfl
        | cons a l ih => intro n op; simp [afterAll, ih]
      have : (step s .fork).sess.length = s.sess.length := by
        simp only [step, after, hl, before, before_sess, List.length_map]
      have h1 := List.getElem?_eq_none_iff.1 hx
      rw [List.getElem?_eq_none_iff.2 (by omega)] at hy
      cases hy
    | some x =>
      obtain ⟨z, h1, h2, h3, h4⟩ := fork_threads s i x hx
      rw [h1] at hy
      cases hy
      rw [h3] at hs
      unfold Sess.fine
      rw [h4, h2, hs]
      simp

theorem own_run (acts : List Act) (ha : ∀ a ∈ acts, a.fine) : ∀ s, Own s → Own (run s acts) := by
  induction acts with
  | nil => exact fun s h => h
  | cons a acts ih =>
    intro s h
    exact ih (fun b hb => ha b (by simp [hb])) _ (own_step s a (ha a (by simp)) h)

/-- C140: whatever sessions do, a session that does not share its pool has after a fork, in both processes, a pool with
as many threads as before. -/
theorem keeps_partial (acts : List Act) (ha : ∀ a ∈ acts, a.fine) (i : Nat) (x : Sess)
    (h : (run init acts).sess[i]? = some x) (hs : x.share = false) :
    ∃ y, (step (run init acts) .fork).sess[i]? = some y ∧ y.threads = x.threads := by
  obtain ⟨y, h1, _, _, h4⟩ := fork_threads _ i x h
  refine ⟨y, h1, ?_⟩
  have : x.fine := own_run acts ha init (fun i x h => by simp [init] at h) i x h hs
  rw [h4, hs, this]
  simp

/-! ### A session alone with its name -/

def Alone (s : St) : Prop :=
  ∃ x, s.sess = [x] ∧ x.fine ∧ (x.share = true → 0 < x.nums → s.op.map Op.threads = some x.nums.toNat)

def Act.single : Act → Prop
  | .set i num _ => i = 0 ∧ num < 256
  | .fork => True
  | _ => False

theorem alone_fork (s : St) (h : Alone s) : ∃ x y, s.sess = [x] ∧ (step s .fork).sess = [y] ∧ y.threads = x.threads ∧
    Alone (step s .fork) := by
  obtain ⟨x, hx, hf, ho⟩ := h
  obtain ⟨y, h1, h2, h3, h4⟩ := fork_threads s 0 x (by simp [hx])
  have hy : (step s .fork).sess = [y] := by
    have e : ∃ z, (step s .fork).sess = [z] := by
      simp only [step, after, before, before_sess, hx, List.map_cons, List.map_nil, afterAll]
      exact ⟨_, rfl⟩
    obtain ⟨z, e⟩ := e
    rw [e] at h1 ⊢
    simpa using h1
  have ht : y.threads = x.threads := by
    rw [h4, hf]
    split
    · cases hs : x.share
      · simp
      · rw [ho hs (by assumption)]; simp
    · rfl
  have hop : (step s .fork).op.map Op.threads = s.op.map Op.threads := by
    have : ∀ (l : List Sess) n op, (afterAll n op l).2.1.map Op.threads = op.map Op.threads := by
      intro l
      induction l with
      | nil => intros; rfl
      | cons a l ih => intro n op; simp only [afterAll, ih, afterOne_threads]
    simp only [step, after, this, before, before_threads]
  refine ⟨x, y, hx, hy, ht, y, hy, ?_, ?_⟩
  · unfold Sess.fine; rw [ht, hf, h2]
  · rw [h2, h3, hop]; exact ho

theorem alone_run (acts : List Act) (ha : ∀ a ∈ acts, a.single) : ∀ s, Alone s → Alone (run s acts) := by
  induction acts with
  | nil => exact fun s h => h
  | cons a acts ih =>
    intro s h
    refine ih (fun b hb => ha b (by simp [hb])) _ ?_
    have hs := ha a (by simp)
    cases a with
    | set i num share =>
      obtain ⟨rfl, hn⟩ := hs
      obtain ⟨x, hx, _, _⟩ := h
      obtain ⟨h1, h2, h3⟩ := setOne_fine s.next x num share hn
      simp only [step, hx, List.getElem?_cons_zero, List.set_cons_zero]
      exact ⟨_, rfl, h1, fun e => h3 (h2 ▸ e)⟩
    | fork => obtain ⟨_, _, _, _, _, h⟩ := alone_fork s h; exact h
    | create _ _ => exact hs.elim
    | createOff _ => exact hs.elim
    | close _ => exact hs.elim

/-- C140: a session that is alone with its name keeps its number of threads, shared or not. -/
theorem single_partial (num : Int) (hn : num < 256) (share : Bool) (acts : List Act) (ha : ∀ a ∈ acts, a.single) :
    ∃ x y, (run init (.create num share :: acts)).sess = [x] ∧
      (step (run init (.create num share :: acts)) .fork).sess = [y] ∧ y.threads = x.threads := by
  have h0 : Alone (step init (.create num share)) := by
    obtain ⟨h1, h2, h3⟩ := setOne_fine 0 ⟨2, false, none⟩ (if num > 0 then num else 0) share (by split <;> omega)
    exact ⟨_, rfl, h1, fun e => h3 (h2 ▸ e)⟩
  obtain ⟨x, y, h1, h2, h3, _⟩ := alone_fork _ (alone_run acts ha _ h0)
  exact ⟨x, y, h1, h2, h3⟩

/-! ### No threads at the moment of the fork -/

def Act.noClose : Act → Prop
  | .close _ => False
  | _ => True

def Held (s : St) : Prop :=
  (s.op.bind Op.pool).isSome = true → ∃ x ∈ s.sess, x.share = true ∧ x.pool.isSome = true

theorem after_held : ∀ (l : List Sess) (n : Nat) (op : Option Op),
    ((afterAll n op l).2.1.bind Op.pool).isSome = true → (op.bind Op.pool).isSome = true ∨
      ∃ x ∈ (afterAll n op l).2.2, x.share = true ∧ x.pool.isSome = true
  | [], _, _, h => .inl h
  | a :: l, n, op, h => by
    simp only [afterAll] at h ⊢
    rcases after_held l _ _ h with h' | ⟨x, hx, h'⟩
    · revert h'
      unfold afterOne
      split
      · cases hs : a.share
        · simp only [Bool.false_eq_true, if_false]
          exact fun h' => .inl h'
        · cases op with
          | none => simp
          | some o => intro _; right; exact ⟨_, List.mem_cons_self, rfl, rfl⟩
      · exact fun h' => .inl h'
    · exact .inr ⟨x, List.mem_cons_of_mem _ hx, h'⟩

theorem before_op (s : St) (h : Held s) : (before s).op.bind Op.pool = none := by
  cases e : s.op.bind Op.pool with
  | none => exact before_none _ _ e
  | some p => exact before_drop _ _ (h (by rw [e]; rfl))

theorem setOne_held (n : Nat) (x : Sess) (num : Int) (share : Bool)
    (h : ((setOne n x num share).2.1.bind Op.pool).isSome = true) :
    (setOne n x num share).2.2.share = true ∧ (setOne n x num share).2.2.pool.isSome = true := by
  revert h
  unfold setOne
  by_cases h0 : num ≥ 0
  · simp only [h0, if_true]
    generalize (if num = 0 then 2 else num) = m
    split
    · cases share <;> simp
    · intro h; cases h
  · simp only [h0, if_false]
    intro h; cases h

theorem held_step (s : St) (a : Act) (ha : a.noClose) (h : Held s) : Held (step s a) := by
  cases a with
  | create num share =>
    intro ho
    exact ⟨_, List.mem_append_right _ (List.mem_singleton_self _), setOne_held _ _ _ _ ho⟩
  | createOff share =>
    intro ho
    obtain ⟨x, hx, h1⟩ := h ho
    exact ⟨x, List.mem_append_left _ hx, h1⟩
  | set k num share =>
    unfold Held
    simp only [step]
    cases hk : s.sess[k]? with
    | none => exact h
    | some x =>
      intro ho
      have hlt : k < s.sess.length := (List.getElem?_eq_some_iff.1 hk).1
      exact ⟨_, List.mem_of_getElem? (i := k) (by simp [hlt]), setOne_held _ _ _ _ ho⟩
  | close k => exact ha.elim
  | fork =>
    intro ho
    rcases after_held _ _ _ ho with h1 | h1
    · rw [before_op s h] at h1; cases h1
    · exact h1

/-- C140: as long as no session is closed, no pool exists at the moment of a fork. -/
theorem quiet_partial (acts : List Act) (ha : ∀ a ∈ acts, a.noClose) : (before (run init acts)).live = [] := by
  have key : ∀ (acts : List Act), (∀ a ∈ acts, a.noClose) → ∀ s, Held s → Held (run s acts) := by
    intro acts
    induction acts with
    | nil => exact fun _ s h => h
    | cons a acts ih =>
      intro ha s h
      exact ih (fun b hb => ha b (by simp [hb])) _ (held_step s a (ha a (by simp)) h)
  have := before_op _ (key acts ha init (fun h => by simp [init] at h))
  unfold St.live
  rw [this]
  simp only [before, before_sess, List.filterMap_map, Option.toList_none, List.append_nil]
  rw [List.filterMap_eq_nil_iff]
  intro x _
  rfl

/-! ### Sharing -/

/-- Different sessions have different pools. -/
def Apart (s : St) : Prop :=
  (∀ (i : Nat) (x : Sess) (p : Pool), s.sess[i]? = some x → x.pool = some p → p.id < s.next) ∧
  ∀ (i j : Nat) (x y : Sess) (p q : Pool), i ≠ j → s.sess[i]? = some x → s.sess[j]? = some y → x.pool = some p →
    y.pool = some q → p.id ≠ q.id

theorem setOne_pool (n : Nat) (x : Sess) (num : Int) (share : Bool) :
    n ≤ (setOne n x num share).1 ∧ ∀ p, (setOne n x num share).2.2.pool = some p →
      (p.id = n ∧ n < (setOne n x num share).1) ∨ x.pool = some p := by
  unfold setOne
  by_cases h0 : num ≥ 0
  · simp only [h0, if_true]
    generalize (if num = 0 then 2 else num) = m
    split
    · cases share
      · simp only [Bool.false_eq_true, if_false]
        exact ⟨by omega, fun p hp => by cases hp; exact .inl ⟨rfl, by omega⟩⟩
      · simp only [if_true]
        exact ⟨by omega, fun p hp => by cases hp; exact .inl ⟨rfl, by omega⟩⟩
    · exact ⟨Nat.le_refl _, fun p hp => .inr hp⟩
  · simp only [h0, if_false]
    exact ⟨Nat.le_refl _, fun p hp => by cases hp⟩

theorem afterOne_pool (n : Nat) (op : Option Op) (x : Sess) (hx : x.pool = none) :
    n ≤ (afterOne n op x).1 ∧ ∀ p, (afterOne n op x).2.2.pool = some p → p.id = n ∧ n < (afterOne n op x).1 := by
  unfold afterOne
  split
  · cases x.share with
    | false =>
      simp only [Bool.false_eq_true, if_false]
      exact ⟨by omega, fun p hp => by cases hp; exact ⟨rfl, by omega⟩⟩
    | true =>
      simp only [if_true]
      cases op with
      | none => exact ⟨Nat.le_refl _, fun p hp => by simp [hx] at hp⟩
      | some o => exact ⟨by simp, fun p hp => by simp only [Option.some.injEq] at hp; subst hp; exact ⟨rfl, by simp⟩⟩
  · exact ⟨Nat.le_refl _, fun p hp => by simp [hx] at hp⟩

theorem after_pools : ∀ (l : List Sess), (∀ x ∈ l, x.pool = none) → ∀ (n : Nat) (op : Option Op),
    n ≤ (afterAll n op l).1 ∧
    (∀ (i : Nat) (x : Sess) (p : Pool), (afterAll n op l).2.2[i]? = some x → x.pool = some p →
      n ≤ p.id ∧ p.id < (afterAll n op l).1) ∧
    ∀ (i j : Nat) (x y : Sess) (p q : Pool), i < j → (afterAll n op l).2.2[i]? = some x →
      (afterAll n op l).2.2[j]? = some y → x.pool = some p → y.pool = some q → p.id < q.id
  | [], _, n, op => by simp [afterAll]
  | a :: l, h, n, op => by
    obtain ⟨a1, a2⟩ := afterOne_pool n op a (h a (by simp))
    obtain ⟨b1, b2, b3⟩ := after_pools l (fun x hx => h x (by simp [hx])) (afterOne n op a).1 (afterOne n op a).2.1
    simp only [afterAll]
    refine ⟨by omega, ?_, ?_⟩
    · intro i x p hx hp
      cases i with
      | zero =>
        simp only [List.getElem?_cons_zero, Option.some.injEq] at hx
        subst hx
        have := a2 p hp
        omega
      | succ i =>
        simp only [List.getElem?_cons_succ] at hx
        have := b2 i x p hx hp
        omega
    · intro i j x y p q hij hx hy hp hq
      cases j with
      | zero => omega
      | succ j =>
        simp only [List.getElem?_cons_succ] at hy
        cases i with
        | zero =>
          simp only [List.getElem?_cons_zero, Option.some.injEq] at hx
          subst hx
          have := a2 p hp
          have := b2 j y q hy hq
          omega
        | succ i =>
          simp only [List.getElem?_cons_succ] at hx
          exact b3 i j x y p q (by omega) hx hy hp hq

theorem apart_step (s : St) (a : Act) (h : Apart s) : Apart (step s a) := by
  obtain ⟨h1, h2⟩ := h
  have app : ∀ (z : Sess) (i : Nat) (x : Sess), (s.sess ++ [z])[i]? = some x →
      s.sess[i]? = some x ∨ (i = s.sess.length ∧ x = z) := by
    intro z i x hx
    rw [List.getElem?_append] at hx
    split at hx
    · exact .inl hx
    · right
      have : i - s.sess.length = 0 := by
        have := (List.getElem?_eq_some_iff.1 hx).1
        simpa using this
      rw [this] at hx
      simp only [List.getElem?_cons_zero, Option.some.injEq] at hx
      exact ⟨by omega, hx.symm⟩
  cases a with
  | create num share =>
    obtain ⟨c1, c2⟩ := setOne_pool s.next ⟨2, false, none⟩ (if num > 0 then num else 0) share
    constructor
    · intro i x p hx hp
      rcases app _ i x hx with hx | ⟨_, rfl⟩
      · exact Nat.lt_of_lt_of_le (h1 i x p hx hp) c1
      · rcases c2 p hp with h | h
        · exact h.1 ▸ h.2
        · cases h
    · intro i j x y p q hij hx hy hp hq
      rcases app _ i x hx with hx | ⟨ei, rfl⟩ <;> rcases app _ j y hy with hy | ⟨ej, rfl⟩
      · exact h2 i j x y p q hij hx hy hp hq
      · rcases c2 q hq with h | h
        · have := h1 i x p hx hp; omega
        · cases h
      · rcases c2 p hp with h | h
        · have := h1 j y q hy hq; omega
        · cases h
      · omega
  | createOff share =>
    constructor
    · intro i x p hx hp
      rcases app _ i x hx with hx | ⟨_, rfl⟩
      · exact h1 i x p hx hp
      · cases hp
    · intro i j x y p q hij hx hy hp hq
      rcases app _ i x hx with hx | ⟨ei, rfl⟩
      · rcases app _ j y hy with hy | ⟨ej, rfl⟩
        · exact h2 i j x y p q hij hx hy hp hq
        · cases hq
      · cases hp
  | set k num share =>
    unfold Apart
    simp only [step]
    cases hk : s.sess[k]? with
    | none => exact ⟨h1, h2⟩
    | some z =>
      obtain ⟨c1, c2⟩ := setOne_pool s.next z num share
      have get : ∀ (i : Nat) (x : Sess), (s.sess.set k (setOne s.next z num share).2.2)[i]? = some x →
          (i ≠ k ∧ s.sess[i]? = some x) ∨ (i = k ∧ x = (setOne s.next z num share).2.2) := by
        intro i x hx
        rw [List.getElem?_set] at hx
        split at hx
        · rename_i e
          split at hx
          · simp only [Option.some.injEq] at hx; exact .inr ⟨e.symm, hx.symm⟩
          · cases hx
        · rename_i e; exact .inl ⟨fun x => e x.symm, hx⟩
      constructor
      · intro i x p hx hp
        rcases get i x hx with ⟨_, hx⟩ | ⟨_, rfl⟩
        · exact Nat.lt_of_lt_of_le (h1 i x p hx hp) c1
        · rcases c2 p hp with h | h
          · exact h.1 ▸ h.2
          · exact Nat.lt_of_lt_of_le (h1 k z p hk h) c1
      · intro i j x y p q hij hx hy hp hq
        rcases get i x hx with ⟨ei, hx⟩ | ⟨ei, rfl⟩ <;> rcases get j y hy with ⟨ej, hy⟩ | ⟨ej, rfl⟩
        · exact h2 i j x y p q hij hx hy hp hq
        · rcases c2 q hq with h | h
          · have := h1 i x p hx hp; omega
          · exact h2 i k x z p q ei hx hk hp h
        · rcases c2 p hp with h | h
          · have := h1 j y q hy hq; omega
          · exact h2 k j z y p q (Ne.symm ej) hk hy h hq
        · omega
  | close k =>
    have get : ∀ (i : Nat) (x : Sess), (s.sess.eraseIdx k)[i]? = some x →
        s.sess[if i < k then i else i + 1]? = some x := by
      intro i x hx
      rw [List.getElem?_eraseIdx] at hx
      split at hx <;> rename_i e <;> simp only [e, if_true, if_false] <;> exact hx
    constructor
    · intro i x p hx hp
      exact h1 _ x p (get i x hx) hp
    · intro i j x y p q hij hx hy hp hq
      refine h2 _ _ x y p q ?_ (get i x hx) (get j y hy) hp hq
      split <;> split <;> omega
  | fork =>
    have hb : ∀ x ∈ (before s).sess, x.pool = none := by
      intro x hx
      simp only [before, before_sess, List.mem_map] at hx
      obtain ⟨y, _, rfl⟩ := hx
      rfl
    obtain ⟨_, b2, b3⟩ := after_pools _ hb s.next (before s).op
    constructor
    · intro i x p hx hp
      exact (b2 i x p hx hp).2
    · intro i j x y p q hij hx hy hp hq
      rcases Nat.lt_or_gt_of_ne hij with h | h
      · exact Nat.ne_of_lt (b3 i j x y p q h hx hy hp hq)
      · exact Nat.ne_of_gt (b3 j i y x q p h hy hx hq hp)

/-- C140: sessions never share a pool, whatever their options: each call makes its own. -/
theorem share_refuted (acts : List Act) (i j : Nat) (x y : Sess) (p q : Pool) (hij : i ≠ j)
    (hx : (run init acts).sess[i]? = some x) (hy : (run init acts).sess[j]? = some y) (hp : x.pool = some p)
    (hq : y.pool = some q) : p ≠ q := by
  have key : ∀ (acts : List Act) s, Apart s → Apart (run s acts) := by
    intro acts
    induction acts with
    | nil => exact fun s h => h
    | cons a acts ih => exact fun s h => ih _ (apart_step s a h)
  have h := (key acts init ⟨fun i x p hx => by simp [init] at hx, fun i j x y p q _ hx => by simp [init] at hx⟩).2
    i j x y p q hij hx hy hp hq
  rintro rfl
  exact h rfl

/-- C140: setting the number of threads gives that number, two for zero and none for a negative number. -/
theorem set_threads (s : St) (i : Nat) (x : Sess) (h : s.sess[i]? = some x) (num : Int) (share : Bool) (hn : num < 256) :
    ∃ y, (step s (.set i num share)).sess[i]? = some y ∧ y.share = share ∧
      y.threads = if num = 0 then 2 else num.toNat := by
  have hlt : i < s.sess.length := (List.getElem?_eq_some_iff.1 h).1
  refine ⟨(setOne s.next x num share).2.2, by simp only [step, h]; rw [List.getElem?_set_self hlt], (setOne_fine _ _ _ _ hn).2.1, ?_⟩
  unfold setOne
  by_cases h0 : num ≥ 0
  · by_cases h1 : num = 0
    · subst h1; cases share <;> simp [Sess.threads]
    · cases share <;> simp [Sess.threads, h0, h1, hn]
  · have h1 : num ≠ 0 := by omega
    simp [h0, h1, Sess.threads]; omega

/-! ### Where it fails -/

/-- C140 fails for shared pools: after a fork the first of two sessions has the number of threads of the second. -/
theorem count_refuted (n m : Nat) (hn : 0 < n ∧ n < 256) (hm : 0 < m ∧ m < 256) :
    (run init [.create n true, .create m true]).sess.map Sess.threads = [n, m] ∧
    (run init [.create n true, .create m true, .fork]).sess.map Sess.threads = [m, m] := by
  have h1 : (n : Int) > 0 := by omega
  have h2 : (m : Int) > 0 := by omega
  have h3 : (n : Int) < 256 := by omega
  have h4 : (m : Int) < 256 := by omega
  have h5 : n ≠ 0 := by omega
  have h6 : m ≠ 0 := by omega
  simp [run, step, init, setOne, before, after, beforeAll, afterAll, beforeOne, afterOne, Sess.threads, hn.1, hm.1, h3, h4,
    h5, h6]

/-- C140 fails when another session of the same name does not share: the first one has no pool after a fork. -/
theorem lost_refuted (n m : Nat) (hn : 0 < n ∧ n < 256) (hm : 0 < m ∧ m < 256) :
    (run init [.create n true, .create m false]).sess.map Sess.threads = [n, m] ∧
    (run init [.create n true, .create m false, .fork]).sess.map Sess.threads = [0, m] := by
  have h3 : (n : Int) < 256 := by omega
  have h4 : (m : Int) < 256 := by omega
  have h5 : n ≠ 0 := by omega
  have h6 : m ≠ 0 := by omega
  simp [run, step, init, setOne, before, after, beforeAll, afterAll, beforeOne, afterOne, Sess.threads, hn.1, hm.1, h3, h4,
    h5, h6]

/-- C140 fails for a session made without a pool: it has one with two threads after a fork. -/
theorem off_refuted :
    (run init [.createOff false]).sess.map Sess.threads = [0] ∧
    (run init [.createOff false, .fork]).sess.map Sess.threads = [2] := by decide

/-- C140 fails after a number of threads was rejected: the fork makes a pool of that number. -/
theorem rejected_refuted (n m : Nat) (hn : 0 < n ∧ n < 256) (hm : 256 ≤ m) :
    (run init [.create n false, .set 0 m false]).sess.map Sess.threads = [n] ∧
    (run init [.create n false, .set 0 m false, .fork]).sess.map Sess.threads = [m] := by
  have h3 : (n : Int) < 256 := by omega
  have h4 : ¬ (m : Int) < 256 := by omega
  have h5 : n ≠ 0 := by omega
  have h6 : m ≠ 0 := by omega
  have h7 : 0 < m := by omega
  simp [run, step, init, setOne, before, after, beforeAll, afterAll, beforeOne, afterOne, Sess.threads, hn.1, h3, h4,
    h5, h6, h7]

/-- C140 fails after a session that shared was closed while another of the name lives on: its pool exists at the moment
of the fork. -/
theorem quiet_refuted (n m : Nat) (hn : 0 < n ∧ n < 256) (hm : 0 < m ∧ m < 256) :
    (before (run init [.create n false, .create m true, .close 1])).live = [⟨1, m⟩] := by
  have h3 : (n : Int) < 256 := by omega
  have h4 : (m : Int) < 256 := by omega
  have h5 : n ≠ 0 := by omega
  have h6 : m ≠ 0 := by omega
  simp [run, step, init, setOne, before, beforeAll, beforeOne, St.live, hn.1, hm.1, h3, h4, h5, h6]

/-! ### Tasks in Python -/

/-- C140: taking back a registered handle takes back that handle. -/
theorem unregister_partial (tasks : List Nat) (h : Nat) (hm : h ∈ tasks) : unregister tasks h = tasks.erase h := by
  unfold unregister
  cases tasks with
  | nil => rfl
  | cons a l => simp only [hm, if_true]; rw [List.erase_eq_eraseIdx_of_idxOf rfl]

/-- C140 fails for other handles: the last task is taken back. -/
theorem unregister_refuted (tasks : List Nat) (h : Nat) (hm : h ∉ tasks) : unregister tasks h = tasks.dropLast := by
  unfold unregister
  cases tasks with
  | nil => rfl
  | cons a l => simp only [hm, if_false]; exact List.eraseIdx_eq_dropLast (by simp)

/-- Two sessions without sharing, changes and two forks. -/
example : (run init [.create 4 false, .fork, .create 0 false, .set 0 7 false, .fork]).sess.map Sess.threads = [7, 2] := by
  decide

end Verif.ForkPools
