import Mathlib.Data.List.Forall2
import Mathlib.Logic.Function.Iterate
import Verif.SessionTopoProps

/-! # The multi-threaded session run (C36) -/

namespace Verif.Session

variable {κ α ε : Type} [DecidableEq κ]

/-! ## The dataflow equations -/

/-- The value of an input key: fed for a variable, computed otherwise. -/
def inputVal (ns : List (Node κ α ε)) (feed d : Pack κ α) (k : κ) : Option α :=
  if keyIsVar ns k then feed k else d k

/-- `d` holds the result `v` of a node under its output keys. -/
def Results (asTuple : α → Option (List α)) (outs : List κ) (v : α) (d : Pack κ α) : Prop :=
  match outs with
  | [] => False
  | [k] => d k = some v
  | ks => ∃ vs, asTuple v = some vs ∧ List.Forall₂ (fun k a => d k = some a) ks vs

/-- The equation of node `n`: its operator, applied to the inputs found in `d`, gives the results
found in `o`. -/
def Eqn (ns : List (Node κ α ε)) (asTuple : α → Option (List α)) (feed d o : Pack κ α)
    (n : Node κ α ε) : Prop :=
  ∃ args v, List.Forall₂ (fun k a => inputVal ns feed d k = some a) n.inputs args ∧
    n.op args = .ok v ∧ Results asTuple n.outputs v o

/-- `D` solves all equations of the computed nodes. -/
def Solves (ns : List (Node κ α ε)) (asTuple : α → Option (List α)) (feed D : Pack κ α) : Prop :=
  ∀ n ∈ ns, n.isVar = false → Eqn ns asTuple feed D D n

/-- `d'` extends `d`. -/
def Ext (d d' : Pack κ α) : Prop := ∀ k v, d k = some v → d' k = some v

omit [DecidableEq κ] in
theorem Ext.refl (d : Pack κ α) : Ext d d := fun _ _ h => h
omit [DecidableEq κ] in
theorem Ext.trans {a b c : Pack κ α} (h : Ext a b) (h' : Ext b c) : Ext a c :=
  fun k v e => h' k v (h k v e)

theorem fetchAll_iff (ns : List (Node κ α ε)) (feed d : Pack κ α) :
    ∀ (ks : List κ) (args : List α), fetchAll ns feed d ks = .ok args ↔
      List.Forall₂ (fun k a => inputVal ns feed d k = some a) ks args := by
  have fetch_iff : ∀ k v, fetch ns feed d k = .ok v ↔ inputVal ns feed d k = some v := by
    intro k v
    unfold fetch inputVal
    split
    · cases feed k <;> simp
    · cases d k <;> simp
  intro ks
  induction ks with
  | nil =>
    intro args
    cases args <;> simp [fetchAll]
  | cons k ks ih =>
    intro args
    unfold fetchAll
    cases hf : fetch ns feed d k with
    | error e =>
      constructor
      · intro h; cases h
      · intro h
        cases h with
        | cons h _ => rw [← fetch_iff, hf] at h; cases h
    | ok v =>
      cases hr : fetchAll ns feed d ks with
      | error e =>
        constructor
        · intro h; cases h
        · intro h
          cases h with
          | cons _ h => rw [← ih, hr] at h; cases h
      | ok vs =>
        constructor
        · intro h
          injection h with h
          subst h
          exact .cons ((fetch_iff k v).mp hf) ((ih vs).mp hr)
        · intro h
          cases h with
          | @cons _ a _ as h1 h2 =>
            rw [← fetch_iff, hf] at h1
            rw [← ih, hr] at h2
            injection h1 with h1
            injection h2 with h2
            rw [h1, h2]

theorem emplace_ext (d : Pack κ α) (k : κ) (v : α) : Ext d (d.emplace k v) := by
  intro k' w h
  unfold Pack.emplace
  rw [h]

theorem emplace_new {d : Pack κ α} {k : κ} (v : α) (h : d k = none) : d.emplace k v k = some v := by
  unfold Pack.emplace
  rw [h]; simp

theorem emplace_dom {d : Pack κ α} {k : κ} {v : α} {k' : κ} {w : α} (h : d.emplace k v k' = some w) :
    d k' = some w ∨ k' = k := by
  unfold Pack.emplace at h
  cases hd : d k' with
  | some x => rw [hd] at h; exact .inl h
  | none =>
    rw [hd] at h
    by_cases e : k' = k
    · exact .inr e
    · simp [e] at h

theorem emplace_fold (ks : List κ) : ∀ (vs : List α) (o : Pack κ α), vs.length = ks.length →
    ks.Nodup → (∀ k ∈ ks, o k = none) →
    Ext o ((ks.zip vs).foldl (fun o kv => Pack.emplace o kv.1 kv.2) o) ∧
    List.Forall₂ (fun k a => (ks.zip vs).foldl (fun o kv => Pack.emplace o kv.1 kv.2) o k = some a)
      ks vs ∧
    ∀ k v, (ks.zip vs).foldl (fun o kv => Pack.emplace o kv.1 kv.2) o k = some v →
      o k = some v ∨ k ∈ ks := by
  induction ks with
  | nil =>
    intro vs o hl _ _
    cases vs with
    | nil => exact ⟨Ext.refl _, .nil, fun k v h => .inl h⟩
    | cons => simp at hl
  | cons k ks ih =>
    intro vs o hl hnd hno
    cases vs with
    | nil => simp at hl
    | cons v vs =>
      have hnd' := List.nodup_cons.mp hnd
      obtain ⟨h1, h2, h3⟩ := ih vs (o.emplace k v) (by simpa using hl) hnd'.2 (by
        intro k' hk'
        cases he : o.emplace k v k' with
        | none => rfl
        | some w =>
          rcases emplace_dom he with h | h
          · rw [hno k' (by simp [hk'])] at h; cases h
          · subst h; exact absurd hk' hnd'.1)
      refine ⟨(emplace_ext o k v).trans h1, ?_, ?_⟩
      · exact .cons (h1 k v (emplace_new v (hno k (by simp)))) h2
      · intro k' w h
        rcases h3 k' w h with h | h
        · rcases emplace_dom h with h | h
          · exact .inl h
          · exact .inr (by simp [h])
        · exact .inr (by simp [h])

/-- What a successful run of a node does. -/
theorem runOne_ok {ns : List (Node κ α ε)} {asTuple : α → Option (List α)} {feed d out out' : Pack κ α}
    {n : Node κ α ε} (hv : n.isVar = false) (hnd : n.outputs.Nodup)
    (hno : ∀ k ∈ n.outputs, out k = none) (h : runOne ns asTuple feed d out n = .ok out') :
    Eqn ns asTuple feed d out' n ∧ Ext out out' ∧
      ∀ k v, out' k = some v → out k = some v ∨ k ∈ n.outputs := by
  unfold runOne at h
  rw [if_neg (by simp [hv])] at h
  cases hf : fetchAll ns feed d n.inputs with
  | error e => rw [hf] at h; cases h
  | ok args =>
    rw [hf] at h
    simp only at h
    cases ho : n.op args with
    | error e => rw [ho] at h; cases h
    | ok v =>
      rw [ho] at h
      simp only at h
      have hargs := (fetchAll_iff ns feed d _ _).mp hf
      suffices hs : Results asTuple n.outputs v out' ∧ Ext out out' ∧
          ∀ k v, out' k = some v → out k = some v ∨ k ∈ n.outputs from
        ⟨⟨args, v, hargs, ho, hs.1⟩, hs.2⟩
      revert h hnd hno
      generalize n.outputs = outs
      intro hnd hno h
      match outs with
      | [] => simp [store] at h
      | [k] =>
        simp only [store, Except.ok.injEq] at h
        subst h
        refine ⟨emplace_new v (hno k (by simp)), emplace_ext _ _ _, ?_⟩
        intro k' w h
        rcases emplace_dom h with h | h
        · exact .inl h
        · exact .inr (by simp [h])
      | k1 :: k2 :: ks =>
        simp only [store] at h
        cases ht : asTuple v with
        | none => rw [ht] at h; cases h
        | some vs =>
          rw [ht] at h
          simp only at h
          split at h
          · rename_i hl
            injection h with h
            obtain ⟨a, b, c⟩ := emplace_fold (k1 :: k2 :: ks) vs out hl hnd hno
            rw [h] at a b c
            exact ⟨⟨vs, ht, b⟩, a, c⟩
          · cases h

/-- A node whose equation has a solution runs. -/
theorem runOne_of_eqn {ns : List (Node κ α ε)} {asTuple : α → Option (List α)}
    {feed d D : Pack κ α} {n : Node κ α ε} (h : Eqn ns asTuple feed d D n) (out : Pack κ α) :
    ∃ out', runOne ns asTuple feed d out n = .ok out' := by
  unfold runOne
  split
  · exact ⟨out, rfl⟩
  · obtain ⟨args, v, h1, h2, h3⟩ := h
    rw [(fetchAll_iff ns feed d _ _).mpr h1]
    simp only
    rw [h2]
    simp only
    revert h3
    generalize n.outputs = outs
    intro h3
    match outs with
    | [] => exact h3.elim
    | [k] => exact ⟨_, rfl⟩
    | k1 :: k2 :: ks =>
      obtain ⟨vs, ht, hf⟩ := h3
      simp only [store, ht]
      rw [if_pos hf.length_eq.symm]
      exact ⟨_, rfl⟩

theorem inputVal_ext {ns : List (Node κ α ε)} {feed d d' : Pack κ α} (h : Ext d d') {k : κ} {a : α}
    (e : inputVal ns feed d k = some a) : inputVal ns feed d' k = some a := by
  unfold inputVal at *
  split
  · rename_i hv; rw [if_pos hv] at e; exact e
  · rename_i hv; rw [if_neg hv] at e; exact h k a e

theorem Results.ext {asTuple : α → Option (List α)} {outs : List κ} {v : α} {o o' : Pack κ α}
    (h : Ext o o') (hr : Results asTuple outs v o) : Results asTuple outs v o' := by
  match outs with
  | [] => exact hr
  | [k] => exact h k v hr
  | k1 :: k2 :: ks =>
    obtain ⟨vs, ht, hf⟩ := hr
    exact ⟨vs, ht, hf.imp fun k a => h k a⟩

omit [DecidableEq κ] in
theorem Results.mem {asTuple : α → Option (List α)} {outs : List κ} {v : α} {d : Pack κ α}
    (hr : Results asTuple outs v d) {k : κ} (hk : k ∈ outs) : ∃ w, d k = some w := by
  match outs with
  | [] => cases hk
  | [k'] => simp at hk; subst hk; exact ⟨_, hr⟩
  | k1 :: k2 :: ks =>
    obtain ⟨vs, ht, hf⟩ := hr
    clear ht
    revert hk hf
    generalize k1 :: k2 :: ks = l
    intro hk hf
    induction hf with
    | nil => cases hk
    | @cons a b l vs p q ih =>
      rcases List.mem_cons.mp hk with rfl | hk
      · exact ⟨b, p⟩
      · exact ih hk

theorem Eqn.ext {ns : List (Node κ α ε)} {asTuple : α → Option (List α)} {feed d d' o o' : Pack κ α}
    {n : Node κ α ε} (hd : Ext d d') (ho : Ext o o') (h : Eqn ns asTuple feed d o n) :
    Eqn ns asTuple feed d' o' n := by
  obtain ⟨args, v, h1, h2, h3⟩ := h
  exact ⟨args, v, h1.imp fun _ _ => inputVal_ext hd, h2, h3.ext ho⟩

theorem forall2_unique {β γ : Type} {R : β → γ → Prop} (hR : ∀ a b c, R a b → R a c → b = c) :
    ∀ {l : List β} {x y : List γ}, List.Forall₂ R l x → List.Forall₂ R l y → x = y := by
  intro l
  induction l with
  | nil => intro x y hx hy; cases hx; cases hy; rfl
  | cons a l ih =>
    intro x y hx hy
    cases hx with
    | cons h1 h2 =>
      cases hy with
      | cons h3 h4 => rw [hR _ _ _ h1 h3, ih h2 h4]

theorem Eqn.unique {ns : List (Node κ α ε)} {asTuple : α → Option (List α)} {feed d o o' : Pack κ α}
    {n : Node κ α ε} (h : Eqn ns asTuple feed d o n) (h' : Eqn ns asTuple feed d o' n) :
    ∀ k ∈ n.outputs, o k = o' k := by
  obtain ⟨args, v, h1, h2, h3⟩ := h
  obtain ⟨args', v', h1', h2', h3'⟩ := h'
  have e : args = args' := forall2_unique (fun a b c hb hc => by rw [hb] at hc; injection hc) h1 h1'
  subst e
  rw [h2] at h2'
  injection h2' with e
  subst e
  revert h3 h3'
  generalize n.outputs = outs
  intro h3 h3'
  match outs with
  | [] => exact h3.elim
  | [k] =>
    intro k' hk'
    simp at hk'
    subst hk'
    exact Eq.trans h3 (Eq.symm h3')
  | k1 :: k2 :: ks =>
    obtain ⟨vs, ht, hf⟩ := h3
    obtain ⟨vs', ht', hf'⟩ := h3'
    rw [ht] at ht'
    injection ht' with e
    subst e
    clear ht
    have key : ∀ (l : List κ) (vs : List α), List.Forall₂ (fun k a => o k = some a) l vs →
        List.Forall₂ (fun k a => o' k = some a) l vs → ∀ k ∈ l, o k = o' k := by
      intro l
      induction l with
      | nil => simp
      | cons a l ih =>
        intro vs h h' k hk
        cases h with
        | cons p q =>
          cases h' with
          | cons p' q' =>
            rcases List.mem_cons.mp hk with rfl | hk
            · rw [p, p']
            · exact ih _ q q' k hk
    exact key _ vs hf hf'

theorem Eqn.inputs {ns : List (Node κ α ε)} {asTuple : α → Option (List α)} {feed d d' o : Pack κ α}
    {n : Node κ α ε} (hk : ∀ k ∈ n.inputs, keyIsVar ns k = true ∨ d k = d' k)
    (h : Eqn ns asTuple feed d o n) : Eqn ns asTuple feed d' o n := by
  obtain ⟨args, v, h1, h2, h3⟩ := h
  refine ⟨args, v, ?_, h2, h3⟩
  clear h2 h3
  revert hk h1
  generalize n.inputs = ks
  intro hk h1
  induction h1 with
  | nil => exact .nil
  | @cons k a ks args p q ih =>
    refine .cons ?_ (ih fun k hk' => hk k (by simp [hk']))
    rcases hk k (by simp) with h | h
    · unfold inputVal at *; rw [if_pos h] at *; exact p
    · unfold inputVal at *; rw [h] at p; exact p

/-! ## Tasks and schedules -/

/-- Run a task to the end. -/
def Task.finish (ns : List (Node κ α ε)) (asTuple : α → Option (List α)) (feed d : Pack κ α)
    (out : Pack κ α) : List (Node κ α ε) → Task κ α ε
  | [] => ⟨[], out, none⟩
  | n :: rest =>
    match runOne ns asTuple feed d out n with
    | .error e => ⟨n :: rest, out, some e⟩
    | .ok out' => Task.finish ns asTuple feed d out' rest

def Task.final (ns : List (Node κ α ε)) (asTuple : α → Option (List α)) (feed d : Pack κ α)
    (t : Task κ α ε) : Task κ α ε :=
  match t.err with
  | some _ => t
  | none => Task.finish ns asTuple feed d t.out t.rest

theorem final_step (ns : List (Node κ α ε)) (asTuple : α → Option (List α)) (feed d : Pack κ α)
    (t : Task κ α ε) : (t.step ns asTuple feed d).final ns asTuple feed d =
      t.final ns asTuple feed d := by
  obtain ⟨rest, out, err⟩ := t
  cases err with
  | some e => rfl
  | none =>
    cases rest with
    | nil => rfl
    | cons n rest =>
      simp only [Task.step]
      cases h : runOne ns asTuple feed d out n with
      | error e => simp [Task.final, Task.finish, h]
      | ok o => simp [Task.final, Task.finish, h]

theorem final_done {ns : List (Node κ α ε)} {asTuple : α → Option (List α)} {feed d : Pack κ α}
    {t : Task κ α ε} (h : t.Done) : t.final ns asTuple feed d = t := by
  obtain ⟨rest, out, err⟩ := t
  cases err with
  | some e => rfl
  | none =>
    rcases h with h | h
    · simp at h; subst h; rfl
    · simp at h

theorem runSched_final (ns : List (Node κ α ε)) (asTuple : α → Option (List α)) (feed d : Pack κ α) :
    ∀ (sched : List Nat) (ts : List (Task κ α ε)),
      (runSched ns asTuple feed d sched ts).map (Task.final ns asTuple feed d) =
        ts.map (Task.final ns asTuple feed d) := by
  intro sched
  induction sched with
  | nil => intro ts; rfl
  | cons i sched ih =>
    intro ts
    rw [runSched, ih]
    apply List.ext_getElem?
    intro j
    simp only [List.getElem?_map, List.getElem?_modify]
    cases ts[j]? with
    | none => simp
    | some t =>
      by_cases h : i = j <;> simp [h, final_step]

/-- Whatever the interleaving, the tasks end in the state of a sequential run of each. -/
theorem runSched_done {ns : List (Node κ α ε)} {asTuple : α → Option (List α)} {feed d : Pack κ α}
    {sched : List Nat} {ts : List (Task κ α ε)}
    (h : ∀ t ∈ runSched ns asTuple feed d sched ts, t.Done) :
    runSched ns asTuple feed d sched ts = ts.map (Task.final ns asTuple feed d) := by
  rw [← runSched_final ns asTuple feed d sched ts]
  conv => lhs; rw [← List.map_id (runSched ns asTuple feed d sched ts)]
  apply List.map_congr_left
  intro t ht
  exact (final_done (h t ht)).symm

/-- Some schedule finishes all tasks. -/
theorem exists_sched (ns : List (Node κ α ε)) (asTuple : α → Option (List α)) (feed d : Pack κ α)
    (ts : List (Task κ α ε)) :
    ∃ sched, ∀ t ∈ runSched ns asTuple feed d sched ts, t.Done := by
  have one : ∀ (k : Nat) (t : Task κ α ε), t.rest.length ≤ k →
      ∃ m, ((Task.step ns asTuple feed d)^[m] t).Done := by
    intro k
    induction k with
    | zero =>
      intro t h
      exact ⟨0, .inl (List.length_eq_zero_iff.mp (by simpa using h))⟩
    | succ k ih =>
      intro t h
      obtain ⟨rest, out, err⟩ := t
      cases err with
      | some e => exact ⟨0, .inr (by simp)⟩
      | none =>
        cases rest with
        | nil => exact ⟨0, .inl rfl⟩
        | cons n rest =>
          cases hr : runOne ns asTuple feed d out n with
          | error e =>
            refine ⟨1, .inr ?_⟩
            simp [Task.step, hr]
          | ok o =>
            obtain ⟨m, hm⟩ := ih ⟨rest, o, none⟩ (by simpa using h)
            refine ⟨m + 1, ?_⟩
            rw [Function.iterate_succ_apply]
            simpa [Task.step, hr] using hm
  have app : ∀ s1 s2 ts, runSched ns asTuple feed d (s1 ++ s2) ts =
      runSched ns asTuple feed d s2 (runSched ns asTuple feed d s1 ts) := by
    intro s1
    induction s1 with
    | nil => intros; rfl
    | cons i s1 ih => intro s2 ts; simp only [List.cons_append, runSched]; exact ih _ _
  have rep : ∀ (i m : Nat) (ts : List (Task κ α ε)),
      runSched ns asTuple feed d (List.replicate m i) ts =
        ts.modify i (Task.step ns asTuple feed d)^[m] := by
    intro i m
    induction m with
    | zero =>
      intro ts
      simp only [List.replicate_zero, runSched, Function.iterate_zero]
      exact (List.modify_id _ _).symm
    | succ m ih =>
      intro ts
      rw [List.replicate_succ, runSched, ih]
      apply List.ext_getElem?
      intro j
      simp only [List.getElem?_modify]
      cases ts[j]? with
      | none => simp
      | some t => by_cases h : i = j <;> simp [h]
  -- finish the tasks one after the other
  have upto : ∀ k, k ≤ ts.length → ∃ sched, ∀ j t, j < k →
      (runSched ns asTuple feed d sched ts)[j]? = some t → t.Done := by
    intro k
    induction k with
    | zero => intro _; exact ⟨[], by intro j t h; omega⟩
    | succ k ih =>
      intro hk
      obtain ⟨sched, hs⟩ := ih (by omega)
      cases hget : (runSched ns asTuple feed d sched ts)[k]? with
      | none =>
        refine ⟨sched, ?_⟩
        intro j t hj e
        rcases Nat.lt_or_ge j k with h | h
        · exact hs j t h e
        · have : j = k := by omega
          subst this
          rw [hget] at e; cases e
      | some t0 =>
        obtain ⟨m, hm⟩ := one _ t0 (Nat.le_refl _)
        refine ⟨sched ++ List.replicate m k, ?_⟩
        intro j t hj e
        rw [app, rep, List.getElem?_modify] at e
        by_cases h : k = j
        · subst h
          rw [hget] at e
          simp at e
          rw [← e]; exact hm
        · simp [h] at e
          exact hs j t (by omega) e
  have len : ∀ sched ts, (runSched ns asTuple feed d sched ts).length = ts.length := by
    intro sched
    induction sched with
    | nil => intro; rfl
    | cons i s ih => intro ts; rw [runSched, ih]; simp
  obtain ⟨sched, hs⟩ := upto ts.length (Nat.le_refl _)
  refine ⟨sched, ?_⟩
  intro t ht
  obtain ⟨j, hj, e⟩ := List.mem_iff_getElem.mp ht
  rw [len] at hj
  exact hs j t hj (by rw [← e]; exact List.getElem?_eq_getElem _)

/-! ## Chunking -/

theorem range_chunks {β : Type} (l : List β) (step : Nat) : ∀ m,
    ((List.range m).map fun i => (l.drop (step * i)).take step).flatten = l.take (step * m) := by
  intro m
  induction m with
  | zero => simp
  | succ m ih =>
    rw [List.range_succ, List.map_append, List.flatten_append, ih, Nat.mul_succ, List.take_add]
    simp

/-- The tasks of a level partition its nodes. -/
theorem tasksOf_flatten {β : Type} (l : List β) {step : Nat} (hs : 0 < step) :
    (tasksOf l step).flatten = l := by
  unfold tasksOf
  simp only
  generalize hnum : (l.length + step - 1) / step = num
  cases num with
  | zero =>
    have : l.length + step - 1 < step := by
      have := (Nat.div_eq_zero_iff).mp hnum
      omega
    have : l = [] := List.length_eq_zero_iff.mp (by omega)
    simp [this]
  | succ num =>
    have h1 : step * (num + 1) ≤ l.length + step - 1 := by
      rw [← hnum]; exact Nat.mul_div_le _ _
    rw [List.range_succ, List.map_append, List.flatten_append]
    have e : (List.range num).map (fun i => (l.drop (step * i)).take
        (if i + 1 = num + 1 then l.length - i * step else step)) =
        (List.range num).map fun i => (l.drop (step * i)).take step := by
      apply List.map_congr_left
      intro i hi
      rw [List.mem_range] at hi
      rw [if_neg (by omega)]
    rw [e, range_chunks]
    simp only [List.map_cons, List.map_nil, if_true, List.flatten_cons, List.flatten_nil,
      List.append_nil]
    rw [List.take_of_length_le (l := l.drop (step * num))
      (by rw [List.length_drop, Nat.mul_comm]; exact Nat.le_refl _)]
    exact List.take_append_drop _ _

theorem taskStep_pos {n threads minSize maxSize : Nat} (hn : 0 < n) (ht : 0 < threads)
    (hm : 0 < maxSize) : 0 < taskStep n threads minSize maxSize := by
  have h : 0 < (n + threads - 1) / threads := Nat.div_pos (by omega) ht
  unfold taskStep
  simp only
  split <;> split <;> omega

example : tasksOf [1, 2, 3, 4, 5, 6, 7] 3 = [[1, 2, 3], [4, 5, 6], [7]] := by decide
example : taskStep 7 3 1 100 = 3 ∧ taskStep 7 3 1 1 = 1 := by decide

/-! ## Levels -/

/-- The result of a level, computed task by task. -/
def levelDet (ns : List (Node κ α ε)) (asTuple : α → Option (List α)) (feed : Pack κ α)
    (step : Nat → Nat) (d : Pack κ α) (l : List (Node κ α ε)) : Except (Err κ ε) (Pack κ α) :=
  match l with
  | [] => .ok d
  | [n] => runOne ns asTuple feed d d n
  | l => collect d ((tasksOf l (step l.length)).map
      fun c => Task.finish ns asTuple feed d (fun _ => none) c)

def levelsDet (ns : List (Node κ α ε)) (asTuple : α → Option (List α)) (feed : Pack κ α)
    (step : Nat → Nat) : Pack κ α → List (List (Node κ α ε)) → Except (Err κ ε) (Pack κ α)
  | d, [] => .ok d
  | d, l :: ls =>
    match levelDet ns asTuple feed step d l with
    | .error e => .error e
    | .ok d' => levelsDet ns asTuple feed step d' ls

theorem levelRun_det {ns : List (Node κ α ε)} {asTuple : α → Option (List α)} {feed : Pack κ α}
    {threads minSize maxSize : Nat} {d : Pack κ α} {l : List (Node κ α ε)}
    {r : Except (Err κ ε) (Pack κ α)}
    (h : LevelRun ns asTuple feed threads minSize maxSize d l r) :
    r = levelDet ns asTuple feed (fun n => taskStep n threads minSize maxSize) d l := by
  cases h with
  | empty => rfl
  | single => rfl
  | many _ sched ts h2 hts hdone =>
    subst hts
    match l with
    | [] => simp at h2
    | [n] => simp at h2
    | a :: b :: l =>
      simp only [levelDet]
      rw [runSched_done hdone, List.map_map]
      rfl

theorem levelsRun_det {ns : List (Node κ α ε)} {asTuple : α → Option (List α)} {feed : Pack κ α}
    {threads minSize maxSize : Nat} {d : Pack κ α} {ls : List (List (Node κ α ε))}
    {r : Except (Err κ ε) (Pack κ α)}
    (h : LevelsRun ns asTuple feed threads minSize maxSize d ls r) :
    r = levelsDet ns asTuple feed (fun n => taskStep n threads minSize maxSize) d ls := by
  induction h with
  | nil => rfl
  | error d l ls e h => rw [levelsDet, ← levelRun_det h]
  | ok d l ls d' r h h' ih => rw [levelsDet, ← levelRun_det h]; exact ih

theorem exists_levelRun (ns : List (Node κ α ε)) (asTuple : α → Option (List α)) (feed : Pack κ α)
    (threads minSize maxSize : Nat) (d : Pack κ α) (l : List (Node κ α ε)) :
    ∃ r, LevelRun ns asTuple feed threads minSize maxSize d l r := by
  match l with
  | [] => exact ⟨_, .empty d⟩
  | [n] => exact ⟨_, .single d n⟩
  | a :: b :: l =>
    obtain ⟨sched, hs⟩ := exists_sched ns asTuple feed d
      ((tasksOf (a :: b :: l) (taskStep (a :: b :: l).length threads minSize maxSize)).map
          fun c => ⟨c, fun _ => none, none⟩)
    exact ⟨_, .many d _ sched _ (by simp) rfl hs⟩

theorem exists_levelsRun (ns : List (Node κ α ε)) (asTuple : α → Option (List α)) (feed : Pack κ α)
    (threads minSize maxSize : Nat) : ∀ (ls : List (List (Node κ α ε))) (d : Pack κ α),
    ∃ r, LevelsRun ns asTuple feed threads minSize maxSize d ls r := by
  intro ls
  induction ls with
  | nil => intro d; exact ⟨_, .nil d⟩
  | cons l ls ih =>
    intro d
    obtain ⟨r, hr⟩ := exists_levelRun ns asTuple feed threads minSize maxSize d l
    cases r with
    | error e => exact ⟨_, .error d l ls e hr⟩
    | ok d' =>
      obtain ⟨r, h⟩ := ih d'
      exact ⟨r, .ok d l ls d' r hr h⟩

/-- What a successful run of a task does. -/
theorem finish_ok {ns : List (Node κ α ε)} {asTuple : α → Option (List α)} {feed d : Pack κ α} :
    ∀ (c : List (Node κ α ε)) (out : Pack κ α), (c.flatMap Node.outputs).Nodup →
      (∀ n ∈ c, ∀ k ∈ n.outputs, out k = none) →
      (Task.finish ns asTuple feed d out c).err = none →
      Ext out (Task.finish ns asTuple feed d out c).out ∧
      (∀ n ∈ c, n.isVar = false →
        Eqn ns asTuple feed d (Task.finish ns asTuple feed d out c).out n) ∧
      ∀ k v, (Task.finish ns asTuple feed d out c).out k = some v →
        out k = some v ∨ ∃ n ∈ c, n.isVar = false ∧ k ∈ n.outputs := by
  intro c
  induction c with
  | nil => intro out _ _ _; exact ⟨Ext.refl _, by simp, fun k v h => .inl h⟩
  | cons n c ih =>
    intro out hnd hno herr
    rw [List.flatMap_cons, List.nodup_append] at hnd
    obtain ⟨hn1, hn2, hdis⟩ := hnd
    unfold Task.finish at herr ⊢
    cases hr : runOne ns asTuple feed d out n with
    | error e => rw [hr] at herr; simp at herr
    | ok o =>
      rw [hr] at herr
      simp only at herr ⊢
      cases hv : n.isVar with
      | true =>
        have : o = out := by
          unfold runOne at hr
          rw [if_pos hv] at hr
          injection hr with hr
          exact hr.symm
        subst this
        obtain ⟨h1, h2, h3⟩ := ih o hn2 (fun m hm k hk => hno m (by simp [hm]) k hk) herr
        refine ⟨h1, ?_, ?_⟩
        · intro m hm hmv
          rcases List.mem_cons.mp hm with rfl | hm
          · rw [hv] at hmv; cases hmv
          · exact h2 m hm hmv
        · intro k v h
          rcases h3 k v h with h | ⟨m, hm, hmv, hk⟩
          · exact .inl h
          · exact .inr ⟨m, by simp [hm], hmv, hk⟩
      | false =>
        obtain ⟨e1, e2, e3⟩ := runOne_ok hv hn1 (fun k hk => hno n (by simp) k hk) hr
        obtain ⟨h1, h2, h3⟩ := ih o hn2 (by
          intro m hm k hk
          cases ho : o k with
          | none => rfl
          | some v =>
            rcases e3 k v ho with h | h
            · rw [hno m (by simp [hm]) k hk] at h; cases h
            · exact absurd rfl (hdis k h k (List.mem_flatMap.mpr ⟨m, hm, hk⟩))) herr
        refine ⟨e2.trans h1, ?_, ?_⟩
        · intro m hm hmv
          rcases List.mem_cons.mp hm with rfl | hm
          · exact e1.ext (Ext.refl _) h1
          · exact h2 m hm hmv
        · intro k v h
          rcases h3 k v h with h | ⟨m, hm, hmv, hk⟩
          · rcases e3 k v h with h | h
            · exact .inl h
            · exact .inr ⟨n, by simp, hv, h⟩
          · exact .inr ⟨m, by simp [hm], hmv, hk⟩

/-- A task all of whose nodes can run does not throw. -/
theorem finish_err_none {ns : List (Node κ α ε)} {asTuple : α → Option (List α)} {feed d : Pack κ α} :
    ∀ (c : List (Node κ α ε)) (out : Pack κ α),
      (∀ n ∈ c, ∀ out, ∃ out', runOne ns asTuple feed d out n = .ok out') →
      (Task.finish ns asTuple feed d out c).err = none := by
  intro c
  induction c with
  | nil => intros; rfl
  | cons n c ih =>
    intro out h
    obtain ⟨o, ho⟩ := h n (by simp) out
    unfold Task.finish
    rw [ho]
    exact ih o fun m hm => h m (by simp [hm])

omit [DecidableEq κ] in
/-- Merging dictionaries that do not contradict each other. -/
theorem merge_fold (ts : List (Task κ α ε)) : ∀ (d : Pack κ α),
    (∀ t ∈ ts, ∀ k v w, d k = some v → t.out k = some w → v = w) →
    ts.Pairwise (fun t u => ∀ k v w, t.out k = some v → u.out k = some w → v = w) →
    Ext d (ts.foldl (fun d t => d.merge t.out) d) ∧
    (∀ t ∈ ts, Ext t.out (ts.foldl (fun d t => d.merge t.out) d)) ∧
    ∀ k v, ts.foldl (fun d t => d.merge t.out) d k = some v →
      d k = some v ∨ ∃ t ∈ ts, t.out k = some v := by
  induction ts with
  | nil => intro d _ _; exact ⟨Ext.refl _, by simp, fun k v h => .inl h⟩
  | cons t ts ih =>
    intro d hd hp
    rw [List.pairwise_cons] at hp
    have mdom : ∀ k v, d.merge t.out k = some v → d k = some v ∨ t.out k = some v := by
      intro k v h
      unfold Pack.merge at h
      cases hk : d k with
      | some w => rw [hk] at h; exact .inl h
      | none => rw [hk] at h; exact .inr h
    obtain ⟨h1, h2, h3⟩ := ih (d.merge t.out) (by
      intro u hu k v w hv hw
      rcases mdom k v hv with h | h
      · exact hd u (by simp [hu]) k v w h hw
      · exact hp.1 u hu k v w h hw) hp.2
    have e1 : Ext d (d.merge t.out) := by
      intro k v h; unfold Pack.merge; rw [h]
    have e2 : Ext t.out (d.merge t.out) := by
      intro k v h
      unfold Pack.merge
      cases hk : d k with
      | some w => simp only; rw [hd t (by simp) k w v hk h]
      | none => exact h
    refine ⟨e1.trans h1, ?_, ?_⟩
    · intro u hu
      rcases List.mem_cons.mp hu with rfl | hu
      · exact e2.trans h1
      · exact h2 u hu
    · intro k v h
      rcases h3 k v h with h | ⟨u, hu, h⟩
      · rcases mdom k v h with h | h
        · exact .inl h
        · exact .inr ⟨t, by simp, h⟩
      · exact .inr ⟨u, by simp [hu], h⟩

/-- What a successful level does. -/
theorem levelDet_ok {ns : List (Node κ α ε)} {asTuple : α → Option (List α)} {feed d d' : Pack κ α}
    {step : Nat → Nat} (hstep : ∀ n, 0 < n → 0 < step n) {l : List (Node κ α ε)}
    (hnd : (l.flatMap Node.outputs).Nodup) (hno : ∀ n ∈ l, ∀ k ∈ n.outputs, d k = none)
    (h : levelDet ns asTuple feed step d l = .ok d') :
    Ext d d' ∧ (∀ n ∈ l, n.isVar = false → Eqn ns asTuple feed d d' n) ∧
      ∀ k v, d' k = some v → d k = some v ∨ ∃ n ∈ l, n.isVar = false ∧ k ∈ n.outputs := by
  match l with
  | [] =>
    simp only [levelDet, Except.ok.injEq] at h
    subst h
    exact ⟨Ext.refl _, by simp, fun k v h => .inl h⟩
  | [n] =>
    simp only [levelDet] at h
    have hf : Task.finish ns asTuple feed d d [n] = ⟨[], d', none⟩ := by
      simp [Task.finish, h]
    have := finish_ok (ns := ns) (asTuple := asTuple) (feed := feed) (d := d) [n] d hnd hno
      (by rw [hf])
    rw [hf] at this
    exact this
  | a :: b :: l =>
    simp only [levelDet] at h
    have hflat := tasksOf_flatten (a :: b :: l) (hstep (a :: b :: l).length (by simp))
    generalize a :: b :: l = l at *
    generalize tasksOf l (step l.length) = cs at *
    unfold collect at h
    split at h
    · cases h
    · rename_i herr
      injection h with h
      rw [List.findSome?_eq_none_iff] at herr
      have herr' : ∀ c ∈ cs, (Task.finish ns asTuple feed d (fun _ => none) c).err = none :=
        fun c hc => herr _ (List.mem_map_of_mem hc)
      have hcn : ∀ c ∈ cs, (c.flatMap Node.outputs).Nodup := by
        intro c hc
        obtain ⟨x, y, rfl⟩ := List.append_of_mem hc
        rw [← hflat, List.flatten_append, List.flatten_cons, List.flatMap_append,
          List.flatMap_append, List.nodup_append, List.nodup_append] at hnd
        exact hnd.2.1.1
      have hfin : ∀ c ∈ cs, _ := fun c hc =>
        finish_ok (ns := ns) (asTuple := asTuple) (feed := feed) (d := d) c (fun _ => none)
          (hcn c hc) (fun _ _ _ _ => rfl) (herr' c hc)
      have hmem : ∀ c ∈ cs, ∀ n ∈ c, n ∈ l := by
        intro c hc n hn
        rw [← hflat]; exact List.mem_flatten.mpr ⟨c, hc, hn⟩
      have hdisj : cs.Pairwise (fun c c' => ∀ n ∈ c, ∀ n' ∈ c', ∀ k ∈ n.outputs, k ∉ n'.outputs) := by
        clear herr herr' hcn hfin hmem h hno
        subst hflat
        induction cs with
        | nil => exact .nil
        | cons c cs ih =>
          rw [List.flatten_cons, List.flatMap_append, List.nodup_append] at hnd
          refine .cons ?_ (ih hnd.2.1)
          intro c' hc' n hn n' hn' k hk hk'
          exact hnd.2.2 k (List.mem_flatMap.mpr ⟨n, hn, hk⟩) k
            (List.mem_flatMap.mpr ⟨n', List.mem_flatten.mpr ⟨c', hc', hn'⟩, hk'⟩) rfl
      obtain ⟨m1, m2, m3⟩ := merge_fold
        (cs.map fun c => Task.finish ns asTuple feed d (fun _ => none) c) d (by
          intro t ht k v w hv hw
          obtain ⟨c, hc, rfl⟩ := List.mem_map.mp ht
          rcases (hfin c hc).2.2 k w hw with h | ⟨n, hn, -, hk⟩
          · cases h
          · rw [hno n (hmem c hc n hn) k hk] at hv; cases hv) (by
          rw [List.pairwise_map]
          refine List.Pairwise.imp_of_mem ?_ hdisj
          intro c c' hc hc' hd k v w hv hw
          rcases (hfin c hc).2.2 k v hv with h | ⟨n, hn, -, hk⟩
          · cases h
          · rcases (hfin c' hc').2.2 k w hw with h | ⟨n', hn', -, hk'⟩
            · cases h
            · exact absurd hk' (hd n hn n' hn' k hk))
      rw [h] at m1 m2 m3
      refine ⟨m1, ?_, ?_⟩
      · intro n hn hv
        rw [← hflat] at hn
        obtain ⟨c, hc, hnc⟩ := List.mem_flatten.mp hn
        exact ((hfin c hc).2.1 n hnc hv).ext (Ext.refl _) (m2 _ (List.mem_map_of_mem hc))
      · intro k v hk
        rcases m3 k v hk with h | ⟨t, ht, h⟩
        · exact .inl h
        · obtain ⟨c, hc, rfl⟩ := List.mem_map.mp ht
          rcases (hfin c hc).2.2 k v h with h | ⟨n, hn, hv, hk⟩
          · cases h
          · exact .inr ⟨n, hmem c hc n hn, hv, hk⟩

theorem levelDet_total {ns : List (Node κ α ε)} {asTuple : α → Option (List α)} {feed d : Pack κ α}
    {step : Nat → Nat} (hstep : ∀ n, 0 < n → 0 < step n) {l : List (Node κ α ε)}
    (h : ∀ n ∈ l, ∀ out, ∃ out', runOne ns asTuple feed d out n = .ok out') :
    ∃ d', levelDet ns asTuple feed step d l = .ok d' := by
  match l with
  | [] => exact ⟨d, rfl⟩
  | [n] => exact h n (by simp) d
  | a :: b :: l =>
    simp only [levelDet]
    have hflat := tasksOf_flatten (a :: b :: l) (hstep (a :: b :: l).length (by simp))
    generalize a :: b :: l = l at *
    generalize tasksOf l (step l.length) = cs at *
    unfold collect
    have : (cs.map fun c => Task.finish ns asTuple feed d (fun _ => none) c).findSome? Task.err =
        none := by
      rw [List.findSome?_eq_none_iff]
      intro t ht
      obtain ⟨c, hc, rfl⟩ := List.mem_map.mp ht
      apply finish_err_none
      intro n hn
      exact h n (by rw [← hflat]; exact List.mem_flatten.mpr ⟨c, hc, hn⟩)
    rw [this]
    exact ⟨_, rfl⟩

/-- The inputs of each computed node are variables or outputs of computed nodes of earlier
levels. -/
def LevelsReady (ns : List (Node κ α ε)) (done : List (Node κ α ε)) :
    List (List (Node κ α ε)) → Prop
  | [] => True
  | l :: ls =>
    (∀ n ∈ l, n.isVar = false → ∀ k ∈ n.inputs, keyIsVar ns k = true ∨
      ∃ m ∈ done, m.isVar = false ∧ k ∈ m.outputs) ∧ LevelsReady ns (done ++ l) ls

structure RunInv (ns : List (Node κ α ε)) (asTuple : α → Option (List α)) (feed : Pack κ α)
    (done : List (Node κ α ε)) (d : Pack κ α) : Prop where
  dom : ∀ k v, d k = some v → ∃ n ∈ done, n.isVar = false ∧ k ∈ n.outputs
  sol : ∀ n ∈ done, n.isVar = false → Eqn ns asTuple feed d d n

theorem RunInv.level {ns : List (Node κ α ε)} {asTuple : α → Option (List α)} {feed d d' : Pack κ α}
    {step : Nat → Nat} (hstep : ∀ n, 0 < n → 0 < step n) {done l : List (Node κ α ε)}
    (hi : RunInv ns asTuple feed done d) (hnd : ((done ++ l).flatMap Node.outputs).Nodup)
    (h : levelDet ns asTuple feed step d l = .ok d') :
    RunInv ns asTuple feed (done ++ l) d' ∧ Ext d d' ∧
      ∀ n ∈ l, n.isVar = false → Eqn ns asTuple feed d d' n := by
  rw [List.flatMap_append, List.nodup_append] at hnd
  obtain ⟨h1, h2, h3⟩ := levelDet_ok hstep hnd.2.1 (by
    intro n hn k hk
    cases hd : d k with
    | none => rfl
    | some v =>
      obtain ⟨m, hm, -, hkm⟩ := hi.dom k v hd
      exact absurd rfl (hnd.2.2 k (List.mem_flatMap.mpr ⟨m, hm, hkm⟩) k
        (List.mem_flatMap.mpr ⟨n, hn, hk⟩))) h
  refine ⟨⟨?_, ?_⟩, h1, h2⟩
  · intro k v hk
    rcases h3 k v hk with h | ⟨n, hn, hv, hk⟩
    · obtain ⟨m, hm, hv, hk⟩ := hi.dom k v h
      exact ⟨m, by simp [hm], hv, hk⟩
    · exact ⟨n, by simp [hn], hv, hk⟩
  · intro n hn hv
    rcases List.mem_append.mp hn with hn | hn
    · exact (hi.sol n hn hv).ext h1 h1
    · exact (h2 n hn hv).ext h1 (Ext.refl _)

/-- A successful run solves the equations. -/
theorem levelsDet_solves {ns : List (Node κ α ε)} {asTuple : α → Option (List α)} {feed : Pack κ α}
    {step : Nat → Nat} (hstep : ∀ n, 0 < n → 0 < step n) : ∀ (ls : List (List (Node κ α ε)))
    (done : List (Node κ α ε)) (d D : Pack κ α), RunInv ns asTuple feed done d →
    ((done ++ ls.flatten).flatMap Node.outputs).Nodup →
    levelsDet ns asTuple feed step d ls = .ok D → RunInv ns asTuple feed (done ++ ls.flatten) D := by
  intro ls
  induction ls with
  | nil =>
    intro done d D hi _ h
    simp only [levelsDet, Except.ok.injEq] at h
    subst h
    simpa using hi
  | cons l ls ih =>
    intro done d D hi hnd h
    rw [levelsDet] at h
    rw [List.flatten_cons, ← List.append_assoc] at hnd ⊢
    cases hl : levelDet ns asTuple feed step d l with
    | error e => rw [hl] at h; cases h
    | ok d' =>
      rw [hl] at h
      have hnd' := hnd
      rw [List.flatMap_append, List.nodup_append] at hnd'
      exact ih (done ++ l) d' D (hi.level hstep hnd'.1 hl).1 hnd h

/-- If the equations have a solution the run succeeds and finds it. -/
theorem levelsDet_total {ns : List (Node κ α ε)} {asTuple : α → Option (List α)} {feed D : Pack κ α}
    {step : Nat → Nat} (hstep : ∀ n, 0 < n → 0 < step n) : ∀ (ls : List (List (Node κ α ε)))
    (done : List (Node κ α ε)) (d : Pack κ α), RunInv ns asTuple feed done d →
    (∀ n ∈ done, n.isVar = false → ∀ k ∈ n.outputs, d k = D k) →
    ((done ++ ls.flatten).flatMap Node.outputs).Nodup → LevelsReady ns done ls →
    (∀ n ∈ ls.flatten, n.isVar = false → Eqn ns asTuple feed D D n) →
    ∃ d', levelsDet ns asTuple feed step d ls = .ok d' ∧
      ∀ n ∈ done ++ ls.flatten, n.isVar = false → ∀ k ∈ n.outputs, d' k = D k := by
  intro ls
  induction ls with
  | nil =>
    intro done d _ hag _ _ _
    exact ⟨d, rfl, by simpa using hag⟩
  | cons l ls ih =>
    intro done d hi hag hnd hready hsol
    rw [List.flatten_cons, ← List.append_assoc] at hnd ⊢
    have hnd' := hnd
    rw [List.flatMap_append, List.nodup_append] at hnd'
    have heq : ∀ n ∈ l, n.isVar = false → Eqn ns asTuple feed d D n := by
      intro n hn hv
      refine (hsol n (by simp [hn]) hv).inputs ?_
      intro k hk
      rcases hready.1 n hn hv k hk with h | ⟨m, hm, hmv, hkm⟩
      · exact .inl h
      · exact .inr (hag m hm hmv k hkm).symm
    obtain ⟨d1, h1⟩ := levelDet_total (ns := ns) (asTuple := asTuple) (feed := feed) (d := d)
      (step := step) hstep (l := l) (by
        intro n hn out
        cases hv : n.isVar with
        | false => exact runOne_of_eqn (heq n hn hv) out
        | true => exact ⟨out, by unfold runOne; rw [if_pos hv]⟩)
    obtain ⟨i1, i2, i3⟩ := hi.level hstep hnd'.1 h1
    obtain ⟨d', h2, h3⟩ := ih (done ++ l) d1 i1 (by
      intro n hn hv k hk
      rcases List.mem_append.mp hn with hn | hn
      · rw [← hag n hn hv k hk]
        obtain ⟨_, v, _, _, hr⟩ := hi.sol n hn hv
        have := hr.mem hk
        obtain ⟨w, hw⟩ := this
        rw [hw, i2 k w hw]
      · exact (i3 n hn hv).unique (heq n hn hv) k hk) hnd hready.2
      (fun n hn => hsol n (by simp [hn]))
    exact ⟨d', by rw [levelsDet, h1]; exact h2, h3⟩

/-! ## Well-formed sessions -/

/-- Output keys are distinct (`gen_uniq_signature`), and every input key is an output key of an
earlier node. -/
structure WellFormed (ns : List (Node κ α ε)) : Prop where
  keys : (ns.flatMap Node.outputs).Nodup
  topo : ∀ (i : Nat) (n : Node κ α ε), ns[i]? = some n → ∀ k ∈ n.inputs,
    ∃ (j : Nat) (m : Node κ α ε), j < i ∧ ns[j]? = some m ∧ k ∈ m.outputs

omit [DecidableEq κ] in
theorem unique_producer : ∀ {ns : List (Node κ α ε)}, (ns.flatMap Node.outputs).Nodup →
    ∀ {i j : Nat} {n m : Node κ α ε} {k : κ}, ns[i]? = some n → ns[j]? = some m → k ∈ n.outputs →
      k ∈ m.outputs → i = j := by
  intro ns
  induction ns with
  | nil => intro _ i j n m k h; simp at h
  | cons a ns ih =>
    intro hnd i j n m k hi hj hki hkj
    rw [List.flatMap_cons, List.nodup_append] at hnd
    cases i with
    | zero =>
      simp at hi; subst hi
      cases j with
      | zero => rfl
      | succ j =>
        simp at hj
        exact absurd rfl (hnd.2.2 k hki k (List.mem_flatMap.mpr ⟨m, List.mem_of_getElem? hj, hkj⟩))
    | succ i =>
      simp at hi
      cases j with
      | zero =>
        simp at hj; subst hj
        exact absurd rfl (hnd.2.2 k hkj k (List.mem_flatMap.mpr ⟨n, List.mem_of_getElem? hi, hki⟩))
      | succ j =>
        simp at hj
        rw [ih hnd.2.1 hi hj hki hkj]

theorem producer_eq {ns : List (Node κ α ε)} (hk : (ns.flatMap Node.outputs).Nodup) {j : Nat}
    {m : Node κ α ε} {k : κ} (hj : ns[j]? = some m) (hm : k ∈ m.outputs) :
    producer ns k = some j := by
  unfold producer
  rw [List.findIdx?_eq_some_iff_getElem]
  obtain ⟨hlt, e⟩ := List.getElem?_eq_some_iff.mp hj
  refine ⟨hlt, by simpa [e] using hm, ?_⟩
  intro i hi
  simp only [decide_eq_true_eq]
  intro hc
  have := unique_producer hk (List.getElem?_eq_getElem (by omega)) hj hc hm
  omega

theorem keyIsVar_eq {ns : List (Node κ α ε)} (hk : (ns.flatMap Node.outputs).Nodup) {j : Nat}
    {m : Node κ α ε} {k : κ} (hj : ns[j]? = some m) (hm : k ∈ m.outputs) :
    keyIsVar ns k = m.isVar := by
  unfold keyIsVar
  rw [producer_eq hk hj hm]
  simp [hj]

theorem serialLoop_eq (ns : List (Node κ α ε)) (asTuple : α → Option (List α)) (feed : Pack κ α)
    (step : Nat → Nat) : ∀ (rest : List (Node κ α ε)) (d : Pack κ α),
    serialLoop ns asTuple feed rest d =
      levelsDet ns asTuple feed step d (rest.map fun n => [n]) := by
  intro rest
  induction rest with
  | nil => intro d; rfl
  | cons n rest ih =>
    intro d
    simp only [serialLoop, List.map_cons, levelsDet, levelDet]
    cases runOne ns asTuple feed d d n with
    | error e => rfl
    | ok d' => exact ih d'

theorem serial_ready {ns : List (Node κ α ε)} (hw : WellFormed ns) :
    ∀ (rest pre : List (Node κ α ε)), ns = pre ++ rest →
      LevelsReady ns pre (rest.map fun n => [n]) := by
  intro rest
  induction rest with
  | nil => intro pre _; trivial
  | cons n rest ih =>
    intro pre e
    refine ⟨?_, ih (pre ++ [n]) (by simpa using e)⟩
    intro n' hn' _ k hk
    simp at hn'
    subst hn'
    obtain ⟨j, m, hj, hm, hkm⟩ := hw.topo pre.length n' (by rw [e]; simp) k hk
    cases hv : m.isVar with
    | true => exact .inl (by rw [keyIsVar_eq hw.keys hm hkm]; exact hv)
    | false =>
      refine .inr ⟨m, ?_, hv, hkm⟩
      rw [e, List.getElem?_append_left hj] at hm
      exact List.mem_of_getElem? hm

/-- The nodes of the levels. -/
def levelNodes (ns : List (Node κ α ε)) (levels : List (List Nat)) : List (List (Node κ α ε)) :=
  levels.map fun l => l.filterMap fun i => ns[i]?

omit [DecidableEq κ] in
theorem range_filterMap (q : Node κ α ε → Bool) : ∀ ns : List (Node κ α ε),
    ((List.range ns.length).filter fun i => (ns[i]?.map q).getD false).filterMap (fun i => ns[i]?) =
      ns.filter q := by
  intro ns
  rw [List.filterMap_filter]
  induction ns with
  | nil => rfl
  | cons n ns ih =>
    rw [List.length_cons, List.range_succ_eq_map, List.filterMap_cons, List.filterMap_map,
      List.filter_cons]
    have e : (fun x => if ((n :: ns)[x]?.map q).getD false = true then (n :: ns)[x]? else none) ∘
        Nat.succ = fun x => if (ns[x]?.map q).getD false = true then ns[x]? else none := by
      funext x; simp
    rw [e, ih]
    by_cases hq : q n = true <;> simp [hq]

omit [DecidableEq κ] in
theorem nodup_filter_keys (q : Node κ α ε → Bool) : ∀ {ns : List (Node κ α ε)},
    (ns.flatMap Node.outputs).Nodup → ((ns.filter q).flatMap Node.outputs).Nodup := by
  intro ns
  induction ns with
  | nil => simp
  | cons n ns ih =>
    intro h
    rw [List.flatMap_cons, List.nodup_append] at h
    rw [List.filter_cons]
    split
    · rw [List.flatMap_cons, List.nodup_append]
      refine ⟨h.1, ih h.2.1, ?_⟩
      intro a ha b hb
      obtain ⟨m, hm, hbm⟩ := List.mem_flatMap.mp hb
      exact h.2.2 a ha b (List.mem_flatMap.mpr ⟨m, (List.mem_filter.mp hm).1, hbm⟩)
    · exact ih h.2.1

theorem mapM_some_of {β γ : Type} (f : β → Option γ) : ∀ (l : List β), (∀ a ∈ l, (f a).isSome) →
    ∃ r, l.mapM f = some r ∧ List.Forall₂ (fun a b => f a = some b) l r := by
  intro l
  induction l with
  | nil => intro _; exact ⟨[], rfl, .nil⟩
  | cons a l ih =>
    intro h
    obtain ⟨b, hb⟩ := Option.isSome_iff_exists.mp (h a (by simp))
    obtain ⟨r, hr, hf⟩ := ih fun x hx => h x (by simp [hx])
    exact ⟨b :: r, by simp [List.mapM_cons, hb, hr], .cons hb hf⟩

/-- Linking a well-formed session finds, for every node, the positions of its inputs. -/
theorem link_ok {ns : List (Node κ α ε)} (hw : WellFormed ns) :
    ∃ deps, link ns = some deps ∧ ∀ i n, ns[i]? = some n →
      List.Forall₂ (fun k j => producer ns k = some j) n.inputs (deps.getD i []) := by
  have hin : ∀ n ∈ ns, ∀ k ∈ n.inputs, (producer ns k).isSome := by
    intro n hn k hk
    obtain ⟨i, hi, e⟩ := List.mem_iff_getElem.mp hn
    obtain ⟨j, m, _, hm, hkm⟩ := hw.topo i n (by rw [← e]; exact List.getElem?_eq_getElem _) k hk
    rw [producer_eq hw.keys hm hkm]; rfl
  obtain ⟨deps, h1, h2⟩ := mapM_some_of (fun n : Node κ α ε => n.inputs.mapM (producer ns)) ns (by
    intro n hn
    obtain ⟨r, hr, -⟩ := mapM_some_of (producer ns) n.inputs (hin n hn)
    simp [hr])
  refine ⟨deps, h1, ?_⟩
  intro i n hn
  obtain ⟨hi, e⟩ := List.getElem?_eq_some_iff.mp hn
  have hlen := h2.length_eq
  have hget := (List.forall₂_iff_get.mp h2).2 i hi (by omega)
  simp only [List.get_eq_getElem, e] at hget
  obtain ⟨r, hr, hf⟩ := mapM_some_of (producer ns) n.inputs (hin n (List.mem_of_getElem? hn))
  rw [hr] at hget
  injection hget with hget
  have : deps.getD i [] = deps[i] := by
    simp [List.getD, List.getElem?_eq_getElem (show i < deps.length by omega)]
  rw [this, ← hget]
  exact hf

/-- The levels of a well-formed session exist, hold exactly its computed nodes, and are ready. -/
theorem sessionLevels_ok {ns : List (Node κ α ε)} (hw : WellFormed ns) :
    ∃ levels, sessionLevels ns = some levels ∧
      (levelNodes ns levels).flatten.Perm (ns.filter fun n => !n.isVar) ∧
      LevelsReady ns [] (levelNodes ns levels) := by
  obtain ⟨deps, hl, hd⟩ := link_ok hw
  unfold sessionLevels
  rw [hl]
  simp only
  have hdeps : ∀ i j, j ∈ deps.getD i [] → i < ns.length → ∃ n m k, ns[i]? = some n ∧
      k ∈ n.inputs ∧ ns[j]? = some m ∧ k ∈ m.outputs ∧ j < i := by
    intro i j hj hi
    have hn : ns[i]? = some ns[i] := List.getElem?_eq_getElem hi
    have hf := hd i _ hn
    have : ∃ k ∈ ns[i].inputs, producer ns k = some j := by
      clear hd
      revert hj hf
      generalize deps.getD i [] = l
      generalize ns[i].inputs = ks
      intro hj hf
      induction hf with
      | nil => cases hj
      | @cons a b l l' p q ih =>
        rcases List.mem_cons.mp hj with rfl | hj
        · exact ⟨a, by simp, p⟩
        · obtain ⟨k, hk, e⟩ := ih hj
          exact ⟨k, by simp [hk], e⟩
    obtain ⟨k, hk, hp⟩ := this
    obtain ⟨j', m, hlt, hm, hkm⟩ := hw.topo i _ hn k hk
    rw [producer_eq hw.keys hm hkm] at hp
    injection hp with hp
    subst hp
    exact ⟨_, m, k, hn, hk, hm, hkm, hlt⟩
  cases hb : buildRunNodes (List.range ns.length) (fun i => (ns[i]?.map Node.isVar).getD false)
      (fun i => deps.getD i []) with
  | none =>
    exfalso
    refine (levels_fail_iff List.nodup_range).mp hb ⟨id, ?_⟩
    intro i hi _ j hj
    rw [List.mem_range] at hi
    obtain ⟨n, m, k, _, _, hm, _, hlt⟩ := hdeps i j hj hi
    exact ⟨by rw [List.mem_range]; omega, .inr hlt⟩
  | some levels =>
    obtain ⟨hp, hr, -⟩ := levels_correct List.nodup_range hb
    refine ⟨levels, rfl, ?_, ?_⟩
    · have e : (levelNodes ns levels).flatten = levels.flatten.filterMap fun i => ns[i]? := by
        unfold levelNodes
        rw [List.filterMap_flatten]
      rw [e]
      refine (hp.filterMap _).trans ?_
      have := range_filterMap (fun n : Node κ α ε => !n.isVar) ns
      rw [← this]
      apply List.Perm.of_eq
      congr 1
      apply List.filter_congr
      intro i hi
      rw [List.mem_range] at hi
      simp [hi]
    · -- readiness
      have hmem : ∀ i ∈ levels.flatten, i < ns.length ∧
          (ns[i]?.map Node.isVar).getD false = false := by
        intro i hi
        have := List.mem_filter.mp (hp.mem_iff.mp hi)
        rw [List.mem_range] at this
        refine ⟨this.1, ?_⟩
        simpa using this.2
      have key : ∀ (post pre : List (List Nat)), levels = pre ++ post →
          LevelsReady ns (levelNodes ns pre).flatten (levelNodes ns post) := by
        intro post
        induction post with
        | nil => intro pre _; trivial
        | cons l post ih =>
          intro pre e
          refine ⟨?_, ?_⟩
          · intro n hn hv k hk
            obtain ⟨i, hi, hin⟩ := List.mem_filterMap.mp hn
            obtain ⟨j, m, hlt, hm, hkm⟩ := hw.topo i n hin k hk
            have hpj := producer_eq hw.keys hm hkm
            have hj : j ∈ deps.getD i [] := by
              have hf := hd i n hin
              clear * - hf hk hpj
              revert hk hf
              generalize deps.getD i [] = l
              generalize n.inputs = ks
              intro hk hf
              induction hf with
              | nil => cases hk
              | @cons a b l l' p q ih =>
                rcases List.mem_cons.mp hk with rfl | hk
                · rw [hpj] at p; injection p with p; subst p; simp
                · simp [ih hk]
            rcases hr pre l post e i hi j hj with ⟨-, h⟩ | h
            · left
              rw [keyIsVar_eq hw.keys hm hkm]
              simpa [hm] using h
            · right
              refine ⟨m, ?_, ?_, hkm⟩
              · obtain ⟨l', hl', hjl⟩ := List.mem_flatten.mp h
                refine List.mem_flatten.mpr ⟨_, List.mem_map_of_mem hl', ?_⟩
                exact List.mem_filterMap.mpr ⟨j, hjl, hm⟩
              · have := (hmem j (by rw [e, List.flatten_append]; exact List.mem_append_left _ h)).2
                simpa [hm] using this
          · have := ih (pre ++ [l]) (by simpa using e)
            unfold levelNodes at this ⊢
            rw [List.map_append, List.flatten_append] at this
            simpa using this
      simpa [levelNodes] using key levels [] rfl

theorem runInv_nil (ns : List (Node κ α ε)) (asTuple : α → Option (List α)) (feed : Pack κ α) :
    RunInv ns asTuple feed [] (fun _ => none) :=
  ⟨by simp, by simp⟩

/-- Two level sequences over the same computed nodes succeed together with equal results. -/
theorem levelsDet_agree {ns : List (Node κ α ε)} {asTuple : α → Option (List α)} {feed : Pack κ α}
    {s1 s2 : Nat → Nat} (h1 : ∀ n, 0 < n → 0 < s1 n) (h2 : ∀ n, 0 < n → 0 < s2 n)
    {l1 l2 : List (List (Node κ α ε))}
    (k1 : (l1.flatten.flatMap Node.outputs).Nodup) (k2 : (l2.flatten.flatMap Node.outputs).Nodup)
    (r2 : LevelsReady ns [] l2)
    (hm : ∀ n, n.isVar = false → (n ∈ l1.flatten ↔ n ∈ l2.flatten)) {D : Pack κ α}
    (h : levelsDet ns asTuple feed s1 (fun _ => none) l1 = .ok D) :
    levelsDet ns asTuple feed s2 (fun _ => none) l2 = .ok D := by
  have a := levelsDet_solves h1 l1 [] _ D (runInv_nil ns asTuple feed) (by simpa using k1) h
  obtain ⟨d, hd, hag⟩ := levelsDet_total (D := D) h2 l2 [] _ (runInv_nil ns asTuple feed) (by simp)
    (by simpa using k2) r2 (fun n hn hv => a.sol n (by simpa using (hm n hv).mpr hn) hv)
  have b := levelsDet_solves h2 l2 [] _ d (runInv_nil ns asTuple feed) (by simpa using k2) hd
  have : d = D := by
    funext k
    by_cases hk : ∃ n ∈ l2.flatten, n.isVar = false ∧ k ∈ n.outputs
    · obtain ⟨n, hn, hv, hk⟩ := hk
      exact hag n (by simpa using hn) hv k hk
    · cases hd1 : d k with
      | some v =>
        obtain ⟨n, hn, hv, hkn⟩ := b.dom k v hd1
        exact absurd ⟨n, by simpa using hn, hv, hkn⟩ hk
      | none =>
        cases hd2 : D k with
        | none => rfl
        | some v =>
          obtain ⟨n, hn, hv, hkn⟩ := a.dom k v hd2
          exact absurd ⟨n, (hm n hv).mp (by simpa using hn), hv, hkn⟩ hk
  rw [← this]
  exact hd

/-- **C36.**  For every well-formed pipeline with at least one computed node, every number of
threads, every task size and every interleaving, the multi-threaded run returns a result exactly
when the serial run does, and it is the same.  (The levels exist and so does a run.) -/
theorem multi_thread_eq_serial_partial {ns : List (Node κ α ε)} (hw : WellFormed ns)
    (hc : ∃ n ∈ ns, n.isVar = false) (asTuple : α → Option (List α)) (names : List String)
    (outs : List κ) (feed : Pack κ α) {threads maxSize : Nat} (minSize : Nat) (ht : 0 < threads)
    (hx : 0 < maxSize) :
    ∃ levels, sessionLevels ns = some levels ∧
      (∃ r, RunParallel ns asTuple names outs threads minSize maxSize levels feed r) ∧
      ∀ r, RunParallel ns asTuple names outs threads minSize maxSize levels feed r →
        ∀ o, r = .ok o ↔ runSerial ns asTuple names outs feed = .ok o := by
  obtain ⟨levels, hl, hp, hr⟩ := sessionLevels_ok hw
  obtain ⟨nc, hnc, hvc⟩ := hc
  have hne : levels ≠ [] := by
    rintro rfl
    have : nc ∈ ns.filter fun n => !n.isVar := List.mem_filter.mpr ⟨hnc, by simp [hvc]⟩
    rw [← hp.mem_iff] at this
    simp [levelNodes] at this
  refine ⟨levels, hl, ?_, ?_⟩
  · obtain ⟨r, h⟩ := exists_levelsRun ns asTuple feed threads minSize maxSize
      (levelNodes ns levels) (fun _ => none)
    cases r with
    | error e => exact ⟨_, .error hne e h⟩
    | ok d => exact ⟨_, .done hne d h⟩
  · have hs1 : ∀ n, 0 < n → 0 < taskStep n threads minSize maxSize :=
      fun n hn => taskStep_pos hn ht hx
    have hs2 : ∀ n : Nat, 0 < n → 0 < id n := fun n h => h
    have hflat : (ns.map fun n => [n]).flatten = ns := by
      rw [← List.flatMap_def]; simp
    have k1 : ((levelNodes ns levels).flatten.flatMap Node.outputs).Nodup :=
      (hp.flatMap_right _).nodup_iff.mpr (nodup_filter_keys _ hw.keys)
    have k2 : ((ns.map fun n => [n]).flatten.flatMap Node.outputs).Nodup := by
      rw [hflat]; exact hw.keys
    have hm : ∀ n, n.isVar = false →
        (n ∈ (levelNodes ns levels).flatten ↔ n ∈ (ns.map fun n => [n]).flatten) := by
      intro n hv
      rw [hp.mem_iff, hflat, List.mem_filter]
      simp [hv]
    have hser : ∀ D, serialLoop ns asTuple feed ns (fun _ => none) = .ok D ↔
        levelsDet ns asTuple feed (fun n => taskStep n threads minSize maxSize) (fun _ => none)
          (levelNodes ns levels) = .ok D := by
      intro D
      rw [serialLoop_eq ns asTuple feed id]
      constructor
      · intro h
        exact levelsDet_agree hs2 hs1 k2 k1 hr (fun n hv => (hm n hv).symm) h
      · intro h
        exact levelsDet_agree hs1 hs2 k1 k2 (serial_ready hw ns [] rfl) hm h
    have hnn : ns ≠ [] := by rintro rfl; cases hnc
    intro r hrun o
    unfold runSerial
    rw [if_neg hnn]
    cases hrun with
    | empty h => exact absurd h hne
    | error _ e h =>
      have := levelsRun_det h
      cases hsl : serialLoop ns asTuple feed ns (fun _ => none) with
      | error e' => simp
      | ok D =>
        have h' := (hser D).mp hsl
        unfold levelNodes at h'
        rw [h'] at this
        cases this
    | done _ d h =>
      have := levelsRun_det h
      have h' := (hser d).mpr this.symm
      rw [h']

/-! ## What the serial run computes -/

/-- **C36.**  The serial run succeeds exactly when the dataflow equations have a solution, and
then it returns, for each requested output, the fed value (variables) or the value of the
solution. -/
theorem serial_solves_equations {ns : List (Node κ α ε)} (hw : WellFormed ns)
    (asTuple : α → Option (List α)) (feed : Pack κ α) :
    (∀ D, serialLoop ns asTuple feed ns (fun _ => none) = .ok D → Solves ns asTuple feed D) ∧
    (∀ D, Solves ns asTuple feed D → ∃ d, serialLoop ns asTuple feed ns (fun _ => none) = .ok d ∧
      ∀ n ∈ ns, n.isVar = false → ∀ k ∈ n.outputs, d k = D k) := by
  have hflat : (ns.map fun n => [n]).flatten = ns := by
    rw [← List.flatMap_def]; simp
  have hs2 : ∀ n : Nat, 0 < n → 0 < id n := fun n h => h
  have k2 : (([] ++ (ns.map fun n => [n]).flatten).flatMap Node.outputs).Nodup := by
    simp only [List.nil_append]
    rw [hflat]; exact hw.keys
  constructor
  · intro D h
    rw [serialLoop_eq ns asTuple feed id] at h
    have := levelsDet_solves hs2 _ [] _ D (runInv_nil ns asTuple feed) k2 h
    rw [List.nil_append, hflat] at this
    exact this.sol
  · intro D hD
    obtain ⟨d, h1, h2⟩ := levelsDet_total (D := D) hs2 _ [] _ (runInv_nil ns asTuple feed) (by simp)
      k2 (serial_ready hw ns [] rfl) (by rw [hflat]; exact hD)
    rw [List.nil_append, hflat] at h2
    exact ⟨d, by rw [serialLoop_eq ns asTuple feed id]; exact h1, h2⟩

/-! ## From the traced graph to the session -/

/-- What `Compose` guarantees of a traced graph: an input entry names an output key of its node,
and keys are unique. -/
structure TracedGraph {ν : Type} (g : ν → TNode ν κ α ε) : Prop where
  entry : ∀ n m k, (m, k) ∈ (g n).inputs → k ∈ (g m).outputs
  nodup : ∀ n, (g n).outputs.Nodup
  unique : ∀ n m k, k ∈ (g n).outputs → k ∈ (g m).outputs → n = m

/-- Tracing yields a well-formed session. -/
theorem trace_wellFormed {ν : Type} [DecidableEq ν] {g : ν → TNode ν κ α ε} (hg : TracedGraph g)
    {fuel : Nat} {outputs : List ν} {ns : List (Node κ α ε)} (h : trace g fuel outputs = some ns) :
    WellFormed ns := by
  unfold trace at h
  split at h
  · cases h
  · rename_i s hs
    injection h with h
    subst h
    obtain ⟨hnd, -, hord⟩ := topo_sort_correct _ _ _ _ hs
    refine ⟨?_, ?_⟩
    · unfold toGeneric
      rw [List.flatMap_map]
      clear hs hord
      generalize s.nodes = l at *
      induction l with
      | nil => simp
      | cons n l ih =>
        rw [List.nodup_cons] at hnd
        rw [List.flatMap_cons, List.nodup_append]
        refine ⟨hg.nodup n, ih hnd.2, ?_⟩
        intro a ha b hb e
        subst e
        obtain ⟨m, hm, hbm⟩ := List.mem_flatMap.mp hb
        have := hg.unique n m a ha hbm
        subst this
        exact hnd.1 hm
    · intro i n hn k hk
      unfold toGeneric at hn ⊢
      rw [List.getElem?_map] at hn
      cases hi : s.nodes[i]? with
      | none => rw [hi] at hn; cases hn
      | some p =>
        rw [hi] at hn
        simp at hn
        subst hn
        simp only [List.mem_map] at hk
        obtain ⟨⟨q, k'⟩, hq, rfl⟩ := hk
        obtain ⟨hlt, e⟩ := List.getElem?_eq_some_iff.mp hi
        have hsplit : s.nodes = s.nodes.take i ++ p :: s.nodes.drop (i + 1) := by
          rw [← e]; simp
        have hmem := hord _ _ _ hsplit q (List.mem_map.mpr ⟨(q, k'), hq, rfl⟩)
        obtain ⟨j, hj, ej⟩ := List.mem_iff_getElem.mp hmem
        rw [List.length_take] at hj
        rw [List.getElem_take] at ej
        refine ⟨j, ⟨(g q).isVar, (g q).inputs.map Prod.snd, (g q).outputs, (g q).op⟩, by omega, ?_,
          hg.entry p q k' hq⟩
        rw [List.getElem?_map, List.getElem?_eq_getElem (show j < s.nodes.length by omega), ej]
        rfl

/-- **C36, end to end.**  Every acyclic traced pipeline with a computed node can be traced, its
levels exist, and the multi-threaded run agrees with the serial run. -/
theorem traced_multi_thread_eq_serial_partial {ν : Type} [DecidableEq ν]
    {g : ν → TNode ν κ α ε} (hg : TracedGraph g) (outputs : List ν)
    (hacyc : ∀ n ∈ outputs, Acc (fun a b => a ∈ (g b).inputs.map Prod.fst) n)
    (hc : ∃ n ∈ outputs, (g n).isVar = false)
    (asTuple : α → Option (List α)) (names : List String) (outs : List κ) (feed : Pack κ α)
    {threads maxSize : Nat} (minSize : Nat) (ht : 0 < threads) (hx : 0 < maxSize) :
    ∃ f0, ∀ fuel, f0 ≤ fuel → ∃ ns levels, trace g fuel outputs = some ns ∧
      sessionLevels ns = some levels ∧
      (∃ r, RunParallel ns asTuple names outs threads minSize maxSize levels feed r) ∧
      ∀ r, RunParallel ns asTuple names outs threads minSize maxSize levels feed r →
        ∀ o, r = .ok o ↔ runSerial ns asTuple names outs feed = .ok o := by
  have hrel : (fun a b => some a ∈ (g b).inputs.map fun e => some e.1) =
      fun a b => a ∈ (g b).inputs.map Prod.fst := by
    funext a b
    simp
  obtain ⟨f0, h0⟩ := (topo_sort_returns_iff (fun n => (g n).inputs.map fun e => some e.1)
    (outputs.map some)).mpr (by
      intro n hn
      rw [hrel]
      exact hacyc n (by simpa using hn))
  refine ⟨f0, fun fuel hf => ?_⟩
  obtain ⟨s, hs⟩ := h0 fuel hf
  have htr : trace g fuel outputs = some (toGeneric g s.nodes) := by
    unfold trace; rw [hs]
  obtain ⟨nc, hnc, hvc⟩ := hc
  obtain ⟨levels, h⟩ := multi_thread_eq_serial_partial (trace_wellFormed hg htr) (by
    obtain ⟨-, hm, -⟩ := topo_sort_correct _ _ _ _ hs
    refine ⟨_, List.mem_map.mpr ⟨nc, (hm nc).mpr ⟨nc, by simpa using hnc, .refl nc⟩, rfl⟩, hvc⟩)
    asTuple names outs feed minSize ht hx
  exact ⟨_, levels, htr, h⟩

/-! ## Where it fails -/

/-- **C36, finding.**  A pipeline that only passes an input through: serially it returns the fed
value, multi-threaded it returns nothing. -/
theorem only_variables_refuted :
    let ns : List (Node Nat Nat Unit) := [⟨true, [], [0], fun _ => .error ()⟩]
    let feed : Pack Nat Nat := fun k => if k = 0 then some 5 else none
    sessionLevels ns = some [] ∧
    runSerial ns (fun _ => none) [] [0] feed = .ok [("0", 5)] ∧
    ∀ threads minSize maxSize r,
      RunParallel ns (fun _ => none) [] [0] threads minSize maxSize [] feed r → r = .ok [] := by
  refine ⟨by decide +kernel, by rfl, ?_⟩
  intro _ _ _ r h
  cases h with
  | empty => rfl
  | error h => exact absurd rfl h
  | done h => exact absurd rfl h

/-- Variable 0; `a` (key 1) uses 0; `b` (key 2) uses `a` and throws 2; `c` (key 3) uses 0 and
throws 3. -/
def throwing : List (Node Nat Nat Nat) :=
  [⟨true, [], [0], fun _ => .error 0⟩, ⟨false, [0], [1], fun _ => .ok 7⟩,
   ⟨false, [1], [2], fun _ => .error 2⟩, ⟨false, [0], [3], fun _ => .error 3⟩]

/-- **C36, finding.**  When several operators throw, the two modes may report different ones. -/
theorem error_differs_refuted :
    let feed : Pack Nat Nat := fun k => if k = 0 then some 5 else none
    sessionLevels throwing = some [[1, 3], [2]] ∧
    runSerial throwing (fun _ => none) [] [2, 3] feed = .error (.op 2) ∧
    ∀ r, RunParallel throwing (fun _ => none) [] [2, 3] 2 1 1 [[1, 3], [2]] feed r →
      r = .error (.op 3) := by
  refine ⟨by decide +kernel, by rfl, ?_⟩
  intro r h
  cases h with
  | empty h => cases h
  | error _ e h =>
    have := levelsRun_det h
    have e2 : levelsDet throwing (fun _ => none) (fun k => if k = 0 then some 5 else none)
        (fun n => taskStep n 2 1 1) (fun _ => none)
        ([[1, 3], [2]].map fun l => l.filterMap fun i => throwing[i]?) = .error (.op 3) := rfl
    rw [e2] at this
    injection this with this
    rw [this]
  | done _ d h =>
    have := levelsRun_det h
    have e2 : levelsDet throwing (fun _ => none) (fun k => if k = 0 then some 5 else none)
        (fun n => taskStep n 2 1 1) (fun _ => none)
        ([[1, 3], [2]].map fun l => l.filterMap fun i => throwing[i]?) = .error (.op 3) := rfl
    rw [e2] at this
    cases this

/-- Inputs 0 and 1; key 2 is their sum, keys 3 and 4 the two halves of a pair made from 0, key 5
combines 2 and 4. -/
def sample : List (Node Nat (Nat × Nat) Unit) :=
  [⟨true, [], [0], fun _ => .error ()⟩, ⟨true, [], [1], fun _ => .error ()⟩,
   ⟨false, [0, 1], [2], fun | [a, b] => .ok (a.1 + b.1, 0) | _ => .error ()⟩,
   ⟨false, [0], [3, 4], fun | [a] => .ok (a.1, a.1 + 10) | _ => .error ()⟩,
   ⟨false, [2, 4], [5], fun | [a, b] => .ok (a.1 * b.1, 0) | _ => .error ()⟩]

def sampleTuple (p : Nat × Nat) : Option (List (Nat × Nat)) := some [(p.1, 0), (p.2, 0)]

example : WellFormed sample := by
  refine ⟨by decide, ?_⟩
  intro i n hn k hk
  match i with
  | 0 | 1 => simp [sample] at hn; subst hn; simp at hk
  | 2 =>
    simp [sample] at hn; subst hn
    simp at hk
    rcases hk with rfl | rfl
    · exact ⟨0, _, by omega, rfl, by simp⟩
    · exact ⟨1, _, by omega, rfl, by simp⟩
  | 3 =>
    simp [sample] at hn; subst hn
    simp at hk; subst hk
    exact ⟨0, _, by omega, rfl, by simp⟩
  | 4 =>
    simp [sample] at hn; subst hn
    simp at hk
    rcases hk with rfl | rfl
    · exact ⟨2, _, by omega, rfl, by simp⟩
    · exact ⟨3, _, by omega, rfl, by simp⟩
  | i + 5 => simp [sample] at hn

example : sessionLevels sample = some [[2, 3], [4]] := by decide +kernel

example : runSerial sample sampleTuple ["y", "x"] [5, 1]
    (fun k => if k = 0 then some (3, 0) else if k = 1 then some (4, 0) else none) =
    .ok [("y", (91, 0)), ("x", (4, 0))] := by rfl

end Verif.Session
