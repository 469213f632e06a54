import Verif.StructEq
import Mathlib.Tactic.ByContra
import Mathlib.Data.List.Forall2
/-
The stack machine of structural equality computes a recursive comparison.
-/
namespace Verif.StructEq

section
variable {V : Type} (veq : V → V → Bool) (H : Heap V)

/-- Attributes in order, threading the map. -/
def cmpItems (c : Bool → Nat → Nat → List (Nat × Nat) → Option (List (Nat × Nat))) (f : Bool) :
    List (Item V) → List (Item V) → List (Nat × Nat) → Option (List (Nat × Nat))
  | [], [], m => some m
  | .val v :: xs, .val w :: ys, m => if veq v w then cmpItems c f xs ys m else none
  | .len n :: xs, .len k :: ys, m => if n = k then cmpItems c f xs ys m else none
  | .ref none d _ :: xs, .ref none e _ :: ys, m => if d = e then cmpItems c f xs ys m else none
  | .ref (some p) d _ :: xs, .ref (some q) e _ :: ys, m =>
    if d = e then
      match c (f || d) p q m with
      | some m' => cmpItems c f xs ys m'
      | none => none
    else none
  | _, _, _ => none

/-- The comparison by recursion; `m` holds the pairs of marked nodes found equal so far. -/
def cmp : Nat → Bool → Nat → Nat → List (Nat × Nat) → Option (List (Nat × Nat))
  | 0, _, _, _, _ => none
  | k + 1, f, a, b, m =>
    if (H.node a).ty ≠ (H.node b).ty then none
    else match m.lookup a with
      | some r => if r = b then some m else none
      | none =>
        if ((m.map Prod.swap).lookup b).isSome then none
        else if (H.node a).kind ≠ (H.node b).kind then none
        else match (H.node a).kind with
          | .plain => cmpItems veq (cmp k) f (H.node a).es (H.node b).es m
          | .arr => cmpItems veq (cmp k) f (H.node a).es (H.node b).es m
          | .graph => (cmpItems veq (cmp k) f (H.node a).es (H.node b).es m).map ((a, b) :: ·)
          | .var => if a = b ∨ f = true then
              (cmpItems veq (cmp k) f (H.node a).es (H.node b).es m).map ((a, b) :: ·) else none
          | .op => if a = b then some m else none
          | .yld => if ptrs (H.node a).es = ptrs (H.node b).es then some m else
              (cmpItems veq (cmp k) f (H.node a).es (H.node b).es m).map ((a, b) :: ·)

end

/-- No object occurs twice on either side. -/
def One (m : List (Nat × Nat)) : Prop :=
  ∀ x y x' y', (x, y) ∈ m → (x', y') ∈ m → (x = x' ↔ y = y')

theorem lookup_mem {m : List (Nat × Nat)} {a b : Nat} (h : m.lookup a = some b) : (a, b) ∈ m := by
  induction m with
  | nil => simp at h
  | cons x l ih =>
    obtain ⟨u, v⟩ := x
    rw [List.lookup_cons] at h
    by_cases e : a = u
    · subst e
      simp at h
      subst h
      exact List.mem_cons_self
    · have : (a == u) = false := by simpa using e
      rw [this] at h
      exact List.mem_cons_of_mem _ (ih h)

theorem lookup_none {m : List (Nat × Nat)} {a : Nat} : m.lookup a = none ↔ ∀ b, (a, b) ∉ m := by
  induction m with
  | nil => simp
  | cons x l ih =>
    obtain ⟨u, v⟩ := x
    rw [List.lookup_cons]
    by_cases e : a = u
    · subst e
      simp only [beq_self_eq_true]
      constructor
      · intro h; simp at h
      · intro h; exact absurd List.mem_cons_self (h v)
    · have h1 : (a == u) = false := by simpa using e
      simp only [h1, ih, List.mem_cons, Prod.mk.injEq, not_or]
      constructor
      · intro h b
        exact ⟨fun h2 => e h2.1, h b⟩
      · intro h b
        exact (h b).2

theorem lookup_of_mem {m : List (Nat × Nat)} (hm : One m) {a b : Nat} (h : (a, b) ∈ m) :
    m.lookup a = some b := by
  cases e : m.lookup a with
  | none => exact absurd h (lookup_none.1 e b)
  | some r => rw [(hm a r a b (lookup_mem e) h).1 rfl]

theorem mem_swap {m : List (Nat × Nat)} {a b : Nat} : (b, a) ∈ m.map Prod.swap ↔ (a, b) ∈ m := by
  constructor
  · intro h
    obtain ⟨⟨x, y⟩, h1, h2⟩ := List.mem_map.1 h
    cases h2
    exact h1
  · intro h
    exact List.mem_map.2 ⟨(a, b), h, rfl⟩

theorem swap_some {m : List (Nat × Nat)} {b : Nat} :
    ((m.map Prod.swap).lookup b).isSome = true ↔ ∃ a, (a, b) ∈ m := by
  cases e : (m.map Prod.swap).lookup b with
  | none =>
    simp only [Option.isSome_none, Bool.false_eq_true, false_iff, not_exists]
    intro a h
    exact lookup_none.1 e a (mem_swap.2 h)
  | some a => simp only [Option.isSome_some, true_iff]; exact ⟨a, mem_swap.1 (lookup_mem e)⟩

section
variable {V : Type} {veq : V → V → Bool} {H : Heap V}

/-- What the comparison of objects below `a` and `b` does to the map. -/
def Grows (c : Bool → Nat → Nat → List (Nat × Nat) → Option (List (Nat × Nat))) (p q : Nat) : Prop :=
  ∀ f m m', One m → c f p q m = some m' →
    One m' ∧ m ⊆ m' ∧ ∀ x y, (x, y) ∈ m' → (x, y) ∈ m ∨ (x ≤ p ∧ y ≤ q)

theorem cmpItems_grows {c : Bool → Nat → Nat → List (Nat × Nat) → Option (List (Nat × Nat))} {a b : Nat}
    {f : Bool} (hc : ∀ p q, p < a → q < b → Grows c p q) :
    ∀ (xs ys : List (Item V)) (m m' : List (Nat × Nat)),
      (∀ q d r, Item.ref (some q) d r ∈ xs → q < a) → (∀ q d r, Item.ref (some q) d r ∈ ys → q < b) →
      One m → cmpItems veq c f xs ys m = some m' →
      One m' ∧ m ⊆ m' ∧ ∀ x y, (x, y) ∈ m' → (x, y) ∈ m ∨ (x < a ∧ y < b) := by
  intro xs ys m
  fun_induction cmpItems veq c f xs ys m with
  | case1 m => intro m' _ _ h1 h; cases h; exact ⟨h1, fun _ h => h, fun x y h => Or.inl h⟩
  | case2 v xs w ys m hv ih =>
    intro m' hx hy h1 h
    exact ih m' (fun q d r h => hx q d r (List.mem_cons_of_mem _ h))
      (fun q d r h => hy q d r (List.mem_cons_of_mem _ h)) h1 h
  | case3 => intro m' _ _ _ h; simp at h
  | case4 xs n ys m ih =>
    intro m' hx hy h1 h
    exact ih m' (fun q d r h => hx q d r (List.mem_cons_of_mem _ h))
      (fun q d r h => hy q d r (List.mem_cons_of_mem _ h)) h1 h
  | case5 => intro m' _ _ _ h; simp at h
  | case6 xs d a' a'' ys m ih =>
    intro m' hx hy h1 h
    exact ih m' (fun q d r h => hx q d r (List.mem_cons_of_mem _ h))
      (fun q d r h => hy q d r (List.mem_cons_of_mem _ h)) h1 h
  | case7 => intro m' _ _ _ h; simp at h
  | case8 p a' xs q d a'' ys m m1 h2 ih =>
    intro m' hx hy h1 h
    have hp := hx p _ _ List.mem_cons_self
    have hq := hy q _ _ List.mem_cons_self
    obtain ⟨o1, s1, g1⟩ := hc p q hp hq _ _ _ h1 h2
    obtain ⟨o2, s2, g2⟩ := ih m' (fun q d r h => hx q d r (List.mem_cons_of_mem _ h))
      (fun q d r h => hy q d r (List.mem_cons_of_mem _ h)) o1 h
    refine ⟨o2, fun z hz => s2 (s1 hz), fun x y hxy => ?_⟩
    rcases g2 x y hxy with h3 | h3
    · rcases g1 x y h3 with h4 | h4
      · exact Or.inl h4
      · exact Or.inr (by omega)
    · exact Or.inr h3
  | case9 => intro m' _ _ _ h; simp at h
  | case10 => intro m' _ _ _ h; simp at h
  | case11 => intro m' _ _ _ h; simp at h

theorem one_cons {m : List (Nat × Nat)} {a b : Nat} (h : One m) (ha : ∀ y, (a, y) ∉ m)
    (hb : ∀ x, (x, b) ∉ m) : One ((a, b) :: m) := by
  intro x y x' y' h1 h2
  simp only [List.mem_cons, Prod.mk.injEq] at h1 h2
  rcases h1 with ⟨rfl, rfl⟩ | h1 <;> rcases h2 with ⟨rfl, rfl⟩ | h2
  · exact ⟨fun _ => rfl, fun _ => rfl⟩
  · exact ⟨fun e => absurd (e ▸ h2) (ha y'), fun e => absurd (e ▸ h2) (hb x')⟩
  · exact ⟨fun e => absurd (e ▸ h1) (ha y), fun e => absurd (e ▸ h1) (hb x)⟩
  · exact h x y x' y' h1 h2

theorem cmp_grows (k : Nat) : ∀ a b, Grows (cmp veq H k) a b := by
  induction k with
  | zero => intro a b f m m' _ h; simp [cmp] at h
  | succ k ih =>
    intro a b f m m' h1 h
    have hI : ∀ m', cmpItems veq (cmp veq H k) f (H.node a).es (H.node b).es m = some m' →
        One m' ∧ m ⊆ m' ∧ ∀ x y, (x, y) ∈ m' → (x, y) ∈ m ∨ (x < a ∧ y < b) := fun m' h =>
      cmpItems_grows (a := a) (b := b) (fun p q _ _ => ih p q) _ _ m m'
        (fun q d r => H.lt a q d r) (fun q d r => H.lt b q d r) h1 h
    have hsame : m = m' → One m' ∧ m ⊆ m' ∧ ∀ x y, (x, y) ∈ m' → (x, y) ∈ m ∨ (x ≤ a ∧ y ≤ b) := by
      rintro rfl; exact ⟨h1, fun _ h => h, fun x y h => Or.inl h⟩
    rw [cmp.eq_def] at h
    dsimp only at h
    split at h
    · simp at h
    cases e : m.lookup a with
    | some r =>
      rw [e] at h
      dsimp only at h
      split at h
      · exact hsame (Option.some.inj h)
      · simp at h
    | none =>
      rw [e] at h
      dsimp only at h
      split at h
      · simp at h
      rename_i hb
      rw [swap_some] at hb
      have hb' : ∀ x, (x, b) ∉ m := fun x hx => hb ⟨x, hx⟩
      have ha' := lookup_none.1 e
      have hadd : ∀ o, (cmpItems veq (cmp veq H k) f (H.node a).es (H.node b).es m) = o →
          o.map ((a, b) :: ·) = some m' →
          One m' ∧ m ⊆ m' ∧ ∀ x y, (x, y) ∈ m' → (x, y) ∈ m ∨ (x ≤ a ∧ y ≤ b) := by
        intro o ho h
        cases o with
        | none => simp at h
        | some m1 =>
          have h3 : (a, b) :: m1 = m' := Option.some.inj h
          subst h3
          obtain ⟨o1, s1, g1⟩ := hI m1 ho
          refine ⟨one_cons o1 (fun y hy => ?_) (fun x hx => ?_), fun z hz => List.mem_cons_of_mem _ (s1 hz), ?_⟩
          · rcases g1 _ _ hy with h4 | h4
            · exact ha' y h4
            · omega
          · rcases g1 _ _ hx with h4 | h4
            · exact hb' x h4
            · omega
          · intro x y hxy
            simp only [List.mem_cons, Prod.mk.injEq] at hxy
            rcases hxy with ⟨rfl, rfl⟩ | hxy
            · exact Or.inr ⟨Nat.le_refl _, Nat.le_refl _⟩
            · rcases g1 x y hxy with h4 | h4
              · exact Or.inl h4
              · exact Or.inr (by omega)
      have hplain : cmpItems veq (cmp veq H k) f (H.node a).es (H.node b).es m = some m' →
          One m' ∧ m ⊆ m' ∧ ∀ x y, (x, y) ∈ m' → (x, y) ∈ m ∨ (x ≤ a ∧ y ≤ b) := by
        intro h
        obtain ⟨o1, s1, g1⟩ := hI m' h
        exact ⟨o1, s1, fun x y hxy => (g1 x y hxy).imp id (fun h => by omega)⟩
      split at h
      · simp at h
      split at h
      · exact hplain h
      · exact hplain h
      · exact hadd _ rfl h
      · split at h
        · exact hadd _ rfl h
        · simp at h
      · split at h
        · exact hsame (Option.some.inj h)
        · simp at h
      · split at h
        · exact hsame (Option.some.inj h)
        · exact hadd _ rfl h

/-! ### The machine -/

/-- From `s` the machine gets to `s'`. -/
def Reach (veq : V → V → Bool) (H : Heap V) (dfr : Bool) (s s' : St) : Prop :=
  ∃ n, ∀ j, run veq H dfr (j + n) s = run veq H dfr j s'

/-- From `s` the machine returns `r`. -/
def Stops (veq : V → V → Bool) (H : Heap V) (dfr : Bool) (s : St) (r : Bool) : Prop :=
  ∃ n, ∀ j, run veq H dfr (j + n) s = some (some r)

theorem Reach.refl {dfr : Bool} (s : St) : Reach veq H dfr s s := ⟨0, fun _ => rfl⟩

theorem Reach.trans {dfr : Bool} {s t u : St} (h1 : Reach veq H dfr s t) (h2 : Reach veq H dfr t u) :
    Reach veq H dfr s u := by
  obtain ⟨n, hn⟩ := h1
  obtain ⟨k, hk⟩ := h2
  exact ⟨k + n, fun j => by rw [← Nat.add_assoc, hn, hk]⟩

theorem Reach.stops {dfr : Bool} {s t : St} {r : Bool} (h1 : Reach veq H dfr s t)
    (h2 : Stops veq H dfr t r) : Stops veq H dfr s r := by
  obtain ⟨n, hn⟩ := h1
  obtain ⟨k, hk⟩ := h2
  exact ⟨k + n, fun j => by rw [← Nat.add_assoc, hn, hk]⟩

theorem reach_step {dfr : Bool} {s s' : St} (h : step veq H dfr s = .next s') : Reach veq H dfr s s' :=
  ⟨1, fun j => by rw [run, h]⟩

theorem stops_step {dfr : Bool} {s : St} {r : Bool} (h : step veq H dfr s = .ret r) :
    Stops veq H dfr s r :=
  ⟨1, fun j => by rw [run, h]⟩

/-- The machine started on a list of tasks does what the comparison `o` says. -/
def Does (veq : V → V → Bool) (H : Heap V) (dfr : Bool) (ts : List Task) (m : List (Nat × Nat))
    (o : Option (List (Nat × Nat))) : Prop :=
  match o with
    | some m' => ∀ rest, Reach veq H dfr ⟨ts ++ rest, m, m.map Prod.swap⟩ ⟨rest, m', m'.map Prod.swap⟩
    | none => ∀ rest, Stops veq H dfr ⟨ts ++ rest, m, m.map Prod.swap⟩ false

theorem lookup_mono {m0 m : List (Nat × Nat)} (h : One m) (hs : m0 ⊆ m) {a r : Nat}
    (e : m0.lookup a = some r) : m.lookup a = some r := lookup_of_mem h (hs (lookup_mem e))

theorem reduce_some (ml mr : List (Nat × Nat)) (f : Bool) (a b : Nat) :
    reduce H ml mr f (some a) (some b) =
    if (H.node a).ty ≠ (H.node b).ty then none
    else match ml.lookup a with
      | some r => if r = b then some [] else none
      | none => if (mr.lookup b).isSome then none else some [.todo a b f] := rfl

/-- A pair rejected when it is handed in is rejected later as well; a pair found equal stays equal. -/
theorem reduce_cmp {k : Nat} {f : Bool} {a b : Nat} {m0 m : List (Nat × Nat)} (h0 : One m0) (h : One m)
    (hs : m0 ⊆ m) :
    (reduce H m0 (m0.map Prod.swap) f (some a) (some b) = none → cmp veq H k f a b m = none) ∧
    (reduce H m0 (m0.map Prod.swap) f (some a) (some b) = some [] → 0 < k → cmp veq H k f a b m = some m) ∧
    (∀ ts, reduce H m0 (m0.map Prod.swap) f (some a) (some b) = some ts →
      ts = [] ∨ (ts = [.todo a b f] ∧ (H.node a).ty = (H.node b).ty)) := by
  cases k with
  | zero =>
    refine ⟨fun _ => rfl, fun _ h => absurd h (Nat.lt_irrefl 0), fun ts h => ?_⟩
    rw [reduce_some] at h
    split at h
    · simp at h
    rename_i hty
    split at h
    · split at h
      · left; exact (Option.some.inj h).symm
      · simp at h
    · split at h
      · simp at h
      · right; exact ⟨(Option.some.inj h).symm, by simpa using hty⟩
  | succ k =>
    rw [reduce_some, cmp.eq_def]
    dsimp only
    by_cases hty : (H.node a).ty = (H.node b).ty
    · simp only [hty, ne_eq, not_true_eq_false, if_false]
      cases e : m0.lookup a with
      | some r =>
        rw [lookup_mono h hs e]
        dsimp only
        by_cases hr : r = b
        · simp [hr]
          
        · simp [hr]
      | none =>
        dsimp only
        by_cases hb : ((m0.map Prod.swap).lookup b).isSome = true
        · simp only [hb, if_true]
          refine ⟨fun _ => ?_, fun h => by simp at h, fun ts h => by simp at h⟩
          obtain ⟨x, hx⟩ := swap_some.1 hb
          have hxa : x ≠ a := fun e1 => lookup_none.1 e b (e1 ▸ hx)
          cases e2 : m.lookup a with
          | some r =>
            dsimp only
            rw [if_neg]
            rintro rfl
            exact hxa ((h _ _ _ _ (hs hx) (lookup_mem e2)).2 rfl)
          | none =>
            dsimp only
            rw [if_pos (swap_some.2 ⟨x, hs hx⟩)]
        · simp only [hb]
          refine ⟨fun h => by simp at h, fun h => by simp at h, fun ts h => ?_⟩
          right
          simp only [Bool.false_eq_true, if_false, Option.some.injEq] at h
          exact ⟨h.symm, trivial⟩
    · simp [hty]

theorem does_nil {dfr : Bool} (m : List (Nat × Nat)) : Does veq H dfr [] m (some m) :=
  fun _ => Reach.refl _

theorem does_append {dfr : Bool} {t u : List Task} {m m' : List (Nat × Nat)}
    {o : Option (List (Nat × Nat))} (h1 : Does veq H dfr t m (some m')) (h2 : Does veq H dfr u m' o) :
    Does veq H dfr (t ++ u) m o := by
  cases o with
  | some m2 =>
    intro rest
    rw [List.append_assoc]
    exact (h1 (u ++ rest)).trans (h2 rest)
  | none =>
    intro rest
    rw [List.append_assoc]
    exact (h1 (u ++ rest)).stops (h2 rest)

theorem does_append_none {dfr : Bool} {t u : List Task} {m : List (Nat × Nat)}
    (h1 : Does veq H dfr t m none) : Does veq H dfr (t ++ u) m none := by
  intro rest
  rw [List.append_assoc]
  exact h1 (u ++ rest)

theorem items_eq (ml mr : List (Nat × Nat)) (f : Bool) (xs ys : List (Item V)) :
    items veq H ml mr f xs ys = elems veq H false ml mr f xs ys := by
  fun_induction items veq H ml mr f xs ys with
  | case1 => rfl
  | case2 x xs y ys ih => rw [elems, ih]
  | case3 xs ys h1 h2 =>
    cases xs with
    | nil =>
      cases ys with
      | nil => exact absurd rfl (fun h => h1 rfl h)
      | cons y ys => rfl
    | cons x xs =>
      cases ys with
      | nil => rfl
      | cons y ys => exact absurd rfl (fun h => h2 x xs y ys rfl h)

/-- The comparison of one attribute. -/
def cmpItem (veq : V → V → Bool) (c : Bool → Nat → Nat → List (Nat × Nat) → Option (List (Nat × Nat)))
    (f : Bool) : Item V → Item V → List (Nat × Nat) → Option (List (Nat × Nat))
  | .val v, .val w, m => if veq v w then some m else none
  | .len n, .len k, m => if n = k then some m else none
  | .ref none d _, .ref none e _, m => if d = e then some m else none
  | .ref (some p) d _, .ref (some q) e _, m => if d = e then c (f || d) p q m else none
  | _, _, _ => none

theorem cmpItems_cons (c : Bool → Nat → Nat → List (Nat × Nat) → Option (List (Nat × Nat)))
    (f : Bool) (x y : Item V) (xs ys : List (Item V)) (m : List (Nat × Nat)) :
    cmpItems veq c f (x :: xs) (y :: ys) m =
      (cmpItem veq c f x y m).bind (cmpItems veq c f xs ys) := by
  rcases x with v | n | ⟨_ | p, d, a⟩ <;> rcases y with w | k | ⟨_ | q, e, a'⟩ <;>
    simp only [cmpItems, cmpItem, Option.bind_none]
  · split <;> rfl
  · split <;> rfl
  · split <;> rfl
  · split
    · cases c (f || d) p q m <;> rfl
    · rfl

theorem elems_does {dfr : Bool} {k a b : Nat} {f : Bool} (dd : Bool) (hk : a ≤ k)
    (hc : ∀ f p q m, p < a → (H.node p).ty = (H.node q).ty → One m →
      Does veq H dfr [.todo p q f] m (cmp veq H k f p q m)) (m0 : List (Nat × Nat)) (h0 : One m0) :
    ∀ (xs ys : List (Item V)),
      (∀ q d r, Item.ref (some q) d r ∈ xs → q < a) →
      ∀ m, One m → m0 ⊆ m →
      (elems veq H dd m0 (m0.map Prod.swap) f xs ys = none → cmpItems veq (cmp veq H k) f xs ys m = none) ∧
      (∀ ts, elems veq H dd m0 (m0.map Prod.swap) f xs ys = some ts →
        Does veq H dfr ts m (cmpItems veq (cmp veq H k) f xs ys m)) := by
  have hbad : ∀ m : List (Nat × Nat), ((if dd then some [Task.fail] else none) = none → (none : Option (List (Nat × Nat))) = none) ∧
      (∀ ts, (if dd then some [Task.fail] else none) = some ts → Does veq H dfr ts m none) := by
    intro m
    refine ⟨fun _ => rfl, fun ts h => ?_⟩
    split at h
    · have := Option.some.inj h
      subst this
      intro rest
      exact stops_step rfl
    · simp at h
  intro xs
  induction xs with
  | nil =>
    intro ys _ m h hs
    cases ys with
    | nil =>
      refine ⟨fun h => by simp [elems] at h, fun ts h => ?_⟩
      have := Option.some.inj h
      subst this
      exact does_nil m
    | cons y ys => exact hbad m
  | cons x xs ih =>
    intro ys hx m h hs
    cases ys with
    | nil =>
      have h1 : cmpItems veq (cmp veq H k) f (x :: xs) [] m = none := by
        rcases x with v | n | ⟨_ | p, d, r⟩ <;> rfl
      rw [h1]
      exact hbad m
    | cons y ys =>
      have hx' := fun q d r h => hx q d r (List.mem_cons_of_mem _ h)
      -- one attribute
      have key : (item veq H m0 (m0.map Prod.swap) f x y = none → cmpItem veq (cmp veq H k) f x y m = none) ∧
          ∀ t, item veq H m0 (m0.map Prod.swap) f x y = some t →
            Does veq H dfr t m (cmpItem veq (cmp veq H k) f x y m) := by
        rcases x with v | n | ⟨_ | p, d, r⟩ <;> rcases y with w | n' | ⟨_ | q, e, r'⟩ <;>
          simp only [item, cmpItem, reduceCtorEq, false_implies, implies_true, and_self, and_true, forall_const]
        · by_cases hv : veq v w = true
          · simp only [hv, if_true, reduceCtorEq, false_implies, true_and]
            intro t ht; cases ht; exact does_nil m
          · simp [hv]
        · by_cases hv : n = n'
          · simp only [hv, if_true, reduceCtorEq, false_implies, true_and]
            intro t ht; cases ht; exact does_nil m
          · simp [hv]
        · by_cases hv : d = e
          · simp only [hv, if_true, reduce, reduceCtorEq, false_implies, true_and]
            intro t ht; cases ht; exact does_nil m
          · simp [hv]
        · by_cases hv : d = e
          · simp [hv, reduce]
          · simp [hv]
        · by_cases hv : d = e
          · simp [hv, reduce]
          · simp [hv]
        · by_cases hv : d = e
          · have hp := hx p _ _ List.mem_cons_self
            obtain ⟨r1, r2, r3⟩ := reduce_cmp (veq := veq) (k := k) (f := f || d) (a := p) (b := q) h0 h hs
            simp only [hv, if_true] at r1 r2 r3 ⊢
            refine ⟨r1, fun t ht => ?_⟩
            rcases r3 t ht with rfl | ⟨rfl, hty⟩
            · rw [r2 ht (by omega)]
              exact does_nil m
            · exact hc _ p q m hp hty h
          · simp [hv]
      rw [cmpItems_cons]
      have hel : elems veq H dd m0 (m0.map Prod.swap) f (x :: xs) (y :: ys) =
          (item veq H m0 (m0.map Prod.swap) f x y).bind (fun t =>
            (elems veq H dd m0 (m0.map Prod.swap) f xs ys).bind (fun ts => some (t ++ ts))) := rfl
      rw [hel]
      cases hi : item veq H m0 (m0.map Prod.swap) f x y with
      | none =>
        rw [key.1 hi]
        exact ⟨fun _ => rfl, fun ts h => by simp at h⟩
      | some t =>
        have kt := key.2 t hi
        cases hci : cmpItem veq (cmp veq H k) f x y m with
        | none =>
          rw [hci] at kt
          refine ⟨fun _ => rfl, fun ts h1 => ?_⟩
          simp only [Option.bind_some] at h1
          cases he : elems veq H dd m0 (m0.map Prod.swap) f xs ys with
          | none => rw [he] at h1; simp at h1
          | some us =>
            rw [he] at h1
            have h2 : t ++ us = ts := Option.some.inj h1
            subst h2
            exact does_append_none kt
        | some m1 =>
          rw [hci] at kt
          have hm1 : One m1 ∧ m ⊆ m1 := by
            rcases x with v | n | ⟨_ | p, d, r⟩ <;> rcases y with w | n' | ⟨_ | q, e, r'⟩ <;>
              simp only [cmpItem, reduceCtorEq] at hci
            · split at hci
              · cases hci; exact ⟨h, fun _ h => h⟩
              · simp at hci
            · split at hci
              · cases hci; exact ⟨h, fun _ h => h⟩
              · simp at hci
            · split at hci
              · cases hci; exact ⟨h, fun _ h => h⟩
              · simp at hci
            · split at hci
              · have := cmp_grows k p q _ _ _ h hci
                exact ⟨this.1, this.2.1⟩
              · simp at hci
          have ih' := ih ys hx' m1 hm1.1 (fun z hz => hm1.2 (hs hz))
          simp only [Option.bind_some]
          cases he : elems veq H dd m0 (m0.map Prod.swap) f xs ys with
          | none =>
            rw [ih'.1 he]
            exact ⟨fun _ => rfl, fun ts h => by simp at h⟩
          | some us =>
            refine ⟨fun h => by simp at h, fun ts h1 => ?_⟩
            have h2 : t ++ us = ts := Option.some.inj h1
            subst h2
            exact does_append kt (ih'.2 us he)

/-- The machine computes the recursive comparison. -/
theorem todo_does (dfr : Bool) (k : Nat) : ∀ (f : Bool) (a b : Nat) (m : List (Nat × Nat)), a < k →
    (H.node a).ty = (H.node b).ty → One m → Does veq H dfr [.todo a b f] m (cmp veq H k f a b m) := by
  induction k with
  | zero => intro f a b m h; omega
  | succ k ih =>
    intro f a b m hak hty h
    have hE := fun dd => elems_does (veq := veq) (dfr := dfr) (f := f) (b := b) dd (Nat.le_of_lt_succ hak)
      (fun f p q m hp ht hm => ih f p q m (by omega) ht hm) m h
      (H.node a).es (H.node b).es (fun q d r hq => H.lt a q d r hq) m h (fun _ h => h)
    -- the entry itself
    have hstep : ∀ rest, step veq H dfr ⟨[Task.todo a b f] ++ rest, m, m.map Prod.swap⟩ =
        match dispatch veq H dfr m (m.map Prod.swap) f a b with
        | none => .ret false
        | some (ts, g) => .next ⟨ts ++ .done a b g :: rest, m, m.map Prod.swap⟩ := fun _ => rfl
    have hfail : dispatch veq H dfr m (m.map Prod.swap) f a b = none →
        Does veq H dfr [.todo a b f] m none := by
      intro hd rest
      exact stops_step (by rw [hstep, hd])
    have hgo : ∀ ts g m', dispatch veq H dfr m (m.map Prod.swap) f a b = some (ts, g) →
        Does veq H dfr ts m (some m') → (m'.lookup a = none ∨ m'.lookup a = some b) →
        Does veq H dfr [.todo a b f] m (some (if g then (a, b) :: m' else m')) := by
      intro ts g m' hd hdo hl rest
      have s1 := reach_step (s := ⟨[Task.todo a b f] ++ rest, m, m.map Prod.swap⟩)
        (s' := ⟨ts ++ .done a b g :: rest, m, m.map Prod.swap⟩) (veq := veq) (H := H) (dfr := dfr)
        (by rw [hstep, hd])
      have s2 := hdo (.done a b g :: rest)
      refine (s1.trans s2).trans (reach_step ?_)
      rcases hl with hl | hl <;> cases g <;> simp [step, hl]
    have hgoNone : ∀ ts g, dispatch veq H dfr m (m.map Prod.swap) f a b = some (ts, g) →
        Does veq H dfr ts m none → Does veq H dfr [.todo a b f] m none := by
      intro ts g hd hdo rest
      have s1 := reach_step (s := ⟨[Task.todo a b f] ++ rest, m, m.map Prod.swap⟩)
        (s' := ⟨ts ++ .done a b g :: rest, m, m.map Prod.swap⟩) (veq := veq) (H := H) (dfr := dfr)
        (by rw [hstep, hd])
      exact s1.stops (hdo (.done a b g :: rest))
    rw [cmp.eq_def]
    dsimp only
    simp only [hty, ne_eq, not_true_eq_false, if_false]
    cases e : m.lookup a with
    | some r =>
      dsimp only
      by_cases hr : r = b
      · subst hr
        simp only [if_true]
        exact hgo [] false m (by unfold dispatch; rw [e]; simp) (does_nil m) (Or.inr e)
      · simp only [hr, if_false]
        exact hfail (by unfold dispatch; rw [e]; simp [hr])
    | none =>
      dsimp only
      by_cases hb : ((m.map Prod.swap).lookup b).isSome = true
      · simp only [hb, if_true]
        exact hfail (by unfold dispatch; rw [e]; simp only [hb, if_true])
      · have hd : dispatch veq H dfr m (m.map Prod.swap) f a b =
            nodeEq veq H dfr m (m.map Prod.swap) f a b := by
          unfold dispatch; rw [e]; simp only [hb]; rfl
        simp only [hb, Bool.false_eq_true, if_false]
        by_cases hkd : (H.node a).kind = (H.node b).kind
        · simp only [hkd, not_true_eq_false, if_false]
          have hnew : ∀ m', cmpItems veq (cmp veq H k) f (H.node a).es (H.node b).es m = some m' →
              m'.lookup a = none := by
            intro m' hm'
            rw [lookup_none]
            intro y hy
            rcases (cmpItems_grows (a := a) (b := b) (fun p q _ _ => cmp_grows k p q) _ _ m m'
              (fun q d r => H.lt a q d r) (fun q d r => H.lt b q d r) h hm').2.2 a y hy with h1 | h1
            · exact lookup_none.1 e y h1
            · omega
          -- a node whose attributes are compared
          have gen : ∀ dd g, nodeEq veq H dfr m (m.map Prod.swap) f a b =
                (elems veq H dd m (m.map Prod.swap) f (H.node a).es (H.node b).es).map (·, g) →
              Does veq H dfr [.todo a b f] m
                ((cmpItems veq (cmp veq H k) f (H.node a).es (H.node b).es m).map
                  (fun m' => if g then (a, b) :: m' else m')) := by
            intro dd g hn
            cases he : elems veq H dd m (m.map Prod.swap) f (H.node a).es (H.node b).es with
            | none =>
              rw [(hE dd).1 he]
              exact hfail (by rw [hd, hn, he]; rfl)
            | some ts =>
              have h2 := (hE dd).2 ts he
              have hd' : dispatch veq H dfr m (m.map Prod.swap) f a b = some (ts, g) := by
                rw [hd, hn, he]; rfl
              cases hci : cmpItems veq (cmp veq H k) f (H.node a).es (H.node b).es m with
              | none => rw [hci] at h2; exact hgoNone ts g hd' h2
              | some m' => rw [hci] at h2; exact hgo ts g m' hd' h2 (Or.inl (hnew m' hci))
          have hn0 : nodeEq veq H dfr m (m.map Prod.swap) f a b = nodeEq veq H dfr m (m.map Prod.swap) f a b := rfl
          conv at hn0 => rhs; unfold nodeEq
          simp only [hkd, ne_eq, not_true_eq_false, if_false] at hn0
          cases hkb : (H.node b).kind <;> rw [hkb] at hn0 <;> dsimp only at hn0 ⊢
          · have := gen false false (by rw [hn0, items_eq])
            simpa using this
          · exact gen false true (by rw [hn0, items_eq])
          · rw [items_eq] at hn0
            by_cases hf : a = b ∨ f = true
            · rw [if_pos hf]
              refine gen false true ?_
              rw [hn0]
              cases elems veq H false m (m.map Prod.swap) f (H.node a).es (H.node b).es with
              | none => rfl
              | some ts => simp [hf]
            · rw [if_neg hf]
              refine hfail ?_
              rw [hd, hn0]
              cases elems veq H false m (m.map Prod.swap) f (H.node a).es (H.node b).es with
              | none => rfl
              | some ts => simp [hf]
          · by_cases hf : a = b
            · rw [if_pos hf] at hn0 ⊢
              exact hgo [] false m (by rw [hd, hn0]) (does_nil m) (Or.inl e)
            · rw [if_neg hf] at hn0 ⊢
              exact hfail (by rw [hd, hn0])
          · by_cases hf : ptrs (H.node a).es = ptrs (H.node b).es
            · rw [if_pos hf] at hn0 ⊢
              exact hgo [] false m (by rw [hd, hn0]) (does_nil m) (Or.inl e)
            · rw [if_neg hf] at hn0 ⊢
              exact gen false true (by rw [hn0, items_eq])
          · have := gen dfr false hn0
            simpa using this
        · rw [if_pos hkd]
          refine hfail ?_
          rw [hd]; unfold nodeEq; rw [if_pos hkd]

/-- The verdict of the recursive comparison. -/
def verdict (veq : V → V → Bool) (H : Heap V) (lhs rhs : Option Nat) (f : Bool) : Bool :=
  match lhs, rhs with
  | none, none => true
  | some a, some b => (cmp veq H (a + 1) f a b []).isSome
  | _, _ => false

/-- Every call finishes, no internal check fails, and the result is the one of the recursive comparison,
whether failures are deferred or not. -/
theorem equal_eq (dfr : Bool) (lhs rhs : Option Nat) (f : Bool) :
    ∃ n, ∀ j, equal veq H dfr (j + n) lhs rhs f = some (some (verdict veq H lhs rhs f)) := by
  have h1 : One [] := by intro x y x' y' h; simp at h
  cases lhs with
  | none =>
    cases rhs with
    | none => exact ⟨0, fun _ => rfl⟩
    | some b => exact ⟨0, fun _ => rfl⟩
  | some a =>
    cases rhs with
    | none => exact ⟨0, fun _ => rfl⟩
    | some b =>
      unfold equal
      by_cases hty : (H.node a).ty = (H.node b).ty
      · have hr : reduce H [] [] f (some a) (some b) = some [.todo a b f] := by
          rw [reduce_some]; simp [hty]
        simp only [hr, List.length_singleton, if_true]
        have := todo_does (veq := veq) (H := H) dfr (a + 1) f a b [] (Nat.lt_succ_self a) hty h1
        unfold verdict
        cases hc : cmp veq H (a + 1) f a b [] with
        | none =>
          rw [hc] at this
          obtain ⟨n, hn⟩ := this []
          exact ⟨n, fun j => by have := hn j; simpa [hc] using this⟩
        | some m' =>
          rw [hc] at this
          obtain ⟨n, hn⟩ := (this []).stops (stops_step (r := true) rfl)
          exact ⟨n, fun j => by have := hn j; simpa [hc] using this⟩
      · have hr : reduce H [] [] f (some a) (some b) = none := by
          rw [reduce_some]; simp [hty]
        refine ⟨0, fun j => ?_⟩
        simp [hr, verdict, cmp, hty]

theorem run_mono {dfr : Bool} {n : Nat} {s : St} {r : Option Bool} (h : run veq H dfr n s = some r) (j : Nat) :
    run veq H dfr (n + j) s = some r := by
  induction n generalizing s with
  | zero => simp [run] at h
  | succ n ih =>
    rw [Nat.add_right_comm, run]
    rw [run] at h
    cases hs : step veq H dfr s with
    | next s' => rw [hs] at h; exact ih h
    | ret b => rw [hs] at h; exact h
    | crash => rw [hs] at h; exact h

theorem equal_mono {dfr : Bool} {n : Nat} {lhs rhs : Option Nat} {f : Bool} {r : Option Bool}
    (h : equal veq H dfr n lhs rhs f = some r) (j : Nat) : equal veq H dfr (n + j) lhs rhs f = some r := by
  unfold equal at h ⊢
  split
  · simpa using h
  · rename_i hne
    split at h
    · exact (hne rfl rfl).elim
    split at h
    · exact h
    · split at h
      · rename_i hl
        simp only [hl, if_true]
        exact run_mono h j
      · rename_i hl
        simp only [hl, if_false]
        exact h

theorem returns_iff {lhs rhs : Option Nat} {f r : Bool} :
    Returns veq H lhs rhs f r ↔ verdict veq H lhs rhs f = r := by
  obtain ⟨n, hn⟩ := equal_eq (veq := veq) (H := H) false lhs rhs f
  constructor
  · rintro ⟨k, hk⟩
    have h1 := equal_mono hk n
    rw [hn k] at h1
    simpa using h1
  · rintro rfl
    exact ⟨0 + n, hn 0⟩

theorem returnsDeferred_iff {lhs rhs : Option Nat} {f r : Bool} :
    ReturnsDeferred veq H lhs rhs f r ↔ verdict veq H lhs rhs f = r := by
  obtain ⟨n, hn⟩ := equal_eq (veq := veq) (H := H) true lhs rhs f
  constructor
  · rintro ⟨k, hk⟩
    have h1 := equal_mono hk n
    rw [hn k] at h1
    simpa using h1
  · rintro rfl
    exact ⟨0 + n, hn 0⟩

end

end Verif.StructEq
