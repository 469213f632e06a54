import Verif.HashMap
import Mathlib.Data.List.Perm.Subperm
import Mathlib.Tactic.Ring
import Mathlib.Tactic.Positivity
import Mathlib.Tactic.IntervalCases

/-! # Robin Hood invariant of the hash table: preserved by every operation -/

namespace Verif.HashMap

variable {K V : Type}

/-- What hashing needs of the functors: equality is an equivalence and equal keys have equal hashes. -/
structure Ops.Lawful (o : Ops K) : Prop where
  refl : ∀ a, o.eq a a = true
  symm : ∀ a b, o.eq a b = true → o.eq b a = true
  trans : ∀ a b c, o.eq a b = true → o.eq b c = true → o.eq a c = true
  hash : ∀ a b, o.eq a b = true → o.hash a = o.hash b

/-- The slots from position `n` on are in order: `b` bounds the distance of the first one. -/
def WF (o : Ops K) (log : Nat) : Nat → Nat → List (Cell (K × V)) → Prop
  | _, _, [] => False
  | n, _, .empty :: r => WF o log (n + 1) 0 r
  | n, b, .full d x :: r =>
    home o log x.1 + d = n ∧ d < maxLOf log ∧ d ≤ b ∧ WF o log (n + 1) (d + 1) r
  | n, _, .fin :: r => r = [] ∧ n + 1 = slotsOf log + maxLOf log

variable {o : Ops K} {log : Nat}

theorem WF_empty {n b : Nat} {r : List (Cell (K × V))} :
    WF o log n b (.empty :: r) ↔ WF o log (n + 1) 0 r := Iff.rfl

theorem WF_full {n b d : Nat} {x : K × V} {r : List (Cell (K × V))} :
    WF o log n b (.full d x :: r) ↔
      home o log x.1 + d = n ∧ d < maxLOf log ∧ d ≤ b ∧ WF o log (n + 1) (d + 1) r := Iff.rfl

theorem WF_fin {n b : Nat} {r : List (Cell (K × V))} :
    WF o log n b (.fin :: r) ↔ r = [] ∧ n + 1 = slotsOf log + maxLOf log := Iff.rfl

theorem WF.mono {c : List (Cell (K × V))} {n b b' : Nat} (h : WF o log n b c) (hb : b ≤ b') :
    WF o log n b' c := by
  cases c with
  | nil => exact h.elim
  | cons a r =>
    cases a with
    | empty => exact h
    | full d x => exact ⟨h.1, h.2.1, le_trans h.2.2.1 hb, h.2.2.2⟩
    | fin => exact h

theorem WF.length {c : List (Cell (K × V))} {n b : Nat} (h : WF o log n b c) :
    n + c.length = slotsOf log + maxLOf log := by
  induction c generalizing n b with
  | nil => exact h.elim
  | cons a r ih =>
    cases a with
    | empty => have := ih (WF_empty.mp h); simp; omega
    | full d x => have := ih (WF_full.mp h).2.2.2; simp; omega
    | fin => obtain ⟨rfl, h'⟩ := WF_fin.mp h; simpa using h'

theorem WF.home_ge {c : List (Cell (K × V))} {n b : Nat} (h : WF o log n b c) :
    ∀ x ∈ contents c, n ≤ home o log x.1 + b := by
  induction c generalizing n b with
  | nil => exact h.elim
  | cons a r ih =>
    cases a with
    | empty =>
      intro x hx
      have := ih (WF_empty.mp h) x hx
      omega
    | full d y =>
      rw [WF_full] at h
      intro x hx
      rcases List.mem_cons.mp hx with rfl | hx
      · omega
      · have := ih h.2.2.2 x hx
        omega
    | fin => intro x hx; simp [contents] at hx

theorem WF.home_lt_pos {c : List (Cell (K × V))} {n b i d : Nat} {x : K × V} (h : WF o log n b c)
    (hi : c[i]? = some (.full d x)) : home o log x.1 + d = n + i ∧ d < maxLOf log := by
  induction c generalizing n b i with
  | nil => exact h.elim
  | cons a r ih =>
    cases i with
    | zero =>
      simp at hi
      subst hi
      exact ⟨by simpa using h.1, h.2.1⟩
    | succ i =>
      simp at hi
      cases a with
      | empty => have := ih (WF_empty.mp h) hi; omega
      | full _ _ => have := ih (WF_full.mp h).2.2.2 hi; omega
      | fin => obtain ⟨rfl, _⟩ := h; simp at hi

/-- Cutting the array before a slot: the rest can be exchanged. -/
theorem WF.split {c : List (Cell (K × V))} {n b i : Nat} (h : WF o log n b c) (hi : i < c.length) :
    ∃ b', WF o log (n + i) b' (c.drop i) ∧
      (∀ r, WF o log (n + i) b' r → WF o log n b (c.take i ++ r)) ∧
      (∀ r, contents (c.take i ++ r) = contents (c.take i) ++ contents r) ∧
      (∀ x ∈ contents (c.take i), home o log x.1 < n + i) ∧
      (i = 0 → b' = b) := by
  induction i generalizing c n b with
  | zero => exact ⟨b, by simpa using h, by simp, by simp [contents], by simp [contents], fun _ => rfl⟩
  | succ i ih =>
    cases c with
    | nil => exact h.elim
    | cons a r =>
      cases a with
      | empty =>
        rw [WF_empty] at h
        obtain ⟨b', h1, h2, h3, h4, -⟩ := ih h (by simpa using hi)
        rw [show n + 1 + i = n + (i + 1) by ring] at h1 h2 h4
        exact ⟨b', h1, fun r' hr' => h2 r' hr', fun r' => by simpa [contents] using h3 r', h4, by omega⟩
      | full d y =>
        rw [WF_full] at h
        obtain ⟨b', h1, h2, h3, h4, -⟩ := ih h.2.2.2 (by simpa using hi)
        rw [show n + 1 + i = n + (i + 1) by ring] at h1 h2 h4
        refine ⟨b', h1, fun r' hr' => ⟨h.1, h.2.1, h.2.2.1, h2 r' hr'⟩,
          fun r' => by simpa [contents] using h3 r', ?_, by omega⟩
        intro x hx
        rcases List.mem_cons.mp hx with rfl | hx
        · have := h.1; omega
        · exact h4 x hx
      | fin =>
        obtain ⟨rfl, _⟩ := WF_fin.mp h
        simp at hi

/-- What the probe loop finds out. -/
theorem probe_spec (ho : o.Lawful) (k : K) {c : List (Cell (K × V))} {n b d : Nat} (h : WF o log n b c)
    (hn : home o log k + d = n) (hd : d ≤ b) (hfin : d = 0 → n + 1 < slotsOf log + maxLOf log) :
    match probe o k c d with
    | .oob => False
    | .found d' => d ≤ d' ∧ ∃ e x, c[d' - d]? = some (.full e x) ∧ o.eq k x.1 = true
    | .stop d' => d ≤ d' ∧ d' - d < c.length ∧ (∀ x ∈ contents c, o.eq k x.1 = false) ∧
        (d' = d ∨ d' ≤ maxLOf log) ∧
        ∃ b', d' ≤ b' ∧ WF o log (n + (d' - d)) b' (c.drop (d' - d)) ∧
          (∀ r, WF o log (n + (d' - d)) b' r → WF o log n b (c.take (d' - d) ++ r)) ∧
          (∀ r, contents (c.take (d' - d) ++ r) = contents (c.take (d' - d)) ++ contents r) ∧
          (∀ e x r, c.drop (d' - d) = .full e x :: r → e < d') := by
  induction c generalizing n b d with
  | nil => exact h.elim
  | cons a r ih =>
    cases a with
    | empty =>
      rw [WF_empty] at h
      simp only [probe, le_refl, Nat.sub_self, List.length_cons, Nat.zero_lt_succ, true_and, List.drop_zero,
        List.take_zero, List.nil_append, contents, Nat.add_zero, true_or]
      refine ⟨?_, b, hd, h, fun r hr => hr, by simp, by simp⟩
      intro x hx
      have := h.home_ge x hx
      cases he : o.eq k x.1 with
      | false => rfl
      | true =>
        have hh := ho.hash _ _ he
        unfold home at hn this
        rw [hh] at hn
        omega
    | full e x =>
      rw [WF_full] at h
      simp only [probe]
      by_cases hed : e < d
      · simp only [hed, if_true, le_refl, Nat.sub_self, List.length_cons, Nat.zero_lt_succ, true_and,
          List.drop_zero, List.take_zero, List.nil_append, Nat.add_zero, true_or]
        refine ⟨?_, b, hd, h, fun r hr => hr, by simp [contents], ?_⟩
        · intro y hy
          have hge : n ≤ home o log y.1 + e := by
            rcases List.mem_cons.mp hy with rfl | hy
            · exact h.1.ge
            · have := h.2.2.2.home_ge y hy
              omega
          cases he : o.eq k y.1 with
          | false => rfl
          | true =>
            have hh := ho.hash _ _ he
            unfold home at hn hge
            rw [hh] at hn
            omega
        · intro e' x' r' heq
          injection heq with h1 h2
          injection h1 with h3 h4
          omega
      · simp only [hed, if_false]
        by_cases hk : o.eq k x.1 = true
        · simp only [hk, if_true, le_refl, Nat.sub_self, true_and]
          exact ⟨e, x, by simp, hk⟩
        · simp only [hk]
          have := ih h.2.2.2 (d := d + 1) (by omega) (by omega) (by omega)
          simp only [Bool.false_eq_true, if_false]
          revert this
          cases hp : probe o k r (d + 1) with
          | oob => exact id
          | found d' =>
            rintro ⟨h1, e', x', h2, h3⟩
            refine ⟨by omega, e', x', ?_, h3⟩
            obtain ⟨j, hj⟩ := Nat.exists_eq_add_of_le h1
            subst hj
            rw [show d + 1 + j - d = j + 1 by omega]
            rw [show d + 1 + j - (d + 1) = j by omega] at h2
            simpa using h2
          | stop d' =>
            rintro ⟨h1, h2, h3, h3', b', h4, h5, h6, h7, h8⟩
            obtain ⟨j, hj⟩ := Nat.exists_eq_add_of_le h1
            subst hj
            rw [show d + 1 + j - (d + 1) = j by omega] at h2 h5 h6 h7 h8
            have hd1 : e < maxLOf log := h.2.1
            have hde : e ≥ d := by omega
            dsimp only
            rw [show d + 1 + j - d = j + 1 by omega]
            rw [show n + 1 + j = n + (j + 1) by ring] at h5 h6
            refine ⟨by omega, by simpa using h2, ?_, by omega, b', h4, by simpa using h5, ?_, ?_, by simpa using h8⟩
            · intro y hy
              rcases List.mem_cons.mp hy with rfl | hy
              · simpa using hk
              · exact h3 y hy
            · intro r' hr'
              exact ⟨h.1, h.2.1, h.2.2.1, h6 r' hr'⟩
            · intro r'
              simpa [contents] using h7 r'
    | fin =>
      obtain ⟨rfl, hl⟩ := WF_fin.mp h
      have hd0 : d ≠ 0 := fun h0 => by have := hfin h0; omega
      simp only [probe, hd0, if_false, le_refl, Nat.sub_self, true_and, contents, List.drop_zero,
        List.take_zero, List.nil_append, Nat.add_zero, true_or]
      exact ⟨by simp, by simp, b, hd, ⟨rfl, hl⟩, fun r hr => hr, by simp, by simp⟩

/-- The displacement loop keeps the order, loses nothing and does not leave the array. -/
theorem displace_spec {r : List (Cell (K × V))} {n h : Nat} {y : K × V} (hw : WF o log n h r)
    (hy : home o log y.1 + h = n) (hh : h < maxLOf log)
    (hs : ∀ x ∈ y :: contents r, home o log x.1 < slotsOf log) :
    match displace (maxLOf log) r h y with
    | .placed r' => (∀ p, h ≤ p → WF o log n p r') ∧ (contents r').Perm (y :: contents r)
    | .stuck r' z => (z :: contents r').Perm (y :: contents r)
    | .oob => False := by
  induction r generalizing n h y with
  | nil => exact hw.elim
  | cons a r ih =>
    cases a with
    | empty =>
      rw [WF_empty] at hw
      exact ⟨fun p hp => ⟨hy, hh, hp, hw.mono (by omega)⟩, List.Perm.refl _⟩
    | full d x =>
      rw [WF_full] at hw
      simp only [displace]
      by_cases hdh : d < h
      · simp only [hdh, if_true]
        have := ih hw.2.2.2 (y := x) (by omega) (by omega)
          (fun z hz => hs z (List.mem_cons_of_mem _ hz))
        revert this
        cases displace (maxLOf log) r (d + 1) x with
        | placed r' =>
          rintro ⟨h1, h2⟩
          exact ⟨fun p hp => ⟨hy, hh, hp, h1 _ (by omega)⟩, List.Perm.cons _ h2⟩
        | stuck r' z =>
          intro h2
          exact (List.Perm.swap _ _ _).trans (List.Perm.cons _ h2)
        | oob => exact id
      · simp only [hdh, if_false]
        by_cases hm : h + 1 = maxLOf log
        · simp only [hm, if_true]
          exact List.Perm.refl _
        · simp only [hm, if_false]
          have := ih (h := h + 1) (n := n + 1) (y := y) (hw.2.2.2.mono (by omega)) (by omega) (by omega) (by
            intro z hz
            apply hs
            rcases List.mem_cons.mp hz with rfl | hz
            · simp
            · simp [contents, hz])
          revert this
          cases displace (maxLOf log) r (h + 1) y with
          | placed r' =>
            rintro ⟨h1, h2⟩
            exact ⟨fun p hp => ⟨hw.1, hw.2.1, by omega, h1 _ (by omega)⟩,
              (List.Perm.cons _ h2).trans (List.Perm.swap _ _ _)⟩
          | stuck r' z =>
            intro h2
            exact (List.Perm.swap _ _ _).trans ((List.Perm.cons _ h2).trans (List.Perm.swap _ _ _))
          | oob => exact id
    | fin =>
      obtain ⟨rfl, hl⟩ := WF_fin.mp hw
      have := hs y (by simp)
      show False
      omega

/-- Backward shifting closes the gap. -/
theorem shift_spec {r : List (Cell (K × V))} {m e p : Nat} (hw : WF o log (m + 1) e r) (he : e ≤ p + 1) :
    ∃ r', shift r = some r' ∧ WF o log m p r' ∧ contents r' = contents r := by
  induction r generalizing m e p with
  | nil => exact hw.elim
  | cons a r ih =>
    cases a with
    | empty => exact ⟨_, rfl, hw, rfl⟩
    | fin => exact ⟨_, rfl, hw, rfl⟩
    | full d x =>
      rw [WF_full] at hw
      cases d with
      | zero => exact ⟨_, rfl, ⟨hw.1, hw.2.1, le_refl _, hw.2.2.2⟩, rfl⟩
      | succ d =>
        obtain ⟨r', h1, h2, h3⟩ := ih (p := d + 1) hw.2.2.2 (by omega)
        refine ⟨.full d x :: r', by simp [shift, h1], ⟨by omega, by omega, by omega, h2⟩, ?_⟩
        simp [contents, h3]

/-! ## The invariant of a table -/

/-- No two keys are equal. -/
def Distinct (o : Ops K) (l : List (K × V)) : Prop := l.Pairwise (fun x y => o.eq x.1 y.1 = false)

/-- The invariant of a table. -/
structure Inv (o : Ops K) (t : Table K V) : Prop where
  wf : WF o t.log 0 0 t.cells
  num : t.num = t.toList.length
  distinct : Distinct o t.toList
  log : t.log ≤ 63
  default : t.log = 0 → t.toList = []

theorem Distinct.perm (ho : o.Lawful) {l l' : List (K × V)} (h : Distinct o l) (hp : l.Perm l') :
    Distinct o l' := by
  refine List.Perm.pairwise hp h ?_
  intro x y hxy
  cases hh : o.eq y.1 x.1 with
  | false => rfl
  | true => rw [ho.symm _ _ hh] at hxy; cases hxy

theorem Distinct.cons {x : K × V} {l : List (K × V)} (h : Distinct o l)
    (hx : ∀ y ∈ l, o.eq x.1 y.1 = false) : Distinct o (x :: l) :=
  List.pairwise_cons.mpr ⟨hx, h⟩

theorem indexOf_lt {log h : Nat} (h1 : 1 ≤ log) (h2 : log ≤ 63) : indexOf log h < slotsOf log := by
  unfold indexOf slotsOf
  have h0 : log ≠ 0 := by omega
  simp only [h0, if_false, Nat.shiftRight_eq_div_pow]
  rw [Nat.div_lt_iff_lt_mul (by positivity), ← pow_add]
  rw [show log + (64 - log) = 64 by omega]
  exact Nat.mod_lt _ (by positivity)

theorem indexOf_zero (h : Nat) : indexOf 0 h ≤ 1 := by
  unfold indexOf
  simp only [if_true, Nat.shiftRight_eq_div_pow]
  have : (11400714819323198485 * h) % 2 ^ 64 < 2 ^ 64 := Nat.mod_lt _ (by positivity)
  generalize (11400714819323198485 * h) % 2 ^ 64 = m at this
  omega

theorem maxL_ge (log : Nat) : 3 ≤ maxLOf log := by
  unfold maxLOf; split <;> omega

/-- The desired slot is inside the array, before the end marker. -/
theorem home_in (o : Ops K) {log : Nat} (h : log ≤ 63) (k : K) :
    home o log k + 1 < slotsOf log + maxLOf log := by
  by_cases h0 : log = 0
  · subst h0
    have := indexOf_zero (o.hash k)
    unfold home
    simp [slotsOf, maxLOf]
    omega
  · have := indexOf_lt (h := o.hash k) (show 1 ≤ log by omega) h
    have := maxL_ge log
    unfold home
    omega

theorem contents_replicate (n : Nat) {α : Type} :
    contents (List.replicate n (.empty : Cell α) ++ [.fin]) = [] := by
  induction n with
  | zero => rfl
  | succ n ih => simpa [List.replicate_succ, contents] using ih

theorem WF_replicate (n k : Nat) (h : k + n + 1 = slotsOf log + maxLOf log) :
    WF (V := V) o log k 0 (List.replicate n .empty ++ [.fin]) := by
  induction n generalizing k with
  | zero => exact ⟨rfl, by simpa using h⟩
  | succ n ih =>
    rw [List.replicate_succ, List.cons_append, WF_empty]
    exact ih (k + 1) (by omega)

theorem emptyTable_inv (o : Ops K) {log : Nat} (h : log ≤ 63) : Inv o (emptyTable K V log) where
  wf := WF_replicate _ _ (by have := maxL_ge log; simp only [emptyTable]; omega)
  num := by simp [emptyTable, Table.toList, contents_replicate]
  distinct := by simp [emptyTable, Table.toList, contents_replicate, Distinct]
  log := h
  default := fun _ => by simp [emptyTable, Table.toList, contents_replicate]

theorem emptyTable_toList (K V : Type) (log : Nat) : (emptyTable K V log).toList = [] := by
  simp [emptyTable, Table.toList, contents_replicate]

theorem mem_contents_of_getElem? {c : List (Cell (K × V))} {n b i d : Nat} {x : K × V}
    (h : WF o log n b c) (hi : c[i]? = some (.full d x)) : x ∈ contents c := by
  induction c generalizing n b i with
  | nil => exact h.elim
  | cons a r ih =>
    cases i with
    | zero =>
      simp at hi
      subst hi
      simp [contents]
    | succ i =>
      simp at hi
      cases a with
      | empty => exact ih (WF_empty.mp h) hi
      | full _ _ => exact List.mem_cons_of_mem _ (ih (WF_full.mp h).2.2.2 hi)
      | fin => obtain ⟨rfl, _⟩ := WF_fin.mp h; simp at hi

/-- Probing for a key from its desired slot, for the whole table. -/
theorem probe_table (ho : o.Lawful) {t : Table K V} (hi : Inv o t) (k : K) :
    match probe o k (t.cells.drop (home o t.log k)) 0 with
    | .oob => False
    | .found d => ∃ e x, t.cells[home o t.log k + d]? = some (.full e x) ∧ o.eq k x.1 = true
    | .stop d => home o t.log k + d < t.cells.length ∧ (∀ x ∈ t.toList, o.eq k x.1 = false) ∧
        d ≤ maxLOf t.log ∧
        ∃ b, d ≤ b ∧ WF o t.log (home o t.log k + d) b (t.cells.drop (home o t.log k + d)) ∧
          (∀ r, WF o t.log (home o t.log k + d) b r →
            WF o t.log 0 0 (t.cells.take (home o t.log k + d) ++ r)) ∧
          (∀ r, contents (t.cells.take (home o t.log k + d) ++ r) =
            contents (t.cells.take (home o t.log k + d)) ++ contents r) ∧
          (∀ e x r, t.cells.drop (home o t.log k + d) = .full e x :: r → e < d) := by
  have hlen := hi.wf.length
  have hin := home_in o hi.log k
  obtain ⟨b, h1, h2, h3, h4, -⟩ := hi.wf.split (i := home o t.log k) (by omega)
  simp only [Nat.zero_add] at h1 h2 h3 h4
  have hp := probe_spec ho k h1 (d := 0) (by simp) (by omega) (fun _ => hin)
  revert hp
  cases hpr : probe o k (t.cells.drop (home o t.log k)) 0 with
  | oob => exact id
  | found d =>
    rintro ⟨-, e, x, h5, h6⟩
    exact ⟨e, x, by simpa using h5, h6⟩
  | stop d =>
    rintro ⟨-, h5, h6, h7, b', h8, h9, h10, h11, h12⟩
    simp only [Nat.sub_zero, List.drop_drop, List.length_drop] at h5 h9 h10 h11 h12
    have htk : t.cells.take (home o t.log k + d) =
        t.cells.take (home o t.log k) ++ (t.cells.drop (home o t.log k)).take d := by
      rw [List.take_add]
    refine ⟨by omega, ?_, by omega, b', h8, h9, ?_, ?_, h12⟩
    · intro x hx
      unfold Table.toList at hx
      rw [← List.take_append_drop (home o t.log k) t.cells, h3] at hx
      rcases List.mem_append.mp hx with hx | hx
      · have := h4 x hx
        cases he : o.eq k x.1 with
        | false => rfl
        | true =>
          have hh := ho.hash _ _ he
          unfold home at this
          rw [hh] at this
          omega
      · exact h6 x hx
    · intro r hr
      rw [htk, List.append_assoc]
      exact h2 _ (h10 r hr)
    · intro r
      rw [htk, List.append_assoc, h3, h3, h11, List.append_assoc]

/-- `find` finds the key exactly if it is there. -/
theorem find_spec (ho : o.Lawful) {t : Table K V} (hi : Inv o t) (k : K) :
    (∃ i e x, find o t k = .ok (some i) ∧ t.cells[i]? = some (.full e x) ∧ o.eq k x.1 = true) ∨
    (find o t k = .ok none ∧ ∀ x ∈ t.toList, o.eq k x.1 = false) := by
  have := probe_table ho hi k
  unfold find
  revert this
  cases hpr : probe o k (t.cells.drop (home o t.log k)) 0 with
  | oob => exact False.elim
  | found d =>
    rintro ⟨e, x, h1, h2⟩
    exact .inl ⟨_, e, x, rfl, h1, h2⟩
  | stop d => rintro ⟨-, h, -⟩; exact .inr ⟨rfl, h⟩

theorem inv_home_lt {t : Table K V} (hi : Inv o t) {x : K × V} (h0 : t.log ≠ 0) :
    home o t.log x.1 < slotsOf t.log := indexOf_lt (by omega) hi.log

/-- One attempt at an insertion. -/
theorem step_spec (ho : o.Lawful) {t : Table K V} (hi : Inv o t) (x : K × V) :
    match step o t x with
    | .oob => False
    | .present i => ∃ e y, t.cells[i]? = some (.full e y) ∧ o.eq x.1 y.1 = true
    | .inserted t' i => Inv o t' ∧ t'.log = t.log ∧ t'.toList.Perm (x :: t.toList) ∧
        (∃ e, t'.cells[i]? = some (.full e x)) ∧ ∀ y ∈ t.toList, o.eq x.1 y.1 = false
    | .full t' => t'.log = t.log ∧ t'.num = t.num ∧ t'.toList.Perm t.toList ∧
        ∀ y ∈ t.toList, o.eq x.1 y.1 = false := by
  have hp := probe_table ho hi x.1
  unfold step
  dsimp only
  revert hp
  cases hpr : probe o x.1 (t.cells.drop (home o t.log x.1)) 0 with
  | oob => exact id
  | found d => exact id
  | stop d =>
    rintro ⟨hlt, habs, hdm, b, hdb, hw, hrep, hcon, hfull⟩
    dsimp only
    by_cases hg : t.log = 0 ∨ d = maxLOf t.log ∨ slotsOf t.log < 2 * (t.num + 1)
    · rw [if_pos hg]
      exact ⟨rfl, rfl, List.Perm.refl _, habs⟩
    · rw [if_neg hg]
      push Not at hg
      obtain ⟨hg0, hgd, hgn⟩ := hg
      have hhome : home o t.log x.1 < slotsOf t.log := inv_home_lt hi hg0
      have hsplit : t.cells.take (home o t.log x.1 + d) ++ t.cells.drop (home o t.log x.1 + d) = t.cells :=
        List.take_append_drop _ _
      have hlist : t.toList = contents (t.cells.take (home o t.log x.1 + d)) ++
          contents (t.cells.drop (home o t.log x.1 + d)) := by
        rw [← hcon, hsplit]; rfl
      have htl : (t.cells.take (home o t.log x.1 + d)).length = home o t.log x.1 + d := by
        rw [List.length_take]; omega
      have hget : ∀ (c : Cell (K × V)) r, (t.cells.take (home o t.log x.1 + d) ++ c :: r)[home o t.log x.1 + d]?
          = some c := by
        intro c r
        rw [List.getElem?_append_right (by omega), htl]
        simp
      have mk : ∀ r, WF o t.log (home o t.log x.1 + d) b (.full d x :: r) →
          (contents r).Perm (contents (t.cells.drop (home o t.log x.1 + d))) →
          Inv o { t with cells := t.cells.take (home o t.log x.1 + d) ++ .full d x :: r, num := t.num + 1 } ∧
          (contents (t.cells.take (home o t.log x.1 + d) ++ .full d x :: r)).Perm (x :: t.toList) := by
        intro r hr hpr
        have hperm : (contents (t.cells.take (home o t.log x.1 + d) ++ .full d x :: r)).Perm (x :: t.toList) := by
          rw [hcon, hlist]
          simp only [contents]
          exact List.perm_middle.trans (List.Perm.cons _ (List.Perm.append_left _ hpr))
        refine ⟨⟨hrep _ hr, ?_, ?_, hi.log, fun h => (hg0 h).elim⟩, hperm⟩
        · have := hperm.length_eq
          simp only [Table.toList] at this ⊢
          rw [this, hi.num]
          rfl
        · exact (hi.distinct.cons habs).perm ho hperm.symm
      cases hdrop : t.cells.drop (home o t.log x.1 + d) with
      | nil => rw [hdrop] at hw; exact hw.elim
      | cons a r =>
        rw [hdrop] at hw
        cases a with
        | empty =>
          dsimp only
          obtain ⟨h1, h2⟩ := mk r ⟨rfl, by omega, hdb, (WF_empty.mp hw).mono (by omega)⟩
            (by rw [hdrop]; rfl)
          exact ⟨h1, rfl, h2, ⟨d, hget _ _⟩, habs⟩
        | fin =>
          obtain ⟨rfl, h⟩ := WF_fin.mp hw
          dsimp only
          omega
        | full e y =>
          have hed : e < d := hfull e y r hdrop
          rw [WF_full] at hw
          dsimp only
          have hds := displace_spec (y := y) hw.2.2.2 (by omega) (by omega)
            (fun z _ => inv_home_lt hi hg0)
          revert hds
          cases displace (maxLOf t.log) r (e + 1) y with
          | oob => exact id
          | placed r' =>
            rintro ⟨h1, h2⟩
            obtain ⟨h3, h4⟩ := mk r' ⟨rfl, by omega, hdb, h1 _ (by omega)⟩ (by rw [hdrop]; exact h2)
            exact ⟨h3, rfl, h4, ⟨d, hget _ _⟩, habs⟩
          | stuck r' z =>
            intro h2
            refine ⟨rfl, rfl, ?_, habs⟩
            show (contents (t.cells.take (home o t.log x.1 + d) ++ .full d z :: r')).Perm t.toList
            rw [hcon, hlist, hdrop]
            exact List.Perm.append_left _ h2

/-- What an insertion is to do. -/
def EmpSpec (o : Ops K) (t : Table K V) (x : K × V) : Except Err (Table K V × Nat × Bool) → Prop
  | .error e => e = .nomem
  | .ok (t', i, new) => Inv o t' ∧ t.log ≤ t'.log ∧
      if new then
        t'.toList.Perm (x :: t.toList) ∧ (∃ e, t'.cells[i]? = some (.full e x)) ∧
          ∀ y ∈ t.toList, o.eq x.1 y.1 = false
      else t' = t ∧ ∃ e y, t.cells[i]? = some (.full e y) ∧ o.eq x.1 y.1 = true

theorem sizeLog_le {n : Nat} : n ≤ 2 ^ sizeLog n := by
  unfold sizeLog
  split
  · omega
  · have := Nat.lt_log2_self (n := n - 1)
    omega

theorem sizeLog_min {n l : Nat} (h1 : 1 ≤ l) (h : n ≤ 2 ^ l) : sizeLog n ≤ l := by
  unfold sizeLog
  split
  · exact h1
  · have : Nat.log2 (n - 1) < l := (Nat.log2_lt (by omega)).mpr (by omega)
    omega

theorem sizeLog_pos (n : Nat) : 1 ≤ sizeLog n := by
  unfold sizeLog; split <;> omega

/-! ## The word tricks of `log2` and `next_power_of_two` -/

theorem smear_step {v x n : Nat} (h : ∀ i, x.testBit i = true ↔ ∃ j < n, v.testBit (i + j) = true) :
    ∀ i, (x ||| x >>> n).testBit i = true ↔ ∃ j < 2 * n, v.testBit (i + j) = true := by
  intro i
  rw [Nat.testBit_or, Nat.testBit_shiftRight, Bool.or_eq_true, h, h]
  constructor
  · rintro (⟨j, h1, h2⟩ | ⟨j, h1, h2⟩)
    · exact ⟨j, by omega, h2⟩
    · exact ⟨n + j, by omega, by rwa [show i + (n + j) = n + i + j by ring]⟩
  · rintro ⟨j, h1, h2⟩
    by_cases hj : j < n
    · exact .inl ⟨j, hj, h2⟩
    · exact .inr ⟨j - n, by omega, by rwa [show n + i + (j - n) = i + j by omega]⟩

theorem smear_bits (v : Nat) : ∀ i, (smear v).testBit i = true ↔ ∃ j < 64, v.testBit (i + j) = true := by
  have h0 : ∀ i, v.testBit i = true ↔ ∃ j < 1, v.testBit (i + j) = true := by
    intro i
    exact ⟨fun h => ⟨0, by omega, h⟩, fun ⟨j, h1, h2⟩ => by
      have : j = 0 := by omega
      subst this
      exact h2⟩
  exact smear_step (smear_step (smear_step (smear_step (smear_step (smear_step h0)))))

/-- The smeared word is all ones up to its top bit. -/
theorem smear_eq {v : Nat} (h0 : v ≠ 0) (h : v < 2 ^ 64) : smear v = 2 ^ (Nat.log2 v + 1) - 1 := by
  apply Nat.eq_of_testBit_eq
  intro i
  rw [Nat.testBit_two_pow_sub_one, Bool.eq_iff_iff, smear_bits, decide_eq_true_iff]
  have hL : Nat.log2 v < 64 := (Nat.log2_lt h0).mpr h
  constructor
  · rintro ⟨j, -, h2⟩
    by_contra hc
    have hlt : v < 2 ^ (i + j) := lt_of_lt_of_le Nat.lt_log2_self (Nat.pow_le_pow_right (by omega) (by omega))
    rw [Nat.testBit_lt_two_pow hlt] at h2
    cases h2
  · intro hi
    refine ⟨Nat.log2 v - i, by omega, ?_⟩
    rw [show i + (Nat.log2 v - i) = Nat.log2 v by omega, Nat.testBit_log2 h0]

theorem log2Table_spec : ∀ L < 64, log2Table.getD (((2 ^ L * 0x07EDD5E59A4E28C2) % 2 ^ 64) >>> 58) 0 = L := by
  decide +kernel

/-- `log2` is the binary logarithm of every word. -/
theorem log2Word_eq {v : Nat} (h0 : v ≠ 0) (h : v < 2 ^ 64) : log2Word v = Nat.log2 v := by
  unfold log2Word
  dsimp only
  rw [smear_eq h0 h]
  have hp : 2 ^ (Nat.log2 v + 1) - 1 - (2 ^ (Nat.log2 v + 1) - 1) >>> 1 = 2 ^ Nat.log2 v := by
    rw [Nat.shiftRight_eq_div_pow, pow_succ]
    have : 0 < 2 ^ Nat.log2 v := by positivity
    omega
  rw [hp]
  exact log2Table_spec _ ((Nat.log2_lt h0).mpr h)

/-- The size chosen by `next_size_over` and its logarithm are those of the model. -/
theorem next_size_over_eq {n : Nat} (h1 : 1 ≤ n) (h2 : n ≤ 2 ^ 63) :
    max 2 (nextPow2Word n) = 2 ^ sizeLog n ∧ log2Word (2 ^ sizeLog n) = sizeLog n := by
  have h63 : sizeLog n ≤ 63 := sizeLog_min (by omega) h2
  constructor
  · unfold nextPow2Word sizeLog
    by_cases hn : n ≤ 2
    · rw [if_pos hn]
      interval_cases n <;> decide
    · rw [if_neg hn]
      rw [smear_eq (by omega) (by omega)]
      have : 0 < 2 ^ Nat.log2 (n - 1) := by positivity
      rw [pow_succ]
      omega
  · rw [log2Word_eq (by positivity) (Nat.pow_lt_pow_right (by omega) (by omega))]
    exact Nat.log2_two_pow

theorem insertAll_spec (ho : o.Lawful)
    {emp : Table K V → K × V → Except Err (Table K V × Nat × Bool)}
    (hemp : ∀ t x, Inv o t → EmpSpec o t x (emp t x)) :
    ∀ (l : List (K × V)) (t : Table K V), Inv o t → Distinct o (l ++ t.toList) →
      match insertAll emp t l with
      | .error e => e = .nomem
      | .ok t' => Inv o t' ∧ t.log ≤ t'.log ∧ t'.toList.Perm (l ++ t.toList) := by
  intro l
  induction l with
  | nil => intro t hi _; exact ⟨hi, le_refl _, List.Perm.refl _⟩
  | cons x l ih =>
    intro t hi hd
    simp only [insertAll]
    have he := hemp t x hi
    revert he
    cases emp t x with
    | error e => exact id
    | ok r =>
      obtain ⟨t', i, new⟩ := r
      cases new with
      | true =>
        simp only [EmpSpec, if_true]
        rintro ⟨h1, h2, h3, -, -⟩
        have hperm : (l ++ t'.toList).Perm (x :: l ++ t.toList) :=
          (List.Perm.append_left _ h3).trans List.perm_middle
        have := ih t' h1 (hd.perm ho hperm.symm)
        revert this
        cases insertAll emp t' l with
        | error e => exact id
        | ok t'' =>
          rintro ⟨h4, h5, h6⟩
          exact ⟨h4, le_trans h2 h5, h6.trans hperm⟩
      | false =>
        simp only [EmpSpec]
        rintro ⟨h1, h2, h3, e, y, h4, h5⟩
        have hy := mem_contents_of_getElem? hi.wf h4
        have := (List.pairwise_cons.mp hd).1 y (List.mem_append_right _ hy)
        rw [h5] at this
        cases this

theorem bucket_le_slots (log : Nat) : bucketCountOf log ≤ slotsOf log := by
  unfold bucketCountOf slotsOf; split <;> omega

theorem rehash_spec (ho : o.Lawful) {lim : Nat} (hlim : lim ≤ 63)
    {emp : Table K V → K × V → Except Err (Table K V × Nat × Bool)}
    (hemp : ∀ t x, Inv o t → EmpSpec o t x (emp t x)) {t : Table K V} {n : Nat}
    (hnum : t.num = t.toList.length) (hd : Distinct o t.toList)
    (hi : Inv o t ∨ bucketCountOf t.log < n) :
    match rehash lim emp t n with
    | .error e => e = .nomem
    | .ok t' => Inv o t' ∧ t'.toList.Perm t.toList ∧ (n ≤ slotsOf t'.log) ∧
      (bucketCountOf t.log < n → t.log < t'.log) := by
  unfold rehash
  dsimp only
  by_cases h0 : max n (2 * t.num) = 0
  · rw [if_pos h0]
    have h00 : t.num = 0 := by omega
    rw [hnum, List.length_eq_zero_iff] at h00
    refine ⟨emptyTable_inv o (by omega), ?_, by omega, by omega⟩
    rw [emptyTable_toList, h00]
  · rw [if_neg h0]
    have hle := sizeLog_le (n := max n (2 * t.num))
    have hpos := sizeLog_pos (max n (2 * t.num))
    have hne : sizeLog (max n (2 * t.num)) ≠ 0 := by omega
    by_cases h1 : 2 ^ sizeLog (max n (2 * t.num)) = bucketCountOf t.log
    · rw [if_pos h1]
      rcases hi with hi | hi
      · refine ⟨hi, List.Perm.refl _, ?_, ?_⟩
        · have := bucket_le_slots t.log
          omega
        · omega
      · omega
    · rw [if_neg h1]
      by_cases h2 : lim < sizeLog (max n (2 * t.num))
      · rw [if_pos h2]
      · rw [if_neg h2]
        have hE := emptyTable_inv (V := V) o (log := sizeLog (max n (2 * t.num))) (by omega)
        have := insertAll_spec ho hemp t.toList _ hE (by rw [emptyTable_toList, List.append_nil]; exact hd)
        revert this
        cases insertAll emp (emptyTable K V (sizeLog (max n (2 * t.num)))) t.toList with
        | error e => exact id
        | ok t' =>
          rintro ⟨h3, h4, h5⟩
          rw [emptyTable_toList, List.append_nil] at h5
          have h4' : sizeLog (max n (2 * t.num)) ≤ t'.log := h4
          refine ⟨h3, h5, ?_, ?_⟩
          · have hs : slotsOf t'.log = 2 ^ t'.log := by unfold slotsOf; rw [if_neg (by omega)]
            rw [hs]
            have := Nat.pow_le_pow_right (show 0 < 2 by omega) h4'
            omega
          · intro hb
            by_cases ht : t.log = 0
            · omega
            · unfold bucketCountOf at hb
              rw [if_neg ht] at hb
              have : 2 ^ t.log < 2 ^ sizeLog (max n (2 * t.num)) := by omega
              have := (Nat.pow_lt_pow_iff_right (show 1 < 2 by omega)).mp this
              omega

theorem grow_lt (log : Nat) : bucketCountOf log < max 4 (2 * bucketCountOf log) := by omega

/-- `emplace` keeps the invariant, adds the value if the key is new, and otherwise leaves the table alone. -/
theorem emplace_spec (ho : o.Lawful) {lim : Nat} (hlim : lim ≤ 63) (fuel : Nat) :
    ∀ (t : Table K V) (x : K × V), Inv o t → EmpSpec o t x (emplace o lim fuel t x) := by
  induction fuel with
  | zero =>
    intro t x hi
    have hs := step_spec ho hi x
    unfold emplace
    revert hs
    cases step o t x with
    | oob => exact False.elim
    | present i => intro h; exact ⟨hi, le_refl _, by simpa using h⟩
    | inserted t' i =>
      rintro ⟨h1, h2, h3, h4, h5⟩
      refine ⟨h1, by omega, ?_⟩
      rw [if_pos rfl]
      exact ⟨h3, h4, h5⟩
    | full t' => intro _; rfl
  | succ fuel ih =>
    intro t x hi
    have hs := step_spec ho hi x
    unfold emplace
    revert hs
    cases step o t x with
    | oob => exact False.elim
    | present i => intro h; exact ⟨hi, le_refl _, by simpa using h⟩
    | inserted t' i =>
      rintro ⟨h1, h2, h3, h4, h5⟩
      refine ⟨h1, by omega, ?_⟩
      rw [if_pos rfl]
      exact ⟨h3, h4, h5⟩
    | full t' =>
      rintro ⟨h1, h2, h3, h4⟩
      dsimp only
      have hr := rehash_spec ho hlim ih (t := t') (n := max 4 (2 * bucketCountOf t'.log))
        (by rw [h2, hi.num, h3.length_eq]) (hi.distinct.perm ho h3.symm) (.inr (grow_lt _))
      revert hr
      cases rehash lim (emplace o lim fuel) t' (max 4 (2 * bucketCountOf t'.log)) with
      | error e => exact id
      | ok t'' =>
        rintro ⟨h5, h6, h7, h8⟩
        dsimp only
        have h8 := h8 (grow_lt _)
        have hE := ih t'' x h5
        revert hE
        cases emplace o lim fuel t'' x with
        | error e => exact id
        | ok r =>
          obtain ⟨t3, i, new⟩ := r
          cases new with
          | true =>
            simp only [EmpSpec, if_true]
            rintro ⟨h9, h10, h11, h12, h13⟩
            exact ⟨h9, by omega, h11.trans (List.Perm.cons _ (h6.trans h3)), h12, h4⟩
          | false =>
            simp only [EmpSpec]
            rintro ⟨h9, h10, h11, e, y, h12, h13⟩
            have hy := mem_contents_of_getElem? h5.wf h12
            have := h4 y ((h6.trans h3).mem_iff.mp hy)
            rw [h13] at this
            cases this

end Verif.HashMap
