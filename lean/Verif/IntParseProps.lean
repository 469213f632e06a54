/-
C84: `int(text, base)` against Python's rules, and `int(str(n)) == n`.
-/
import Verif.IntParse

namespace Verif.IntParse

/-! ## Python's rules -/

/-- The value of a digit or letter. -/
def digitVal (c : Nat) : Option Nat :=
  if 48 ≤ c ∧ c ≤ 57 then some (c - 48)
  else if 97 ≤ c ∧ c ≤ 122 then some (c - 87)
  else if 65 ≤ c ∧ c ≤ 90 then some (c - 55)
  else none

/-- `v` is the number with the digits `ds` in base `b`. -/
inductive Value (b : Nat) : List Nat → Nat → Prop where
  | nil : Value b [] 0
  | snoc (ds : List Nat) (c v d : Nat) : Value b ds v → digitVal c = some d → d < b → Value b (ds ++ [c]) (v * b + d)

/-- Prefixes that may precede the digits. -/
def Prefix (b : Nat) (p : List Nat) : Prop :=
  p = [] ∨ (b = 16 ∧ (p = [48, 120] ∨ p = [48, 88])) ∨ (b = 8 ∧ (p = [48, 111] ∨ p = [48, 79])) ∨
    (b = 2 ∧ (p = [48, 98] ∨ p = [48, 66]))

/-- The sign. -/
def Signed (sg : List Nat) (n : Nat) (v : Int) : Prop :=
  ((sg = [] ∨ sg = [43]) ∧ v = n) ∨ (sg = [45] ∧ v = -n)

def Spaces (w : List Nat) : Prop := ∀ c ∈ w, c = 9 ∨ c = 10 ∨ c = 11 ∨ c = 12 ∨ c = 13 ∨ c = 32

/-- `int(s, b)` of Python is `v`, for a text without underscores: blanks, a sign, a prefix, digits of the base,
blanks. -/
def PyInt (b : Nat) (s : List Nat) (v : Int) : Prop :=
  ∃ w1 sg pre ds w2 n, s = w1 ++ sg ++ pre ++ ds ++ w2 ∧ Spaces w1 ∧ Spaces w2 ∧ Prefix b pre ∧ ds ≠ [] ∧
    Value b ds n ∧ Signed sg n v

/-! ## Pieces -/

theorem spaces_iff (w : List Nat) : Spaces w ↔ ∀ c ∈ w, isSpace c = true := by
  unfold Spaces
  constructor
  · intro h c hc
    rcases h c hc with rfl | rfl | rfl | rfl | rfl | rfl <;> rfl
  · intro h c hc
    have := h c hc
    simp [isSpace] at this
    omega

theorem isDigit_iff (c : Nat) : isDigit c = true ↔ 48 ≤ c ∧ c ≤ 57 := by simp [isDigit]

theorem dropWhile_spaces (w r : List Nat) (hw : ∀ c ∈ w, isSpace c = true)
    (hr : ∀ c, r.head? = some c → isSpace c = false) : (w ++ r).dropWhile isSpace = r := by
  induction w with
  | nil =>
    cases r with
    | nil => rfl
    | cons c r => simp [List.dropWhile, hr c rfl]
  | cons c w ih =>
    simp only [List.cons_append]
    rw [List.dropWhile_cons_of_pos (hw c (by simp))]
    exact ih (fun x hx => hw x (by simp [hx]))

theorem rstrip_spaces (a w : List Nat) (c : Nat) (hw : ∀ c ∈ w, isSpace c = true) (hc : isSpace c = false) :
    rstrip (a ++ [c] ++ w) = a ++ [c] := by
  unfold rstrip
  rw [List.reverse_append, dropWhile_spaces]
  · simp
  · intro x hx; exact hw x (by simpa using hx)
  · intro x hx
    simp at hx
    rw [← hx]; exact hc

theorem dropLast_getLast {l : List Nat} (h : l ≠ []) : l.dropLast ++ [l.getLast h] = l := by
  exact List.dropLast_concat_getLast h

theorem mem_takeWhile {p : Nat → Bool} {c : Nat} : ∀ {l : List Nat}, c ∈ l.takeWhile p → p c = true
  | [], h => by simp at h
  | x :: r, h => by
    by_cases hx : p x = true
    · rw [List.takeWhile_cons_of_pos hx] at h
      rcases List.mem_cons.1 h with rfl | h
      · exact hx
      · exact mem_takeWhile h
    · rw [List.takeWhile_cons_of_neg hx] at h
      simp at h

/-- Every text is its stripped part and blanks. -/
theorem rstrip_spec (s : List Nat) : ∃ w, s = rstrip s ++ w ∧ ∀ c ∈ w, isSpace c = true := by
  refine ⟨(s.reverse.takeWhile isSpace).reverse, ?_, ?_⟩
  · unfold rstrip
    rw [← List.reverse_append, List.takeWhile_append_dropWhile, List.reverse_reverse]
  · intro c hc
    exact mem_takeWhile (List.mem_reverse.1 hc)

theorem cstr_id (s : List Nat) (h : 0 ∉ s) : cstr s = s := by
  unfold cstr
  induction s with
  | nil => rfl
  | cons c r ih =>
    have hc : c ≠ 0 := fun e => h (by simp [e])
    rw [List.takeWhile_cons_of_pos (by simpa using hc), ih (fun hr => h (List.mem_cons_of_mem _ hr))]

theorem horner_snoc (b : Nat) (ds : List Nat) (c : Nat) : horner b (ds ++ [c]) = horner b ds * b + (c - 48) := by
  simp [horner]

/-- Decimal digits below the base have their value. -/
theorem value_horner (b : Nat) : ∀ (ds : List Nat), (∀ c ∈ ds, isDigit c = true ∧ c - 48 < b) →
    Value b ds (horner b ds) := by
  intro ds
  induction hn : ds.length generalizing ds with
  | zero => intro _; rw [List.length_eq_zero_iff.1 hn]; exact .nil
  | succ n ih =>
    intro h
    obtain ⟨a, c, rfl⟩ : ∃ a c, ds = a ++ [c] := by
      have hne : ds ≠ [] := by intro e; simp [e] at hn
      exact ⟨ds.dropLast, ds.getLast hne, (dropLast_getLast hne).symm⟩
    rw [horner_snoc]
    have hc := h c (by simp)
    refine .snoc a c _ _ (ih a (by simpa using hn) (fun x hx => h x (by simp [hx]))) ?_ hc.2
    have := (isDigit_iff c).1 hc.1
    simp only [digitVal]
    rw [if_pos this]

theorem value_unique (b : Nat) (ds : List Nat) (v w : Nat) (h1 : Value b ds v) (h2 : Value b ds w) : v = w := by
  induction h1 generalizing w with
  | nil =>
    generalize he : ([] : List Nat) = e at h2
    cases h2 with
    | nil => rfl
    | snoc => simp at he
  | snoc ds c v d _ hd _ ih =>
    generalize he : ds ++ [c] = e at h2
    cases h2 with
    | nil => simp at he
    | snoc ds' c' v' d' h3 hd' _ =>
      obtain ⟨rfl, h⟩ := List.append_inj' he rfl
      simp at h
      subst h
      rw [hd] at hd'
      injection hd' with hd'
      rw [ih _ h3, hd']

theorem value_decimal (b : Nat) (ds : List Nat) (n : Nat) (h : Value b ds n) (hd : ∀ c ∈ ds, isDigit c = true) :
    (∀ c ∈ ds, c - 48 < b) ∧ horner b ds = n := by
  have h1 : ∀ c ∈ ds, c - 48 < b := by
    induction h with
    | nil => simp
    | snoc ds c v d _ h2 h3 ih =>
      intro x hx
      rcases List.mem_append.1 hx with hx | hx
      · exact ih (fun y hy => hd y (by simp [hy])) x hx
      · simp at hx; subst hx
        have := (isDigit_iff x).1 (hd x (by simp))
        simp [digitVal, this] at h2
        omega
  exact ⟨h1, value_unique b ds _ _ (value_horner b ds (fun c hc => ⟨hd c hc, h1 c hc⟩)) h⟩

theorem takeWhile_all (p : Nat → Bool) : ∀ l : List Nat, (∀ c ∈ l, p c = true) → l.takeWhile p = l
  | [], _ => rfl
  | c :: r, h => by
    rw [List.takeWhile_cons_of_pos (h c (by simp)), takeWhile_all p r (fun x hx => h x (by simp [hx]))]

/-- `strtoll` on digits that all lie below the base. -/
theorem strtoll_digits (b : Nat) (ds : List Nat) (hne : ds ≠ []) (hb : ∀ c ∈ ds, c - 48 < b) :
    strtoll ds b = if horner b ds ≤ 2 ^ 63 - 1 then some ((horner b ds : Int), false)
      else some (2 ^ 63 - 1, true) := by
  unfold strtoll
  rw [takeWhile_all _ ds (fun c hc => by simpa using hb c hc)]
  simp only [hne, if_false]

/-- The prefix is skipped before decimal digits. -/
theorem skipPrefix_digits (b : Nat) (pre ds : List Nat) (hp : Prefix b pre) (hne : ds ≠ [])
    (hd : ∀ c ∈ ds, isDigit c = true) : skipPrefix (pre ++ ds) b = some ds := by
  obtain ⟨c, r, rfl⟩ : ∃ c r, ds = c :: r := by
    cases ds with
    | nil => exact absurd rfl hne
    | cons c r => exact ⟨c, r, rfl⟩
  have hc := (isDigit_iff c).1 (hd c (by simp))
  have hpeek : ∀ q : List Nat, q = c :: r → peek q 0 ≠ 95 := by
    rintro q rfl; simp [peek]; omega
  rcases hp with rfl | ⟨hb, rfl | rfl⟩ | ⟨hb, rfl | rfl⟩ | ⟨hb, rfl | rfl⟩
  · simp only [List.nil_append, skipPrefix]
    rw [if_neg]
    rintro ⟨_, h1, h2⟩
    cases r with
    | nil => simp [peek] at h1
    | cons x r =>
      have := hd x (by simp)
      simp [peek] at h2
      rw [this] at h2; exact absurd h2 (by simp)
  all_goals
    simp [skipPrefix, peek, isDigit, hb]
    omega

theorem sign_cases (sg p : List Nat) (n : Nat) (v : Int) (hs : Signed sg n v) (h : ∀ c, p.head? = some c → c ≠ 43 ∧ c ≠ 45) :
    ∃ σ : Int, sign (sg ++ p) = (σ, p) ∧ v = n * σ := by
  rcases hs with ⟨rfl | rfl, rfl⟩ | ⟨rfl, rfl⟩
  · refine ⟨1, ?_, by simp⟩
    cases p with
    | nil => rfl
    | cons c r =>
      have := h c rfl
      simp only [List.nil_append]
      unfold sign
      split
      · rename_i e; simp at e; omega
      · rename_i e; simp at e; omega
      · rfl
  · exact ⟨1, rfl, by simp⟩
  · exact ⟨-1, rfl, by simp⟩

/-! ## The function on texts of Python's form -/

/-- What `int` does with a text of Python's form whose digits are decimal digits. -/
theorem toInt_form (err : Bool) (b : Nat) (hb : 2 ≤ b ∧ b ≤ 36) (w1 sg pre ds w2 : List Nat) (n : Nat) (v : Int)
    (h1 : Spaces w1) (h2 : Spaces w2) (hp : Prefix b pre) (hne : ds ≠ []) (hv : Value b ds n)
    (hs : Signed sg n v) (hd : ∀ c ∈ ds, isDigit c = true) :
    toInt err (w1 ++ sg ++ pre ++ ds ++ w2) b =
      if n ≤ 2 ^ 63 - 1 then (if err then (none, true) else (some v, false)) else (none, true) := by
  rw [spaces_iff] at h1 h2
  obtain ⟨hb2, hval⟩ := value_decimal b ds n hv hd
  -- the stripped text
  have hstr : rstrip (w1 ++ sg ++ pre ++ ds ++ w2) = w1 ++ sg ++ pre ++ ds := by
    obtain ⟨a, c, rfl⟩ : ∃ a c, ds = a ++ [c] :=
      ⟨ds.dropLast, ds.getLast hne, (dropLast_getLast hne).symm⟩
    have hc := (isDigit_iff c).1 (hd c (by simp))
    have := rstrip_spaces (w1 ++ sg ++ pre ++ a) w2 c h2 (by simp [isSpace]; omega)
    simpa using this
  -- characters of the sign and the prefix
  have hsg : ∀ c ∈ sg, c = 43 ∨ c = 45 := by
    rcases hs with ⟨rfl | rfl, _⟩ | ⟨rfl, _⟩ <;> simp
  have hpre : ∀ c ∈ pre, c = 48 ∨ c = 120 ∨ c = 88 ∨ c = 111 ∨ c = 79 ∨ c = 98 ∨ c = 66 := by
    rcases hp with rfl | ⟨_, rfl | rfl⟩ | ⟨_, rfl | rfl⟩ | ⟨_, rfl | rfl⟩ <;> simp
  have hnz : 0 ∉ w1 ++ sg ++ pre ++ ds := by
    simp only [List.mem_append, not_or]
    refine ⟨⟨⟨?_, ?_⟩, ?_⟩, ?_⟩
    · intro h; exact absurd (h1 0 h) (by decide)
    · intro h; have := hsg 0 h; omega
    · intro h; have := hpre 0 h; omega
    · intro h; exact absurd (hd 0 h) (by decide)
  have hhead : ∀ c, (pre ++ ds).head? = some c → 48 ≤ c := by
    intro c hc
    have hm : c ∈ pre ++ ds := List.mem_of_mem_head? (by rw [hc]; rfl)
    rcases List.mem_append.1 hm with h | h
    · have := hpre c h; omega
    · exact ((isDigit_iff c).1 (hd c h)).1
  obtain ⟨σ, hσ, hvσ⟩ := sign_cases sg (pre ++ ds) n v hs (fun c hc => by have := hhead c hc; omega)
  have hdrop : (w1 ++ sg ++ pre ++ ds).dropWhile isSpace = sg ++ (pre ++ ds) := by
    rw [List.append_assoc, List.append_assoc]
    apply dropWhile_spaces _ _ h1
    intro c hc
    have hm : c ∈ sg ++ (pre ++ ds) := List.mem_of_mem_head? (by rw [hc]; rfl)
    rcases List.mem_append.1 hm with h | h
    · rcases hsg c h with rfl | rfl <;> rfl
    · rcases List.mem_append.1 h with h | h
      · rcases hpre c h with rfl | rfl | rfl | rfl | rfl | rfl | rfl <;> rfl
      · have := (isDigit_iff c).1 (hd c h)
        simp [isSpace]; omega
  have hnil : w1 ++ sg ++ pre ++ ds ≠ [] := by simp [hne]
  have hall : ds.all isDigit = true := List.all_eq_true.2 hd
  simp only [toInt, hstr, hnil, if_false, cstr_id _ hnz, hdrop, hσ]
  rw [if_neg (by omega)]
  have hg : guessBase (pre ++ ds) (b : Int) = some b := by
    simp only [guessBase]; rw [if_neg (by omega)]; simp
  simp only [hg, skipPrefix_digits b pre ds hp hne hd, hall, if_true, strtoll_digits b ds hne hb2, hval]
  by_cases hn : n ≤ 2 ^ 63 - 1
  · simp only [if_pos hn, Bool.or_false, hvσ]
  · simp only [if_neg hn, Bool.or_true, if_true]

theorem signed_abs (sg : List Nat) (n : Nat) (v : Int) (h : Signed sg n v) : v.natAbs = n := by
  rcases h with ⟨_, rfl⟩ | ⟨_, rfl⟩ <;> simp

/-- **C84.**  Every text that Python reads as `v` in base 10 is read as `v`, if |v| < 2^63. -/
theorem int_reads_decimal (s : List Nat) (v : Int) (h : PyInt 10 s v) (hv : v.natAbs < 2 ^ 63) :
    toInt false s 10 = (some v, false) := by
  obtain ⟨w1, sg, pre, ds, w2, n, rfl, h1, h2, hp, hne, hval, hs⟩ := h
  have hd : ∀ c ∈ ds, isDigit c = true := by
    clear hne hs
    induction hval with
    | nil => simp
    | snoc ds c v d _ hc hd ih =>
      intro x hx
      rcases List.mem_append.1 hx with hx | hx
      · exact ih x hx
      · simp at hx; subst hx
        unfold digitVal at hc
        rw [isDigit_iff]
        split at hc
        · assumption
        · split at hc
          · simp at hc; omega
          · split at hc
            · simp at hc; omega
            · simp at hc
  have := toInt_form false 10 (by omega) w1 sg pre ds w2 n v h1 h2 hp hne hval hs hd
  rw [show ((10 : Nat) : Int) = 10 from rfl] at this
  have hn := signed_abs sg n v hs
  rw [this, if_pos (by omega)]
  rfl

/-- **C84.**  In every base, texts with decimal digits only (and the prefixes of the base) are read as Python reads
them. -/
theorem int_reads_base_partial (b : Nat) (hb : 2 ≤ b ∧ b ≤ 36) (w1 sg pre ds w2 : List Nat) (n : Nat) (v : Int)
    (h1 : Spaces w1) (h2 : Spaces w2) (hp : Prefix b pre) (hne : ds ≠ []) (hval : Value b ds n)
    (hs : Signed sg n v) (hd : ∀ c ∈ ds, 48 ≤ c ∧ c ≤ 57) (hv : v.natAbs < 2 ^ 63) :
    toInt false (w1 ++ sg ++ pre ++ ds ++ w2) b = (some v, false) := by
  rw [toInt_form false b hb w1 sg pre ds w2 n v h1 h2 hp hne hval hs (fun c hc => (isDigit_iff c).2 (hd c hc))]
  have hn := signed_abs sg n v hs
  rw [if_pos (by omega)]
  rfl

/-! ## The function on arbitrary texts -/

theorem sign_spec (p : List Nat) : ∃ sg, p = sg ++ (sign p).2 ∧
    (((sg = [] ∨ sg = [43]) ∧ (sign p).1 = 1) ∨ (sg = [45] ∧ (sign p).1 = -1)) := by
  unfold sign
  split
  · exact ⟨[43], rfl, .inl ⟨.inr rfl, rfl⟩⟩
  · exact ⟨[45], rfl, .inr ⟨rfl, rfl⟩⟩
  · exact ⟨[], rfl, .inl ⟨.inl rfl, rfl⟩⟩

theorem skipPrefix_spec (p q : List Nat) (b : Nat) (hu : 95 ∉ p) (h : skipPrefix p b = some q) :
    ∃ pre, p = pre ++ q ∧ Prefix b pre := by
  unfold skipPrefix at h
  split at h
  · rename_i h0
    obtain ⟨e0, e1, _⟩ := h0
    split at h
    · rename_i hs
      simp only [Option.some.injEq] at h
      match p, e0, e1 with
      | [], e0, _ => simp [peek] at e0
      | [a], _, e1 => simp [peek] at e1
      | a :: x :: r, e0, e1 =>
        simp [peek] at e0
        subst e0
        have hr : peek r 0 ≠ 95 := by
          cases r with
          | nil => simp [peek]
          | cons y r => intro e; simp [peek] at e; exact hu (by simp [e])
        simp only [List.drop_succ_cons, List.drop_zero, hr, if_false] at h
        subst h
        refine ⟨[48, x], rfl, .inr ?_⟩
        have hx : peek (48 :: x :: r) 1 = x := rfl
        rw [hx] at hs
        rcases hs with ⟨h1, h2⟩ | ⟨h1, h2⟩ | ⟨h1, h2⟩
        · exact .inl ⟨h1, by rcases h2 with rfl | rfl <;> simp⟩
        · exact .inr (.inl ⟨h1, by rcases h2 with rfl | rfl <;> simp⟩)
        · exact .inr (.inr ⟨h1, by rcases h2 with rfl | rfl <;> simp⟩)
    · simp at h
  · simp only [Option.some.injEq] at h
    exact ⟨[], by simp [h], .inl rfl⟩

/-- Taking a successful call apart. -/
theorem toInt_some (err err' : Bool) (s : List Nat) (b : Nat) (v : Int) (hb0 : b ≠ 0) (hz : 0 ∉ s) (hu : 95 ∉ s)
    (h : toInt err s b = (some v, err')) :
    ∃ w1 sg pre ds w2 n, s = w1 ++ sg ++ pre ++ ds ++ w2 ∧ Spaces w1 ∧ Spaces w2 ∧ Prefix b pre ∧
      (∀ c ∈ ds, isDigit c = true) ∧ ds.takeWhile (fun c => c - 48 < b) ≠ [] ∧
      n = horner b (ds.takeWhile (fun c => c - 48 < b)) ∧ n ≤ 2 ^ 63 - 1 ∧ Signed sg n v ∧ err = false ∧
      2 ≤ b ∧ b ≤ 36 := by
  obtain ⟨w2, hw, hw2⟩ := rstrip_spec s
  have hz' : 0 ∉ rstrip s := fun e => hz (by rw [hw]; simp [e])
  have hu' : 95 ∉ rstrip s := fun e => hu (by rw [hw]; simp [e])
  simp only [toInt] at h
  split at h
  · simp at h
  · split at h
    · simp at h
    · rename_i hbase
      rw [cstr_id _ hz'] at h
      obtain ⟨sg, hsg, hsv⟩ := sign_spec ((rstrip s).dropWhile isSpace)
      generalize hq : sign ((rstrip s).dropWhile isSpace) = q at h hsg hsv
      obtain ⟨σ, p⟩ := q
      have hg : guessBase p (b : Int) = some b := by
        simp only [guessBase]; rw [if_neg (by omega)]; simp
      simp only [hg] at h
      simp only at hsg hsv
      have hsplit : rstrip s = (rstrip s).takeWhile isSpace ++ sg ++ p := by
        rw [List.append_assoc, ← hsg, List.takeWhile_append_dropWhile]
      cases hk : skipPrefix p b with
      | none => simp [hk] at h
      | some ds =>
        simp only [hk] at h
        obtain ⟨pre, hpre, hpp⟩ := skipPrefix_spec p ds b (fun e => hu' (by rw [hsplit]; simp [e])) hk
        split at h
        · rename_i hall
          cases ht : strtoll ds b with
          | none => simp [ht] at h
          | some r =>
            obtain ⟨x, e⟩ := r
            simp only [ht] at h
            split at h
            · simp at h
            · rename_i he
              simp only [Prod.mk.injEq, Option.some.injEq] at h
              simp only [Bool.or_eq_true, not_or, Bool.not_eq_true] at he
              unfold strtoll at ht
              simp only at ht
              split at ht
              · simp at ht
              · rename_i hds
                split at ht
                · rename_i hn
                  simp only [Option.some.injEq, Prod.mk.injEq] at ht
                  refine ⟨(rstrip s).takeWhile isSpace, sg, pre, ds, w2, _, ?_, ?_, ?_, hpp,
                    List.all_eq_true.1 hall, hds, rfl, hn, ?_, he.1, by omega, by omega⟩
                  · rw [List.append_assoc _ pre ds, ← hpre, ← hsplit]; exact hw
                  · rw [spaces_iff]; intro c hc; exact mem_takeWhile hc
                  · rw [spaces_iff]; exact hw2
                  · rw [← h.1, ← ht.1]
                    rcases hsv with ⟨h1, rfl⟩ | ⟨h1, rfl⟩
                    · exact .inl ⟨h1, by simp⟩
                    · exact .inr ⟨h1, by simp⟩
                · simp only [Option.some.injEq, Prod.mk.injEq] at ht
                  rw [← ht.2] at he
                  exact absurd he.2 (by simp)
        · simp at h

/-- **C84, exactly.**  For texts without underscores and null characters, and no earlier failure: `int(s)` is
`v` exactly if it is in Python and |v| < 2^63; otherwise it raises. -/
theorem int_decimal_iff_partial (s : List Nat) (v : Int) (hz : 0 ∉ s) (hu : 95 ∉ s) :
    (toInt false s 10).1 = some v ↔ PyInt 10 s v ∧ v.natAbs < 2 ^ 63 := by
  constructor
  · intro h
    obtain ⟨w1, sg, pre, ds, w2, n, h0, h1, h2, hp, hd, hne, hn, hle, hs, _, _, _⟩ :=
      toInt_some false (toInt false s 10).2 s 10 v (by decide) hz hu (by rw [← h]; rfl)
    have hlt : ∀ c ∈ ds, c - 48 < 10 := fun c hc => by have := (isDigit_iff c).1 (hd c hc); omega
    rw [takeWhile_all _ ds (fun c hc => by simpa using hlt c hc)] at hne hn
    have := signed_abs sg n v hs
    refine ⟨⟨w1, sg, pre, ds, w2, n, h0, h1, h2, hp, hne, ?_, hs⟩, by omega⟩
    rw [hn]
    exact value_horner 10 ds (fun c hc => ⟨hd c hc, hlt c hc⟩)
  · rintro ⟨h1, h2⟩
    rw [int_reads_decimal s v h1 h2]

/-- **C84, letters.**  No text with a letter after the prefix is accepted, in any base: digits above nine are
not read. -/
theorem letters_refused_refuted (err : Bool) (b : Nat) (hb0 : b ≠ 0) (s : List Nat) (hz : 0 ∉ s) (hu : 95 ∉ s)
    (c : Nat) (hc : c ∈ s) (h1 : isDigit c = false) (h2 : isSpace c = false)
    (h3 : c ≠ 43 ∧ c ≠ 45) (h4 : c ≠ 120 ∧ c ≠ 88 ∧ c ≠ 111 ∧ c ≠ 79 ∧ c ≠ 98 ∧ c ≠ 66) :
    (toInt err s b).1 = none := by
  cases h : (toInt err s b).1 with
  | none => rfl
  | some v =>
    exfalso
    obtain ⟨w1, sg, pre, ds, w2, n, h0, k1, k2, hp, hd, _, _, _, hs, _, _, _⟩ :=
      toInt_some err (toInt err s b).2 s b v hb0 hz hu (by rw [← h])
    rw [spaces_iff] at k1 k2
    subst h0
    simp only [List.mem_append] at hc
    rcases hc with (((hc | hc) | hc) | hc) | hc
    · rw [k1 c hc] at h2; simp at h2
    · rcases hs with ⟨rfl | rfl, _⟩ | ⟨rfl, _⟩ <;> simp at hc <;> omega
    · rcases hp with rfl | ⟨_, rfl | rfl⟩ | ⟨_, rfl | rfl⟩ | ⟨_, rfl | rfl⟩ <;> simp at hc <;>
        rcases hc with rfl | rfl <;> simp [isDigit] at h1 h4
    · rw [hd c hc] at h1; simp at h1
    · rw [k2 c hc] at h2; simp at h2

/-- **C84, digits.**  Below base ten, a text of decimal digits is cut at the first digit that the base does not
have, where Python raises. -/
theorem digits_cut_refuted (b : Nat) (hb : 2 ≤ b ∧ b ≤ 36) (ds : List Nat) (c : Nat) (r : List Nat) (n : Nat)
    (hne : ds ≠ []) (hv : Value b ds n) (hd : ∀ x ∈ ds ++ c :: r, isDigit x = true) (hc : b ≤ c - 48)
    (hn : n < 2 ^ 63) : toInt false (ds ++ c :: r) b = (some (n : Int), false) := by
  obtain ⟨hlt, hval⟩ := value_decimal b ds n hv (fun x hx => hd x (by simp [hx]))
  have hall : (ds ++ c :: r).all isDigit = true := List.all_eq_true.2 hd
  have hns : ∀ x ∈ ds ++ c :: r, isSpace x = false := fun x hx => by
    have := (isDigit_iff x).1 (hd x hx); simp [isSpace]; omega
  have hnz : 0 ∉ ds ++ c :: r := fun e => absurd (hd 0 e) (by decide)
  have hstr : rstrip (ds ++ c :: r) = ds ++ c :: r := by
    have hne2 : ds ++ c :: r ≠ [] := by simp
    have := rstrip_spaces (ds ++ c :: r).dropLast [] ((ds ++ c :: r).getLast hne2) (by simp)
      (hns _ (List.getLast_mem hne2))
    rw [List.append_nil, dropLast_getLast] at this
    exact this
  have hdrop : (ds ++ c :: r).dropWhile isSpace = ds ++ c :: r :=
    dropWhile_spaces [] (ds ++ c :: r) (by simp) (fun x hx => hns x (List.mem_of_mem_head? hx))
  have hsign : sign (ds ++ c :: r) = (1, ds ++ c :: r) := by
    obtain ⟨σ, h1, _⟩ := sign_cases [] (ds ++ c :: r) 1 1 (.inl ⟨.inl rfl, rfl⟩) (fun x hx => by
      have := (isDigit_iff x).1 (hd x (List.mem_of_mem_head? (by rw [hx]; rfl))); omega)
    obtain ⟨sg, h2, h3⟩ := sign_spec (ds ++ c :: r)
    simp only [List.nil_append] at h1
    rw [h1] at h2 h3 ⊢
    have : sg = [] := by simpa using h2
    subst this
    simp at h3
    rw [h3]
  have hg : guessBase (ds ++ c :: r) (b : Int) = some b := by
    simp only [guessBase]; rw [if_neg (by omega)]; simp
  have hk := skipPrefix_digits b [] (ds ++ c :: r) (.inl rfl) (by simp) hd
  rw [List.nil_append] at hk
  have htw : (ds ++ c :: r).takeWhile (fun x => decide (x - 48 < b)) = ds := by
    rw [List.takeWhile_append_of_pos (fun x hx => by simpa using hlt x hx)]
    rw [List.takeWhile_cons_of_neg (by simp; omega), List.append_nil]
  have ht : strtoll (ds ++ c :: r) b = some ((n : Int), false) := by
    simp only [strtoll, htw, hne, if_false, hval]
    rw [if_pos (by omega)]
  have hnil : ds ++ c :: r ≠ [] := by simp
  simp only [toInt, hstr, hnil, if_false, cstr_id _ hnz, hdrop, hsign, hg, hk, hall, if_true, ht]
  rw [if_neg (by omega)]
  simp

/-- **C84, earlier failures.**  A number of 2^63 or more raises and leaves `errno` at ERANGE; then every later call
in the thread raises, whatever its argument. -/
theorem later_calls_raise_refuted (err : Bool) (s : List Nat) (v : Int) (h : PyInt 10 s v)
    (hv : 2 ^ 63 ≤ v.natAbs) :
    toInt err s 10 = (none, true) ∧ ∀ t base, (toInt true t base).1 = none ∧ (toInt true t base).2 = true := by
  constructor
  · obtain ⟨w1, sg, pre, ds, w2, n, rfl, h1, h2, hp, hne, hval, hs⟩ := h
    have hd : ∀ c ∈ ds, isDigit c = true := by
      clear hne hs
      induction hval with
      | nil => simp
      | snoc ds c v d _ hc hd ih =>
        intro x hx
        rcases List.mem_append.1 hx with hx | hx
        · exact ih x hx
        · simp at hx; subst hx
          unfold digitVal at hc
          rw [isDigit_iff]
          split at hc
          · assumption
          · split at hc
            · simp at hc; omega
            · split at hc
              · simp at hc; omega
              · simp at hc
    have := toInt_form err 10 (by omega) w1 sg pre ds w2 n v h1 h2 hp hne hval hs hd
    rw [show ((10 : Nat) : Int) = 10 from rfl] at this
    have hn := signed_abs sg n v hs
    rw [this, if_neg (by omega)]
  · intro t base
    simp only [toInt]
    split
    · exact ⟨rfl, rfl⟩
    · split
      · exact ⟨rfl, rfl⟩
      · split
        · exact ⟨rfl, rfl⟩
        · split
          · exact ⟨rfl, rfl⟩
          · split
            · split
              · exact ⟨rfl, rfl⟩
              · simp
            · exact ⟨rfl, rfl⟩

/-- **C84, null characters.**  What follows a null character is not looked at; Python raises. -/
theorem null_character_cuts_refuted (err : Bool) (s r : List Nat) (c : Nat) (b : Int) (hc : isSpace c = false)
    (h0 : 0 ∉ s) (hs : ∃ a d, s = a ++ [d] ∧ isSpace d = false) :
    toInt err (s ++ 0 :: r ++ [c]) b = toInt err s b := by
  obtain ⟨a, d, rfl, hd⟩ := hs
  have e1 : rstrip (a ++ [d] ++ 0 :: r ++ [c]) = a ++ [d] ++ 0 :: r ++ [c] := by
    have := rstrip_spaces (a ++ [d] ++ 0 :: r) [] c (by simp) hc
    simpa using this
  have e2 : rstrip (a ++ [d]) = a ++ [d] := by
    have := rstrip_spaces a [] d (by simp) hd
    simpa using this
  have e3 : cstr (a ++ [d] ++ 0 :: r ++ [c]) = cstr (a ++ [d]) := by
    rw [cstr_id _ h0]
    unfold cstr
    rw [List.append_assoc (a ++ [d]), List.takeWhile_append_of_pos (fun x hx => by
      have : x ≠ 0 := fun e => h0 (e ▸ hx)
      simpa using this)]
    simp
  have n1 : a ++ [d] ++ 0 :: r ++ [c] ≠ [] := by simp
  have n2 : a ++ [d] ≠ [] := by simp
  unfold toInt
  simp only [e1, e2, e3, n1, n2, if_false]

/-- **C84, zero.**  With base 0 a text of zeros (Python: 0) raises. -/
theorem zero_base0_refuted (err : Bool) (n : Nat) : (toInt err (List.replicate (n + 1) 48) 0).1 = none := by
  have e1 : rstrip (List.replicate (n + 1) 48) = List.replicate (n + 1) 48 := by
    have := rstrip_spaces (List.replicate n 48) [] 48 (by simp) rfl
    rw [List.append_nil, ← List.replicate_succ'] at this
    exact this
  have e2 : cstr (List.replicate (n + 1) 48) = List.replicate (n + 1) 48 := cstr_id _ (by simp)
  have e3 : (List.replicate (n + 1) 48).dropWhile isSpace = List.replicate (n + 1) 48 := by
    rw [List.replicate_succ]; rfl
  have e4 : sign (List.replicate (n + 1) 48) = (1, List.replicate (n + 1) 48) := by
    rw [List.replicate_succ]; rfl
  have e5 : guessBase (List.replicate (n + 1) 48) 0 = none := by
    cases n with
    | zero => rfl
    | succ n => simp [guessBase, peek, List.replicate_succ]
  have e6 : List.replicate (n + 1) 48 ≠ [] := by simp
  simp only [toInt, e1, e6, if_false, e2, e3, e4, e5]
  rw [if_neg (by omega)]

/-! ## `str(int)` -/

theorem digits_digit (n : Nat) : ∀ c ∈ digits n, isDigit c = true := by
  fun_induction digits n with
  | case1 n h => intro c hc; simp at hc; subst hc; rw [isDigit_iff]; omega
  | case2 n h ih =>
    intro c hc
    rcases List.mem_append.1 hc with hc | hc
    · exact ih c hc
    · simp at hc; subst hc; rw [isDigit_iff]; omega

theorem digits_ne (n : Nat) : digits n ≠ [] := by
  unfold digits; split <;> simp

theorem digits_value (n : Nat) : Value 10 (digits n) n := by
  fun_induction digits n with
  | case1 n h =>
    have := Value.snoc (b := 10) [] (48 + n) 0 n .nil (by simp [digitVal]; omega) h
    simpa using this
  | case2 n h ih =>
    have := Value.snoc (b := 10) (digits (n / 10)) (48 + n % 10) (n / 10) (n % 10) ih
      (by simp only [digitVal]; rw [if_pos (by omega)]; congr 1; omega) (by omega)
    rw [show n / 10 * 10 + n % 10 = n by omega] at this
    exact this

/-- `str(n)` is the decimal notation of `n`. -/
theorem toStr_py (n : Int) : PyInt 10 (toStr n) n := by
  unfold toStr
  split
  · exact ⟨[], [45], [], digits n.natAbs, [], n.natAbs, by simp, by simp [Spaces], by simp [Spaces], .inl rfl,
      digits_ne _, digits_value _, .inr ⟨rfl, by omega⟩⟩
  · exact ⟨[], [], [], digits n.natAbs, [], n.natAbs, by simp, by simp [Spaces], by simp [Spaces], .inl rfl,
      digits_ne _, digits_value _, .inl ⟨.inl rfl, by omega⟩⟩

/-- **C84.**  `int(str(n)) == n` for every integer of the language but the least. -/
theorem int_str_partial (n : Int) (h : -2 ^ 63 < n ∧ n < 2 ^ 63) : toInt false (toStr n) 10 = (some n, false) :=
  int_reads_decimal _ _ (toStr_py n) (by omega)

/-- **C84.**  The least integer is not read back: `int(str(-2**63))` raises, and so do all later calls. -/
theorem int_str_least_refuted (err : Bool) :
    toInt err (toStr (-2 ^ 63)) 10 = (none, true) ∧
    ∀ t base, (toInt true t base).1 = none ∧ (toInt true t base).2 = true :=
  later_calls_raise_refuted err _ _ (toStr_py _) (by decide)

/-- **C84.**  Different integers have different texts. -/
theorem str_injective (n m : Int) (h : toStr n = toStr m) : n = m := by
  have key : ∀ n m : Int, n < 0 → ¬ m < 0 → toStr n ≠ toStr m := by
    intro n m h1 h2 h
    simp only [toStr, h1, h2, if_true, if_false] at h
    have := digits_digit m.natAbs 45 (by rw [← h]; simp)
    simp [isDigit] at this
  have key2 : ∀ a b : Nat, digits a = digits b → a = b := fun a b h =>
    value_unique 10 (digits a) a b (digits_value a) (h ▸ digits_value b)
  by_cases h1 : n < 0
  · by_cases h2 : m < 0
    · simp only [toStr, h1, h2, if_true, List.cons.injEq, true_and] at h
      have := key2 _ _ h; omega
    · exact absurd h (key n m h1 h2)
  · by_cases h2 : m < 0
    · exact absurd h.symm (key m n h2 h1)
    · simp only [toStr, h1, h2, if_false] at h
      have := key2 _ _ h; omega

/-! ## Concrete cases -/

/-- " -0042\n" -/
example : (toInt false [32, 45, 48, 48, 52, 50, 10] 10).1 = some (-42) := by decide +kernel
/-- "0x10" in base 16 and in base 0 -/
example : (toInt false [48, 120, 49, 48] 16).1 = some 16 ∧ (toInt false [48, 120, 49, 48] 0).1 = some 16 := by
  decide +kernel
/-- "ff" in base 16: refused -/
example : (toInt false [102, 102] 16).1 = none :=
  letters_refused_refuted false 16 (by decide) _ (by decide) (by decide) 102 (by decide) rfl rfl (by decide) (by decide)
/-- "19" in base 8: 1 -/
example : toInt false [49, 57] 8 = (some 1, false) :=
  digits_cut_refuted 8 (by decide) [49] 57 [] 1 (by simp)
    (Value.snoc (b := 8) [] 49 0 1 .nil rfl (by decide)) (by decide) (by decide) (by decide)
/-- "12\0abc" is 12 -/
example : (toInt false [49, 50, 0, 97, 98, 99] 10).1 = some 12 := by decide +kernel
/-- "9223372036854775808", then "1" -/
example : toInt (toInt false (toStr (2 ^ 63)) 10).2 [49] 10 = (none, true) := by
  rw [(later_calls_raise_refuted false _ _ (toStr_py (2 ^ 63)) (by decide)).1]
  decide +kernel
example : toStr (-105) = [45, 49, 48, 53] := by
  simp [toStr, digits]
/-- "+-5", "1 2", "", "-" raise -/
example : (toInt false [43, 45, 53] 10).1 = none ∧ (toInt false [49, 32, 50] 10).1 = none ∧
    (toInt false [] 10).1 = none ∧ (toInt false [45] 10).1 = none := by decide +kernel

end Verif.IntParse
