import Verif.BundleArgs
/-
Reading back the paths that were written, and what a whole list of paths does.
-/

namespace Verif.BundleArgs

/-! ### Digits -/

theorem readNat_append (a b : Str) (acc : Nat) :
    readNat (a ++ b) acc = (readNat a acc).bind fun m => readNat b m := by
  induction a generalizing acc with
  | nil => rfl
  | cons c r ih =>
    show ((digit c).bind fun d => readNat (r ++ b) (acc * 10 + d)) = _
    show _ = ((digit c).bind fun d => readNat r (acc * 10 + d)).bind _
    cases digit c with
    | none => rfl
    | some d => exact ih _

theorem digit_ofNat : ∀ d : Nat, d < 10 → digit (Char.ofNat (48 + d)) = some d := by decide

theorem readNat_digits (n : Nat) : ∀ acc, readNat (digits n) acc = some (acc * 10 ^ (digits n).length + n) := by
  induction n using Nat.strongRecOn with
  | _ n ih =>
    intro acc
    rw [digits]
    split
    · rename_i h
      show ((digit _).bind fun d => readNat [] (acc * 10 + d)) = _
      rw [digit_ofNat n h]
      rfl
    · rename_i h
      rw [readNat_append, ih (n / 10) (by omega)]
      show ((digit _).bind fun d => readNat [] (_ * 10 + d)) = _
      rw [digit_ofNat _ (Nat.mod_lt _ (by omega))]
      show some _ = _
      rw [List.length_append, List.length_singleton, Nat.pow_succ, ← Nat.mul_assoc]
      congr 1
      omega

theorem digit_char : ∀ d : Nat, d < 10 → Char.ofNat (48 + d) ≠ ']' := by decide

theorem digits_no_bracket (n : Nat) : ∀ c ∈ digits n, c ≠ ']' := by
  induction n using Nat.strongRecOn with
  | _ n ih =>
    rw [digits]
    split
    · rename_i h
      intro c hc
      rw [List.mem_singleton] at hc
      subst hc
      exact digit_char n h
    · intro c hc
      rcases List.mem_append.1 hc with h | h
      · exact ih _ (by omega) c h
      · rw [List.mem_singleton] at h
        subst h
        exact digit_char _ (Nat.mod_lt _ (by omega))

/-! ### Lists of characters up to a separator -/

theorem takeWhile_stop {p : Char → Bool} {a : Str} {r : Str} (h : ∀ c ∈ a, p c = true)
    (hr : ∀ c r', r = c :: r' → p c = false) : (a ++ r).takeWhile p = a ∧ (a ++ r).dropWhile p = r := by
  induction a with
  | nil =>
    cases r with
    | nil => exact ⟨rfl, rfl⟩
    | cons c r' =>
      have := hr c r' rfl
      constructor
      · show (c :: r').takeWhile p = _
        rw [List.takeWhile_cons, this]; rfl
      · show (c :: r').dropWhile p = _
        rw [List.dropWhile_cons, this]; rfl
  | cons c a ih =>
    have hc := h c (List.mem_cons_self ..)
    have := ih (fun c h' => h c (List.mem_cons_of_mem _ h'))
    constructor
    · show (c :: (a ++ r)).takeWhile p = _
      rw [List.takeWhile_cons, hc, if_pos rfl, this.1]
    · show (c :: (a ++ r)).dropWhile p = _
      rw [List.dropWhile_cons, hc, if_pos rfl, this.2]

/-! ### Paths -/

/-- A key that can be written in a path. -/
def GoodKey (k : Str) : Prop := k ≠ [] ∧ ∀ c ∈ k, inKey c = true

/-- The text of a token. -/
def Tok.text : Tok → Str
  | .idx n => '[' :: digits n ++ [']']
  | .key s => '.' :: s

/-- The text of tokens. -/
def render : List Tok → Str
  | [] => []
  | t :: r => t.text ++ render r

theorem render_append (a b : List Tok) : render (a ++ b) = render a ++ render b := by
  induction a with
  | nil => rfl
  | cons t r ih => show t.text ++ render (r ++ b) = (t.text ++ render r) ++ render b; rw [ih, List.append_assoc]

/-- Keys of a path can be written. -/
def GoodToks (ts : List Tok) : Prop := ∀ k, Tok.key k ∈ ts → GoodKey k

/-- The text of tokens begins with a separator. -/
theorem render_head (ts : List Tok) : ∀ c r', render ts = c :: r' → inKey c = false := by
  intro c r' h
  cases ts with
  | nil => cases h
  | cons t r =>
    cases t with
    | idx n =>
      have h1 := (List.cons.inj h).1
      subst h1
      decide
    | key s =>
      have h1 := (List.cons.inj h).1
      subst h1
      decide

theorem skipDots_bracket (r : Str) : skipDots ('[' :: r) = '[' :: r := by
  show List.dropWhile _ _ = _
  rw [List.dropWhile_cons]
  rfl

theorem skipDots_key {k : Str} (h : GoodKey k) (r : Str) : skipDots ('.' :: (k ++ r)) = k ++ r := by
  cases k with
  | nil => exact absurd rfl h.1
  | cons c k' =>
    have hc := h.2 c (List.mem_cons_self ..)
    have hc' : (c == '.') = false := by
      cases h' : (c == '.') with
      | false => rfl
      | true => rw [inKey, h'] at hc; cases hc
    show List.dropWhile _ _ = _
    rw [List.dropWhile_cons, if_pos (by rfl)]
    show List.dropWhile _ (c :: (k' ++ r)) = _
    rw [List.dropWhile_cons, hc']
    rfl

/-- Paths are read as they were written. -/
theorem parse_render (ts : List Tok) (h : GoodToks ts) :
    ∀ n, (skipDots (render ts)).length < n → parse n (skipDots (render ts)) = some ts := by
  induction ts with
  | nil =>
    intro n _
    cases n <;> rfl
  | cons t r ih =>
    have hr : GoodToks r := fun k hk => h k (List.mem_cons_of_mem _ hk)
    intro n hn
    cases n with
    | zero => exact absurd hn (Nat.not_lt_zero _)
    | succ n =>
      have hlen : (skipDots (render r)).length ≤ (render r).length :=
        (List.dropWhile_sublist _).length_le
      cases t with
      | idx i =>
        have e : render (.idx i :: r) = '[' :: (digits i ++ (']' :: render r)) := by
          show ('[' :: digits i ++ [']']) ++ render r = _
          simp
        rw [e, skipDots_bracket] at hn ⊢
        have hs := takeWhile_stop (p := (· != ']')) (a := digits i) (r := ']' :: render r)
          (fun c hc => by
            have := digits_no_bracket i c hc
            simpa using this)
          (fun c r' hh => by
            have := (List.cons.inj hh).1
            subst this
            rfl)
        rw [parse, if_pos (by simp), hs.1, hs.2, readNat_digits]
        show ((parse n (skipDots (render r))).map _) = _
        rw [ih hr n (by simp at hn; omega)]
        show some (Tok.idx (0 * _ + i) :: r) = _
        rw [Nat.zero_mul, Nat.zero_add]
      | key k =>
        have hk := h k (List.mem_cons_self ..)
        have e : render (.key k :: r) = '.' :: (k ++ render r) := rfl
        rw [e, skipDots_key hk] at hn ⊢
        have hs := takeWhile_stop (p := inKey) (a := k) (r := render r) hk.2 (render_head r)
        have hp : parse (n + 1) (k ++ render r) =
            (parse n (skipDots ((k ++ render r).dropWhile inKey))).map
              (.key ((k ++ render r).takeWhile inKey) :: ·) := by
          cases k with
          | nil => exact absurd rfl hk.1
          | cons c k' =>
            have hc := hk.2 c (List.mem_cons_self ..)
            have hne : c ≠ '[' := by
              intro h'
              subst h'
              revert hc
              decide
            show parse (n + 1) (c :: (k' ++ render r)) = _
            rw [parse.eq_def]
            split
            · rename_i h'; cases h'
            · rename_i h' _; cases h'
            · rename_i h'; exact absurd (List.cons.inj h').1 hne
            · rename_i h' _ _; cases h'; rfl
        rw [hp, hs.1, hs.2, ih hr n ?_]
        · rfl
        · rw [List.length_append] at hn
          have : 0 < k.length := List.length_pos_iff.2 hk.1
          omega

/-- One path, read back. -/
theorem applyPath_render (f : Str → Option Str) (args : List (Str × Val)) {a : Str} (ha : ∀ c ∈ a, inKey c = true)
    {ts : List Tok} (h : GoodToks ts) :
    applyPath f args ('$' :: '.' :: (a ++ render ts)) = modArg (modify f ts) a args := by
  have hs := takeWhile_stop (p := inKey) (a := a) (r := render ts) ha (render_head ts)
  show ((parse ((skipDots ((a ++ render ts).dropWhile inKey)).length + 1)
    (skipDots ((a ++ render ts).dropWhile inKey))).bind fun ts' => modArg (modify f ts')
      ((a ++ render ts).takeWhile inKey) args) = _
  rw [hs.1, hs.2, parse_render ts h _ (Nat.lt_succ_self _)]
  rfl

end Verif.BundleArgs
