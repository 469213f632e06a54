import Verif.Msgpack
import Verif.Utf8Props

/-!
# msgpack: decoding is safe on arbitrary bytes (C22)
-/

namespace Verif.Msgpack

/-! ## Byte order -/

theorem be_length (k n : Nat) : (be k n).length = k := by
  induction k with
  | zero => rfl
  | succ k ih => simp [be, ih]

theorem or_byte (a : Nat) (b : UInt8) : (a <<< 8) ||| b.toNat = a * 256 + b.toNat := by
  have hb : b.toNat < 2 ^ 8 := b.toNat_lt
  rw [← Nat.shiftLeft_add_eq_or_of_lt hb, Nat.shiftLeft_eq]

theorem foldl_be (k n a : Nat) :
    (be k n).foldl (fun a b => (a <<< 8) ||| b.toNat) a = a * 256 ^ k + n % 256 ^ k := by
  induction k generalizing a with
  | zero => simp [be, Nat.mod_one]
  | succ k ih =>
    rw [be, List.foldl_cons, ih, or_byte]
    have h1 : (UInt8.ofNat (n >>> (8 * k))).toNat = n / 256 ^ k % 256 := by
      rw [UInt8.toNat_ofNat', Nat.shiftRight_eq_div_pow, Nat.pow_mul]
    have h2 : n % 256 ^ (k + 1) = n % 256 ^ k + 256 ^ k * (n / 256 ^ k % 256) := by
      rw [Nat.pow_succ, Nat.mod_mul]
    rw [h1, h2, Nat.pow_succ, Nat.add_mul]
    have : a * 256 * 256 ^ k = a * (256 ^ k * 256) := by
      rw [Nat.mul_assoc, Nat.mul_comm 256]
    rw [this, Nat.mul_comm (n / 256 ^ k % 256)]
    omega

/-- Loading what was stored gives the number back. -/
theorem loadBE_be (k n : Nat) (h : n < 256 ^ k) : loadBE (be k n) = n := by
  unfold loadBE; rw [foldl_be, Nat.mod_eq_of_lt h]; simp

theorem loadBE_one (b : UInt8) : loadBE [b] = b.toNat := by simp [loadBE]

theorem loadBE_lt (bs : List UInt8) : loadBE bs < 256 ^ bs.length := by
  have : ∀ (bs : List UInt8) (a : Nat),
      bs.foldl (fun a b => (a <<< 8) ||| b.toNat) a < (a + 1) * 256 ^ bs.length := by
    intro bs
    induction bs with
    | nil => intro a; simp
    | cons b r ih =>
      intro a
      rw [List.foldl_cons, or_byte, List.length_cons]
      have h := ih (a * 256 + b.toNat)
      have hb : b.toNat < 256 := b.toNat_lt
      have h2 : (a * 256 + b.toNat + 1) * 256 ^ r.length ≤ ((a + 1) * 256) * 256 ^ r.length :=
        Nat.mul_le_mul_right _ (by omega)
      have h3 : ((a + 1) * 256) * 256 ^ r.length = (a + 1) * 256 ^ (r.length + 1) := by
        rw [Nat.pow_succ, Nat.mul_assoc, Nat.mul_comm 256]
      omega
  simpa [loadBE] using this bs 0

/-! ## No read outside the input -/

/-- Constructor, kind and number of bytes of an action. -/
def Act.shape : Act → Nat × Nat × Nat
  | .lenOf acs k => (0, acs, k)
  | .num k _ => (1, 0, k)
  | .cont _ k => (2, 0, k)
  | .val acs => (3, acs, 0)
  | .bad => (4, 0, 0)

theorem action_shape (E E' : Env) (cs : Nat) : (action E cs).shape = (action E' cs).shape := by
  simp only [action]
  simp only [apply_ite Act.shape]
  rfl

/-- Every header announces exactly as many trailing bytes as its case reads. -/
def trailOk (b : Nat) : Bool :=
  match header b with
  | .trail cs t =>
    match (action ⟨id, fun _ _ => 0, fun _ _ => false⟩ cs).shape with
    | (0, acs, k) => t = k && (1 ≤ k && k ≤ 4) && (acs = acsExt || acs = acsBin || acs = acsRaw)
    | (1, _, k) => t = k && 1 ≤ k
    | (2, _, k) => t = k && 1 ≤ k
    | (3, acs, _) => 1 ≤ t && t ≤ 31 && (acs = acsExt || acs = acsRaw)
    | _ => false
  | _ => true

theorem trailOk_all : ∀ b < 256, trailOk b = true := by decide +kernel

/-- The shape of `trailOk_all` for a given header byte. -/
theorem header_trail (E : Env) (b : UInt8) (cs t : Nat) (h : header b.toNat = .trail cs t) :
    (∃ acs k, action E cs = .lenOf acs k ∧ t = k ∧ 1 ≤ k ∧ k ≤ 4 ∧
        (acs = acsExt ∨ acs = acsBin ∨ acs = acsRaw)) ∨
    (∃ k f, action E cs = .num k f ∧ t = k ∧ 1 ≤ k) ∨
    (∃ m k, action E cs = .cont m k ∧ t = k ∧ 1 ≤ k) ∨
    (∃ acs, action E cs = .val acs ∧ 1 ≤ t ∧ t ≤ 31 ∧ (acs = acsExt ∨ acs = acsRaw)) := by
  have h1 := trailOk_all b.toNat b.toNat_lt
  unfold trailOk at h1
  rw [h] at h1
  dsimp only at h1
  rw [action_shape _ E] at h1
  cases ha : action E cs with
  | lenOf acs k => 
    rw [ha] at h1; simp [Act.shape, or_assoc] at h1
    exact .inl ⟨acs, k, rfl, h1.1.1, h1.1.2.1, h1.1.2.2, h1.2⟩
  | num k f => rw [ha] at h1; simp [Act.shape] at h1; exact .inr (.inl ⟨k, f, rfl, h1.1, h1.2⟩)
  | cont m k =>
    rw [ha] at h1; simp [Act.shape] at h1; exact .inr (.inr (.inl ⟨m, k, rfl, h1.1, h1.2⟩))
  | val acs =>
    rw [ha] at h1; simp [Act.shape] at h1
    exact .inr (.inr (.inr ⟨acs, rfl, h1.1.1, h1.1.2, h1.2⟩))
  | bad => rw [ha] at h1; simp [Act.shape] at h1

/-- No read outside the input so far, and an extension that is handed on has its payload in the input. -/
def Dec.Safe : Dec → Prop
  | .oob => False
  | .ext tc pos len _ => len ≤ pos.length ∨ (tc = 0xff ∧ len = 4294967295)
  | _ => True

theorem rawVal_safe (b r : List UInt8) : (rawVal b r).Safe := by
  obtain ⟨cps, h, _⟩ := Utf8.utf8Decode_ok b
  simp [rawVal, h, Dec.Safe]

theorem next_safe {p : List UInt8} {k : List UInt8 → Dec} (hp : p ≠ []) (h : ∀ r, (k r).Safe) :
    (next p k).Safe := by
  cases p with
  | nil => exact absurd rfl hp
  | cons b r => exact h r

theorem region_safe {n : List UInt8} {l : Nat} {k : List UInt8 → Dec} (hl : l ≤ n.length)
    (h : (k (n.take l)).Safe) : (region n l k).Safe := by
  unfold region; rw [if_neg (by omega)]; exact h

theorem value_safe {acs t : Nat} {n p : List UInt8} (hp : p ≠ []) (ht : t ≤ n.length)
    (h1 : t < 4294967296)
    (h0 : t = 0 → acs ≠ acsBin → acs ≠ acsRaw → ∃ r, n = 0xff :: r) (hn : n ≠ []) :
    (value acs t n p).Safe := by
  unfold value
  split
  · exact region_safe ht (next_safe hp fun r => trivial)
  · rename_i hb
    split
    · exact region_safe ht (next_safe hp fun r => rawVal_safe _ _)
    · rename_i hr
      cases n with
      | nil => exact absurd rfl hn
      | cons tc pos =>
        refine next_safe hp fun r => ?_
        by_cases hz : t = 0
        · obtain ⟨r, h⟩ := h0 hz hb hr
          right; simp at h; exact ⟨h.1, by subst hz; rfl⟩
        · left; simp at ht; omega

theorem again_safe {acs t : Nat} {n p : List UInt8} (hp : p ≠ []) (hn : n ≠ [])
    (h1 : t < 4294967296)
    (h0 : t = 0 → acs ≠ acsBin → acs ≠ acsRaw → ∃ r, n = 0xff :: r) :
    (again acs t n p).Safe := by
  unfold again
  split
  · exact value_safe hp (by omega) (by omega) (fun _ => h0 (by assumption)) hn
  · cases p with
    | nil => exact absurd rfl hp
    | cons b q =>
      dsimp only
      split
      · trivial
      · rename_i hz hl
        have hq : q ≠ [] := by intro h; subst h; simp at hl; omega
        refine value_safe ?_ (by omega) h1 (fun h => absurd h hz) hq
        intro h
        have := congrArg List.length h
        simp at this; omega

/-- Only `ff ff ff ff` loads as the largest 32-bit length. -/
theorem load_wrap (bs : List UInt8) (h4 : bs.length ≤ 4) (h : (loadBE bs + 1) % 4294967296 = 0) :
    ∃ r, bs = 0xff :: r := by
  have hlt := loadBE_lt bs
  match bs, h4 with
  | [], _ => simp [loadBE] at h
  | [a], _ => simp only [List.length_cons, List.length_nil] at hlt; omega
  | [a, b], _ => simp only [List.length_cons, List.length_nil] at hlt; omega
  | [a, b, c], _ => simp only [List.length_cons, List.length_nil] at hlt; omega
  | [a, b, c, d], _ =>
    refine ⟨[b, c, d], ?_⟩
    have ha : a.toNat = 255 := by
      simp only [loadBE, List.foldl_cons, List.foldl_nil, or_byte] at h
      have ha := a.toNat_lt
      have hb := b.toNat_lt
      have hc := c.toNat_lt
      have hd := d.toNat_lt
      omega
    have : a = 0xff := UInt8.toNat_inj.mp (by simpa using ha)
    rw [this]
  | _ :: _ :: _ :: _ :: _ :: _, h4 => simp at h4

theorem decode_safe (E : Env) (p : List UInt8) : (decode E p).Safe := by
  unfold decode
  split
  · trivial
  · rename_i b rest
    split
    · trivial
    · trivial
    · rename_i cs t hh
      unfold fixedTrail
      split
      · trivial
      · rename_i hl
        have hd : ∀ k, 1 ≤ k → k ≤ rest.length → rest.drop (k - 1) ≠ [] := by
          intro k h1 h2 h
          have := congrArg List.length h
          simp at this; omega
        rcases header_trail E b cs t hh with ⟨acs, k, ha, rfl, h1, h4, hacs⟩ | ⟨k, f, ha, rfl, h1⟩ |
          ⟨m, k, ha, rfl, h1⟩ | ⟨acs, ha, h1, h2, hacs⟩
        · rw [ha]
          dsimp only
          rw [if_neg hl]
          have hn : rest ≠ [] := by intro h; subst h; simp at hl; omega
          have hlt := loadBE_lt (rest.take t)
          have hle : 256 ^ (rest.take t).length ≤ 256 ^ 4 := Nat.pow_le_pow_right (by omega) (by simp; omega)
          refine again_safe (hd t h1 (by omega)) hn ?_ ?_
          · unfold trailOf; split <;> omega
          · intro hz hb hr
            rcases hacs with rfl | rfl | rfl
            · unfold trailOf at hz
              rw [if_pos rfl] at hz
              obtain ⟨r, h⟩ := load_wrap (rest.take t) (by simp; omega) hz
              refine ⟨r ++ rest.drop t, ?_⟩
              rw [← List.cons_append, ← h, List.take_append_drop]
            · exact absurd rfl hb
            · exact absurd rfl hr
        · rw [ha]; dsimp only; rw [if_neg hl]
          exact next_safe (hd t h1 (by omega)) fun r => trivial
        · rw [ha]; dsimp only; rw [if_neg hl]
          exact next_safe (hd t h1 (by omega)) fun r => trivial
        · rw [ha]
          have hn : rest ≠ [] := by intro h; subst h; simp at hl; omega
          exact value_safe (hd t h1 (by omega)) (by omega) (by omega) (fun h => by omega) hn
    · exact rawVal_safe _ _
    · trivial

theorem timestamp_len {pos : List UInt8} {len : Nat} {x : Int × Nat} (h : timestamp pos len = some x) :
    len = 4 ∨ len = 8 ∨ len = 12 := by
  unfold timestamp at h
  split at h
  · omega
  · split at h
    · omega
    · split at h
      · omega
      · simp at h

theorem timestamp_append {pos x : List UInt8} {len : Nat} (h : len ≤ pos.length) :
    timestamp (pos ++ x) len = timestamp pos len := by
  unfold timestamp
  split
  · rw [List.take_append_of_le_length (by omega)]
  · split
    · rw [List.take_append_of_le_length (by omega)]
    · split
      · rw [List.take_append_of_le_length (by omega), List.drop_append_of_le_length (by omega),
          List.take_append_of_le_length (by simp; omega)]
      · rfl

/-- What follows a value: `_push` and the rest of the loop. -/
def cont (E : Env) (ul : Bool) (st : List Frame) (v : Val) (rest : List UInt8) : Res :=
  match push E ul st v with
  | .finish v => .done v rest
  | .again st obj => run E ul st obj rest
  | .throw => .raise .hook

/-- `custom_ext_callback` on a set. -/
def extSet (E : Env) (payload : List UInt8) (k : Val → Res) : Res :=
  match run E false [] .nil payload with
  | .raise _ => .raise .hook
  | .oob => .oob
  | .confused => .confused
  | .done _ (_ :: _) => .raise .hook
  | .done (.tuple xs) [] =>
    match mkSet E [] xs with
    | none => .raise .hook
    | some s => k (.set s)
  | .done _ [] => .raise .hook

/-- `unpack_callback_ext`. -/
def extRes (E : Env) (obj : Val) (tc : UInt8) (pos : List UInt8) (len : Nat) (k : Val → Res) : Res :=
  if tc = 0xff then
    match timestamp pos len with
    | none => .raise .failed
    | some x =>
      if pos.length < len then .oob
      else match stampVal (E.stamp x.1 x.2) obj with
        | none => .confused
        | some v => k v
  else if tc = 9 then
    if pos.length < len then .oob else extSet E (pos.take len) k
  else if tc = 2 then
    if pos.length < len then .oob
    else match unpackNd (pos.take len) with
      | none => .raise .hook
      | some v => k v
  else .raise .hook

/-- One turn of the loop. -/
theorem run_eq (E : Env) (ul : Bool) (st : List Frame) (obj : Val) (p : List UInt8) :
    run E ul st obj p = match decode E p with
      | .out => .raise .incomplete
      | .fmt => .raise .format
      | .failed => .raise .failed
      | .oob => .oob
      | .push v rest => cont E ul st v rest
      | .start m n rest =>
        if st.length ≥ 1024 then .raise .stack
        else if n = 0 then cont E ul st (if m then .dict [] else mkArr ul []) rest
        else if m then run E ul (.map n 0 [] none :: st) obj rest
        else run E ul (.arr n [] :: st) obj rest
      | .ext tc pos len rest => extRes E obj tc pos len fun v => cont E ul st v rest := by
  rw [run]
  split <;> rename_i h <;> rw [h]
  any_goals rfl
  rename_i tc pos len rest
  simp only [extRes, extSet, cont]
  split
  · cases timestamp pos len <;> rfl
  · rfl

/-- Induction on the length of the input, with the safety of `decode` and the sizes at hand. -/
theorem run_ind (E : Env) (C : Bool → List Frame → Val → List UInt8 → Prop)
    (step : ∀ ul st obj p, (∀ ul' st' obj' p', p'.length < p.length → C ul' st' obj' p') → C ul st obj p)
    (ul : Bool) (st : List Frame) (obj : Val) (p : List UInt8) : C ul st obj p := by
  have : ∀ (n : Nat) ul st obj (p : List UInt8), p.length < n → C ul st obj p := by
    intro n
    induction n with
    | zero => intro _ _ _ p h; omega
    | succ n ih => intro ul st obj p h; exact step ul st obj p fun ul' st' obj' p' h' => ih _ _ _ _ (by omega)
  exact this (p.length + 1) ul st obj p (by omega)

theorem cont_ne_oob {E : Env} {ul : Bool} {st : List Frame} {v : Val} {rest : List UInt8}
    (h : ∀ st obj, run E ul st obj rest ≠ .oob) : cont E ul st v rest ≠ .oob := by
  unfold cont
  split
  · simp
  · exact h _ _
  · simp

/-- **C22.**  The decoder never reads outside its input, whatever the bytes. -/
theorem run_ne_oob (E : Env) (ul : Bool) (st : List Frame) (obj : Val) (p : List UInt8) :
    run E ul st obj p ≠ .oob := by
  refine run_ind E (fun ul st obj p => run E ul st obj p ≠ .oob) ?_ ul st obj p
  intro ul st obj p ih
  have hs := decode_safe E p
  have hb := decode_below E p
  rw [run_eq]
  cases hd : decode E p <;> rw [hd] at hs hb <;> simp only [Dec.Safe, Dec.Below] at hs hb <;> dsimp only
  case out => simp
  case fmt => simp
  case failed => simp
  case push v rest => exact cont_ne_oob fun st obj => ih _ _ _ _ hb
  case start m n rest =>
    split
    · simp
    · split
      · exact cont_ne_oob fun st obj => ih _ _ _ _ hb
      · split <;> exact ih _ _ _ _ hb
  case ext tc pos len rest =>
    have hc : ∀ v, cont E ul st v rest ≠ .oob := fun v => cont_ne_oob fun st obj => ih _ _ _ _ hb.2
    unfold extRes
    split
    · cases ht : timestamp pos len with
      | none => simp
      | some x =>
        have := timestamp_len ht
        dsimp only
        rw [if_neg (by rcases hs with hs | hs <;> omega)]
        split
        · simp
        · exact hc _
    · rename_i htc
      have hl : ¬ pos.length < len := by
        rcases hs with hs | hs
        · omega
        · exact absurd hs.1 htc
      split
      · have := ih false [] .nil (pos.take len) (by simp; omega)
        unfold extSet
        split <;> try simp
        · rename_i h; exact absurd h this
        · split
          · simp
          · exact hc _
      · split
        · split
          · simp
          · exact hc _
        · simp

/-- **C22.**  `msgpack_loads` never reads outside its input. -/
theorem loads_ne_oob (E : Env) (p : List UInt8) : loads E p ≠ .oob := by
  unfold loads
  have := run_ne_oob E true [] .nil p
  split <;> simp_all

/-! ## Extending the input -/

/-- The same outcome with more input behind it. -/
def Dec.append (x : List UInt8) : Dec → Dec
  | .push v r => .push v (r ++ x)
  | .start m n r => .start m n (r ++ x)
  | .ext tc pos len r => .ext tc (pos ++ x) len (r ++ x)
  | d => d

theorem rawVal_append (b r x : List UInt8) : rawVal b (r ++ x) = (rawVal b r).append x := by
  unfold rawVal; split <;> rfl

theorem value_append {acs t : Nat} {n p : List UInt8} (x : List UInt8) (hp : p ≠ []) (hn : n ≠ [])
    (ht : t ≤ n.length) :
    value acs t (n ++ x) (p ++ x) = (value acs t n p).append x := by
  cases p with
  | nil => exact absurd rfl hp
  | cons b r =>
    cases n with
    | nil => exact absurd rfl hn
    | cons c m =>
      have h1 : ¬ ((c :: m) ++ x).length < t := by simp at ht ⊢; omega
      have h2 : ((c :: m) ++ x).take t = (c :: m).take t := List.take_append_of_le_length ht
      have h3 : ¬ (c :: m).length < t := by omega
      unfold value region
      rw [if_neg h1, if_neg h3, h2]
      by_cases hb : acs = acsBin
      · rw [if_pos hb, if_pos hb]; rfl
      · rw [if_neg hb, if_neg hb]
        by_cases hr : acs = acsRaw
        · rw [if_pos hr, if_pos hr]
          rw [if_neg h1, if_neg h3]; exact rawVal_append _ _ _
        · rw [if_neg hr, if_neg hr]; rfl

theorem again_append {acs t : Nat} {n p : List UInt8} (x : List UInt8) (hp : p ≠ []) (hn : n ≠ [])
    (ho : again acs t n p ≠ .out) :
    again acs t (n ++ x) (p ++ x) = (again acs t n p).append x := by
  unfold again at ho ⊢
  split
  · rename_i hz; exact value_append x hp hn (by omega)
  · cases p with
    | nil => exact absurd rfl hp
    | cons b q =>
      rename_i hz
      rw [if_neg hz] at ho
      dsimp only [List.cons_append] at ho ⊢
      split at ho
      · exact absurd rfl ho
      · rename_i hl
        rw [if_neg (by simp; omega), if_neg hl, List.drop_append_of_le_length (by omega)]
        refine value_append x ?_ ?_ (by omega)
        · intro h
          have := congrArg List.length h
          simp at this; omega
        · intro h; subst h; simp at hl; omega

/-- Unless the input runs out, the next step does not depend on what follows. -/
theorem decode_append (E : Env) (p x : List UInt8) (ho : decode E p ≠ .out) :
    decode E (p ++ x) = (decode E p).append x := by
  cases p with
  | nil => exact absurd rfl ho
  | cons b rest =>
    unfold decode at ho ⊢
    dsimp only [List.cons_append] at ho ⊢
    cases hh : header b.toNat with
    | push v => rfl
    | start m n => rfl
    | rawZero => exact rawVal_append _ _ _
    | bad => rfl
    | trail cs t =>
      rw [hh] at ho
      dsimp only at ho ⊢
      unfold fixedTrail at ho ⊢
      by_cases hl : rest.length < t
      · rw [if_pos hl] at ho; exact absurd rfl ho
      · rw [if_neg hl] at ho
        have h1 : (rest ++ x).drop (t - 1) = rest.drop (t - 1) ++ x :=
          List.drop_append_of_le_length (by omega)
        have h2 : (rest ++ x).take t = rest.take t := List.take_append_of_le_length (by omega)
        have h3 : ¬ (rest ++ x).length < t := by simp; omega
        rw [if_neg hl, if_neg h3, h1]
        have hd : 1 ≤ t → rest.drop (t - 1) ≠ [] := by
          intro h1 h
          have := congrArg List.length h
          simp at this; omega
        have hn : 1 ≤ t → rest ≠ [] := by intro h1 h; subst h; simp at hl; omega
        rcases header_trail E b cs t hh with ⟨acs, k, ha, rfl, h1, h4, hacs⟩ | ⟨k, f, ha, rfl, h1⟩ |
          ⟨m, k, ha, rfl, h1⟩ | ⟨acs, ha, h1, _, hacs⟩
        · rw [ha] at ho ⊢
          dsimp only at ho ⊢
          rw [if_neg hl] at ho
          rw [if_neg hl, if_neg h3, h2]
          exact again_append x (hd h1) (hn h1) ho
        · rw [ha]; dsimp only; rw [if_neg hl, if_neg h3, h2]
          cases h : rest.drop (t - 1) with
          | nil => exact absurd h (hd h1)
          | cons _ _ => rfl
        · rw [ha]; dsimp only; rw [if_neg hl, if_neg h3, h2]
          cases h : rest.drop (t - 1) with
          | nil => exact absurd h (hd h1)
          | cons _ _ => rfl
        · rw [ha]; dsimp only
          exact value_append x (hd h1) (hn h1) (by omega)

/-- The same result with more input behind it; only a complete value or a fault is kept. -/
def Res.append (x : List UInt8) : Res → Res
  | .done v r => .done v (r ++ x)
  | r => r

theorem cont_append {E : Env} {ul : Bool} {st : List Frame} {v : Val} {rest x : List UInt8}
    (ih : ∀ st obj, run E ul st obj rest ≠ .raise .incomplete →
      run E ul st obj (rest ++ x) = (run E ul st obj rest).append x)
    (h : cont E ul st v rest ≠ .raise .incomplete) :
    cont E ul st v (rest ++ x) = (cont E ul st v rest).append x := by
  unfold cont at h ⊢
  cases hp : push E ul st v <;> rw [hp] at h <;> dsimp only at h ⊢
  · rfl
  · exact ih _ _ h
  · rfl

/-- Unless the decoder reports an incomplete input, its result does not depend on what follows. -/
theorem run_append (E : Env) (ul : Bool) (st : List Frame) (obj : Val) (p x : List UInt8)
    (h : run E ul st obj p ≠ .raise .incomplete) :
    run E ul st obj (p ++ x) = (run E ul st obj p).append x := by
  revert h
  refine run_ind E (fun ul st obj p => run E ul st obj p ≠ .raise .incomplete →
    run E ul st obj (p ++ x) = (run E ul st obj p).append x) ?_ ul st obj p
  intro ul st obj p ih h
  have hs := decode_safe E p
  have hb := decode_below E p
  rw [run_eq] at h
  have ho : decode E p ≠ .out := by intro ho; rw [ho] at h; exact h rfl
  rw [run_eq E ul st obj (p ++ x), run_eq E ul st obj p, decode_append E p x ho]
  cases hd : decode E p <;> rw [hd] at hs hb h <;> simp only [Dec.Safe, Dec.Below] at hs hb <;>
    dsimp only [Dec.append] at h ⊢
  case out => exact absurd rfl h
  case fmt => rfl
  case failed => rfl
  case push v rest => exact cont_append (fun st obj => ih _ _ _ _ hb) h
  case start m n rest =>
    split
    · rfl
    · rename_i hst
      rw [if_neg hst] at h
      split
      · rename_i hn
        rw [if_pos hn] at h
        exact cont_append (fun st obj => ih _ _ _ _ hb) h
      · rename_i hn
        rw [if_neg hn] at h
        split
        · rename_i hm; rw [if_pos hm] at h; exact ih _ _ _ _ hb h
        · rename_i hm; rw [if_neg hm] at h; exact ih _ _ _ _ hb h
  case ext tc pos len rest =>
    have hc : ∀ v, cont E ul st v rest ≠ .raise .incomplete →
        cont E ul st v (rest ++ x) = (cont E ul st v rest).append x :=
      fun v => cont_append fun st obj => ih _ _ _ _ hb.2
    unfold extRes at h ⊢
    by_cases htc : tc = 0xff
    · rw [if_pos htc] at h
      rw [if_pos htc, if_pos htc]
      by_cases hl : len ≤ pos.length
      · have ht : timestamp (pos ++ x) len = timestamp pos len := timestamp_append hl
        rw [ht]
        cases hts : timestamp pos len with
        | none => rfl
        | some y =>
          rw [hts] at h
          dsimp only at h ⊢
          rw [if_neg (by omega)] at h
          rw [if_neg (by simp; omega), if_neg (by omega)]
          cases hv : stampVal (E.stamp y.1 y.2) obj with
          | none => rfl
          | some v => rw [hv] at h; exact hc v h
      · have hlen : len = 4294967295 := by rcases hs with hs | hs <;> omega
        have ht : ∀ pos, timestamp pos len = none := by intro pos; subst hlen; rfl
        rw [ht, ht]; rfl
    · have hl : len ≤ pos.length := by
        rcases hs with hs | hs
        · exact hs
        · exact absurd hs.1 htc
      have hl2 : ¬ pos.length < len := by omega
      have hl3 : ¬ (pos ++ x).length < len := by simp; omega
      have htk : (pos ++ x).take len = pos.take len := List.take_append_of_le_length hl
      rw [if_neg htc] at h
      rw [if_neg htc, if_neg htc]
      by_cases h9 : tc = 9
      · rw [if_pos h9, if_neg hl2] at h
        rw [if_pos h9, if_pos h9, if_neg hl2, if_neg hl3, htk]
        unfold extSet at h ⊢
        cases hr : run E false [] .nil (pos.take len) with
        | raise e => rfl
        | oob => rfl
        | confused => rfl
        | done v r =>
          rw [hr] at h
          cases r with
          | cons _ _ => cases v <;> rfl
          | nil =>
            cases v with
            | tuple xs =>
              dsimp only at h ⊢
              cases hm : mkSet E [] xs with
              | none => rfl
              | some s => rw [hm] at h; exact hc _ h
            | _ => rfl
      · rw [if_neg h9] at h
        rw [if_neg h9, if_neg h9]
        by_cases h2 : tc = 2
        · rw [if_pos h2, if_neg hl2] at h
          rw [if_pos h2, if_pos h2, if_neg hl2, if_neg hl3, htk]
          cases hu : unpackNd (pos.take len) with
          | none => rfl
          | some v => rw [hu] at h; exact hc _ h
        · rw [if_neg h2, if_neg h2]; rfl

/-- **C22.**  No strict prefix of a valid encoding is accepted: it raises, and it is not misread. -/
theorem loads_strict_prefix (E : Env) (p x : List UInt8) (v : Val) (hx : x ≠ [])
    (h : loads E (p ++ x) = .ok v) : loads E p = .raise .incomplete := by
  have hd : run E true [] .nil (p ++ x) = .done v [] := by
    unfold loads at h
    split at h <;> simp_all
  by_cases hi : run E true [] .nil p = .raise .incomplete
  · unfold loads; rw [hi]
  · have := run_append E true [] .nil p x hi
    rw [hd] at this
    cases hr : run E true [] .nil p <;> rw [hr] at this <;> simp [Res.append] at this
    exact absurd this.2.2 hx

/-- **C22.**  Bytes after a complete encoding are rejected. -/
theorem loads_trailing (E : Env) (p x : List UInt8) (v : Val) (hx : x ≠ [])
    (h : loads E p = .ok v) : loads E (p ++ x) = .raise .extra := by
  have hd : run E true [] .nil p = .done v [] := by
    unfold loads at h
    split at h <;> simp_all
  have := run_append E true [] .nil p x (by rw [hd]; simp)
  rw [hd] at this
  unfold loads
  rw [this]
  cases x with
  | nil => exact absurd rfl hx
  | cons _ _ => rfl

/-! ## Timestamps -/

/-- Remaining input and payload are the end of the input. -/
def Dec.Suf (p : List UInt8) : Dec → Prop
  | .push _ r => r <:+ p
  | .start _ _ r => r <:+ p
  | .ext _ pos _ r => pos <:+ p ∧ r <:+ p
  | _ => True

theorem next_suf {s p : List UInt8} {k : List UInt8 → Dec} (hs : s <:+ p)
    (h : ∀ r, r <:+ p → (k r).Suf p) : (next s k).Suf p := by
  cases s with
  | nil => trivial
  | cons b r => exact h r ((List.suffix_cons b r).trans hs)

theorem rawVal_suf {p b r : List UInt8} (h : r <:+ p) : (rawVal b r).Suf p := by
  unfold rawVal; split
  · exact h
  · trivial

theorem value_suf {acs t : Nat} {n q p : List UInt8} (hn : n <:+ p) (hq : q <:+ p) :
    (value acs t n q).Suf p := by
  unfold value region
  split
  · split
    · trivial
    · exact next_suf hq fun r h => h
  · split
    · split
      · trivial
      · exact next_suf hq fun r h => rawVal_suf h
    · split
      · trivial
      · rename_i tc pos
        exact next_suf hq fun r h => ⟨(List.suffix_cons tc pos).trans hn, h⟩

theorem again_suf {acs t : Nat} {n q p : List UInt8} (hn : n <:+ p) (hq : q <:+ p) :
    (again acs t n q).Suf p := by
  unfold again
  split
  · exact value_suf hn hq
  · split
    · trivial
    · rename_i b r
      have hr := (List.suffix_cons b r).trans hq
      split
      · trivial
      · exact value_suf hr ((List.drop_suffix _ _).trans hr)

theorem decode_suf (E : Env) (p : List UInt8) : (decode E p).Suf p := by
  unfold decode
  split
  · trivial
  · rename_i b rest
    have hr := List.suffix_cons b rest
    split
    · exact hr
    · exact hr
    · rename_i cs t _
      have hd := (List.drop_suffix (t - 1) rest).trans hr
      unfold fixedTrail
      split
      · trivial
      · dsimp only
        split
        · split
          · trivial
          · exact again_suf hr hd
        · split
          · trivial
          · exact next_suf hd fun r h => h
        · split
          · trivial
          · exact next_suf hd fun r h => h
        · exact value_suf hr hd
        · trivial
    · exact rawVal_suf hr
    · trivial

/-- The bytes that start a timestamp extension: `d6 ff`, `d7 ff`, or a length 4, 8, 12 followed by `ff`. -/
def hasStamp (p : List UInt8) : Prop :=
  ∃ c ∈ ([0xd6, 0xd7, 4, 8, 12] : List UInt8), [c, 0xff] <:+: p

/-- A timestamp extension can be seen in the input. -/
def Dec.Stamp (p : List UInt8) : Dec → Prop
  | .ext tc _ len _ => tc = 0xff → (len = 4 ∨ len = 8 ∨ len = 12) → hasStamp p
  | _ => True

theorem loadBE_snoc (a : List UInt8) (c : UInt8) : loadBE (a ++ [c]) = loadBE a * 256 + c.toNat := by
  simp only [loadBE, List.foldl_append, List.foldl_cons, List.foldl_nil, or_byte]

/-- Fixed extensions: header byte, type code. -/
def fixOk (b : Nat) : Bool :=
  match header b with
  | .trail cs t => cs ≠ acsExt ||
    ((t ≠ 5 || b = 0xd6) && (t ≠ 9 || b = 0xd7) && t ≠ 13 && 1 ≤ t && t ≤ 17)
  | _ => true

theorem fixOk_all : ∀ b < 256, fixOk b = true := by decide +kernel

theorem action_val (E : Env) (cs acs : Nat) (h : action E cs = .val acs) : cs = acs := by
  have h1 : ∀ E, (action E cs).shape = (action ⟨id, fun _ _ => 0, fun _ _ => false⟩ cs).shape :=
    fun E => action_shape _ _ cs
  have h2 := h1 E
  rw [h] at h2
  by_cases hc : cs < 64
  · have : ∀ cs < 64, ((action ⟨id, fun _ _ => 0, fun _ _ => false⟩ cs).shape.1 ≠ 3) ∨
        (action ⟨id, fun _ _ => 0, fun _ _ => false⟩ cs).shape.2.1 = cs := by decide +kernel
    rcases this cs hc with h3 | h3
    · rw [← h2] at h3; simp [Act.shape] at h3
    · rw [← h2] at h3; exact h3.symm
  · exfalso
    have h5 : cs ≠ acsRaw := by unfold acsRaw; omega
    have h6 : cs ≠ acsExt := by unfold acsExt; omega
    unfold action at h
    repeat rw [if_neg (by first | assumption | omega)] at h
    cases h

theorem value_not_ext {acs t : Nat} {n q p : List UInt8} (h : acs = acsBin ∨ acs = acsRaw) :
    (value acs t n q).Stamp p := by
  unfold value region next rawVal
  rcases h with rfl | rfl
  · rw [if_pos rfl]
    split
    · trivial
    · split <;> trivial
  · rw [if_neg (by decide), if_pos rfl]
    split
    · trivial
    · dsimp only
      split
      · trivial
      · split <;> trivial

theorem decode_stamp (E : Env) (p : List UInt8) : (decode E p).Stamp p := by
  unfold decode
  split
  · trivial
  · rename_i b rest
    cases hh : header b.toNat with
    | push v => trivial
    | start m n => trivial
    | bad => trivial
    | rawZero => dsimp only; unfold rawVal; split <;> trivial
    | trail cs t =>
      dsimp only
      unfold fixedTrail
      split
      · trivial
      · rename_i hl
        rcases header_trail E b cs t hh with ⟨acs, k, ha, rfl, h1, h4, hacs⟩ | ⟨k, f, ha, rfl, h1⟩ |
          ⟨m, k, ha, rfl, h1⟩ | ⟨acs, ha, h1, _, hacs⟩
        · rw [ha]
          dsimp only
          rw [if_neg hl]
          by_cases hext : acs = acsExt
          · subst hext
            have hlt := loadBE_lt (rest.take t)
            have hle : 256 ^ (rest.take t).length ≤ 256 ^ 4 :=
              Nat.pow_le_pow_right (by omega) (by simp; omega)
            unfold again trailOf value
            rw [if_pos rfl]
            split
            · rw [if_neg (by decide), if_neg (by decide)]
              split
              · trivial
              · unfold next
                split
                · trivial
                · intro _ hx; simp at hx
            · rename_i hz
              split
              · trivial
              · rename_i c q hc
                split
                · trivial
                · rename_i hq
                  rw [if_neg (by decide), if_neg (by decide)]
                  split
                  · trivial
                  · rename_i tc pos
                    unfold next
                    split
                    · trivial
                    · intro htc hx
                      subst htc
                      have hsplit : rest = rest.take (t - 1) ++ c :: 0xff :: pos := by
                        rw [← hc, List.take_append_drop]
                      have htake : rest.take t = rest.take (t - 1) ++ [c] := by
                        have : t = t - 1 + 1 := by omega
                        rw [this, List.take_add_one, ← List.head?_drop]
                        simp [hc]
                      have hload := loadBE_snoc (rest.take (t - 1)) c
                      rw [← htake] at hload
                      have hcl := c.toNat_lt
                      have hcn : c.toNat = 4 ∨ c.toNat = 8 ∨ c.toNat = 12 := by omega
                      refine ⟨c, ?_, ?_⟩
                      · have : c = 4 ∨ c = 8 ∨ c = 12 := by
                          rcases hcn with h | h | h
                          · left; exact UInt8.toNat_inj.mp (by simpa using h)
                          · right; left; exact UInt8.toNat_inj.mp (by simpa using h)
                          · right; right; exact UInt8.toNat_inj.mp (by simpa using h)
                        rcases this with h | h | h <;> simp [h]
                      · refine ⟨b :: rest.take (t - 1), pos, ?_⟩
                        have : b :: rest = b :: (rest.take (t - 1) ++ c :: 0xff :: pos) :=
                          congrArg _ hsplit
                        rw [this]; simp
          · have hacs : acs = acsBin ∨ acs = acsRaw := by
              rcases hacs with h | h | h
              · exact absurd h hext
              · exact .inl h
              · exact .inr h
            unfold again
            split
            · exact value_not_ext hacs
            · split
              · trivial
              · split
                · trivial
                · exact value_not_ext hacs
        · rw [ha]; dsimp only; rw [if_neg hl]; unfold next; split <;> trivial
        · rw [ha]; dsimp only; rw [if_neg hl]; unfold next; split <;> trivial
        · rw [ha]; dsimp only
          rcases hacs with rfl | rfl
          · have hcs := action_val E cs _ ha
            have hf := fixOk_all b.toNat b.toNat_lt
            unfold fixOk at hf
            rw [hh] at hf
            simp [hcs] at hf
            unfold value
            rw [if_neg (by decide), if_neg (by decide)]
            split
            · trivial
            · rename_i tc pos
              unfold next
              split
              · trivial
              · intro htc hx
                subst htc
                refine ⟨b, ?_, ⟨[], pos, rfl⟩⟩
                have : b.toNat = 0xd6 ∨ b.toNat = 0xd7 := by omega
                rcases this with h | h
                · have : b = 0xd6 := UInt8.toNat_inj.mp (by simpa using h)
                  simp [this]
                · have : b = 0xd7 := UInt8.toNat_inj.mp (by simpa using h)
                  simp [this]
          · exact value_not_ext (.inr rfl)

theorem hasStamp_mono {p q : List UInt8} (h : p <:+: q) (hp : hasStamp p) : hasStamp q := by
  obtain ⟨c, hc, hi⟩ := hp
  exact ⟨c, hc, hi.trans h⟩

/-- Without a timestamp extension every value has a type code that belongs to its payload. -/
theorem run_ne_confused (E : Env) (ul : Bool) (st : List Frame) (obj : Val) (p : List UInt8)
    (hp : ¬ hasStamp p) : run E ul st obj p ≠ .confused := by
  revert hp
  refine run_ind E (fun ul st obj p => ¬ hasStamp p → run E ul st obj p ≠ .confused) ?_ ul st obj p
  intro ul st obj p ih hp
  have hb := decode_below E p
  have hsf := decode_suf E p
  have hst := decode_stamp E p
  have hcont : ∀ rest : List UInt8, rest.length < p.length → rest <:+ p → ∀ v,
      cont E ul st v rest ≠ .confused := by
    intro rest hl hs v
    unfold cont
    split
    · simp
    · exact ih _ _ _ _ hl fun h => hp (hasStamp_mono hs.isInfix h)
    · simp
  rw [run_eq]
  cases hd : decode E p <;> rw [hd] at hb hsf hst <;>
    simp only [Dec.Suf, Dec.Below, Dec.Stamp] at hb hsf hst <;> dsimp only
  case out => simp
  case fmt => simp
  case failed => simp
  case oob => simp
  case push v rest => exact hcont _ hb hsf _
  case start m n rest =>
    have hr : ¬ hasStamp rest := fun h => hp (hasStamp_mono hsf.isInfix h)
    split
    · simp
    · split
      · exact hcont _ hb hsf _
      · split <;> exact ih _ _ _ _ hb hr
  case ext tc pos len rest =>
    have hc := hcont rest hb.2 hsf.2
    unfold extRes
    split
    · rename_i htc
      cases ht : timestamp pos len with
      | none => simp
      | some x => exact absurd (hst htc (timestamp_len ht)) hp
    · split
      · split
        · simp
        · have := ih false [] .nil (pos.take len) (by simp; omega)
            (fun h => hp (hasStamp_mono ((List.take_prefix _ _).isInfix.trans hsf.1.isInfix) h))
          unfold extSet
          split <;> try simp
          · rename_i h; exact absurd h this
          · split
            · simp
            · exact hc _
      · split
        · split
          · simp
          · split
            · simp
            · exact hc _
        · simp

/-- **C22, guarded.**  On every input that holds no timestamp extension (`d6 ff`, `d7 ff` or a length byte
4, 8, 12 followed by `ff`), `msgpack_loads` returns a value or raises: it never reads outside the input and
never builds a value whose payload does not fit its type. -/
theorem loads_safe_partial (E : Env) (p : List UInt8) (hp : ¬ hasStamp p) :
    (∃ v, loads E p = .ok v) ∨ (∃ e, loads E p = .raise e) := by
  have h1 := run_ne_oob E true [] .nil p
  have h2 := run_ne_confused E true [] .nil p hp
  unfold loads
  split <;> simp_all

/-- An environment for examples. -/
def env0 : Env := ⟨id, fun s _ => s.toNat, fun a b => a == b⟩

/-- **C22, refuted.**  A timestamp after a string is given the string's type code and the timestamp's payload
as its pointer: `["a", <timestamp>]`. -/
theorem loads_timestamp_refuted (E : Env) :
    loads E [0x92, 0xa1, 0x61, 0xd6, 0xff, 0, 0, 0, 0] = .confused := by
  have h1 : decode E [0x92, 0xa1, 0x61, 0xd6, 0xff, 0, 0, 0, 0] =
      .start false 2 [0xa1, 0x61, 0xd6, 0xff, 0, 0, 0, 0] := rfl
  have h2 : decode E [0xa1, 0x61, 0xd6, 0xff, 0, 0, 0, 0] = rawVal [0x61] [0xd6, 0xff, 0, 0, 0, 0] := rfl
  have h3 : Utf8.utf8Decode [0x61] = .ok [0x61] := by decide +kernel
  have h4 : decode E [0xd6, 0xff, 0, 0, 0, 0] = .ext 0xff [0, 0, 0, 0] 4 [] := rfl
  unfold loads
  simp [run_eq, h1, h2, h3, h4, rawVal, cont, push, extRes, timestamp, stampVal]

end Verif.Msgpack
