/-
C83: `json.dumps` and `json.loads`. Also: the laws assumed of the text layer can be satisfied.
-/
import Verif.PickleSave

namespace Verif.Pickle

/-! ## A text layer with the laws -/

def encNat (n : Nat) : Name := List.replicate n 1 ++ [0]

theorem encNat_inj : ∀ (n m : Nat) (r r' : Name), encNat n ++ r = encNat m ++ r' → n = m ∧ r = r'
  | 0, 0, r, r', h => by simpa [encNat] using h
  | 0, m + 1, r, r', h => by simp [encNat, List.replicate_succ] at h
  | n + 1, 0, r, r', h => by simp [encNat, List.replicate_succ] at h
  | n + 1, m + 1, r, r', h => by
    have := encNat_inj n m r r' (by simpa [encNat, List.replicate_succ] using h)
    exact ⟨by omega, this.2⟩

theorem encStr_inj (s t r r' : Name) (h : encNat s.length ++ s ++ r = encNat t.length ++ t ++ r') :
    s = t ∧ r = r' := by
  rw [List.append_assoc, List.append_assoc] at h
  obtain ⟨h1, h2⟩ := encNat_inj _ _ _ _ h
  exact List.append_inj h2 h1

mutual
/-- Some encoding of documents as bytes. -/
def enc : J → Name
  | .null => [0]
  | .bool b => [1, if b then 1 else 0]
  | .num i => 2 :: (encNat i.toNat ++ encNat (-i).toNat)
  | .dbl b => 3 :: encNat b
  | .str s => 4 :: (encNat s.length ++ s)
  | .arr xs => 5 :: (encNat xs.length ++ encList xs)
  | .obj ms => 6 :: (encNat ms.length ++ encMembers ms)
def encList : List J → Name
  | [] => []
  | j :: r => enc j ++ encList r
def encMembers : List (Name × J) → Name
  | [] => []
  | (n, j) :: r => (encNat n.length ++ n) ++ (enc j ++ encMembers r)
end

mutual
theorem enc_inj : ∀ (j j' : J) (r r' : Name), enc j ++ r = enc j' ++ r' → j = j' ∧ r = r'
  | .null, j', r, r', h => by
    cases j' <;> simp [enc] at h
    simp [h]
  | .bool b, j', r, r', h => by
    cases j' <;> simp [enc] at h
    rename_i b'
    cases b <;> cases b' <;> simp at h <;> simp [h]
  | .num i, j', r, r', h => by
    cases j' <;> simp only [enc, List.cons_append, List.cons.injEq] at h <;> try (exact absurd h.1 (by decide))
    rename_i i'
    rw [List.append_assoc, List.append_assoc] at h
    obtain ⟨h1, h2⟩ := encNat_inj _ _ _ _ h.2
    obtain ⟨h3, h4⟩ := encNat_inj _ _ _ _ h2
    exact ⟨by congr 1; omega, h4⟩
  | .dbl b, j', r, r', h => by
    cases j' <;> simp only [enc, List.cons_append, List.cons.injEq] at h <;> try (exact absurd h.1 (by decide))
    obtain ⟨h1, h2⟩ := encNat_inj _ _ _ _ h.2
    exact ⟨by rw [h1], h2⟩
  | .str s, j', r, r', h => by
    cases j' <;> simp only [enc, List.cons_append, List.cons.injEq] at h <;> try (exact absurd h.1 (by decide))
    obtain ⟨h1, h2⟩ := encStr_inj _ _ _ _ h.2
    exact ⟨by rw [h1], h2⟩
  | .arr xs, j', r, r', h => by
    cases j' <;> simp only [enc, List.cons_append, List.cons.injEq] at h <;> try (exact absurd h.1 (by decide))
    rw [List.append_assoc, List.append_assoc] at h
    obtain ⟨h1, h2⟩ := encNat_inj _ _ _ _ h.2
    obtain ⟨h3, h4⟩ := encList_inj _ _ _ _ h1 h2
    exact ⟨by rw [h3], h4⟩
  | .obj ms, j', r, r', h => by
    cases j' <;> simp only [enc, List.cons_append, List.cons.injEq] at h <;> try (exact absurd h.1 (by decide))
    rw [List.append_assoc, List.append_assoc] at h
    obtain ⟨h1, h2⟩ := encNat_inj _ _ _ _ h.2
    obtain ⟨h3, h4⟩ := encMembers_inj _ _ _ _ h1 h2
    exact ⟨by rw [h3], h4⟩
theorem encList_inj : ∀ (xs ys : List J) (r r' : Name), xs.length = ys.length →
    encList xs ++ r = encList ys ++ r' → xs = ys ∧ r = r'
  | [], ys, r, r', hl, h => by
    obtain rfl : ys = [] := List.length_eq_zero_iff.1 hl.symm
    exact ⟨rfl, h⟩
  | x :: xs, [], r, r', hl, h => by simp at hl
  | x :: xs, y :: ys, r, r', hl, h => by
    simp only [encList, List.append_assoc] at h
    obtain ⟨h1, h2⟩ := enc_inj x y _ _ h
    obtain ⟨h3, h4⟩ := encList_inj xs ys r r' (by simpa using hl) h2
    exact ⟨by rw [h1, h3], h4⟩
theorem encMembers_inj : ∀ (xs ys : List (Name × J)) (r r' : Name), xs.length = ys.length →
    encMembers xs ++ r = encMembers ys ++ r' → xs = ys ∧ r = r'
  | [], ys, r, r', hl, h => by
    obtain rfl : ys = [] := List.length_eq_zero_iff.1 hl.symm
    exact ⟨rfl, h⟩
  | (n, x) :: xs, [], r, r', hl, h => by simp at hl
  | (n, x) :: xs, (m, y) :: ys, r, r', hl, h => by
    simp only [encMembers] at h
    rw [List.append_assoc, List.append_assoc (encNat m.length ++ m)] at h
    obtain ⟨h0, h⟩ := encStr_inj _ _ _ _ h
    rw [List.append_assoc, List.append_assoc] at h
    obtain ⟨h1, h2⟩ := enc_inj x y _ _ h
    obtain ⟨h3, h4⟩ := encMembers_inj xs ys r r' (by simpa using hl) h2
    exact ⟨by rw [h0, h1, h3], h4⟩
end

open Classical in
/-- The laws assumed of the text layer hold for some writer and parser (with all floats surviving). -/
theorem textLaws_satisfiable : ∃ write parse, TextLaws write parse (fun _ => True) := by
  refine ⟨fun j => if Valid (fun _ => True) j then some (enc j) else none,
    fun t => if h : ∃ j, enc j = t then some h.choose else none, ?_, ?_, ?_⟩
  · intro ms h
    refine ⟨enc (.obj ms), if_pos h, ?_⟩
    have hx : ∃ j, enc j = enc (.obj ms) := ⟨_, rfl⟩
    simp only [hx, dif_pos]
    exact congrArg some (enc_inj _ _ [] [] (congrArg (· ++ []) hx.choose_spec)).1
  · intro ms h
    refine ⟨enc (.arr ms), if_pos h, ?_⟩
    have hx : ∃ j, enc j = enc (.arr ms) := ⟨_, rfl⟩
    simp only [hx, dif_pos]
    exact congrArg some (enc_inj _ _ [] [] (congrArg (· ++ []) hx.choose_spec)).1
  · intro ms h
    exact if_neg h

/-! ## `json` -/

/-- Keys that are strings are the same exactly when they are equal. -/
def StrKeys (E : Env) : Prop := ∀ s t : List Nat, E.same (.str s) (.str t) = decide (s = t)

mutual
/-- JSON values of the language: None, 64-bit integers, floats, strings of code points, lists, and dicts with
distinct string keys. -/
def JOk : Val → Prop
  | .none => True
  | .int i => -2 ^ 63 ≤ i ∧ i < 2 ^ 63
  | .float _ => True
  | .str s => ∀ x ∈ s, x ≤ 0x10FFFF
  | .list xs => JOkList xs
  | .dict xs => JOkPairs xs ∧ (xs.map Prod.fst).Nodup
  | .bytes _ => False
  | .tuple _ => False
  | .set _ => False
  | .nd .. => False
  | .native .. => False
  | .user => False
  | .handle _ => False
  | .func _ => False
  | .other => False
def JOkList : List Val → Prop
  | [] => True
  | x :: r => JOk x ∧ JOkList r
def JOkPairs : List (Val × Val) → Prop
  | [] => True
  | (k, v) :: r => (∃ s : List Nat, k = .str s ∧ ∀ x ∈ s, x ≤ 0x10FFFF) ∧ JOk v ∧ JOkPairs r
end

theorem wrap64_id (i : Int) (h : -2 ^ 63 ≤ i ∧ i < 2 ^ 63) : wrap64 i = i :=
  Int.bmod_eq_of_le (by omega) (by omega)

theorem setItem_new (E : Env) (hE : StrKeys E) (d : List (Val × Val)) (s : List Nat) (v : Val)
    (hd : ∀ e ∈ d, ∃ t, e.1 = .str t ∧ t ≠ s) : setItem E d (.str s) v = some (d ++ [(.str s, v)]) := by
  have hn : d.any (fun e => E.same e.1 (.str s)) = false := by
    rw [List.any_eq_false]
    intro e he
    obtain ⟨t, h1, h2⟩ := hd e he
    simp [h1, hE t s, h2]
  simp [setItem, hashable, hn]

mutual
theorem json_val (E : Env) (hE : StrKeys E) : ∀ v, JOk v → ∃ j, toJson E v = some j ∧ fromJson E j = some v
  | .none, _ => ⟨_, by rw [toJson], by rw [fromJson]⟩
  | .int i, h => ⟨_, by rw [toJson], by simp only [JOk] at h; rw [fromJson, wrap64_id i h]⟩
  | .float b, _ => ⟨_, by rw [toJson], by rw [fromJson]⟩
  | .str s, h => ⟨_, by rw [toJson], by simp only [JOk] at h; rw [fromJson, fromStr_encode s h]⟩
  | .list xs, h => by
    simp only [JOk] at h
    obtain ⟨l, h1, h2⟩ := json_list E hE xs h
    exact ⟨_, by rw [toJson, h1, Option.map_some], by rw [fromJson, h2, Option.map_some]⟩
  | .dict xs, h => by
    simp only [JOk] at h
    obtain ⟨l, h1, h2⟩ := json_pairs E hE xs [] h.1 (by simpa using h.2) (by simp)
    exact ⟨_, by rw [toJson, h1, Option.map_some], by rw [fromJson, h2, Option.map_some]; rfl⟩
  | .bytes _, h => by simp [JOk] at h
  | .tuple _, h => by simp [JOk] at h
  | .set _, h => by simp [JOk] at h
  | .nd .., h => by simp [JOk] at h
  | .native .., h => by simp [JOk] at h
  | .user, h => by simp [JOk] at h
  | .handle _, h => by simp [JOk] at h
  | .func _, h => by simp [JOk] at h
  | .other, h => by simp [JOk] at h
theorem json_list (E : Env) (hE : StrKeys E) : ∀ xs, JOkList xs →
    ∃ l, toJsonList E xs = some l ∧ fromJsonList E l = some xs
  | [], _ => ⟨[], rfl, rfl⟩
  | x :: r, h => by
    simp only [JOkList] at h
    obtain ⟨j, h1, h2⟩ := json_val E hE x h.1
    obtain ⟨l, h3, h4⟩ := json_list E hE r h.2
    exact ⟨j :: l, by simp [toJsonList, h1, h3], by simp [fromJsonList, h2, h4]⟩
theorem json_pairs (E : Env) (hE : StrKeys E) : ∀ xs acc, JOkPairs xs →
    ((acc ++ xs).map Prod.fst).Nodup → (∀ e ∈ acc, ∃ t, e.1 = .str t) →
    ∃ l, toJsonPairs E xs = some l ∧ fromJsonPairs E acc l = some (acc ++ xs)
  | [], acc, _, _, _ => ⟨[], rfl, by simp [fromJsonPairs]⟩
  | (k, v) :: r, acc, h, hd, ha => by
    simp only [JOkPairs] at h
    obtain ⟨⟨s, rfl, hs⟩, hv, hr⟩ := h
    obtain ⟨j, h1, h2⟩ := json_val E hE v hv
    obtain ⟨l, h3, h4⟩ := json_pairs E hE r (acc ++ [(.str s, v)]) hr (by simpa using hd) (by
      intro e he
      rcases List.mem_append.1 he with he | he
      · exact ha e he
      · simp only [List.mem_singleton] at he; exact ⟨s, by rw [he]⟩)
    have hset := setItem_new E hE acc s v (by
      intro e he
      obtain ⟨t, ht⟩ := ha e he
      refine ⟨t, ht, ?_⟩
      rintro rfl
      rw [List.map_append] at hd
      exact (List.nodup_append.1 hd).2.2 e.1 (List.mem_map_of_mem he) (.str t) (by simp) ht)
    refine ⟨(Utf8.encode s, j) :: l, by simp [toJsonPairs, h1, h3], ?_⟩
    simp only [fromJsonPairs, fromStr_encode s hs, h2, Option.bind_eq_bind, Option.bind_some, hset, h4]
    simp
end

mutual
theorem valid_json (E : Env) (fl : Nat → Prop) : ∀ v j, JOk v → Printable E fl v → toJson E v = some j →
    Valid fl j
  | .none, j, _, _, h => by simp only [toJson, Option.some.injEq] at h; subst h; trivial
  | .int i, j, _, _, h => by simp only [toJson, Option.some.injEq] at h; subst h; trivial
  | .float b, j, _, hp, h => by
    simp only [toJson, Option.some.injEq] at h; subst h; simpa [Valid, Printable] using hp
  | .str s, j, _, hp, h => by
    simp only [toJson, Option.some.injEq] at h; subst h
    simp only [Valid]; simp only [Printable] at hp; exact ⟨s, hp, rfl⟩
  | .list xs, j, ho, hp, h => by
    simp only [JOk] at ho; simp only [Printable] at hp
    simp only [toJson, Option.map_eq_some_iff] at h
    obtain ⟨l, hl, rfl⟩ := h
    simp only [Valid]
    exact valid_jsonList E fl xs l ho hp hl
  | .dict xs, j, ho, hp, h => by
    simp only [JOk] at ho; simp only [Printable] at hp
    simp only [toJson, Option.map_eq_some_iff] at h
    obtain ⟨l, hl, rfl⟩ := h
    simp only [Valid]
    exact valid_jsonPairs E fl xs l ho.1 hp hl
  | .bytes _, _, h, _, _ => by simp [JOk] at h
  | .tuple _, _, h, _, _ => by simp [JOk] at h
  | .set _, _, h, _, _ => by simp [JOk] at h
  | .nd .., _, h, _, _ => by simp [JOk] at h
  | .native .., _, h, _, _ => by simp [JOk] at h
  | .user, _, h, _, _ => by simp [JOk] at h
  | .handle _, _, h, _, _ => by simp [JOk] at h
  | .func _, _, h, _, _ => by simp [JOk] at h
  | .other, _, h, _, _ => by simp [JOk] at h
theorem valid_jsonList (E : Env) (fl : Nat → Prop) : ∀ xs l, JOkList xs → PrintableList E fl xs →
    toJsonList E xs = some l → ValidList fl l
  | [], l, _, _, h => by simp only [toJsonList, Option.some.injEq] at h; subst h; trivial
  | x :: r, l, ho, hp, h => by
    simp only [JOkList] at ho; simp only [PrintableList] at hp
    simp only [toJsonList, Option.bind_eq_bind, Option.bind_eq_some_iff, Option.some.injEq] at h
    obtain ⟨j, h1, l', h2, rfl⟩ := h
    exact ⟨valid_json E fl x j ho.1 hp.1 h1, valid_jsonList E fl r l' ho.2 hp.2 h2⟩
theorem valid_jsonPairs (E : Env) (fl : Nat → Prop) : ∀ xs l, JOkPairs xs → PrintablePairs E fl xs →
    toJsonPairs E xs = some l → ValidMembers fl l
  | [], l, _, _, h => by simp only [toJsonPairs, Option.some.injEq] at h; subst h; trivial
  | (k, v) :: r, l, ho, hp, h => by
    simp only [JOkPairs] at ho; simp only [PrintablePairs] at hp
    obtain ⟨⟨s, rfl, hs⟩, hv, hr⟩ := ho
    simp only [toJsonPairs, Option.bind_eq_bind, Option.bind_eq_some_iff, Option.bind_some,
      Option.some.injEq] at h
    obtain ⟨j, h1, l', h2, rfl⟩ := h
    refine ⟨⟨s, ?_, rfl⟩, valid_json E fl v j hv hp.2.1 h1, valid_jsonPairs E fl r l' hr hp.2.2 h2⟩
    simpa [Printable] using hp.1
end

/-- **C83.**  `json.loads(json.dumps(x)) == x` for every list or dict of JSON values nested to any depth. -/
theorem loads_dumps_partial (E : Env) (hE : StrKeys E) (write : J → Option Name) (parse : Name → Option J)
    (fmt : J → Name) (fl : Nat → Prop) (L : TextLaws write parse fl) (v : Val) (hv : JOk v)
    (hp : Printable E fl v) (hc : (∃ xs, v = .list xs) ∨ ∃ xs, v = .dict xs) :
    ∃ t, dumps E write fmt v = some t ∧ loads E parse t = some v := by
  obtain ⟨j, h1, h2⟩ := json_val E hE v hv
  have hj := valid_json E fl v j hv hp h1
  rcases hc with ⟨xs, rfl⟩ | ⟨xs, rfl⟩
  · obtain ⟨l, _, rfl⟩ : ∃ l, toJsonList E xs = some l ∧ J.arr l = j := by
      simpa [toJson, Option.map_eq_some_iff] using h1
    obtain ⟨t, h3, h4⟩ := L.backArr l hj
    exact ⟨t, by simp [dumps, h1, h3], by simp [loads, h4, h2]⟩
  · obtain ⟨l, _, rfl⟩ : ∃ l, toJsonPairs E xs = some l ∧ J.obj l = j := by
      simpa [toJson, Option.map_eq_some_iff] using h1
    obtain ⟨t, h3, h4⟩ := L.back l hj
    exact ⟨t, by simp [dumps, h1, h3], by simp [loads, h4, h2]⟩

/-- **C83, texts.**  A string is dumped as itself, without quotes: whatever text a list or dict is dumped as,
the string of that text is dumped as the same text, and loads as the list or dict. -/
theorem dumped_string_reads_as_container_refuted (E : Env) (write : J → Option Name) (parse : Name → Option J)
    (fmt : J → Name) (x : Val) (t : Name) (s : List Nat) (hx : dumps E write fmt x = some t)
    (ht : t = Utf8.encode s) (hl : loads E parse t = some x) :
    dumps E write fmt (.str s) = dumps E write fmt x ∧
    (dumps E write fmt (.str s)).bind (loads E parse) = some x := by
  have h : dumps E write fmt (.str s) = some t := by simp [dumps, toJson, ht]
  exact ⟨by rw [h, hx], by rw [h]; exact hl⟩

/-- **C83, None.**  None is dumped as the empty text, like the empty string; Python gives "null". -/
theorem none_dumped_empty_refuted (E : Env) (write : J → Option Name) (fmt : J → Name) :
    dumps E write fmt .none = some [] ∧ dumps E write fmt (.str []) = some [] := by
  simp [dumps, toJson, Utf8.encode]

/-- **C83, large numbers.**  Integers from 2^63 to 2^64 - 1 load as negative numbers. -/
theorem large_integers_wrap_refuted (E : Env) (i : Int) (h1 : 2 ^ 63 ≤ i) (h2 : i < 2 ^ 64) :
    fromJson E (.num i) = some (.int (i - 2 ^ 64)) ∧ i - 2 ^ 64 < 0 := by
  refine ⟨?_, by omega⟩
  rw [fromJson]
  congr 2
  have : i.bmod (2 ^ 64) = (i - 2 ^ 64).bmod (2 ^ 64) := by
    have := Int.add_mul_bmod_self_left (i - 2 ^ 64) (2 ^ 64) 1
    rw [← this]; congr 1; simp
  rw [wrap64, this]
  exact Int.bmod_eq_of_le (by omega) (by omega)

/-- **C83, booleans.**  `true` and `false` load as the integers 1 and 0, and are dumped as those. -/
theorem booleans_become_integers_refuted (E : Env) (b : Bool) :
    ∃ v, fromJson E (.bool b) = some v ∧ toJson E v = some (.num (if b then 1 else 0)) ∧
      toJson E v ≠ some (.bool b) := by
  refine ⟨_, by rw [fromJson], by rw [toJson], ?_⟩
  rw [toJson]; simp

/-- **C83, bytes.**  A byte string of valid UTF-8 is dumped and loads as the text. -/
theorem bytes_become_str_refuted (E : Env) (s : List Nat) (h : ∀ x ∈ s, x ≤ 0x10FFFF) :
    ∃ j, toJson E (.bytes (Utf8.encode s)) = some j ∧ fromJson E j = some (.str s) := by
  refine ⟨_, by rw [toJson], ?_⟩
  rw [fromJson, fromStr_encode s h]

/-- **C83, keys.**  An integer key and the string of its digits are two keys of a dict, but one after
dumping and loading: the later value is kept. -/
theorem keys_collapse_refuted (E : Env) (hE : StrKeys E) (i : Int) (s : List Nat)
    (hs : ∀ x ∈ s, x ≤ 0x10FFFF) (ht : E.text (.int i) = Utf8.encode s) (a b : Val) (ha : JOk a) (hb : JOk b) :
    ∃ j, toJson E (.dict [(.int i, a), (.str s, b)]) = some j ∧
      fromJson E j = some (.dict [(.str s, b)]) := by
  obtain ⟨ja, h1, h2⟩ := json_val E hE a ha
  obtain ⟨jb, h3, h4⟩ := json_val E hE b hb
  refine ⟨.obj [(Utf8.encode s, ja), (Utf8.encode s, jb)], by simp [toJson, toJsonPairs, h1, h3, ht], ?_⟩
  simp [fromJson, fromJsonPairs, fromStr_encode s hs, h2, h4, setItem, hashable, hE s s]

/-! ### Loading once more changes nothing -/

mutual
/-- All strings of the document are UTF-8 of code points. -/
def Plain : J → Prop
  | .str s => ∀ cps, Utf8.utf8Decode s = .ok cps → ∀ x ∈ cps, x ≤ 0x10FFFF
  | .arr xs => PlainList xs
  | .obj ms => PlainMembers ms
  | .null => True
  | .bool _ => True
  | .num _ => True
  | .dbl _ => True
def PlainList : List J → Prop
  | [] => True
  | j :: r => Plain j ∧ PlainList r
def PlainMembers : List (Name × J) → Prop
  | [] => True
  | (n, j) :: r => (∀ cps, Utf8.utf8Decode n = .ok cps → ∀ x ∈ cps, x ≤ 0x10FFFF) ∧ Plain j ∧ PlainMembers r
end

theorem wrap64_range (i : Int) : -2 ^ 63 ≤ wrap64 i ∧ wrap64 i < 2 ^ 63 := by
  have h1 := Int.le_bmod (x := i) (m := 2 ^ 64) (by decide)
  have h2 := Int.bmod_lt (x := i) (m := 2 ^ 64) (by decide)
  unfold wrap64
  omega

theorem fromStr_some (n : Name) (v : Val) (h : fromStr (.str n) = some v) :
    ∃ cps, v = .str cps ∧ Utf8.utf8Decode n = .ok cps := by
  simp only [fromStr] at h
  split at h
  · rename_i cps hc
    simp only [Option.some.injEq] at h
    exact ⟨cps, h.symm, hc⟩
  · simp at h

theorem jokPairs_iff (xs : List (Val × Val)) : JOkPairs xs ↔
    ∀ e ∈ xs, (∃ s : List Nat, e.1 = .str s ∧ ∀ x ∈ s, x ≤ 0x10FFFF) ∧ JOk e.2 := by
  induction xs with
  | nil => simp [JOkPairs]
  | cons e r ih =>
    obtain ⟨k, v⟩ := e
    simp [JOkPairs, ih, and_assoc]

/-- Setting a key keeps a table a table. -/
theorem setItem_jok (E : Env) (hE : StrKeys E) (d d' : List (Val × Val)) (s : List Nat) (v : Val)
    (h1 : JOkPairs d) (h2 : (d.map Prod.fst).Nodup) (hs : ∀ x ∈ s, x ≤ 0x10FFFF) (hv : JOk v)
    (h : setItem E d (.str s) v = some d') : JOkPairs d' ∧ (d'.map Prod.fst).Nodup := by
  rw [jokPairs_iff] at h1
  simp only [setItem, hashable, if_true] at h
  split at h
  · simp only [Option.some.injEq] at h
    subst h
    refine ⟨?_, ?_⟩
    · rw [jokPairs_iff]
      intro e he
      obtain ⟨f, hf, rfl⟩ := List.mem_map.1 he
      have := h1 f hf
      split
      · exact ⟨this.1, hv⟩
      · exact this
    · rw [List.map_map]
      have : (Prod.fst ∘ fun e : Val × Val => if E.same e.1 (.str s) = true then (e.1, v) else e) = Prod.fst := by
        funext e; simp only [Function.comp]; split <;> rfl
      rw [this]; exact h2
  · rename_i hn
    simp only [Option.some.injEq] at h
    subst h
    refine ⟨?_, ?_⟩
    · rw [jokPairs_iff]
      intro e he
      rcases List.mem_append.1 he with he | he
      · exact h1 e he
      · simp only [List.mem_singleton] at he
        subst he
        exact ⟨⟨s, rfl, hs⟩, hv⟩
    · rw [List.map_append, List.nodup_append]
      refine ⟨h2, by simp, ?_⟩
      intro a ha b hb
      simp only [List.map_cons, List.map_nil, List.mem_singleton] at hb
      subst hb
      rintro rfl
      obtain ⟨e, he, hee⟩ := List.mem_map.1 ha
      refine hn (List.any_eq_true.2 ⟨e, he, ?_⟩)
      rw [hee, hE]; simp

mutual
theorem loaded_jok (E : Env) (hE : StrKeys E) : ∀ j v, Plain j → fromJson E j = some v → JOk v
  | .null, v, _, h => by rw [fromJson] at h; simp only [Option.some.injEq] at h; subst h; trivial
  | .bool b, v, _, h => by
    rw [fromJson] at h; simp only [Option.some.injEq] at h; subst h
    simp only [JOk]; cases b <;> simp
  | .num i, v, _, h => by
    rw [fromJson] at h; simp only [Option.some.injEq] at h; subst h
    simp only [JOk]; exact wrap64_range i
  | .dbl b, v, _, h => by rw [fromJson] at h; simp only [Option.some.injEq] at h; subst h; trivial
  | .str s, v, hp, h => by
    rw [fromJson] at h
    obtain ⟨cps, rfl, hc⟩ := fromStr_some s v h
    simp only [JOk]; simp only [Plain] at hp; exact hp cps hc
  | .arr xs, v, hp, h => by
    simp only [Plain] at hp
    simp only [fromJson, Option.map_eq_some_iff] at h
    obtain ⟨l, hl, rfl⟩ := h
    simp only [JOk]
    exact loaded_jokList E hE xs l hp hl
  | .obj ms, v, hp, h => by
    simp only [Plain] at hp
    simp only [fromJson, Option.map_eq_some_iff] at h
    obtain ⟨l, hl, rfl⟩ := h
    simp only [JOk]
    exact loaded_jokPairs E hE ms [] l hp trivial (by simp) hl
theorem loaded_jokList (E : Env) (hE : StrKeys E) : ∀ xs l, PlainList xs → fromJsonList E xs = some l → JOkList l
  | [], l, _, h => by simp only [fromJsonList, Option.some.injEq] at h; subst h; trivial
  | x :: r, l, hp, h => by
    simp only [PlainList] at hp
    simp only [fromJsonList, Option.bind_eq_bind, Option.bind_eq_some_iff, Option.some.injEq] at h
    obtain ⟨v, h1, l', h2, rfl⟩ := h
    exact ⟨loaded_jok E hE x v hp.1 h1, loaded_jokList E hE r l' hp.2 h2⟩
theorem loaded_jokPairs (E : Env) (hE : StrKeys E) : ∀ ms acc l, PlainMembers ms → JOkPairs acc →
    (acc.map Prod.fst).Nodup → fromJsonPairs E acc ms = some l → JOkPairs l ∧ (l.map Prod.fst).Nodup
  | [], acc, l, _, ha, hd, h => by
    simp only [fromJsonPairs, Option.some.injEq] at h; subst h; exact ⟨ha, hd⟩
  | (n, j) :: r, acc, l, hp, ha, hd, h => by
    simp only [PlainMembers] at hp
    simp only [fromJsonPairs, Option.bind_eq_bind, Option.bind_eq_some_iff] at h
    obtain ⟨k, h1, v, h2, acc', h3, h4⟩ := h
    obtain ⟨cps, rfl, hc⟩ := fromStr_some n k h1
    obtain ⟨h5, h6⟩ := setItem_jok E hE acc acc' cps v ha hd (hp.1 cps hc) (loaded_jok E hE j v hp.2.1 h2) h3
    exact loaded_jokPairs E hE r acc' l hp.2.2 h5 h6 h4
end

/-- **C83.**  What was loaded is stable: for every document with strings of code points, dumping the loaded
value and loading again gives the same value (duplicate members, booleans and large numbers have been
normalised once and for all). -/
theorem loaded_value_stable_partial (E : Env) (hE : StrKeys E) (j : J) (v : Val) (hp : Plain j)
    (h : fromJson E j = some v) : ∃ k, toJson E v = some k ∧ fromJson E k = some v :=
  json_val E hE v (loaded_jok E hE j v hp h)

/-! ## Concrete cases -/

def sameEx : Val → Val → Bool
  | .str s, .str t => decide (s = t)
  | .int i, .int j => i == j
  | .tuple xs, .tuple ys => xs.length == ys.length
  | _, _ => false

def E0 : Env where
  widen32 b := b * 2 ^ 29
  narrow32 b := b / 2 ^ 29
  widen16 b := b * 2 ^ 13
  narrow16 b := b / 2 ^ 13
  ofInt i := i.toNat
  same := sameEx
  text
    | .int i => if i = 1 then [49] else []
    | _ => []

theorem strKeys_E0 : StrKeys E0 := fun _ _ => rfl

/-- `{"a": [(1, b"\x00\xff"), None], 7: ndarray int8 [[1, -2, 3]], (1,): {2, 5}}` -/
def sample : Val := .dict [
  (.str [97], .list [.tuple [.int 1, .bytes [0, 255]], .none]),
  (.int 7, .nd .i8 [1, 3] true [some 1, some (-2), some 3]),
  (.tuple [.int 1], .set [.int 2, .int 5])]

theorem sample_ok : Ok E0 sample := by
  simp only [sample, Ok, OkPairs, OkList, KeysOk]
  refine ⟨⟨by simp, ⟨⟨by simp, by simp⟩, by simp⟩, by simp, ⟨by simp, by simp [elems], by simp, [1, -2, 3], rfl, ?_⟩,
    ⟨by simp, by simp⟩, ⟨⟨by simp, by simp⟩, ?_, ?_⟩, trivial⟩, ?_, ?_⟩
  · simp [ElemOk]
  · simp [hashable]
  · simp [E0, sameEx]
  · simp [hashable, hashable.hashableAll]
  · simp [E0, sameEx]

example : ∃ j, toS E0 sample = some j ∧ fromS E0 j = some sample :=
  saved_value_loads_partial E0 sample sample_ok

example : toS E0 (.list [.bytes [97, 0]]) = some (node .list (.arr [node .bytes (.arr [.num 97, .num 0])])) := by
  simp [toS, toSList, awkward]

example : ∃ write parse, TextLaws write parse (fun _ => True) ∧
    ∃ t, serialize E0 write sample = some t ∧ deserialize E0 parse t = some sample := by
  obtain ⟨w, p, L⟩ := textLaws_satisfiable
  refine ⟨w, p, L, deserialize_serialize_partial E0 w p _ L sample sample_ok ?_⟩
  simp [sample, Printable, PrintablePairs, PrintableList, Scalar]

/-- A function in a dict in a list: saved, never loaded. -/
example : ∀ j, toS E0 (.list [.dict [(.int 1, .func 99)]]) = some j → fromS E0 j = none :=
  (function_saved_but_not_loadable_refuted E0 99 _
    (.list _ (.dict [(.int 1, .func 99)]) _ (by simp)
      (.val _ (.int 1) (.func 99) [(.int 1, .func 99)] (by simp) (.self _)))).2

example : toS E0 (.tuple [.int 1, .nd .f64 [2] false [some 0, some 0]]) = none :=
  (refused_iff E0 _).2 ⟨.nd .f64 [2] false [some 0, some 0],
    .tuple _ (.nd .f64 [2] false [some 0, some 0]) _ (by simp) (.self _), by simp [Refused]⟩

/-- Shape [4] with the data [5, 6]: two elements are never written. -/
example : fromS E0 (ndDoc .i32 [4] [.num 5, .num 6])
    = some (.nd .i32 [4] true [some 5, some 6, none, none]) :=
  short_data_uninitialised_refuted E0 .i32 [4] _ [5, 6] (by simp) (by decide) (by decide)

example : fromS E0 (ndDoc .i32 [1] [.num 5, .num 6]) = none :=
  long_data_raises E0 .i32 [1] _ (by simp) (by decide)

example (w p fl) (L : TextLaws w p fl) : serialize E0 w (.list [.str [0xD800]]) = none :=
  surrogates_refused_refuted E0 w p fl L _ (by simp [Ok, OkList]) (by simp [Printable, PrintableList, Scalar])

/-- `{"k": [1, {"x": "é"}]}` -/
example (w p fmt fl) (L : TextLaws w p fl) : ∃ t,
    dumps E0 w fmt (.dict [(.str [107], .list [.int 1, .dict [(.str [120], .str [0xE9])]])]) = some t ∧
    loads E0 p t = some (.dict [(.str [107], .list [.int 1, .dict [(.str [120], .str [0xE9])]])]) :=
  loads_dumps_partial E0 strKeys_E0 w p fmt fl L _
    (by simp [JOk, JOkPairs, JOkList])
    (by simp [Printable, PrintablePairs, PrintableList, Scalar]) (.inr ⟨_, rfl⟩)

/-- `{1: None, "1": 2}` comes back as `{"1": 2}`. -/
example : ∃ j, toJson E0 (.dict [(.int 1, .none), (.str [49], .int 2)]) = some j ∧
    fromJson E0 j = some (.dict [(.str [49], .int 2)]) :=
  keys_collapse_refuted E0 strKeys_E0 1 [49] (by simp) (by simp [E0]; decide) .none (.int 2) trivial (by simp [JOk])

/-- A duplicate member: the later value, at the place of the first. -/
example : fromJson E0 (.obj [([97], .num 1), ([98], .num 2), ([97], .bool true)])
    = some (.dict [(.str [97], .int 1), (.str [98], .int 2)]) := by
  have h1 := fromStr_encode [97] (by simp)
  have h2 := fromStr_encode [98] (by simp)
  have e1 : Utf8.encode [97] = [97] := by decide
  have e2 : Utf8.encode [98] = [98] := by decide
  rw [e1] at h1; rw [e2] at h2
  have hw : wrap64 1 = 1 ∧ wrap64 2 = 2 := by decide
  simp [fromJson, fromJsonPairs, h1, h2, setItem, hashable, E0, sameEx, hw]

end Verif.Pickle
