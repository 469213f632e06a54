/-
C87-C89: what `Regex` does not do, `Regex.match`, characters, and examples.
-/
import Verif.RegexProps

namespace Verif.Regex

/-! ## Engines for examples -/

/-- The pattern of one byte. -/
def byteE (c : Nat) : Engine :=
  ⟨0, [], fun _ s off => if c ∈ s.drop off then
    .matched [some (off + ((s.drop off).takeWhile (· ≠ c)).length, off + ((s.drop off).takeWhile (· ≠ c)).length + 1)]
    else .noMatch⟩

theorem takeWhile_lt (c : Nat) (l : Bytes) (h : c ∈ l) : (l.takeWhile (· ≠ c)).length < l.length := by
  induction l with
  | nil => simp at h
  | cons x l ih =>
    by_cases hx : x = c
    · simp [hx]
    · have : c ∈ l := by
        rcases List.mem_cons.1 h with h | h
        · exact absurd h.symm hx
        · exact h
      have := ih this
      simp [hx] at this ⊢
      omega

theorem byteE_lawful (c : Nat) : Lawful (byteE c) := by
  have key : ∀ a s off caps, off ≤ s.length → (byteE c).exec a s off = .matched caps →
      ∃ k, off + k < s.length ∧ caps = [some (off + k, off + k + 1)] := by
    intro a s off caps h hx
    simp only [byteE] at hx
    split at hx
    · rename_i hm
      refine ⟨((s.drop off).takeWhile (· ≠ c)).length, ?_, by injection hx with hx; exact hx.symm⟩
      have := takeWhile_lt c _ hm
      simp only [List.length_drop] at this
      omega
    · simp at hx
  refine ⟨?_, ?_, ?_⟩
  · intro a s off caps h hx
    obtain ⟨k, h1, rfl⟩ := key a s off caps h hx
    exact ⟨_, _, [], rfl, by omega, by omega, by omega⟩
  · intro a s off caps h hx f t hm
    obtain ⟨k, h1, rfl⟩ := key a s off caps h hx
    simp at hm
    omega
  · intro a s off caps h hx
    obtain ⟨k, h1, rfl⟩ := key a s off caps h hx
    simp [byteE]

theorem byteE_noError (c : Nat) (s : Bytes) : NoError (byteE c) s := by
  intro off _
  simp only [byteE]
  split <;> simp

/-- The pattern of a group around any number of the byte. -/
def starE (c : Nat) : Engine :=
  ⟨1, [(0, 1, [103])], fun _ s off =>
    .matched [some (off, off + ((s.drop off).takeWhile (· = c)).length), some (off, off + ((s.drop off).takeWhile (· = c)).length)]⟩

theorem starE_lawful (c : Nat) : Lawful (starE c) := by
  have hb : ∀ (s : Bytes) (off : Nat), off ≤ s.length → off + ((s.drop off).takeWhile (· = c)).length ≤ s.length := by
    intro s off h
    have := (List.takeWhile_prefix (l := s.drop off) (p := (decide <| · = c))).length_le
    simp only [List.length_drop] at this
    omega
  refine ⟨?_, ?_, ?_⟩
  · intro a s off caps h hx
    simp only [starE, Res.matched.injEq] at hx
    exact ⟨off, _, _, hx.symm, by omega, by omega, hb s off h⟩
  · intro a s off caps h hx f t hm
    simp only [starE, Res.matched.injEq] at hx
    subst hx
    have := hb s off h
    simp at hm
    obtain ⟨rfl, rfl⟩ := hm
    exact ⟨by omega, by simpa using this⟩
  · intro a s off caps h hx
    simp only [starE, Res.matched.injEq] at hx
    subst hx
    simp [starE]

theorem starE_noError (c : Nat) (s : Bytes) : NoError (starE c) s := by
  intro off _
  simp [starE]

/-- `c*`: an empty match is not followed by another one at the same place. -/
def starNe (c : Nat) (s : Bytes) (off : Nat) : Res :=
  if ((s.drop off).takeWhile (· = c)).length ≠ 0 then (starE c).exec false s off
  else if off < s.length then (starE c).exec false s (off + 1) else .noMatch

theorem starE_ne (c : Nat) (s : Bytes) (off : Nat) (m : Hit) (h : (starE c).exec false s off = .matched m.caps)
    (he : m.t = m.f) : starNe c s m.t = if m.t < s.length then (starE c).exec false s (m.t + 1) else .noMatch := by
  simp only [starE, Hit.caps, Res.matched.injEq, List.cons.injEq, Option.some.injEq, Prod.mk.injEq] at h
  obtain ⟨⟨h1, h2⟩, _⟩ := h
  have hz : ((s.drop off).takeWhile (· = c)).length = 0 := by omega
  have : m.t = off := by omega
  unfold starNe
  rw [this, if_neg (by simpa using hz)]

/-- The empty pattern. -/
def emptyE : Engine := ⟨0, [], fun _ _ off => .matched [some (off, off)]⟩

theorem emptyE_lawful : Lawful emptyE := by
  refine ⟨?_, ?_, ?_⟩ <;> intro a s off caps h hx <;> simp only [emptyE, Res.matched.injEq] at hx <;> subst hx
  · exact ⟨_, _, _, rfl, by omega, by omega, h⟩
  · intro f t hm; simp at hm; omega
  · simp [emptyE]

theorem emptyE_noError (s : Bytes) : NoError emptyE s := by intro off _; simp [emptyE]

/-- A pattern whose matching fails (as with the limit of backtracking). -/
def failE : Engine := ⟨0, [], fun _ _ _ => .error⟩

theorem failE_lawful : Lawful failE := by
  refine ⟨?_, ?_, ?_⟩ <;> intro a s off caps h hx <;> simp [failE] at hx

/-- `^`. -/
def caretE : Engine := ⟨0, [], fun _ _ off => if off = 0 then .matched [some (0, 0)] else .noMatch⟩

theorem caretE_lawful : Lawful caretE := by
  have key : ∀ a s off caps, caretE.exec a s off = .matched caps → off = 0 ∧ caps = [some (0, 0)] := by
    intro a s off caps hx
    simp only [caretE] at hx
    split at hx
    · rename_i h0; exact ⟨h0, by injection hx with hx; exact hx.symm⟩
    · simp at hx
  refine ⟨?_, ?_, ?_⟩ <;> intro a s off caps h hx <;> obtain ⟨rfl, rfl⟩ := key a s off caps hx
  · exact ⟨0, 0, [], rfl, by omega, by omega, by omega⟩
  · intro f t hm; simp at hm; omega
  · simp [caretE]

/-! ## Examples -/

-- "b,aa,c" at the commas
example : split (byteE 44) [98, 44, 97, 97, 44, 99] = some [[98], [97, 97], [99]] := by decide
-- "baac" at `a*`
example : split (starE 97) [98, 97, 97, 99] = some [[], [98], [], [99]] := by decide
-- "x,y" with `$0$0` and `<$0>`
example : replace (byteE 44) [120, 44, 121] [36, 48, 36, 48] = some [120, 44, 44, 121] := by decide
example : replace (starE 97) [98, 97] [60, 36, 123, 49, 125, 62] =
    some [60, 62, 98, 60, 97, 62, 60, 62] := by decide
example : escape [36, 49, 97] = [36, 36, 49, 97] := by decide
example : TokOk [.text [60], .group [48], .text [62], .dollar, .braced [49, 50], .text [51]] := by
  simp [TokOk, DigitsOk, number, isDigit]
example : renderAll [.text [60], .group [48], .text [62], .dollar, .braced [49, 50], .text [51]] =
    [60, 36, 48, 62, 36, 36, 36, 123, 49, 50, 125, 51] := by decide
example (s : Bytes) : ∃ ms, PyScan (starE 97) (starNe 97) s 0 false ms ∧
    split (starE 97) s = some (dropLastEmpty (cut s 0 ms)) := by
  obtain ⟨ms, h1, _, h2⟩ := split_python_partial (starE 97) (starE_lawful 97) s (starE_noError 97 s) (starNe 97)
    (fun off m => starE_ne 97 s off m)
  exact ⟨ms, h1, h2⟩

/-! ## What `split` does not do -/

/-- The empty piece after a separator at the end is lost: "a," and "a" give the same list, for every separator and text. -/
theorem split_trailing_refuted (c : Nat) (s : Bytes) (h : c ∉ s) :
    split (byteE c) (s ++ [c]) = some [s] ∧ split (byteE c) s = some [s] := by
  constructor
  · obtain ⟨ms, h1, h2⟩ := split_scan (byteE c) (byteE_lawful c) (s ++ [c]) (byteE_noError c _)
    have hx : (byteE c).exec false (s ++ [c]) 0 = .matched (Hit.caps ⟨s.length, s.length + 1, []⟩) := by
      have : (s ++ [c]).takeWhile (· ≠ c) = s := by
        rw [List.takeWhile_append_of_pos]
        · simp
        · intro x hx; simp; rintro rfl; exact h hx
      simp only [byteE, List.drop_zero, this, Hit.caps]
      simp
    have hy : (byteE c).exec false (s ++ [c]) (s.length + 1) = .noMatch := by simp [byteE]
    have h3 : Scan (byteE c) (s ++ [c]) 0 [⟨s.length, s.length + 1, []⟩] :=
      .step _ hx (by simp) (.stop hy)
    rw [h2, ← scan_det _ _ h3 _ h1]
    simp [cut, dropLastEmpty, slice]
  · apply split_noMatch
    simp [byteE, h]

/-- A failing match is not reported: `split` gives the empty list, `replace` the text as it was. -/
theorem errors_silent_refuted (E : Engine) (s rep : Bytes) (h : E.exec false s 0 = .error) :
    split E s = some [] ∧ replace E s rep = some s := by
  have h' := pcreExec_plain E s 0 (by omega)
  rw [h] at h'
  constructor
  · have : splitLoop E s (s.length + 2) 0 0 0 = some none := by rw [splitLoop, h']
    simp [split, splitHelper, this]
  · unfold replace subHelper
    cases compile rep with
    | none => rfl
    | some codes =>
      have : subLoop E s codes (s.length + 2) 0 0 0 = some none := by rw [subLoop, h']
      simp [this]

example : split failE [97, 44, 98] = some [] := (errors_silent_refuted failE _ [] rfl).1

theorem emptyE_cut (s : Bytes) : ∀ k off, off + k = s.length → ∃ ms, Scan emptyE s off ms ∧
    ∀ cp, cp ≤ off → cut s cp ms = slice s cp off :: ((s.drop off).map fun b => [b]) ++ [[]] := by
  intro k
  induction k with
  | zero =>
    intro off h
    refine ⟨[⟨off, off, []⟩], .last ⟨off, off, []⟩ rfl rfl (by simp; omega), ?_⟩
    intro cp hcp
    have : off = s.length := by omega
    simp [cut, this, slice_nil]
  | succ k ih =>
    intro off h
    obtain ⟨ms, h1, h2⟩ := ih (off + 1) (by omega)
    refine ⟨⟨off, off, []⟩ :: ms, .empty ⟨off, off, []⟩ rfl rfl (by simp; omega) h1, ?_⟩
    intro cp hcp
    rw [cut, h2 off (by omega)]
    have hd : s.drop off = s[off] :: s.drop (off + 1) := List.drop_eq_getElem_cons (by omega)
    have hs : slice s off (off + 1) = [s[off]] := by
      unfold slice
      rw [hd, show off + 1 - off = 1 by omega]
      rfl
    rw [hs, hd, List.map_cons]
    rfl

/-- The empty pattern cuts a text into bytes, also inside a character; the empty piece at the end is lost. -/
theorem split_empty_refuted (s : Bytes) : split emptyE s = some ([] :: s.map fun b => [b]) := by
  obtain ⟨ms, h1, h2⟩ := split_scan emptyE emptyE_lawful s (emptyE_noError s)
  obtain ⟨ms', h3, h4⟩ := emptyE_cut s s.length 0 (by omega)
  rw [h2, ← scan_det _ _ h3 _ h1, h4 0 (by omega)]
  rw [List.drop_zero, slice_nil]
  unfold dropLastEmpty
  rw [if_pos ⟨by simp, by rw [List.getLast?_append]; rfl⟩, List.dropLast_concat]

-- "é"
example : split emptyE [195, 169] = some [[], [195], [169]] := by decide

/-- `|a`: the empty match comes first everywhere, and there is another match at the same place. -/
def altNe (s : Bytes) (off : Nat) : Res :=
  if (s.drop off).head? = some 97 then .matched [some (off, off + 1)]
  else if off < s.length then .matched [some (off + 1, off + 1)] else .noMatch

/-- Without the law on empty matches `split` and Python differ: `|a` on "a". -/
theorem split_second_match_refuted : ∃ ms, PyScan emptyE altNe [97] 0 false ms ∧
    cut [97] 0 ms = [[], [], [], []] ∧ split emptyE [97] = some [[], [97]] := by
  refine ⟨[⟨0, 0, []⟩, ⟨0, 1, []⟩, ⟨1, 1, []⟩], ?_, by decide, by decide⟩
  refine .step ⟨0, 0, []⟩ rfl (.step ⟨0, 1, []⟩ (by decide) (.step ⟨1, 1, []⟩ (by decide) (.stop (by decide))))

/-! ## What `replace` does not do -/

/-- A template with an error is not reported: nothing is replaced. -/
theorem template_error_refuted (E : Engine) (s rep : Bytes) (h : compile rep = none) : replace E s rep = some s := by
  simp [replace, subHelper, h]

/-- Named groups cannot be used in a template: `$name` and `${name}` leave the text as it is. -/
theorem template_name_refuted (E : Engine) (s : Bytes) (c : Nat) (r : Bytes)
    (h : (65 ≤ c ∧ c ≤ 90) ∨ (97 ≤ c ∧ c ≤ 122) ∨ c = 95) :
    replace E s (36 :: c :: r) = some s ∧ replace E s (36 :: 123 :: c :: r) = some s := by
  have h0 : isDigit c = false := by simp [isDigit]; omega
  have h1 : c ≠ 36 := by omega
  have h2 : c ≠ 123 := by omega
  have h3 : c ≠ 0 := by omega
  have hnum : isDigit 123 = false := by decide
  constructor <;> apply template_error_refuted
  · have hv : variableCode (c :: r) = none := by
      unfold variableCode
      have e2 : (c == 123) = false := by simp [h2]
      simp only [List.headD_cons, h0, e2, Bool.false_eq_true, if_false, Bool.false_and, Bool.or_false, Bool.not_false,
        if_true]
      split <;> simp
    simp [compile, compileLoop, h1, h3, hv]
  · have hv : variableCode (123 :: c :: r) = none := by
      unfold variableCode
      have e2 : (c == 0) = false := by simp [h3]
      simp only [List.headD_cons, h0, e2, beq_self_eq_true, if_true, List.tail_cons, Bool.and_false, Bool.false_eq_true,
        if_false, hnum, Bool.or_false, Bool.not_false]
      split <;> simp
    simp [compile, compileLoop, hv]

/-- A `$` at the end of a template is an error. -/
theorem template_last_dollar_refuted (E : Engine) (s p : Bytes) (hp : 36 ∉ p) : replace E s (p ++ [36]) = some s := by
  apply template_error_refuted
  have one : ∀ fuel, compileLoop fuel [36] = none := by
    intro fuel
    cases fuel with
    | zero => rfl
    | succ n => simp [compileLoop]
  simp only [compile, List.mem_append, List.mem_singleton, or_true, if_true]
  cases p with
  | nil => exact one _
  | cons c p =>
    have hc : c ≠ 36 := by intro e; exact hp (by simp [e])
    rw [List.cons_append, compileLoop, if_neg hc, ← List.cons_append]
    have : ((c :: p) ++ [36]).dropWhile (· ≠ 36) = [36] := by
      rw [List.dropWhile_append_of_pos]
      · simp
      · intro x hx; simp; rintro rfl; exact hp hx
    simp only [this, one, Option.map_none]

/-- The number of a group wraps: `$9223372036854775808` is the whole match. -/
theorem template_number_refuted : compile [36, 57, 50, 50, 51, 51, 55, 50, 48, 51, 54, 56, 53, 52, 55, 55, 53, 56, 48, 56] =
    some [.capture 0] := by decide

/-! ## Which templates compile -/

/-- The grammar of templates: as `TokOk`, with numbers of any size. -/
def Grammar : List Tok → Prop
  | [] => True
  | .text bs :: ts => bs ≠ [] ∧ 36 ∉ bs ∧ (∀ b ts', ts ≠ .text b :: ts') ∧ Grammar ts
  | .dollar :: ts => Grammar ts
  | .group ds :: ts => (ds ≠ [] ∧ ∀ d ∈ ds, 48 ≤ d ∧ d ≤ 57) ∧
    (∀ c r b ts', ts = .text b :: ts' → b = c :: r → ¬ (48 ≤ c ∧ c ≤ 57)) ∧ Grammar ts
  | .braced ds :: ts => (ds ≠ [] ∧ ∀ d ∈ ds, 48 ≤ d ∧ d ≤ 57) ∧ Grammar ts

theorem scanName_inv (br : Bool) : ∀ (r : Bytes) (n len n' len' : Nat) (o : Bool) (rest : Bytes),
    scanName true br n len r = (n', len', o, rest) → ∃ ds, (∀ d ∈ ds, isDigit d = true) ∧ len' = len + ds.length ∧
      ((o = br ∧ r = ds ++ rest ∧ (br = false → NoDigit rest)) ∨ (o = false ∧ br = true ∧ r = ds ++ 125 :: rest)) := by
  intro r
  induction r with
  | nil =>
    intro n len n' len' o rest h
    simp only [scanName, Prod.mk.injEq] at h
    obtain ⟨_, rfl, rfl, rfl⟩ := h
    exact ⟨[], by simp, by simp, .inl ⟨rfl, rfl, fun _ => .inl rfl⟩⟩
  | cons c r ih =>
    intro n len n' len' o rest h
    rw [scanName] at h
    split at h
    · rename_i hc
      simp only [Prod.mk.injEq] at h
      obtain ⟨_, rfl, rfl, rfl⟩ := h
      exact ⟨[], by simp, by simp, .inr ⟨rfl, hc.2, by simp [hc.1]⟩⟩
    · rw [if_pos rfl] at h
      split at h
      · rename_i hd
        obtain ⟨ds, h1, h2, h3⟩ := ih _ _ _ _ _ _ h
        refine ⟨c :: ds, ?_, by simp; omega, ?_⟩
        · intro d hm
          rcases List.mem_cons.1 hm with rfl | hm
          · exact hd
          · exact h1 d hm
        · rcases h3 with ⟨a, b, e⟩ | ⟨a, b, e⟩
          · exact .inl ⟨a, by simp [b], e⟩
          · exact .inr ⟨a, b, by simp [e]⟩
      · rename_i hd
        simp only [Prod.mk.injEq] at h
        obtain ⟨_, rfl, rfl, rfl⟩ := h
        exact ⟨[], by simp, by simp, .inl ⟨rfl, rfl, fun _ => .inr ⟨c, r, rfl, by simpa using hd⟩⟩⟩

theorem variable_inv (r rest : Bytes) (code : Code) (h : variableCode r = some (code, rest)) :
    ∃ ds, ds ≠ [] ∧ (∀ d ∈ ds, isDigit d = true) ∧
      ((r = ds ++ rest ∧ NoDigit rest) ∨ r = 123 :: (ds ++ 125 :: rest)) := by
  unfold variableCode at h
  simp only at h
  generalize hb : (r.headD 0 == 123) = br at h
  generalize hr2 : (if br = true then r.tail else r) = r2 at h
  have hz : ¬ (br && r2.headD 0 == 0) = true := by
    intro hz
    rw [if_pos hz] at h
    simp at h
  rw [if_neg hz] at h
  generalize hnum : (isDigit (r.headD 0) || isDigit (r2.headD 0)) = num at h
  rcases hsc : scanName num br 0 0 r2 with ⟨n, len, o, rest'⟩
  simp only [hsc] at h
  split at h
  · simp at h
  rename_i ho
  split at h
  · simp at h
  rename_i hlen
  split at h
  · simp at h
  rename_i hnn
  simp only [Option.some.injEq, Prod.mk.injEq] at h
  obtain ⟨_, rfl⟩ := h
  have hn : num = true := by simpa using hnn
  subst hn
  obtain ⟨ds, h1, h2, h3⟩ := scanName_inv br _ _ _ _ _ _ _ hsc
  have hds : ds ≠ [] := by rintro rfl; simp at h2; exact hlen h2
  refine ⟨ds, hds, h1, ?_⟩
  rcases h3 with ⟨a, b, e⟩ | ⟨a, b, e⟩
  · have hbr : br = false := by rw [← a]; simpa using ho
    subst hbr
    simp at hr2
    exact .inl ⟨by rw [hr2, b], e rfl⟩
  · subst b
    simp at hr2 hb
    cases r with
    | nil => simp at hb
    | cons c r =>
      simp at hb hr2
      exact .inr (by rw [hb, hr2, e])

theorem digit_iff (d : Nat) : isDigit d = true ↔ 48 ≤ d ∧ d ≤ 57 := by simp [isDigit]

theorem compileLoop_grammar : ∀ fuel r codes, compileLoop fuel r = some codes → ∃ ts, Grammar ts ∧ renderAll ts = r := by
  intro fuel
  induction fuel with
  | zero => intro r codes h; simp [compileLoop] at h
  | succ fuel ih =>
    intro r codes h
    cases r with
    | nil => exact ⟨[], trivial, rfl⟩
    | cons c r =>
      rw [compileLoop] at h
      split at h
      · rename_i hc
        subst hc
        split at h
        · simp at h
        split at h
        · rename_i h36
          obtain ⟨cs, h1, _⟩ := Option.map_eq_some_iff.1 h
          obtain ⟨ts, k1, k2⟩ := ih _ _ h1
          refine ⟨.dollar :: ts, k1, ?_⟩
          cases r with
          | nil => simp at h36
          | cons x r =>
            simp at h36 k2
            simp [renderAll, Tok.render, h36]
            exact k2
        · split at h
          · simp at h
          · rename_i code rest hv
            obtain ⟨cs, h1, _⟩ := Option.map_eq_some_iff.1 h
            obtain ⟨ts, k1, k2⟩ := ih _ _ h1
            obtain ⟨ds, d1, d2, d3⟩ := variable_inv _ _ _ hv
            have d2' : ∀ d ∈ ds, 48 ≤ d ∧ d ≤ 57 := fun d hd => (digit_iff d).1 (d2 d hd)
            rcases d3 with ⟨e, hnd⟩ | e
            · refine ⟨.group ds :: ts, ⟨⟨d1, d2'⟩, ?_, k1⟩, ?_⟩
              · rintro x q b ts' rfl rfl
                have : renderAll (.text (x :: q) :: ts') = x :: (q ++ renderAll ts') := rfl
                rw [← k2, this] at hnd
                rcases hnd with hnd | ⟨y, q', hy, hd⟩
                · simp at hnd
                · simp at hy
                  rw [← hy.1] at hd
                  intro hh
                  rw [(digit_iff x).2 hh] at hd
                  simp at hd
              · rw [e, ← k2]; rfl
            · refine ⟨.braced ds :: ts, ⟨⟨d1, d2'⟩, k1⟩, ?_⟩
              rw [e, ← k2]
              simp [renderAll, Tok.render]
      · rename_i hc
        simp only at h
        obtain ⟨cs, h1, _⟩ := Option.map_eq_some_iff.1 h
        obtain ⟨ts, k1, k2⟩ := ih _ _ h1
        refine ⟨.text ((c :: r).takeWhile (· ≠ 36)) :: ts, ⟨?_, ?_, ?_, k1⟩, ?_⟩
        · simp [hc]
        · intro hm
          have := List.all_takeWhile (l := c :: r) (p := (decide <| · ≠ 36))
          rw [List.all_eq_true] at this
          have := this 36 hm
          simp at this
        · rintro b ts' rfl
          obtain ⟨b1, b2, _⟩ := k1
          obtain ⟨x, q, rfl⟩ := List.exists_cons_of_ne_nil b1
          have e : (c :: r).dropWhile (· ≠ 36) = x :: (q ++ renderAll ts') := by rw [← k2]; rfl
          have hne : (c :: r).dropWhile (· ≠ 36) ≠ [] := by rw [e]; simp
          have := List.head_dropWhile_not (· ≠ 36) hne
          simp only [e, List.head_cons] at this
          simp at this
          exact b2 (by simp [this])
        · show (c :: r).takeWhile (· ≠ 36) ++ renderAll ts = c :: r
          rw [k2]
          exact List.takeWhile_append_dropWhile

theorem scanName_any (br : Bool) (ds : Bytes) : ∀ n len rest, (∀ d ∈ ds, isDigit d = true) →
    ∃ n', scanName true br n len (ds ++ rest) = scanName true br n' (len + ds.length) rest := by
  induction ds with
  | nil => intro n len rest _; exact ⟨n, rfl⟩
  | cons d ds ih =>
    intro n len rest hd
    have h1 := hd d (by simp)
    have h2 := digit_not d h1
    obtain ⟨n', h⟩ := ih ((n * 10 + (d - 48)) % 2 ^ 64) (len + 1) rest (fun x hx => hd x (by simp [hx]))
    refine ⟨n', ?_⟩
    rw [List.cons_append, scanName, if_neg (by simp [h2.1]), if_pos rfl, if_pos h1, h, List.length_cons]
    congr 1
    omega

theorem variable_any (ds rest : Bytes) (h1 : ds ≠ []) (h2 : ∀ d ∈ ds, isDigit d = true) :
    (NoDigit rest → ∃ code, variableCode (ds ++ rest) = some (code, rest)) ∧
    ∃ code, variableCode (123 :: (ds ++ 125 :: rest)) = some (code, rest) := by
  obtain ⟨d, ds', rfl⟩ := List.exists_cons_of_ne_nil h1
  have hd := h2 d (by simp)
  have hn := digit_not d hd
  have hlen : ¬ (0 + (ds'.length + 1) = 0) := by omega
  constructor
  · intro hr
    obtain ⟨n', hs⟩ := scanName_any false (d :: ds') 0 0 rest h2
    unfold variableCode
    have e1 : ((d :: ds') ++ rest).headD 0 = d := rfl
    have e2 : (d == 123) = false := by simp [hn.2.2.1]
    simp only [e1, e2, hd, Bool.false_and, Bool.false_eq_true, if_false, Bool.true_or]
    rw [hs, scanName_stop _ _ _ hr]
    simp only [Bool.false_eq_true, if_false, List.length_cons, hlen, Bool.not_true]
    exact ⟨_, rfl⟩
  · obtain ⟨n', hs⟩ := scanName_any true (d :: ds') 0 0 (125 :: rest) h2
    unfold variableCode
    have e1 : (123 :: ((d :: ds') ++ 125 :: rest)).headD 0 = 123 := rfl
    have e3 : (((d :: ds') ++ 125 :: rest)).headD 0 = d := rfl
    have e2 : (d == 0) = false := by simp [hn.2.2.2]
    have e4 : isDigit 123 = false := by decide
    simp only [e1, beq_self_eq_true, if_true, List.tail_cons, e3, e2, Bool.and_false, Bool.false_eq_true, if_false, hd, e4,
      Bool.or_true]
    rw [hs]
    have : scanName true true n' (0 + (d :: ds').length) (125 :: rest) = (n', 0 + (d :: ds').length, false, rest) := by
      simp [scanName]
    rw [this]
    simp only [Bool.false_eq_true, if_false, List.length_cons, hlen, Bool.not_true]
    exact ⟨_, rfl⟩

theorem grammar_compile : ∀ ts fuel, Grammar ts → (renderAll ts).length < fuel →
    ∃ codes, compileLoop fuel (renderAll ts) = some codes := by
  intro ts
  induction ts with
  | nil =>
    intro fuel _ h
    cases fuel with
    | zero => simp at h
    | succ fuel => exact ⟨[], rfl⟩
  | cons t ts ih =>
    intro fuel hok h
    have hr : renderAll (t :: ts) = t.render ++ renderAll ts := rfl
    cases fuel with
    | zero => omega
    | succ fuel =>
      cases t with
      | text bs =>
        obtain ⟨h1, h2, h3, h4⟩ := hok
        obtain ⟨c, r, rfl⟩ := List.exists_cons_of_ne_nil h1
        have hall : ∀ x ∈ c :: r, (decide (x ≠ 36)) = true := by
          intro x hx; simp; intro e; exact h2 (e ▸ hx)
        have hdw : ((c :: r) ++ renderAll ts).dropWhile (· ≠ 36) = renderAll ts := by
          rw [List.dropWhile_append_of_pos hall]
          rcases render_head ts h3 with e | ⟨q, e⟩ <;> simp [e]
        rw [hr, Tok.render] at h
        simp at h
        obtain ⟨codes, k1⟩ := ih fuel h4 (by omega)
        rw [hr, Tok.render, List.cons_append, compileLoop, if_neg (by intro e; exact h2 (by simp [e])),
          ← List.cons_append]
        simp only
        rw [hdw, k1]
        exact ⟨_, rfl⟩
      | dollar =>
        rw [hr, Tok.render] at h
        simp at h
        obtain ⟨codes, k1⟩ := ih fuel hok (by omega)
        exact ⟨.copy [36] :: codes, by rw [hr, Tok.render]; simp [compileLoop, k1]⟩
      | group ds =>
        obtain ⟨⟨h1, h1'⟩, h2, h3⟩ := hok
        rw [hr, Tok.render] at h
        simp at h
        obtain ⟨codes, k1⟩ := ih fuel h3 (by omega)
        have hnd : NoDigit (renderAll ts) := by
          cases ts with
          | nil => exact .inl rfl
          | cons t ts =>
            cases t with
            | text bs =>
              obtain ⟨b1, _⟩ := h3
              obtain ⟨c, r, rfl⟩ := List.exists_cons_of_ne_nil b1
              refine .inr ⟨c, r ++ renderAll ts, rfl, ?_⟩
              have := h2 c r _ ts rfl rfl
              rw [← digit_iff] at this
              simpa using this
            | dollar => exact .inr ⟨36, _, rfl, rfl⟩
            | group ds => exact .inr ⟨36, _, rfl, rfl⟩
            | braced ds => exact .inr ⟨36, _, rfl, rfl⟩
        have hd : ∀ d ∈ ds, isDigit d = true := fun d hm => (digit_iff d).2 (h1' d hm)
        obtain ⟨code, hv⟩ := (variable_any ds (renderAll ts) h1 hd).1 hnd
        obtain ⟨d, ds', rfl⟩ := List.exists_cons_of_ne_nil h1
        have hn := digit_not d (hd d (by simp))
        refine ⟨code :: codes, ?_⟩
        rw [hr, Tok.render, List.cons_append, compileLoop, if_pos rfl]
        have e1 : ((d :: ds') ++ renderAll ts).headD 0 = d := rfl
        rw [e1, if_neg hn.2.2.2, if_neg hn.2.1]
        simp only [hv, k1, Option.map_some]
      | braced ds =>
        obtain ⟨⟨h1, h1'⟩, h3⟩ := hok
        rw [hr, Tok.render] at h
        simp at h
        obtain ⟨codes, k1⟩ := ih fuel h3 (by omega)
        have hd : ∀ d ∈ ds, isDigit d = true := fun d hm => (digit_iff d).2 (h1' d hm)
        obtain ⟨code, hv⟩ := (variable_any ds (renderAll ts) h1 hd).2
        refine ⟨code :: codes, ?_⟩
        rw [hr, Tok.render]
        have : (36 :: 123 :: (ds ++ [125])) ++ renderAll ts = 36 :: 123 :: (ds ++ 125 :: renderAll ts) := by simp
        rw [this, compileLoop, if_pos rfl, if_neg (by simp), if_neg (by simp)]
        simp only [hv, k1, Option.map_some]

/-- The templates that have an effect are exactly those of the grammar; all others leave every text as it is
(`template_error_refuted`). -/
theorem template_grammar (rep : Bytes) : (∃ codes, compile rep = some codes) ↔ ∃ ts, Grammar ts ∧ renderAll ts = rep := by
  unfold compile
  constructor
  · rintro ⟨codes, h⟩
    split at h
    · exact compileLoop_grammar _ _ _ h
    · rename_i h36
      cases rep with
      | nil => exact ⟨[], trivial, rfl⟩
      | cons c r => exact ⟨[.text (c :: r)], ⟨by simp, h36, by simp, trivial⟩, by simp [renderAll, Tok.render]⟩
  · rintro ⟨ts, h1, rfl⟩
    split
    · exact grammar_compile ts _ h1 (by omega)
    · exact ⟨_, rfl⟩

example (E : Engine) (s : Bytes) : replace E s [36, 123, 49] = some s := template_error_refuted E s _ (by decide)

/-! ## Match -/

/-- **C89.**  A match from an offset gives the texts of all groups, numbered from the whole match on, and nothing
otherwise; for every subject that is not empty, and without `ignore_case`, `dotall` and `extended`. -/
theorem match_groups_partial (E : Engine) (a : Bool) (s : Bytes) (hs : s ≠ []) (hl : s.length < 2 ^ 31) (off : Nat)
    (ho : off ≤ s.length) :
    (∀ caps, E.exec a s off = .matched caps →
      (matchBytes E ⟨false, false, false, a⟩ s off).1.length = E.ncaptures + 1 ∧
      (∀ i f t, i ≤ E.ncaptures → caps[i]? = some (some (f, t)) →
        (matchBytes E ⟨false, false, false, a⟩ s off).1[i]? = some (slice s f t)) ∧
      (∀ i, i ≤ E.ncaptures → (∀ p, caps[i]? ≠ some (some p)) →
        (matchBytes E ⟨false, false, false, a⟩ s off).1[i]? = some [])) ∧
    ((∀ caps, E.exec a s off ≠ .matched caps) → matchBytes E ⟨false, false, false, a⟩ s off = ([], [])) := by
  have h32 : toInt32 (off : Int) = off := by
    unfold toInt32
    rw [Int.bmod_eq_of_le] <;> omega
  have hp : pcreExec E ⟨false, false, false, a⟩ s (toInt32 off) = E.exec a s off := by
    rw [h32]
    have h1 : ¬ ((off : Int) < 0) := by omega
    have h2 : ¬ ((s.length : Int) < off) := by omega
    simp [pcreExec, h1, h2]
  constructor
  · intro caps hx
    have hm : (matchBytes E ⟨false, false, false, a⟩ s off).1 = groupList E s caps := by
      simp [matchBytes, hs, hp, hx]
    rw [hm]
    refine ⟨by simp [groupList], ?_, ?_⟩
    · intro i f t hi hc
      have hi' : i < E.ncaptures + 1 := by omega
      simp only [groupList, List.getElem?_map, List.getElem?_range hi', Option.map_some, hc]
    · intro i hi hc
      have hi' : i < E.ncaptures + 1 := by omega
      simp only [groupList, List.getElem?_map, List.getElem?_range hi', Option.map_some, Option.some.injEq]
      cases hq : caps[i]? with
      | none => rfl
      | some o =>
        cases o with
        | none => rfl
        | some p => exact absurd hq (hc p)
  · intro hx
    unfold matchBytes
    rw [if_neg hs, hp]
    cases hy : E.exec a s off with
    | noMatch => rfl
    | error => rfl
    | matched caps => exact absurd hy (hx caps)

/-- The named groups are the numbered ones that the table of names says, if the lower byte of the number is below 128. -/
theorem match_names_partial (E : Engine) (o : Options) (s : Bytes) (off : Int) (hi lo : Nat) (name : Bytes)
    (h1 : hi < 128) (h2 : lo < 128) (hn : (hi, lo, name) ∈ E.names) (g : Bytes)
    (hg : (matchBytes E o s off).1[256 * hi + lo]? = some g) : (name, g) ∈ (matchBytes E o s off).2 := by
  unfold matchBytes at hg ⊢
  split at hg
  · simp at hg
  · rename_i hs
    rw [if_neg hs]
    split at hg
    · rename_i caps hx
      simp only [namedList, List.mem_filterMap]
      refine ⟨(hi, lo, name), hn, ?_⟩
      have hnn : nameNumber hi lo = ((256 * hi + lo : Nat) : Int) := by simp [nameNumber, schar, h1, h2]
      have hlt : 256 * hi + lo < (groupList E s caps).length := (List.getElem?_eq_some_iff.1 hg).1
      simp only [hnn]
      rw [if_neg (by omega)]
      simp only [Int.toNat_natCast, Option.some.injEq, Prod.mk.injEq, true_and]
      rw [List.getD_eq_getElem?_getD, hg]
      rfl
    · simp at hg

/-- Only names of the table occur. -/
theorem match_names_only (E : Engine) (o : Options) (s : Bytes) (off : Int) (name g : Bytes)
    (h : (name, g) ∈ (matchBytes E o s off).2) : (∃ hi lo, (hi, lo, name) ∈ E.names) ∧ g ∈ (matchBytes E o s off).1 := by
  unfold matchBytes at h ⊢
  split at h
  · simp at h
  · rename_i hs
    rw [if_neg hs]
    split at h
    · rename_i caps hx
      simp only [namedList, List.mem_filterMap] at h
      obtain ⟨⟨hi, lo, name'⟩, h1, h2⟩ := h
      split at h2
      · simp at h2
      · rename_i hc
        simp only [Option.some.injEq, Prod.mk.injEq] at h2
        obtain ⟨rfl, rfl⟩ := h2
        refine ⟨⟨hi, lo, h1⟩, ?_⟩
        have : (nameNumber hi lo).toNat < (groupList E s caps).length := by
          simp only at hc
          omega
        rw [List.getD_eq_getElem?_getD, List.getElem?_eq_getElem this]
        simp
    · simp at h

/-- With `ignore_case`, `dotall` or `extended` nothing is ever matched. -/
theorem match_options_refuted (E : Engine) (o : Options) (h : o.ignoreCase = true ∨ o.dotall = true ∨ o.extended = true)
    (s : Bytes) (off : Int) : matchBytes E o s off = ([], []) := by
  have : (o.ignoreCase || o.dotall || o.extended) = true := by rcases h with h | h | h <;> simp [h]
  unfold matchBytes
  split
  · rfl
  · simp [pcreExec, this]

/-- The empty text is never matched, not even by the empty pattern. -/
theorem match_empty_refuted (E : Engine) (o : Options) (off : Int) : matchBytes E o [] off = ([], []) := rfl

/-- The offset is taken modulo 2^32. -/
theorem match_offset_refuted (E : Engine) (o : Options) (s : Bytes) (off k : Int) :
    matchBytes E o s (off + 2 ^ 32 * k) = matchBytes E o s off := by
  have : toInt32 (off + 2 ^ 32 * k) = toInt32 off := by
    unfold toInt32
    exact Int.add_mul_bmod_self_left off _ k
  unfold matchBytes
  rw [this]

/-- A named group whose number has a lower byte of 128 or more is left out, whatever it matched. -/
theorem match_high_name_refuted (E : Engine) (o : Options) (s : Bytes) (off : Int) (name : Bytes)
    (h : ∀ hi lo, (hi, lo, name) ∈ E.names → 128 ≤ lo ∧ lo < 256) : ∀ g, (name, g) ∉ (matchBytes E o s off).2 := by
  intro g hm
  unfold matchBytes at hm
  split at hm
  · simp at hm
  · split at hm
    · rename_i caps hx
      simp only [namedList, List.mem_filterMap] at hm
      obtain ⟨⟨hi, lo, name'⟩, h1, h2⟩ := hm
      split at h2
      · simp at h2
      · rename_i hc
        simp only [Option.some.injEq, Prod.mk.injEq] at h2
        obtain ⟨rfl, rfl⟩ := h2
        have := h hi lo h1
        have hneg : nameNumber hi lo < 0 := by
          simp only [nameNumber, schar]
          rw [if_neg (by omega), if_neg (by omega)]
          omega
        exact hc (.inl hneg)
    · simp at hm

/-- For bytes `^` is the start of the bytes; for a text it is the place of the offset. -/
theorem match_start_refuted (o : Options) (h : o.ignoreCase = false ∧ o.dotall = false ∧ o.extended = false)
    (s : Bytes) (off : Nat) (h0 : 0 < off) (hlt : off < s.length) (hl : s.length < 2 ^ 31) :
    matchBytes caretE o s off = ([], []) ∧ matchAscii caretE o s off = some ([[]], []) := by
  obtain ⟨h1, h2, h3⟩ := h
  have h32 : toInt32 (off : Int) = off := by
    unfold toInt32
    rw [Int.bmod_eq_of_le] <;> omega
  have hs : s ≠ [] := by rintro rfl; simp at hlt
  have hd : s.drop off ≠ [] := by simp; omega
  constructor
  · unfold matchBytes
    rw [if_neg hs, h32]
    have e1 : ¬ ((off : Int) < 0) := by omega
    have e2 : ¬ ((s.length : Int) < off) := by omega
    have e3 : ¬ off = 0 := by omega
    simp [pcreExec, h1, h2, h3, e1, e2, caretE, e3]
  · have e1 : ¬ ((off : Int) < 0 ∨ (s.length : Int) < off) := by omega
    have e4 : toInt32 0 = 0 := by decide
    simp only [matchAscii, e1, if_false, Int.toNat_natCast, matchBytes, hd, e4, Option.some.injEq]
    have e5 : ¬ (((s.drop off).length : Int) < 0) := by omega
    have e6 : pcreExec caretE o (s.drop off) 0 = .matched [some (0, 0)] := by
      unfold pcreExec
      simp only [h1, h2, h3, e5, caretE]
      simp
    rw [e6]
    simp [caretE, groupList, namedList, slice, List.range, List.range.loop]

/-- A pattern is cut at a null byte. -/
theorem load_null_refuted (comp : Bytes → Option Engine) (p q : Bytes) (h : 0 ∉ p) :
    load comp (p ++ 0 :: q) = load comp p := by
  have hp : ∀ x ∈ p, (decide (x ≠ 0)) = true := by
    intro x hx; simp; rintro rfl; exact h hx
  unfold load
  rw [List.takeWhile_append_of_pos hp]
  congr 1
  have := List.takeWhile_append_of_pos (l₂ := []) hp
  simp at this ⊢
  exact this.symm

-- "xaab" at 1 with `(?<g>a*)`
example : matchBytes (starE 97) noOptions [120, 97, 97, 98] 1 = ([[97, 97], [97, 97]], [([103], [97, 97])]) := by decide
example : matchBytes (starE 97) ⟨true, false, false, false⟩ [120, 97, 97, 98] 1 = ([], []) := by decide

/-! ## Characters -/

/-- The place of a character or the end: no byte 10xxxxxx. -/
def Bound (s : Bytes) (i : Nat) : Prop := ∀ b, s[i]? = some b → ¬ (128 ≤ b ∧ b < 192)

/-- The bytes of a character. -/
def IsChar (c : Bytes) : Prop := ∃ b r, c = b :: r ∧ ¬ (128 ≤ b ∧ b < 192) ∧ ∀ x ∈ r, 128 ≤ x ∧ x < 192

/-- A text of characters. -/
def IsText (s : Bytes) : Prop := ∃ cs : List Bytes, s = cs.flatten ∧ ∀ c ∈ cs, IsChar c

theorem text_drop (cs : List Bytes) (h : ∀ c ∈ cs, IsChar c) : ∀ i, Bound cs.flatten i → ∃ n, cs.flatten.drop i = (cs.drop n).flatten ∧
    cs.flatten.take i = (cs.take n).flatten := by
  induction cs with
  | nil => intro i _; exact ⟨0, by simp, by simp⟩
  | cons c cs ih =>
    intro i hb
    obtain ⟨b, r, rfl, h1, h2⟩ := h c (by simp)
    cases i with
    | zero => exact ⟨0, by simp, by simp⟩
    | succ i =>
      by_cases hi : i < r.length
      · exfalso
        have : ((b :: r) :: cs).flatten[i + 1]? = some r[i] := by
          simp only [List.flatten_cons, List.cons_append, List.getElem?_cons_succ]
          rw [List.getElem?_append_left hi, List.getElem?_eq_getElem hi]
        exact hb _ this (h2 _ (List.getElem_mem hi))
      · have hsplit : i + 1 = (b :: r).length + (i - r.length) := by simp; omega
        have hb' : Bound cs.flatten (i - r.length) := by
          intro x hx
          apply hb x
          simp only [List.flatten_cons]
          rw [List.getElem?_append_right (by simp; omega)]
          rw [hsplit]
          simpa using hx
        obtain ⟨n, k1, k2⟩ := ih (fun c hc => h c (by simp [hc])) _ hb'
        refine ⟨n + 1, ?_, ?_⟩
        · simp only [List.flatten_cons, List.drop_succ_cons]
          rw [hsplit, List.drop_length_add_append, k1]
        · simp only [List.flatten_cons, List.take_succ_cons]
          rw [hsplit, List.take_length_add_append, k2]

theorem text_slice (s : Bytes) (hs : IsText s) (f t : Nat) (hf : Bound s f) (ht : Bound s t) (hle : f ≤ t) :
    IsText (slice s f t) := by
  obtain ⟨cs, rfl, hc⟩ := hs
  obtain ⟨n, k1, _⟩ := text_drop cs hc f hf
  have hc' : ∀ c ∈ cs.drop n, IsChar c := fun c h => hc c (List.mem_of_mem_drop h)
  have hb : Bound (cs.drop n).flatten (t - f) := by
    intro b hb
    rw [← k1, List.getElem?_drop] at hb
    exact ht b (by rw [show f + (t - f) = t by omega] at hb; exact hb)
  obtain ⟨j, _, k2⟩ := text_drop (cs.drop n) hc' _ hb
  refine ⟨(cs.drop n).take j, ?_, fun c h => hc' c (List.mem_of_mem_take h)⟩
  unfold slice
  rw [k1, k2]

theorem scan_chars (E : Engine) (hE : Lawful E) (s : Bytes)
    (hb : ∀ off m, off ≤ s.length → Bound s off → E.exec false s off = .matched (Hit.caps m) → Bound s m.f ∧ Bound s m.t)
    (he : ∀ off m, off ≤ s.length → Bound s off → E.exec false s off = .matched (Hit.caps m) → m.t = m.f → Bound s (m.t + 1))
    {off : Nat} {ms : List Hit} (h : Scan E s off ms) : off ≤ s.length → Bound s off →
    ∀ m ∈ ms, Bound s m.f ∧ Bound s m.t := by
  have sp : ∀ {off} {m : Hit}, off ≤ s.length → E.exec false s off = .matched m.caps → m.t ≤ s.length := by
    intro off m ho hx
    obtain ⟨f, t, r, he, h1, h2, h3⟩ := hE.span _ _ _ _ ho hx
    simp [Hit.caps] at he
    obtain ⟨⟨rfl, rfl⟩, _⟩ := he
    exact h3
  induction h with
  | stop h => intro _ _ m hm; simp at hm
  | step m hx hlt _ ih =>
    intro ho hbo x hm
    have := hb _ m ho hbo hx
    rcases List.mem_cons.1 hm with rfl | hm
    · exact this
    · exact ih (sp ho hx) this.2 x hm
  | empty m hx hem hl _ ih =>
    intro ho hbo x hm
    have := hb _ m ho hbo hx
    rcases List.mem_cons.1 hm with rfl | hm
    · exact this
    · exact ih (by omega) (he _ m ho hbo hx hem) x hm
  | last m hx =>
    intro ho hbo x hm
    have := hb _ m ho hbo hx
    rcases List.mem_cons.1 hm with rfl | hm
    · exact this
    · simp at hm

theorem cut_chars (E : Engine) (hE : Lawful E) (s : Bytes) (hs : IsText s) {off : Nat} {ms : List Hit}
    (h : Scan E s off ms) : ∀ cp, cp ≤ off → off ≤ s.length → Bound s cp → (∀ m ∈ ms, Bound s m.f ∧ Bound s m.t) →
    ∀ p ∈ cut s cp ms, IsText p := by
  have sp : ∀ {off} {m : Hit}, off ≤ s.length → E.exec false s off = .matched m.caps →
      off ≤ m.f ∧ m.f ≤ m.t ∧ m.t ≤ s.length := by
    intro off m ho hx
    obtain ⟨f, t, r, he, h1, h2, h3⟩ := hE.span _ _ _ _ ho hx
    simp [Hit.caps] at he
    obtain ⟨⟨rfl, rfl⟩, _⟩ := he
    exact ⟨h1, h2, h3⟩
  have hend : Bound s s.length := by intro b hb; simp at hb
  induction h with
  | stop h =>
    intro cp h1 h2 hb hm p hp
    simp [cut] at hp
    subst hp
    exact text_slice s hs cp _ hb hend (by omega)
  | step m hx hlt _ ih =>
    intro cp h1 h2 hb hm p hp
    obtain ⟨k1, k2, k3⟩ := sp h2 hx
    rcases List.mem_cons.1 hp with rfl | hp
    · exact text_slice s hs cp _ hb (hm m (by simp)).1 (by omega)
    · exact ih m.t (by omega) k3 (hm m (by simp)).2 (fun x hx => hm x (by simp [hx])) p hp
  | empty m hx he hl _ ih =>
    intro cp h1 h2 hb hm p hp
    obtain ⟨k1, k2, k3⟩ := sp h2 hx
    rcases List.mem_cons.1 hp with rfl | hp
    · exact text_slice s hs cp _ hb (hm m (by simp)).1 (by omega)
    · exact ih m.t (by omega) (by omega) (hm m (by simp)).2 (fun x hx => hm x (by simp [hx])) p hp
  | last m hx =>
    intro cp h1 h2 hb hm p hp
    obtain ⟨k1, k2, k3⟩ := sp h2 hx
    rcases List.mem_cons.1 hp with rfl | hp
    · exact text_slice s hs cp _ hb (hm m (by simp)).1 (by omega)
    · simp [cut] at hp
      subst hp
      exact text_slice s hs _ _ (hm m (by simp)).2 hend (by omega)

/-- No character is cut: if matches begin and end between characters and no empty match stands before a character of
several bytes, every piece of a text is a text. -/
theorem split_chars_partial (E : Engine) (hE : Lawful E) (s : Bytes) (hn : NoError E s) (hs : IsText s)
    (hb : ∀ off m, off ≤ s.length → Bound s off → E.exec false s off = .matched (Hit.caps m) → Bound s m.f ∧ Bound s m.t)
    (he : ∀ off m, off ≤ s.length → Bound s off → E.exec false s off = .matched (Hit.caps m) → m.t = m.f → Bound s (m.t + 1)) :
    ∃ ps, split E s = some ps ∧ ∀ p ∈ ps, IsText p := by
  obtain ⟨ms, h1, h2⟩ := split_scan E hE s hn
  have h0 : Bound s 0 := by
    obtain ⟨cs, rfl, hc⟩ := hs
    intro b hb
    cases cs with
    | nil => simp at hb
    | cons c cs =>
      obtain ⟨x, r, rfl, k1, _⟩ := hc c (by simp)
      simp at hb
      subst hb
      exact k1
  have hall := scan_chars E hE s hb he h1 (by omega) h0
  refine ⟨_, h2, ?_⟩
  intro p hp
  have : p ∈ cut s 0 ms := by
    unfold dropLastEmpty at hp
    split at hp
    · exact List.dropLast_subset _ hp
    · exact hp
  exact cut_chars E hE s hs h1 0 (by omega) (by omega) h0 hall p this

-- "é,é" at the comma
example : IsText [195, 169, 44, 195, 169] :=
  ⟨[[195, 169], [44], [195, 169]], rfl, by
    intro c hc
    simp at hc
    rcases hc with rfl | rfl | rfl
    · exact ⟨195, [169], rfl, by omega, by simp⟩
    · exact ⟨44, [], rfl, by omega, by simp⟩
    · exact ⟨195, [169], rfl, by omega, by simp⟩⟩
example : split (byteE 44) [195, 169, 44, 195, 169] = some [[195, 169], [195, 169]] := by decide

end Verif.Regex
