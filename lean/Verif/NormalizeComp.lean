import Verif.NormalizeProps

/-! Composition: the loop with the array `skipped` is Unicode's composition algorithm. -/

namespace Verif.Normalize

variable {db : DB} {k : Bool}

/-! ## What Unicode says -/

/-- The canonical composition algorithm (D117): each character `c` in turn is combined with the last
starter before it, if it is not blocked from it (D115) and there is a primary composite. `out` is
the string before `c`, reversed. -/
def compose (db : DB) : List Nat → List Nat → List Nat
  | out, [] => out.reverse
  | out, c :: r =>
    match out.dropWhile (fun x => db.ccc x != 0) with
    | [] => compose db (c :: out) r
    | a :: before =>
      match primary db a c with
      | none => compose db (c :: out) r
      | some p =>
        let between := out.takeWhile (fun x => db.ccc x != 0)
        if ∀ b ∈ between, db.ccc b < db.ccc c then compose db (between ++ p :: before) r
        else compose db (c :: out) r
termination_by _ r => r.length

/-- No Hangul syllable (as in a decomposition). -/
def NoS (s : List Nat) : Prop := ∀ x ∈ s, isS x = false

/-! ## The loops without indices -/

/-- `scan`, giving the characters that are left. -/
def scanL (db : DB) : List Nat → Nat → Nat → Nat → Nat × List Nat
  | [], _, _, cur => (cur, [])
  | c :: r, comb, f, cur =>
    if comb ≠ 0 ∧ db.ccc c = 0 then (cur, c :: r)
    else if comb ≠ 0 ∧ db.ccc c ≤ comb then
      ((scanL db r comb f cur).1, c :: (scanL db r comb f cur).2)
    else
      let code := match db.last c with
        | none => 0
        | some l => db.pair f l
      if code = 0 then
        if db.ccc c = 0 then (cur, c :: r)
        else ((scanL db r (db.ccc c) f cur).1, c :: (scanL db r (db.ccc c) f cur).2)
      else
        match db.first code with
        | none => (code, r)
        | some f' => scanL db r comb f' code

theorem scanL_length : ∀ (r : List Nat) (comb f cur : Nat), (scanL db r comb f cur).2.length ≤ r.length
  | [], _, _, _ => Nat.le_refl _
  | c :: r, comb, f, cur => by
    rw [scanL]
    have h := scanL_length r
    split
    · exact Nat.le_refl _
    · split
      · simp only [List.length_cons]; have := h comb f cur; omega
      · dsimp only
        generalize (match db.last c with | none => 0 | some l => db.pair f l) = code
        split
        · split
          · exact Nat.le_refl _
          · simp only [List.length_cons]; have := h (db.ccc c) f cur; omega
        · split
          · simp
          · rename_i f' _
            simp only [List.length_cons]
            have := h comb f' code
            omega

/-- `comp`, on the characters that are left. -/
def compL (db : DB) : List Nat → List Nat
  | [] => []
  | c :: r =>
    if isL c && (match r with | v :: _ => isV v | [] => false) then
      match r with
      | v :: t :: r' =>
        if isT t then (lv c v + (t - 0x11A7)) :: compL db r'
        else lv c v :: compL db (t :: r')
      | v :: [] => [lv c v]
      | [] => [c]
    else
      match db.first c with
      | none => c :: compL db r
      | some f => (scanL db r 0 f c).1 :: compL db (scanL db r 0 f c).2
termination_by s => s.length
decreasing_by
  all_goals simp only [List.length_cons]
  all_goals first
    | omega
    | (have := scanL_length (db := db) r 0 f c; omega)

/-! ## Removing the indices -/

/-- The characters from `i` on that are not skipped. -/
def live : List Nat → Nat → List Nat → List Nat
  | [], _, _ => []
  | c :: r, i, sk => if i ∈ sk then live r (i + 1) sk else c :: live r (i + 1) sk

/-- Skipped characters come before the next starter that is not. -/
def Ok (db : DB) : List Nat → Nat → List Nat → Prop
  | [], _, sk => sk = []
  | c :: r, i, sk =>
    if i ∈ sk then Ok db r (i + 1) (sk.erase i)
    else (db.ccc c = 0 → sk = []) ∧ Ok db r (i + 1) sk

theorem live_congr : ∀ (r : List Nat) (i : Nat) {sk sk' : List Nat},
    (∀ j, i ≤ j → (j ∈ sk ↔ j ∈ sk')) → live r i sk = live r i sk'
  | [], _, _, _, _ => rfl
  | c :: r, i, sk, sk', h => by
    rw [live, live, live_congr r (i + 1) fun j hj => h j (by omega)]
    by_cases hi : i ∈ sk
    · rw [if_pos hi, if_pos ((h i (Nat.le_refl _)).1 hi)]
    · rw [if_neg hi, if_neg fun x => hi ((h i (Nat.le_refl _)).2 x)]

theorem live_nil : ∀ (r : List Nat) (i : Nat), live r i [] = r
  | [], _ => rfl
  | c :: r, i => by rw [live, if_neg (by simp), live_nil r]

theorem ok_nil : ∀ (r : List Nat) (i : Nat), Ok db r i []
  | [], _ => rfl
  | c :: r, i => by
    rw [Ok, if_neg (by simp)]
    exact ⟨fun _ => rfl, ok_nil r _⟩

theorem ok_live_erase {r : List Nat} {i : Nat} {sk : List Nat} (_hi : i ∈ sk) (hn : sk.Nodup) :
    live r (i + 1) sk = live r (i + 1) (sk.erase i) := by
  refine live_congr r _ fun j hj => ?_
  rw [hn.mem_erase_iff]
  exact ⟨fun h => ⟨by omega, h⟩, fun h => h.2⟩

/-- The inner loop, with the bound on `skipped`. -/
theorem scan_ok (hl : Laws db) : ∀ (r : List Nat) (i1 comb f cur : Nat) (sk : List Nat),
    db.first cur = some f → sk.length + 1 ≤ (full db false cur).length →
    ∃ new, scan db r i1 comb f cur sk = .ok ((scanL db r comb f cur).1, sk ++ new) ∧
      live r i1 new = (scanL db r comb f cur).2 ∧ Ok db r i1 new ∧ (∀ j ∈ new, i1 ≤ j) ∧ new.Nodup := by
  intro r
  induction r with
  | nil =>
    intro i1 comb f cur sk _ _
    exact ⟨[], by rw [scan, scanL, List.append_nil], rfl, rfl, by simp, List.nodup_nil⟩
  | cons c r ih =>
    intro i1 comb f cur sk hf hlen
    have keep : ∀ (comb' : Nat), db.ccc c ≠ 0 →
        ∃ new, scan db r (i1 + 1) comb' f cur sk = .ok ((scanL db r comb' f cur).1, sk ++ new) ∧
          live (c :: r) i1 new = c :: (scanL db r comb' f cur).2 ∧ Ok db (c :: r) i1 new ∧
          (∀ j ∈ new, i1 ≤ j) ∧ new.Nodup := by
      intro comb' hc
      obtain ⟨new, h1, h2, h3, h4, h5⟩ := ih (i1 + 1) comb' f cur sk hf hlen
      have hni : i1 ∉ new := fun h => by have := h4 i1 h; omega
      refine ⟨new, h1, ?_, ?_, fun j hj => by have := h4 j hj; omega, h5⟩
      · rw [live, if_neg hni, h2]
      · rw [Ok, if_neg hni]
        exact ⟨fun h => absurd h hc, h3⟩
    have stop : live (c :: r) i1 [] = c :: r ∧ Ok db (c :: r) i1 [] ∧ (∀ j ∈ ([] : List Nat), i1 ≤ j) ∧
        ([] : List Nat).Nodup := ⟨live_nil _ _, ok_nil _ _, by simp, List.nodup_nil⟩
    rw [scan, scanL]
    by_cases h1 : comb ≠ 0 ∧ db.ccc c = 0
    · rw [if_pos h1, if_pos h1]
      exact ⟨[], by rw [List.append_nil], stop⟩
    rw [if_neg h1, if_neg h1]
    by_cases h2 : comb ≠ 0 ∧ db.ccc c ≤ comb
    · rw [if_pos h2, if_pos h2]
      exact keep comb fun h => h1 ⟨h2.1, h⟩
    rw [if_neg h2, if_neg h2]
    cases hlast : db.last c with
    | none =>
      dsimp only
      rw [if_pos rfl, if_pos rfl]
      by_cases h3 : db.ccc c = 0
      · rw [if_pos h3, if_pos h3]
        exact ⟨[], by rw [List.append_nil], stop⟩
      · rw [if_neg h3, if_neg h3]
        exact keep _ h3
    | some l =>
      dsimp only
      by_cases hp : db.pair f l = 0
      · rw [if_pos hp, if_pos hp]
        by_cases h3 : db.ccc c = 0
        · rw [if_pos h3, if_pos h3]
          exact ⟨[], by rw [List.append_nil], stop⟩
        · rw [if_neg h3, if_neg h3]
          exact keep _ h3
      · rw [if_neg hp, if_neg hp]
        have hshort := hl.short cur
        rw [if_neg (show ¬ 20 ≤ sk.length by omega)]
        obtain ⟨p1, p2, p3⟩ := hl.prim cur c f l hf hlast hp
        have drop : live (c :: r) i1 [i1] = r ∧ Ok db (c :: r) i1 [i1] := by
          constructor
          · rw [live, if_pos (by simp), live_congr r (i1 + 1) (sk' := []), live_nil]
            intro j hj
            simp only [List.mem_singleton, List.not_mem_nil, iff_false]
            omega
          · rw [Ok, if_pos (by simp)]
            simp [ok_nil]
        cases hf' : db.first (db.pair f l) with
        | none =>
          exact ⟨[i1], rfl, drop.1, drop.2, by simp, by simp⟩
        | some f' =>
          dsimp only
          have hlen' : (sk ++ [i1]).length + 1 ≤ (full db false (db.pair f l)).length := by
            rw [full_two hl p1 p3, List.length_append, List.length_append, List.length_singleton]
            have := List.length_pos_iff.2 (full_ne (k := false) hl c)
            omega
          obtain ⟨new, g1, g2, g3, g4, g5⟩ := ih (i1 + 1) comb f' _ (sk ++ [i1]) hf' hlen'
          have hni : i1 ∉ new := fun h => by have := g4 i1 h; omega
          refine ⟨i1 :: new, ?_, ?_, ?_, ?_, List.nodup_cons.2 ⟨hni, g5⟩⟩
          · rw [g1, List.append_assoc]; rfl
          · rw [live, if_pos List.mem_cons_self, ← g2]
            refine live_congr r _ fun j hj => ?_
            rw [List.mem_cons]
            exact ⟨fun h => h.resolve_left (by omega), .inr⟩
          · rw [Ok, if_pos List.mem_cons_self, List.erase_cons_head]
            exact g3
          · intro j hj
            rcases List.mem_cons.1 hj with h | h
            · omega
            · have := g4 j h; omega

theorem isL_jamo {c : Nat} (h : isL c = true) : 0x1100 ≤ c ∧ c < 0x1200 := by
  simp only [isL, Bool.and_eq_true, decide_eq_true_eq] at h; omega
theorem isV_jamo {c : Nat} (h : isV c = true) : 0x1100 ≤ c ∧ c < 0x1200 := by
  simp only [isV, Bool.and_eq_true, decide_eq_true_eq] at h; omega
theorem isT_jamo {c : Nat} (h : isT c = true) : 0x1100 ≤ c ∧ c < 0x1200 := by
  simp only [isT, Bool.and_eq_true, decide_eq_true_eq] at h; omega

/-- The outer loop. -/
theorem comp_live (hl : Laws db) : ∀ (n : Nat) (r : List Nat) (i : Nat) (sk : List Nat),
    r.length ≤ n → sk.Nodup → Ok db r i sk → comp db r i sk = .ok (compL db (live r i sk)) := by
  intro n
  induction n with
  | zero =>
    intro r i sk hr _ _
    obtain rfl := List.length_eq_zero_iff.1 (by omega : r.length = 0)
    rw [comp, live, compL]
  | succ n ih =>
    intro r i sk hr hn hok
    cases r with
    | nil => rw [comp, live, compL]
    | cons c r =>
      rw [List.length_cons] at hr
      rw [comp.eq_def, live]
      dsimp only
      rw [Ok] at hok
      by_cases hi : i ∈ sk
      · rw [if_pos hi] at hok
        rw [if_pos hi, if_pos hi, ih r _ _ (by omega) (hn.erase _) hok, ok_live_erase hi hn]
      · rw [if_neg hi] at hok
        rw [if_neg hi, if_neg hi, compL.eq_def]
        dsimp only
        by_cases hL : isL c = true
        · have hc := hl.jamo c (isL_jamo hL).1 (isL_jamo hL).2
          have hsk := hok.1 hc.2.1
          subst hsk
          rw [live_nil, hc.2.2.1, hL]
          have e : ∀ (r : List Nat) i, r.length ≤ n → comp db r i [] = .ok (compL db r) := by
            intro r i h
            rw [ih r i [] h List.nodup_nil (ok_nil _ _), live_nil]
          match r, hr with
          | [], _ => simp [comp, compL]
          | [v], hr' =>
            dsimp only
            by_cases hv : isV v = true
            · simp only [hv, Bool.and_self, if_true]
            · simp only [hv, Bool.and_false, Bool.false_eq_true, if_false]
              rw [e _ _ (by simpa using hr')]
          | v :: t :: r, hr =>
            simp only [List.length_cons] at hr
            dsimp only
            by_cases hv : isV v = true
            · simp only [hv, Bool.and_self, if_true]
              rw [e _ _ (by omega), e _ _ (by simp; omega)]
              by_cases ht : isT t = true
              · rw [if_pos ht, if_pos ht]
              · rw [if_neg ht, if_neg ht]
            · simp only [hv, Bool.and_false, Bool.false_eq_true, if_false]
              rw [e _ _ (by simp; omega)]
        · rw [show isL c = false by simpa using hL, Bool.false_and, Bool.false_and,
            if_neg (by decide), if_neg (by decide)]
          cases hf : db.first c with
          | none =>
            dsimp only
            rw [ih r _ _ (by omega) hn hok.2]
          | some f =>
            have hsk := hok.1 (hl.start c f hf)
            subst hsk
            obtain ⟨new, g1, g2, g3, g4, g5⟩ := scan_ok hl r (i + 1) 0 f c [] hf (by
              have := List.length_pos_iff.2 (full_ne (k := false) hl c)
              rw [List.length_nil]; omega)
            dsimp only
            rw [g1, List.nil_append]
            dsimp only
            rw [ih r _ _ (by omega) g5 g3, g2, live_nil]

theorem comp_ok (hl : Laws db) (s : List Nat) : comp db s 0 [] = .ok (compL db s) := by
  rw [comp_live hl s.length s 0 [] (Nat.le_refl _) List.nodup_nil (ok_nil _ _), live_nil]

/-! ## The algorithm of Unicode -/

/-- A step of `compose` behind marks `ms` and a starter `a`. -/
theorem compose_step {ms before : List Nat} {a c : Nat} {r : List Nat} (ha : db.ccc a = 0)
    (hm : ∀ m ∈ ms, db.ccc m ≠ 0) :
    compose db (ms ++ a :: before) (c :: r) =
      match primary db a c with
      | none => compose db (c :: (ms ++ a :: before)) r
      | some p =>
        if ∀ b ∈ ms, db.ccc b < db.ccc c then compose db (ms ++ p :: before) r
        else compose db (c :: (ms ++ a :: before)) r := by
  have h1 : (ms ++ a :: before).dropWhile (fun x => db.ccc x != 0) = a :: before := by
    rw [List.dropWhile_append_of_pos (by simpa using hm)]
    simp [ha]
  have h2 : (ms ++ a :: before).takeWhile (fun x => db.ccc x != 0) = ms := by
    rw [List.takeWhile_append_of_pos (by simpa using hm)]
    simp [ha]
  rw [compose, h1, h2]

theorem compose_marks {ms : List Nat} {c : Nat} {r : List Nat} (hm : ∀ m ∈ ms, db.ccc m ≠ 0) :
    compose db ms (c :: r) = compose db (c :: ms) r := by
  have h1 : ms.dropWhile (fun x => db.ccc x != 0) = [] := by
    clear r c
    induction ms with
    | nil => rfl
    | cons m ms ih =>
      rw [List.dropWhile_cons_of_pos (by simpa using hm m List.mem_cons_self)]
      exact ih fun x hx => hm x (List.mem_cons_of_mem _ hx)
  rw [compose, h1]

theorem isL_mark (hl : Laws db) {m : Nat} (hm : db.ccc m ≠ 0) : isL m = false := by
  cases h : isL m with
  | false => rfl
  | true => exact absurd (hl.jamo m (isL_jamo h).1 (isL_jamo h).2).2.1 hm
theorem isV_mark (hl : Laws db) {m : Nat} (hm : db.ccc m ≠ 0) : isV m = false := by
  cases h : isV m with
  | false => rfl
  | true => exact absurd (hl.jamo m (isV_jamo h).1 (isV_jamo h).2).2.1 hm
theorem isT_mark (hl : Laws db) {m : Nat} (hm : db.ccc m ≠ 0) : isT m = false := by
  cases h : isT m with
  | false => rfl
  | true => exact absurd (hl.jamo m (isT_jamo h).1 (isT_jamo h).2).2.1 hm

theorem compL_mark (hl : Laws db) {m : Nat} (hm : db.ccc m ≠ 0) (r : List Nat) :
    compL db (m :: r) = m :: compL db r := by
  have hf : db.first m = none := by
    cases h : db.first m with
    | none => rfl
    | some f => exact absurd (hl.start m f h) hm
  rw [compL.eq_def]
  dsimp only
  rw [isL_mark hl hm, Bool.false_and, if_neg (by decide), hf]

theorem compL_marks (hl : Laws db) (ms r : List Nat) (hm : ∀ m ∈ ms, db.ccc m ≠ 0) :
    compL db (ms ++ r) = ms ++ compL db r := by
  induction ms with
  | nil => rfl
  | cons m ms ih =>
    rw [List.cons_append, compL_mark hl (hm m List.mem_cons_self),
      ih fun x hx => hm x (List.mem_cons_of_mem _ hx)]
    rfl

/-- What the claim is for a starter `c` in front of `r`. -/
def StarterOk (db : DB) (r : List Nat) : Prop := ∀ out c, db.ccc c = 0 → isS c = false →
  compose db (c :: out) r = out.reverse ++ compL db (c :: r)

/-- A starter that combines with starters only, behind a mark or before a character it does not
combine with. -/
theorem sterile (hl : Laws db) (a : Nat) (ha : db.ccc a = 0)
    (hp : ∀ x, primary db a x ≠ none → db.ccc x = 0) :
    ∀ (r ms out : List Nat), (∀ m ∈ ms, db.ccc m ≠ 0) → NoS r →
      (ms ≠ [] ∨ ∀ x ∈ r.head?, primary db a x = none) →
      (∀ r', r'.length < r.length → NoS r' → StarterOk db r') →
      compose db (ms ++ a :: out) r = out.reverse ++ a :: compL db (ms.reverse ++ r) := by
  intro r
  induction r with
  | nil =>
    intro ms out hm _ _ _
    rw [compose, compL_marks hl _ _ (by simpa using hm), compL]
    simp
  | cons x r ih =>
    intro ms out hm hS hcond hsm
    have hS' : NoS r := fun y hy => hS y (List.mem_cons_of_mem _ hy)
    rw [compose_step ha hm]
    by_cases hx : db.ccc x = 0
    · have e : compose db (x :: (ms ++ a :: out)) r = out.reverse ++ a :: compL db (ms.reverse ++ x :: r) := by
        rw [hsm r (by simp) hS' _ x hx (hS x List.mem_cons_self),
          compL_marks hl _ _ (by simpa using hm)]
        simp
      cases hpx : primary db a x with
      | none => exact e
      | some p =>
        dsimp only
        rw [if_neg, e]
        intro hall
        rcases hcond with h | h
        · obtain ⟨m, hm'⟩ := List.exists_mem_of_ne_nil _ h
          have := hall m hm'
          omega
        · rw [h x (by simp)] at hpx
          cases hpx
    · have hpx : primary db a x = none := by
        by_contra h
        exact hx (hp x h)
      rw [hpx]
      dsimp only
      have := ih (x :: ms) out (fun m h => by
        rcases List.mem_cons.1 h with h | h
        · exact h ▸ hx
        · exact hm m h) hS' (.inl (by simp)) (fun r' h => hsm r' (by simp; omega))
      rw [List.cons_append] at this
      rw [this, List.reverse_cons, List.append_assoc]
      rfl

theorem primary_first (hl : Laws db) {a f : Nat} (h : db.first a = some f) (x : Nat) :
    primary db a x = (match db.last x with
      | none => none
      | some l => if db.pair f l = 0 then none else some (db.pair f l)) := by
  have h1 : isL a = false := by
    cases hL : isL a with
    | false => rfl
    | true =>
      have := (hl.jamo a (isL_jamo hL).1 (isL_jamo hL).2).2.2.1
      rw [h] at this; cases this
  have h2 : isS a = false := by
    cases hS : isS a with
    | false => rfl
    | true =>
      have := (hl.syll a hS).2.1
      rw [h] at this; cases this
  rw [primary, h1, h2, h]
  cases db.last x <;> rfl

theorem primary_none {a : Nat} (h : db.first a = none) (h1 : isL a = false) (h2 : isS a = false)
    (x : Nat) : primary db a x = none := by
  rw [primary, h1, h2, h]
  rfl

/-- The inner loop: `ms` are the marks it has passed, `comb` is the largest class of them. -/
theorem scan_compose (hl : Laws db) : ∀ (r ms out : List Nat) (comb f cur : Nat),
    db.first cur = some f → (∀ m ∈ ms, db.ccc m ≠ 0) → (ms = [] ↔ comb = 0) →
    (∀ m ∈ ms, db.ccc m ≤ comb) → (comb ≠ 0 → ∃ m ∈ ms, db.ccc m = comb) → NoS r →
    (∀ r', r'.length < r.length → NoS r' → StarterOk db r') →
    compose db (ms ++ cur :: out) r =
      out.reverse ++ (scanL db r comb f cur).1 :: compL db (ms.reverse ++ (scanL db r comb f cur).2) := by
  intro r
  induction r with
  | nil =>
    intro ms out comb f cur _ hm _ _ _ _ _
    rw [compose, scanL]
    dsimp only
    rw [compL_marks hl _ _ (by simpa using hm), compL]
    simp
  | cons x r ih =>
    intro ms out comb f cur hf hm h0 hmax hex hS hsm
    have hS' : NoS r := fun y hy => hS y (List.mem_cons_of_mem _ hy)
    have hcur := hl.start cur f hf
    rw [compose_step hcur hm, primary_first hl hf, scanL]
    have hsm' : ∀ r', r'.length < r.length → NoS r' → StarterOk db r' := fun r' h =>
      hsm r' (by simp; omega)
    -- `x` is a starter that is not combined
    have stop : db.ccc x = 0 → compose db (x :: (ms ++ cur :: out)) r =
        out.reverse ++ cur :: compL db (ms.reverse ++ x :: r) := by
      intro hx
      rw [hsm r (by simp) hS' _ x hx (hS x List.mem_cons_self), compL_marks hl _ _ (by simpa using hm)]
      simp
    -- `x` is a mark that is not combined
    have keep : ∀ comb', db.ccc x ≠ 0 → db.ccc x ≤ comb' → (∀ m ∈ ms, db.ccc m ≤ comb') →
        (∃ m ∈ x :: ms, db.ccc m = comb') →
        compose db (x :: (ms ++ cur :: out)) r = out.reverse ++ (scanL db r comb' f cur).1 ::
          compL db (ms.reverse ++ x :: (scanL db r comb' f cur).2) := by
      intro comb' hx hle hms hexx
      have := ih (x :: ms) out comb' f cur hf (fun m h => by
          rcases List.mem_cons.1 h with h | h
          · exact h ▸ hx
          · exact hm m h) ⟨fun h => (by cases h), fun h => by omega⟩ (fun m h => by
          rcases List.mem_cons.1 h with h | h
          · exact h ▸ hle
          · exact hms m h) (fun _ => hexx) hS' hsm'
      rw [List.cons_append] at this
      rw [this, List.reverse_cons, List.append_assoc]
      rfl
    by_cases c1 : comb ≠ 0 ∧ db.ccc x = 0
    · rw [if_pos c1]
      obtain ⟨m, hm1, hm2⟩ := hex c1.1
      have : ¬ ∀ b ∈ ms, db.ccc b < db.ccc x := fun h => by have := h m hm1; omega
      simp only [if_neg this]
      rw [← stop c1.2]
      cases db.last x with
      | none => rfl
      | some l => dsimp only; split <;> rfl
    rw [if_neg c1]
    by_cases c2 : comb ≠ 0 ∧ db.ccc x ≤ comb
    · rw [if_pos c2]
      obtain ⟨m, hm1, hm2⟩ := hex c2.1
      have : ¬ ∀ b ∈ ms, db.ccc b < db.ccc x := fun h => by have := h m hm1; omega
      simp only [if_neg this]
      rw [← keep comb (fun h => c1 ⟨c2.1, h⟩) c2.2 hmax ⟨m, List.mem_cons_of_mem _ hm1, hm2⟩]
      cases db.last x with
      | none => rfl
      | some l => dsimp only; split <;> rfl
    rw [if_neg c2]
    have hun : ∀ b ∈ ms, db.ccc b < db.ccc x := by
      intro b hb
      have h1 := hmax b hb
      have h2 := hm b hb
      omega
    have passed : db.ccc x ≠ 0 →
        compose db (x :: (ms ++ cur :: out)) r = out.reverse ++ (scanL db r (db.ccc x) f cur).1 ::
          compL db (ms.reverse ++ x :: (scanL db r (db.ccc x) f cur).2) := by
      intro hx
      exact keep (db.ccc x) hx (Nat.le_refl _) (fun m h => Nat.le_of_lt (hun m h))
        ⟨x, List.mem_cons_self, rfl⟩
    cases hlast : db.last x with
    | none =>
      dsimp only
      rw [if_pos rfl]
      by_cases hx : db.ccc x = 0
      · rw [if_pos hx]; exact stop hx
      · rw [if_neg hx]; exact passed hx
    | some l =>
      dsimp only
      by_cases hp : db.pair f l = 0
      · rw [if_pos hp, if_pos hp]
        by_cases hx : db.ccc x = 0
        · rw [if_pos hx]; exact stop hx
        · rw [if_neg hx]; exact passed hx
      · rw [if_neg hp, if_neg hp]
        dsimp only
        rw [if_pos hun]
        obtain ⟨p1, p2, p3⟩ := hl.prim cur x f l hf hlast hp
        cases hf' : db.first (db.pair f l) with
        | some f' => exact ih ms out comb f' _ hf' hm h0 hmax hex hS' hsm'
        | none =>
          dsimp only
          have hL : isL (db.pair f l) = false := by
            cases h : isL (db.pair f l) with
            | false => rfl
            | true =>
              have := (hl.jamo _ (isL_jamo h).1 (isL_jamo h).2).1
              rw [p1] at this; cases this
          have hno := primary_none hf' hL p3
          exact sterile hl _ p2 (fun y h => absurd (hno y) h) r ms out hm hS'
            (.inr fun y _ => hno y) hsm'

theorem isL_iff (c : Nat) : isL c = true ↔ 0x1100 ≤ c ∧ c < 0x1113 := by
  rw [isL, Bool.and_eq_true, decide_eq_true_eq, decide_eq_true_eq]
theorem isV_iff (c : Nat) : isV c = true ↔ 0x1161 ≤ c ∧ c < 0x1176 := by
  rw [isV, Bool.and_eq_true, decide_eq_true_eq, decide_eq_true_eq]
theorem isT_iff (c : Nat) : isT c = true ↔ 0x11A7 < c ∧ c < 0x11C3 := by
  rw [isT, Bool.and_eq_true, decide_eq_true_eq, decide_eq_true_eq]
theorem isL_false {c : Nat} (h : ¬ (0x1100 ≤ c ∧ c < 0x1113)) : isL c = false := by
  rw [← isL_iff] at h; simpa using h

/-- Hangul syllables of a leading consonant and a vowel. -/
theorem lv_props {l v : Nat} (hL : isL l = true) (hV : isV v = true) :
    isS (lv l v) = true ∧ (lv l v - 0xAC00) % 28 = 0 ∧ isL (lv l v) = false ∧
      (lv l v - 0xAC00) / 28 = (l - 0x1100) * 21 + (v - 0x1161) := by
  rw [isL_iff] at hL
  rw [isV_iff] at hV
  have e : lv l v = 0xAC00 + ((l - 0x1100) * 21 + (v - 0x1161)) * 28 := rfl
  rw [isS_iff]
  exact ⟨by omega, by omega, isL_false (by omega), by omega⟩

theorem lvt_props {l v t : Nat} (hL : isL l = true) (hV : isV v = true) (hT : isT t = true) :
    isS (lv l v + (t - 0x11A7)) = true ∧ (lv l v + (t - 0x11A7) - 0xAC00) % 28 = t - 0x11A7 ∧
      isL (lv l v + (t - 0x11A7)) = false ∧ (lv l v + (t - 0x11A7) - 0xAC00) % 28 ≠ 0 ∧
      (lv l v + (t - 0x11A7) - 0xAC00) / 28 = (l - 0x1100) * 21 + (v - 0x1161) := by
  rw [isL_iff] at hL
  rw [isV_iff] at hV
  rw [isT_iff] at hT
  have e : lv l v = 0xAC00 + ((l - 0x1100) * 21 + (v - 0x1161)) * 28 := rfl
  rw [isS_iff]
  exact ⟨by omega, by omega, isL_false (by omega), by omega, by omega⟩

theorem starter_ok (hl : Laws db) : ∀ (n : Nat) (r : List Nat), r.length ≤ n → NoS r → StarterOk db r := by
  intro n
  induction n using Nat.strong_induction_on with
  | _ n ih =>
    intro r hr hS out c hc hcS
    have hsm : ∀ r', r'.length < r.length → NoS r' → StarterOk db r' := fun r' h hN =>
      ih (r.length - 1) (by omega) r' (by omega) hN
    rw [compL.eq_def]
    dsimp only
    by_cases hH : (isL c && (match r with | v :: _ => isV v | [] => false)) = true
    · rw [if_pos hH]
      rw [Bool.and_eq_true] at hH
      obtain ⟨hL, hV⟩ := hH
      cases r with
      | nil => cases hV
      | cons v r =>
        dsimp only at hV ⊢
        obtain ⟨s1, s2, s3, -⟩ := lv_props hL hV
        have hp : primary db c v = some (lv c v) := by rw [primary, hL, hV]; rfl
        have := compose_step (db := db) (ms := []) (before := out) (c := v) (r := r) hc (by simp)
        rw [List.nil_append] at this
        rw [this, hp]
        dsimp only
        rw [if_pos (by simp), List.nil_append]
        have hlv0 := (hl.syll _ s1).1
        have hlvp : ∀ x, primary db (lv c v) x ≠ none → db.ccc x = 0 := by
          intro x hx
          by_cases hT : isT x = true
          · exact (hl.jamo x (isT_jamo hT).1 (isT_jamo hT).2).2.1
          · exfalso
            apply hx
            rw [primary, s3, s1, (hl.syll _ s1).2.1, show isT x = false by simpa using hT]
            simp
        cases r with
        | nil =>
          rw [compose]
          simp
        | cons t r =>
          dsimp only
          have hS' : NoS (t :: r) := fun y hy => hS y (List.mem_cons_of_mem _ hy)
          by_cases hT : isT t = true
          · rw [if_pos hT]
            have hp2 : primary db (lv c v) t = some (lv c v + (t - 0x11A7)) := by
              rw [primary, s3, s1, s2, hT]; rfl
            have := compose_step (db := db) (ms := []) (before := out) (c := t) (r := r) hlv0 (by simp)
            rw [List.nil_append] at this
            rw [this, hp2]
            dsimp only
            rw [if_pos (by simp), List.nil_append]
            have t1 := lvt_props hL hV hT
            have hno : ∀ x, primary db (lv c v + (t - 0x11A7)) x = none := by
              intro x
              rw [primary, t1.2.2.1, t1.1, (hl.syll _ t1.1).2.1, beq_false_of_ne t1.2.2.2.1]
              simp
            have := sterile hl _ (hl.syll _ t1.1).1 (fun x h => absurd (hno x) h) r [] out (by simp)
              (fun y hy => hS' y (List.mem_cons_of_mem _ hy)) (.inr fun x _ => hno x)
              (fun r' h => hsm r' (by simp; omega))
            simpa using this
          · rw [if_neg hT]
            have hno : primary db (lv c v) t = none := by
              rw [primary, s3, s1, (hl.syll _ s1).2.1, show isT t = false by simpa using hT]
              simp
            have := sterile hl _ hlv0 hlvp (t :: r) [] out (by simp) hS'
              (.inr fun x hx => by simp at hx; exact hx ▸ hno) (fun r' h => hsm r' (by simp at h ⊢; omega))
            simpa using this
    · rw [if_neg hH]
      cases hf : db.first c with
      | some f =>
        dsimp only
        have := scan_compose hl r [] out 0 f c hf (by simp) (by simp) (by simp) (by simp) hS hsm
        simpa using this
      | none =>
        dsimp only
        have hp : ∀ x, primary db c x ≠ none → isL c = true ∧ isV x = true := by
          intro x hx
          by_contra hcon
          apply hx
          rw [primary, hf, hcS]
          simp only [Bool.false_and, Bool.false_eq_true, if_false]
          rw [if_neg]
          rwa [Bool.and_eq_true]
        have := sterile hl c hc (fun x hx => by
            have h := (hp x hx).2
            exact (hl.jamo x (isV_jamo h).1 (isV_jamo h).2).2.1) r [] out (by simp) hS
          (.inr fun x hx => by
            by_contra hcon
            apply hH
            obtain ⟨h1, h2⟩ := hp x hcon
            cases r with
            | nil => simp at hx
            | cons y r => simp at hx; subst hx; simp [h1, h2]) hsm
        simpa using this

/-- The loop of the repository is the composition algorithm of Unicode, on strings without Hangul
syllables, as decompositions are. -/
theorem compL_compose (hl : Laws db) (s : List Nat) (hS : NoS s) : compL db s = compose db [] s := by
  have key : ∀ (r ms : List Nat), (∀ m ∈ ms, db.ccc m ≠ 0) → NoS r →
      compose db ms r = ms.reverse ++ compL db r := by
    intro r
    induction r with
    | nil => intro ms _ _; rw [compose, compL, List.append_nil]
    | cons x r ih =>
      intro ms hm hS
      have hS' : NoS r := fun y hy => hS y (List.mem_cons_of_mem _ hy)
      rw [compose_marks hm]
      by_cases hx : db.ccc x = 0
      · exact starter_ok hl r.length r (Nat.le_refl _) hS' ms x hx (hS x List.mem_cons_self)
      · rw [ih (x :: ms) (fun m h => by
          rcases List.mem_cons.1 h with h | h
          · exact h ▸ hx
          · exact hm m h) hS', compL_mark hl hx]
        simp
  have := key s [] (by simp) hS
  simpa using this.symm

end Verif.Normalize
