import Verif.DocPrint
/-
Python reads what the printer prints.
-/
namespace Verif.DocPrint

/-! ### Fuel -/

theorem bind_mono {α β : Type} {a b : Option α} {k k' : α → Option β} {r : β}
    (h : ∀ x, a = some x → b = some x) (hk : ∀ x, k x = some r → k' x = some r) :
    a.bind k = some r → b.bind k' = some r := by
  intro hb
  cases ha : a with
  | none => rw [ha] at hb; cases hb
  | some x => rw [ha] at hb; rw [h x ha]; exact hk x hb

theorem step_mono {f f' : Goal → List Tok → R} (h : ∀ g ts r, f g ts = some r → f' g ts = some r) (g : Goal)
    (ts : List Tok) (r : Ast × List Tok) : step f g ts = some r → step f' g ts = some r := by
  unfold step
  split
  case h_1 => exact bind_mono (fun _ h => h) (fun q => bind_mono (h _ _) (fun b hb => hb))
  case h_2 =>
    refine bind_mono (h _ _) (fun x => ?_)
    split
    · refine bind_mono (h _ _) (fun c => ?_)
      split
      · exact bind_mono (h _ _) (fun b hb => hb)
      · exact id
    · exact id
  case h_3 => exact bind_mono (h _ _) (fun b hb => hb)
  case h_4 => exact h _ _ _
  case h_5 => exact bind_mono (h _ _) (fun b => h _ _ _)
  case h_6 => exact bind_mono (h _ _) (fun b hb => hb)
  case h_7 => exact bind_mono (h _ _) (fun b hb => hb)
  case h_8 => exact bind_mono (h _ _) (fun b hb => hb)
  case h_9 => exact h _ _ _
  case h_10 =>
    refine bind_mono (h _ _) (fun x => ?_)
    split
    · exact bind_mono (h _ _) (fun b hb => hb)
    · exact id
  case h_11 => exact id
  case h_12 => exact h _ _ _
  case h_13 => exact h _ _ _
  case h_14 => exact h _ _ _
  case h_15 => exact h _ _ _
  case h_16 =>
    refine bind_mono (h _ _) (fun x => ?_)
    split
    · exact h _ _ _
    · exact bind_mono (h _ _) (fun b => h _ _ _)
    · exact id
  case h_17 => exact bind_mono (h _ _) (fun b => h _ _ _)
  case h_18 => exact h _ _ _
  case h_19 => exact bind_mono (h _ _) (fun b => h _ _ _)
  case h_20 => exact id
  case h_21 => exact bind_mono (h _ _) (fun b => h _ _ _)
  case h_22 =>
    split
    · exact bind_mono (h _ _) (fun b => h _ _ _)
    · exact id
  case h_23 => exact id
  case h_24 =>
    split
    · exact bind_mono (h _ _) (fun b => h _ _ _)
    · exact id
  case h_25 => exact id
  case h_26 => exact h _ _ _
  case h_27 => exact h _ _ _
  case h_28 =>
    refine bind_mono (h _ _) (fun x => ?_)
    split
    · exact h _ _ _
    · exact bind_mono (h _ _) (fun b => h _ _ _)
    · exact id
  case h_29 => exact id
  case h_30 =>
    split
    · exact id
    · refine bind_mono (h _ _) (fun x => ?_)
      split
      · exact h _ _ _
      · exact id
  case h_31 => exact h _ _ _
  case h_32 =>
    refine bind_mono (h _ _) (fun x => ?_)
    split
    · exact h _ _ _
    · exact h _ _ _
    · exact id
  case h_33 =>
    split
    · refine bind_mono (h _ _) (fun x => ?_)
      split
      · exact h _ _ _
      · exact h _ _ _
      · exact id
    · exact id

theorem run_succ {n : Nat} : ∀ {g : Goal} {ts : List Tok} {r : Ast × List Tok}, run n g ts = some r →
    run (n + 1) g ts = some r := by
  induction n with
  | zero => intro g ts r h; cases h
  | succ n ih => intro g ts r h; exact step_mono (fun _ _ _ h => ih h) g ts r h

theorem run_mono {n m : Nat} (hm : n ≤ m) {g : Goal} {ts : List Tok} {r : Ast × List Tok} (h : run n g ts = some r) :
    run m g ts = some r := by
  induction hm with
  | refl => exact h
  | step _ ih => exact run_succ ih

/-- The parser, asked for `g`, reads `r` from `ts`. -/
def Ev (g : Goal) (ts : List Tok) (r : Ast × List Tok) : Prop := ∃ n, run n g ts = some r

theorem Ev.det {g : Goal} {ts : List Tok} {r r' : Ast × List Tok} (h : Ev g ts r) (h' : Ev g ts r') : r = r' := by
  obtain ⟨n, hn⟩ := h
  obtain ⟨m, hm⟩ := h'
  have h1 := run_mono (Nat.le_max_left n m) hn
  rw [run_mono (Nat.le_max_right n m) hm] at h1
  exact (Option.some.inj h1).symm

/-- One parse is enough. -/
theorem Ev.one {g g1 : Goal} {ts t1 : List Tok} {r r1 : Ast × List Tok} (h1 : Ev g1 t1 r1)
    (h : ∀ p : Goal → List Tok → R, p g1 t1 = some r1 → step p g ts = some r) : Ev g ts r := by
  obtain ⟨n, hn⟩ := h1
  exact ⟨n + 1, h _ hn⟩

theorem Ev.two {g g1 g2 : Goal} {ts t1 t2 : List Tok} {r r1 r2 : Ast × List Tok} (h1 : Ev g1 t1 r1) (h2 : Ev g2 t2 r2)
    (h : ∀ p : Goal → List Tok → R, p g1 t1 = some r1 → p g2 t2 = some r2 → step p g ts = some r) : Ev g ts r := by
  obtain ⟨n, hn⟩ := h1
  obtain ⟨m, hm⟩ := h2
  exact ⟨max n m + 1, h _ (run_mono (Nat.le_max_left n m) hn) (run_mono (Nat.le_max_right n m) hm)⟩

theorem Ev.three {g g1 g2 g3 : Goal} {ts t1 t2 t3 : List Tok} {r r1 r2 r3 : Ast × List Tok} (h1 : Ev g1 t1 r1)
    (h2 : Ev g2 t2 r2) (h3 : Ev g3 t3 r3)
    (h : ∀ p : Goal → List Tok → R, p g1 t1 = some r1 → p g2 t2 = some r2 → p g3 t3 = some r3 → step p g ts = some r) :
    Ev g ts r := by
  obtain ⟨n, hn⟩ := h1
  obtain ⟨m, hm⟩ := h2
  obtain ⟨k, hk⟩ := h3
  exact ⟨max (max n m) k + 1, h _
    (run_mono (Nat.le_trans (Nat.le_max_left n m) (Nat.le_max_left _ k)) hn)
    (run_mono (Nat.le_trans (Nat.le_max_right n m) (Nat.le_max_left _ k)) hm)
    (run_mono (Nat.le_max_right _ k) hk)⟩

/-! ### First and next tokens -/

/-- The level of the expressions that begin with a token. -/
def pfx : Tok → Option Nat
  | .lambda => some 0
  | .not => some 3
  | .bop .sub => some 11
  | .inv => some 11
  | .num _ _ => some 13
  | .const _ => some 13
  | .id _ => some 13
  | .lp => some 13
  | .lb => some 13
  | .lc => some 13
  | _ => none

/-- The level at which a token continues an expression. -/
def cont : Tok → Option Nat
  | .if_ => some 0
  | .bop o => some o.lvl
  | .pow => some 12
  | .dot => some 13
  | .lp => some 13
  | .lb => some 13
  | _ => none

/-- The first token begins an expression of level `m` or above. -/
def Begins (t : List Tok) (m : Nat) : Prop := ∃ k r l, t = k :: r ∧ pfx k = some l ∧ m ≤ l

/-- The next token does not continue an expression of level `l`. -/
def stops (l : Nat) (rest : List Tok) : Prop := ∀ k r c, rest = k :: r → cont k = some c → c < l

theorem stops.mono {l m : Nat} (h : l ≤ m) {rest : List Tok} (hs : stops l rest) : stops m rest :=
  fun k r c h1 h2 => Nat.lt_of_lt_of_le (hs k r c h1 h2) h

theorem stops_nil (l : Nat) : stops l [] := fun _ _ _ h => by cases h

theorem stops_cons {l : Nat} {k : Tok} {r : List Tok} (h : ∀ c, cont k = some c → c < l) : stops l (k :: r) := by
  intro k' r' c h1 h2
  cases h1
  exact h c h2

theorem BOp.lvl_ne (o : BOp) : o.lvl ≠ 11 ∧ o.lvl ≠ 3 ∧ o.lvl < 11 ∧ 0 < o.lvl := by cases o <;> decide

/-- No token continues at level 11. -/
theorem stops_12_11 {rest : List Tok} (h : stops 12 rest) : stops 11 rest := by
  intro k r c h1 h2
  have := h k r c h1 h2
  cases k <;> simp only [cont, Option.some.injEq, reduceCtorEq] at h2 <;> try omega
  rename_i o
  have := BOp.lvl_ne o
  omega

/-- The levels of left-associative binary operators. -/
def IsLoop (l : Nat) : Prop := l = 1 ∨ l = 2 ∨ (5 ≤ l ∧ l ≤ 10)

/-! ### The parser on each goal -/

theorem ev_loop_stop {l : Nat} {x : Ast} {rest : List Tok} (h : stops l rest) : Ev (.loop l x) rest (x, rest) := by
  refine ⟨1, ?_⟩
  show step _ _ _ = _
  cases rest with
  | nil => simp [step]
  | cons k r =>
    cases k <;> simp only [step]
    rename_i o
    rw [if_neg]
    have := h _ _ o.lvl rfl rfl
    omega

theorem ev_chain_stop {os : List BOp} {xs : List Ast} {rest : List Tok} (h : stops 4 rest) :
    Ev (.chain os xs) rest (mkCmp os xs, rest) := by
  refine ⟨1, ?_⟩
  show step _ _ _ = _
  cases rest with
  | nil => simp [step]
  | cons k r =>
    cases k <;> simp only [step]
    rename_i o
    rw [if_neg]
    have := h _ _ o.lvl rfl rfl
    omega

theorem ev_trail_stop {x : Ast} {rest : List Tok} (h : stops 13 rest) : Ev (.trail x) rest (x, rest) := by
  refine ⟨1, ?_⟩
  show step _ _ _ = _
  cases rest with
  | nil => simp [step]
  | cons k r =>
    have hk := h k r
    cases k <;> simp only [step] <;> exact absurd (hk 13 rfl rfl) (by omega)

theorem step_loop_lv {p : Goal → List Tok → R} {l : Nat} (hl : IsLoop l) (ts : List Tok) :
    step p (.lv l) ts = (p (.lv (l + 1)) ts).bind fun x => p (.loop l x.1) x.2 := by
  have : l = 1 ∨ l = 2 ∨ l = 5 ∨ l = 6 ∨ l = 7 ∨ l = 8 ∨ l = 9 ∨ l = 10 := by unfold IsLoop at hl; omega
  rcases this with rfl | rfl | rfl | rfl | rfl | rfl | rfl | rfl <;> simp only [step]

theorem ev_lv_loop {l : Nat} (hl : IsLoop l) {ts : List Tok} {x : Ast × List Tok} {r : Ast × List Tok}
    (h1 : Ev (.lv (l + 1)) ts x) (h2 : Ev (.loop l x.1) x.2 r) : Ev (.lv l) ts r :=
  Ev.two h1 h2 fun p e1 e2 => by rw [step_loop_lv hl, e1]; exact e2

theorem ev_loop_op {l : Nat} {o : BOp} (ho : o.lvl = l) {acc : Ast} {ts : List Tok} {y r : Ast × List Tok}
    (h1 : Ev (.lv (l + 1)) ts y) (h2 : Ev (.loop l (.node (.bin o) [acc, y.1])) y.2 r) :
    Ev (.loop l acc) (.bop o :: ts) r :=
  Ev.two h1 h2 fun p e1 e2 => by simp only [step]; rw [if_pos ho, e1]; exact e2

theorem ev_chain_op {o : BOp} (ho : o.lvl = 4) {os : List BOp} {xs : List Ast} {ts : List Tok} {y r : Ast × List Tok}
    (h1 : Ev (.lv 5) ts y) (h2 : Ev (.chain (os ++ [o]) (xs ++ [y.1])) y.2 r) :
    Ev (.chain os xs) (.bop o :: ts) r :=
  Ev.two h1 h2 fun p e1 e2 => by simp only [step]; rw [if_pos ho, e1]; exact e2

theorem ev_lv4 {ts : List Tok} {x r : Ast × List Tok} (h1 : Ev (.lv 5) ts x) (h2 : Ev (.chain [] [x.1]) x.2 r) :
    Ev (.lv 4) ts r :=
  Ev.two h1 h2 fun p e1 e2 => by simp only [step]; rw [e1]; exact e2

theorem ev_lv3 {ts : List Tok} {r : Ast × List Tok} (hb : ∀ r, ts ≠ .not :: r) (h : Ev (.lv 4) ts r) :
    Ev (.lv 3) ts r :=
  Ev.one h fun p e => by
    rw [← e]
    cases ts with
    | nil => simp only [step]
    | cons k t => cases k <;> simp only [step]; exact absurd rfl (hb t)

theorem ev_lv11 {ts : List Tok} {r : Ast × List Tok} (hb : ∀ r, ts ≠ .bop .sub :: r ∧ ts ≠ .bop .add :: r ∧ ts ≠ .inv :: r)
    (h : Ev (.lv 12) ts r) : Ev (.lv 11) ts r :=
  Ev.one h fun p e => by
    rw [← e]
    cases ts with
    | nil => simp only [step]
    | cons k t =>
      cases k <;> simp only [step]
      · rename_i o
        cases o <;> simp only [step]
        · exact absurd rfl (hb t).2.1
        · exact absurd rfl (hb t).1
      · exact absurd rfl (hb t).2.2

theorem ev_lv12 {ts : List Tok} {x : Ast × List Tok} (h : Ev (.lv 13) ts x) (hs : ∀ r, x.2 ≠ .pow :: r) :
    Ev (.lv 12) ts x :=
  Ev.one h fun p e => by
    simp only [step]
    rw [e]
    dsimp only [Option.bind]
    split
    · rename_i r hr; exact absurd hr (hs r)
    · rfl

theorem ev_pow {ts r : List Tok} {x : Ast} {y : Ast × List Tok} (h : Ev (.lv 13) ts (x, .pow :: r)) (h2 : Ev (.lv 11) r y) :
    Ev (.lv 12) ts (.node .pow [x, y.1], y.2) :=
  Ev.two h h2 fun p e e2 => by
    simp only [step]
    rw [e]
    dsimp only [Option.bind]
    rw [e2]

theorem ev_lv0 {ts : List Tok} {x : Ast × List Tok} (hb : ∀ r, ts ≠ .lambda :: r) (h : Ev (.lv 1) ts x)
    (hs : ∀ r, x.2 ≠ .if_ :: r) : Ev (.lv 0) ts x :=
  Ev.one h fun p e => by
    have : step p (.lv 0) ts = (p (.lv 1) ts).bind fun x =>
      match x.2 with
      | .if_ :: r => (p (.lv 1) r).bind fun c =>
        match c.2 with
        | .else_ :: r => (p (.lv 0) r).bind fun y => some (.node .ite [c.1, x.1, y.1], y.2)
        | _ => none
      | _ => some x := by
      cases ts with
      | nil => rfl
      | cons k t => cases k <;> first | rfl | exact absurd rfl (hb t)
    rw [this, e]
    dsimp only [Option.bind]
    split
    · rename_i r hr; exact absurd hr (hs r)
    · rfl

theorem ev_ite {ts r r' : List Tok} {x c : Ast} {y : Ast × List Tok} (hb : ∀ r, ts ≠ .lambda :: r)
    (h : Ev (.lv 1) ts (x, .if_ :: r)) (hc : Ev (.lv 1) r (c, .else_ :: r')) (hy : Ev (.lv 0) r' y) :
    Ev (.lv 0) ts (.node .ite [c, x, y.1], y.2) :=
  Ev.three h hc hy fun p e e2 e3 => by
    have : step p (.lv 0) ts = (p (.lv 1) ts).bind fun x =>
      match x.2 with
      | .if_ :: r => (p (.lv 1) r).bind fun c =>
        match c.2 with
        | .else_ :: r => (p (.lv 0) r).bind fun y => some (.node .ite [c.1, x.1, y.1], y.2)
        | _ => none
      | _ => some x := by
      cases ts with
      | nil => rfl
      | cons k t => cases k <;> first | rfl | exact absurd rfl (hb t)
    rw [this, e]
    dsimp only [Option.bind]
    rw [e2]
    dsimp only
    rw [e3]

/-! ### What is claimed of printed text -/

/-- The tokens `t` are read as `x`, an expression of level `m`. -/
structure Claim (t : List Tok) (x : Ast) (m : Nat) : Prop where
  begins : Begins t m
  /-- at every level up to `m`, unless the next token continues -/
  lv : ∀ l, l ≤ m → ∀ rest, stops l rest → Ev (.lv l) (t ++ rest) (x, rest)
  /-- as the first part of a left-associative expression -/
  loop : ∀ l, l ≤ m → IsLoop l → ∀ rest, stops (l + 1) rest → ∀ r, Ev (.loop l x) rest r → Ev (.lv l) (t ++ rest) r
  /-- before trailers -/
  trail : m = 13 → ∀ rest, (∀ s r, t = [.num true s] → rest ≠ .dot :: r) → ∀ r, Ev (.trail x) rest r →
    Ev (.lv 13) (t ++ rest) r
  /-- not as a keyword -/
  key : ∀ rest, (∀ r, rest ≠ .assign :: r) → ∀ s r, t ++ rest ≠ .id s :: .assign :: r

theorem Begins.head {t rest r : List Tok} {k : Tok} {m : Nat} (h : Begins t m) (he : t ++ rest = k :: r) :
    ∃ l, pfx k = some l ∧ m ≤ l := by
  obtain ⟨k', r', l, rfl, h1, h2⟩ := h
  rw [List.cons_append, List.cons.injEq] at he
  obtain ⟨rfl, _⟩ := he
  exact ⟨l, h1, h2⟩

theorem Begins.not {t rest r : List Tok} {k : Tok} {m : Nat} (h : Begins t m) (hk : ∀ l, pfx k = some l → l < m) :
    t ++ rest ≠ k :: r := by
  intro he
  obtain ⟨l, h1, h2⟩ := h.head he
  have := hk l h1
  omega

/-- From level `m` down. -/
theorem claim_of {t : List Tok} {x : Ast} {m : Nat} (hm : m ≤ 13) (hb : Begins t m)
    (h : ∀ rest, stops m rest → Ev (.lv m) (t ++ rest) (x, rest))
    (hl : IsLoop m → ∀ rest, stops (m + 1) rest → ∀ r, Ev (.loop m x) rest r → Ev (.lv m) (t ++ rest) r)
    (ht : m = 13 → ∀ rest, (∀ s r, t = [.num true s] → rest ≠ .dot :: r) → ∀ r, Ev (.trail x) rest r →
      Ev (.lv 13) (t ++ rest) r)
    (hk : ∀ rest, (∀ r, rest ≠ .assign :: r) → ∀ s r, t ++ rest ≠ .id s :: .assign :: r) : Claim t x m := by
  have key : ∀ d l, l + d = m → ∀ rest, stops l rest → Ev (.lv l) (t ++ rest) (x, rest) := by
    intro d
    induction d with
    | zero => intro l hl rest hs; have : l = m := by omega
              subst this; exact h rest hs
    | succ d ih =>
      intro l hld rest hs
      have h1 := ih (l + 1) (by omega) rest (hs.mono (by omega))
      have hc : l = 0 ∨ l = 3 ∨ l = 4 ∨ l = 11 ∨ l = 12 ∨ IsLoop l := by unfold IsLoop; omega
      rcases hc with rfl | rfl | rfl | rfl | rfl | hc
      · refine ev_lv0 (fun r => hb.not (fun l h => by cases h; omega)) h1 (fun r hr => ?_)
        have := hs _ _ 0 hr rfl
        omega
      · exact ev_lv3 (fun r => hb.not (fun l h => by cases h; omega)) h1
      · exact ev_lv4 h1 (ev_chain_stop hs)
      · exact ev_lv11 (fun r => ⟨hb.not (fun l h => by cases h; omega), hb.not (fun l h => by cases h),
          hb.not (fun l h => by cases h; omega)⟩) h1
      · refine ev_lv12 h1 (fun r hr => ?_)
        have := hs _ _ 12 hr rfl
        omega
      · exact ev_lv_loop hc h1 (ev_loop_stop hs)
  refine ⟨hb, fun l hlm rest hs => key (m - l) l (by omega) rest hs, ?_, ht, hk⟩
  intro l hlm hlo rest hs r hr
  by_cases he : l = m
  · subst he; exact hl hlo rest hs r hr
  · exact ev_lv_loop hlo (key (m - (l + 1)) (l + 1) (by omega) rest hs) hr

/-- A primary. -/
theorem claim_primary {t : List Tok} {x : Ast} (hb : Begins t 13)
    (ht : ∀ rest, (∀ s r, t = [.num true s] → rest ≠ .dot :: r) → ∀ r, Ev (.trail x) rest r →
      Ev (.lv 13) (t ++ rest) r)
    (hk : ∀ rest, (∀ r, rest ≠ .assign :: r) → ∀ s r, t ++ rest ≠ .id s :: .assign :: r) : Claim t x 13 := by
  refine claim_of (by omega) hb ?_ (fun h => by unfold IsLoop at h; omega) (fun _ => ht) hk
  intro rest hs
  refine ht rest (fun s r _ hr => ?_) _ (ev_trail_stop hs)
  have := hs _ _ 13 hr rfl
  omega

/-- Parentheses make a primary. -/
theorem claim_paren {t : List Tok} {x : Ast} {m : Nat} (h : Claim t x m) : Claim (.lp :: t ++ [.rp]) x 13 := by
  refine claim_primary ⟨_, _, 13, rfl, rfl, Nat.le_refl _⟩ ?_ ?_
  · intro rest _ r hr
    have h0 := h.lv 0 (Nat.zero_le m) (.rp :: rest) (stops_cons (fun c h => by cases h))
    refine Ev.two h0 hr fun p e1 e2 => ?_
    have hne : ∀ r, t ++ .rp :: rest ≠ .rp :: r := fun r => by
      obtain ⟨k', r', l, rfl, h1, h2⟩ := h.begins
      intro he
      rw [List.cons_append, List.cons.injEq] at he
      rw [he.1] at h1
      cases h1
    have hs : step p (.lv 13) (.lp :: (t ++ .rp :: rest)) = (p (.lv 0) (t ++ .rp :: rest)).bind fun x =>
      match x.2 with
      | .rp :: r => p (.trail x.1) r
      | .comma :: r => (p (.seq .rp .tuple [x.1]) r).bind fun y => p (.trail y.1) y.2
      | _ => none := by
      cases hts : t ++ .rp :: rest with
      | nil => rfl
      | cons k t' => cases k <;> first | rfl | exact absurd hts (hne t')
    have : (Tok.lp :: t ++ [Tok.rp]) ++ rest = .lp :: (t ++ .rp :: rest) := by simp
    rw [this, hs, e1]
    exact e2
  · intro rest _ s r he
    simp at he

end Verif.DocPrint
