import Verif.DocPrintProps
/-
Printed expressions are read back: the cases and the induction.
-/
namespace Verif.DocPrint

theorem Begins.append {t u : List Tok} {m : Nat} (h : Begins t m) : Begins (t ++ u) m := by
  obtain ⟨k, r, l, rfl, h1, h2⟩ := h
  exact ⟨k, r ++ u, l, rfl, h1, h2⟩

theorem Begins.mono {t : List Tok} {l m : Nat} (h : Begins t m) (hl : l ≤ m) : Begins t l := by
  obtain ⟨k, r, l', rfl, h1, h2⟩ := h
  exact ⟨k, r, l', rfl, h1, Nat.le_trans hl h2⟩

/-- The grammar level of a precedence. -/
def plev (p : Nat) : Nat :=
  if p ≤ 2 then 0 else if p ≤ 6 then p - 2 else p - 3

/-- The grammar level of a printed document. -/
def lev (d : Doc) : Nat := if d.isNeg then 11 else plev d.prec

theorem plev_mono {p q : Nat} (h : p ≤ q) : plev p ≤ plev q := by
  unfold plev
  split <;> split <;> (try split) <;> (try split) <;> omega

theorem Doc.prec_le (d : Doc) : d.prec ≤ 16 ∧ 1 ≤ d.prec := by
  cases d <;> simp only [Doc.prec] <;> try omega
  · rename_i o _; cases o <;> decide
  · rename_i o _ _; cases o <;> decide

theorem lev_le (d : Doc) : lev d ≤ 13 := by
  unfold lev
  split
  · omega
  · exact plev_mono (Doc.prec_le d).1

/-- At least the level of its precedence up to unary operators. -/
theorem le_lev {d : Doc} {p : Nat} (hp : p ≤ 14) (h : p ≤ d.prec) : plev p ≤ lev d := by
  unfold lev
  split
  · exact plev_mono hp
  · exact plev_mono h

/-- An operand. -/
theorem claim_child {t : List Tok} {x : Ast} {m p prec k : Nat} {c : Bool} (h : Claim t x m)
    (hk : ¬ (prec < p ∨ (c = true ∧ prec = p)) → k ≤ m) (hk13 : k ≤ 13) : ∃ m', k ≤ m' ∧ m' ≤ max m 13 ∧ Claim (child p c prec t) x m' := by
  unfold child
  split
  · exact ⟨13, hk13, by omega, claim_paren h⟩
  · rename_i hc; exact ⟨m, hk hc, by omega, h⟩

theorem key_append {t u : List Tok} {x : Ast} {m : Nat} (h : Claim t x m) {k : Tok} {r : List Tok} (hu : u = k :: r)
    (hk : k ≠ .assign) : ∀ rest s r', (t ++ u) ++ rest ≠ .id s :: .assign :: r' := by
  intro rest s r'
  subst hu
  rw [List.append_assoc]
  refine h.key _ (fun r2 h2 => hk ?_) s r'
  rw [List.cons_append, List.cons.injEq] at h2
  exact h2.1

/-! ### Atoms -/

theorem claim_num (i : Bool) (s : String) : Claim [.num i s] (.node (.num i s) []) 13 := by
  refine claim_primary ⟨_, _, 13, rfl, rfl, Nat.le_refl _⟩ ?_ (fun rest _ s r h => by simp at h)
  intro rest hd r hr
  refine Ev.one hr fun p e => ?_
  rw [← e]
  cases rest with
  | nil => cases i <;> rfl
  | cons k t =>
    cases i
    · rfl
    · cases k <;> first | rfl | exact absurd rfl (hd s t rfl)

theorem claim_const (s : String) : Claim [.const s] (.node (.const s) []) 13 := by
  refine claim_primary ⟨_, _, 13, rfl, rfl, Nat.le_refl _⟩ ?_ (fun rest _ s r h => by simp at h)
  intro rest _ r hr
  exact Ev.one hr fun p e => e

theorem claim_id (s : String) : Claim [.id s] (.node (.id s) []) 13 := by
  refine claim_primary ⟨_, _, 13, rfl, rfl, Nat.le_refl _⟩ ?_ ?_
  · intro rest _ r hr
    exact Ev.one hr fun p e => e
  · intro rest hr s' r h
    rw [List.cons_append, List.nil_append, List.cons.injEq] at h
    exact hr _ h.2

/-! ### Operators -/

theorem claim_unary {t : List Tok} {x : Ast} {m : Nat} (o : UOp) (h : Claim t x m) (hm : plev o.prec ≤ m) :
    Claim (o.tok :: t) (.node o.lab [x]) (plev o.prec) := by
  refine claim_of (by cases o <;> decide) ?_ ?_ ?_ ?_ ?_
  · cases o <;> exact ⟨_, _, _, rfl, rfl, by decide⟩
  · intro rest hs
    have h1 := h.lv _ hm rest hs
    cases o <;> exact Ev.one h1 fun p e => by
      show (p _ (t ++ rest)).bind _ = _
      first
        | rw [show p (.lv 11) (t ++ rest) = _ from e]; rfl
        | rw [show p (.lv 3) (t ++ rest) = _ from e]; rfl
  · intro h; cases o <;> simp [plev, UOp.prec, IsLoop] at h
  · intro h; cases o <;> simp [plev, UOp.prec] at h
  · intro rest _ s r h; cases o <;> simp [UOp.tok] at h

theorem claim_loopOp {t u : List Tok} {x y : Ast} {m m' : Nat} {o : BOp} (h : Claim t x m) (h' : Claim u y m')
    (hl : IsLoop o.lvl) (hm : o.lvl ≤ m) (hm' : o.lvl + 1 ≤ m') :
    Claim (t ++ .bop o :: u) (.node (.bin o) [x, y]) o.lvl := by
  have main : ∀ rest, stops (o.lvl + 1) rest → ∀ r, Ev (.loop o.lvl (.node (.bin o) [x, y])) rest r →
      Ev (.lv o.lvl) ((t ++ .bop o :: u) ++ rest) r := by
    intro rest hs r hr
    rw [List.append_assoc]
    refine h.loop _ hm hl _ (stops_cons (fun c hc => by cases hc; omega)) r ?_
    exact ev_loop_op rfl (h'.lv _ hm' rest hs) hr
  refine claim_of ?_ (h.begins.append.mono hm) ?_ (fun _ => main) ?_ ?_
  · have := BOp.lvl_ne o; omega
  · intro rest hs
    exact main rest (hs.mono (by omega)) _ (ev_loop_stop hs)
  · intro h; have := BOp.lvl_ne o; omega
  · intro rest _; exact key_append h rfl (by simp) rest

theorem claim_cmpOp {t u : List Tok} {x y : Ast} {m m' : Nat} {o : BOp} (h : Claim t x m) (h' : Claim u y m')
    (ho : o.lvl = 4) (hm : 5 ≤ m) (hm' : 5 ≤ m') :
    Claim (t ++ .bop o :: u) (.node (.cmp [o]) [x, y]) 4 := by
  refine claim_of (by omega) (h.begins.append.mono (by omega)) ?_ (fun h => by unfold IsLoop at h; omega) (by omega) ?_
  · intro rest hs
    rw [List.append_assoc]
    refine ev_lv4 (h.lv 5 hm _ (stops_cons (fun c hc => by cases hc; omega))) ?_
    exact ev_chain_op ho (h'.lv 5 hm' rest (hs.mono (by omega))) (ev_chain_stop hs)
  · intro rest _; exact key_append h rfl (by simp) rest

theorem claim_pow {t u : List Tok} {x y : Ast} {m m' : Nat} (h : Claim t x m) (h' : Claim u y m')
    (hm : 13 ≤ m) (hm' : 11 ≤ m') : Claim (t ++ .pow :: u) (.node .pow [x, y]) 12 := by
  refine claim_of (by omega) (h.begins.append.mono (by omega)) ?_ (fun h => by unfold IsLoop at h; omega) (by omega) ?_
  · intro rest hs
    rw [List.append_assoc]
    exact ev_pow (h.lv 13 hm _ (stops_cons (fun c hc => by cases hc; omega))) (h'.lv 11 hm' rest (stops_12_11 hs))
  · intro rest _; exact key_append h rfl (by simp) rest

theorem claim_ite {t u v : List Tok} {x c y : Ast} {m m' m'' : Nat} (h : Claim t x m) (h' : Claim u c m')
    (h'' : Claim v y m'') (hm : 1 ≤ m) (hm' : 1 ≤ m') :
    Claim (t ++ .if_ :: u ++ .else_ :: v) (.node .ite [c, x, y]) 0 := by
  refine claim_of (by omega) (h.begins.append.append.mono (by omega)) ?_ (fun h => by unfold IsLoop at h; omega) (by omega) ?_
  · intro rest hs
    have e : t ++ .if_ :: u ++ .else_ :: v ++ rest = t ++ .if_ :: (u ++ .else_ :: (v ++ rest)) := by simp
    rw [e]
    exact ev_ite (fun r => h.begins.not (fun l h => by cases h; omega))
      (h.lv 1 hm _ (stops_cons (fun c hc => by cases hc; omega)))
      (h'.lv 1 hm' _ (stops_cons (fun c hc => by cases hc)))
      (h''.lv 0 (Nat.zero_le _) rest hs)
  · intro rest _ s r
    have e : t ++ .if_ :: u ++ .else_ :: v = t ++ .if_ :: (u ++ .else_ :: v) := by simp
    rw [e]
    exact key_append h rfl (by simp) rest s r

theorem params_prParams (ps : List String) (r : List Tok) : params (prParams ps ++ .colon :: r) = some (ps, r) := by
  fun_induction prParams ps with
  | case1 => rfl
  | case2 => rfl
  | case3 s ss h ih => simp only [List.cons_append, params, ih, Option.map]

theorem claim_lam {t : List Tok} {x : Ast} {m : Nat} (ps : List String) (h : Claim t x m) :
    Claim (.lambda :: prParams ps ++ .colon :: t) (.node (.lam ps) [x]) 0 := by
  refine claim_of (by omega) ⟨_, _, 0, rfl, rfl, Nat.le_refl _⟩ ?_ (fun h => by unfold IsLoop at h; omega) (by omega) ?_
  · intro rest hs
    have e : .lambda :: prParams ps ++ .colon :: t ++ rest = .lambda :: (prParams ps ++ .colon :: (t ++ rest)) := by simp
    rw [e]
    refine Ev.one (h.lv 0 (Nat.zero_le _) rest hs) fun p e => ?_
    simp only [step, params_prParams, Option.bind]
    rw [e]
  · intro rest _ s r h; simp at h

/-! ### Lists of expressions -/

/-- Every document of the list is read back. -/
def Claims (ds : List Doc) : Prop := ∀ d ∈ ds, Claim (pr d) (ast d) (lev d)

theorem asts_length (ds : List Doc) : (asts ds).length = ds.length := by
  induction ds with
  | nil => rfl
  | cons d ds ih => simp [asts, ih]

/-- A token that neither begins nor continues an expression. -/
def Closes (c : Tok) : Prop := pfx c = none ∧ cont c = none ∧ c ≠ .comma

theorem begins_head {t u : List Tok} {x : Ast} {m : Nat} (h : Claim t x m) {c : Tok} (hc : pfx c = none) :
    (t ++ u).head? ≠ some c := by
  obtain ⟨k, r, l, rfl, h1, h2⟩ := h.begins
  intro he
  simp at he
  rw [he, hc] at h1
  cases h1

theorem stops_close {c : Tok} (hc : cont c = none) (l : Nat) (r : List Tok) : stops l (c :: r) :=
  stops_cons fun d hd => by rw [hc] at hd; cases hd

theorem ev_seq {c : Tok} (hc : Closes c) (lab : Lab) (rest : List Tok) (ds : List Doc) : Claims ds → ∀ acc,
    Ev (.seq c lab acc) (prs ds ++ c :: rest) (.node lab (acc ++ asts ds), rest) := by
  induction ds with
  | nil =>
    intro _ acc
    refine ⟨1, ?_⟩
    show step _ _ _ = _
    simp [step, prs, asts]
  | cons d ds ih =>
    intro hcl acc
    have hd := hcl d (by simp)
    have ih := ih (fun d' h => hcl d' (by simp [h])) (acc ++ [ast d])
    cases ds with
    | nil =>
      have h0 := hd.lv 0 (Nat.zero_le _) (c :: rest) (stops_close hc.2.1 _ _)
      refine Ev.one h0 fun p e => ?_
      simp only [step, prs, List.isEmpty_nil, if_true, List.append_nil, asts]
      rw [if_neg (begins_head hd hc.1), e]
      dsimp only [Option.bind]
      split
      · rename_i h; cases h; exact absurd rfl hc.2.2
      · simp
    | cons d2 ds =>
      have e : prs (d :: d2 :: ds) ++ c :: rest = pr d ++ .comma :: (prs (d2 :: ds) ++ c :: rest) := by
        rw [prs]; simp
      rw [e]
      have h0 := hd.lv 0 (Nat.zero_le _) (.comma :: (prs (d2 :: ds) ++ c :: rest)) (stops_close rfl _ _)
      refine Ev.two h0 ih fun p e e2 => ?_
      simp only [step]
      rw [if_neg (begins_head hd hc.1), e]
      dsimp only [Option.bind]
      rw [e2]
      simp [asts]

theorem claim_list {es : List Doc} (h : Claims es) : Claim (.lb :: prs es ++ [.rb]) (.node .list (asts es)) 13 := by
  refine claim_primary ⟨_, _, 13, rfl, rfl, Nat.le_refl _⟩ ?_ (fun rest _ s r h => by simp at h)
  intro rest _ r hr
  have e : .lb :: prs es ++ [.rb] ++ rest = .lb :: (prs es ++ .rb :: rest) := by simp
  rw [e]
  refine Ev.two (ev_seq (c := .rb) ⟨rfl, rfl, by simp⟩ .list rest es h []) hr fun p e e2 => ?_
  simp only [step]
  rw [e]
  exact e2

theorem claim_set {es : List Doc} (hne : es ≠ []) (h : Claims es) :
    Claim (.lc :: prs es ++ [.rc]) (.node .set (asts es)) 13 := by
  refine claim_primary ⟨_, _, 13, rfl, rfl, Nat.le_refl _⟩ ?_ (fun rest _ s r h => by simp at h)
  intro rest _ r hr
  have e : .lc :: prs es ++ [.rc] ++ rest = .lc :: (prs es ++ .rc :: rest) := by simp
  rw [e]
  refine Ev.two (ev_seq (c := .rc) ⟨rfl, rfl, by simp⟩ .set rest es h []) hr fun p e e2 => ?_
  have hs : step p (.lv 13) (.lc :: (prs es ++ .rc :: rest)) =
      (p (.seq .rc .set []) (prs es ++ .rc :: rest)).bind fun y => p (.trail y.1) y.2 := by
    cases es with
    | nil => exact absurd rfl hne
    | cons d ds =>
      have hh : (prs (d :: ds) ++ .rc :: rest).head? ≠ some .rc := by
        rw [prs, List.append_assoc]
        exact begins_head (h d (by simp)) rfl
      cases hts : prs (d :: ds) ++ .rc :: rest with
      | nil => rfl
      | cons k t => rw [hts] at hh; cases k <;> first | rfl | exact absurd rfl hh
  rw [hs, e]
  exact e2

theorem step_lp {p : Goal → List Tok → R} {ts : List Tok} (hne : ts.head? ≠ some .rp) :
    step p (.lv 13) (.lp :: ts) = (p (.lv 0) ts).bind fun x =>
      match x.2 with
      | .rp :: r => p (.trail x.1) r
      | .comma :: r => (p (.seq .rp .tuple [x.1]) r).bind fun y => p (.trail y.1) y.2
      | _ => none := by
  cases ts with
  | nil => rfl
  | cons k t' => cases k <;> first | rfl | exact absurd rfl hne

theorem claim_tuple {es : List Doc} (h : Claims es) :
    Claim (.lp :: (if es.length = 1 then prs es ++ [.comma] else prs es) ++ [.rp]) (.node .tuple (asts es)) 13 := by
  refine claim_primary ⟨_, _, 13, rfl, rfl, Nat.le_refl _⟩ ?_ (fun rest _ s r h => by simp at h)
  intro rest _ r hr
  match es, h with
  | [], _ => exact Ev.one hr fun p e => e
  | d :: ds, h =>
    have hd := h d (by simp)
    have e : .lp :: (if (d :: ds).length = 1 then prs (d :: ds) ++ [.comma] else prs (d :: ds)) ++ [.rp] ++ rest =
        .lp :: (pr d ++ .comma :: (prs ds ++ .rp :: rest)) := by
      cases ds with
      | nil => simp [prs]
      | cons d2 ds => rw [if_neg (by simp), prs]; simp
    rw [e]
    refine Ev.three (hd.lv 0 (Nat.zero_le _) (.comma :: (prs ds ++ .rp :: rest)) (stops_close rfl _ _))
      (ev_seq (c := .rp) ⟨rfl, rfl, by simp⟩ .tuple rest ds (fun d' h' => h d' (by simp [h'])) [ast d]) hr fun p e e2 e3 => ?_
    rw [step_lp (begins_head hd rfl), e]
    dsimp only [Option.bind]
    rw [e2]
    exact e3

/-! ### Trailers -/

theorem claim_attr {t : List Tok} {x : Ast} (n : String) (h : Claim t x 13) (ht : ∀ s, t ≠ [.num true s]) :
    Claim (t ++ [.dot, .id n]) (.node (.attr n) [x]) 13 := by
  refine claim_primary h.begins.append ?_ (fun rest _ => key_append h rfl (by simp) rest)
  intro rest _ r hr
  rw [List.append_assoc]
  refine h.trail rfl _ (fun s _ hs => absurd hs (ht s)) r ?_
  exact Ev.one hr fun p e => e

theorem ev_index {x : Ast} {rest : List Tok} {is : List Doc} (h : Claims is) {r : Ast × List Tok}
    (hr : Ev (.trail (indexAst x (asts is))) rest r) :
    Ev (.trail x) (.lb :: ((if is.isEmpty then [.lp, .rp] else prs is) ++ .rb :: rest)) r := by
  match is, h with
  | [], _ =>
    have h0 : Ev (.lv 0) (.lp :: .rp :: .rb :: rest) (.node .tuple [], .rb :: rest) := by
      have := (claim_tuple (es := []) (fun d hd => by cases hd)).lv 0 (by omega) (.rb :: rest) (stops_close rfl _ _)
      simpa [prs, asts] using this
    refine Ev.two h0 hr fun p e e2 => ?_
    simp only [List.isEmpty_nil, if_true, step, List.cons_append, List.nil_append]
    rw [e]
    exact e2
  | [d], h =>
    have h0 := (h d (by simp)).lv 0 (Nat.zero_le _) (.rb :: rest) (stops_close rfl _ _)
    refine Ev.two h0 hr fun p e e2 => ?_
    simp only [prs, List.isEmpty_cons, List.isEmpty_nil, if_true, step, List.append_nil, Bool.false_eq_true, if_false]
    rw [e]
    exact e2
  | d :: d2 :: ds, h =>
    have e : (if (d :: d2 :: ds).isEmpty then [.lp, .rp] else prs (d :: d2 :: ds)) ++ .rb :: rest =
        pr d ++ .comma :: (prs (d2 :: ds) ++ .rb :: rest) := by
      rw [if_neg (by simp), prs]; simp
    rw [e]
    refine Ev.three ((h d (by simp)).lv 0 (Nat.zero_le _) (.comma :: (prs (d2 :: ds) ++ .rb :: rest)) (stops_close rfl _ _))
      (ev_seq (c := .rb) ⟨rfl, rfl, by simp⟩ .tuple rest (d2 :: ds) (fun d' h' => h d' (List.mem_cons_of_mem _ h')) [ast d]) hr
      fun p e e2 e3 => ?_
    simp only [step]
    rw [e]
    dsimp only [Option.bind]
    rw [e2]
    exact e3

theorem claim_index {t : List Tok} {x : Ast} {is : List Doc} (h : Claim t x 13) (his : Claims is) :
    Claim (t ++ .lb :: (if is.isEmpty then [.lp, .rp] else prs is) ++ [.rb]) (indexAst x (asts is)) 13 := by
  have e1 : t ++ .lb :: (if is.isEmpty then [.lp, .rp] else prs is) ++ [.rb] =
    t ++ .lb :: ((if is.isEmpty then [.lp, .rp] else prs is) ++ [.rb]) := by simp
  rw [e1]
  refine claim_primary h.begins.append ?_ (fun rest _ => key_append h rfl (by simp) rest)
  intro rest _ r hr
  rw [List.append_assoc]
  refine h.trail rfl _ (fun s _ _ => by simp) r ?_
  have := ev_index his hr
  simpa using this

theorem ev_keys {f : Ast} {pos : List Ast} {rest : List Tok} {r : Ast × List Tok} (keys : List String) :
    ∀ (vals : List Doc) (ks : List String) (vs : List Ast), Claims vals → keys.length = vals.length →
    Ev (.trail (.node (.call pos.length (ks ++ keys)) (f :: pos ++ (vs ++ asts vals)))) rest r →
    Ev (.args f pos ks vs) (prk keys vals ++ .rp :: rest) r := by
  induction keys with
  | nil =>
    intro vals ks vs _ hl hr
    cases vals with
    | cons _ _ => simp at hl
    | nil => exact Ev.one hr fun p e => by simpa [step, prk, asts] using e
  | cons k keys ih =>
    intro vals ks vs hv hl hr
    cases vals with
    | nil => simp at hl
    | cons d ds =>
      have hd := hv d (by simp)
      have hl' : keys.length = ds.length := by simpa using hl
      cases keys with
      | nil =>
        have : ds = [] := by cases ds with
          | nil => rfl
          | cons _ _ => simp at hl'
        subst this
        have h0 := hd.lv 0 (Nat.zero_le _) (.rp :: rest) (stops_close rfl _ _)
        refine Ev.two h0 hr fun p e e2 => ?_
        simp only [prk, List.isEmpty_nil, if_true, List.append_nil, List.cons_append, step]
        rw [e]
        exact e2
      | cons k2 keys =>
        have e : prk (k :: k2 :: keys) (d :: ds) ++ .rp :: rest =
            .id k :: .assign :: (pr d ++ .comma :: (prk (k2 :: keys) ds ++ .rp :: rest)) := by
          rw [prk]; simp
        rw [e]
        have h0 := hd.lv 0 (Nat.zero_le _) (.comma :: (prk (k2 :: keys) ds ++ .rp :: rest)) (stops_close rfl _ _)
        have h1 := ih ds (ks ++ [k]) (vs ++ [ast d]) (fun d' h' => hv d' (List.mem_cons_of_mem _ h')) hl'
          (by simpa [asts] using hr)
        refine Ev.two h0 h1 fun p e e2 => ?_
        simp only [step]
        rw [e]
        exact e2

theorem step_pos {p : Goal → List Tok → R} {f : Ast} {pos : List Ast} {ts : List Tok} (h1 : ts.head? ≠ some .rp)
    (h2 : ∀ k r, ts ≠ .id k :: .assign :: r) : step p (.args f pos [] []) ts = (p (.lv 0) ts).bind fun x =>
      match x.2 with
      | .comma :: r => p (.args f (pos ++ [x.1]) [] []) r
      | .rp :: r => p (.trail (.node (.call (pos.length + 1) []) (f :: (pos ++ [x.1]) ++ []))) r
      | _ => none := by
  cases ts with
  | nil => rfl
  | cons k t =>
    cases k <;> first | rfl | exact absurd rfl h1 | skip
    cases t with
    | nil => rfl
    | cons k2 t =>
      cases k2 <;> first | rfl | exact absurd rfl (h2 _ _)

/-- The text of the arguments. -/
def prArgs (args : List Doc) (keys : List String) (vals : List Doc) : List Tok :=
  prs args ++ (if args.isEmpty ∨ keys.isEmpty then [] else [.comma]) ++ prk keys vals

theorem ev_args {f : Ast} {rest : List Tok} {r : Ast × List Tok} {keys : List String} {vals : List Doc}
    (hv : Claims vals) (hl : keys.length = vals.length) (args : List Doc) :
    ∀ pos : List Ast, Claims args →
    Ev (.trail (.node (.call (pos.length + args.length) keys) (f :: pos ++ asts args ++ asts vals))) rest r →
    Ev (.args f pos [] []) (prArgs args keys vals ++ .rp :: rest) r := by
  induction args with
  | nil =>
    intro pos _ hr
    have := ev_keys (f := f) (pos := pos) (rest := rest) (r := r) keys vals [] [] hv hl (by simpa [asts] using hr)
    simpa [prArgs, prs] using this
  | cons d ds ih =>
    intro pos ha hr
    have hd := ha d (by simp)
    have ih := ih (pos ++ [ast d]) (fun d' h' => ha d' (List.mem_cons_of_mem _ h')) (by
      have : (pos ++ [ast d]).length + ds.length = pos.length + (d :: ds).length := by simp; omega
      rw [this]
      simpa [asts] using hr)
    by_cases hlast : ds = [] ∧ keys = []
    · obtain ⟨rfl, rfl⟩ := hlast
      have : vals = [] := by cases vals with
        | nil => rfl
        | cons _ _ => simp at hl
      subst this
      have h0 := hd.lv 0 (Nat.zero_le _) (.rp :: rest) (stops_close rfl _ _)
      refine Ev.two h0 hr fun p e e2 => ?_
      have et : prArgs [d] [] [] ++ .rp :: rest = pr d ++ .rp :: rest := by simp [prArgs, prs, prk]
      rw [et, step_pos (begins_head hd rfl) (hd.key _ (by simp)), e]
      dsimp only [Option.bind]
      rw [← e2]
      simp [asts]
    · have et : prArgs (d :: ds) keys vals ++ .rp :: rest = pr d ++ .comma :: (prArgs ds keys vals ++ .rp :: rest) := by
        unfold prArgs
        rw [prs]
        cases ds with
        | nil =>
          have hk : keys ≠ [] := fun h => hlast ⟨rfl, h⟩
          cases keys with
          | nil => exact absurd rfl hk
          | cons k ks => simp [prs]
        | cons d2 ds => simp
      rw [et]
      have h0 := hd.lv 0 (Nat.zero_le _) (.comma :: (prArgs ds keys vals ++ .rp :: rest)) (stops_close rfl _ _)
      refine Ev.two h0 ih fun p e e2 => ?_
      rw [step_pos (begins_head hd rfl) (hd.key _ (by simp)), e]
      exact e2

theorem claim_call {t : List Tok} {x : Ast} {args vals : List Doc} {keys : List String} (h : Claim t x 13)
    (ha : Claims args) (hv : Claims vals) (hl : keys.length = vals.length) :
    Claim (t ++ .lp :: prArgs args keys vals ++ [.rp]) (.node (.call args.length keys) (x :: asts args ++ asts vals)) 13 := by
  have e1 : t ++ .lp :: prArgs args keys vals ++ [.rp] = t ++ .lp :: (prArgs args keys vals ++ [.rp]) := by simp
  rw [e1]
  refine claim_primary h.begins.append ?_ (fun rest _ => key_append h rfl (by simp) rest)
  intro rest _ r hr
  rw [List.append_assoc]
  refine h.trail rfl _ (fun s _ _ => by simp) r ?_
  have h1 := ev_args (f := x) (rest := rest) (r := r) hv hl args [] ha (by simpa using hr)
  refine Ev.one h1 fun p e => ?_
  simpa [step] using e

/-! ### The induction -/

theorem ne_num {t : List Tok} {k : Tok} (hk : k ∈ t) (h : ∀ s, k ≠ .num true s) (s : String) : t ≠ [.num true s] := by
  rintro rfl
  exact h s (List.mem_singleton.1 hk)

theorem pr_ne_num {d : Doc} (hi : d.isInt = false) (hn : d.isNeg = false) (s : String) : pr d ≠ [.num true s] := by
  match d, hi, hn with
  | .num n i t, hi, hn =>
    simp only [Doc.isInt, Doc.isNeg] at hi hn
    simp [pr, hi, hn]
  | .const t, _, _ => simp [pr]
  | .id t, _, _ => simp [pr]
  | .attr v n, _, _ => exact ne_num (k := .dot) (by rw [pr]; simp) (by simp) s
  | .index v is, _, _ => exact ne_num (k := .lb) (by rw [pr]; simp) (by simp) s
  | .call f a k v, _, _ => exact ne_num (k := .lp) (by rw [pr]; simp) (by simp) s
  | .lam ps b, _, _ => exact ne_num (k := .lambda) (by rw [pr]; simp) (by simp) s
  | .disp .list es, _, _ => exact ne_num (k := .lb) (by rw [pr]; simp) (by simp) s
  | .disp .set es, _, _ => exact ne_num (k := .lc) (by rw [pr]; simp) (by simp) s
  | .disp .tuple es, _, _ => exact ne_num (k := .lp) (by rw [pr]; simp) (by simp) s
  | .un o a, _, _ => exact ne_num (k := o.tok) (by rw [pr]; simp) (by cases o <;> simp [UOp.tok]) s
  | .pow a b, _, _ => exact ne_num (k := .pow) (by rw [pr]; simp) (by simp) s
  | .bin o a b, _, _ => exact ne_num (k := .bop o) (by rw [pr]; simp) (by simp) s
  | .ite c x y, _, _ => exact ne_num (k := .if_) (by rw [pr]; simp) (by simp) s

theorem claim_operand16 {d : Doc} (h : Claim (pr d) (ast d) (lev d)) (hn : d.isNeg = false) :
    Claim (child 16 false d.prec (pr d)) (ast d) 13 := by
  unfold child
  split
  · exact claim_paren h
  · rename_i hp
    have : d.prec = 16 := by have := (Doc.prec_le d).1; simp at hp; omega
    simpa [lev, hn, this, plev] using h

mutual
theorem claim_pr : (d : Doc) → Good d → Claim (pr d) (ast d) (lev d)
  | .num false i s, _ => claim_num i s
  | .num true i s, _ => claim_unary .neg (claim_num i s) (by decide)
  | .const s, _ => claim_const s
  | .id s, _ => claim_id s
  | .attr v n, h => by
    simp only [Good] at h
    rw [pr, ast]
    refine claim_attr n (claim_operand16 (claim_pr v h.1) h.2.1) (fun s hs => ?_)
    unfold child at hs
    split at hs
    · simp at hs
    · exact pr_ne_num h.2.2 h.2.1 s hs
  | .index v is, h => by
    simp only [Good] at h
    rw [pr, ast]
    exact claim_index (claim_operand16 (claim_pr v h.1) h.2.1) (claim_prs is h.2.2)
  | .call f args keys vals, h => by
    simp only [Good] at h
    rw [pr, ast]
    exact claim_call (claim_operand16 (claim_pr f h.1) h.2.1) (claim_prs args h.2.2.1) (claim_prs vals h.2.2.2.1) h.2.2.2.2
  | .lam ps b, h => by
    simp only [Good] at h
    rw [pr, ast]
    obtain ⟨m, _, _, hc⟩ := claim_child (p := 1) (prec := b.prec) (c := false) (k := 0) (claim_pr b h) (fun _ => Nat.zero_le _)
      (by omega)
    exact claim_lam ps hc
  | .disp .list es, h => by
    simp only [Good] at h
    rw [pr, ast]
    exact claim_list (claim_prs es h.1)
  | .disp .set es, h => by
    simp only [Good] at h
    rw [pr, ast]
    exact claim_set (h.2 trivial) (claim_prs es h.1)
  | .disp .tuple es, h => by
    simp only [Good] at h
    rw [pr, ast]
    exact claim_tuple (claim_prs es h.1)
  | .un o a, h => by
    simp only [Good] at h
    rw [pr, ast]
    obtain ⟨m, h1, _, hc⟩ := claim_child (p := o.prec) (prec := a.prec) (c := false) (k := plev o.prec) (claim_pr a h)
      (fun hp => le_lev (by cases o <;> decide) (by simp at hp; exact hp)) (by cases o <;> decide)
    exact claim_unary o hc h1
  | .pow a b, h => by
    simp only [Good] at h
    rw [pr, ast]
    obtain ⟨m, h1, _, hc⟩ := claim_child (p := 15) (prec := a.prec) (c := true) (k := 13) (claim_pr a h.1)
      (fun hp => by
        have : a.prec = 16 := by have := (Doc.prec_le a).1; simp at hp; omega
        simp [lev, h.2.2, this, plev]) (by omega)
    obtain ⟨m', h1', _, hc'⟩ := claim_child (p := 14) (prec := b.prec) (c := false) (k := 11) (claim_pr b h.2.1)
      (fun hp => le_lev (p := 14) (by omega) (by simp at hp; exact hp)) (by omega)
    exact claim_pow hc hc' h1 h1'
  | .bin o a b, h => by
    simp only [Good] at h
    rw [pr, ast, binAst]
    have hlev : lev (.bin o a b) = o.lvl := by cases o <;> rfl
    rw [hlev]
    by_cases ho : o.lvl = 4
    · have hp67 : o.prec = 6 ∨ o.prec = 7 := by cases o <;> revert ho <;> decide
      obtain ⟨m, h1, _, hc⟩ := claim_child (p := o.prec) (prec := a.prec) (c := false) (k := 5) (claim_pr a h.1)
        (fun hp => le_lev (p := 8) (by omega) (by
          simp at hp
          rcases hp67 with h6 | h7
          · have := h.2.2.2 h6; omega
          · have := h.2.2.1 h7; omega)) (by omega)
      obtain ⟨m', h1', _, hc'⟩ := claim_child (p := o.prec) (prec := b.prec) (c := true) (k := 5) (claim_pr b h.2.1)
        (fun hp => le_lev (p := 8) (by omega) (by
          simp at hp
          rcases hp67 with h6 | h7
          · have := h.2.2.2 h6; omega
          · omega)) (by omega)
      rw [if_pos ho, ho]
      exact claim_cmpOp hc hc' ho h1 h1'
    · have hlo : IsLoop o.lvl := by unfold IsLoop; cases o <;> revert ho <;> decide
      have hpl : plev o.prec = o.lvl ∧ plev (o.prec + 1) = o.lvl + 1 ∧ o.prec + 1 ≤ 14 := by
        cases o <;> revert ho <;> decide
      obtain ⟨m, h1, _, hc⟩ := claim_child (p := o.prec) (prec := a.prec) (c := false) (k := o.lvl) (claim_pr a h.1)
        (fun hp => by
          rw [← hpl.1]
          exact le_lev (by omega) (by simp at hp; exact hp)) (by have := BOp.lvl_ne o; omega)
      obtain ⟨m', h1', _, hc'⟩ := claim_child (p := o.prec) (prec := b.prec) (c := true) (k := o.lvl + 1) (claim_pr b h.2.1)
        (fun hp => by
          rw [← hpl.2.1]
          exact le_lev (by omega) (by simp at hp; omega)) (by have := BOp.lvl_ne o; omega)
      rw [if_neg ho]
      exact claim_loopOp hc hc' hlo h1 h1'
  | .ite c x y, h => by
    simp only [Good] at h
    rw [pr, ast]
    obtain ⟨m, h1, _, hx⟩ := claim_child (p := 2) (prec := x.prec) (c := false) (k := 1) (claim_pr x h.2.1)
      (fun hp => le_lev (p := 3) (by omega) (by have := h.2.2.2; simp at hp; omega)) (by omega)
    obtain ⟨m', h1', _, hc⟩ := claim_child (p := 2) (prec := c.prec) (c := true) (k := 1) (claim_pr c h.1)
      (fun hp => le_lev (p := 3) (by omega) (by simp at hp; omega)) (by omega)
    obtain ⟨m'', _, _, hy⟩ := claim_child (p := 2) (prec := y.prec) (c := true) (k := 1) (claim_pr y h.2.2.1)
      (fun hp => le_lev (p := 3) (by omega) (by simp at hp; omega)) (by omega)
    exact claim_ite hx hc hy h1 h1'
theorem claim_prs : (ds : List Doc) → Goods ds → Claims ds
  | [], _ => fun d hd => by cases hd
  | d :: ds, h => by
    simp only [Goods] at h
    intro d' hd'
    rcases List.mem_cons.1 hd' with hm | hm
    · rw [hm]; exact claim_pr d h.1
    · exact claim_prs ds h.2 d' hm
end

/-- **C128.**  Python reads the printed text of an expression as that expression. -/
theorem reads_partial (d : Doc) (h : Good d) : Reads (pr d) (ast d) := by
  have := (claim_pr d h).lv 0 (Nat.zero_le _) [] (stops_nil 0)
  rw [List.append_nil] at this
  exact this

/-- And as nothing else. -/
theorem reads_only_partial (d : Doc) (h : Good d) (a : Ast) : Reads (pr d) a ↔ a = ast d := by
  constructor
  · intro ha
    exact (Prod.mk.inj (Ev.det (g := .lv 0) ha (reads_partial d h))).1
  · rintro rfl; exact reads_partial d h

/-- Expressions that print alike are alike. -/
theorem print_injective_partial (d e : Doc) (hd : Good d) (he : Good e) (h : pr d = pr e) : ast d = ast e :=
  (reads_only_partial e he (ast d)).1 (h ▸ reads_partial d hd)

end Verif.DocPrint
