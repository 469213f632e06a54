import Verif.NormalizeCheck

/-! `unicodedata.normalize` on the database of the repository. -/

namespace Verif.Normalize

/-! ## The database satisfies the assumptions -/

theorem dec_none {c : Nat} (h : decT.get c = none) : ucd.dec c = (false, []) := by
  change (match decT.get c with | none => (false, []) | some v => _) = _
  rw [h]

theorem dec_cases (c : Nat) : ucd.dec c = (false, []) ∨ chkDec c = true := by
  cases h : decT.get c with
  | none => exact .inl (dec_none h)
  | some v => exact .inr (Tree.get_all h chkDec_all)

theorem leaf_none {c : Nat} {k : Bool} (h : ucd.dec c = (false, [])) : leaf ucd k c = true := by
  rw [leaf, h]; rfl

theorem full_none {c : Nat} {k : Bool} (h : ucd.dec c = (false, [])) (hs : isS c = false) :
    full ucd k c = [c] := full_self hs (leaf_none h)

theorem class_cases (c : Nat) : (ucd.ccc c = 0 ∧ ucd.qc c = 0) ∨ ∃ lo hi v, lo ≤ c ∧ c ≤ hi ∧
    chkRange lo hi v = true ∧ ucd.ccc c = v % 256 ∧ ucd.qc c = v / 256 := by
  have e1 : ucd.ccc c = (match classT.get c with | none => 0 | some v => v % 256) := rfl
  have e2 : ucd.qc c = (match classT.get c with | none => 0 | some v => v / 256) := rfl
  cases h : classT.get c with
  | none => rw [h] at e1 e2; exact .inl ⟨e1, e2⟩
  | some v =>
    rw [h] at e1 e2
    obtain ⟨lo, hi, h1, h2, h3⟩ := RTree.get_all h chkRange_all
    exact .inr ⟨lo, hi, v, h1, h2, h3, e1, e2⟩

theorem ccc_syll {c : Nat} (hs : isS c = true) : ucd.ccc c = 0 := by
  rw [isS_iff] at hs
  rcases class_cases c with h | ⟨lo, hi, v, h1, h2, h3, h4, -⟩
  · exact h.1
  · rw [chkRange, Bool.and_eq_true, Bool.and_eq_true, Bool.or_eq_true, Bool.or_eq_true] at h3
    rcases h3.1.1 with (h | h) | h
    · rw [Nat.blt_eq] at h; omega
    · rw [Nat.blt_eq] at h; omega
    · rw [h4]; exact Nat.eq_of_beq_eq_true h

theorem ccc_jamo {c : Nat} (hc : 0x1100 ≤ c) (hc' : c < 0x1200) : ucd.ccc c = 0 := by
  rcases class_cases c with h | ⟨lo, hi, v, h1, h2, h3, h4, -⟩
  · exact h.1
  · rw [chkRange, Bool.and_eq_true, Bool.and_eq_true] at h3
    have h3 := h3.1.2
    rw [Bool.or_eq_true, Bool.or_eq_true] at h3
    rcases h3 with (h | h) | h
    · rw [Nat.blt_eq] at h; omega
    · rw [Nat.ble_eq] at h; omega
    · rw [h4]; exact Nat.eq_of_beq_eq_true h

theorem qc_syll {c : Nat} (hs : isS c = true) : ucd.qc c = 10 := by
  rw [isS_iff] at hs
  have e2 : ucd.qc c = (match classT.get c with | none => 0 | some v => v / 256) := rfl
  rw [RTree.get_cover cover_all hs.1 hs.2] at e2
  exact e2

theorem bits_syll {c : Nat} (hs : isS c = true) (k : Bool) :
    bits ucd true k c = 0 ∧ bits ucd false k c = 2 := by
  rw [bits, bits, qc_syll hs]
  cases k <;> decide

theorem first_mem {c f : Nat} (h : ucd.first c = some f) : ∃ e ∈ nfcFirst, chkFirst e = true ∧
    ∃ d, d < e.2.1 + 1 ∧ c = e.1 + d ∧ f = e.2.2 + d := by
  obtain ⟨e, h1, d, h2, h3, h4⟩ := find_mem h
  exact ⟨e, h1, List.all_eq_true.1 chkFirst_all e h1, d, by omega, h3, h4⟩

theorem last_mem {c f : Nat} (h : ucd.last c = some f) : ∃ e ∈ nfcLast, chkLast e = true ∧
    ∃ d, d < e.2.1 + 1 ∧ c = e.1 + d ∧ f = e.2.2 + d := by
  obtain ⟨e, h1, d, h2, h3, h4⟩ := find_mem h
  exact ⟨e, h1, List.all_eq_true.1 chkLast_all e h1, d, by omega, h3, h4⟩

theorem first_out {c : Nat} (h : (0x1100 ≤ c ∧ c < 0x1200) ∨ (0xAC00 ≤ c ∧ c ≤ 0xD7A3)) :
    ucd.first c = none ∧ ucd.last c = none := by
  constructor
  · cases hf : ucd.first c with
    | none => rfl
    | some f =>
      obtain ⟨e, -, hc, d, hd, h3, -⟩ := first_mem hf
      rw [chkFirst, Bool.and_eq_true, Bool.and_eq_true, Bool.or_eq_true, Bool.or_eq_true, Nat.blt_eq,
        Nat.blt_eq, Nat.blt_eq, Nat.ble_eq] at hc
      omega
  · cases hf : ucd.last c with
    | none => rfl
    | some f =>
      obtain ⟨e, -, hc, d, hd, h3, -⟩ := last_mem hf
      rw [chkLast, Bool.and_eq_true, Bool.and_eq_true, Bool.or_eq_true, Bool.or_eq_true, Nat.blt_eq,
        Nat.blt_eq, Nat.blt_eq, Nat.ble_eq] at hc
      omega

theorem pair_ok {a b f l : Nat} (h1 : ucd.first a = some f) (h2 : ucd.last b = some l)
    (hp : ucd.pair f l ≠ 0) : ucd.dec (ucd.pair f l) = (false, [a, b]) ∧ ucd.ccc (ucd.pair f l) = 0 ∧
      isS (ucd.pair f l) = false ∧ ∀ k, bits ucd true k a = 2 ∨ bits ucd true k (ucd.pair f l) ≠ 2 := by
  obtain ⟨e, he, -, d, hd, rfl, rfl⟩ := first_mem h1
  obtain ⟨e', he', -, d', hd', rfl, rfl⟩ := last_mem h2
  have hc := below_lt (List.all_eq_true.1 (below_lt (List.all_eq_true.1 chkPair_all e he) hd) e' he') hd'
  rw [chkPair] at hc
  generalize ucd.pair (e.2.2 + d) (e'.2.2 + d') = p at hc hp
  cases p with
  | zero => exact absurd rfl hp
  | succ p =>
    generalize e.1 + d = a at hc
    generalize e'.1 + d' = b at hc
    replace hc : ((match ucd.dec (p + 1) with
        | (false, [a', b']) => Nat.beq a' a && Nat.beq b' b
        | _ => false) && Nat.beq (ucd.ccc (p + 1)) 0 && !isS (p + 1) &&
      [false, true].all (fun k => Nat.beq (bits ucd true k a) 2 || !Nat.beq (bits ucd true k (p + 1)) 2)) = true := hc
    rw [Bool.and_eq_true, Bool.and_eq_true, Bool.and_eq_true] at hc
    obtain ⟨⟨⟨g1, g2⟩, g3⟩, g4⟩ := hc
    refine ⟨?_, Nat.eq_of_beq_eq_true g2, by simpa using g3, fun k => ?_⟩
    · split at g1
      · rename_i a' b' hdec
        rw [Bool.and_eq_true] at g1
        rw [hdec, Nat.eq_of_beq_eq_true g1.1, Nat.eq_of_beq_eq_true g1.2]
      · cases g1
    · have := List.all_eq_true.1 g4 k (by cases k <;> simp)
      rw [Bool.or_eq_true] at this
      refine this.imp Nat.eq_of_beq_eq_true fun h h' => ?_
      rw [h'] at h
      cases h

theorem chkDec_k {c : Nat} (h : chkDec c = true) (k : Bool) : chkDecK k c = true := by
  rw [chkDec, Bool.and_eq_true, Bool.and_eq_true, Bool.and_eq_true] at h
  cases k
  · exact h.1.2
  · exact h.2

/-- All the laws the proofs assume. -/
theorem ucd_laws : Laws ucd where
  deep k c := by
    rcases dec_cases c with h | h
    · rw [height, leaf_none h]; simp
    · have := chkDec_k h k
      rw [chkDecK, Bool.and_eq_true, Bool.and_eq_true, Bool.and_eq_true] at this
      exact this.1.1.1
  room k c := by
    rcases dec_cases c with h | h
    · rw [need, leaf_none h]; simp
    · have := chkDec_k h k
      rw [chkDecK, Bool.and_eq_true, Bool.and_eq_true, Bool.and_eq_true, Nat.ble_eq] at this
      exact this.1.1.2
  short c := by
    rcases dec_cases c with h | h
    · cases hs : isS c with
      | false => rw [full_none h hs]; simp
      | true => rw [full_syll hs, hangul]; split <;> simp
    · rw [chkDec, Bool.and_eq_true, Bool.and_eq_true, Bool.and_eq_true, Nat.ble_eq] at h
      exact h.1.1.1
  jamo c h1 h2 := by
    refine ⟨?_, ccc_jamo h1 h2, first_out (.inl ⟨h1, h2⟩)⟩
    rcases dec_cases c with h | h
    · rw [h]
    · rw [chkDec, Bool.and_eq_true, Bool.and_eq_true, Bool.and_eq_true, Bool.or_eq_true, Nat.blt_eq,
        Nat.ble_eq, Nat.ble_eq] at h
      have := h.1.1.2
      omega
  syll c h := ⟨ccc_syll h, first_out (.inr ((isS_iff c).1 h))⟩
  start c f h := by
    obtain ⟨e, -, hc, d, hd, rfl, -⟩ := first_mem h
    rw [chkFirst, Bool.and_eq_true, Bool.and_eq_true] at hc
    have := below_lt hc.2 hd
    exact Nat.eq_of_beq_eq_true this
  prim a b f l h1 h2 h3 := by
    obtain ⟨g1, g2, g3, -⟩ := pair_ok h1 h2 h3
    exact ⟨g1, g2, g3⟩

theorem bits_eq (c k : Bool) (x : Nat) :
    bits ucd c k x = Nat.land (Nat.shiftRight (ucd.qc x) ((if c then 4 else 0) + (if k then 2 else 0))) 3 := rfl

/-- What the check of the range says of one form. -/
theorem bits_range (c k : Bool) (x : Nat) : bits ucd c k x = 0 ∨ bits ucd c k x = 1 ∨
    (bits ucd c k x = 2 ∧ (isS x = true ∨ isS x = false ∧ leaf ucd k x = false)) := by
  rcases class_cases x with h | ⟨lo, hi, v, h1, h2, h3, -, h5⟩
  · refine .inl ?_
    rw [bits, h.2, Nat.zero_shiftRight, Nat.zero_and]
  · rw [chkRange, Bool.and_eq_true] at h3
    have hsh := List.all_eq_true.1 h3.2 ((if c then 4 else 0) + (if k then 2 else 0))
      (by cases c <;> cases k <;> simp)
    have hk : (Nat.beq ((if c then 4 else 0) + (if k then 2 else 0)) 2 ||
        Nat.beq ((if c then 4 else 0) + (if k then 2 else 0)) 6) = k := by
      cases c <;> cases k <;> rfl
    rw [← h5, hk] at hsh
    rw [bits_eq]
    generalize Nat.land _ 3 = y at hsh ⊢
    split at hsh
    · exact .inl rfl
    · exact .inr (.inl rfl)
    · refine .inr (.inr ⟨rfl, ?_⟩)
      rw [Bool.or_eq_true] at hsh
      rcases hsh with h | h
      · rw [Bool.and_eq_true] at h
        have e1 := Nat.eq_of_beq_eq_true h.1
        have e2 := Nat.eq_of_beq_eq_true h.2
        exact .inl ((isS_iff x).2 (by omega))
      · have := below_lt h (i := x - lo) (by omega)
        rw [show lo + (x - lo) = x by omega, Bool.and_eq_true] at this
        exact .inr ⟨by simpa using this.1, by simpa using this.2⟩
    · cases hsh

theorem full_not_leaf {k : Bool} {x : Nat} (h : leaf ucd k x = false) : full ucd k x ≠ [x] := by
  intro he
  have := fullD_mem ucd_laws 5 x (ucd_laws.deep k x) x (by
    have : x ∈ full ucd k x := by rw [he]; simp
    exact this)
  rw [h] at this
  cases this.2

theorem ucd_notLast (k : Bool) (x : Nat) (h : bits ucd true k x = 0) : NotLast ucd x := by
  have hj := chkJamo
  rw [Bool.and_eq_true] at hj
  refine ⟨?_, ?_, ?_⟩
  · cases hl : ucd.last x with
    | none => rfl
    | some l =>
      obtain ⟨e, -, hc, d, hd, rfl, -⟩ := last_mem hl
      rw [chkLast, Bool.and_eq_true, Bool.and_eq_true] at hc
      have := below_lt hc.2 hd
      rw [Bool.and_eq_true] at this
      cases k
      · rw [h] at this; cases this.1
      · rw [h] at this; cases this.2
  · cases hv : isV x with
    | false => rfl
    | true =>
      rw [isV_iff] at hv
      have := below_lt hj.1 (i := x - 0x1161) (by omega)
      rw [show 0x1161 + (x - 0x1161) = x by omega, Bool.and_eq_true] at this
      cases k
      · rw [h] at this; cases this.1
      · rw [h] at this; cases this.2
  · cases hv : isT x with
    | false => rfl
    | true =>
      rw [isT_iff] at hv
      have := below_lt hj.2 (i := x - 0x11A8) (by omega)
      rw [show 0x11A8 + (x - 0x11A8) = x by omega, Bool.and_eq_true] at this
      cases k
      · rw [h] at this; cases this.1
      · rw [h] at this; cases this.2

/-- A Hangul syllable is composed of its parts. -/
theorem syll_chain {x : Nat} (h : isS x = true) : ∃ a ds, hangul x = a :: ds ∧
    (0x1100 ≤ a ∧ a < 0x1113) ∧ chain ucd a ds = some x ∧ ∀ d ∈ ds, ucd.ccc d = 0 := by
  have hx := (isS_iff x).1 h
  rw [hangul]
  generalize hl : 0x1100 + (x - 0xAC00) / (21 * 28) = l
  generalize hv : 0x1161 + (x - 0xAC00) % (21 * 28) / 28 = v
  generalize ht : 0x11A7 + (x - 0xAC00) % 28 = t
  have hL : isL l = true := by rw [isL_iff]; omega
  have hV : isV v = true := by rw [isV_iff]; omega
  have hp : primary ucd l v = some (lv l v) := by rw [primary, hL, hV]; rfl
  have hvc := ccc_jamo (isV_jamo hV).1 (isV_jamo hV).2
  have elv : lv l v = 0xAC00 + ((l - 0x1100) * 21 + (v - 0x1161)) * 28 := rfl
  by_cases h0 : t = 0x11A7
  · refine ⟨l, [v], by rw [if_neg (by simpa using h0)]; rfl, (isL_iff l).1 hL, ?_, by simpa using hvc⟩
    rw [chain, hp]
    dsimp only
    rw [chain, show lv l v = x by omega]
  · have hT : isT t = true := by rw [isT_iff]; omega
    refine ⟨l, [v, t], by rw [if_pos h0]; rfl, (isL_iff l).1 hL, ?_, ?_⟩
    · obtain ⟨s1, s2, s3, -⟩ := lv_props hL hV
      have hp2 : primary ucd (lv l v) t = some (lv l v + (t - 0x11A7)) := by
        rw [primary, s3, s1, s2, hT]; rfl
      rw [chain, hp]
      dsimp only
      rw [chain, hp2]
      dsimp only
      rw [chain, show lv l v + (t - 0x11A7) = x by omega]
    · intro d hd
      simp only [List.mem_cons, List.not_mem_nil, or_false] at hd
      rcases hd with rfl | rfl
      · exact hvc
      · exact ccc_jamo (isT_jamo hT).1 (isT_jamo hT).2

theorem ucd_qlaws : QLaws ucd where
  last := ucd_notLast
  mark k x h h0 := by
    have hs : isS x = false := by
      cases hs : isS x with
      | false => rfl
      | true => exact absurd (ccc_syll hs) h0
    rcases dec_cases x with hd | hd
    · exact full_none hd hs
    · have := chkDec_k hd k
      rw [chkDecK, Bool.and_eq_true, Bool.and_eq_true, h] at this
      have := this.1.2
      cases hf : full ucd k x with
      | nil => rw [hf] at this; cases this
      | cons a ds =>
        rw [hf] at this
        dsimp only at this
        cases hc : ucd.ccc x with
        | zero => exact absurd hc h0
        | succ n =>
          rw [hc] at this
          replace this : (Nat.beq a x && ds.isEmpty) = true := this
          rw [Bool.and_eq_true] at this
          rw [Nat.eq_of_beq_eq_true this.1, List.isEmpty_iff.1 this.2]
  starter k x h h0 := by
    cases hs : isS x with
    | true =>
      obtain ⟨a, ds, h1, h2, h3, h4⟩ := syll_chain hs
      have ha := ccc_jamo (c := a) (by omega) (by omega)
      refine ⟨a, ds, by rw [full_syll hs, h1], ha, ⟨(first_out (.inl (by omega))).2, ?_, ?_⟩, h3, ?_⟩
      · cases hv : isV a with
        | false => rfl
        | true => rw [isV_iff] at hv; omega
      · cases hv : isT a with
        | false => rfl
        | true => rw [isT_iff] at hv; omega
      · unfold Canon
        have : ∀ (l : List Nat), (∀ d ∈ l, ucd.ccc d = 0) →
            l.IsChain (fun a b => ucd.ccc b = 0 ∨ ucd.ccc a ≤ ucd.ccc b) := by
          intro l
          induction l with
          | nil => intro _; exact List.isChain_nil
          | cons y l ih =>
            intro h
            refine List.isChain_cons.2 ⟨fun z hz => .inl (h z ?_), ih fun d hd => h d (List.mem_cons_of_mem _ hd)⟩
            exact List.mem_cons_of_mem _ (List.mem_of_head? hz)
        refine this _ fun d hd => ?_
        rcases List.mem_cons.1 hd with rfl | hd
        · exact ha
        · exact h4 d hd
    | false =>
      rcases dec_cases x with hd | hd
      · exact ⟨x, [], full_none hd hs, h0, ucd_notLast k x h, rfl, List.isChain_singleton _⟩
      · have := chkDec_k hd k
        rw [chkDecK, Bool.and_eq_true, Bool.and_eq_true, h] at this
        have := this.1.2
        cases hf : full ucd k x with
        | nil => rw [hf] at this; cases this
        | cons a ds =>
          rw [hf] at this
          dsimp only at this
          rw [h0] at this
          simp only [Bool.and_eq_true, beq_iff_eq, Bool.not_eq_true'] at this
          obtain ⟨⟨⟨⟨⟨g1, g2⟩, g3⟩, g4⟩, g5⟩, g6⟩ := this
          exact ⟨a, ds, rfl, Nat.eq_of_beq_eq_true g1, ⟨g2, g3, g4⟩, g5, canonB_sound _ g6⟩
  dec k x h := by
    cases hs : isS x with
    | true => rw [(bits_syll hs k).2] at h; cases h
    | false =>
      rcases dec_cases x with hd | hd
      · exact full_none hd hs
      · have := chkDec_k hd k
        rw [chkDecK, Bool.and_eq_true, h] at this
        exact full_self hs this.2
  no c k x h := by
    rcases bits_range c k x with h' | h' | ⟨-, h' | h'⟩
    · rw [h'] at h; cases h
    · rw [h'] at h; cases h
    · rw [full_syll h', hangul]
      simp
    · exact full_not_leaf h'.2
  noC k a b p hp ha := by
    rw [primary] at hp
    split at hp
    · rename_i hc
      rw [Bool.and_eq_true] at hc
      have hp := Option.some.inj hp
      subst hp
      rw [(bits_syll (lv_props hc.1 hc.2).1 k).1]
      decide
    · split at hp
      · rename_i hc
        rw [Bool.and_eq_true, Bool.and_eq_true, beq_iff_eq] at hc
        obtain ⟨⟨hS, h28⟩, hT⟩ := hc
        have hp := Option.some.inj hp
        subst hp
        rw [isS_iff] at hS
        rw [isT_iff] at hT
        have hs : isS (a + (b - 0x11A7)) = true := by rw [isS_iff]; omega
        rw [(bits_syll hs k).1]
        decide
      · cases hf : ucd.first a with
        | none => rw [hf] at hp; cases hp
        | some f =>
          cases hla : ucd.last b with
          | none => rw [hf, hla] at hp; cases hp
          | some l =>
            rw [hf, hla] at hp
            dsimp only at hp
            by_cases h0 : ucd.pair f l = 0
            · rw [if_pos h0] at hp; cases hp
            · rw [if_neg h0] at hp
              have hp := Option.some.inj hp
              subst hp
              exact ((pair_ok hf hla h0).2.2.2 k).resolve_left ha
  le c k x h := by
    rcases bits_range c k x with h' | h' | ⟨h', -⟩ <;> · rw [h'] at h; cases h

/-! ## The four forms -/

/-- `normalize` returns `t`: it neither fails to end nor writes behind an array. -/
def Form (c k : Bool) (s t : List Nat) : Prop := ∃ N, ∀ fuel, N ≤ fuel → normalize ucd c k fuel s = .ok t

theorem form_unique {c k : Bool} {s t t' : List Nat} (h : Form c k s t) (h' : Form c k s t') : t = t' := by
  obtain ⟨N, h⟩ := h
  obtain ⟨N', h'⟩ := h'
  have e := h (max N N') (Nat.le_max_left _ _)
  rw [h' _ (Nat.le_max_right _ _)] at e
  exact (Res.ok.inj e).symm

theorem form_iff (c k : Bool) (s t : List Nat) : Form c k s t ↔ t = if c then NFC ucd k s else NFD ucd k s := by
  have := normalize_ok (k := k) ucd_laws ucd_qlaws c s
  exact ⟨fun h => form_unique h this, fun h => h ▸ this⟩

/-- NFD and NFKD: the full decomposition, its marks exchanged until they are in canonical order, and
there is only one such string. -/
theorem form_decomposed (k : Bool) (s : List Nat) : ∃ d t, Form false k s t ∧ FullDec ucd k s d ∧
    Relation.ReflTransGen (Reorder ucd) d t ∧ Canon ucd t ∧
    ∀ d' t', FullDec ucd k s d' → Relation.ReflTransGen (Reorder ucd) d' t' → Canon ucd t' → t' = t := by
  obtain ⟨d, t, N, h1, h2, h3, h4, h5⟩ := nfd_spec (k := k) ucd_laws s
  refine ⟨d, t, (form_iff false k s t).2 ?_, h1, h2, h3, h5⟩
  rw [if_neg (by decide), NFD]
  exact (h5 _ _ (fullS_spec ucd_laws s) (order_reach _) (order_canon _)).symm

/-- NFC and NFKC: the composition algorithm of Unicode on NFD and NFKD. -/
theorem form_composed (k : Bool) (s : List Nat) : ∃ d, Form false k s d ∧ Form true k s (compose ucd [] d) :=
  ⟨NFD ucd k s, (form_iff false k s _).2 rfl, (form_iff true k s _).2 rfl⟩

/-- A normalized string is in canonical order. -/
theorem form_canon {c k : Bool} {s t : List Nat} (h : Form c k s t) : Canon ucd t := by
  rw [form_iff] at h
  subst h
  cases c
  · exact order_canon _
  · exact NFC_canon ucd_laws s

/-- Normalizing again changes nothing. -/
theorem form_idem {c k : Bool} {s t : List Nat} (h : Form c k s t) : Form c k t t := by
  rw [form_iff] at h ⊢
  subst h
  cases c
  · exact (NFD_idem ucd_laws s).symm
  · exact (NFC_idem ucd_laws s).symm

/-- Composing after decomposing, and decomposing after composing, is as without the first. -/
theorem form_form {c c' k : Bool} {s t u : List Nat} (h : Form c k s t) (h' : Form c' k t u) : Form c' k s u := by
  rw [form_iff] at h h' ⊢
  subst h
  subst h'
  cases c <;> cases c'
  · exact NFD_idem ucd_laws s
  · exact NFC_NFD ucd_laws s
  · exact NFD_NFC ucd_laws s
  · exact NFC_idem ucd_laws s

/-- NFC of two strings is equal exactly when NFD is (and so for NFKC and NFKD). -/
theorem form_eq_iff {k : Bool} {s s' t t' u u' : List Nat} (h : Form true k s t) (h' : Form true k s' t')
    (g : Form false k s u) (g' : Form false k s' u') : t = t' ↔ u = u' := by
  rw [form_iff] at h h' g g'
  subst h
  subst h'
  subst g
  subst g'
  exact NFC_eq_iff ucd_laws s s'

/-- The shortcut by the quick check returns what the algorithm would. -/
theorem shortcut_sound (c k : Bool) (s : List Nat) (h : quickYes ucd c k 0 s = true) :
    ∃ N, ∀ fuel, N ≤ fuel → (if c then nfc ucd k fuel s else nfd ucd k fuel s) = .ok s := by
  have hs := quickYes_sound ucd_laws ucd_qlaws c s h
  cases c
  · obtain ⟨N, hN⟩ := nfd_ok (k := k) ucd_laws s
    exact ⟨N, fun fuel hf => (hN fuel hf).trans (congrArg _ hs)⟩
  · obtain ⟨N, hN⟩ := nfc_ok (k := k) ucd_laws s
    exact ⟨N, fun fuel hf => (hN fuel hf).trans (congrArg _ hs)⟩

/-- `is_normalized` holds exactly of the strings that `normalize` returns unchanged. -/
theorem isNormalized_iff (c k : Bool) (s : List Nat) : ∃ N b, (∀ fuel, N ≤ fuel →
    isNormalized ucd c k fuel s = .ok b) ∧ (b = true ↔ Form c k s s) := by
  obtain ⟨N, hN⟩ := isNormalized_ok (k := k) ucd_laws ucd_qlaws c s
  refine ⟨N, _, hN, ?_⟩
  rw [decide_eq_true_eq, form_iff]

/-! ## No write behind an array, whatever the fuel -/

theorem unwind_ub {db : DB} {k : Bool} {fuel : Nat} : ∀ {st out}, unwind db k fuel st out = .ub →
    ∀ m, unwind db k (fuel + m) st out = .ub := by
  induction fuel with
  | zero => intro st out h; cases h
  | succ fuel ih =>
    intro st out h m
    rw [show fuel + 1 + m = (fuel + m) + 1 by omega]
    cases st with
    | nil => cases h
    | cons c st =>
      rw [unwind] at h ⊢
      split
      · rename_i h1; rw [if_pos h1] at h; exact ih h m
      · rename_i h1
        rw [if_neg h1] at h
        split
        · rename_i h2; rw [if_pos h2] at h; exact ih h m
        · rename_i h2
          rw [if_neg h2] at h
          split
          · rfl
          · rename_i h3; rw [if_neg h3] at h; exact ih h m

theorem decompose_ub {db : DB} {k : Bool} {fuel : Nat} : ∀ {s out}, decompose db k fuel s out = .ub →
    ∀ m, decompose db k (fuel + m) s out = .ub := by
  intro s
  induction s with
  | nil => intro out h; cases h
  | cons c s ih =>
    intro out h m
    rw [decompose] at h ⊢
    cases hu : unwind db k fuel [c] out with
    | ok o => rw [hu] at h; rw [unwind_mono hu m]; exact ih h m
    | ub => rw [unwind_ub hu m]
    | timeout => rw [hu] at h; cases h

theorem nfd_no_ub (k : Bool) (fuel : Nat) (s : List Nat) : nfd ucd k fuel s ≠ .ub := by
  intro h
  rw [nfd] at h
  cases hd : decompose ucd k fuel s [] with
  | ok d => rw [hd] at h; cases h
  | timeout => rw [hd] at h; cases h
  | ub =>
    obtain ⟨N, hN⟩ := decompose_ok (k := k) ucd_laws s []
    have h1 := decompose_ub hd N
    rw [hN (fuel + N) (by omega)] at h1
    cases h1

/-- Neither the stack of decomposition nor the array of skipped positions overflows. -/
theorem normalize_no_ub (c k : Bool) (fuel : Nat) (s : List Nat) : normalize ucd c k fuel s ≠ .ub := by
  rw [normalize]
  split
  · exact fun h => nomatch h
  · split
    · exact fun h => nomatch h
    · split
      · rw [nfc]
        cases hd : nfd ucd k fuel s with
        | ub => exact absurd hd (nfd_no_ub k fuel s)
        | timeout => exact fun h => nomatch h
        | ok d =>
          dsimp only
          rw [comp_ok ucd_laws]
          exact fun h => nomatch h
      · exact nfd_no_ub k fuel s

/-! ## Cases -/

-- e, grave below, acute: the marks are exchanged, and the acute is composed over the other
example : normalize ucd false false 10 [0x65, 0x301, 0x316] = .ok [0x65, 0x316, 0x301] := by decide +kernel
example : normalize ucd true false 10 [0x65, 0x316, 0x301] = .ok [0xE9, 0x316] := by decide +kernel
-- a ligature is a character of NFC but not of NFKC
example : normalize ucd true false 10 [0xFB01] = .ok [0xFB01] := by decide +kernel
example : normalize ucd true true 10 [0xFB01] = .ok [0x66, 0x69] := by decide +kernel
-- Hangul
example : normalize ucd true false 10 [0x1112, 0x1161, 0x11AB] = .ok [0xD55C] := by decide +kernel
example : normalize ucd false false 10 [0xD55C] = .ok [0x1112, 0x1161, 0x11AB] := by decide +kernel
-- the Angstrom sign is never in NFC
example : isNormalized ucd true false 10 [0x212B] = .ok false := by decide +kernel
example : isNormalized ucd true false 10 [0x61, 0x301] = .ok false := by decide +kernel
example : isNormalized ucd true false 10 [0x71, 0x301] = .ok true := by decide +kernel
-- a blocked mark stays
example : normalize ucd true false 10 [0x61, 0x5AE, 0x300] = .ok [0xE0, 0x5AE] := by decide +kernel
example : normalize ucd true false 10 [0x61, 0x305, 0x300] = .ok [0x61, 0x305, 0x300] := by decide +kernel

end Verif.Normalize
