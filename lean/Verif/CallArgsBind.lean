import Verif.CallArgs

/-!
Python's rule for binding arguments, and the two loops of `KwargsUnpackHelper::unpack` against it.
-/
namespace Verif.CallArgs

/-! ### Python's rule -/

/-- How Python binds the parameters `names` in a call with the positional arguments `pos` and the keyword arguments
`kw`, when `dv` are the values of the defaults of the last parameters. -/
structure Binds (names : List String) (dv : List Val) (pos : List Val) (kw : Kw) (vals : List Val) : Prop where
  few : pos.length ≤ names.length
  len : vals.length = names.length
  positional : ∀ (i : Nat) v, pos[i]? = some v → vals[i]? = some v
  once : ∀ (i : Nat) nm, i < pos.length → names[i]? = some nm → ∀ v, (nm, v) ∉ kw
  keyword : ∀ (i : Nat) nm v, pos.length ≤ i → names[i]? = some nm → (nm, v) ∈ kw → vals[i]? = some v
  dflt : ∀ (i : Nat) nm, pos.length ≤ i → names[i]? = some nm → (∀ v, (nm, v) ∉ kw) →
    names.length - dv.length ≤ i ∧ vals[i]? = dv[i - (names.length - dv.length)]?
  known : ∀ e ∈ kw, e.1 ∈ names

/-- Keyword arguments have different names (Python's grammar). -/
def KeysNodup (kw : Kw) : Prop := (kw.map (·.1)).Nodup

/-! ### Keyword arguments as a map -/

theorem contains_iff {kw : Kw} {nm : String} : contains kw nm = true ↔ ∃ v, (nm, v) ∈ kw := by
  simp only [contains, List.any_eq_true, beq_iff_eq]
  constructor
  · rintro ⟨e, he, rfl⟩; exact ⟨e.2, he⟩
  · rintro ⟨v, hv⟩; exact ⟨_, hv, rfl⟩

theorem not_contains_iff {kw : Kw} {nm : String} : contains kw nm = false ↔ ∀ v, (nm, v) ∉ kw := by
  rw [← Bool.not_eq_true, contains_iff]
  exact ⟨fun h v hv => h ⟨v, hv⟩, fun h ⟨v, hv⟩ => h v hv⟩

theorem lookup_of_mem {nm : String} {v : Val} : ∀ {kw : Kw}, KeysNodup kw → (nm, v) ∈ kw → kw.lookup nm = some v
  | [], _, h => by simp at h
  | e :: kw, hn, h => by
    have hn' := List.nodup_cons.mp (show (e.1 :: kw.map (·.1)).Nodup from hn)
    obtain ⟨a, b⟩ := e
    rcases List.mem_cons.mp h with h' | h'
    · cases h'
      simp
    · have : nm ≠ a := by
        rintro rfl
        exact hn'.1 (List.mem_map.mpr ⟨(nm, v), h', rfl⟩)
      have hne : (nm == a) = false := by simpa using this
      rw [List.lookup_cons, hne]
      exact lookup_of_mem hn'.2 h'

theorem lookup_none {nm : String} : ∀ {kw : Kw}, contains kw nm = false → kw.lookup nm = none
  | [], _ => rfl
  | (a, b) :: kw, h => by
    simp only [contains, List.any_cons, Bool.or_eq_false_iff] at h
    have hne : (nm == a) = false := by
      have := h.1
      simp only [beq_eq_false_iff_ne, ne_eq] at this ⊢
      exact fun e => this e.symm
    rw [List.lookup_cons, hne]
    exact lookup_none h.2

theorem lookup_some {nm : String} {kw : Kw} (hk : KeysNodup kw) (h : contains kw nm = true) :
    ∃ v, (nm, v) ∈ kw ∧ kw.lookup nm = some v := by
  obtain ⟨v, hv⟩ := contains_iff.mp h
  exact ⟨v, hv, lookup_of_mem hk hv⟩

/-- Counting the keywords among the names is counting the names among the keywords. -/
theorem count_eq {names : List String} (hn : names.Nodup) : ∀ {kw : Kw}, KeysNodup kw →
    names.countP (contains kw) = kw.countP (fun e => names.contains e.1)
  | [], _ => by simp [contains]
  | e :: kw, hk => by
    have hk' := List.nodup_cons.mp (show (e.1 :: kw.map (·.1)).Nodup from hk)
    have ih := count_eq hn hk'.2
    rw [List.countP_cons, ← ih]
    clear ih
    have hne : contains kw e.1 = false := by
      rw [not_contains_iff]
      intro v hv
      exact hk'.1 (List.mem_map.mpr ⟨_, hv, rfl⟩)
    clear hk hk'
    induction names with
    | nil => simp
    | cons nm ns ih =>
      have hn' := List.nodup_cons.mp hn
      have ih := ih hn'.2
      rw [List.countP_cons, List.countP_cons, ih]
      by_cases hc : e.1 = nm
      · subst hc
        have h1 : contains (e :: kw) e.1 = true := by simp [contains]
        have h2 : ns.contains e.1 = false := by simpa using hn'.1
        rw [h1, hne, h2]; simp
      · have h1 : contains (e :: kw) nm = contains kw nm := by
          simp [contains, hc]
        have h2 : (nm :: ns).contains e.1 = ns.contains e.1 := by
          simp [List.contains_cons, hc]
        rw [h1, h2]
        omega

theorem countP_eq_length_iff {kw : Kw} {names : List String} :
    kw.countP (fun e => names.contains e.1) = kw.length ↔ ∀ e ∈ kw, e.1 ∈ names := by
  rw [List.countP_eq_length]
  simp

/-! ### The slots of the parameters that positional arguments leave over -/

/-- The default of each parameter. -/
def dflts (names : List String) (dv : List Val) : List (Option Val) :=
  List.replicate (names.length - dv.length) none ++ dv.map some

theorem dflts_length {names : List String} {dv : List Val} (h : dv.length ≤ names.length) :
    (dflts names dv).length = names.length := by
  simp [dflts]; omega

theorem dflts_get {names : List String} {dv : List Val} {i : Nat}
    (hi : i < names.length) :
    (dflts names dv)[i]? = some (if names.length - dv.length ≤ i then dv[i - (names.length - dv.length)]? else none) := by
  simp only [dflts, List.getElem?_append, List.length_replicate]
  by_cases hc : i < names.length - dv.length
  · rw [if_pos hc, if_neg (by omega)]
    simp [hc]
  · rw [if_neg hc, if_pos (by omega)]
    have hlt : i - (names.length - dv.length) < dv.length := by omega
    simp [hlt]

def slot (kw : Kw) (nm : String) (d : Option Val) : Option Val := (kw.lookup nm).or d

def slots (names : List String) (dv : List Val) (kw : Kw) (m : Nat) : List (Option Val) :=
  List.zipWith (slot kw) (names.drop m) ((dflts names dv).drop m)

theorem slots_length {names : List String} {dv : List Val} {kw : Kw} {m : Nat} (h : dv.length ≤ names.length) :
    (slots names dv kw m).length = names.length - m := by
  simp [slots, dflts_length h]

theorem slots_get {names : List String} {dv : List Val} {kw : Kw} {m i : Nat} {nm : String}
    (hnm : names[m + i]? = some nm) :
    (slots names dv kw m)[i]? = some (slot kw nm
      (if names.length - dv.length ≤ m + i then dv[m + i - (names.length - dv.length)]? else none)) := by
  have hlt : m + i < names.length := by
    rcases List.getElem?_eq_some_iff.mp hnm with ⟨h, _⟩; exact h
  simp only [slots, List.getElem?_zipWith, List.getElem?_drop]
  rw [hnm, dflts_get hlt]

theorem slots_cons {names : List String} {dv : List Val} {kw : Kw} {m : Nat} {nm : String}
    (hnm : names[m]? = some nm) (h : dv.length ≤ names.length) :
    slots names dv kw m = slot kw nm
      (if names.length - dv.length ≤ m then dv[m - (names.length - dv.length)]? else none) :: slots names dv kw (m + 1) := by
  have hlt : m < names.length := by
    rcases List.getElem?_eq_some_iff.mp hnm with ⟨h, _⟩; exact h
  apply List.ext_getElem?
  intro i
  cases i with
  | zero =>
    have := slots_get (dv := dv) (kw := kw) (m := m) (i := 0) hnm
    simpa using this
  | succ i =>
    simp only [List.getElem?_cons_succ]
    simp only [slots, List.getElem?_zipWith, List.getElem?_drop]
    have : m + (i + 1) = m + 1 + i := by omega
    rw [this]

/-- `Binds`, with one equation for the values. -/
theorem binds_iff {names : List String} {dv pos : List Val} {kw : Kw} {vals : List Val} (hk : KeysNodup kw)
    (hd : dv.length ≤ names.length) :
    Binds names dv pos kw vals ↔
      pos.length ≤ names.length ∧ (∀ nm ∈ names.take pos.length, contains kw nm = false) ∧
      (∀ e ∈ kw, e.1 ∈ names) ∧ vals.map some = pos.map some ++ slots names dv kw pos.length := by
  constructor
  · intro b
    refine ⟨b.few, ?_, b.known, ?_⟩
    · intro nm hnm
      obtain ⟨i, hi⟩ := List.mem_iff_getElem?.mp hnm
      rw [List.getElem?_take] at hi
      split at hi
      · exact not_contains_iff.mpr (b.once i nm (by assumption) hi)
      · cases hi
    · apply List.ext_getElem?
      intro i
      rw [List.getElem?_append, List.length_map]
      by_cases hi : i < pos.length
      · rw [if_pos hi, List.getElem?_map, List.getElem?_map,
          b.positional i pos[i] (List.getElem?_eq_getElem hi), List.getElem?_eq_getElem hi]
      · rw [if_neg hi]
        by_cases hn : i < names.length
        · have hnm : names[pos.length + (i - pos.length)]? = some names[i] := by
            rw [Nat.add_sub_cancel' (by omega)]; exact List.getElem?_eq_getElem hn
          rw [slots_get hnm, Nat.add_sub_cancel' (by omega), List.getElem?_map]
          have hnm' : names[i]? = some names[i] := List.getElem?_eq_getElem hn
          by_cases hc : contains kw names[i] = true
          · obtain ⟨v, hv, hl⟩ := lookup_some hk hc
            rw [b.keyword i _ v (by omega) hnm' hv]
            simp [slot, hl]
          · have hc' : contains kw names[i] = false := by simpa using hc
            have := b.dflt i _ (by omega) hnm' (not_contains_iff.mp hc')
            rw [this.2, if_pos this.1]
            have hlt : i - (names.length - dv.length) < dv.length := by omega
            simp [slot, lookup_none hc', hlt]
        · have h1 : (vals.map some)[i]? = none := by
            rw [List.getElem?_eq_none_iff, List.length_map, b.len]; omega
          have h2 : (slots names dv kw pos.length)[i - pos.length]? = none := by
            rw [List.getElem?_eq_none_iff, slots_length hd]; omega
          rw [h1, h2]
  · rintro ⟨hf, ho, hkn, hv⟩
    have hlen : vals.length = names.length := by
      have := congrArg List.length hv
      simp only [List.length_map, List.length_append, slots_length hd] at this
      omega
    have hget : ∀ i nm, pos.length ≤ i → names[i]? = some nm → vals[i]?.map some = some (slot kw nm
        (if names.length - dv.length ≤ i then dv[i - (names.length - dv.length)]? else none)) := by
      intro i nm hi hnm
      have hnm' : names[pos.length + (i - pos.length)]? = some nm := by
        rw [Nat.add_sub_cancel' hi]; exact hnm
      have h1 := slots_get (dv := dv) (kw := kw) hnm'
      rw [Nat.add_sub_cancel' hi] at h1
      have h2 := congrArg (·[i]?) hv
      simp only [List.getElem?_append, List.length_map, List.getElem?_map] at h2
      rw [if_neg (by omega)] at h2
      rw [h2, h1]
    refine ⟨hf, hlen, ?_, ?_, ?_, ?_, hkn⟩
    · intro i v hi
      have hlt : i < pos.length := by
        rcases List.getElem?_eq_some_iff.mp hi with ⟨h, _⟩; exact h
      have h2 := congrArg (·[i]?) hv
      simp only [List.getElem?_append, List.length_map, List.getElem?_map] at h2
      rw [if_pos hlt, hi] at h2
      cases hx : vals[i]? with
      | none => rw [hx] at h2; simp at h2
      | some x => rw [hx] at h2; simpa using h2
    · intro i nm hi hnm
      refine not_contains_iff.mp (ho nm (List.mem_iff_getElem?.mpr ⟨i, ?_⟩))
      rw [List.getElem?_take, if_pos hi]; exact hnm
    · intro i nm v hi hnm hv'
      have := hget i nm hi hnm
      rw [slot, lookup_of_mem hk hv'] at this
      cases hx : vals[i]? with
      | none => rw [hx] at this; simp at this
      | some x => rw [hx] at this; simpa using this
    · intro i nm hi hnm hnv
      have := hget i nm hi hnm
      rw [slot, lookup_none (not_contains_iff.mpr hnv)] at this
      cases hx : vals[i]? with
      | none => rw [hx] at this; simp at this
      | some x =>
        rw [hx] at this
        by_cases hc : names.length - dv.length ≤ i
        · rw [if_pos hc] at this
          refine ⟨hc, ?_⟩
          simpa using this
        · rw [if_neg hc] at this
          simp at this

/-! ### The loops of `unpack` -/

theorem take_set_succ {α} {l : List α} {i : Nat} {a : α} (h : i < l.length) :
    (l.set i a).take (i + 1) = l.take i ++ [a] := by
  rw [List.take_succ, List.getElem?_set_self h, List.take_set]
  simp only [Option.toList_some]
  congr 1
  rw [List.set_eq_of_length_le]
  simp; omega

theorem fillPos_ok {names : List String} {kw : Kw} : ∀ (vs : List Val) (i : Nat) (buf : List (Option Val)),
    i + vs.length ≤ names.length → buf.length = names.length →
    (∀ nm ∈ (names.drop i).take vs.length, contains kw nm = false) →
    fillPos names kw i vs buf = .ok (buf.take i ++ vs.map some ++ buf.drop (i + vs.length))
  | [], i, buf, _, _, _ => by simp [fillPos]
  | v :: vs, i, buf, hi, hb, hno => by
    simp only [List.length_cons] at hi
    have hlt : i < names.length := by omega
    have hdrop : names.drop i = names[i] :: names.drop (i + 1) := List.drop_eq_getElem_cons hlt
    have h1 : contains kw names[i] = false := by
      apply hno
      rw [hdrop, List.length_cons, List.take_succ_cons]
      exact List.mem_cons_self
    simp only [fillPos, List.getElem?_eq_getElem hlt]
    rw [if_neg (by simp [h1]), if_pos (by omega),
      fillPos_ok vs (i + 1) _ (by omega) (by simpa using hb)]
    · rw [take_set_succ (by omega)]
      have : (buf.set i (some v)).drop (i + 1 + vs.length) = buf.drop (i + (vs.length + 1)) := by
        rw [List.drop_set_of_lt (by omega)]
        congr 1; omega
      rw [this]
      simp
    · intro nm hnm
      apply hno
      rw [hdrop, List.length_cons, List.take_succ_cons]
      exact List.mem_cons_of_mem _ hnm

theorem fillPos_multiple {names : List String} {kw : Kw} {nm : String} : ∀ (vs : List Val) (i : Nat)
    (buf : List (Option Val)), buf.length = names.length →
    ((names.drop i).take vs.length).find? (contains kw) = some nm →
    fillPos names kw i vs buf = .error (.multiple nm)
  | [], i, buf, _, hf => by simp at hf
  | v :: vs, i, buf, hb, hf => by
    have hlt : i < names.length := by
      by_cases h : i < names.length
      · exact h
      · rw [List.drop_eq_nil_of_le (by omega)] at hf
        simp at hf
    have hdrop : names.drop i = names[i] :: names.drop (i + 1) := List.drop_eq_getElem_cons hlt
    rw [hdrop, List.length_cons, List.take_succ_cons, List.find?_cons] at hf
    simp only [fillPos, List.getElem?_eq_getElem hlt]
    cases hc : contains kw names[i] with
    | true =>
      rw [hc] at hf
      cases hf
      rw [if_pos rfl]
    | false =>
      rw [hc] at hf
      rw [if_neg (by simp), if_pos (by omega), fillPos_multiple vs (i + 1) _ (by simpa using hb) hf]

theorem fillPos_oob {names : List String} {kw : Kw} : ∀ (vs : List Val) (i : Nat)
    (buf : List (Option Val)), buf.length = names.length → names.length < i + vs.length → i ≤ names.length →
    (∀ nm ∈ names.drop i, contains kw nm = false) →
    fillPos names kw i vs buf = .error .oob
  | [], i, buf, _, h, h', _ => by simp only [List.length_nil] at h; omega
  | v :: vs, i, buf, hb, h, h', hno => by
    simp only [List.length_cons] at h
    by_cases hlt : i < names.length
    · have hdrop : names.drop i = names[i] :: names.drop (i + 1) := List.drop_eq_getElem_cons hlt
      have h1 : contains kw names[i] = false := by
        apply hno; rw [hdrop]; exact List.mem_cons_self
      simp only [fillPos, List.getElem?_eq_getElem hlt]
      rw [if_neg (by simp [h1]), if_pos (by omega), fillPos_oob vs (i + 1) _ (by simpa using hb) (by omega) (by omega)]
      intro nm hnm
      apply hno; rw [hdrop]; exact List.mem_cons_of_mem _ hnm
    · have : names[i]? = none := by rw [List.getElem?_eq_none_iff]; omega
      simp only [fillPos, this]

theorem fillRest_ok {names : List String} {kw : Kw} {dv : List Val} (hk : KeysNodup kw)
    (hd : dv.length ≤ names.length) : ∀ (todo i : Nat) (buf : List (Option Val)) (chk : Int),
    i + todo = names.length → buf.length = names.length →
    (∀ o ∈ slots names dv kw i, o ≠ none) →
    fillRest names kw dv (names.length - dv.length) todo i buf chk =
      .ok (buf.take i ++ slots names dv kw i, chk - (names.drop i).countP (contains kw))
  | 0, i, buf, chk, hi, hb, _ => by
    have h1 : names.drop i = [] := List.drop_eq_nil_of_le (by omega)
    have h2 : slots names dv kw i = [] := by
      apply List.eq_nil_of_length_eq_zero
      rw [slots_length hd]; omega
    have h3 : buf.take i = buf := List.take_of_length_le (by omega)
    simp [fillRest, h1, h2, h3]
  | todo + 1, i, buf, chk, hi, hb, hs => by
    have hlt : i < names.length := by omega
    have hnm : names[i]? = some names[i] := List.getElem?_eq_getElem hlt
    have hdrop : names.drop i = names[i] :: names.drop (i + 1) := List.drop_eq_getElem_cons hlt
    have hcons := slots_cons (dv := dv) (kw := kw) hnm hd
    have hs' : ∀ o ∈ slots names dv kw (i + 1), o ≠ none := by
      intro o ho; apply hs; rw [hcons]; exact List.mem_cons_of_mem _ ho
    have h0 := hs _ (by rw [hcons]; exact List.mem_cons_self)
    simp only [fillRest, hnm]
    cases hc : contains kw names[i] with
    | true =>
      obtain ⟨v, hv, hl⟩ := lookup_some hk hc
      rw [if_pos rfl, if_pos (by omega), fillRest_ok hk hd todo (i + 1) _ _ (by omega) (by simpa using hb) hs',
        take_set_succ (by omega), hcons, hdrop, List.countP_cons, hc]
      simp only [slot, hl, Option.or_some, List.append_assoc, List.singleton_append, if_true]
      congr 2
      omega
    | false =>
      have hl := lookup_none hc
      rw [if_neg (by simp)]
      by_cases hle : names.length - dv.length ≤ i
      · have hlt' : i - (names.length - dv.length) < dv.length := by omega
        rw [if_pos hle]
        simp only [List.getElem?_eq_getElem hlt']
        rw [if_pos (by omega), fillRest_ok hk hd todo (i + 1) _ _ (by omega) (by simpa using hb) hs',
          take_set_succ (by omega), hcons, hdrop, List.countP_cons, hc, if_pos hle, List.getElem?_eq_getElem hlt']
        simp [slot, hl]
      · rw [if_neg hle] at h0
        simp [slot, hl] at h0

theorem fillRest_missing {names : List String} {kw : Kw} {dv : List Val} (hk : KeysNodup kw)
    (hd : dv.length ≤ names.length) : ∀ (todo i : Nat) (buf : List (Option Val)) (chk : Int),
    i + todo = names.length → buf.length = names.length →
    (¬ ∀ o ∈ slots names dv kw i, o ≠ none) →
    ∃ j nm, i ≤ j ∧ names[j]? = some nm ∧ contains kw nm = false ∧ j < names.length - dv.length ∧
      fillRest names kw dv (names.length - dv.length) todo i buf chk = .error (.missing nm)
  | 0, i, buf, chk, hi, hb, hs => by
    have h2 : slots names dv kw i = [] := by
      apply List.eq_nil_of_length_eq_zero
      rw [slots_length hd]; omega
    rw [h2] at hs
    exact absurd (by simp) hs
  | todo + 1, i, buf, chk, hi, hb, hs => by
    have hlt : i < names.length := by omega
    have hnm : names[i]? = some names[i] := List.getElem?_eq_getElem hlt
    have hcons := slots_cons (dv := dv) (kw := kw) hnm hd
    rw [hcons] at hs
    cases hc : contains kw names[i] with
    | true =>
      obtain ⟨v, hv, hl⟩ := lookup_some hk hc
      have hs' : ¬ ∀ o ∈ slots names dv kw (i + 1), o ≠ none := by
        intro h; apply hs
        intro o ho
        rcases List.mem_cons.mp ho with rfl | ho
        · simp [slot, hl]
        · exact h o ho
      obtain ⟨j, nm, h1, h2, h3, h4, h5⟩ :=
        fillRest_missing hk hd todo (i + 1) (buf.set i (kw.lookup names[i])) (chk - 1) (by omega) (by simpa using hb) hs'
      refine ⟨j, nm, by omega, h2, h3, h4, ?_⟩
      simp only [fillRest, hnm]
      rw [if_pos hc, if_pos (by omega), h5]
    | false =>
      have hl := lookup_none hc
      by_cases hle : names.length - dv.length ≤ i
      · have hlt' : i - (names.length - dv.length) < dv.length := by omega
        have hs' : ¬ ∀ o ∈ slots names dv kw (i + 1), o ≠ none := by
          intro h; apply hs
          intro o ho
          rcases List.mem_cons.mp ho with rfl | ho
          · simp [slot, hl, hle, hlt']
          · exact h o ho
        obtain ⟨j, nm, h1, h2, h3, h4, h5⟩ := fillRest_missing hk hd todo (i + 1)
          (buf.set i (some dv[i - (names.length - dv.length)])) chk (by omega) (by simpa using hb) hs'
        refine ⟨j, nm, by omega, h2, h3, h4, ?_⟩
        simp only [fillRest, hnm]
        rw [if_neg (by simp [hc]), if_pos hle]
        simp only [List.getElem?_eq_getElem hlt']
        rw [if_pos (by omega), h5]
      · refine ⟨i, _, Nat.le_refl i, hnm, hc, by omega, ?_⟩
        simp only [fillRest, hnm]
        rw [if_neg (by simp [hc]), if_neg hle]

/-! ### `unpack` -/

/-- An error that names a mistake which is really in the call. -/
inductive Mistake (names : List String) (nd : Nat) (pos : List Val) (kw : Kw) : Err → Prop
  | multiple (i : Nat) (nm : String) (v : Val) : i < pos.length → names[i]? = some nm → (nm, v) ∈ kw →
      Mistake names nd pos kw (.multiple nm)
  | missing (i : Nat) (nm : String) : pos.length ≤ i → names[i]? = some nm → (∀ v, (nm, v) ∉ kw) →
      i < names.length - nd → Mistake names nd pos kw (.missing nm)
  | unexpected (nm : String) (v : Val) : (nm, v) ∈ kw → nm ∉ names → Mistake names nd pos kw (.unexpected nm)
  | arity : (pos.length < names.length - nd ∨ names.length < pos.length) → kw = [] →
      Mistake names nd pos kw (.arity pos.length)
  | arityKw : names = [] → kw ≠ [] → Mistake names nd pos kw (.arity (pos.length + 1))

/-- A call with a mistake binds nothing. -/
theorem Mistake.not_binds {names : List String} {nd : Nat} {pos : List Val} {kw : Kw} {e : Err}
    (h : Mistake names nd pos kw e) {dv vals : List Val} (hd : dv.length = nd) : ¬ Binds names dv pos kw vals := by
  intro b
  cases h with
  | multiple i nm v h1 h2 h3 => exact b.once i nm h1 h2 v h3
  | missing i nm h1 h2 h3 h4 =>
    have := (b.dflt i nm h1 h2 h3).1
    omega
  | unexpected nm v h1 h2 => exact h2 (b.known _ h1)
  | arity h1 h2 =>
    rcases h1 with h1 | h1
    · subst h2
      have hlt : pos.length < names.length := by omega
      have := (b.dflt pos.length _ (Nat.le_refl _) (List.getElem?_eq_getElem hlt) (by simp)).1
      omega
    · have := b.few; omega
  | arityKw h1 h2 =>
    cases kw with
    | nil => exact h2 rfl
    | cons e kw =>
      have := b.known e List.mem_cons_self
      rw [h1] at this
      cases this

theorem diff_spec {kw : Kw} {names : List String} (h : ¬ ∀ e ∈ kw, e.1 ∈ names) :
    ∃ v, (diff kw names, v) ∈ kw ∧ diff kw names ∉ names := by
  unfold diff
  cases hf : kw.find? (fun e => !names.contains e.1) with
  | none =>
    exfalso
    apply h
    intro e he
    have := List.find?_eq_none.mp hf e he
    simpa using this
  | some e =>
    refine ⟨e.2, List.mem_of_find?_eq_some hf, ?_⟩
    have := List.find?_some hf
    simpa using this

/-- `unpack` binds the parameters like Python, or reports a mistake of the call, if there are not more positional
arguments than parameters. -/
theorem unpack_spec {names : List String} {dv pos : List Val} {kw : Kw} (hn : names.Nodup) (hk : KeysNodup kw)
    (hd : dv.length ≤ names.length) (hp : pos.length ≤ names.length) :
    (∃ vals, Binds names dv pos kw vals ∧ unpack names dv pos kw = .ok (vals.map some)) ∨
    (∃ e, Mistake names dv.length pos kw e ∧ unpack names dv pos kw = .error e) := by
  by_cases h1 : ∀ nm ∈ names.take pos.length, contains kw nm = false
  · have e1 : fillPos names kw 0 pos (List.replicate names.length none) =
        .ok (pos.map some ++ (List.replicate names.length none).drop pos.length) := by
      rw [fillPos_ok pos 0 _ (by omega) (by simp) (by simpa using h1)]
      simp
    have hbl : (pos.map some ++ (List.replicate names.length (none : Option Val)).drop pos.length).length
        = names.length := by simp; omega
    by_cases h2 : ∀ o ∈ slots names dv kw pos.length, o ≠ none
    · have e2 := fillRest_ok hk hd (names.length - pos.length) pos.length _ (kw.length : Int) (by omega) hbl h2
      have e3 : (pos.map some ++ (List.replicate names.length (none : Option Val)).drop pos.length).take pos.length
          = pos.map some := by
        rw [List.take_append_of_le_length (by simp)]
        apply List.take_of_length_le; simp
      rw [e3] at e2
      have hcnt : (names.drop pos.length).countP (contains kw) = kw.countP (fun e => names.contains e.1) := by
        rw [← count_eq hn hk]
        conv => rhs; rw [← List.take_append_drop pos.length names, List.countP_append]
        have : (names.take pos.length).countP (contains kw) = 0 := by
          rw [List.countP_eq_zero]
          intro a ha
          simp [h1 a ha]
        omega
      have eq : unpack names dv pos kw = if (kw.length : Int) - (names.drop pos.length).countP (contains kw) ≠ 0
          then .error (.unexpected (diff kw names)) else .ok (pos.map some ++ slots names dv kw pos.length) := by
        simp only [unpack, e1, e2, bind, Except.bind]
      by_cases h3 : ∀ e ∈ kw, e.1 ∈ names
      · left
        have hc := countP_eq_length_iff.mpr h3
        rw [hcnt, hc, if_neg (by omega)] at eq
        obtain ⟨rest, hrest⟩ : ∃ rest : List Val, rest.map some = slots names dv kw pos.length := by
          refine ⟨(slots names dv kw pos.length).map (·.getD .none), ?_⟩
          rw [List.map_map]
          conv => rhs; rw [← List.map_id (slots names dv kw pos.length)]
          apply List.map_congr_left
          intro o ho
          have := h2 o ho
          cases o with
          | none => exact absurd rfl this
          | some v => rfl
        refine ⟨pos ++ rest, (binds_iff hk hd).mpr ⟨hp, h1, h3, ?_⟩, ?_⟩
        · rw [List.map_append, hrest]
        · rw [eq, List.map_append, hrest]
      · right
        have hc : kw.countP (fun e => names.contains e.1) ≠ kw.length := fun h => h3 (countP_eq_length_iff.mp h)
        rw [hcnt, if_pos (by omega)] at eq
        obtain ⟨v, hv, hnot⟩ := diff_spec h3
        exact ⟨_, .unexpected _ v hv hnot, eq⟩
    · right
      obtain ⟨j, nm, g1, g2, g3, g4, g5⟩ :=
        fillRest_missing hk hd (names.length - pos.length) pos.length _ (kw.length : Int) (by omega) hbl h2
      refine ⟨_, .missing j nm g1 g2 (not_contains_iff.mp g3) g4, ?_⟩
      simp only [unpack, e1, g5, bind, Except.bind]
  · right
    have hf : ∃ nm, (names.take pos.length).find? (contains kw) = some nm := by
      cases hf : (names.take pos.length).find? (contains kw) with
      | some nm => exact ⟨nm, rfl⟩
      | none =>
        exfalso; apply h1
        intro nm hnm
        have := List.find?_eq_none.mp hf nm hnm
        simpa using this
    obtain ⟨nm, hnm⟩ := hf
    obtain ⟨i, hi⟩ := List.mem_iff_getElem?.mp (List.mem_of_find?_eq_some hnm)
    rw [List.getElem?_take] at hi
    have hc := List.find?_some hnm
    obtain ⟨v, hv⟩ := contains_iff.mp hc
    split at hi
    · refine ⟨_, .multiple i nm v (by assumption) hi hv, ?_⟩
      have := fillPos_multiple (names := names) (kw := kw) (nm := nm) pos 0 (List.replicate names.length none) (by simp)
        (by simpa using hnm)
      simp only [unpack, this, bind, Except.bind]
    · cases hi

/-- With more positional arguments than parameters, and none of the keywords a parameter, memory behind the arrays is
read. -/
theorem unpack_oob {names : List String} {dv pos : List Val} {kw : Kw} (hp : names.length < pos.length)
    (hno : ∀ nm ∈ names, ∀ v, (nm, v) ∉ kw) : unpack names dv pos kw = .error .oob := by
  have := fillPos_oob (names := names) (kw := kw) pos 0 (List.replicate names.length none) (by simp) (by omega) (by omega)
    (by intro nm hnm; exact not_contains_iff.mpr (hno nm (by simpa using hnm)))
  simp only [unpack, this, bind, Except.bind]

end Verif.CallArgs
