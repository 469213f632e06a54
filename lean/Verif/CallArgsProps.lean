import Verif.CallArgsBind

/-!
C98-C101: the arguments of a call reach the parameters as in Python.
-/
namespace Verif.CallArgs

/-! ### What a call should give -/

/-- The value of a default: the literal, or some object. -/
def IsDefaults (ds : List Dflt) (dv : List Val) : Prop :=
  dv.length = ds.length ∧ (∀ (i : Nat) v, ds[i]? = some (Dflt.lit v) → dv[i]? = some v) ∧
  (∀ i : Nat, ds[i]? = some Dflt.fresh → ∃ k, dv[i]? = some (Val.obj k))

/-- Every value is converted to the type of its parameter. -/
def Converted (cast : Nat → Val → Option Val) (raw vals : List Val) : Prop :=
  vals.length = raw.length ∧ ∀ (i : Nat) v, raw[i]? = some v → ∃ v', cast i v = some v' ∧ vals[i]? = some v'

/-- The outcome of a call when the defaults have the values `dv`: the parameters are bound as in Python, and converted
to their types; or a value has the wrong type; or there is a mistake in the call. -/
inductive GoodWith (cast : Nat → Val → Option Val) (names : List String) (dv : List Val) (pos : List Val) (kw : Kw) :
    Except Err (List Val) → Prop
  | ok (raw vals : List Val) : Binds names dv pos kw raw → Converted cast raw vals →
      GoodWith cast names dv pos kw (.ok vals)
  | badType (raw : List Val) (i : Nat) (v : Val) : Binds names dv pos kw raw → raw[i]? = some v → cast i v = none →
      GoodWith cast names dv pos kw (.error (.badType i))
  | mistake (e : Err) : Mistake names dv.length pos kw e → GoodWith cast names dv pos kw (.error e)

/-- The same for defaults that may be new objects. -/
def Good (cast : Nat → Val → Option Val) (sig : Sig) (pos : List Val) (kw : Kw) (r : Except Err (List Val)) : Prop :=
  ∃ dv, IsDefaults sig.defs dv ∧ GoodWith cast sig.names dv pos kw r

/-- Signatures that Python accepts. -/
structure SigOk (sig : Sig) : Prop where
  nodup : sig.names.Nodup
  defs : sig.defs.length ≤ sig.names.length

/-! ### Conversions -/

theorem castAll_spec {cast : Nat → Val → Option Val} : ∀ (raw : List Val) (k : Nat),
    (∃ vals, castAll cast k raw = .ok vals ∧ Converted (fun i => cast (k + i)) raw vals) ∨
    (∃ i v, raw[i]? = some v ∧ cast (k + i) v = none ∧ castAll cast k raw = .error (.badType (k + i)))
  | [], k => .inl ⟨[], rfl, rfl, by simp⟩
  | v :: raw, k => by
    cases hc : cast k v with
    | none => exact .inr ⟨0, v, by simp, by simpa using hc, by simp [castAll, hc]⟩
    | some v' =>
      rcases castAll_spec (cast := cast) raw (k + 1) with ⟨vals, h1, h2, h3⟩ | ⟨i, x, h1, h2, h3⟩
      · refine .inl ⟨v' :: vals, by simp [castAll, hc, h1, bind, Except.bind], by simp [h2], ?_⟩
        intro i x hx
        cases i with
        | zero =>
          simp only [List.getElem?_cons_zero, Option.some.injEq] at hx
          subst hx
          exact ⟨v', by simpa using hc, by simp⟩
        | succ i =>
          obtain ⟨y, hy, hy'⟩ := h3 i x (by simpa using hx)
          refine ⟨y, ?_, by simpa using hy'⟩
          show cast (k + (i + 1)) x = some y
          rw [show k + (i + 1) = k + 1 + i by omega]; exact hy
      · refine .inr ⟨i + 1, x, by simpa using h1, ?_, ?_⟩
        · rw [show k + (i + 1) = k + 1 + i by omega]; exact h2
        · rw [show k + (i + 1) = k + 1 + i by omega]
          simp [castAll, hc, h3, bind, Except.bind]

theorem good_of_binds {cast : Nat → Val → Option Val} {names : List String} {dv pos : List Val} {kw : Kw}
    {raw : List Val} (b : Binds names dv pos kw raw) : GoodWith cast names dv pos kw (castAll cast 0 raw) := by
  rcases castAll_spec (cast := cast) raw 0 with ⟨vals, h1, h2⟩ | ⟨i, v, h1, h2, h3⟩
  · rw [h1]
    exact .ok raw vals b (by simpa using h2)
  · rw [h3]
    simp only [Nat.zero_add] at h2 ⊢
    exact .badType raw i v b h1 h2

/-! ### Defaults -/

theorem isDefaults_cons {d : Dflt} {ds : List Dflt} {v : Val} {dv : List Val} (h : IsDefaults ds dv)
    (h1 : ∀ x, d = .lit x → v = x) (h2 : d = .fresh → ∃ k, v = .obj k) : IsDefaults (d :: ds) (v :: dv) := by
  refine ⟨by simp [h.1], ?_, ?_⟩
  · intro i x hx
    cases i with
    | zero => simp only [List.getElem?_cons_zero, Option.some.injEq] at hx ⊢; exact h1 x hx
    | succ i => exact h.2.1 i x (by simpa using hx)
  · intro i hx
    cases i with
    | zero => simp only [List.getElem?_cons_zero, Option.some.injEq] at hx ⊢; exact h2 hx
    | succ i => exact h.2.2 i (by simpa using hx)

theorem evalDefs_spec : ∀ (ds : List Dflt) (w : Nat), IsDefaults ds (evalDefs ds w).1
  | [], w => ⟨rfl, by simp, by simp⟩
  | .lit v :: ds, w => isDefaults_cons (evalDefs_spec ds w) (by rintro x ⟨⟩; rfl) (by rintro ⟨⟩)
  | .fresh :: ds, w => isDefaults_cons (evalDefs_spec ds (w + 1)) (by rintro x ⟨⟩) (fun _ => ⟨w, rfl⟩)

theorem isDefaults_append {ds es : List Dflt} {dv ev : List Val} (h : IsDefaults ds dv) (h' : IsDefaults es ev) :
    IsDefaults (ds ++ es) (dv ++ ev) := by
  refine ⟨by simp [h.1, h'.1], ?_, ?_⟩
  · intro i v hi
    rw [List.getElem?_append] at hi ⊢
    rw [h.1]
    split at hi
    · rw [if_pos (by assumption)]; exact h.2.1 i v hi
    · rw [if_neg (by assumption)]; exact h'.2.1 _ v hi
  · intro i hi
    rw [List.getElem?_append] at hi ⊢
    rw [h.1]
    split at hi
    · rw [if_pos (by assumption)]; exact h.2.2 i hi
    · rw [if_neg (by assumption)]; exact h'.2.2 _ hi

/-- The defaults of the last parameters only: there are values for all of them that end in these. -/
theorem evalDefs_drop (ds : List Dflt) (k w : Nat) (hk : k ≤ ds.length) :
    ∃ dv, IsDefaults ds dv ∧ dv.drop k = (evalDefs (ds.drop k) w).1 := by
  refine ⟨(evalDefs (ds.take k) 0).1 ++ (evalDefs (ds.drop k) w).1, ?_, ?_⟩
  · conv => lhs; rw [← List.take_append_drop k ds]
    exact isDefaults_append (evalDefs_spec _ _) (evalDefs_spec _ _)
  · have : ((evalDefs (ds.take k) 0).1).length = k := by rw [(evalDefs_spec _ _).1]; simp; omega
    rw [List.drop_append_of_le_length (by omega), List.drop_of_length_le (by omega)]
    rfl

/-! ### Names -/

theorem paramIdsFrom_eq : ∀ (names used : List String), names.Nodup → (∀ nm ∈ names, nm ∉ used) →
    paramIdsFrom used names = names
  | [], _, _, _ => rfl
  | nm :: names, used, hn, hu => by
    have hn' := List.nodup_cons.mp hn
    have h1 : uniqueName used nm = nm := by
      have : used.contains nm = false := by simpa using hu nm List.mem_cons_self
      simp only [uniqueName, this]
      rfl
    simp only [paramIdsFrom, h1]
    rw [paramIdsFrom_eq names (nm :: used) hn'.2]
    intro x hx hm
    rcases List.mem_cons.mp hm with rfl | hm
    · exact hn'.1 hx
    · exact hu x (List.mem_cons_of_mem _ hx) hm

theorem paramIds_eq {names : List String} (hn : names.Nodup) (hr : ∀ nm ∈ names, nm ∉ reserved) :
    paramIds names = names := paramIdsFrom_eq names reserved hn hr

/-! ### C98: calls through the packed function -/

/-- The static array of defaults holds defaults. -/
def StOk (sig : Sig) (st : St) : Prop := ∀ ds, st.statics = some ds → IsDefaults sig.defs ds

theorem binds_positional {names : List String} {dv pos : List Val} (hd : dv.length ≤ names.length)
    (h1 : names.length - dv.length ≤ pos.length) (h2 : pos.length ≤ names.length) :
    Binds names dv pos [] (pos ++ dv.drop (pos.length - (names.length - dv.length))) := by
  refine ⟨h2, by simp; omega, ?_, by simp, by simp, ?_, by simp⟩
  · intro i v hv
    have hlt : i < pos.length := by
      rcases List.getElem?_eq_some_iff.mp hv with ⟨h, _⟩; exact h
    rw [List.getElem?_append_left hlt]; exact hv
  · intro i nm hi hnm _
    refine ⟨by omega, ?_⟩
    rw [List.getElem?_append_right hi, List.getElem?_drop]
    congr 1; omega

/-- A call through the packed function binds every parameter as Python does, or reports a mistake that is really in the
call. Missing: with keyword arguments, parameters named like a word of C, and calls with more positional arguments than
parameters. -/
theorem packed_call_partial {cast : Nat → Val → Option Val} {sig : Sig} {args : List Val} {kw : Option Kw} {st : St}
    (hs : SigOk sig) (hst : StOk sig st)
    (hkw : ∀ k, kw = some k → k ≠ [] ∧ KeysNodup k ∧ args.length ≤ sig.names.length ∧
      ∀ nm ∈ sig.names, nm ∉ reserved) :
    Good cast sig args (kw.getD []) (packed cast sig args kw st).1 ∧ StOk sig (packed cast sig args kw st).2 := by
  have hpos : kw = none → Good cast sig args (kw.getD []) (packed cast sig args kw st).1 ∧
      StOk sig (packed cast sig args kw st).2 := by
    rintro rfl
    simp only [packed, ite_self, Option.isSome_none, Bool.false_eq_true, if_false, Nat.add_zero, Option.getD_none]
    by_cases hc : sig.names.length - sig.defs.length ≤ args.length ∧ args.length ≤ sig.names.length
    · rw [if_pos hc]
      have hdl := hs.defs
      obtain ⟨dv, h1, h2⟩ := evalDefs_drop sig.defs (args.length - (sig.names.length - sig.defs.length)) st.next
        (by omega)
      refine ⟨⟨dv, h1, ?_⟩, fun ds h => hst ds h⟩
      have b := binds_positional (names := sig.names) (dv := dv) (pos := args) (by rw [h1.1]; exact hs.defs)
        (by rw [h1.1]; exact hc.1) hc.2
      rw [h1.1, h2] at b
      exact good_of_binds b
    · rw [if_neg hc]
      refine ⟨⟨(evalDefs sig.defs 0).1, evalDefs_spec _ _, .mistake _ ?_⟩, hst⟩
      refine .arity ?_ rfl
      rw [(evalDefs_spec sig.defs 0).1]
      omega
  cases hk : kw with
  | none => rw [← hk]; exact hpos hk
  | some k =>
    obtain ⟨hne, hnd, hle, hres⟩ := hkw k hk
    by_cases hn : sig.names.length > 0
    · simp only [packed, if_pos hn, Option.getD_some, paramIds_eq hs.nodup hres]
      have key : ∀ st' : St, ∀ dv, st'.statics = some dv → IsDefaults sig.defs dv →
          Good cast sig args k (callKw cast sig.names (st'.statics.getD []) args k) ∧ StOk sig st' := by
        intro st' dv hdv hdef
        rw [hdv, Option.getD_some]
        have hst' : StOk sig st' := by
          intro ds hds; rw [hdv] at hds; cases hds; exact hdef
        rcases unpack_spec (dv := dv) hs.nodup hnd (by rw [hdef.1]; exact hs.defs) hle with ⟨vals, b, e⟩ | ⟨e, m, he⟩
        · refine ⟨⟨dv, hdef, ?_⟩, hst'⟩
          have : (vals.map some).map (fun o : Option Val => o.getD .none) = vals := by simp [Function.comp_def]
          simp only [callKw, e, bind, Except.bind, this]
          exact good_of_binds b
        · simp only [callKw, he, bind, Except.bind]
          exact ⟨⟨dv, hdef, .mistake e m⟩, hst'⟩
      cases hss : st.statics with
      | some ds =>
        have := key st ds hss (hst ds hss)
        simp only [hss] at this ⊢
        exact this
      | none =>
        exact key { next := (evalDefs sig.defs st.next).2, statics := some (evalDefs sig.defs st.next).1 }
          (evalDefs sig.defs st.next).1 rfl (evalDefs_spec _ _)
    · have hnil : sig.names = [] := List.eq_nil_of_length_eq_zero (by omega)
      have : packed cast sig args (some k) st = (.error (.arity (args.length + 1)), st) := by
        simp [packed, hnil]
      rw [this]
      exact ⟨⟨(evalDefs sig.defs 0).1, evalDefs_spec _ _, .mistake _ (.arityKw hnil hne)⟩, hst⟩

/-- The two parts of `Good` exclude each other: a call that reports a mistake could not be bound by Python either. -/
theorem good_error {cast : Nat → Val → Option Val} {sig : Sig} {pos : List Val} {kw : Kw} {e : Err}
    (h : Good cast sig pos kw (.error e)) :
    (∃ i, e = .badType i) ∨ ∀ dv raw, dv.length = sig.defs.length → ¬ Binds sig.names dv pos kw raw := by
  obtain ⟨dv, hd, g⟩ := h
  cases g with
  | badType raw i v _ _ _ => exact .inl ⟨i, rfl⟩
  | mistake e m => exact .inr fun dv' raw hl => m.not_binds (by rw [hl, hd.1])

/-- With a keyword argument, too many positional arguments make the function write behind its array on the stack, where
Python raises `TypeError`: for every function with parameters, and every such call whose keywords are not parameters. -/
theorem too_many_arguments_refuted {cast : Nat → Val → Option Val} {sig : Sig} {args : List Val} {k : Kw} {st : St}
    (hs : SigOk sig) (hn : 0 < sig.names.length) (hres : ∀ nm ∈ sig.names, nm ∉ reserved)
    (hp : sig.names.length < args.length) (hno : ∀ nm ∈ sig.names, ∀ v, (nm, v) ∉ k) :
    (packed cast sig args (some k) st).1 = .error .oob ∧
      ∀ dv raw, ¬ Binds sig.names dv args k raw := by
  refine ⟨?_, fun dv raw b => by have := b.few; omega⟩
  have : ∀ d, unpack (paramIds sig.names) d args k = .error .oob := by
    intro d
    rw [paramIds_eq hs.nodup hres]
    exact unpack_oob hp hno
  simp only [packed, if_pos hn, callKw, this, bind, Except.bind]

/-- A parameter named like a word of C cannot be given by its name: Python binds it, the packed function says that the
argument is missing. -/
theorem c_word_parameter_refuted {cast : Nat → Val → Option Val} {st : St} :
    ∀ r ∈ reserved, ∀ v : Val, StOk ⟨[r], []⟩ st →
      Binds [r] [] [] [(r, v)] [v] ∧
      (packed cast ⟨[r], []⟩ [] (some [(r, v)]) st).1 = .error (.missing (r ++ "1")) := by
  intro r hr v hst
  constructor
  · refine ⟨by simp, rfl, by simp, by simp, ?_, ?_, by simp⟩
    · intro i nm x _ h1 h2
      cases i with
      | zero => simp at h1 h2 ⊢; exact h2.2.symm
      | succ i => simp at h1
    · intro i nm _ h1 h2
      cases i with
      | zero =>
        simp only [List.getElem?_cons_zero, Option.some.injEq] at h1
        subst h1
        exact absurd (List.mem_singleton.mpr rfl) (h2 v)
      | succ i => simp at h1
  · have h1 : paramIds [r] = [r ++ "1"] := by
      have : ∀ r ∈ reserved, paramIds [r] = [r ++ "1"] := by decide +kernel
      exact this r hr
    have h2 : ((r, v).1 == r ++ "1") = false := by
      rw [beq_eq_false_iff_ne]
      intro h
      have := congrArg String.length h
      simp at this
    have h3 : ∀ d : List Val, d.length = 0 → unpack [r ++ "1"] d [] [(r, v)] = .error (.missing (r ++ "1")) := by
      intro d hd
      cases List.eq_nil_of_length_eq_zero hd
      simp only [unpack, fillPos, fillRest, contains, List.any_cons, h2, bind, Except.bind, List.length_singleton,
        List.length_nil, Nat.sub_zero, List.getElem?_cons_zero, List.any_nil, Bool.or_false, Bool.false_eq_true,
        if_false]
      rw [if_neg (by decide)]
    have h4 : ∀ d : List Val, IsDefaults [] d → unpack [r ++ "1"] d [] [(r, v)] = .error (.missing (r ++ "1")) :=
      fun d hd => h3 d hd.1
    simp only [packed, List.length_singleton, gt_iff_lt, Nat.zero_lt_one, if_true, h1, callKw, bind, Except.bind]
    cases hss : st.statics with
    | some ds => simp only [hss, Option.getD_some, h4 ds (hst ds hss)]
    | none => simp only [evalDefs, Option.getD_some, h4 [] (evalDefs_spec [] 0)]

/-! ### `inspect.Signature.bind` -/

/-- What `sigBind` gives: arguments for the parameters that have some, in the order of the parameters. -/
structure Bound (sig : Sig) (pos : List Val) (kw : Kw) (ss : List (Option Val)) : Prop where
  few : pos.length ≤ sig.names.length
  len : ss.length = sig.names.length
  positional : ∀ (i : Nat) v, pos[i]? = some v → ss[i]? = some (some v)
  once : ∀ (i : Nat) nm, i < pos.length → sig.names[i]? = some nm → ∀ v, (nm, v) ∉ kw
  keyword : ∀ (i : Nat) nm v, pos.length ≤ i → sig.names[i]? = some nm → (nm, v) ∈ kw → ss[i]? = some (some v)
  left : ∀ (i : Nat) nm, pos.length ≤ i → sig.names[i]? = some nm → (∀ v, (nm, v) ∉ kw) →
    sig.names.length - sig.defs.length ≤ i ∧ ss[i]? = some none
  known : ∀ e ∈ kw, e.1 ∈ sig.names

theorem sigBind_spec {sig : Sig} {pos : List Val} {kw : Kw} (hk : KeysNodup kw)
    (hp : pos.length ≤ sig.names.length) :
    (∃ ss, sigBind sig pos kw = .ok ss ∧ Bound sig pos kw ss) ∨
    (∃ e, sigBind sig pos kw = .error e ∧ Mistake sig.names sig.defs.length pos kw e) := by
  have hn : ¬ sig.names.length < pos.length := by omega
  cases h1 : (sig.names.take pos.length).find? (contains kw) with
  | some nm =>
    right
    refine ⟨.multiple nm, by simp only [sigBind, if_neg hn, h1], ?_⟩
    obtain ⟨i, hi⟩ := List.mem_iff_getElem?.mp (List.mem_of_find?_eq_some h1)
    rw [List.getElem?_take] at hi
    obtain ⟨v, hv⟩ := contains_iff.mp (List.find?_some h1)
    split at hi
    · exact .multiple i nm v (by assumption) hi hv
    · cases hi
  | none =>
    cases h2 : ((sig.names.take (sig.names.length - sig.defs.length)).drop pos.length).find?
        (fun nm => !contains kw nm) with
    | some nm =>
      right
      refine ⟨.missing nm, by simp only [sigBind, if_neg hn, h1, h2], ?_⟩
      obtain ⟨i, hi⟩ := List.mem_iff_getElem?.mp (List.mem_of_find?_eq_some h2)
      rw [List.getElem?_drop, List.getElem?_take] at hi
      have hc := List.find?_some h2
      simp only [Bool.not_eq_true'] at hc
      split at hi
      · exact .missing (pos.length + i) nm (by omega) hi (not_contains_iff.mp hc) (by assumption)
      · cases hi
    | none =>
      cases h3 : kw.find? (fun e => !sig.names.contains e.1) with
      | some e =>
        right
        refine ⟨.unexpected e.1, by simp only [sigBind, if_neg hn, h1, h2, h3], ?_⟩
        have hc := List.find?_some h3
        exact .unexpected e.1 e.2 (List.mem_of_find?_eq_some h3) (by simpa using hc)
      | none =>
        left
        refine ⟨pos.map some ++ (sig.names.drop pos.length).map fun nm => kw.lookup nm,
          by simp only [sigBind, if_neg hn, h1, h2, h3], ?_⟩
        have hget : ∀ (i : Nat) nm, pos.length ≤ i → sig.names[i]? = some nm →
            (pos.map some ++ (sig.names.drop pos.length).map fun nm => kw.lookup nm)[i]? = some (kw.lookup nm) := by
          intro i nm hi hnm
          rw [List.getElem?_append_right (by simpa using hi), List.getElem?_map, List.getElem?_drop, List.length_map,
            Nat.add_sub_cancel' hi, hnm]
          rfl
        refine ⟨hp, by simp; omega, ?_, ?_, ?_, ?_, ?_⟩
        · intro i v hv
          have hlt : i < pos.length := by
            rcases List.getElem?_eq_some_iff.mp hv with ⟨h, _⟩; exact h
          rw [List.getElem?_append_left (by simpa using hlt), List.getElem?_map, hv]
          rfl
        · intro i nm hi hnm
          have := List.find?_eq_none.mp h1 nm (List.mem_iff_getElem?.mpr ⟨i, by rw [List.getElem?_take, if_pos hi, hnm]⟩)
          exact not_contains_iff.mp (by simpa using this)
        · intro i nm v hi hnm hv
          rw [hget i nm hi hnm, lookup_of_mem hk hv]
        · intro i nm hi hnm hno
          have hcf := not_contains_iff.mpr hno
          refine ⟨?_, by rw [hget i nm hi hnm, lookup_none hcf]⟩
          apply Nat.le_of_not_lt
          intro hlt
          have := List.find?_eq_none.mp h2 nm (List.mem_iff_getElem?.mpr ⟨i - pos.length, by
            rw [List.getElem?_drop, Nat.add_sub_cancel' hi, List.getElem?_take, if_pos hlt, hnm]⟩)
          simp [hcf] at this
        · intro e he
          have := List.find?_eq_none.mp h3 e he
          simpa using this

/-! ### C99: calls of functions and constructors in compiled code -/

theorem zip_take (pos : List Val) (names : List String) : (pos.zip names).map (·.1) = pos.take names.length := by
  induction pos generalizing names with
  | nil => simp
  | cons v pos ih =>
    cases names with
    | nil => simp
    | cons nm names => simp [ih]

/-- `ss` with the literals of `ds` where it has nothing. -/
def Filled (ss : List (Option Val)) (ds : List (Option Dflt)) (vals : List Val) : Prop :=
  vals.length = ss.length ∧ ∀ i : Nat,
    (∀ v, ss[i]? = some (some v) → vals[i]? = some v) ∧
    (ss[i]? = some none → ∃ v, ds[i]? = some (some (.lit v)) ∧ vals[i]? = some v)

theorem fillSlots_spec : ∀ (ss : List (Option Val)) (ds : List (Option Dflt)),
    (∀ i : Nat, ss[i]? = some none → ∃ d, ds[i]? = some (some d)) →
    (∃ vals, fillSlots ss ds = .ok vals ∧ Filled ss ds vals) ∨
    (∃ i : Nat, ss[i]? = some none ∧ ds[i]? = some (some .fresh) ∧ fillSlots ss ds = .error .noConst)
  | [], _, _ => .inl ⟨[], by simp [fillSlots], rfl, by simp⟩
  | some v :: ss, ds, h => by
    have ht : ∀ i : Nat, ds.tail[i]? = ds[i + 1]? := by intro i; cases ds <;> simp
    rcases fillSlots_spec ss ds.tail (fun i hi => by rw [ht]; exact h (i + 1) (by simpa using hi)) with
      ⟨vals, h1, h2, h3⟩ | ⟨i, h1, h2, h3⟩
    · refine .inl ⟨v :: vals, by simp [fillSlots, h1, bind, Except.bind], by simp [h2], ?_⟩
      intro i
      cases i with
      | zero => exact ⟨by intro x hx; simpa using hx, by simp⟩
      | succ i =>
        have := h3 i
        rw [ht] at this
        exact ⟨by intro x hx; simpa using this.1 x (by simpa using hx),
          by intro hx; simpa using this.2 (by simpa using hx)⟩
    · refine .inr ⟨i + 1, by simpa using h1, by rw [ht] at h2; exact h2, by simp [fillSlots, h3, bind, Except.bind]⟩
  | none :: ss, ds, h => by
    obtain ⟨d, hd⟩ := h 0 (by simp)
    cases ds with
    | nil => simp at hd
    | cons d' ds =>
      simp only [List.getElem?_cons_zero, Option.some.injEq] at hd
      subst hd
      cases d with
      | fresh => exact .inr ⟨0, by simp, by simp, by simp [fillSlots, genericConst, bind, Except.bind]⟩
      | lit v =>
        rcases fillSlots_spec ss ds (fun i hi => by
          have := h (i + 1) (by simpa using hi); simpa using this) with ⟨vals, h1, h2, h3⟩ | ⟨i, h1, h2, h3⟩
        · refine .inl ⟨v :: vals, by simp [fillSlots, genericConst, h1, bind, Except.bind], by simp [h2], ?_⟩
          intro i
          cases i with
          | zero => exact ⟨by simp, by simp⟩
          | succ i =>
            have := h3 i
            exact ⟨by intro x hx; simpa using this.1 x (by simpa using hx),
              by intro hx; simpa using this.2 (by simpa using hx)⟩
        · exact .inr ⟨i + 1, by simpa using h1, by simpa using h2,
            by simp [fillSlots, genericConst, h3, bind, Except.bind]⟩

theorem dfltOf_get {sig : Sig} {i : Nat} (hi : i < sig.names.length) :
    (dfltOf sig)[i]? = some (if sig.names.length - sig.defs.length ≤ i
      then sig.defs[i - (sig.names.length - sig.defs.length)]? else none) := by
  simp only [dfltOf, List.getElem?_append, List.length_replicate]
  by_cases hc : i < sig.names.length - sig.defs.length
  · rw [if_pos hc, if_neg (by omega)]
    simp [hc]
  · rw [if_neg hc, if_pos (by omega)]
    have hlt : i - (sig.names.length - sig.defs.length) < sig.defs.length := by omega
    simp [hlt]

/-- `Bound` with values for the parameters that are left over is `Binds`. -/
theorem Bound.binds {sig : Sig} {pos : List Val} {kw : Kw} {ss : List (Option Val)} (b : Bound sig pos kw ss)
    {dv vals : List Val} (hd : dv.length = sig.defs.length) (hl : vals.length = sig.names.length)
    (h1 : ∀ (i : Nat) v, ss[i]? = some (some v) → vals[i]? = some v)
    (h2 : ∀ i : Nat, ss[i]? = some none → sig.names.length - sig.defs.length ≤ i →
      vals[i]? = dv[i - (sig.names.length - sig.defs.length)]?) :
    Binds sig.names dv pos kw vals := by
  refine ⟨b.few, hl, fun i v hv => h1 i v (b.positional i v hv), b.once,
    fun i nm v hi hnm hv => h1 i v (b.keyword i nm v hi hnm hv), ?_, b.known⟩
  intro i nm hi hnm hno
  have := b.left i nm hi hnm hno
  rw [hd]
  exact ⟨this.1, h2 i this.2 this.1⟩

/-- A slot that is left over belongs to a parameter that was not given. -/
theorem Bound.left_over {sig : Sig} {pos : List Val} {kw : Kw} {ss : List (Option Val)} (b : Bound sig pos kw ss)
    {i : Nat} (h : ss[i]? = some none) :
    ∃ nm, pos.length ≤ i ∧ sig.names[i]? = some nm ∧ (∀ v, (nm, v) ∉ kw) ∧
      sig.names.length - sig.defs.length ≤ i := by
  have hlt : i < sig.names.length := by
    rw [← b.len]
    rcases List.getElem?_eq_some_iff.mp h with ⟨h, _⟩; exact h
  have hi : pos.length ≤ i := by
    apply Nat.le_of_not_lt
    intro hc
    have := b.positional i _ (List.getElem?_eq_getElem hc)
    rw [h] at this; cases this
  have hnm : sig.names[i]? = some sig.names[i] := List.getElem?_eq_getElem hlt
  have hno : ∀ v, (sig.names[i], v) ∉ kw := by
    intro v hv
    have := b.keyword i _ v hi hnm hv
    rw [h] at this; cases this
  exact ⟨_, hi, hnm, hno, (b.left i _ hi hnm hno).1⟩

/-- A call of a function or constructor in compiled code binds every parameter as Python does, or is rejected for a
mistake that is really in the call, or because a parameter is left to a default that is not a constant. Missing: calls
with more positional arguments than parameters. -/
theorem function_call_partial {cast : Nat → Val → Option Val} {sig : Sig} {pos : List Val} {kw : Kw}
    (hs : SigOk sig) (hk : KeysNodup kw) (hp : pos.length ≤ sig.names.length) :
    Good cast sig pos kw (funcCall cast sig pos kw) ∨
    (funcCall cast sig pos kw = .error .noConst ∧ ∃ (i : Nat) (nm : String), pos.length ≤ i ∧ sig.names[i]? = some nm ∧
      (∀ v, (nm, v) ∉ kw) ∧ sig.defs[i - (sig.names.length - sig.defs.length)]? = some .fresh) := by
  have hz : (pos.zip sig.names).map (·.1) = pos := by rw [zip_take]; exact List.take_of_length_le hp
  have hdl := hs.defs
  rcases sigBind_spec hk hp with ⟨ss, e, b⟩ | ⟨er, e, m⟩
  · have hdef : ∀ i : Nat, ss[i]? = some none → ∃ d, (dfltOf sig)[i]? = some (some d) ∧
        sig.defs[i - (sig.names.length - sig.defs.length)]? = some d := by
      intro i hi
      obtain ⟨nm, h1, h2, h3, h4⟩ := b.left_over hi
      have hlt : i < sig.names.length := by
        rcases List.getElem?_eq_some_iff.mp h2 with ⟨h, _⟩; exact h
      rw [dfltOf_get hlt, if_pos h4]
      have hlt' : i - (sig.names.length - sig.defs.length) < sig.defs.length := by omega
      exact ⟨_, by rw [List.getElem?_eq_getElem hlt'], List.getElem?_eq_getElem hlt'⟩
    rcases fillSlots_spec ss (dfltOf sig) (fun i hi => by
      obtain ⟨d, h, _⟩ := hdef i hi; exact ⟨d, h⟩) with ⟨vals, h1, h2, h3⟩ | ⟨i, h1, h2, h3⟩
    · left
      have hev := evalDefs_spec sig.defs 0
      refine ⟨_, hev, ?_⟩
      have hb : Binds sig.names (evalDefs sig.defs 0).1 pos kw vals := by
        refine b.binds hev.1 (by rw [h2, b.len]) (fun i v hv => (h3 i).1 v hv) ?_
        intro i hi hle
        obtain ⟨v, hv, hv'⟩ := (h3 i).2 hi
        obtain ⟨d, hd, hd'⟩ := hdef i hi
        rw [hd] at hv
        cases hv
        rw [hv', hev.2.1 _ _ hd']
      have heq : funcCall cast sig pos kw = castAll cast 0 vals := by
        simp only [funcCall, hz, e, h1, bind, Except.bind]
      rw [heq]
      exact good_of_binds hb
    · right
      obtain ⟨nm, g1, g2, g3, g4⟩ := b.left_over h1
      refine ⟨by simp only [funcCall, hz, e, h3, bind, Except.bind], i, nm, g1, g2, g3, ?_⟩
      obtain ⟨d, hd, hd'⟩ := hdef i h1
      rw [hd] at h2
      cases h2
      exact hd'
  · left
    refine ⟨_, evalDefs_spec sig.defs 0, ?_⟩
    have heq : funcCall cast sig pos kw = .error er := by
      simp only [funcCall, hz, e, bind, Except.bind]
    rw [heq]
    refine .mistake er ?_
    rw [(evalDefs_spec sig.defs 0).1]
    exact m

/-- `Signature.bind` alone would reject such a call. -/
theorem sigBind_extra {sig : Sig} {pos : List Val} {kw : Kw} (hp : sig.names.length < pos.length) :
    sigBind sig pos kw = .error (.arity pos.length) := by
  simp only [sigBind, if_pos hp]

/-- Positional arguments behind the last parameter are silently dropped: the call compiles like the call without them,
while Python raises `TypeError`. -/
theorem extra_argument_refuted {cast : Nat → Val → Option Val} {sig : Sig} {pos extra : List Val} {kw : Kw}
    (hp : pos.length = sig.names.length) (he : extra ≠ []) :
    funcCall cast sig (pos ++ extra) kw = funcCall cast sig pos kw ∧
    (∀ w, methodCall cast sig (pos ++ extra) kw w = methodCall cast sig pos kw w) ∧
    ∀ dv raw, ¬ Binds sig.names dv (pos ++ extra) kw raw := by
  have h1 : ((pos ++ extra).zip sig.names).map (·.1) = (pos.zip sig.names).map (·.1) := by
    rw [zip_take, zip_take, ← hp, List.take_append_of_le_length (Nat.le_refl _)]
  refine ⟨by simp only [funcCall, h1], fun w => by simp only [methodCall, h1], ?_⟩
  intro dv raw b
  have := b.few
  have hlen : 0 < extra.length := List.length_pos_iff.mpr he
  simp only [List.length_append] at this
  omega

/-! ### C100: calls of methods in compiled code -/

/-- `BoundArguments.args` ends at the first parameter that has no argument. -/
theorem boundArgs_spec : ∀ ss : List (Option Val),
    ss.take (boundArgs ss).length = (boundArgs ss).map some ∧
    (boundArgs ss).length ≤ ss.length ∧
    (∀ o, ss[(boundArgs ss).length]? = some o → o = none)
  | [] => by simp [boundArgs]
  | none :: ss => by simp [boundArgs]
  | some v :: ss => by
    have := boundArgs_spec ss
    refine ⟨by simp [boundArgs, this.1], by simp [boundArgs, this.2.1], ?_⟩
    intro o ho
    exact this.2.2 o (by simpa [boundArgs] using ho)

/-- A call of a method in compiled code binds every parameter as Python does, or is rejected for a mistake that is really
in the call. Missing: calls with more positional arguments than parameters, and calls that leave a parameter to its
default and give a later one by keyword. -/
theorem method_call_partial {cast : Nat → Val → Option Val} {sig : Sig} {pos : List Val} {kw : Kw} {w : Nat}
    (hs : SigOk sig) (hk : KeysNodup kw) (hp : pos.length ≤ sig.names.length)
    (hgap : ∀ (i j : Nat) nm nm' v, pos.length ≤ i → i ≤ j → sig.names[i]? = some nm → sig.names[j]? = some nm' →
      (nm', v) ∈ kw → ∃ v', (nm, v') ∈ kw) :
    Good cast sig pos kw (methodCall cast sig pos kw w).1 := by
  have hz : (pos.zip sig.names).map (·.1) = pos := by rw [zip_take]; exact List.take_of_length_le hp
  have hdl := hs.defs
  rcases sigBind_spec hk hp with ⟨ss, e, b⟩ | ⟨er, e, m⟩
  · simp only [methodCall, hz, e]
    obtain ⟨g1, g2, g3⟩ := boundArgs_spec ss
    have hbl := b.len
    -- all slots behind the arguments are left over
    have hrest : ∀ i : Nat, (boundArgs ss).length ≤ i → i < ss.length → ss[i]? = some none := by
      intro i hi hlt
      have h0 : (boundArgs ss).length < ss.length := by omega
      have hgn : ss[(boundArgs ss).length]? = some none := by
        have h := g3 ss[(boundArgs ss).length] (List.getElem?_eq_getElem h0)
        rw [List.getElem?_eq_getElem h0, h]
      obtain ⟨nm, p1, p2, p3, p4⟩ := b.left_over hgn
      have hi' : i < sig.names.length := by omega
      have hnm : sig.names[i]? = some sig.names[i] := List.getElem?_eq_getElem hi'
      have hno : ∀ v, (sig.names[i], v) ∉ kw := by
        intro v hv
        obtain ⟨v', hv'⟩ := hgap _ i _ _ v p1 hi p2 hnm hv
        exact p3 v' hv'
      exact (b.left i _ (by omega) hnm hno).2
    have hge : sig.names.length - sig.defs.length ≤ (boundArgs ss).length := by
      by_cases hlt : (boundArgs ss).length < ss.length
      · obtain ⟨nm, p1, p2, p3, p4⟩ := b.left_over (hrest _ (Nat.le_refl _) hlt)
        exact p4
      · omega
    obtain ⟨dv, d1, d2⟩ := evalDefs_drop sig.defs
      ((boundArgs ss).length - (sig.names.length - sig.defs.length)) w (by omega)
    refine ⟨dv, d1, ?_⟩
    rw [← d2]
    apply good_of_binds
    have hdlen := d1.1
    refine b.binds d1.1 (by simp; omega) ?_ ?_
    · intro i v hv
      have hlt : i < (boundArgs ss).length := by
        apply Nat.lt_of_not_le
        intro hc
        have hi : i < ss.length := by
          rcases List.getElem?_eq_some_iff.mp hv with ⟨h, _⟩; exact h
        rw [hrest i hc hi] at hv; cases hv
      rw [List.getElem?_append_left hlt]
      have h := congrArg (·[i]?) g1
      simp only [List.getElem?_take, if_pos hlt, List.getElem?_map, hv] at h
      cases hx : (boundArgs ss)[i]? with
      | none => rw [hx] at h; cases h
      | some x => rw [hx] at h; simpa using h.symm
    · intro i hi hle
      have hge' : (boundArgs ss).length ≤ i := by
        apply Nat.le_of_not_lt
        intro hc
        have h := congrArg (·[i]?) g1
        simp only [List.getElem?_take, if_pos hc, List.getElem?_map, hi] at h
        cases hx : (boundArgs ss)[i]? with
        | none => rw [hx] at h; cases h
        | some x => rw [hx] at h; cases h
      rw [List.getElem?_append_right hge', List.getElem?_drop]
      congr 1; omega
  · simp only [methodCall, hz, e]
    refine ⟨_, evalDefs_spec sig.defs 0, .mistake er ?_⟩
    rw [(evalDefs_spec sig.defs 0).1]
    exact m

/-- Keyword arguments behind a gap are silently lost: if all parameters have defaults, and the first is not given, the
method gets all the defaults, whatever the other arguments are. Python passes them. -/
theorem keyword_lost_refuted {cast : Nat → Val → Option Val} {sig : Sig} {kw : Kw} {w : Nat} {nm : String}
    (hs : SigOk sig) (hk : KeysNodup kw) (hall : sig.defs.length = sig.names.length)
    (hkn : ∀ e ∈ kw, e.1 ∈ sig.names) (h0 : sig.names[0]? = some nm) (hno : ∀ v, (nm, v) ∉ kw) :
    (methodCall cast sig [] kw w).1 = castAll cast 0 (evalDefs sig.defs w).1 ∧
    ∀ (i : Nat) nm' v, sig.names[i]? = some nm' → (nm', v) ∈ kw →
      ∀ dv raw, Binds sig.names dv [] kw raw → raw[i]? = some v := by
  refine ⟨?_, fun i nm' v hnm hv dv raw b => b.keyword i nm' v (by simp) hnm hv⟩
  rcases sigBind_spec (sig := sig) (pos := []) hk (by simp) with ⟨ss, e, b⟩ | ⟨er, e, m⟩
  · have h := (b.left 0 nm (by simp) h0 hno).2
    have hb : boundArgs ss = [] := by
      cases ss with
      | nil => rfl
      | cons o ss =>
        simp only [List.getElem?_cons_zero, Option.some.injEq] at h
        subst h
        rfl
    have he : sigBind sig ((([] : List Val).zip sig.names).map (·.1)) kw = .ok ss := by simpa using e
    simp only [methodCall, he, hb, List.length_nil, Nat.zero_sub, List.drop_zero, List.nil_append]
  · exfalso
    cases m with
    | multiple i nm v h => simp at h
    | missing i nm h1 h2 h3 h4 => omega
    | unexpected nm v h1 h2 => exact h2 (hkn _ h1)
    | arity h _ => simp at h; omega
    | arityKw h _ => rw [h] at h0; simp at h0

theorem binds_rename {names names' : List String} {dv pos raw : List Val} (hlen : names.length = names'.length)
    (b : Binds names dv pos [] raw) : Binds names' dv pos [] raw := by
  refine ⟨hlen ▸ b.few, hlen ▸ b.len, b.positional, by simp, by simp, ?_, by simp⟩
  intro i nm hi hnm _
  have hlt : i < names.length := by
    rw [hlen]
    rcases List.getElem?_eq_some_iff.mp hnm with ⟨h, _⟩; exact h
  have := b.dflt i _ hi (List.getElem?_eq_getElem hlt) (by simp)
  rw [hlen] at this
  exact this

/-- Without keywords, a method that overrides another one with the same defaults gets its arguments as Python passes
them, although the compiler binds them with the signature of the class of the variable; a call that is rejected could
not be bound by Python. Missing: keywords, defaults that are only equal, and too many positional arguments. -/
theorem override_call_partial {cast : Nat → Val → Option Val} {base derived : Sig} {pos : List Val} {w : Nat}
    (hb : SigOk base) (ho : overrideOk base derived = true) (hd : base.defs = derived.defs)
    (hp : pos.length ≤ base.names.length) :
    (∀ vals, (methodCall cast base pos [] w).1 = .ok vals → Good cast derived pos [] (.ok vals)) ∧
    (∀ e, (methodCall cast base pos [] w).1 = .error e → Good cast derived pos [] (.error e) ∨
      ∀ dv raw, dv.length = derived.defs.length → ¬ Binds derived.names dv pos [] raw) := by
  have hg := method_call_partial (cast := cast) (w := w) hb (kw := []) (by simp [KeysNodup]) hp (by simp)
  have hlen : base.names.length = derived.names.length := by
    simp only [overrideOk, Bool.and_eq_true, beq_iff_eq] at ho
    exact ho.1
  constructor
  · intro vals hv
    rw [hv] at hg
    obtain ⟨dv, h1, h2⟩ := hg
    cases h2 with
    | ok raw vals b c => exact ⟨dv, hd ▸ h1, .ok raw vals (binds_rename hlen b) c⟩
  · intro e he
    rw [he] at hg
    obtain ⟨dv, h1, h2⟩ := hg
    cases h2 with
    | badType raw i v b c d => exact .inl ⟨dv, hd ▸ h1, .badType raw i v (binds_rename hlen b) c d⟩
    | mistake e m =>
      right
      intro dv' raw hl b
      exact m.not_binds (by rw [hl, h1.1, hd]) (binds_rename hlen.symm b)

/-- A method may rename the parameters of the method it overrides. With keywords the arguments then reach other
parameters than in Python: here they are swapped. -/
theorem override_keyword_refuted {cast : Nat → Val → Option Val} {x y : String} (hxy : x ≠ y) (v v' : Val) (w : Nat) :
    overrideOk ⟨[x, y], []⟩ ⟨[y, x], []⟩ = true ∧
    (methodCall cast ⟨[x, y], []⟩ [] [(x, v), (y, v')] w).1 = castAll cast 0 [v, v'] ∧
    Binds [y, x] [] [] [(x, v), (y, v')] [v', v] := by
  have h1 : (y == x) = false := by simpa using fun h : y = x => hxy h.symm
  have h2 : (x == y) = false := by simpa using hxy
  refine ⟨rfl, ?_, ?_⟩
  · simp [methodCall, sigBind, contains, List.find?, List.lookup, h1, h2, boundArgs, evalDefs, hxy]
  · refine ⟨by simp, rfl, by simp, by simp, ?_, ?_, by simp⟩
    · intro i nm u _ hi hu
      match i, hi with
      | 0, hi =>
        simp only [List.getElem?_cons_zero, Option.some.injEq] at hi
        subst hi
        rcases List.mem_cons.mp hu with h | h
        · cases h; exact absurd rfl hxy
        · rcases List.mem_singleton.mp h with ⟨⟩; rfl
      | 1, hi =>
        simp only [List.getElem?_cons_succ, List.getElem?_cons_zero, Option.some.injEq] at hi
        subst hi
        rcases List.mem_cons.mp hu with h | h
        · cases h; rfl
        · cases List.mem_singleton.mp h; exact absurd rfl hxy
      | i + 2, hi => simp at hi
    · intro i nm _ hi hno
      match i, hi with
      | 0, hi =>
        simp only [List.getElem?_cons_zero, Option.some.injEq] at hi
        subst hi
        exact absurd (by simp) (hno v')
      | 1, hi =>
        simp only [List.getElem?_cons_succ, List.getElem?_cons_zero, Option.some.injEq] at hi
        subst hi
        exact absurd (by simp) (hno v)
      | i + 2, hi => simp at hi

/-- Defaults are compared with Python's `==`, so a method may change the default `1` into `True`; it then gets `1` when
it is called through a variable of the base class, and `True` in Python. -/
theorem override_default_refuted {cast : Nat → Val → Option Val} (x : String) (w : Nat) :
    overrideOk ⟨[x], [.lit (.int 1)]⟩ ⟨[x], [.lit (.bool true)]⟩ = true ∧
    (methodCall cast ⟨[x], [.lit (.int 1)]⟩ [] [] w).1 = castAll cast 0 [.int 1] ∧
    ∀ dv raw, IsDefaults [.lit (.bool true)] dv → Binds [x] dv [] [] raw → raw = [.bool true] := by
  refine ⟨rfl, rfl, ?_⟩
  intro dv raw hd b
  have h1 := hd.2.1 0 _ rfl
  have h2 := b.dflt 0 x (by simp) rfl (by simp)
  have h3 : dv.length = 1 := hd.1
  have h4 : raw.length = 1 := b.len
  simp only [h3, List.length_singleton, Nat.sub_self, h1] at h2
  match raw, h4 with
  | [a], _ => simpa using h2.2

/-! ### C101: defaults -/

/-- A run of calls through the packed function. -/
def runCalls (cast : Nat → Val → Option Val) (sig : Sig) : List (List Val × Option Kw) → St →
    List (Except Err (List Val)) × St
  | [], st => ([], st)
  | c :: cs, st =>
    let r := packed cast sig c.1 c.2 st
    let rest := runCalls cast sig cs r.2
    (r.1 :: rest.1, rest.2)

/-- Calls for which the binding is right. -/
def CallOk (sig : Sig) (c : List Val × Option Kw) : Prop :=
  ∀ k, c.2 = some k → k ≠ [] ∧ KeysNodup k ∧ c.1.length ≤ sig.names.length ∧ ∀ nm ∈ sig.names, nm ∉ reserved

theorem isDefaults_unique {ds : List Dflt} {dv dv' : List Val} (hl : ∀ d ∈ ds, ∃ v, d = .lit v)
    (h : IsDefaults ds dv) (h' : IsDefaults ds dv') : dv = dv' := by
  apply List.ext_getElem?
  intro i
  by_cases hi : i < ds.length
  · obtain ⟨v, hv⟩ := hl _ (List.getElem_mem hi)
    have : ds[i]? = some (.lit v) := by rw [List.getElem?_eq_getElem hi, hv]
    rw [h.2.1 i v this, h'.2.1 i v this]
  · have h1 : dv[i]? = none := by rw [List.getElem?_eq_none_iff, h.1]; omega
    have h2 : dv'[i]? = none := by rw [List.getElem?_eq_none_iff, h'.1]; omega
    rw [h1, h2]

/-- As in Python, every call in a run sees the same values of the defaults, in whichever way the arguments are passed,
if the defaults are constants. -/
theorem defaults_shared_partial {cast : Nat → Val → Option Val} {sig : Sig} (hs : SigOk sig)
    (hl : ∀ d ∈ sig.defs, ∃ v, d = .lit v) :
    ∃ dv, IsDefaults sig.defs dv ∧ ∀ (cs : List (List Val × Option Kw)) (st : St), StOk sig st →
      (∀ c ∈ cs, CallOk sig c) →
      ∀ (i : Nat) c, cs[i]? = some c → ∃ r, (runCalls cast sig cs st).1[i]? = some r ∧
        GoodWith cast sig.names dv c.1 (c.2.getD []) r := by
  refine ⟨_, evalDefs_spec sig.defs 0, ?_⟩
  intro cs
  induction cs with
  | nil => intro st _ _ i c hc; simp at hc
  | cons a cs ih =>
    intro st hst hok i c hc
    obtain ⟨⟨dv, hd, g⟩, hst'⟩ := packed_call_partial (cast := cast) hs hst (hok a List.mem_cons_self)
    cases i with
    | zero =>
      simp only [List.getElem?_cons_zero, Option.some.injEq] at hc
      subst hc
      rw [isDefaults_unique hl hd (evalDefs_spec sig.defs 0)] at g
      exact ⟨_, rfl, g⟩
    | succ i =>
      exact ih _ hst' (fun c hc => hok c (List.mem_cons_of_mem _ hc)) i c (by simpa using hc)

/-- A default that makes an object, like `[]`, makes a new one in every call without keywords: two such calls never see
the same object, as they do in Python, in any state. -/
theorem default_object_refuted (x : String) (st : St) :
    ∃ a b, (runCalls (fun _ v => some v) ⟨[x], [.fresh]⟩ [([], none), ([], none)] st).1 = [.ok [a], .ok [b]] ∧ a ≠ b :=
  ⟨.obj st.next, .obj (st.next + 1), rfl, by simp⟩

theorem packed_statics {cast : Nat → Val → Option Val} {sig : Sig} {args : List Val} {kw : Option Kw} {st : St}
    {ds : List Val} (h : st.statics = some ds) : (packed cast sig args kw st).2.statics = some ds := by
  cases hk : (if sig.names.length > 0 then kw else none) with
  | some k => simp only [packed, hk, h]
  | none =>
    simp only [packed, hk]
    split <;> split <;> exact h

theorem runCalls_statics {cast : Nat → Val → Option Val} {sig : Sig} {ds : List Val} :
    ∀ (cs : List (List Val × Option Kw)) (st : St), st.statics = some ds →
    (runCalls cast sig cs st).2.statics = some ds
  | [], _, h => h
  | _ :: cs, _, h => runCalls_statics cs _ (packed_statics h)

theorem packed_kw {cast : Nat → Val → Option Val} {sig : Sig} {args : List Val} {k : Kw} {st : St}
    (hs : SigOk sig) (hok : CallOk sig (args, some k)) (hn : 0 < sig.names.length) :
    ∃ ds, (packed cast sig args (some k) st).2.statics = some ds ∧
      (packed cast sig args (some k) st).1 = callKw cast sig.names ds args k ∧
      (∀ d, st.statics = some d → ds = d) := by
  obtain ⟨_, _, _, h4⟩ := hok k rfl
  simp only [packed, if_pos hn, paramIds_eq hs.nodup h4]
  cases hss : st.statics with
  | some ds => exact ⟨ds, by simp only [hss], by simp only [hss, Option.getD_some], fun d hd => by cases hd; rfl⟩
  | none => exact ⟨_, rfl, rfl, fun d hd => by cases hd⟩

/-- Between calls with keywords, the objects of defaults are shared, as in Python: whatever is called in between, a
parameter that both calls leave to its default gets the same object. -/
theorem keyword_defaults_shared {sig : Sig} {args args' : List Val} {k k' : Kw} {st : St}
    {cs : List (List Val × Option Kw)} {r r' : List Val} (hs : SigOk sig) (hst : StOk sig st)
    (h1 : CallOk sig (args, some k)) (h2 : CallOk sig (args', some k'))
    (e1 : (packed (fun _ v => some v) sig args (some k) st).1 = .ok r)
    (e2 : (packed (fun _ v => some v) sig args' (some k')
      (runCalls (fun _ v => some v) sig cs (packed (fun _ v => some v) sig args (some k) st).2).2).1 = .ok r')
    {i : Nat} {nm : String} (hi : args.length ≤ i) (hi' : args'.length ≤ i) (hnm : sig.names[i]? = some nm)
    (hk : ∀ v, (nm, v) ∉ k) (hk' : ∀ v, (nm, v) ∉ k') : r[i]? = r'[i]? := by
  have hn : 0 < sig.names.length := by
    rcases List.getElem?_eq_some_iff.mp hnm with ⟨h, _⟩; omega
  obtain ⟨ds, s1, s2, _⟩ := packed_kw (cast := fun _ v => some v) (st := st) hs h1 hn
  obtain ⟨ds', t1, t2, t3⟩ := packed_kw (cast := fun _ v => some v)
    (st := (runCalls (fun _ v => some v) sig cs (packed (fun _ v => some v) sig args (some k) st).2).2) hs h2 hn
  have := t3 ds (runCalls_statics cs _ s1)
  subst this
  have hds : IsDefaults sig.defs ds' := (packed_call_partial (cast := fun _ v => some v) hs hst h1).2 ds' s1
  have key : ∀ (a : List Val) (kk : Kw) (q : List Val), CallOk sig (a, some kk) →
      callKw (fun _ v => some v) sig.names ds' a kk = .ok q → a.length ≤ i → (∀ v, (nm, v) ∉ kk) →
      q[i]? = ds'[i - (sig.names.length - ds'.length)]? := by
    intro a kk q ho he ha hno
    obtain ⟨_, g2, g3, _⟩ := ho kk rfl
    rcases unpack_spec (dv := ds') (pos := a) hs.nodup g2 (by rw [hds.1]; exact hs.defs) g3 with ⟨vals, b, e⟩ | ⟨e, _, he'⟩
    · have hv : (vals.map some).map (fun o : Option Val => o.getD .none) = vals := by simp [Function.comp_def]
      simp only [callKw, e, bind, Except.bind, hv] at he
      have hq : q = vals := by
        rcases castAll_spec (cast := fun _ v => some v) vals 0 with ⟨q', c1, c2, c3⟩ | ⟨j, v, _, c2, _⟩
        · rw [c1] at he
          cases he
          apply List.ext_getElem?
          intro j
          by_cases hj : j < vals.length
          · obtain ⟨y, y1, y2⟩ := c3 j _ (List.getElem?_eq_getElem hj)
            cases y1
            rw [y2, List.getElem?_eq_getElem hj]
          · rw [List.getElem?_eq_none_iff.mpr (by omega), List.getElem?_eq_none_iff.mpr (by omega)]
        · cases c2
      rw [hq]
      exact (b.dflt i nm ha hnm hno).2
    · simp only [callKw, he', bind, Except.bind] at he
      cases he
  rw [key args k r h1 (s2 ▸ e1) hi hk, key args' k' r' h2 (t2 ▸ e2) hi' hk']

/-! ### Concrete cases -/

/-- `def f(a, b=2, c=[])` called as `f(1, c=5)`. -/
example : (packed (fun _ v => some v) ⟨["a", "b", "c"], [.lit (.int 2), .fresh]⟩ [.int 1] (some [("c", .int 5)])
    ⟨0, none⟩).1.toOption = some [.int 1, .int 2, .int 5] := by decide +kernel

example : Good (fun _ v => some v) ⟨["a", "b", "c"], [.lit (.int 2), .fresh]⟩ [.int 1] [("c", .int 5)]
    (packed (fun _ v => some v) ⟨["a", "b", "c"], [.lit (.int 2), .fresh]⟩ [.int 1] (some [("c", .int 5)]) ⟨0, none⟩).1 :=
  (packed_call_partial (kw := some [("c", .int 5)]) ⟨by decide, by decide⟩ (by intro ds h; cases h)
    (by rintro k ⟨⟩; exact ⟨by simp, by simp [KeysNodup], by decide, by decide +kernel⟩)).1

/-- `f(1, 2, 3, x=4)` for `def f(a, b)`. -/
example : (packed (fun _ v => some v) ⟨["a", "b"], []⟩ [.int 1, .int 2, .int 3] (some [("x", .int 4)]) ⟨0, none⟩).1 =
    .error .oob :=
  (too_many_arguments_refuted ⟨by decide, by decide⟩ (by decide) (by decide +kernel) (by decide) (by simp)).1

/-- `obj.m(b=7)` for `def m(self, a=1, b=2)` calls `m(1, 2)`. -/
example : (methodCall (fun _ v => some v) ⟨["a", "b"], [.lit (.int 1), .lit (.int 2)]⟩ [] [("b", .int 7)] 0).1.toOption =
    some [.int 1, .int 2] := by decide +kernel

/-- `f(1, 2, 3)` for `def f(a, b)` calls `f(1, 2)`. -/
example : (funcCall (fun _ v => some v) ⟨["a", "b"], []⟩ [.int 1, .int 2, .int 3] []).toOption =
    some [.int 1, .int 2] := by decide +kernel

/-- `f(1, c=3)` for `def f(a, b=2, c=4)` in compiled code. -/
example : (funcCall (fun _ v => some v) ⟨["a", "b", "c"], [.lit (.int 2), .lit (.int 4)]⟩ [.int 1]
    [("c", .int 3)]).toOption = some [.int 1, .int 2, .int 3] := by decide +kernel

end Verif.CallArgs
