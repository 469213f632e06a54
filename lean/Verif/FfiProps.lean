import Verif.FfiOwn

/-!
# Values survive the trip between Python and the runtime -/

namespace Verif.Ffi
open Rc

/-- The values both sides understand. The items of a `dict` are its keys and values in turn. -/
inductive Tree
  | none
  | int (z : Int)
  | flt (bits : Nat)
  | bytes (s : List Nat)
  | str (s : List Nat)
  | node (k : Kind) (ts : List Tree)

mutual
/-- The value as a Python object. -/
def Tree.py : Tree → Py
  | .none => .none
  | .int z => .int z
  | .flt b => .flt b
  | .bytes s => .bytes s
  | .str s => .str s
  | .node k ts => .node k (pys ts)
def pys : List Tree → List Py
  | [] => []
  | t :: ts => t.py :: pys ts
end

mutual
/-- The value as the runtime stores it: short strings in place, everything else behind pointers. -/
def Rep (h : Heap) : Tree → V → Prop
  | .none, v => v = .none
  | .int z, v => v = .int z
  | .flt b, v => v = .flt b
  | .bytes s, v => v = .sbytes s ∨ ∃ a c, v = .ref a ∧ get h a = some c ∧ c.body = .bytes s
  | .str s, v => v = .sstr s ∨ ∃ a c, v = .ref a ∧ get h a = some c ∧ c.body = .str s
  | .node k ts, v => ∃ a c ks, v = .ref a ∧ get h a = some c ∧ c.body = .node k ks ∧ Reps h ts ks
def Reps (h : Heap) : List Tree → List V → Prop
  | [], vs => vs = []
  | t :: ts, vs => ∃ v r, vs = v :: r ∧ Rep h t v ∧ Reps h ts r
end

/-- The value as Python sees it after a call: scalars and text are Python objects, a container is a
wrapper around the object of the runtime. -/
def Den (h : Heap) : Tree → Py → Prop
  | .node k ts, q => ∃ a c ks, q = .obj (some a) ∧ get h a = some c ∧ c.body = .node k ks ∧
      Reps h ts ks
  | t, q => q = t.py

theorem reps_length {h : Heap} : ∀ {ts : List Tree} {vs : List V}, Reps h ts vs → vs.length = ts.length
  | [], _, r => by simp only [Reps] at r; subst r; rfl
  | _ :: _, _, r => by
    simp only [Reps] at r
    obtain ⟨v, r, rfl, _, rr⟩ := r
    simp [reps_length rr]

mutual
theorem rep_keep {h h' : Heap} (k : Keep h h') : ∀ {t : Tree} {v : V}, Rep h t v → Rep h' t v
  | .none, _, r => r
  | .int _, _, r => r
  | .flt _, _, r => r
  | .bytes s, v, r => by
    simp only [Rep] at r ⊢
    rcases r with r | ⟨a, c, e, g, b⟩
    · exact .inl r
    · obtain ⟨c', g', b'⟩ := k a c g
      exact .inr ⟨a, c', e, g', b'.trans b⟩
  | .str s, v, r => by
    simp only [Rep] at r ⊢
    rcases r with r | ⟨a, c, e, g, b⟩
    · exact .inl r
    · obtain ⟨c', g', b'⟩ := k a c g
      exact .inr ⟨a, c', e, g', b'.trans b⟩
  | .node _ _, v, r => by
    simp only [Rep] at r ⊢
    obtain ⟨a, c, ks, e, g, b, rs⟩ := r
    obtain ⟨c', g', b'⟩ := k a c g
    exact ⟨a, c', ks, e, g', b'.trans b, reps_keep k rs⟩
theorem reps_keep {h h' : Heap} (k : Keep h h') : ∀ {ts : List Tree} {vs : List V},
    Reps h ts vs → Reps h' ts vs
  | [], _, r => r
  | _ :: _, _, r => by
    simp only [Reps] at r ⊢
    obtain ⟨v, r, rfl, rv, rr⟩ := r
    exact ⟨v, r, rfl, rep_keep k rv, reps_keep k rr⟩
end

mutual
/-- A value that is still owned is untouched by what is freed elsewhere. -/
theorem rep_sub {h h' : Heap} {Q : List V} (s : Sub h h') (I : Inv h' Q) : ∀ {t : Tree} {v : V},
    (∀ a, v = .ref a → ∃ c, get h' a = some c) → Rep h t v → Rep h' t v
  | .none, _, _, r => r
  | .int _, _, _, r => r
  | .flt _, _, _, r => r
  | .bytes _, v, al, r => by
    simp only [Rep] at r ⊢
    rcases r with r | ⟨a, c, e, g, b⟩
    · exact .inl r
    · obtain ⟨c', g'⟩ := al a e
      obtain ⟨c₀, g₀, b'⟩ := s.body a c' g'
      rw [g] at g₀; cases g₀
      exact .inr ⟨a, c', e, g', b'.trans b⟩
  | .str _, v, al, r => by
    simp only [Rep] at r ⊢
    rcases r with r | ⟨a, c, e, g, b⟩
    · exact .inl r
    · obtain ⟨c', g'⟩ := al a e
      obtain ⟨c₀, g₀, b'⟩ := s.body a c' g'
      rw [g] at g₀; cases g₀
      exact .inr ⟨a, c', e, g', b'.trans b⟩
  | .node _ _, v, al, r => by
    simp only [Rep] at r ⊢
    obtain ⟨a, c, ks, e, g, b, rs⟩ := r
    obtain ⟨c', g'⟩ := al a e
    obtain ⟨c₀, g₀, b'⟩ := s.body a c' g'
    rw [g] at g₀; cases g₀
    refine ⟨a, c', ks, e, g', b'.trans b, reps_sub s I (fun x m => ?_) rs⟩
    exact I.kid_alive g' (by rw [b', b]; exact m)
theorem reps_sub {h h' : Heap} {Q : List V} (s : Sub h h') (I : Inv h' Q) : ∀ {ts : List Tree} {vs : List V},
    (∀ a, .ref a ∈ vs → ∃ c, get h' a = some c) → Reps h ts vs → Reps h' ts vs
  | [], _, _, r => r
  | _ :: _, _, al, r => by
    simp only [Reps] at r ⊢
    obtain ⟨v, r, rfl, rv, rr⟩ := r
    exact ⟨v, r, rfl, rep_sub s I (fun a e => al a (by rw [e]; exact List.mem_cons_self)) rv,
      reps_sub s I (fun a m => al a (List.mem_cons_of_mem _ m)) rr⟩
end

theorem reps_snoc {h : Heap} {t : Tree} {v : V} : ∀ {ts : List Tree} {vs : List V}, Reps h ts vs →
    Rep h t v → Reps h (ts ++ [t]) (vs ++ [v])
  | [], _, r, rv => by
    simp only [Reps] at r
    subst r
    simp only [List.nil_append, Reps]
    exact ⟨v, [], rfl, rv, rfl⟩
  | _ :: _, _, r, rv => by
    simp only [Reps] at r
    obtain ⟨v', r, rfl, rv', rr⟩ := r
    simp only [List.cons_append, Reps]
    exact ⟨v', r ++ [v], rfl, rv', reps_snoc rr rv⟩

theorem reps_get {h : Heap} : ∀ {ts : List Tree} {vs : List V}, Reps h ts vs →
    ∀ (i : Nat) (t : Tree), ts[i]? = some t → ∃ v, vs[i]? = some v ∧ Rep h t v
  | [], _, _, i, t, e => by simp at e
  | _ :: _, _, r, i, t, e => by
    simp only [Reps] at r
    obtain ⟨v', r, rfl, rv', rr⟩ := r
    cases i with
    | zero =>
      simp only [List.getElem?_cons_zero, Option.some.injEq] at e
      subst e
      exact ⟨v', rfl, rv'⟩
    | succ i =>
      simp only [List.getElem?_cons_succ] at e ⊢
      exact reps_get rr i t e

mutual
/-- A stored value stands for one value only. -/
theorem rep_unique {h : Heap} : ∀ {t t' : Tree} {v : V}, Rep h t v → Rep h t' v → t = t'
  | .none, t', v, r, r' => by
    simp only [Rep] at r
    subst r
    cases t' <;> simp [Rep] at r' ⊢
  | .int z, t', v, r, r' => by
    simp only [Rep] at r
    subst r
    cases t' <;> simp [Rep] at r' ⊢
    exact r'
  | .flt z, t', v, r, r' => by
    simp only [Rep] at r
    subst r
    cases t' <;> simp [Rep] at r' ⊢
    exact r'
  | .bytes s, t', v, r, r' => by
    simp only [Rep] at r
    rcases r with rfl | ⟨a, c, rfl, g, b⟩
    · cases t' <;> simp [Rep] at r' ⊢
      exact r'
    · cases t' <;> simp [Rep, g, b] at r' ⊢
      exact r'
  | .str s, t', v, r, r' => by
    simp only [Rep] at r
    rcases r with rfl | ⟨a, c, rfl, g, b⟩
    · cases t' <;> simp [Rep] at r' ⊢
      exact r'
    · cases t' <;> simp [Rep, g, b] at r' ⊢
      exact r'
  | .node k ts, t', v, r, r' => by
    simp only [Rep] at r
    obtain ⟨a, c, ks, rfl, g, b, rs⟩ := r
    cases t' <;> simp [Rep, g, b] at r' ⊢
    obtain ⟨_, ⟨rfl, rfl⟩, rs'⟩ := r'
    exact ⟨rfl, reps_unique rs rs'⟩
theorem reps_unique {h : Heap} : ∀ {ts ts' : List Tree} {vs : List V}, Reps h ts vs → Reps h ts' vs →
    ts = ts'
  | [], ts', vs, r, r' => by
    simp only [Reps] at r
    subst r
    cases ts' <;> simp [Reps] at r' ⊢
  | t :: ts, ts', vs, r, r' => by
    simp only [Reps] at r
    obtain ⟨v, r, rfl, rv, rr⟩ := r
    cases ts' with
    | nil => simp [Reps] at r'
    | cons t' ts' =>
      simp only [Reps] at r'
      obtain ⟨v', w, e, rv', rr'⟩ := r'
      cases e
      rw [rep_unique rv rv', reps_unique rr rr']
end

/-- The runtime compares and hashes stored values as `eq` and `hash` do the values they stand for:
it does not look at addresses or counts. -/
structure Sound (K : Keys) (eq : Tree → Tree → Bool) (hash : Tree → Bool) : Prop where
  eq : ∀ h t t' v v', Rep h t v → Rep h t' v' → K.eq h v v' = eq t t'
  hash : ∀ h t v, Rep h t v → K.hashable h v = hash t

open Classical in
/-- There are such keys for any equality and hashing of values. -/
theorem sound_exists (eq : Tree → Tree → Bool) (hash : Tree → Bool) : ∃ K, Sound K eq hash := by
  refine ⟨⟨fun h v v' => decide (∃ t t', Rep h t v ∧ Rep h t' v' ∧ eq t t' = true),
    fun h v => decide (∃ t, Rep h t v ∧ hash t = true)⟩, ?_, ?_⟩
  · intro h t t' v v' r r'
    rw [Bool.eq_iff_iff]
    simp only [decide_eq_true_eq]
    constructor
    · rintro ⟨u, u', p, p', e⟩
      rwa [rep_unique r p, rep_unique r' p']
    · exact fun e => ⟨t, t', r, r', e⟩
  · intro h t v r
    rw [Bool.eq_iff_iff]
    simp only [decide_eq_true_eq]
    constructor
    · rintro ⟨u, p, e⟩
      rwa [rep_unique r p]
    · exact fun e => ⟨t, r, e⟩

/-- The keys among the items of a `dict`. -/
def treeKeys : List Tree → List Tree
  | k :: _ :: r => k :: treeKeys r
  | _ => []

/-- The keys of a container. -/
def keysIn : Kind → List Tree → List Tree
  | .set, ts => ts
  | .dict, ts => treeKeys ts
  | _, _ => []

mutual
/-- Values that go through: integers of 64 bits, text without surrogates, keys that can be hashed
and differ from each other, and a value for every key. -/
def Fits (eq : Tree → Tree → Bool) (hash : Tree → Bool) : Tree → Prop
  | .int z => -2 ^ 63 ≤ z ∧ z < 2 ^ 63
  | .str s => Text s
  | .node k ts => Even k ts.length ∧ (∀ t ∈ keysIn k ts, hash t = true) ∧
      (keysIn k ts).Pairwise (fun t t' => eq t' t = false) ∧ FitsAll eq hash ts
  | _ => True
def FitsAll (eq : Tree → Tree → Bool) (hash : Tree → Bool) : List Tree → Prop
  | [] => True
  | t :: ts => Fits eq hash t ∧ FitsAll eq hash ts
end

section
variable {K : Keys} {eq : Tree → Tree → Bool} {hash : Tree → Bool}

theorem reps_any (S : Sound K eq hash) {h : Heap} {t : Tree} {v : V} (rv : Rep h t v) :
    ∀ {ts : List Tree} {vs : List V}, Reps h ts vs → (∀ u ∈ ts, eq t u = false) →
    vs.any (K.eq h v) = false
  | [], _, r, _ => by simp only [Reps] at r; subst r; rfl
  | u :: us, _, r, n => by
    simp only [Reps] at r
    obtain ⟨v', r, rfl, rv', rr⟩ := r
    rw [List.any_cons, S.eq h t u v v' rv rv', n u List.mem_cons_self,
      reps_any S rv rr fun x m => n x (List.mem_cons_of_mem _ m)]
    rfl

theorem addAll_rep (S : Sound K eq hash) {h : Heap} : ∀ {ts : List Tree} {vs : List V} {us : List Tree}
    {acc : List V}, Reps h ts vs → Reps h us acc → (∀ t ∈ ts, hash t = true) →
    (us ++ ts).Pairwise (fun t t' => eq t' t = false) →
    addAll K h acc vs = .ok (h, some (acc ++ vs))
  | [], _, us, acc, r, _, _, _ => by
    simp only [Reps] at r
    subst r
    simp [addAll]
  | t :: ts, _, us, acc, r, ra, hs, pw => by
    simp only [Reps] at r
    obtain ⟨v, r, rfl, rv, rr⟩ := r
    have n : ∀ u ∈ us, eq t u = false := fun u m =>
      (List.pairwise_append.1 pw).2.2 u m t List.mem_cons_self
    rw [addAll, S.hash h t v rv, hs t List.mem_cons_self, if_pos rfl, reps_any S rv ra n,
      if_neg (by simp), addAll_rep S rr (reps_snoc ra rv) (fun x m => hs x (List.mem_cons_of_mem _ m))
        (by simpa using pw)]
    simp

theorem keysOf_append : ∀ (acc : List V) (k v : V), acc.length % 2 = 0 →
    keysOf (acc ++ [k, v]) = keysOf acc ++ [k]
  | [], _, _, _ => rfl
  | [_], _, _, l => by simp at l
  | _ :: _ :: r, k, v, l => by
    simp only [List.cons_append, keysOf]
    rw [keysOf_append r k v (by simp at l; omega)]

theorem treeKeys_append : ∀ (acc ts : List Tree), acc.length % 2 = 0 →
    treeKeys (acc ++ ts) = treeKeys acc ++ treeKeys ts
  | [], _, _ => rfl
  | [_], _, l => by simp at l
  | _ :: _ :: r, ts, l => by
    simp only [List.cons_append, treeKeys]
    rw [treeKeys_append r ts (by simp at l; omega)]

theorem reps_keys {h : Heap} : ∀ {ts : List Tree} {vs : List V}, Reps h ts vs →
    Reps h (treeKeys ts) (keysOf vs)
  | [], _, r => by simp only [Reps] at r; subst r; simp [treeKeys, keysOf, Reps]
  | [t], _, r => by
    simp only [Reps] at r
    obtain ⟨v, r, rfl, _, rfl⟩ := r
    simp [treeKeys, keysOf, Reps]
  | t :: u :: ts, _, r => by
    simp only [Reps] at r
    obtain ⟨v, _, rfl, rv, w, r, rfl, _, rr⟩ := r
    simp only [treeKeys, keysOf, Reps]
    exact ⟨v, _, rfl, rv, reps_keys rr⟩

theorem putAll_rep (S : Sound K eq hash) {h : Heap} : ∀ {ts : List Tree} {vs : List V} {us : List Tree}
    {acc : List V}, Reps h ts vs → Reps h us acc → us.length % 2 = 0 → ts.length % 2 = 0 →
    (∀ t ∈ treeKeys ts, hash t = true) →
    (treeKeys us ++ treeKeys ts).Pairwise (fun t t' => eq t' t = false) →
    putAll K h acc vs = .ok (h, some (acc ++ vs))
  | [], _, us, acc, r, _, _, _, _, _ => by
    simp only [Reps] at r
    subst r
    simp [putAll]
  | [_], _, _, _, _, _, _, l, _, _ => by simp at l
  | t :: t' :: ts, _, us, acc, r, ra, lu, lt, hs, pw => by
    simp only [Reps] at r
    obtain ⟨v, _, rfl, rv, v', r, rfl, rv', rr⟩ := r
    simp only [treeKeys] at hs pw
    have n : ∀ u ∈ treeKeys us, eq t u = false := fun u m =>
      (List.pairwise_append.1 pw).2.2 u m t List.mem_cons_self
    have e : us ++ [t, t'] = (us ++ [t]) ++ [t'] := by simp
    have e' : acc ++ [v, v'] = (acc ++ [v]) ++ [v'] := by simp
    rw [putAll, S.hash h t v rv, hs t List.mem_cons_self, if_pos rfl, reps_any S rv (reps_keys ra) n,
      if_neg (by simp), putAll_rep S (us := us ++ [t, t']) rr
        (by rw [e, e']; exact reps_snoc (reps_snoc ra rv) rv')
        (by simp; omega) (by simp at lt; omega) (fun x m => hs x (List.mem_cons_of_mem _ m))
        (by rw [treeKeys_append _ _ lu]; simpa [treeKeys] using pw)]
    simp

theorem make_rep (S : Sound K eq hash) {h : Heap} {k : Kind} {ts : List Tree} {vs : List V}
    (r : Reps h ts vs) (f : Fits eq hash (.node k ts)) :
    make K h k vs = .ok ((alloc h (.node k vs)).1, some (alloc h (.node k vs)).2) := by
  simp only [Fits] at f
  obtain ⟨ev, hs, pw, _⟩ := f
  cases k with
  | list => rfl
  | tuple => rfl
  | set =>
    have e := addAll_rep S (us := []) (acc := []) r (by simp [Reps]) hs pw
    simp only [List.nil_append] at e
    simp only [make, e, bind, Except.bind]
  | dict =>
    have e := putAll_rep S (us := []) (acc := []) r (by simp [Reps]) rfl (ev rfl) hs pw
    simp only [List.nil_append] at e
    simp only [make, e, bind, Except.bind]

theorem get_alloc (h : Heap) (b : Body) : get (alloc h b).1 h.length = some ⟨1, b⟩ := by
  simp only [alloc]
  rw [get_append, if_pos rfl]

mutual
/-- A Python value arrives in the runtime as the value it is. -/
theorem conv_rep (S : Sound K eq hash) : ∀ (t : Tree) {h : Heap}, Fits eq hash t →
    ∃ h' v, conv K h t.py = .ok (h', some v) ∧ Rep h' t v ∧ Keep h h'
  | .none, h, _ => ⟨h, .none, rfl, rfl, (Ext.refl h).live⟩
  | .int z, h, f => by
    simp only [Fits] at f
    refine ⟨h, .int z, ?_, rfl, (Ext.refl h).live⟩
    simp only [Tree.py, conv, asLongLong, if_pos f]
  | .flt b, h, _ => ⟨h, .flt b, rfl, rfl, (Ext.refl h).live⟩
  | .bytes s, h, _ => by
    refine ⟨_, _, rfl, ?_, ?_⟩
    · unfold mkBytes
      split
      · exact .inl rfl
      · exact .inr ⟨h.length, _, rfl, get_alloc h _, rfl⟩
    · unfold mkBytes
      split
      · exact (Ext.refl h).live
      · exact (ext_alloc h _).live
  | .str s, h, f => by
    simp only [Fits] at f
    refine ⟨(mkStr h s).1, (mkStr h s).2, ?_, ?_, ?_⟩
    · simp only [Tree.py, conv, (text_ok (h := h) f).1, (text_ok (h := h) f).2]
      rfl
    · unfold mkStr
      split
      · exact .inl rfl
      · exact .inr ⟨h.length, _, rfl, get_alloc h _, rfl⟩
    · unfold mkStr
      split
      · exact (Ext.refl h).live
      · exact (ext_alloc h _).live
  | .node k ts, h, f => by
    have fs : FitsAll eq hash ts := by
      simp only [Fits] at f
      exact f.2.2.2
    obtain ⟨h₁, vs, e, r, kp⟩ := convAll_rep S ts (h := h) (us := []) (buf := []) fs (by simp [Reps])
    simp only [List.nil_append] at r
    have em := make_rep S r f
    refine ⟨_, _, by simp only [Tree.py, conv, e, bind, Except.bind]; exact em, ?_, ?_⟩
    · simp only [Rep]
      exact ⟨h₁.length, _, vs, rfl, get_alloc h₁ _, rfl, reps_keep (ext_alloc h₁ _).live r⟩
    · intro a c g
      obtain ⟨c₁, g₁, b₁⟩ := kp a c g
      obtain ⟨c₂, g₂, b₂⟩ := (ext_alloc h₁ (.node k vs)).live a c₁ g₁
      exact ⟨c₂, g₂, b₂.trans b₁⟩
theorem convAll_rep (S : Sound K eq hash) : ∀ (ts : List Tree) {h : Heap} {us : List Tree} {buf : List V},
    FitsAll eq hash ts → Reps h us buf →
    ∃ h' vs, convAll K h buf (pys ts) = .ok (h', some vs) ∧ Reps h' (us ++ ts) vs ∧ Keep h h'
  | [], h, us, buf, _, r => ⟨h, buf, rfl, by simpa using r, (Ext.refl h).live⟩
  | t :: ts, h, us, buf, f, r => by
    simp only [FitsAll] at f
    obtain ⟨h₁, v, e₁, r₁, k₁⟩ := conv_rep S t (h := h) f.1
    obtain ⟨h₂, vs, e₂, r₂, k₂⟩ := convAll_rep S ts (us := us ++ [t]) (buf := buf ++ [v]) f.2
      (reps_snoc (reps_keep k₁ r) r₁)
    refine ⟨h₂, vs, ?_, by simpa using r₂, ?_⟩
    · simp only [pys, convAll, e₁, bind, Except.bind]
      exact e₂
    · intro a c g
      obtain ⟨c₁, g₁, b₁⟩ := k₁ a c g
      obtain ⟨c₂, g₂, b₂⟩ := k₂ a c₁ g₁
      exact ⟨c₂, g₂, b₂.trans b₁⟩
end

mutual
theorem fits_sane : ∀ (t : Tree), Fits eq hash t → Sane t.py ∧ Paired t.py ∧ handles t.py = [] ∧
    t.py.overflow = false
  | .none, _ => by simp [Tree.py, Sane, Paired, handles, Py.overflow]
  | .int z, f => by
    simp only [Fits] at f
    simp [-Int.reducePow, Tree.py, Sane, Paired, handles, Py.overflow, f]
  | .flt b, _ => by simp [Tree.py, Sane, Paired, handles, Py.overflow]
  | .bytes s, _ => by simp [Tree.py, Sane, Paired, handles, Py.overflow]
  | .str s, f => by
    simp only [Fits] at f
    simpa [Tree.py, Sane, Paired, handles, Py.overflow] using f
  | .node k ts, f => by
    simp only [Fits] at f
    obtain ⟨a, b, c, d, l⟩ := fits_sanes ts f.2.2.2
    simp only [Tree.py, Sane, Paired, handles, Py.overflow]
    exact ⟨a, ⟨by rw [l]; exact f.1, b⟩, c, d⟩
theorem fits_sanes : ∀ (ts : List Tree), FitsAll eq hash ts → Sanes (pys ts) ∧ Paireds (pys ts) ∧
    handlesAll (pys ts) = [] ∧ Py.overflowAny (pys ts) = false ∧ (pys ts).length = ts.length
  | [], _ => by simp [pys, Sanes, Paireds, handlesAll, Py.overflowAny]
  | t :: ts, f => by
    simp only [FitsAll] at f
    obtain ⟨a, b, c, d⟩ := fits_sane t f.1
    obtain ⟨a', b', c', d', l⟩ := fits_sanes ts f.2
    simp only [pys, Sanes, Paireds, handlesAll, Py.overflowAny, c, c', d, d', List.length_cons, l]
    exact ⟨⟨a, a'⟩, ⟨b, b'⟩, rfl, rfl, by trivial⟩
end

/-- What Python is given for a value of the runtime is that value. -/
theorem ret_den {h : Heap} {t : Tree} {v : V} {Q : List V} (I : Inv h (v :: Q)) (r : Rep h t v) :
    ∃ h' q, ret h v = .ok (h', q) ∧ Inv h' (q.owned ++ Q) ∧ Sub h h' ∧ Den h' t q := by
  obtain ⟨h', q, e, J, s⟩ := ret_ok I
  refine ⟨h', q, e, J, s, ?_⟩
  have text : ∀ {a : Nat} {c : Cell} {p : Py}, v = .ref a → get h a = some c →
      (∃ s, c.body = .bytes s ∧ p = .bytes s) ∨ (∃ s, c.body = .str s ∧ p = .str s) → q = p := by
    rintro a c p rfl g (⟨s, b, rfl⟩ | ⟨s, b, rfl⟩)
    · simp only [ret, g, b, bind, Except.bind] at e
      split at e <;> cases e
      rfl
    · simp only [ret, g, b, bind, Except.bind] at e
      split at e <;> cases e
      rfl
  cases t with
  | none => simp only [Rep] at r; subst r; cases e; rfl
  | int z => simp only [Rep] at r; subst r; cases e; rfl
  | flt z => simp only [Rep] at r; subst r; cases e; rfl
  | bytes s =>
    simp only [Rep] at r
    rcases r with rfl | ⟨a, c, ea, g, b⟩
    · cases e; rfl
    · exact text ea g (.inl ⟨s, b, rfl⟩)
  | str s =>
    simp only [Rep] at r
    rcases r with rfl | ⟨a, c, ea, g, b⟩
    · cases e; rfl
    · exact text ea g (.inr ⟨s, b, rfl⟩)
  | node k ts =>
    simp only [Rep] at r
    obtain ⟨a, c, ks, rfl, g, b, rs⟩ := r
    simp only [ret, g, b] at e
    cases e
    simp only [Den]
    exact ⟨a, c, ks, rfl, g, b, rs⟩

theorem den_sub {h h' : Heap} {Q : List V} (s : Sub h h') {t : Tree} {q : Py}
    (I : Inv h' (q.owned ++ Q)) (d : Den h t q) : Den h' t q := by
  cases t with
  | node k ts =>
    simp only [Den] at d ⊢
    obtain ⟨a, c, ks, rfl, g, b, rs⟩ := d
    have al : ∃ c, get h' a = some c := I.alive (by simp [Py.owned])
    have := rep_sub s I (t := .node k ts) (v := .ref a) (fun x e => by cases e; exact al)
      (by simp only [Rep]; exact ⟨a, c, ks, rfl, g, b, rs⟩)
    simp only [Rep] at this
    obtain ⟨a', c', ks', e, g', b', rs'⟩ := this
    cases e
    exact ⟨a, c', ks', rfl, g', b', rs'⟩
  | none => exact d
  | int z => exact d
  | flt z => exact d
  | bytes z => exact d
  | str z => exact d

/-- A compiled function that computes `F` on values, owns what it should, and throws where `F` is
undefined. -/
def Computes (f : Fn) (F : List Tree → Option Tree) : Prop :=
  ∀ h args R ts, Inv h (args ++ R) → Reps h ts args →
    ∃ h' r, f h args = .ok (h', r) ∧ Inv h' (r.toList ++ (args ++ R)) ∧
      (F ts = none → r = none) ∧ ∀ t, F ts = some t → ∃ v, r = some v ∧ Rep h' t v

/-- Calling a compiled function from Python computes the same as the function itself: the arguments
arrive as the values they are, the result comes back as the value it is, an exception comes back as
an exception, and Python owns exactly the result. -/
theorem call_computes (S : Sound K eq hash) {f : Fn} {F : List Tree → Option Tree} (C : Computes f F)
    {h : Heap} {R : List V} (I : Inv h R) {ts : List Tree} (fits : FitsAll eq hash ts)
    (kw : List (String × Py)) : ∃ h' out, call K f h (pys ts) kw = .ok (h', out) ∧ Inv h' (out.owned ++ R) ∧
      (F ts = none → out = .typeError) ∧
      ∀ t, F ts = some t → ∃ q, out = .value q ∧ Den h' t q := by
  obtain ⟨sn, pd, hd, ov, _⟩ := fits_sanes ts fits
  obtain ⟨h₁, vs, e₁, r₁, _⟩ := convAll_rep S ts (h := h) (us := []) (buf := []) fits (by simp [Reps])
  simp only [List.nil_append] at r₁
  obtain ⟨_, _, L, e₁', G₁, l, _⟩ := convAll_good K I (pys ts) (buf := []) (w := []) sn
    (by rw [hd]; simp) (Good.start I)
  rw [e₁] at e₁'
  cases e₁'
  have := l (.inr rfl) pd
  subst this
  have I₁ : Inv h₁ (vs ++ R) := by simpa using G₁.inv
  obtain ⟨h₂, r, e₂, I₂, ex, val⟩ := C h₁ vs R ts I₁ r₁
  simp only [call, e₁, e₂, bind, Except.bind]
  cases r with
  | none =>
    obtain ⟨h₃, e₃, I₃, _⟩ := destroy_ok (h := h₂) (w := vs) (R := R) I₂
    dsimp only
    rw [e₃]
    refine ⟨h₃, .typeError, rfl, I₃, fun _ => rfl, fun t et => ?_⟩
    obtain ⟨v, e, _⟩ := val t et
    cases e
  | some v =>
    cases ef : F ts with
    | none => cases ex ef
    | some t =>
      obtain ⟨_, e, rv⟩ := val t ef
      cases e
      obtain ⟨h₃, q, e₃, I₃, s₃, d₃⟩ := ret_den (Q := vs ++ R) I₂ rv
      dsimp only
      rw [e₃]
      obtain ⟨h₄, e₄, I₄, s₄, _⟩ := destroy_ok (h := h₃) (w := vs) (R := q.owned ++ R)
        (I₃.congr fun a => by simp only [List.count_append]; omega)
      dsimp only
      rw [e₄]
      dsimp only
      rw [ov]
      refine ⟨h₄, .value q, rfl, I₄, (fun e => nomatch e), fun t' e => ?_⟩
      cases e
      exact ⟨q, rfl, den_sub s₄ I₄ d₃⟩

/-- A copy stands for the same value. -/
theorem copied_rep {h h₁ : Heap} {v v' : V} {t : Tree} (x : Ext h h₁)
    (vr : ∀ a, v = .ref a → ∃ a' c c', v' = .ref a' ∧ get h a = some c ∧ get h₁ a' = some c' ∧
      c'.body = c.body) (vp : v.isPod = true → v' = v ∧ h₁ = h) (rv : Rep h t v) : Rep h₁ t v' := by
  cases hp : v.isPod with
  | true =>
    obtain ⟨e', e''⟩ := vp hp
    rw [e', e'']
    exact rv
  | false =>
    cases v with
    | ref b' =>
      obtain ⟨a', c₀, c', ea, gc, gc', bb⟩ := vr b' rfl
      subst ea
      cases t with
      | bytes s =>
        simp only [Rep] at rv ⊢
        rcases rv with rv | ⟨_, _, ee, gg, b₀⟩
        · cases rv
        · cases ee
          rw [gc] at gg
          cases gg
          exact .inr ⟨a', c', rfl, gc', bb.trans b₀⟩
      | str s =>
        simp only [Rep] at rv ⊢
        rcases rv with rv | ⟨_, _, ee, gg, b₀⟩
        · cases rv
        · cases ee
          rw [gc] at gg
          cases gg
          exact .inr ⟨a', c', rfl, gc', bb.trans b₀⟩
      | node k' ts' =>
        simp only [Rep] at rv ⊢
        obtain ⟨_, _, ks', ee, gg, b₀, rs'⟩ := rv
        cases ee
        rw [gc] at gg
        cases gg
        exact ⟨a', c', ks', rfl, gc', bb.trans b₀, reps_keep x.live rs'⟩
      | none => simp [Rep] at rv
      | int z => simp [Rep] at rv
      | flt z => simp [Rep] at rv
    | _ => cases hp

/-- The function that returns its first argument. -/
def first : Fn := fun h args =>
  match args with
  | [] => .ok (h, none)
  | v :: _ => do
    let (h, v) ← copy h v
    .ok (h, some v)

/-- It computes what it should. -/
theorem first_computes : Computes first List.head? := by
  intro h args R ts I r
  cases ts with
  | nil =>
    simp only [Reps] at r
    subst r
    exact ⟨h, none, rfl, I, fun _ => rfl, fun t e => by simp at e⟩
  | cons t ts =>
    simp only [Reps] at r
    obtain ⟨v, vs, rfl, rv, _⟩ := r
    obtain ⟨h₁, v', e₁, I₁, x, _, vr, vp⟩ := copy_ok (v := v) I fun a e =>
      I.alive (by rw [e]; simp)
    refine ⟨h₁, some v', ?_, I₁, fun e => by simp at e, fun t' e => ?_⟩
    · simp only [first, e₁, bind, Except.bind]
    · simp only [List.head?_cons, Option.some.injEq] at e
      subst e
      exact ⟨v', rfl, copied_rep x vr vp rv⟩

/-- A value that is given to the runtime and returned is the value it was. -/
theorem round_trip (S : Sound K eq hash) {h : Heap} {R : List V} (I : Inv h R) {t : Tree}
    (f : Fits eq hash t) : ∃ h' q, call K first h [t.py] [] = .ok (h', .value q) ∧ Den h' t q ∧
      Inv h' (q.owned ++ R) := by
  obtain ⟨h', out, e, J, _, val⟩ := call_computes S first_computes I (ts := [t])
    (by simp only [FitsAll]; exact ⟨f, trivial⟩) []
  obtain ⟨q, rfl, d⟩ := val t rfl
  exact ⟨h', q, e, d, J⟩

/-! ## Values that do not come back as they were -/

/-- A `bool` comes back as an integer. -/
theorem bool_refuted (h : Heap) (b : Bool) (kw : List (String × Py)) :
    call K first h [.bool b] kw = .ok (h, .value (.int (if b then 1 else 0))) := by
  have d : ∀ z, destroy h [V.int z] = .ok h := fun z => by simp [destroy, release]
  simp only [call, convAll, conv, bind, Except.bind, List.nil_append, first, copy, ret, d,
    Py.overflowAny, Py.overflow, Bool.or_self, Bool.false_eq_true, if_false]

/-- An integer that does not fit: the function runs on `-1`, and whatever it did stays done, but
Python is given an error in place of the result. -/
theorem bigInt_refuted (h h₁ : Heap) (z y : Int) (o : z < -2 ^ 63 ∨ 2 ^ 63 ≤ z) (f : Fn)
    (ran : f h [.int (-1)] = .ok (h₁, some (.int y))) (kw : List (String × Py)) :
    call K f h [.int z] kw = .ok (h₁, .systemError) := by
  have n : ¬ (-2 ^ 63 ≤ z ∧ z < 2 ^ 63) := by
    generalize (2 : Int) ^ 63 = m at *
    omega
  have d : destroy h₁ [V.int (-1)] = .ok h₁ := by
    simp [destroy, release]
  have d' : destroy h₁ [] = .ok h₁ := by
    simp only [destroy]
    cases weight h₁ + ([] : List V).length <;> rfl
  simp only [call, convAll, conv, asLongLong, if_neg n, bind, Except.bind, List.nil_append, ran, ret, d,
    Py.overflowAny, Py.overflow, decide_eq_false n, Bool.not_false, Bool.true_or, if_true, Py.owned, d']

/-- Two different integers that do not fit are one key. -/
theorem bigKeys_refuted (h : Heap) (z z' : Int) (o : z < -2 ^ 63 ∨ 2 ^ 63 ≤ z)
    (o' : z' < -2 ^ 63 ∨ 2 ^ 63 ≤ z') (hs : ∀ z, K.hashable h (.int z) = true)
    (rf : ∀ z, K.eq h (.int z) (.int z) = true) (x y : Int) (f : -2 ^ 63 ≤ x ∧ x < 2 ^ 63)
    (f' : -2 ^ 63 ≤ y ∧ y < 2 ^ 63) :
    conv K h (.node .dict [.int z, .int x, .int z', .int y]) =
      .ok (h ++ [some ⟨1, .node .dict [.int (-1), .int x]⟩], some (.ref h.length)) := by
  have n : ¬ (-2 ^ 63 ≤ z ∧ z < 2 ^ 63) := by
    generalize (2 : Int) ^ 63 = m at *
    omega
  have n' : ¬ (-2 ^ 63 ≤ z' ∧ z' < 2 ^ 63) := by
    generalize (2 : Int) ^ 63 = m at *
    omega
  have d : destroy h [.int (-1), .int y] = .ok h := by
    simp [destroy, release]
  simp only [conv, convAll, asLongLong, if_neg n, if_neg n', if_pos f, if_pos f', bind, Except.bind,
    List.nil_append, List.cons_append, make, putAll, hs, if_true, keysOf, List.any_nil, List.any_cons,
    rf, Bool.true_or, d, alloc, Bool.false_eq_true, if_false]

/-- Keyword arguments are not looked at: with or without them the call is the same. -/
theorem call_ignores_kwargs_refuted {f : Fn} {h : Heap} {args : List Py} (kw kw' : List (String × Py)) :
    call K f h args kw = call K f h args kw' := rfl

/-- Reading an item of a container that came back from a call gives the item, and the container is as
before. -/
theorem item_den {h : Heap} {R : List V} {k : Kind} {ts : List Tree} {a : Nat} (I : Inv h (.ref a :: R))
    (d : Den h (.node k ts) (.obj (some a))) (i : Nat) (t : Tree) (e : ts[i]? = some t) :
    ∃ c ks v h₁ v' h₂ q, get h a = some c ∧ c.body = .node k ks ∧ ks[i]? = some v ∧
      copy h v = .ok (h₁, v') ∧ ret h₁ v' = .ok (h₂, q) ∧ Inv h₂ (q.owned ++ .ref a :: R) ∧
      Den h₂ t q ∧ Den h₂ (.node k ts) (.obj (some a)) := by
  simp only [Den] at d
  obtain ⟨_, c, ks, eo, g, b, rs⟩ := d
  cases eo
  obtain ⟨v, ev, rv⟩ := reps_get rs i t e
  have mv : v ∈ ks := List.mem_of_getElem? ev
  obtain ⟨h₁, v', e₁, I₁, x, _, vr, vp⟩ := copy_ok (v := v) I fun a' ea =>
    I.kid_alive g (by rw [b]; exact ea ▸ mv)
  have rn : Rep h₁ (.node k ts) (.ref a) :=
    rep_keep x.live (by simp only [Rep]; exact ⟨a, c, ks, rfl, g, b, rs⟩)
  have rv' : Rep h₁ t v' := copied_rep x vr vp rv
  obtain ⟨h₂, q, e₂, I₂, s₂, d₂⟩ := ret_den I₁ rv'
  refine ⟨c, ks, v, h₁, v', h₂, q, g, b, ev, e₁, e₂, I₂, d₂, ?_⟩
  refine den_sub (Q := q.owned ++ R) s₂ (I₂.congr fun x => ?_) (?_ : Den h₁ _ _)
  · simp only [Py.owned, List.count_append, List.count_cons, List.count_nil]
    omega
  · simp only [Rep] at rn
    obtain ⟨a', c', ks', ee, gg, bb, rr⟩ := rn
    cases ee
    simp only [Den]
    exact ⟨a, c', ks', rfl, gg, bb, rr⟩

/-- A run: a list with bytes that are stored in place and bytes that are not. -/
example : call ⟨fun _ _ _ => false, fun _ _ => true⟩ first []
    [.node .list [.bytes [104, 105], .bytes (List.replicate 17 7)]] [] =
      .ok ([some ⟨1, .bytes (List.replicate 17 7)⟩,
        some ⟨1, .node .list [.sbytes [104, 105], .ref 0]⟩], .value (.obj (some 1))) := rfl

end
end Verif.Ffi
