import Verif.Ffi
import Verif.RcProps
import Verif.Utf8Props

/-!
# Calls from Python own what they should

Converting arguments, calling and returning leave every reference count exact: what was made for the
call is freed exactly once, whether the conversion of some argument fails, the function throws, or
all goes well. -/

namespace Verif.Ffi
open Rc

/-- The state in the middle of a call that started with heap `h₀` and owners `R`: the counts are
exact if `w` are owned as well, what was there is still there, and new objects only own older
ones. -/
structure Good (h₀ : Heap) (R : List V) (h : Heap) (w : List V) : Prop where
  inv : Inv h (w ++ R)
  ext : Ext h₀ h
  acyc : Acyc h₀.length h

variable {h₀ h : Heap} {R w : List V}

theorem Good.congr {w' : List V} (G : Good h₀ R h w)
    (e : ∀ a, w'.count (.ref a) = w.count (.ref a)) : Good h₀ R h w' :=
  ⟨G.inv.congr fun a => by rw [List.count_append, List.count_append, e], G.ext, G.acyc⟩

theorem Good.start (I : Inv h R) : Good h R h [] :=
  ⟨I, Ext.refl h, fun _ _ l g => by have := get_lt g; omega⟩

theorem Good.cons_pod {v : V} (p : v.isPod = true) (G : Good h₀ R h w) : Good h₀ R h (v :: w) :=
  ⟨(Inv.cons_pod p).2 G.inv, G.ext, G.acyc⟩

theorem Good.alloc {b : Body} (G : Good h₀ R h (b.kids ++ w)) :
    Good h₀ R (alloc h b).1 ((Rc.alloc h b).2 :: w) := by
  have I : Inv h (b.kids ++ (w ++ R)) := by
    have := G.inv
    rwa [List.append_assoc] at this
  exact ⟨inv_alloc I, G.ext.trans (ext_alloc _ _), acyc_alloc I G.acyc⟩

theorem acyc_of {n : Nat} {h h' : Heap} (A : Acyc n h)
    (o : ∀ a c', get h' a = some c' → (∃ c, get h a = some c ∧ c'.body = c.body) ∨
        (h.length ≤ a ∧ c'.body.kids = [])) : Acyc n h' := by
  intro a c l g b m
  rcases o a c g with ⟨c₀, g₀, e⟩ | ⟨_, k⟩
  · exact A a c₀ l g₀ b (e ▸ m)
  · rw [k] at m; cases m

theorem Good.copy {v : V} (G : Good h₀ R h w) (al : ∀ a, v = .ref a → ∃ c, get h a = some c) :
    ∃ h' v', copy h v = .ok (h', v') ∧ Good h₀ R h' (v' :: w) ∧ (v.isPod = false → v'.isPod = false) := by
  obtain ⟨h', v', e, I, x, o, vr, _⟩ := copy_ok G.inv al
  refine ⟨h', v', e, ⟨I, G.ext.trans x, acyc_of G.acyc o⟩, fun p => ?_⟩
  cases v with
  | ref a =>
    obtain ⟨a', _, _, e', _⟩ := vr a rfl
    rw [e']
    rfl
  | _ => cases p

theorem Good.retain {a : Nat} (G : Good h₀ R h w) (m : .ref a ∈ R) :
    ∃ h', retain h a = .ok h' ∧ Good h₀ R h' (.ref a :: w) := by
  obtain ⟨c, g⟩ := G.inv.alive (a := a) (List.mem_append_right _ m)
  refine ⟨_, by simp only [Ffi.retain, g], inv_share G.inv g, G.ext.trans (ext_set g rfl), ?_⟩
  refine acyc_of G.acyc fun b c' g' => ?_
  rw [get_set (get_lt g)] at g'
  by_cases q : b = a
  · subst q
    rw [if_pos rfl] at g'
    cases g'
    exact .inl ⟨c, g, rfl⟩
  · rw [if_neg q] at g'
    exact .inl ⟨c', g', rfl⟩

theorem Good.destroy {d : List V} (I₀ : Inv h₀ R) (G : Good h₀ R h (d ++ w)) :
    ∃ h', destroy h d = .ok h' ∧ Good h₀ R h' w ∧ Sub h h' := by
  obtain ⟨h', e, J, S, F⟩ := destroy_ok (h := h) (w := d) (R := w ++ R)
    (by have := G.inv; rwa [List.append_assoc] at this)
  refine ⟨h', e, ⟨J, G.ext.sub S (F h₀ R (fun a => by rw [List.count_append]; omega) I₀ G.ext.live),
    G.acyc.sub S⟩, S⟩

theorem mkBytes_good (s : List Nat) (G : Good h₀ R h w) :
    Good h₀ R (mkBytes h s).1 ((mkBytes h s).2 :: w) := by
  unfold mkBytes
  split
  · exact G.cons_pod rfl
  · exact G.alloc (b := .bytes s)

theorem mkStr_good (s : List Nat) (G : Good h₀ R h w) :
    Good h₀ R (mkStr h s).1 ((mkStr h s).2 :: w) := by
  unfold mkStr
  split
  · exact G.cons_pod rfl
  · exact G.alloc (b := .str s)

/-- A Python `str` without surrogates. -/
def Text (s : List Nat) : Prop := ∀ x ∈ s, x ≤ 0x10FFFF ∧ isSurrogate x = false

theorem text_ok {s : List Nat} (t : Text s) : s.any isSurrogate = false ∧
    mkUnicode h s = .ok ((mkStr h s).1, some (mkStr h s).2) := by
  refine ⟨?_, ?_⟩
  · rw [List.any_eq_false]
    intro x m
    simp [(t x m).2]
  · unfold mkUnicode
    rw [Utf8.decode_encode s fun x m => (t x m).1]

mutual
/-- Python objects that the extension module can be given: text has no surrogates, and there are no
`Any` objects. -/
def Sane : Py → Prop
  | .str s => Text s
  | .node _ ps => Sanes ps
  | .any _ => False
  | _ => True
def Sanes : List Py → Prop
  | [] => True
  | p :: ps => Sane p ∧ Sanes ps
end

mutual
/-- The handles of the wrappers in a Python object. -/
def handles : Py → List Nat
  | .node _ ps => handlesAll ps
  | .obj (some a) => [a]
  | .func a => [a]
  | _ => []
def handlesAll : List Py → List Nat
  | [] => []
  | p :: ps => handles p ++ handlesAll ps
end

/-- Every key can be hashed. -/
def Keys.total (K : Keys) : Prop := ∀ h v, K.hashable h v = true

theorem addAll_good (K : Keys) (I₀ : Inv h₀ R) : ∀ (vs : List V) {h : Heap} {acc w : List V},
    Good h₀ R h (acc ++ (vs ++ w)) →
    ∃ h' r L, addAll K h acc vs = .ok (h', r) ∧ Good h₀ R h' (r.getD [] ++ (L ++ w)) ∧
      (K.total ∨ r.isSome = true → L = [])
  | [], h, acc, w, G => ⟨h, some acc, [], rfl, G, fun _ => rfl⟩
  | v :: vs, h, acc, w, G => by
    simp only [addAll]
    by_cases hs : K.hashable h v = true
    · rw [if_pos hs]
      by_cases dup : acc.any (K.eq h v) = true
      · rw [if_pos dup]
        obtain ⟨h', e, G', _⟩ := Good.destroy (d := [v]) (w := acc ++ (vs ++ w)) I₀
          (G.congr fun a => by simp only [List.count_append, List.count_cons, List.count_nil]; omega)
        rw [e]
        exact addAll_good K I₀ vs G'
      · rw [if_neg dup]
        exact addAll_good K I₀ vs (G.congr fun a => by
          simp only [List.count_append, List.count_cons, List.count_nil]; omega)
    · rw [if_neg hs]
      obtain ⟨h', e, G', _⟩ := Good.destroy (d := v :: acc) (w := vs ++ w) I₀
        (G.congr fun a => by
          simp only [List.cons_append, List.count_append, List.count_cons, List.count_nil]; omega)
      rw [e]
      exact ⟨h', none, vs, rfl, G', fun t => t.elim (fun t => absurd (t h v) hs) nofun⟩

theorem putAll_good (K : Keys) (I₀ : Inv h₀ R) : ∀ (vs : List V) {h : Heap} {acc w : List V},
    Good h₀ R h (acc ++ (vs ++ w)) →
    ∃ h' r L, putAll K h acc vs = .ok (h', r) ∧ Good h₀ R h' (r.getD [] ++ (L ++ w)) ∧
      (K.total ∨ r.isSome = true → vs.length % 2 = 0 → L = [])
  | [], h, acc, w, G => ⟨h, some acc, [], rfl, G, fun _ _ => rfl⟩
  | [v], h, acc, w, G => ⟨h, some acc, [v], rfl, G, fun _ l => by simp at l⟩
  | k :: v :: vs, h, acc, w, G => by
    simp only [putAll]
    by_cases hs : K.hashable h k = true
    · rw [if_pos hs]
      by_cases dup : (keysOf acc).any (K.eq h k) = true
      · rw [if_pos dup]
        obtain ⟨h', e, G', _⟩ := Good.destroy (d := [k, v]) (w := acc ++ (vs ++ w)) I₀
          (G.congr fun a => by simp only [List.count_append, List.count_cons, List.count_nil]; omega)
        rw [e]
        obtain ⟨h'', r, L, e', G'', t⟩ := putAll_good K I₀ vs G'
        exact ⟨h'', r, L, e', G'', fun K l => t K (by simp at l; omega)⟩
      · rw [if_neg dup]
        obtain ⟨h'', r, L, e', G'', t⟩ := putAll_good K I₀ vs (acc := acc ++ [k, v]) (w := w)
          (G.congr fun a => by
            simp only [List.count_append, List.count_cons, List.count_nil]; omega)
        exact ⟨h'', r, L, e', G'', fun K l => t K (by simp at l; omega)⟩
    · rw [if_neg hs]
      obtain ⟨h', e, G', _⟩ := Good.destroy (d := k :: v :: acc) (w := vs ++ w) I₀
        (G.congr fun a => by
          simp only [List.cons_append, List.count_append, List.count_cons, List.count_nil]; omega)
      rw [e]
      exact ⟨h', none, vs, rfl, G', fun t _ => t.elim (fun t => absurd (t h k) hs) nofun⟩

/-- A `dict` is given by keys and values. -/
def Even (k : Kind) (n : Nat) : Prop := k = .dict → n % 2 = 0

theorem make_good (K : Keys) (I₀ : Inv h₀ R) {k : Kind} {buf : List V}
    (G : Good h₀ R h (buf ++ w)) :
    ∃ h' r L, make K h k buf = .ok (h', r) ∧ Good h₀ R h' (r.toList ++ (L ++ w)) ∧
      (K.total ∨ r.isSome = true → Even k buf.length → L = []) := by
  cases k with
  | list => exact ⟨_, _, [], rfl, Good.alloc (b := .node .list buf) G, fun _ _ => rfl⟩
  | tuple => exact ⟨_, _, [], rfl, Good.alloc (b := .node .tuple buf) G, fun _ _ => rfl⟩
  | set =>
    obtain ⟨h₁, r, L, e, G₁, t⟩ := addAll_good K I₀ buf (acc := []) G
    simp only [make, e, bind, Except.bind]
    cases r with
    | none => exact ⟨h₁, none, L, rfl, G₁, fun K _ => t (K.imp id nofun)⟩
    | some ks => exact ⟨_, _, L, rfl, Good.alloc (b := .node .set ks) G₁, fun _ _ => t (.inr rfl)⟩
  | dict =>
    obtain ⟨h₁, r, L, e, G₁, t⟩ := putAll_good K I₀ buf (acc := []) G
    simp only [make, e, bind, Except.bind]
    cases r with
    | none => exact ⟨h₁, none, L, rfl, G₁, fun K ev => t (K.imp id nofun) (ev rfl)⟩
    | some ks => exact ⟨_, _, L, rfl, Good.alloc (b := .node .dict ks) G₁, fun _ ev => t (.inr rfl) (ev rfl)⟩

mutual
/-- The number of items of every `dict` in a Python object is even. -/
def Paired : Py → Prop
  | .node k ps => Even k ps.length ∧ Paireds ps
  | _ => True
def Paireds : List Py → Prop
  | [] => True
  | p :: ps => Paired p ∧ Paireds ps
end

mutual
/-- The conversion of a Python object: nothing is touched after it was freed, and the result owns
one reference; `L` is what a key that cannot be hashed makes it forget. -/
theorem conv_good (K : Keys) (I₀ : Inv h₀ R) : ∀ (p : Py) {h : Heap} {w : List V},
    Sane p → (∀ a ∈ handles p, V.ref a ∈ R) → Good h₀ R h w →
    ∃ h' r L, conv K h p = .ok (h', r) ∧ Good h₀ R h' (r.toList ++ (L ++ w)) ∧
      (K.total ∨ r.isSome = true → Paired p → L = [])
  | .none, h, w, _, _, G => ⟨h, some .none, [], rfl, G.cons_pod rfl, fun _ _ => rfl⟩
  | .bool b, h, w, _, _, G => ⟨h, _, [], rfl, G.cons_pod rfl, fun _ _ => rfl⟩
  | .int z, h, w, _, _, G => ⟨h, _, [], rfl, G.cons_pod rfl, fun _ _ => rfl⟩
  | .flt z, h, w, _, _, G => ⟨h, _, [], rfl, G.cons_pod rfl, fun _ _ => rfl⟩
  | .bytes s, h, w, _, _, G => ⟨_, _, [], rfl, mkBytes_good s G, fun _ _ => rfl⟩
  | .str s, h, w, t, _, G => by
    simp only [Sane] at t
    refine ⟨_, some (mkStr h s).2, [], ?_, mkStr_good s G, fun _ _ => rfl⟩
    simp only [conv, (text_ok (h := h) t).1, (text_ok (h := h) t).2]
    rfl
  | .node k ps, h, w, t, m, G => by
    simp only [Sane] at t
    simp only [handles] at m
    obtain ⟨h₁, r, L₁, e₁, G₁, t₁, l₁⟩ := convAll_good K I₀ ps (buf := []) (w := w) t m G
    simp only [conv, e₁, bind, Except.bind]
    cases r with
    | none => exact ⟨h₁, none, L₁, rfl, G₁, fun Kt p => t₁ (Kt.imp id nofun) (by simp only [Paired] at p; exact p.2)⟩
    | some buf =>
      obtain ⟨h₂, r₂, L₂, e₂, G₂, t₂⟩ := make_good K I₀ (k := k) (buf := buf) (w := L₁ ++ w) G₁
      refine ⟨h₂, r₂, L₂ ++ L₁, e₂, by rw [List.append_assoc]; exact G₂, fun Kt p => ?_⟩
      simp only [Paired] at p
      have e := l₁ buf rfl
      rw [t₂ Kt (by rw [e]; simpa using p.1), t₁ (.inr rfl) p.2]
      rfl
  | .obj none, h, w, _, _, G => ⟨h, _, [], rfl, G.cons_pod rfl, fun _ _ => rfl⟩
  | .obj (some a), h, w, _, m, G => by
    obtain ⟨h', e, G'⟩ := G.retain (a := a) (m a (by simp [handles]))
    refine ⟨h', some (.ref a), [], ?_, G', fun _ _ => rfl⟩
    simp only [conv, e, bind, Except.bind]
  | .func a, h, w, _, m, G => by
    obtain ⟨h', v, e, G', _⟩ := G.copy (v := .ref a) (fun b eb => by
      cases eb
      exact G.inv.alive (List.mem_append_right _ (m a (by simp [handles]))))
    refine ⟨h', some v, [], ?_, G', fun _ _ => rfl⟩
    simp only [conv, e, bind, Except.bind]
  | .any v, h, w, t, _, _ => by simp only [Sane] at t
  | .other, h, w, _, _, G => ⟨h, none, [], rfl, G, fun _ _ => rfl⟩
theorem convAll_good (K : Keys) (I₀ : Inv h₀ R) : ∀ (ps : List Py) {h : Heap} {buf w : List V},
    Sanes ps → (∀ a ∈ handlesAll ps, V.ref a ∈ R) → Good h₀ R h (buf ++ w) →
    ∃ h' r L, convAll K h buf ps = .ok (h', r) ∧ Good h₀ R h' (r.getD [] ++ (L ++ w)) ∧
      (K.total ∨ r.isSome = true → Paireds ps → L = []) ∧ (∀ b, r = some b → b.length = buf.length + ps.length)
  | [], h, buf, w, _, _, G => ⟨h, some buf, [], rfl, G, fun _ _ => rfl, fun b e => by cases e; rfl⟩
  | p :: ps, h, buf, w, t, m, G => by
    simp only [Sanes] at t
    simp only [handlesAll, List.mem_append] at m
    obtain ⟨h₁, r, L₁, e₁, G₁, t₁⟩ := conv_good K I₀ p t.1 (fun a q => m a (.inl q)) G
    simp only [convAll, e₁, bind, Except.bind]
    cases r with
    | none =>
      obtain ⟨h₂, e₂, G₂, _⟩ := Good.destroy (d := buf) (w := L₁ ++ w) I₀ (G₁.congr fun a => by
        simp only [Option.toList, List.nil_append, List.count_append]; omega)
      dsimp only
      rw [e₂]
      exact ⟨h₂, none, L₁, rfl, G₂, fun Kt q => t₁ (Kt.imp id nofun) (by simp only [Paireds] at q; exact q.1),
        fun b e => by cases e⟩
    | some v =>
      obtain ⟨h₂, r₂, L₂, e₂, G₂, t₂, l₂⟩ := convAll_good K I₀ ps (buf := buf ++ [v]) (w := L₁ ++ w)
        t.2 (fun a q => m a (.inr q)) (G₁.congr fun a => by
          simp only [Option.toList, List.count_append, List.count_cons, List.count_nil]; omega)
      refine ⟨h₂, r₂, L₂ ++ L₁, e₂, by rw [List.append_assoc]; exact G₂, fun Kt q => ?_,
        fun b e => ?_⟩
      · simp only [Paireds] at q
        rw [t₂ Kt q.2, t₁ (.inr rfl) q.1]
        rfl
      · have := l₂ b e
        simp only [List.length_append, List.length_cons, List.length_nil] at *
        omega
end

/-- A conversion that fails leaves the heap as it was: everything that was made for it is freed,
and the wrapped objects have the counts they had. -/
theorem conv_fails_clean (K : Keys) (I : Inv h R) {p : Py} (s : Sane p) (pd : Paired p)
    (m : ∀ a ∈ handles p, V.ref a ∈ R) (Kt : K.total) :
    ∃ h' r, conv K h p = .ok (h', r) ∧ (r = none → ∀ a, get h' a = get h a) := by
  obtain ⟨h', r, L, e, G, t⟩ := conv_good K I p s m (Good.start I)
  have := t (.inl Kt) pd
  subst this
  refine ⟨h', r, e, fun er => ?_⟩
  subst er
  exact restored I G.inv G.ext G.acyc

/-- A conversion that succeeds makes nothing but its result: destroying the result brings the heap
back to what it was. -/
theorem conv_then_destroy (K : Keys) (I : Inv h R) {p : Py} (s : Sane p) (pd : Paired p)
    (m : ∀ a ∈ handles p, V.ref a ∈ R) (Kt : K.total) :
    ∃ h' r, conv K h p = .ok (h', r) ∧
      ∀ v, r = some v → ∃ h'', destroy h' [v] = .ok h'' ∧ ∀ a, get h'' a = get h a := by
  obtain ⟨h', r, L, e, G, t⟩ := conv_good K I p s m (Good.start I)
  have := t (.inl Kt) pd
  subst this
  refine ⟨h', r, e, fun v ev => ?_⟩
  subst ev
  obtain ⟨h'', e'', G'', _⟩ := Good.destroy (d := [v]) (w := []) I G
  exact ⟨h'', e'', restored I G''.inv G''.ext G''.acyc⟩

/-! ## Returning -/

theorem ret_ok {v : V} {Q : List V} (I : Inv h (v :: Q)) :
    ∃ h' q, ret h v = .ok (h', q) ∧ Inv h' (q.owned ++ Q) ∧ Sub h h' := by
  cases v with
  | ref a =>
    obtain ⟨c, g⟩ := I.alive (a := a) List.mem_cons_self
    obtain ⟨h', e, J, S, _⟩ := destroy_ok (h := h) (w := [.ref a]) (R := Q) I
    simp only [ret, g]
    cases eb : c.body with
    | bytes s =>
      refine ⟨h', .bytes s, ?_, J, S⟩
      simp only [e, bind, Except.bind]
    | str s =>
      refine ⟨h', .str s, ?_, J, S⟩
      simp only [e, bind, Except.bind]
    | node k ks => exact ⟨h, .obj (some a), rfl, I, Sub.refl h⟩
    | func id => exact ⟨h, .func a, rfl, I, Sub.refl h⟩
  | none => exact ⟨h, _, rfl, (Inv.cons_pod rfl).1 I, Sub.refl h⟩
  | int z => exact ⟨h, _, rfl, (Inv.cons_pod rfl).1 I, Sub.refl h⟩
  | flt z => exact ⟨h, _, rfl, (Inv.cons_pod rfl).1 I, Sub.refl h⟩
  | sbytes z => exact ⟨h, _, rfl, (Inv.cons_pod rfl).1 I, Sub.refl h⟩
  | sstr z => exact ⟨h, _, rfl, (Inv.cons_pod rfl).1 I, Sub.refl h⟩

/-- A function of the runtime that keeps counts exact, borrows its arguments and returns a value of
its own. -/
def Fair (f : Fn) : Prop :=
  ∀ h args R, Inv h (args ++ R) →
    ∃ h' r, f h args = .ok (h', r) ∧ Inv h' (r.toList ++ (args ++ R))

/-- What Python owns after a call. -/
def Out.owned : Out → List V
  | .value q => q.owned
  | _ => []

/-- A call of a compiled function from Python: nothing is touched after it was freed, and at the end
the counts are exact with the result as the only new owner, whatever happened. -/
theorem call_ok (K : Keys) {f : Fn} (F : Fair f) (I : Inv h R) {args : List Py}
    {kw : List (String × Py)} (s : Sanes args) (m : ∀ a ∈ handlesAll args, V.ref a ∈ R) :
    ∃ h' out L, call K f h args kw = .ok (h', out) ∧ Inv h' (out.owned ++ (L ++ R)) ∧
      (K.total → Paireds args → L = []) := by
  obtain ⟨h₁, buf, L, e₁, G₁, t, _⟩ := convAll_good K I args (buf := []) (w := []) s m (Good.start I)
  have I₁ := G₁.inv
  simp only [call, e₁, bind, Except.bind]
  cases buf with
  | none =>
    refine ⟨h₁, .typeError, L, rfl, ?_, fun Kt => t (.inl Kt)⟩
    simpa [Out.owned] using I₁
  | some buf =>
    obtain ⟨h₂, r, e₂, I₂⟩ := F h₁ buf (L ++ R) (by simpa using I₁)
    dsimp only
    rw [e₂]
    cases r with
    | none =>
      obtain ⟨h₃, e₃, I₃, _⟩ := destroy_ok (h := h₂) (w := buf) (R := L ++ R) I₂
      dsimp only
      rw [e₃]
      exact ⟨h₃, .typeError, L, rfl, I₃, fun Kt => t (.inl Kt)⟩
    | some r =>
      obtain ⟨h₃, q, e₃, I₃, _⟩ := ret_ok (v := r) (Q := buf ++ (L ++ R)) I₂
      dsimp only
      rw [e₃]
      obtain ⟨h₄, e₄, I₄, _⟩ := destroy_ok (h := h₃) (w := buf) (R := q.owned ++ (L ++ R))
        (I₃.congr fun a => by simp only [List.count_append]; omega)
      dsimp only
      rw [e₄]
      dsimp only
      by_cases o : Py.overflowAny args = true
      · rw [if_pos o]
        obtain ⟨h₅, e₅, I₅, _⟩ := destroy_ok (h := h₄) (w := q.owned) (R := L ++ R) I₄
        rw [e₅]
        exact ⟨h₅, .systemError, L, rfl, I₅, fun Kt => t (.inl Kt)⟩
      · rw [if_neg o]
        exact ⟨h₄, .value q, L, rfl, I₄, fun Kt => t (.inl Kt)⟩

/-- The same for the call of an operator. -/
theorem opCall_ok (K : Keys) {f : Fn} (F : Fair f) (I : Inv h R) {args : List Py}
    (s : Sanes args) (m : ∀ a ∈ handlesAll args, V.ref a ∈ R) :
    ∃ h' out L, opCall K f h args = .ok (h', out) ∧ Inv h' (out.owned ++ (L ++ R)) ∧
      (K.total → Paireds args → L = []) := by
  obtain ⟨h₁, buf, L, e₁, G₁, t, _⟩ := convAll_good K I args (buf := []) (w := []) s m (Good.start I)
  have I₁ := G₁.inv
  simp only [opCall, e₁, bind, Except.bind]
  cases buf with
  | none =>
    refine ⟨h₁, .typeError, L, rfl, ?_, fun Kt => t (.inl Kt)⟩
    simpa [Out.owned] using I₁
  | some buf =>
    obtain ⟨h₂, r, e₂, I₂⟩ := F h₁ buf (L ++ R) (by simpa using I₁)
    dsimp only
    rw [e₂]
    obtain ⟨h₃, e₃, I₃, _⟩ := destroy_ok (h := h₂) (w := buf) (R := r.toList ++ (L ++ R))
      (I₂.congr fun a => by simp only [List.count_append]; omega)
    dsimp only
    rw [e₃]
    cases r with
    | none => exact ⟨h₃, .typeError, L, rfl, I₃, fun Kt => t (.inl Kt)⟩
    | some r =>
      obtain ⟨h₄, q, e₄, I₄, _⟩ := ret_ok (v := r) (Q := L ++ R) I₃
      dsimp only
      rw [e₄]
      dsimp only
      by_cases o : Py.overflowAny args = true
      · rw [if_pos o]
        obtain ⟨h₅, e₅, I₅, _⟩ := destroy_ok (h := h₄) (w := q.owned) (R := L ++ R) I₄
        rw [e₅]
        exact ⟨h₅, .systemError, L, rfl, I₅, fun Kt => t (.inl Kt)⟩
      · rw [if_neg o]
        exact ⟨h₄, .value q, L, rfl, I₄, fun Kt => t (.inl Kt)⟩

/-! ## Python functions called by the runtime -/

theorem retAll_ok : ∀ (vs : List V) {h : Heap} {Q : List V}, Inv h Q → (∀ a, .ref a ∈ vs → V.ref a ∈ Q) →
    ∃ h' ps, retAll h vs = .ok (h', ps) ∧ Inv h' (ps.flatMap Py.owned ++ Q)
  | [], h, Q, I, _ => ⟨h, [], rfl, I⟩
  | v :: vs, h, Q, I, m => by
    obtain ⟨h₁, v', e₁, I₁, _⟩ := copy_ok (v := v) I fun a e =>
      I.alive (m a (by rw [e]; exact List.mem_cons_self))
    obtain ⟨h₂, q, e₂, I₂, _⟩ := ret_ok I₁
    obtain ⟨h₃, ps, e₃, I₃⟩ := retAll_ok vs (Q := q.owned ++ Q) I₂ fun a p =>
      List.mem_append_right _ (m a (List.mem_cons_of_mem _ p))
    refine ⟨h₃, q :: ps, ?_, I₃.congr fun a => ?_⟩
    · simp only [retAll, e₁, e₂, e₃, bind, Except.bind]
    · simp only [List.flatMap_cons, List.count_append]
      omega

/-- A Python function, seen from the runtime: its result is made of values and of wrappers that it
was given or that exist. -/
def FairPy (g : List Py → Option Py) (R : List V) : Prop :=
  ∀ ps q, g ps = some q → Sane q ∧ Paired q ∧
    ∀ a ∈ handles q, V.ref a ∈ ps.flatMap Py.owned ∨ V.ref a ∈ R

/-- A Python function called by the runtime: nothing is touched after it was freed; if it raises the
counts are exact; if it returns, the counts are exact with the result **and one more copy of it** as
owners, which nobody knows about. -/
theorem closure_owns_partial (K : Keys) (Kt : K.total) {g : List Py → Option Py} (F : FairPy g R)
    (I : Inv h R) {args : List V} (m : ∀ a, .ref a ∈ args → V.ref a ∈ R) :
    ∃ h' r, closure K g h args = .ok (h', r) ∧
      (r = none → Inv h' R) ∧
      (∀ v, r = some v → ∃ c, Inv h' (v :: c :: R) ∧ (v.isPod = false → c.isPod = false)) := by
  obtain ⟨h₁, ps, e₁, I₁⟩ := retAll_ok args I m
  simp only [closure, e₁, bind, Except.bind]
  cases eg : g ps with
  | none =>
    obtain ⟨h₂, e₂, I₂, _⟩ := destroy_ok (h := h₁) (w := ps.flatMap Py.owned) (R := R) I₁
    dsimp only
    rw [e₂]
    exact ⟨h₂, none, rfl, fun _ => I₂, fun v e => by cases e⟩
  | some q =>
    obtain ⟨sq, pq, hq⟩ := F ps q eg
    obtain ⟨h₂, r, L, e₂, G₂, t⟩ := conv_good K I₁ q sq
      (fun a ma => List.mem_append.2 (hq a ma)) (Good.start I₁)
    have := t (.inl Kt) pq
    subst this
    have I₂ := G₂.inv
    dsimp only
    rw [e₂]
    obtain ⟨h₃, e₃, I₃, _⟩ := destroy_ok (h := h₂) (w := ps.flatMap Py.owned) (R := r.toList ++ R)
      (I₂.congr fun a => by simp only [List.count_append, List.append_nil]; omega)
    dsimp only
    rw [e₃]
    cases r with
    | none => exact ⟨h₃, none, rfl, fun _ => I₃, fun v e => by cases e⟩
    | some c =>
      obtain ⟨h₄, v, e₄, I₄, _, _, _, vp⟩ := copy_ok (v := c) I₃ fun a e =>
        I₃.alive (by rw [e]; exact List.mem_cons_self)
      dsimp only
      rw [e₄]
      refine ⟨h₄, some v, rfl, (fun e => nomatch e), fun v' e => ?_⟩
      cases e
      refine ⟨c, I₄, fun hv => ?_⟩
      cases hc : c.isPod with
      | false => rfl
      | true =>
        rw [(vp hc).1] at hv
        rw [hv] at hc
        cases hc

/-- The counts of a heap determine the owners. -/
theorem inv_unique {R' : List V} (I : Inv h R) (J : Inv h R') (a : Nat) :
    R.count (.ref a) = R'.count (.ref a) := by
  cases g : get h a with
  | none => have := I.dead a g; have := J.dead a g; omega
  | some c => have := I.live a c g; have := J.live a c g; omega

/-- Every Python function called by the runtime that returns anything but a scalar or a short string
leaks it: the counts are not those of a heap in which the result has one owner, and after the result
is destroyed the object behind the forgotten copy is still there. -/
theorem closure_leaks_refuted (K : Keys) (Kt : K.total) {g : List Py → Option Py} (F : FairPy g R)
    (I : Inv h R) {args : List V} (m : ∀ a, .ref a ∈ args → V.ref a ∈ R) :
    ∃ h' r, closure K g h args = .ok (h', r) ∧ ∀ v, r = some v → v.isPod = false →
      ¬ Inv h' (v :: R) ∧ ∃ c h'', destroy h' [v] = .ok h'' ∧ Inv h'' (.ref c :: R) ∧
        (get h'' c).isSome = true := by
  obtain ⟨h', r, e, _, k⟩ := closure_owns_partial K Kt F I m
  refine ⟨h', r, e, fun v ev p => ?_⟩
  obtain ⟨c, J, pc⟩ := k v ev
  cases c with
  | ref c =>
    refine ⟨fun J' => ?_, ?_⟩
    · have := inv_unique J J' c
      simp only [List.count_cons, List.count_nil] at this
      simp at this
    · obtain ⟨h'', e'', J'', _⟩ := destroy_ok (h := h') (w := [v]) (R := .ref c :: R) J
      obtain ⟨d, gd⟩ := J''.alive (a := c) List.mem_cons_self
      exact ⟨c, h'', e'', J'', by simp [gd]⟩
  | _ => cases pc p

/-! ## What goes wrong -/

/-- An `Any` object that holds a reference, given to a call twice, is destroyed twice: the second
time the object is gone. -/
theorem any_twice_refuted (K : Keys) (k : Kind) (kw : List (String × Py)) :
    let h : Heap := [some ⟨1, .node k []⟩]
    Inv h [.ref 0] ∧
    (∃ h', call K (fun h _ => .ok (h, some .none)) h [.any (.ref 0)] kw = .ok (h', .value .none) ∧
      get h' 0 = none) ∧
    call K (fun h _ => .ok (h, some .none)) h [.any (.ref 0), .any (.ref 0)] kw =
      .error .dangling := by
  refine ⟨?_, ⟨[none], rfl, rfl⟩, rfl⟩
  have := inv_alloc (h := []) (R := []) (b := .node k []) inv_empty
  exact this

/-- A set whose first item cannot be hashed, as a wrapper of a list: the conversion fails, and the
items after it are never freed. -/
theorem badKey_leaks_refuted (K : Keys) (s : List Nat) (l : 16 < s.length)
    (bad : ∀ h a k ks c, get h a = some c → c.body = .node k ks → K.hashable h (.ref a) = false) :
    let h : Heap := [some ⟨1, .node .list []⟩]
    ∃ h', conv K h (.node .set [.obj (some 0), .bytes s]) = .ok (h', none) ∧
      get h' 0 = get h 0 ∧ get h' 1 = some ⟨1, .bytes s⟩ ∧ ¬ Inv h' [.ref 0] := by
  intro h
  have hb := bad [some ⟨2, .node .list []⟩, some ⟨1, .bytes s⟩] 0 .list [] ⟨2, .node .list []⟩ rfl rfl
  have e : conv K h (.node .set [.obj (some 0), .bytes s]) =
      .ok ([some ⟨1, .node .list []⟩, some ⟨1, .bytes s⟩], none) := by
    have l' : ¬ s.length ≤ 16 := by omega
    simp only [conv, convAll, h, retain, Rc.get, make, addAll, mkBytes, if_neg l', alloc, bind,
      Except.bind, List.getElem?_cons_zero, Option.join_some, List.set_cons_zero, List.cons_append,
      List.nil_append, List.length_cons, List.length_nil, hb]
    simp [destroy, release, Rc.get, weight]
  refine ⟨_, e, rfl, rfl, fun J => ?_⟩
  have := J.live 1 ⟨1, .bytes s⟩ rfl
  simp [owners, ownCell, Body.kids] at this

/-- A `str` with a surrogate is read through a null pointer. -/
theorem surrogate_refuted (K : Keys) (x : Nat) (l : 0xD800 ≤ x) (u : x ≤ 0xDFFF) (s t : List Nat) :
    conv K h (.str (s ++ x :: t)) = .error .null := by
  have : (s ++ x :: t).any isSurrogate = true := by
    simp [List.any_append, isSurrogate, l, u]
  simp only [conv, this]
  rfl

/-- A run: the second argument cannot be converted; the list made for the first is freed and the
wrapped object has its old count. -/
example : call ⟨fun _ _ _ => false, fun _ _ => true⟩ (fun h _ => .ok (h, some .none))
    [some ⟨1, .node .list []⟩] [.node .list [.obj (some 0), .bytes (List.range 20)], .other] [] =
      .ok ([some ⟨1, .node .list []⟩, none, none], .typeError) := rfl

end Verif.Ffi
