import Verif.RcInv

/-!
# Variables of the runtime never dangle and leak only through cycles

Whatever a program does with its variables by the operators of `RTValue`, no freed object is
touched and every count stays exact; at the end of the scope all objects are freed unless they own
each other in a circle.  Assigning a variable from an item of the container it holds is the
exception: the container is destroyed before the item is read. -/

namespace Verif.Rc

theorem count_set {l : List V} {i : Nat} {v : V} (x : V) (li : i < l.length) :
    (l.set i v).count x + [l[i]?.getD .none].count x = l.count x + [v].count x := by
  induction l generalizing i with
  | nil => simp at li
  | cons y l ih =>
    cases i with
    | zero =>
      simp only [List.set_cons_zero, List.getElem?_cons_zero, Option.getD_some, List.count_cons,
        List.count_nil]
      omega
    | succ i =>
      have := ih (i := i) (by simpa using li)
      simp only [List.set_cons_succ, List.getElem?_cons_succ, List.count_cons] at *
      omega

theorem count_ref_pod {v : V} (p : v.isPod = true) (a : Nat) : [v].count (.ref a) = 0 := by
  rw [List.count_eq_zero]
  intro m
  rw [List.mem_singleton] at m
  subst m
  cases p

theorem var_mem {s : St} {j a : Nat} (e : s.var j = .ref a) : .ref a ∈ s.vars := by
  unfold St.var at e
  cases g : s.vars[j]? with
  | none => rw [g] at e; cases e
  | some v =>
    rw [g] at e
    have : v = .ref a := e
    subst this
    exact List.mem_of_getElem? g

theorem var_lt {s : St} {j a : Nat} (e : s.var j = .ref a) : j < s.vars.length := by
  unfold St.var at e
  by_cases l : j < s.vars.length
  · exact l
  · rw [List.getElem?_eq_none (by omega)] at e
    cases e

/-- A value owned by a temporary goes into a variable. -/
theorem assign_ok {s : St} {i : Nat} {v : V} (I : Inv s.h (v :: s.vars))
    (li : i < s.vars.length ∨ v.isPod = true) :
    ∃ s', assign s i v = .ok s' ∧ Inv s'.h s'.vars ∧ Sub s.h s'.h ∧
      s'.vars = s.vars.set i v ∧ ∀ h₀ R₀, (∀ a, R₀.count (V.ref a) ≤ (s.vars.set i v).count (V.ref a)) →
        Inv h₀ R₀ → Keep h₀ s.h → Keep h₀ s'.h := by
  have I' : Inv s.h ([s.var i] ++ s.vars.set i v) := by
    by_cases l : i < s.vars.length
    · refine I.congr fun a => ?_
      have := count_set (v := v) (.ref a) l
      rw [List.count_append]
      unfold St.var
      simp only [List.count_cons, List.count_nil] at *
      omega
    · have p := li.resolve_left l
      rw [Inv.cons_pod p] at I
      have e : s.var i = .none := by
        unfold St.var
        rw [List.getElem?_eq_none (by omega)]
        rfl
      rw [e, List.set_eq_of_length_le (by omega)]
      exact (Inv.cons_pod rfl).2 I
  obtain ⟨h', r, J, S, F⟩ := destroy_ok I'
  refine ⟨⟨h', s.vars.set i v⟩, ?_, J, S, rfl, F⟩
  simp only [assign, r]
  rfl

theorem copyAll_ok : ∀ (vs : List V) {h : Heap} {R : List V}, Inv h R →
    (∀ a, .ref a ∈ vs → ∃ c, get h a = some c) →
    ∃ h' vs', copyAll h vs = .ok (h', vs') ∧ Inv h' (vs' ++ R) ∧ Ext h h' ∧
      (∀ a c', get h' a = some c' → (∃ c, get h a = some c ∧ c'.body = c.body) ∨
        (h.length ≤ a ∧ c'.body.kids = []))
  | [], h, R, I, _ => ⟨h, [], rfl, I, Ext.refl h, fun _ c g => .inl ⟨c, g, rfl⟩⟩
  | v :: vs, h, R, I, al => by
    obtain ⟨h₁, v', e₁, I₁, x₁, o₁, _⟩ := copy_ok (v := v) I fun a e => al a (by simp [e])
    obtain ⟨h₂, vs', e₂, I₂, x₂, o₂⟩ := copyAll_ok vs I₁ fun a m => by
      obtain ⟨c, g⟩ := al a (List.mem_cons_of_mem _ m)
      obtain ⟨c', g', _⟩ := x₁.live a c g
      exact ⟨c', g'⟩
    refine ⟨h₂, v' :: vs', ?_, I₂.congr fun a => ?_, x₁.trans x₂, fun a c g => ?_⟩
    · simp only [copyAll, e₁, e₂, bind, Except.bind]
    · simp only [List.cons_append, List.count_cons, List.count_append]
      omega
    · rcases o₂ a c g with ⟨c₁, g₁, q₁⟩ | ⟨l, k⟩
      · rcases o₁ a c₁ g₁ with ⟨c₀, g₀, q₀⟩ | ⟨l, k⟩
        · exact .inl ⟨c₀, g₀, q₁.trans q₀⟩
        · exact .inr ⟨l, by rw [q₁, k]⟩
      · exact .inr ⟨Nat.le_trans x₁.len l, k⟩

/-- A value that a temporary owned becomes an item. -/
theorem inv_push {h : Heap} {R : List V} {a : Nat} {c : Cell} {k : Kind} {ks : List V} {v : V}
    (I : Inv h (v :: R)) (g : get h a = some c) (e : c.body = .node k ks) :
    Inv (h.set a (some { c with body := .node k (ks ++ [v]) })) R := by
  have la := get_lt g
  have ow : ∀ b, owners (h.set a (some { c with body := .node k (ks ++ [v]) })) b =
      owners h b + [v].count (.ref b) := by
    intro b
    have := owners_set (b := b) (o := some { c with body := .node k (ks ++ [v]) }) g
    simp only [ownCell, e, Body.kids, List.count_append] at this
    omega
  constructor
  · intro b d gb
    rw [get_set la] at gb
    have key : ∀ d, get h b = some d → d.rc = owners h b + [v].count (.ref b) + R.count (.ref b) ∧
        0 < d.rc := by
      intro d gd
      have := I.live b d gd
      simp only [List.count_cons, List.count_nil] at *
      omega
    rw [ow]
    by_cases q : b = a
    · subst q
      rw [if_pos rfl] at gb
      cases gb
      exact key c g
    · rw [if_neg q] at gb
      exact key d gb
  · intro b gb
    rw [get_set la] at gb
    by_cases q : b = a
    · subst q; simp at gb
    · rw [if_neg q] at gb
      have := I.dead b gb
      rw [ow]
      simp only [List.count_cons, List.count_nil] at *
      omega

/-- An item becomes a value that a temporary owns. -/
theorem inv_take {h : Heap} {R : List V} {a n : Nat} {c : Cell} {k : Kind} {ks : List V} {v : V}
    (I : Inv h R) (g : get h a = some c) (e : c.body = .node k ks) (ev : ks[n]? = some v) :
    Inv (h.set a (some { c with body := .node k (ks.set n .none) })) (v :: R) := by
  have la := get_lt g
  have ln : n < ks.length := (List.getElem?_eq_some_iff.1 ev).1
  have ow : ∀ b, owners (h.set a (some { c with body := .node k (ks.set n .none) })) b +
      [v].count (.ref b) = owners h b := by
    intro b
    have := owners_set (b := b) (o := some { c with body := .node k (ks.set n .none) }) g
    have q := count_set (v := .none) (.ref b) ln
    rw [ev] at q
    have p := count_ref_pod (v := .none) rfl b
    simp only [ownCell, e, Body.kids, Option.getD_some] at this q
    omega
  constructor
  · intro b d gb
    rw [get_set la] at gb
    have key : ∀ d, get h b = some d → d.rc =
        owners (h.set a (some { c with body := .node k (ks.set n .none) })) b +
          (v :: R).count (.ref b) ∧ 0 < d.rc := by
      intro d gd
      have := I.live b d gd
      have := ow b
      simp only [List.count_cons, List.count_nil] at *
      omega
    by_cases q : b = a
    · subst q
      rw [if_pos rfl] at gb
      cases gb
      exact key c g
    · rw [if_neg q] at gb
      exact key d gb
  · intro b gb
    rw [get_set la] at gb
    by_cases q : b = a
    · subst q; simp at gb
    · rw [if_neg q] at gb
      have := I.dead b gb
      have := ow b
      simp only [List.count_cons, List.count_nil] at *
      omega

/-- A string of the runtime is a value like any other. -/
theorem mkStr_ok {h : Heap} {R : List V} (s : List Nat) (I : Inv h R) :
    Inv (mkStr h s).1 ((mkStr h s).2 :: R) ∧ Ext h (mkStr h s).1 ∧
      (∀ a c', get (mkStr h s).1 a = some c' → (∃ c, get h a = some c ∧ c'.body = c.body) ∨
        (h.length ≤ a ∧ c'.body.kids = [])) := by
  unfold mkStr
  split
  · exact ⟨(Inv.cons_pod rfl).2 I, Ext.refl h, fun a c g => .inl ⟨c, g, rfl⟩⟩
  · refine ⟨inv_alloc I, ext_alloc _ _, fun a c g => ?_⟩
    simp only [alloc] at g
    rw [get_append] at g
    by_cases q : a = h.length
    · rw [if_pos q] at g
      cases g
      exact .inr ⟨by omega, rfl⟩
    · rw [if_neg q] at g
      exact .inl ⟨c, g, rfl⟩

/-- The operations that are safe in every state: all but assigning a variable from an item of its
own container. -/
def Op.safe : Op → Bool
  | .moveItem i j _ => i != j
  | _ => true

/-- One operation. -/
theorem step_ok {s : St} {o : Op} (I : Inv s.h s.vars) (sf : o.safe = true) :
    ∃ s', step s o = .ok s' ∧ Inv s'.h s'.vars ∧ s'.vars.length = s.vars.length := by
  have stay : ∃ s', Except.ok (ε := UB) s = .ok s' ∧ Inv s'.h s'.vars ∧
      s'.vars.length = s.vars.length := ⟨s, rfl, I, rfl⟩
  cases o with
  | pod i v =>
    simp only [step]
    by_cases p : v.isPod = true
    · rw [if_pos p]
      obtain ⟨s', e, J, _, l, _⟩ := assign_ok (s := s) (i := i) ((Inv.cons_pod p).2 I) (.inr p)
      exact ⟨s', e, J, by simp [l]⟩
    · rw [if_neg p]; exact stay
  | str i t =>
    simp only [step]
    by_cases l : i < s.vars.length
    · rw [if_pos l]
      obtain ⟨s', e, J, _, l, _⟩ := assign_ok (s := { s with h := (mkStr s.h t).1 }) (i := i)
        (mkStr_ok t I).1 (.inl l)
      exact ⟨s', e, J, by simp [l]⟩
    · rw [if_neg l]; exact stay
  | copy i j =>
    simp only [step]
    by_cases l : i < s.vars.length
    · rw [if_pos l]
      obtain ⟨h₁, v, e₁, I₁, _⟩ := copy_ok (v := s.var j) I fun a e => I.alive (var_mem e)
      obtain ⟨s', e, J, _, l, _⟩ := assign_ok (s := { s with h := h₁ }) (i := i) I₁ (.inl l)
      refine ⟨s', ?_, J, by simp [l]⟩
      rw [e₁]
      exact e
    · rw [if_neg l]; exact stay
  | move i j =>
    simp only [step]
    by_cases l : i < s.vars.length
    · rw [if_pos l]
      have c₀ : ∀ a, (s.vars.set i .none).count (V.ref a) + [s.var i].count (V.ref a) =
          s.vars.count (V.ref a) := by
        intro a
        have := count_set (v := .none) (.ref a) l
        have := count_ref_pod (v := .none) rfl a
        unfold St.var
        omega
      obtain ⟨h', r, J, _, _⟩ := destroy_ok (h := s.h) (w := [s.var i]) (R := s.vars.set i .none)
        (I.congr fun a => by rw [List.count_append]; have := c₀ a; omega)
      rw [r]
      refine ⟨_, rfl, J.congr fun a => ?_, by simp⟩
      dsimp only
      have l₁ : i < (s.vars.set i .none).length := by simpa using l
      have c₁ := count_set (v := (s.vars.set i .none)[j]?.getD .none) (.ref a) l₁
      have p₀ := count_ref_pod (v := .none) rfl a
      have ei : (s.vars.set i .none)[i]?.getD .none = .none := by
        rw [List.getElem?_set_self l]; rfl
      rw [ei] at c₁
      by_cases lj : j < s.vars.length
      · have l₂ : j < ((s.vars.set i .none).set i ((s.vars.set i .none)[j]?.getD .none)).length := by
          simpa using lj
        have c₂ := count_set (v := .none) (.ref a) l₂
        by_cases ij : i = j
        · subst ij
          rw [ei] at c₁ c₂ ⊢
          rw [List.getElem?_set_self (by simpa using l)] at c₂
          simp only [Option.getD_some] at c₂
          omega
        · have e₂ : ((s.vars.set i .none).set i ((s.vars.set i .none)[j]?.getD .none))[j]?.getD .none =
              (s.vars.set i .none)[j]?.getD .none := by
            rw [List.getElem?_set_ne ij]
          rw [e₂] at c₂
          omega
      · rw [List.set_eq_of_length_le (by simp; omega)]
        have : (s.vars.set i .none)[j]?.getD .none = .none := by
          rw [List.getElem?_eq_none (by simp; omega)]; rfl
        rw [this] at c₁ ⊢
        omega
    · rw [if_neg l]; exact stay
  | build i k js =>
    simp only [step]
    by_cases l : i < s.vars.length
    · rw [if_pos l]
      obtain ⟨h₁, vs, e₁, I₁, _⟩ := copyAll_ok (js.map s.var) I fun a m => by
        obtain ⟨j, _, e⟩ := List.mem_map.1 m
        exact I.alive (var_mem e)
      obtain ⟨s', e, J, _, l, _⟩ := assign_ok (s := { s with h := (alloc h₁ (.node k vs)).1 })
        (i := i) (v := (alloc h₁ (.node k vs)).2) (inv_alloc I₁) (.inl l)
      refine ⟨s', ?_, J, by simp [l]⟩
      rw [e₁]
      exact e
    · rw [if_neg l]; exact stay
  | item i j n =>
    simp only [step]
    by_cases l : i < s.vars.length
    · rw [if_pos l]
      cases ev : s.var j with
      | ref a =>
        obtain ⟨c, g⟩ := I.alive (var_mem ev)
        simp only [g]
        cases ek : c.body.kids[n]? with
        | none => exact stay
        | some v =>
          obtain ⟨h₁, v', e₁, I₁, _⟩ := copy_ok (v := v) I fun b e => by
            subst e
            exact I.kid_alive g (List.mem_of_getElem? ek)
          obtain ⟨s', e, J, _, l, _⟩ := assign_ok (s := { s with h := h₁ }) (i := i) I₁ (.inl l)
          refine ⟨s', ?_, J, by simp [l]⟩
          dsimp only
          rw [e₁]
          exact e
      | _ => exact stay
    · rw [if_neg l]; exact stay
  | append j i =>
    simp only [step]
    cases ev : s.var j with
    | ref a =>
      obtain ⟨h₁, v, e₁, I₁, _⟩ := copy_ok (v := s.var i) I fun a e => I.alive (var_mem e)
      obtain ⟨c, g⟩ := I₁.alive (a := a) (List.mem_cons_of_mem _ (var_mem ev))
      dsimp only
      rw [e₁]
      simp only [bind, Except.bind, g]
      obtain ⟨h', r, J, _⟩ := destroy_ok (h := h₁) (w := [v]) (R := s.vars) I₁
      rw [r]
      cases eb : c.body with
      | node k ks =>
        cases k with
        | list => exact ⟨_, rfl, inv_push I₁ g eb, rfl⟩
        | _ => exact ⟨_, rfl, J, rfl⟩
      | _ => exact ⟨_, rfl, J, rfl⟩
    | _ => exact stay
  | moveItem i j n =>
    have ij : i ≠ j := by simpa [Op.safe] using sf
    simp only [step]
    by_cases l : i < s.vars.length
    · rw [if_pos l]
      cases ev : s.var j with
      | ref a =>
        obtain ⟨c, g⟩ := I.alive (var_mem ev)
        simp only [g]
        cases eb : c.body with
        | node k ks =>
          simp only [Body.kids]
          cases ek : ks[n]? with
          | none => exact stay
          | some v =>
            dsimp only
            have c₀ : ∀ a, (s.vars.set i .none).count (V.ref a) + [s.var i].count (V.ref a) =
                s.vars.count (V.ref a) := by
              intro a
              have := count_set (v := .none) (.ref a) l
              have := count_ref_pod (v := .none) rfl a
              unfold St.var
              omega
            obtain ⟨h', r, J, S, _⟩ := destroy_ok (h := s.h) (w := [s.var i])
              (R := s.vars.set i .none)
              (I.congr fun a => by rw [List.count_append]; have := c₀ a; omega)
            rw [r]
            have m : V.ref a ∈ s.vars.set i .none := by
              have lj := var_lt ev
              have e : s.vars[j]? = some (.ref a) := by
                unfold St.var at ev
                rw [List.getElem?_eq_getElem lj] at ev ⊢
                simpa using ev
              exact List.mem_of_getElem? (i := j) (by rw [List.getElem?_set_ne ij]; exact e)
            obtain ⟨c', g'⟩ := J.alive m
            obtain ⟨c₁, g₁, q⟩ := S.body a c' g'
            rw [g] at g₁
            cases g₁
            simp only [bind, Except.bind, g']
            refine ⟨_, rfl, ?_, by simp⟩
            have K := inv_take J g' (q.trans eb) ek
            rw [ek]
            refine K.congr fun b => ?_
            dsimp only
            have := count_set (v := .none) (.ref b) l
            have := count_set (v := v) (.ref b) l
            have := count_ref_pod (v := .none) rfl b
            simp only [List.count_cons, List.count_nil, Option.getD_some] at *
            omega
        | _ =>
          simp only [Body.kids, List.getElem?_nil]
          exact stay
      | _ => exact stay
    · rw [if_neg l]; exact stay

/-- Any program of safe operations runs to its end with exact counts: no freed object is read,
counted up or down, or freed again. -/
theorem run_ok : ∀ (os : List Op) {s : St}, Inv s.h s.vars → (∀ o ∈ os, o.safe = true) →
    ∃ s', run s os = .ok s' ∧ Inv s'.h s'.vars ∧ s'.vars.length = s.vars.length
  | [], s, I, _ => ⟨s, rfl, I, rfl⟩
  | o :: os, s, I, sf => by
    obtain ⟨s₁, e₁, I₁, l₁⟩ := step_ok I (sf o List.mem_cons_self)
    obtain ⟨s₂, e₂, I₂, l₂⟩ := run_ok os I₁ fun o m => sf o (List.mem_cons_of_mem _ m)
    refine ⟨s₂, ?_, I₂, l₂.trans l₁⟩
    simp only [run, e₁, bind, Except.bind]
    exact e₂

/-- The objects of a heap can be ranked so that each owns only objects below it: there is no
circle of ownership. -/
def Ranked (h : Heap) (rank : Nat → Nat) : Prop :=
  ∀ a c, get h a = some c → ∀ b, .ref b ∈ c.body.kids → rank b < rank a

/-- With exact counts and no owner outside, a heap without circles is empty. -/
theorem empty_of_ranked {h : Heap} {rank : Nat → Nat} (I : Inv h []) (r : Ranked h rank) :
    ∀ a, get h a = none := by
  have bound : ∃ B, ∀ a, a < h.length → rank a < B := by
    generalize h.length = n
    induction n with
    | zero => exact ⟨0, fun a l => by omega⟩
    | succ n ih =>
      obtain ⟨B, hB⟩ := ih
      refine ⟨B + rank n + 1, fun a l => ?_⟩
      by_cases e : a = n
      · subst e; omega
      · have := hB a (by omega); omega
  obtain ⟨B, hB⟩ := bound
  have key : ∀ k a, B - rank a ≤ k → get h a = none := by
    intro k
    induction k with
    | zero =>
      intro a l
      cases g : get h a with
      | none => rfl
      | some c => have := hB a (get_lt g); omega
    | succ k ih =>
      intro a l
      refine I.dead_of (by simp) fun b c g m => ?_
      have lt := r b c g a m
      have lb := hB b (get_lt g)
      rw [ih b (by omega)] at g
      cases g
  exact fun a => key _ a (Nat.le_refl _)

/-- The end of the scope never touches a freed object, and frees everything unless there is a circle
of ownership. -/
theorem finish_ok {s : St} (I : Inv s.h s.vars) :
    ∃ h', finish s = .ok h' ∧ Inv h' [] ∧
      ∀ rank, Ranked s.h rank → ∀ a, get h' a = none := by
  obtain ⟨h', r, J, S, _⟩ := destroy_ok (h := s.h) (w := s.vars) (R := []) (by simpa using I)
  refine ⟨h', r, J, fun rank R => empty_of_ranked J (rank := rank) fun a c g b m => ?_⟩
  obtain ⟨c₀, g₀, e⟩ := S.body a c g
  exact R a c₀ g₀ b (e ▸ m)

/-- The variables at the start. -/
def start (n : Nat) : St := ⟨[], List.replicate n .none⟩

theorem start_inv (n : Nat) : Inv (start n).h (start n).vars := by
  refine inv_empty.congr fun a => ?_
  show (List.replicate n V.none).count (.ref a) = ([] : List V).count (.ref a)
  rw [List.count_replicate]
  simp

/-- A whole scope: every program of safe operations ends without touching a freed object, with all
its objects freed unless they own each other in a circle. -/
theorem scope_ok (n : Nat) (os : List Op) (sf : ∀ o ∈ os, o.safe = true) :
    ∃ s h', run (start n) os = .ok s ∧ finish s = .ok h' ∧
      ∀ rank, Ranked s.h rank → ∀ a, get h' a = none := by
  obtain ⟨s, e, I, _⟩ := run_ok os (start_inv n) sf
  obtain ⟨h', f, _, k⟩ := finish_ok I
  exact ⟨s, h', e, f, k⟩

/-! ## Programs that cannot make a circle -/

/-- Operations that do not change containers. -/
def Op.pure : Op → Bool
  | .append _ _ | .moveItem _ _ _ => false
  | _ => true

theorem acyc_grow {h h' : Heap} (A : Acyc 0 h)
    (o : ∀ a c', get h' a = some c' → (∃ c, get h a = some c ∧ c'.body = c.body) ∨
        (h.length ≤ a ∧ c'.body.kids = [])) : Acyc 0 h' := by
  intro a c _ g b m
  rcases o a c g with ⟨c₀, g₀, e⟩ | ⟨_, k⟩
  · exact A a c₀ (Nat.zero_le _) g₀ b (e ▸ m)
  · rw [k] at m; cases m

theorem acyc_alloc {h : Heap} {R : List V} {b : Body} {n : Nat} (I : Inv h (b.kids ++ R))
    (A : Acyc n h) : Acyc n (alloc h b).1 := by
  intro a c l g d m
  simp only [alloc] at g
  rw [get_append] at g
  by_cases q : a = h.length
  · rw [if_pos q] at g
    cases g
    obtain ⟨c, gd⟩ := I.alive (a := d) (by simp [m])
    have := get_lt gd
    omega
  · rw [if_neg q] at g
    exact A a c l g d m

/-- Without changes to containers, objects only own older objects. -/
theorem step_acyc {s s' : St} {o : Op} (I : Inv s.h s.vars) (A : Acyc 0 s.h) (p : o.pure = true)
    (e : step s o = .ok s') : Acyc 0 s'.h := by
  have asg : ∀ {t : St} {i v}, Inv t.h (v :: t.vars) → (i < t.vars.length ∨ v.isPod = true) →
      Acyc 0 t.h → assign t i v = .ok s' → Acyc 0 s'.h := by
    intro t i v It li At et
    obtain ⟨t', e', _, S, _⟩ := assign_ok It li
    rw [e'] at et
    cases et
    exact At.sub S
  cases o with
  | pod i v =>
    simp only [step] at e
    by_cases p : v.isPod = true
    · rw [if_pos p] at e
      exact asg ((Inv.cons_pod p).2 I) (.inr p) A e
    · rw [if_neg p] at e
      cases e; exact A
  | str i t =>
    simp only [step] at e
    by_cases l : i < s.vars.length
    · rw [if_pos l] at e
      exact asg (t := { s with h := (mkStr s.h t).1 }) (mkStr_ok t I).1 (.inl l)
        (acyc_grow A (mkStr_ok t I).2.2) e
    · rw [if_neg l] at e
      cases e; exact A
  | copy i j =>
    simp only [step] at e
    by_cases l : i < s.vars.length
    · rw [if_pos l] at e
      obtain ⟨h₁, v, e₁, I₁, _, o₁, _⟩ := copy_ok (v := s.var j) I fun a e => I.alive (var_mem e)
      rw [e₁] at e
      exact asg (t := { s with h := h₁ }) I₁ (.inl l) (acyc_grow A o₁) e
    · rw [if_neg l] at e
      cases e; exact A
  | move i j =>
    simp only [step] at e
    by_cases l : i < s.vars.length
    · rw [if_pos l] at e
      have c₀ : ∀ a, (s.vars.set i .none).count (V.ref a) + [s.var i].count (V.ref a) =
          s.vars.count (V.ref a) := by
        intro a
        have := count_set (v := .none) (.ref a) l
        have := count_ref_pod (v := .none) rfl a
        unfold St.var
        omega
      obtain ⟨h', r, J, S, _⟩ := destroy_ok (h := s.h) (w := [s.var i]) (R := s.vars.set i .none)
        (I.congr fun a => by rw [List.count_append]; have := c₀ a; omega)
      rw [r] at e
      cases e
      exact A.sub S
    · rw [if_neg l] at e
      cases e; exact A
  | build i k js =>
    simp only [step] at e
    by_cases l : i < s.vars.length
    · rw [if_pos l] at e
      obtain ⟨h₁, vs, e₁, I₁, _, o₁⟩ := copyAll_ok (js.map s.var) I fun a m => by
        obtain ⟨j, _, e⟩ := List.mem_map.1 m
        exact I.alive (var_mem e)
      rw [e₁] at e
      exact asg (t := { s with h := (alloc h₁ (.node k vs)).1 })
        (v := (alloc h₁ (.node k vs)).2) (inv_alloc I₁) (.inl l)
        (acyc_alloc (b := .node k vs) I₁ (acyc_grow A o₁)) e
    · rw [if_neg l] at e
      cases e; exact A
  | item i j n =>
    simp only [step] at e
    by_cases l : i < s.vars.length
    · rw [if_pos l] at e
      cases ev : s.var j with
      | ref a =>
        obtain ⟨c, g⟩ := I.alive (var_mem ev)
        simp only [ev, g] at e
        cases ek : c.body.kids[n]? with
        | none => rw [ek] at e; cases e; exact A
        | some v =>
          obtain ⟨h₁, v', e₁, I₁, _, o₁, _⟩ := copy_ok (v := v) I fun b e => by
            subst e
            exact I.kid_alive g (List.mem_of_getElem? ek)
          rw [ek] at e
          dsimp only at e
          rw [e₁] at e
          exact asg (t := { s with h := h₁ }) I₁ (.inl l) (acyc_grow A o₁) e
      | _ => rw [ev] at e; cases e; exact A
    · rw [if_neg l] at e
      cases e; exact A
  | append j i => cases p
  | moveItem i j n => cases p

theorem pure_safe {o : Op} (p : o.pure = true) : o.safe = true := by
  cases o <;> first | rfl | cases p

theorem run_acyc : ∀ (os : List Op) {s s' : St}, Inv s.h s.vars → Acyc 0 s.h →
    (∀ o ∈ os, o.pure = true) → run s os = .ok s' → Acyc 0 s'.h
  | [], s, s', _, A, _, e => by cases e; exact A
  | o :: os, s, s', I, A, p, e => by
    obtain ⟨s₁, e₁, I₁, _⟩ := step_ok I (pure_safe (p o List.mem_cons_self))
    simp only [run, e₁, bind, Except.bind] at e
    exact run_acyc os I₁ (step_acyc I A (p o List.mem_cons_self) e₁)
      (fun o m => p o (List.mem_cons_of_mem _ m)) e

/-- A scope that only builds, copies, moves and reads values leaves nothing behind. -/
theorem scope_frees_all (n : Nat) (os : List Op) (p : ∀ o ∈ os, o.pure = true) :
    ∃ s h', run (start n) os = .ok s ∧ finish s = .ok h' ∧ ∀ a, get h' a = none := by
  obtain ⟨s, e, I, _⟩ := run_ok os (start_inv n) fun o m => pure_safe (p o m)
  obtain ⟨h', f, _, k⟩ := finish_ok I
  have A := run_acyc os (start_inv n) (fun a c _ g => by simp [start, get] at g) p e
  exact ⟨s, h', e, f, k id fun a c g b m => A a c (Nat.zero_le _) g b m⟩

/-! ## Circles are never freed -/

/-- A list that contains itself. -/
theorem selfCell_inv (a : Nat) :
    Inv (List.replicate a none ++ [some ⟨1, .node .list [.ref a]⟩]) [] := by
  have gr : ∀ b, get (List.replicate a (none : Option Cell)) b = none := by
    intro b
    unfold get
    rw [List.getElem?_replicate]
    split <;> rfl
  have ow : ∀ b, owners (List.replicate a (none : Option Cell)) b = 0 := by
    intro b
    unfold owners
    exact sum_map_zero _ _ fun y m => by rw [(List.mem_replicate.1 m).2]; rfl
  constructor
  · intro b c g
    rw [get_append] at g
    rw [owners_append, ow]
    by_cases q : b = (List.replicate a (none : Option Cell)).length
    · rw [if_pos q] at g
      cases g
      have : b = a := by simpa using q
      subst this
      simp [ownCell, Body.kids]
    · rw [if_neg q, gr] at g
      cases g
  · intro b g
    rw [get_append] at g
    rw [owners_append, ow]
    by_cases q : b = (List.replicate a (none : Option Cell)).length
    · rw [if_pos q] at g
      cases g
    · have : a ≠ b := by
        intro e; exact q (by simp [e])
      simp [ownCell, Body.kids, List.count_cons, this]

/-- A list that was appended to itself is never freed: not by the end of the scope, which leaves it
behind in every state of every program. -/
theorem self_append_leaks {s : St} {a : Nat} {rc : Nat} (I : Inv s.h s.vars)
    (g : get s.h a = some ⟨rc, .node .list [.ref a]⟩) :
    ∃ h', finish s = .ok h' ∧ (get h' a).isSome = true := by
  obtain ⟨h', r, J, _, F⟩ := destroy_ok (h := s.h) (w := s.vars) (R := []) (by simpa using I)
  have k := F _ [] (fun a => Nat.le_refl _) (selfCell_inv a) (by
    intro b c gb
    rw [get_append] at gb
    by_cases q : b = (List.replicate a (none : Option Cell)).length
    · rw [if_pos q] at gb
      cases gb
      have : b = a := by simpa using q
      subst this
      exact ⟨_, g, rfl⟩
    · rw [if_neg q] at gb
      unfold get at gb
      rw [List.getElem?_replicate] at gb
      split at gb <;> cases gb)
  obtain ⟨c', g', _⟩ := k a ⟨1, .node .list [.ref a]⟩ (by
    rw [get_append, if_pos (by simp)])
  exact ⟨h', r, by simp [g']⟩

/-- `x = []; x.append(x)` leaks, with any other variables around. -/
theorem scope_leaks_refuted (n : Nat) :
    ∃ s h', run (start (n + 1)) [.build 0 .list [], .append 0 0] = .ok s ∧
      finish s = .ok h' ∧ (get h' 0).isSome = true := by
  obtain ⟨s, e, I, _⟩ := run_ok [.build 0 .list [], .append 0 0] (start_inv (n + 1))
    (by simp [Op.safe])
  have e' : run (start (n + 1)) [.build 0 .list [], .append 0 0] =
      .ok ⟨[some ⟨2, .node .list [.ref 0]⟩], .ref 0 :: List.replicate n .none⟩ := by
    simp [run, step, start, List.replicate_succ, copyAll, assign, alloc, destroy, release,
      St.var, bind, Except.bind, copy, get, Body.deep]
  rw [e'] at e
  cases e
  obtain ⟨h', f, l⟩ := self_append_leaks (a := 0) (rc := 2) I rfl
  exact ⟨_, h', e', f, l⟩

/-! ## Assigning from inside -/

/-- `x = std::move(x[n])` reads the item after the container has been destroyed, whenever the
variable is the only owner of the container. -/
theorem moveItem_refuted {s : St} {i n a : Nat} {k : Kind} {ks : List V} {v : V}
    (I : Inv s.h s.vars) (ev : s.var i = .ref a) (g : get s.h a = some ⟨1, .node k ks⟩)
    (ek : ks[n]? = some v) : step s (.moveItem i i n) = .error .dangling := by
  have l := var_lt ev
  simp only [step, if_pos l, ev, g, Body.kids, ek]
  have c₀ : ∀ a, (s.vars.set i .none).count (V.ref a) + [s.var i].count (V.ref a) =
      s.vars.count (V.ref a) := by
    intro a
    have := count_set (v := .none) (.ref a) l
    have := count_ref_pod (v := .none) rfl a
    unfold St.var
    omega
  rw [ev] at c₀
  obtain ⟨h', r, J, S, _⟩ := destroy_ok (h := s.h) (w := [.ref a]) (R := s.vars.set i .none)
    (I.congr fun b => by rw [List.count_append]; have := c₀ b; omega)
  have lv := I.live a _ g
  have ca := c₀ a
  simp only [List.count_cons_self, List.count_nil] at ca lv
  have dd : get h' a = none := by
    refine J.dead_of (fun m => ?_) fun b c gb m => ?_
    · have := List.count_pos_iff.2 m
      omega
    · obtain ⟨c₀, g₀, e⟩ := S.body b c gb
      have := kids_le_owners (b := a) g₀
      rw [e] at m
      have := List.count_pos_iff.2 m
      omega
  rw [r]
  simp only [bind, Except.bind, dd]

/-- `x = std::move(x)` loses the value. -/
theorem move_self_loses {s : St} {i : Nat} (I : Inv s.h s.vars) (l : i < s.vars.length) :
    ∃ s', step s (.move i i) = .ok s' ∧ s'.var i = .none := by
  have c₀ : ∀ a, (s.vars.set i .none).count (V.ref a) + [s.var i].count (V.ref a) =
      s.vars.count (V.ref a) := by
    intro a
    have := count_set (v := .none) (.ref a) l
    have := count_ref_pod (v := .none) rfl a
    unfold St.var
    omega
  obtain ⟨h', r, _⟩ := destroy_ok (h := s.h) (w := [s.var i]) (R := s.vars.set i .none)
    (I.congr fun b => by rw [List.count_append]; have := c₀ b; omega)
  refine ⟨⟨h', ((s.vars.set i .none).set i ((s.vars.set i .none)[i]?.getD .none)).set i .none⟩,
    by simp only [step, if_pos l, r, bind, Except.bind], ?_⟩
  simp [St.var, l]

/-! ## What copies and assignments store -/

/-- `x = y` for different variables gives `x` what `y` holds: the same scalar, the same shared
object, or an equal string of its own; `y` keeps its value. -/
theorem copy_value {s : St} {i j : Nat} (I : Inv s.h s.vars) (l : i < s.vars.length)
    (ij : i ≠ j) :
    ∃ s', step s (.copy i j) = .ok s' ∧ s'.var j = s.var j ∧
      ((s.var j).isPod = true → s'.var i = s.var j) ∧
      (∀ a c, s.var j = .ref a → get s.h a = some c → ∃ a' c', s'.var i = .ref a' ∧
        get s'.h a' = some c' ∧ c'.body = c.body) := by
  obtain ⟨h₁, v, e₁, I₁, x₁, _, vr, vp⟩ := copy_ok (v := s.var j) I fun a e => I.alive (var_mem e)
  obtain ⟨s', e, J, S, es, _⟩ := assign_ok (s := { s with h := h₁ }) (i := i) I₁ (.inl l)
  dsimp only at es S
  have vi : s'.var i = v := by
    unfold St.var
    rw [es, List.getElem?_set_self l]
    rfl
  refine ⟨s', ?_, ?_, fun p => by rw [vi]; exact (vp p).1, fun a c ev g => ?_⟩
  · simp only [step, if_pos l, e₁, bind, Except.bind]
    exact e
  · unfold St.var
    rw [es, List.getElem?_set_ne ij]
  · obtain ⟨a', c₀, c', ev', g₀, g', q⟩ := vr a ev
    rw [g] at g₀
    cases g₀
    have m : V.ref a' ∈ s'.vars := var_mem (j := i) (by rw [vi, ev'])
    obtain ⟨d, gd⟩ := J.alive m
    obtain ⟨d', gd', eb⟩ := S.body a' d gd
    rw [g'] at gd'
    cases gd'
    exact ⟨a', d, by rw [vi, ev'], gd, eb.trans q⟩

/-- A run: two variables share a list, one of them is overwritten, a string is stored in the list,
and the end of the scope frees everything. -/
example : ∃ s, run (start 3) [.str 1 [1, 2, 3, 4, 5], .build 0 .list [1, 1], .copy 2 0,
      .item 0 2 1, .append 2 0, .move 0 2] = .ok s ∧
    s.var 0 = .ref 3 ∧ (get s.h 3).map (·.rc) = some 1 ∧
    (get s.h 3).map (·.body.kids.length) = some 3 ∧
    (finish s).toOption.map (·.all (· == none)) = some true := by
  refine ⟨_, rfl, ?_⟩
  decide +kernel

end Verif.Rc
