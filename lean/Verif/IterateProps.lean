import Verif.Iterate
import Verif.LowerStmt

/-! Theorems on loops over lists and over zip and enumerate. -/

namespace Verif.Iterate

/-! ## `for` over a list -/

section ForList
variable {V W R : Type}

/-- A body that leaves the list as long and where it is. -/
def Keeps (body : V → Buf V × W → Out (Buf V × W) R) : Prop :=
  ∀ v s s', body v s = .next s' → s'.1.id = s.1.id ∧ s'.1.items.length = s.1.items.length

theorem for_agrees_from (body : V → Buf V × W → Out (Buf V × W) R) (hb : Keeps body) (id n : Nat) :
    ∀ fuel i (s : Buf V × W), s.1.id = id → s.1.items.length = n → i ≤ n →
      cxxFor body id n fuel i s = pyFor body fuel i s := by
  intro fuel
  induction fuel with
  | zero => intros; rfl
  | succ fuel ih =>
    intro i s hid hn hi
    rw [cxxFor, pyFor]
    by_cases h : i = n
    · rw [if_pos h, List.getElem?_eq_none (by omega)]
    · rw [if_neg h, if_pos hid, List.getElem?_eq_getElem (show i < s.1.items.length by omega)]
      dsimp only
      cases hv : body s.1.items[i] s with
      | next s' =>
        obtain ⟨h1, h2⟩ := hb _ _ _ hv
        exact ih (i + 1) s' (by omega) (by omega) (by omega)
      | brk s' => rfl
      | exit s' r => rfl

/-- A loop over a list whose body may set items but keeps its length runs as in Python. -/
theorem for_agrees_partial (body : V → Buf V × W → Out (Buf V × W) R) (hb : Keeps body)
    (fuel : Nat) (s : Buf V × W) : forList body fuel s = pyFor body fuel 0 s :=
  for_agrees_from body hb _ _ fuel 0 s rfl rfl (Nat.zero_le _)

/-- ... and it ends. -/
theorem for_ends (body : V → Buf V × W → Out (Buf V × W) R) (hb : Keeps body) (s : Buf V × W) :
    forList body (s.1.items.length + 1) s ≠ .timeout ∧
      forList body (s.1.items.length + 1) s ≠ .ub := by
  have key : ∀ fuel i (s : Buf V × W), i ≤ s.1.items.length → s.1.items.length < i + fuel →
      pyFor body fuel i s ≠ .timeout ∧ pyFor body fuel i s ≠ .ub := by
    intro fuel
    induction fuel with
    | zero => intro i s h1 h2; omega
    | succ fuel ih =>
      intro i s h1 h2
      rw [pyFor]
      by_cases h : i < s.1.items.length
      · rw [List.getElem?_eq_getElem h]
        dsimp only
        cases hv : body s.1.items[i] s with
        | next s' =>
          have := (hb _ _ _ hv).2
          exact ih (i + 1) s' (by omega) (by omega)
        | brk s' => exact ⟨nofun, nofun⟩
        | exit s' r => exact ⟨nofun, nofun⟩
      · rw [List.getElem?_eq_none (by omega)]
        exact ⟨nofun, nofun⟩
  rw [for_agrees_partial body hb]
  exact key _ 0 s (by omega) (by omega)

/-- A loop that visits every item of a list it does not touch is a fold over the items. -/
theorem for_fold (g : V → W → W) (b : Buf V) (w : W) :
    forList (R := R) (fun v s => .next (s.1, g v s.2)) (b.items.length + 1) (b, w) =
      .done (b, b.items.foldl (fun w v => g v w) w) := by
  rw [for_agrees_partial _ (by intro v s s' h; cases h; exact ⟨rfl, rfl⟩)]
  have key : ∀ fuel i w, b.items.length < i + fuel → i ≤ b.items.length →
      pyFor (R := R) (fun v s => .next (s.1, g v s.2)) fuel i (b, w) =
        .done (b, (b.items.drop i).foldl (fun w v => g v w) w) := by
    intro fuel
    induction fuel with
    | zero => intro i w h1 h2; omega
    | succ fuel ih =>
      intro i w h1 h2
      rw [pyFor]
      by_cases h : i < b.items.length
      · dsimp only
        rw [List.getElem?_eq_getElem h]
        dsimp only
        rw [ih (i + 1) _ (by omega) (by omega), List.drop_eq_getElem_cons h, List.foldl_cons]
      · dsimp only
        rw [List.getElem?_eq_none (by omega), List.drop_eq_nil_of_le (by omega)]
        rfl
  simpa using key (b.items.length + 1) 0 w (by omega) (by omega)

theorem push_items (b : Buf V) (v : V) : (push b v).items = b.items ++ [v] := by
  unfold push; split <;> rfl

/-- A body that appends never ends in Python. -/
theorem append_py (f : V → W → V) (g : V → W → W) (b : Buf V) (w : W) (hb : b.items ≠ []) :
    ∀ fuel, pyFor (R := R) (fun v s => .next (push s.1 (f v s.2), g v s.2)) fuel 0 (b, w) =
      .timeout := by
  have key : ∀ fuel i (b : Buf V) w, i < b.items.length →
      pyFor (R := R) (fun v s => .next (push s.1 (f v s.2), g v s.2)) fuel i (b, w) = .timeout := by
    intro fuel
    induction fuel with
    | zero => intros; rfl
    | succ fuel ih =>
      intro i b w h
      rw [pyFor]
      dsimp only
      rw [List.getElem?_eq_getElem h]
      exact ih (i + 1) _ _ (by rw [push_items, List.length_append]; simp only [List.length_singleton]; omega)
  exact fun fuel => key fuel 0 b w (List.length_pos_iff.2 hb)

/-- The generated loop ends after the items the list had when there is room, -/
theorem append_room (f : V → W → V) (g : V → W → W) (b : Buf V) (w : W)
    (hc : 2 * b.items.length ≤ b.cap) :
    ∃ b' w', forList (R := R) (fun v s => .next (push s.1 (f v s.2), g v s.2))
        (b.items.length + 1) (b, w) = .done (b', w') ∧
      b'.items.length = 2 * b.items.length := by
  unfold forList
  have key : ∀ fuel i (s : Buf V × W), s.1.id = b.id → s.1.cap = b.cap →
      s.1.items.length = b.items.length + i → i ≤ b.items.length → b.items.length < i + fuel →
      ∃ b' w', cxxFor (R := R) (fun v s => .next (push s.1 (f v s.2), g v s.2)) b.id b.items.length
        fuel i s = .done (b', w') ∧ b'.items.length = 2 * b.items.length := by
    intro fuel
    induction fuel with
    | zero => intro i s _ _ _ h1 h2; omega
    | succ fuel ih =>
      intro i s h1 h2 h3 h4 h5
      rw [cxxFor]
      by_cases h : i = b.items.length
      · rw [if_pos h]
        exact ⟨s.1, s.2, rfl, by omega⟩
      · rw [if_neg h, if_pos h1,
          List.getElem?_eq_getElem (show i < s.1.items.length by omega)]
        dsimp only
        have hp : push s.1 (f s.1.items[i] s.2) =
            { s.1 with items := s.1.items ++ [f s.1.items[i] s.2] } := by
          rw [push, if_pos (by omega)]
        rw [hp]
        exact ih (i + 1) _ h1 h2
          (by simp only [List.length_append, List.length_singleton]; omega) (by omega) (by omega)
  exact key _ 0 (b, w) rfl rfl (by simp) (by omega) (by simp)

/-- ... and reads freed memory when the list is full. -/
theorem append_full (f : V → W → V) (g : V → W → W) (b : Buf V) (w : W) (fuel : Nat)
    (hc : b.items.length = b.cap) (h2 : 2 ≤ b.items.length) :
    forList (R := R) (fun v s => .next (push s.1 (f v s.2), g v s.2)) (fuel + 2) (b, w) = .ub := by
  unfold forList
  rw [cxxFor, if_neg (by dsimp only; omega), if_pos rfl]
  dsimp only
  rw [List.getElem?_eq_getElem (show 0 < b.items.length by omega)]
  dsimp only
  rw [cxxFor, if_neg (by omega), if_neg]
  dsimp only
  rw [push, if_neg (by omega)]
  simp

/-- Appending to the list that is iterated over: Python goes on for ever, the generated code stops
or reads freed memory. -/
theorem append_refuted (f : V → W → V) (g : V → W → W) (b : Buf V) (w : W) (hb : b.items ≠ []) :
    (∀ fuel, pyFor (R := R) (fun v s => .next (push s.1 (f v s.2), g v s.2)) fuel 0 (b, w) =
      .timeout) ∧
    forList (R := R) (fun v s => .next (push s.1 (f v s.2), g v s.2)) (b.items.length + 1) (b, w) ≠
      .timeout := by
  refine ⟨append_py f g b w hb, ?_⟩
  unfold forList
  have key : ∀ fuel i (s : Buf V × W), i ≤ b.items.length → b.items.length < i + fuel →
      cxxFor (R := R) (fun v s => .next (push s.1 (f v s.2), g v s.2)) b.id b.items.length
        fuel i s ≠ .timeout := by
    intro fuel
    induction fuel with
    | zero => intro i s h1 h2; omega
    | succ fuel ih =>
      intro i s h1 h2
      rw [cxxFor]
      by_cases h : i = b.items.length
      · rw [if_pos h]; exact nofun
      · rw [if_neg h]
        by_cases hid : s.1.id = b.id
        · rw [if_pos hid]
          cases s.1.items[i]? with
          | none => exact nofun
          | some v => exact ih (i + 1) _ (by omega) (by omega)
        · rw [if_neg hid]; exact nofun
  exact key _ 0 _ (by omega) (by omega)

/-- Popping from the list that is iterated over: Python visits the first half, the generated code
reads items that are gone, whatever the list (of two items at least). -/
theorem pop_refuted (g : V → W → W) (b : Buf V) (w : W) (h2 : 2 ≤ b.items.length) :
    (∃ b' w', pyFor (R := R) (fun v s => .next (pop s.1, g v s.2)) (b.items.length + 1) 0 (b, w) =
        .done (b', w') ∧ b'.items = b.items.take (b.items.length / 2)) ∧
      forList (R := R) (fun v s => .next (pop s.1, g v s.2)) (b.items.length + 1) (b, w) = .ub := by
  constructor
  · have key : ∀ fuel i (s : Buf V × W), s.1.items = b.items.take (b.items.length - i) →
        i ≤ b.items.length - b.items.length / 2 → b.items.length < i + fuel →
        ∃ b' w', pyFor (R := R) (fun v s => .next (pop s.1, g v s.2)) fuel i s = .done (b', w') ∧
          b'.items = b.items.take (b.items.length / 2) := by
      intro fuel
      induction fuel with
      | zero => intro i s h1 h2 h3; omega
      | succ fuel ih =>
        intro i s h1 h3 h4
        have hl : s.1.items.length = b.items.length - i := by
          rw [h1, List.length_take]; omega
        rw [pyFor]
        by_cases h : i < s.1.items.length
        · rw [List.getElem?_eq_getElem h]
          refine ih (i + 1) _ ?_ (by omega) (by omega)
          simp only [pop]
          rw [h1, List.dropLast_eq_take, List.length_take, List.take_take]
          congr 1
          omega
        · rw [List.getElem?_eq_none (by omega)]
          refine ⟨s.1, s.2, rfl, ?_⟩
          rw [h1, show b.items.length - i = b.items.length / 2 by omega]
    exact key _ 0 (b, w) (by simp) (by omega) (by omega)
  · unfold forList
    have key : ∀ fuel i (s : Buf V × W), s.1.id = b.id → s.1.items.length = b.items.length - i →
        i < b.items.length → b.items.length < i + fuel →
        cxxFor (R := R) (fun v s => .next (pop s.1, g v s.2)) b.id b.items.length fuel i s =
          .ub := by
      intro fuel
      induction fuel with
      | zero => intro i s _ _ h1 h2; omega
      | succ fuel ih =>
        intro i s h1 hl h3 h4
        rw [cxxFor, if_neg (by omega), if_pos h1]
        by_cases h : i < s.1.items.length
        · rw [List.getElem?_eq_getElem h]
          refine ih (i + 1) _ h1 ?_ (by omega) (by omega)
          simp only [pop, List.length_dropLast]
          omega
        · rw [List.getElem?_eq_none (by omega)]
    exact key _ 0 (b, w) rfl (by simp) (by omega) (by omega)

end ForList

/-! ### Examples -/

/-- `for x in xs: xs.append(x)` with `[1, 2]` and no room. -/
example : forList (R := Unit) (fun (v : Nat) s => .next (push s.1 v, ())) 9 (⟨0, [1, 2], 2⟩, ()) =
    .ub := by decide

/-- ... and with room. -/
example : forList (R := Unit) (fun (v : Nat) s => .next (push s.1 v, ())) 9 (⟨0, [1, 2], 4⟩, ()) =
    .done (⟨0, [1, 2, 1, 2], 4⟩, ()) := by decide

/-- `for x in xs: xs[2] = x; n += x`. -/
example : forList (R := Unit) (fun (v : Nat) s =>
      .next ({ s.1 with items := s.1.items.set 2 v }, s.2 + v)) 9 (⟨0, [1, 2, 3], 3⟩, 0) =
    .done (⟨0, [1, 2, 2], 3⟩, 5) := by decide

/-! ## zip -/

section Zip
variable {V W R : Type}

/-- The iterator objects among the arguments. -/
def ids : List (Src V) → List Nat
  | [] => []
  | .cont _ :: r => ids r
  | .iter j :: r => j :: ids r

theorem start_put (H : Heap V) (j : Nat) (xs : List V) :
    ∀ srcs : List (Src V), j ∉ ids srcs → srcs.map (start (put H j xs)) = srcs.map (start H)
  | [], _ => rfl
  | .cont _ :: r, h => by
    rw [List.map_cons, List.map_cons, start_put H j xs r h]; rfl
  | .iter i :: r, h => by
    rw [ids, List.mem_cons, not_or] at h
    rw [List.map_cons, List.map_cons, start_put H j xs r h.2]
    simp only [start, put, if_neg (Ne.symm h.1)]

theorem start_congr {H H' : Heap V} :
    ∀ {srcs : List (Src V)}, (∀ j ∈ ids srcs, H' j = H j) →
      srcs.map (start H') = srcs.map (start H)
  | [], _ => rfl
  | .cont _ :: r, h => by
    rw [List.map_cons, List.map_cons, start_congr (srcs := r) h]; rfl
  | .iter i :: r, h => by
    rw [List.map_cons, List.map_cons,
      start_congr (srcs := r) fun j hj => h j (List.mem_cons_of_mem _ hj)]
    simp only [start, h i List.mem_cons_self]

/-- A step that both take. -/
theorem take_agree : ∀ (srcs : List (Src V)) (H : Heap V), (ids srcs).Nodup →
    (srcs.map (start H)).all Cur.more = true →
    ∃ vs srcs' H', pyTake srcs H = (some (vs, srcs'), H') ∧
      cxxTake (srcs.map (start H)) H = some (vs, srcs'.map (start H'), H') ∧
      ids srcs' = ids srcs ∧ (∀ j, j ∉ ids srcs → H' j = H j) ∧ vs.length = srcs.length
  | [], H, _, _ => ⟨[], [], H, rfl, rfl, rfl, fun _ _ => rfl, rfl⟩
  | .cont xs :: r, H, hn, hm => by
    rw [List.map_cons, List.all_cons, Bool.and_eq_true] at hm
    obtain ⟨vs, r', H', h1, h2, h3, h4, h5⟩ := take_agree r H hn hm.2
    cases xs with
    | nil => exact absurd hm.1 (by simp [start, Cur.more])
    | cons x xs =>
      refine ⟨x :: vs, .cont xs :: r', H', ?_, ?_, h3, h4, by simp [h5]⟩
      · rw [pyTake, h1]
      · rw [List.map_cons, start, cxxTake, h2]; rfl
  | .iter j :: r, H, hn, hm => by
    rw [List.map_cons, List.all_cons, Bool.and_eq_true] at hm
    rw [ids, List.nodup_cons] at hn
    cases hj : H j with
    | nil => exact absurd hm.1 (by simp [start, Cur.more, hj])
    | cons x xs =>
      have e := start_put H j xs r hn.1
      obtain ⟨vs, r', H', h1, h2, h3, h4, h5⟩ := take_agree r (put H j xs) hn.2 (by rw [e]; exact hm.2)
      have hj' : H' j = xs := by rw [h4 j hn.1]; simp [put]
      refine ⟨x :: vs, .iter j :: r', H', ?_, ?_, by rw [ids, ids, h3], ?_, by simp [h5]⟩
      · rw [pyTake, hj]; dsimp only; rw [h1]
      · rw [List.map_cons, start, cxxTake, hj]; dsimp only
        rw [← e, h2, List.map_cons, start, hj']
      · intro i hi
        rw [ids, List.mem_cons, not_or] at hi
        rw [h4 i hi.2, put, if_neg hi.1]

/-- Python's last step: iterators before the one that is exhausted lose an item. -/
theorem take_stop : ∀ (srcs : List (Src V)) (H : Heap V), (ids srcs).Nodup →
    (srcs.map (start H)).all Cur.more = false →
    ∃ H', pyTake srcs H = (none, H') ∧
      ∀ j, H' j = H j ∨ (j ∈ ids srcs ∧ H' j = (H j).tail)
  | [], H, _, hm => by simp at hm
  | .cont xs :: r, H, hn, hm => by
    cases xs with
    | nil => exact ⟨H, rfl, fun j => .inl rfl⟩
    | cons x xs =>
      rw [List.map_cons, List.all_cons] at hm
      obtain ⟨H', h1, h2⟩ := take_stop r H hn (by simpa [start, Cur.more] using hm)
      exact ⟨H', by rw [pyTake, h1], h2⟩
  | .iter j :: r, H, hn, hm => by
    rw [ids, List.nodup_cons] at hn
    cases hj : H j with
    | nil => exact ⟨H, by rw [pyTake, hj], fun j => .inl rfl⟩
    | cons x xs =>
      rw [List.map_cons, List.all_cons] at hm
      have e := start_put H j xs r hn.1
      obtain ⟨H', h1, h2⟩ := take_stop r (put H j xs) hn.2 (by
        rw [e]; simpa [start, Cur.more, hj] using hm)
      refine ⟨H', by rw [pyTake, hj]; dsimp only; rw [h1], fun i => ?_⟩
      by_cases hi : i = j
      · subst hi
        right
        refine ⟨List.mem_cons_self, ?_⟩
        rcases h2 i with h | h
        · rw [h, hj]; simp [put]
        · exact absurd h.1 hn.1
      · rcases h2 i with h | h
        · left; rw [h, put, if_neg hi]
        · right; refine ⟨List.mem_cons_of_mem _ h.1, ?_⟩; rw [h.2, put, if_neg hi]

/-- A body that does not touch the iterators. -/
def Leaves (is : List Nat) (body : List V → Heap V × W → Out (Heap V × W) R) : Prop :=
  ∀ vs s s', body vs s = .next s' → ∀ j ∈ is, s'.1 j = s.1 j

/-- What the generated loop and Python's have in common: the world, and the iterators but for the
items that Python's last step takes. -/
def ZSame (is : List Nat) : Loop (Heap V × W) R → Loop (Heap V × W) R → Prop
  | .done s, .done s' => s'.2 = s.2 ∧ ∀ j, s'.1 j = s.1 j ∨ (j ∈ is ∧ s'.1 j = (s.1 j).tail)
  | .exit s r, .exit s' r' => s' = s ∧ r' = r
  | .timeout, .timeout => True
  | _, _ => False

/-- A loop over the zip of containers and distinct iterators gives the body the tuples Python
gives, in the same order and world, and reads nothing behind an end. -/
theorem zip_agrees_partial (body : List V → Heap V × W → Out (Heap V × W) R) (fuel : Nat)
    (srcs : List (Src V)) (s : Heap V × W) (hn : (ids srcs).Nodup) (hb : Leaves (ids srcs) body) :
    ZSame (ids srcs) (forZip body fuel srcs s) (pyZip body fuel srcs s) := by
  unfold forZip
  induction fuel generalizing srcs s with
  | zero => trivial
  | succ fuel ih =>
    obtain ⟨H, w⟩ := s
    rw [cxxZip, pyZip]
    cases hm : (srcs.map (start H)).all Cur.more with
    | false =>
      obtain ⟨H', h1, h2⟩ := take_stop srcs H hn hm
      simp only [hm, h1, Bool.false_eq_true, if_false]
      exact ⟨rfl, h2⟩
    | true =>
      obtain ⟨vs, srcs', H', h1, h2, h3, h4, -⟩ := take_agree srcs H hn hm
      simp only [hm, h1, h2, if_true]
      cases hv : body vs (H', w) with
      | next s' =>
        have := ih srcs' s' (by rw [h3]; exact hn) (by rw [h3]; exact hb)
        rw [h3] at this
        rw [start_congr (H' := s'.1) (H := H') fun j hj =>
          hb _ _ _ hv j (by rw [← h3]; exact hj)] at this
        exact this
      | brk s' => exact ⟨rfl, fun j => .inl rfl⟩
      | exit s' r => exact ⟨rfl, rfl⟩

/-- Over containers alone the loop is exactly Python's. -/
theorem zip_containers (body : List V → Heap V × W → Out (Heap V × W) R) (fuel : Nat)
    (srcs : List (Src V)) (s : Heap V × W) (hn : ids srcs = []) :
    forZip body fuel srcs s = pyZip body fuel srcs s := by
  have h := zip_agrees_partial body fuel srcs s (by rw [hn]; exact List.nodup_nil)
    (by rw [hn]; intro _ _ _ _ j hj; simp at hj)
  revert h
  rw [hn]
  cases forZip body fuel srcs s <;> cases pyZip body fuel srcs s <;> simp [ZSame] <;> intro h
  · rename_i a b
    intro h'
    exact Prod.ext (funext fun j => (h' j).symm) h.symm
  · rename_i a r b r'
    intro h'
    exact ⟨h.symm, h'.symm⟩

/-- The tuples of a zip of containers: as many as the shortest, `i`-th of each. -/
theorem zip_tuples (xs ys : List V) (H : Heap V) (g : List V → W → W) (w : W) :
    forZip (R := R) (fun vs s => .next (s.1, g vs s.2)) (min xs.length ys.length + 1)
        [.cont xs, .cont ys] (H, w) =
      .done (H, (xs.zip ys).foldl (fun w p => g [p.1, p.2] w) w) := by
  unfold forZip
  induction xs generalizing ys w with
  | nil => rfl
  | cons x xs ih =>
    cases ys with
    | nil => rfl
    | cons y ys =>
      rw [show min (x :: xs).length (y :: ys).length + 1 = min xs.length ys.length + 1 + 1 by
        simp only [List.length_cons]; omega]
      rw [cxxZip]
      simp only [List.map_cons, List.map_nil, start, List.all_cons, List.all_nil, Cur.more,
        List.isEmpty_cons, Bool.not_false, Bool.and_self, if_true, cxxTake, List.zip_cons_cons,
        List.foldl_cons]
      exact ih ys _

/-- After a loop over `zip(it, ys)` with an iterator that is longer, Python has taken one more item
from it than the generated code. -/
theorem zip_rest_refuted (x : V) (xs : List V) (w : W) (g : List V → W → W) :
    ∃ s s' : Heap V × W,
      forZip (R := R) (fun vs s => .next (s.1, g vs s.2)) 1 [.iter 0, .cont []]
        (fun _ => x :: xs, w) = .done s ∧
      pyZip (R := R) (fun vs s => .next (s.1, g vs s.2)) 1 [.iter 0, .cont []]
        (fun _ => x :: xs, w) = .done s' ∧
      s.1 0 = x :: xs ∧ s'.1 0 = xs :=
  ⟨_, _, rfl, rfl, rfl, rfl⟩

/-- `zip(it, it)` over an iterator with an odd number of items: Python ends the loop, the generated
code reads behind the end. -/
theorem zip_same_refuted (g : List V → W → W) (n : Nat) (H : Heap V) (w : W)
    (hl : (H 0).length = 2 * n + 1) :
    (∃ s, pyZip (R := R) (fun vs s => .next (s.1, g vs s.2)) (n + 1) [.iter 0, .iter 0] (H, w) =
      .done s) ∧
    forZip (R := R) (fun vs s => .next (s.1, g vs s.2)) (n + 1) [.iter 0, .iter 0] (H, w) =
      .ub := by
  have two : ∀ {l : List V} {k}, l.length = 2 * (k + 1) + 1 →
      ∃ a b c t, l = a :: b :: c :: t ∧ (c :: t).length = 2 * k + 1 := by
    intro l k h
    match l, h with
    | a :: b :: c :: t, h =>
      exact ⟨a, b, c, t, rfl, by simp only [List.length_cons] at h ⊢; omega⟩
    | [], h => simp at h; 
    | [_], h => simp at h
    | [_, _], h => simp at h; omega
  have one : ∀ {l : List V}, l.length = 2 * 0 + 1 → ∃ a, l = [a] := by
    intro l h
    exact List.length_eq_one_iff.1 h
  constructor
  · induction n generalizing H w with
    | zero =>
      obtain ⟨a, ha⟩ := one hl
      rw [pyZip, pyTake, ha]
      dsimp only
      rw [pyTake, show put H 0 ([] : List V) 0 = [] by simp [put]]
      exact ⟨_, rfl⟩
    | succ n ih =>
      obtain ⟨a, b, c, t, hl', ht⟩ := two hl
      rw [pyZip, pyTake, hl']
      dsimp only
      rw [pyTake, show put H 0 (b :: c :: t) 0 = b :: c :: t by simp [put]]
      dsimp only
      rw [pyTake]
      dsimp only
      exact ih _ _ (by simpa [put] using ht)
  · unfold forZip
    suffices key : ∀ n (H : Heap V) w, (H 0).length = 2 * n + 1 →
        cxxZip (R := R) (fun vs s => .next (s.1, g vs s.2)) (n + 1) [.iter 0 true, .iter 0 true]
          (H, w) = .ub by
      have := key n H w hl
      cases h0 : H 0 with
      | nil => rw [h0] at hl; simp at hl
      | cons a l => simpa [start, h0] using this
    clear hl H w n
    intro n
    induction n with
    | zero =>
      intro H w hl
      obtain ⟨a, ha⟩ := one hl
      rw [cxxZip]
      simp only [List.all_cons, List.all_nil, Cur.more, Bool.and_self, if_true, cxxTake, ha]
      rw [show put H 0 ([] : List V) 0 = [] by simp [put]]
    | succ n ih =>
      intro H w hl
      obtain ⟨a, b, c, t, hl', ht⟩ := two hl
      rw [cxxZip]
      simp only [List.all_cons, List.all_nil, Cur.more, Bool.and_self, if_true, cxxTake, hl']
      rw [show put H 0 (b :: c :: t) 0 = b :: c :: t by simp [put]]
      simp only [List.isEmpty_cons, Bool.not_false]
      exact ih _ _ (by simpa [put] using ht)

/-! ## enumerate -/

/-- `enumerate(xs, pos)` counts from `pos` as Python does while the numbers fit an `int64`. -/
theorem enum_agrees (body : Int → V → W → Out W R) (xs : List V) (pos : Int) (w : W)
    (h1 : -2 ^ 63 ≤ pos) (h2 : pos + xs.length ≤ 2 ^ 63) :
    forEnum body pos xs w =
      pyEnum body ((List.range xs.length).zip xs |>.map fun p => (pos + (p.1 : Nat), p.2)) w := by
  induction xs generalizing pos w with
  | nil => rfl
  | cons x xs ih =>
    rw [forEnum, List.length_cons, List.range_succ_eq_map, List.zip_cons_cons, List.map_cons,
      pyEnum, show pos + ((0 : Nat) : Int) = pos by omega]
    cases body pos x w with
    | next w' =>
      dsimp only
      rw [List.length_cons] at h2
      have hmap : ((List.map Nat.succ (List.range xs.length)).zip xs |>.map
            fun p => (pos + (p.1 : Nat), p.2)) =
          ((List.range xs.length).zip xs |>.map fun p => (pos + 1 + (p.1 : Nat), p.2)) := by
        rw [← List.map_id xs, List.zip_map, List.map_map, List.map_id]
        refine List.map_congr_left fun p _ => ?_
        simp only [Function.comp_apply, Prod.map, Nat.succ_eq_add_one, id, Nat.cast_add, Nat.cast_one]
        rw [show pos + ((p.1 : Int) + 1) = pos + 1 + p.1 by omega]
      rw [hmap]
      cases xs with
      | nil => rfl
      | cons y ys =>
        have hb : (pos + 1).bmod (2 ^ 64) = pos + 1 := by
          rw [List.length_cons] at h2
          push_cast at h2
          rw [Int.bmod_eq_of_le] <;> omega
        rw [hb]
        exact ih (pos + 1) w' (by omega) (by push_cast at h2 ⊢; omega)
    | brk w' => rfl
    | exit w' r => rfl

end Zip

/-- `for a, b in zip(it, [7, 8])` with `it` having 1, 2, 3 left. -/
example : (match forZip (R := Unit) (fun (vs : List Nat) s => .next (s.1, s.2 ++ [vs])) 9
      [.iter 3, .cont [7, 8]] (fun _ => [1, 2, 3], []) with
    | .done s => (s.1 3, s.2)
    | _ => ([], [])) = ([3], [[1, 7], [2, 8]]) := by decide

example : (match pyZip (R := Unit) (fun (vs : List Nat) s => .next (s.1, s.2 ++ [vs])) 9
      [.iter 3, .cont [7, 8]] (fun _ => [1, 2, 3], []) with
    | .done s => (s.1 3, s.2)
    | _ => ([], [])) = ([], [[1, 7], [2, 8]]) := by decide

example : forEnum (R := Unit) (fun i (x : Nat) w => .next (w ++ [(i, x)])) 5 [10, 20] [] =
    .done [(5, 10), (6, 20)] := by decide

end Verif.Iterate
