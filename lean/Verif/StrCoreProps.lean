import Verif.StrCoreOps
import Mathlib.Data.List.Perm.Basic
import Mathlib.Data.List.InsertIdx

/-! Strings are values, their storage is safe, and it is given back. -/

namespace Verif.StrCore

variable {α : Type} {T : Prop} {P : Par α} {H : Heap α}

/-! ## The specification: variables holding lists of characters -/

/-- The value of a variable. -/
def val (ls : List (List α)) (j : Nat) : List α := (ls[j]?).getD []

/-- A part of the value of a variable. -/
def part (ls : List (List α)) (j off n : Nat) : List α := ((val ls j).drop off).take n

/-- What a statement means: only the variable it names changes. -/
def spec (ls : List (List α)) : Op α → List (List α)
  | .new l => ls ++ [l]
  | .copy i => match ls[i]? with | some l => ls ++ [l] | none => ls
  | .view i => match ls[i]? with | some l => ls ++ [l] | none => ls
  | .sub i off n => match ls[i]? with | some l => ls ++ [(l.drop off).take n] | none => ls
  | .move i => match ls[i]? with | some l => ls.set i [] ++ [l] | none => ls
  | .unbox i => match ls[i]? with | some l => ls.set i [] ++ [l] | none => ls
  | .del i => ls.eraseIdx i
  | .assignFrom i j => match ls[j]? with | some d => ls.set i d | none => ls
  | .assignView i j => match ls[j]? with | some d => ls.set i d | none => ls
  | .assignMove i j => match ls[i]?, ls[j]? with
    | some _, some d => if i = j then ls else (ls.set i d).set j []
    | _, _ => ls
  | .assignLit i l => ls.set i l
  | .assignPart i j off n => ls.set i (part ls j off n)
  | .appendLit i l => ls.set i (val ls i ++ l)
  | .appendPart i j off n => ls.set i (val ls i ++ part ls j off n)
  | .appendFill i n x => ls.set i (val ls i ++ List.replicate n x)
  | .popBack i => ls.set i (val ls i).dropLast
  | .resize i n x => ls.set i ((val ls i).take n ++ List.replicate (n - (val ls i).length) x)
  | .reserve _ _ => ls
  | .shrinkToFit _ => ls
  | .insertLit i pos l => ls.set i ((val ls i).take pos ++ l ++ (val ls i).drop pos)
  | .insertPart i pos j off n =>
    ls.set i ((val ls i).take pos ++ part ls j off n ++ (val ls i).drop pos)
  | .erase i pos n => ls.set i ((val ls i).take pos ++ (val ls i).drop (pos + n))
  | .replaceLit i pos n1 l => ls.set i ((val ls i).take pos ++ l ++ (val ls i).drop (pos + n1))
  | .replacePart i pos n1 j off n =>
    ls.set i ((val ls i).take pos ++ part ls j off n ++ (val ls i).drop (pos + n1))
  | .setAt i k x => ls.set i ((val ls i).set k x)

/-- What the operations ask for: positions and parts inside the strings, something to pop, and for
`insert` an argument that is not part of the string itself. -/
def Fine (ls : List (List α)) : Op α → Prop
  | .sub i off n => off + n ≤ (val ls i).length
  | .assignPart _ j off n => off + n ≤ (val ls j).length
  | .appendPart _ j off n => off + n ≤ (val ls j).length
  | .popBack i => val ls i ≠ []
  | .insertLit i pos _ => pos ≤ (val ls i).length
  | .insertPart i pos j off n =>
    pos ≤ (val ls i).length ∧ off + n ≤ (val ls j).length ∧ i ≠ j
  | .erase i pos _ => pos ≤ (val ls i).length
  | .replaceLit i pos _ _ => pos ≤ (val ls i).length
  | .replacePart i pos _ j off n => pos ≤ (val ls i).length ∧ off + n ≤ (val ls j).length
  | .setAt i k _ => k < (val ls i).length
  | _ => True

def specRun (ls : List (List α)) (ops : List (Op α)) : List (List α) := ops.foldl spec ls

def FineRun : List (List α) → List (Op α) → Prop
  | _, [] => True
  | ls, op :: ops => Fine ls op ∧ FineRun (spec ls op) ops

def Op.isUnbox : Op α → Bool
  | .unbox _ => true
  | _ => false

/-! ## Refinement -/

/-- The objects stand for the values. -/
def R (T : Prop) (P : Par α) (H : Heap α) (cs : List (Core α)) (ls : List (List α)) : Prop :=
  ∃ xs : List (Obj α), cs = xs.map (·.1) ∧ xs.map (·.2) = ls.map (·.map some) ∧ Inv T P H xs

theorem get_perm {xs : List (Obj α)} {i : Nat} {x : Obj α} (h : xs[i]? = some x) :
    xs.Perm (x :: xs.eraseIdx i) := by
  obtain ⟨hi, rfl⟩ := List.getElem?_eq_some_iff.mp h
  exact (List.getElem_cons_eraseIdx_perm hi).symm

theorem set_perm {xs : List (Obj α)} {i : Nat} {x : Obj α} (h : xs[i]? = some x) (y : Obj α) :
    (y :: xs.eraseIdx i).Perm (xs.set i y) := by
  obtain ⟨hi, rfl⟩ := List.getElem?_eq_some_iff.mp h
  exact (List.set_perm_cons_eraseIdx hi y).symm

theorem val_of {ls : List (List α)} {xs : List (Obj α)}
    (hv : xs.map (·.2) = ls.map (·.map some)) {j : Nat} {x : Obj α} (h : xs[j]? = some x) :
    ls[j]? = some (val ls j) ∧ x.2 = (val ls j).map some := by
  have h1 : (xs.map (·.2))[j]? = some x.2 := by simp [h]
  rw [hv, List.getElem?_map] at h1
  unfold val
  cases hl : ls[j]? with
  | none => rw [hl] at h1; cases h1
  | some l =>
    rw [hl] at h1
    simp only [Option.map_some, Option.some.injEq] at h1
    exact ⟨rfl, h1.symm⟩

theorem val_none {ls : List (List α)} {xs : List (Obj α)}
    (hv : xs.map (·.2) = ls.map (·.map some)) {j : Nat} (h : xs[j]? = none) :
    ls[j]? = none ∧ val ls j = [] := by
  have h1 : (xs.map (·.2))[j]? = none := by simp [h]
  rw [hv, List.getElem?_map] at h1
  have : ls[j]? = none := by simpa using h1
  exact ⟨this, by simp [val, this]⟩

/-- Changing one variable. -/
theorem onVar_spec {xs : List (Obj α)} {ls : List (List α)} (hI : Inv T P H xs)
    (hv : xs.map (·.2) = ls.map (·.map some)) (i : Nat)
    (f : Heap α → Core α → Except Err (Heap α × Core α)) (r : List α)
    (hf : ∀ c, xs[i]? = some (c, (val ls i).map some) →
      Inv T P H ((c, (val ls i).map some) :: xs.eraseIdx i) →
      ∃ H' c', f H c = .ok (H', c') ∧ Inv T P H' ((c', r.map some) :: xs.eraseIdx i)) :
    ∃ H' cs', onVar H (xs.map (·.1)) i f = .ok (H', cs') ∧ R T P H' cs' (ls.set i r) := by
  cases hx : xs[i]? with
  | none =>
    refine ⟨H, xs.map (·.1), ?_, xs, rfl, ?_, hI⟩
    · simp [onVar, hx]
    · rw [List.set_eq_of_length_le]
      · exact hv
      · have := (val_none hv hx).1
        simpa using this
  | some x =>
    obtain ⟨c, m⟩ := x
    have hm := (val_of hv hx).2
    simp only at hm
    subst hm
    obtain ⟨H', c', h1, h2⟩ := hf c hx (hI.perm (get_perm hx))
    refine ⟨H', (xs.set i (c', r.map some)).map (·.1), ?_, _, rfl, ?_,
      h2.perm (set_perm hx _)⟩
    · simp only [onVar, List.getElem?_map, hx, Option.map_some, h1, bind, Except.bind,
        List.map_set]
    · rw [List.map_set, hv, List.map_set]

theorem perm_append_single {xs : List (Obj α)} (x : Obj α) : (x :: xs).Perm (xs ++ [x]) := by
  have := List.perm_append_comm (l₁ := [x]) (l₂ := xs)
  simpa using this

/-- A new variable. -/
theorem newFrom_spec {xs : List (Obj α)} {ls : List (List α)} (hI : Inv T P H xs)
    (hv : xs.map (·.2) = ls.map (·.map some)) (i : Nat)
    (f : Heap α → Core α → Except Err (Heap α × Core α)) (g : List α → List α)
    (hf : ∀ c, (c, (val ls i).map some) ∈ xs → ∃ H' c', f H c = .ok (H', c') ∧
      Inv T P H' ((c', (g (val ls i)).map some) :: xs)) :
    ∃ H' cs', newFrom H (xs.map (·.1)) i f = .ok (H', cs') ∧
      R T P H' cs' (match ls[i]? with | some l => ls ++ [g l] | none => ls) := by
  cases hx : xs[i]? with
  | none =>
    refine ⟨H, xs.map (·.1), by simp [newFrom, hx], ?_⟩
    rw [(val_none hv hx).1]
    exact ⟨xs, rfl, hv, hI⟩
  | some x =>
    obtain ⟨c, m⟩ := x
    obtain ⟨hl, hm⟩ := val_of hv hx
    simp only at hm
    subst hm
    obtain ⟨H', c', h1, h2⟩ := hf c (List.mem_of_getElem? hx)
    refine ⟨H', xs.map (·.1) ++ [c'], ?_, ?_⟩
    · simp only [newFrom, List.getElem?_map, hx, Option.map_some, h1, bind, Except.bind]
    · rw [hl]
      exact ⟨xs ++ [(c', (g (val ls i)).map some)], by simp, by simp [hv],
        h2.perm (perm_append_single _)⟩

/-- The argument of an operation. -/
theorem srcOf_spec {xs : List (Obj α)} {ls : List (List α)} (hI : Inv T P H xs)
    (hv : xs.map (·.2) = ls.map (·.map some)) {i j off n : Nat} {c : Core α}
    {m : List (Option α)} (hx : xs[i]? = some (c, m)) (hn : off + n ≤ (val ls j).length) :
    SrcIs c m (xs.eraseIdx i) (srcOf (xs.map (·.1)) i j off) n ((part ls j off n).map some) ∧
    (i ≠ j → SrcElse (xs.eraseIdx i) (srcOf (xs.map (·.1)) i j off) n
      ((part ls j off n).map some)) := by
  have hpart : (part ls j off n).map some = (((val ls j).map some).drop off).take n := by
    simp [part]
  rw [hpart]
  cases hy : xs[j]? with
  | none =>
    have h0 := (val_none hv hy).2
    rw [h0] at hn ⊢
    have hs : srcOf (xs.map (·.1)) i j off = .ext [] := by simp [srcOf, hy]
    rw [hs]
    simp only [List.length_nil] at hn
    have : SrcElse (xs.eraseIdx i) (.ext [] : Src α) n ((([] : List α).map some |>.drop off).take n) :=
      ⟨by simp; omega, by simp⟩
    exact ⟨.inl this, fun _ => this⟩
  | some y =>
    obtain ⟨d, md⟩ := y
    have hm := (val_of hv hy).2
    simp only at hm
    have hn' : off + n ≤ md.length := by rw [hm, List.length_map]; exact hn
    rw [← hm]
    have hgetj : (xs.map (·.1))[j]? = some d := by simp [hy]
    by_cases hij : i = j
    · subst hij
      rw [hx] at hy
      cases hy
      refine ⟨.inr ?_, fun h => absurd rfl h⟩
      unfold srcOf
      rw [hgetj]
      cases c with
      | small cells len =>
        simp only [if_true]
        exact ⟨⟨cells, len, rfl⟩, hn', rfl⟩
      | medium p k => exact ⟨by simp [owns], hn', rfl⟩
      | large p k => exact ⟨by simp [owns], hn', rfl⟩
    · have hmem : (d, md) ∈ xs.eraseIdx i :=
        List.mem_eraseIdx_iff_getElem?.mpr ⟨j, fun e => hij e.symm, hy⟩
      have key : SrcElse (xs.eraseIdx i) (srcOf (xs.map (·.1)) i j off) n
          ((md.drop off).take n) := by
        unfold srcOf
        rw [hgetj]
        cases d with
        | small cells len =>
          simp only [if_neg hij]
          have hr := hI.rep _ (List.mem_of_getElem? hy)
          have hpk := peek_rep hr hn'
          have hr' : cells.length = P.S + 1 := hr.1
          have h2 : md.length = len := hr.2.1
          have h3 : len ≤ P.S := hr.2.2.1
          simp only [peek] at hpk
          rw [if_pos (by omega)] at hpk
          refine ⟨by rw [List.length_drop]; omega, ?_⟩
          simp only [Except.ok.injEq] at hpk
          exact hpk.symm
        | medium p k => exact ⟨_, hmem, by simp [owns], hn', rfl⟩
        | large p k => exact ⟨_, hmem, by simp [owns], hn', rfl⟩
      exact ⟨.inl key, fun _ => key⟩

theorem lit_spec (xs : List (Obj α)) (l : List α) : SrcElse xs (lit l) l.length (l.map some) :=
  ⟨by simp, by rw [List.take_of_length_le (by simp)]⟩

theorem part_all (ls : List (List α)) (j : Nat) : part ls j 0 (val ls j).length = val ls j := by
  simp [part]

/-- Every statement does what it means. -/
theorem step_spec (hg : Good P) {cs : List (Core α)} {ls : List (List α)} (h : R T P H cs ls)
    (op : Op α) (hf : Fine ls op) (hu : T → op.isUnbox = false) :
    ∃ H' cs', step P H cs op = .ok (H', cs') ∧ R T P H' cs' (spec ls op) := by
  obtain ⟨xs, rfl, hv, hI⟩ := h
  have hself : ∀ i, ls.set i (val ls i) = ls := by
    intro i
    unfold val
    cases hl : ls[i]? with
    | none => exact List.set_eq_of_length_le (by simpa using hl)
    | some l =>
      obtain ⟨hi, rfl⟩ := List.getElem?_eq_some_iff.mp hl
      simp
  cases op with
  | new l =>
    obtain ⟨H', c, h1, h2⟩ := mk_spec hg hI (l.map some)
    exact ⟨H', xs.map (·.1) ++ [c], by simp only [step, h1, bind, Except.bind],
      xs ++ [(c, l.map some)], by simp, by simp [spec, hv], h2.perm (perm_append_single _)⟩
  | copy i => exact newFrom_spec hI hv i (copy P) id fun c hc => copy_spec hg hI hc
  | view i => exact newFrom_spec hI hv i (fromView P) id fun c hc => fromView_spec hg hI hc
  | sub i off n =>
    simp only [step, spec]
    refine newFrom_spec hI hv i _ (fun l => (l.drop off).take n) fun c hc => ?_
    have hpk := peek_rep (hI.rep _ hc) (off := off) (k := n)
      (by simp only [List.length_map]; exact hf)
    simp only [hpk, bind, Except.bind]
    obtain ⟨H', c', h1, h2⟩ := mk_spec hg hI ((((val ls i).map some).drop off).take n)
    exact ⟨H', c', h1, by simpa using h2⟩
  | move i =>
    cases hx : xs[i]? with
    | none =>
      refine ⟨H, xs.map (·.1), by simp [step, hx], ?_⟩
      simp only [spec, (val_none hv hx).1]
      exact ⟨xs, rfl, hv, hI⟩
    | some x =>
      obtain ⟨c, m⟩ := x
      obtain ⟨hl, hm⟩ := val_of hv hx
      have hI2 := (empty_inv (hI.perm (get_perm hx)) hg.S_pos).perm (List.Perm.swap _ _ _)
      have hI3 := hI2.perm (((set_perm hx (empty P, [])).cons (c, m)).trans (perm_append_single _))
      refine ⟨H, (xs.map (·.1)).set i (empty P) ++ [c], by simp [step, hx], ?_⟩
      simp only [spec, hl]
      refine ⟨xs.set i (empty P, []) ++ [(c, m)], by simp [List.map_set], ?_, hI3⟩
      rw [List.map_append, List.map_set, hv]
      simp only at hm
      simp [hm]
  | unbox i =>
    cases hx : xs[i]? with
    | none =>
      refine ⟨H, xs.map (·.1), by simp [step, hx], ?_⟩
      simp only [spec, (val_none hv hx).1]
      exact ⟨xs, rfl, hv, hI⟩
    | some x =>
      obtain ⟨c, m⟩ := x
      obtain ⟨hl, hm⟩ := val_of hv hx
      have hT : ¬ T := fun t => by cases hu t
      have hI1 : Inv T P H ((moveFrom P c, m) :: xs.eraseIdx i) := by
        have h0 := hI.perm (get_perm hx)
        have hr : Rep P H c m := h0.rep _ head_mem
        cases c with
        | small cells len => exact h0.tail_small.small (moveFrom_rep hr) fun t => absurd t hT
        | medium p k => exact h0
        | large p k => exact h0
      have hI2 := (empty_inv hI1 hg.S_pos).perm (List.Perm.swap _ _ _)
      have hI3 := hI2.perm (((set_perm hx (empty P, [])).cons (moveFrom P c, m)).trans
        (perm_append_single _))
      refine ⟨H, (xs.map (·.1)).set i (empty P) ++ [moveFrom P c], by simp [step, hx], ?_⟩
      simp only [spec, hl]
      refine ⟨xs.set i (empty P, []) ++ [(moveFrom P c, m)], by simp [List.map_set], ?_, hI3⟩
      rw [List.map_append, List.map_set, hv]
      simp only at hm
      simp [hm]
  | del i =>
    cases hx : xs[i]? with
    | none =>
      refine ⟨H, xs.map (·.1), by simp [step, hx], ?_⟩
      have hl := (val_none hv hx).1
      simp only [spec]
      rw [List.eraseIdx_of_length_le (by simpa using hl)]
      exact ⟨xs, rfl, hv, hI⟩
    | some x =>
      obtain ⟨c, m⟩ := x
      obtain ⟨H', h1, h2, -⟩ := (hI.perm (get_perm hx)).destroy
      refine ⟨H', (xs.map (·.1)).eraseIdx i, by simp [step, hx, h1, bind, Except.bind],
        xs.eraseIdx i, by rw [List.eraseIdx_map], ?_, h2⟩
      simp only [spec]
      rw [← List.eraseIdx_map, hv, List.eraseIdx_map]
  | assignFrom i j =>
    simp only [step, spec]
    cases hy : xs[j]? with
    | none =>
      refine ⟨H, xs.map (·.1), by simp [hy], ?_⟩
      simp only [(val_none hv hy).1]
      exact ⟨xs, rfl, hv, hI⟩
    | some y =>
      obtain ⟨d, md⟩ := y
      obtain ⟨hl, hm⟩ := val_of hv hy
      simp only at hm
      simp only [List.getElem?_map, hy, Option.map_some, hl]
      by_cases hij : i = j
      · rw [if_pos hij, hij, hself j]
        exact ⟨H, _, rfl, xs, rfl, hv, hI⟩
      · rw [if_neg hij]
        refine onVar_spec hI hv i _ (val ls j) fun c hx hI' => ?_
        have hs := (srcOf_spec hI hv hx (j := j) (off := 0) (n := (val ls j).length)
          (by omega)).1
        rw [part_all] at hs
        have hsz := (hI.rep _ (List.mem_of_getElem? hy)).size
        simp only [hm, List.length_map] at hsz
        rw [hsz] at hs
        refine assignFrom_spec hg hI' ?_ hs
        rw [← hm]
        exact List.mem_eraseIdx_iff_getElem?.mpr ⟨j, fun e => hij e.symm, hy⟩
  | assignView i j =>
    simp only [step, spec]
    cases hy : xs[j]? with
    | none =>
      refine ⟨H, xs.map (·.1), by simp [hy], ?_⟩
      simp only [(val_none hv hy).1]
      exact ⟨xs, rfl, hv, hI⟩
    | some y =>
      obtain ⟨d, md⟩ := y
      obtain ⟨hl, hm⟩ := val_of hv hy
      simp only at hm
      simp only [List.getElem?_map, hy, Option.map_some, hl]
      refine onVar_spec hI hv i _ (val ls j) fun c hx hI' => ?_
      have hs := (srcOf_spec hI hv hx (j := j) (off := 0) (n := (val ls j).length)
        (by omega)).1
      rw [part_all] at hs
      have hsz := (hI.rep _ (List.mem_of_getElem? hy)).size
      simp only [hm, List.length_map] at hsz
      rw [hsz] at hs
      refine assignView_spec hg hI' ?_ hs
      rw [← hm]
      exact (get_perm hx).mem_iff.mp (List.mem_of_getElem? hy)
  | assignMove i j =>
    simp only [step, spec]
    cases hy : xs[j]? with
    | none =>
      refine ⟨H, xs.map (·.1), by simp [hy], ?_⟩
      rw [(val_none hv hy).1]
      cases ls[i]? <;> exact ⟨xs, rfl, hv, hI⟩
    | some y =>
      obtain ⟨d, md⟩ := y
      obtain ⟨hl, hm⟩ := val_of hv hy
      simp only at hm
      simp only [List.getElem?_map, hy, Option.map_some, hl]
      by_cases hij : i = j
      · rw [if_pos hij]
        subst hij
        rw [hl]
        simp only [if_true]
        exact ⟨H, _, rfl, xs, rfl, hv, hI⟩
      · rw [if_neg hij]
        cases hx : xs[i]? with
        | none =>
          rw [(val_none hv hx).1]
          exact ⟨H, _, rfl, xs, rfl, hv, hI⟩
        | some x =>
          obtain ⟨c, m⟩ := x
          obtain ⟨hl', hm'⟩ := val_of hv hx
          simp only [Option.map_some, hl', if_neg hij]
          obtain ⟨H', h1, h2, -⟩ := (hI.perm (get_perm hx)).destroy
          simp only [h1, bind, Except.bind]
          refine ⟨H', _, rfl, (xs.set i (d, md)).set j (empty P, []), ?_, ?_, ?_⟩
          · rw [List.map_set, List.map_set]
          · rw [List.map_set, List.map_set, hv, hm]
            simp [List.map_set]
          · -- one `d` takes the place of `c`, the other becomes empty
            have hj' : (xs.set i (d, md))[j]? = some (d, md) := by
              rw [List.getElem?_set_ne hij, hy]
            have hp1 := (set_perm hx (d, md)).trans (get_perm hj')
            have hp2 : (xs.eraseIdx i).Perm ((xs.set i (d, md)).eraseIdx j) :=
              List.Perm.cons_inv hp1
            exact (empty_inv (h2.perm hp2) hg.S_pos).perm (set_perm hj' _)
  | assignLit i l =>
    simp only [step, spec]
    exact onVar_spec hI hv i _ l fun c hx hI' =>
      assign_spec hg hI' (.inl (lit_spec _ l))
  | assignPart i j off n =>
    simp only [step, spec]
    exact onVar_spec hI hv i _ _ fun c hx hI' => assign_spec hg hI' (srcOf_spec hI hv hx hf).1
  | appendLit i l =>
    simp only [step, spec]
    refine onVar_spec hI hv i _ _ fun c hx hI' => ?_
    rw [List.map_append]
    exact append_spec hg hI' (.inl (lit_spec _ l))
  | appendPart i j off n =>
    simp only [step, spec]
    refine onVar_spec hI hv i _ _ fun c hx hI' => ?_
    rw [List.map_append]
    exact append_spec hg hI' (srcOf_spec hI hv hx hf).1
  | appendFill i n x =>
    simp only [step, spec]
    refine onVar_spec hI hv i _ _ fun c hx hI' => ?_
    rw [List.map_append, List.map_replicate]
    exact appendFill_spec hg hI' n x
  | popBack i =>
    simp only [step, spec]
    refine onVar_spec hI hv i _ _ fun c hx hI' => ?_
    have := shrink_spec hg hI' 1
    rw [← List.dropLast_eq_take] at this
    rwa [List.map_dropLast]
  | resize i n x =>
    simp only [step, spec]
    refine onVar_spec hI hv i _ _ fun c hx hI' => ?_
    have := resize_spec hg hI' n x
    rw [List.length_map] at this
    rw [List.map_append, List.map_replicate, List.map_take]
    exact this
  | reserve i n =>
    have := onVar_spec hI hv i (fun H c => reserve P H c n) (val ls i) fun c hx hI' => by
      obtain ⟨H', c', h1, h2, -⟩ := reserve_spec hg hI' n
      exact ⟨H', c', h1, h2⟩
    rw [hself i] at this
    exact this
  | shrinkToFit i =>
    have := onVar_spec hI hv i (shrinkToFit P) (val ls i) fun c hx hI' => shrinkToFit_spec hg hI'
    rw [hself i] at this
    exact this
  | insertLit i pos l =>
    simp only [step, spec]
    refine onVar_spec hI hv i _ _ fun c hx hI' => ?_
    simp only [List.map_append, List.map_take, List.map_drop]
    exact insert_spec hg hI' (lit_spec _ l) (by rw [List.length_map]; exact hf)
  | insertPart i pos j off n =>
    simp only [step, spec]
    refine onVar_spec hI hv i _ _ fun c hx hI' => ?_
    simp only [List.map_append, List.map_take (l := val ls i), List.map_drop (l := val ls i)]
    exact insert_spec hg hI' ((srcOf_spec hI hv hx hf.2.1).2 hf.2.2)
      (by rw [List.length_map]; exact hf.1)
  | erase i pos n =>
    simp only [step, spec]
    refine onVar_spec hI hv i _ _ fun c hx hI' => ?_
    simp only [List.map_append, List.map_take, List.map_drop]
    exact erase_spec hg hI' n (by rw [List.length_map]; exact hf)
  | replaceLit i pos n1 l =>
    simp only [step, spec]
    refine onVar_spec hI hv i _ _ fun c hx hI' => ?_
    simp only [List.map_append, List.map_take, List.map_drop]
    exact replace_spec hg hI' (.inl (lit_spec _ l)) n1 (by rw [List.length_map]; exact hf)
  | replacePart i pos n1 j off n =>
    simp only [step, spec]
    refine onVar_spec hI hv i _ _ fun c hx hI' => ?_
    simp only [List.map_append, List.map_take (l := val ls i), List.map_drop (l := val ls i)]
    exact replace_spec hg hI' (srcOf_spec hI hv hx hf.2).1 n1 (by rw [List.length_map]; exact hf.1)
  | setAt i k x =>
    simp only [step, spec]
    refine onVar_spec hI hv i _ _ fun c hx hI' => ?_
    rw [List.map_set]
    exact setAt_spec hg hI' x (by rw [List.length_map]; exact hf)

theorem run_spec (hg : Good P) (ops : List (Op α)) : ∀ {H : Heap α} {cs : List (Core α)}
    {ls : List (List α)}, R T P H cs ls → FineRun ls ops →
    (T → ∀ op ∈ ops, op.isUnbox = false) →
    ∃ H' cs', run P H cs ops = .ok (H', cs') ∧ R T P H' cs' (specRun ls ops) := by
  induction ops with
  | nil => exact fun h _ _ => ⟨_, _, rfl, h⟩
  | cons op ops ih =>
    intro H cs ls h hf hu
    obtain ⟨H1, cs1, h1, h2⟩ := step_spec hg h op hf.1 fun t => hu t op List.mem_cons_self
    obtain ⟨H2, cs2, h3, h4⟩ := ih h2 hf.2 fun t o ho => hu t o (List.mem_cons_of_mem _ ho)
    exact ⟨H2, cs2, by simp only [run, h1, bind, Except.bind, h3], h4⟩

theorem R_none : R T P (Heap.none : Heap α) [] [] :=
  ⟨[], rfl, rfl, by
    refine ⟨?_, ?_, ?_, ?_, ?_⟩
    · intro p b hb; cases hb
    · intro x hx; cases hx
    · intro _ x hx; cases hx
    · intro p b hb; cases hb
    · intro p x hx; cases hx⟩

/-! ## The properties -/

/-- **C70.** A program over strings never fails, and each variable then holds exactly the
characters it holds when strings are values: an operation changes the variable it names and no
other, however the buffers are shared. -/
theorem strings_are_values (hg : Good P) (ops : List (Op α)) (hf : FineRun [] ops) :
    ∃ H cs, run P Heap.none [] ops = .ok (H, cs) ∧ cs.length = (specRun [] ops).length ∧
      ∀ (i : Nat) (l : List α), (specRun [] ops)[i]? = some l → ∃ c, cs[i]? = some c ∧ c.size = l.length ∧
        peek H c 0 c.size = .ok (l.map some) := by
  obtain ⟨H, cs, h1, xs, rfl, hv, hI⟩ := run_spec (T := False) hg ops R_none hf (fun h => h.elim)
  refine ⟨H, _, h1, ?_, ?_⟩
  · have := congrArg List.length hv
    simpa using this
  · intro i l hl
    have h2 : (xs.map (·.2))[i]? = some (l.map some) := by rw [hv]; simp [hl]
    rw [List.getElem?_map, Option.map_eq_some_iff] at h2
    obtain ⟨⟨c, m⟩, hx, rfl⟩ := h2
    have hr := hI.rep _ (List.mem_of_getElem? hx)
    refine ⟨c, by simp [hx], ?_, peek_all hr⟩
    have := hr.size
    simpa using this.symm

/-- **C71.** A program over strings does not touch memory outside its buffers or after they have
been freed, and frees none twice. -/
theorem strings_memory_safe (hg : Good P) (ops : List (Op α)) (hf : FineRun [] ops) (e : Err) :
    run P Heap.none [] ops ≠ .error e := by
  obtain ⟨H, cs, h1, -⟩ := strings_are_values hg ops hf
  rw [h1]
  exact fun h => nomatch h

/-- **C71.** A buffer that has not been freed belongs to a variable. -/
theorem strings_buffers_owned (hg : Good P) (ops : List (Op α)) (hf : FineRun [] ops)
    {H : Heap α} {cs : List (Core α)} (hr : run P Heap.none [] ops = .ok (H, cs)) (p : Nat)
    (hp : H.buf p ≠ none) : ∃ c ∈ cs, ∃ n, c = .medium p n ∨ c = .large p n := by
  obtain ⟨H1, cs1, h1, xs, rfl, hv, hI⟩ := run_spec (T := False) hg ops R_none hf (fun h => h.elim)
  rw [hr] at h1
  cases h1
  obtain ⟨b, hb⟩ := Option.ne_none_iff_exists'.mp hp
  have hc := (hI.count p b hb).2
  obtain ⟨x, hx, ho⟩ := List.countP_pos_iff.mp hc
  refine ⟨x.1, List.mem_map.mpr ⟨x, hx, rfl⟩, ?_⟩
  cases hc : x.1 with
  | small => rw [hc] at ho; cases ho
  | medium q n =>
    rw [hc] at ho
    have : q = p := by simpa [owns] using ho
    exact ⟨n, .inl (by rw [this])⟩
  | large q n =>
    rw [hc] at ho
    have : q = p := by simpa [owns] using ho
    exact ⟨n, .inr (by rw [this])⟩

/-- **C71.** When the last variable has gone, so has the last buffer. -/
theorem strings_no_leak (hg : Good P) (ops : List (Op α)) (hf : FineRun [] ops)
    (hn : specRun [] ops = []) {H : Heap α} {cs : List (Core α)}
    (hr : run P Heap.none [] ops = .ok (H, cs)) (p : Nat) : H.buf p = none := by
  by_contra hp
  obtain ⟨c, hc, -⟩ := strings_buffers_owned hg ops hf hr p hp
  obtain ⟨H1, cs1, h1, h2, -⟩ := strings_are_values hg ops hf
  rw [hr] at h1
  cases h1
  rw [hn] at h2
  have : cs = [] := List.length_eq_zero_iff.mp h2
  subst this
  cases hc

/-- **C72, without `unbox`.** The null character follows every string. -/
theorem strings_terminated_partial (hg : Good P) (ops : List (Op α)) (hf : FineRun [] ops)
    (hu : ∀ op ∈ ops, op.isUnbox = false) {H : Heap α} {cs : List (Core α)}
    (hr : run P Heap.none [] ops = .ok (H, cs)) :
    ∀ c ∈ cs, peek H c c.size 1 = .ok [some P.nul] := by
  obtain ⟨H1, cs1, h1, xs, rfl, hv, hI⟩ := run_spec (T := True) hg ops R_none hf (fun _ => hu)
  rw [hr] at h1
  cases h1
  intro c hc
  obtain ⟨x, hx, rfl⟩ := List.mem_map.mp hc
  have ht := hI.term trivial x hx
  have hr := hI.rep x hx
  have key : ∀ (cells : List (Option α)) (n : Nat), cells[n]? = some (some P.nul) →
      n + 1 ≤ cells.length ∧ (cells.drop n).take 1 = [some P.nul] := by
    intro cells n h
    obtain ⟨hn, he⟩ := List.getElem?_eq_some_iff.mp h
    refine ⟨hn, ?_⟩
    rw [List.drop_eq_getElem_cons hn, he]
    rfl
  cases hc : x.1 with
  | small cells len =>
    rw [hc] at ht
    obtain ⟨h1, h2⟩ := key _ _ ht
    simp only [peek, Core.size]
    simp only [h1, h2, if_true]
  | medium p n =>
    rw [hc] at ht
    obtain ⟨b, hb, ht⟩ := ht
    obtain ⟨h1, h2⟩ := key _ _ ht
    simp only [peek, Core.size, Heap.read, get_eq hb, bind, Except.bind]
    simp only [h1, h2, if_true]
  | large p n =>
    rw [hc] at ht
    obtain ⟨b, hb, ht⟩ := ht
    obtain ⟨h1, h2⟩ := key _ _ ht
    simp only [peek, Core.size, Heap.read, get_eq hb, bind, Except.bind]
    simp only [h1, h2, if_true]

end Verif.StrCore
