import Verif.DictSetProps

/-! # How much memory the hash table needs -/

namespace Verif.HashMap

variable {K V : Type} {o : Ops K}

/-! ## When an insertion does not have to grow the array -/

/-- There is room for the entries in `2 ^ L` slots: they fill at most half of them, and no window of desired
slots is wanted by more entries than its length plus the probe length allow. -/
def Roomy (o : Ops K) (L : Nat) (l : List (K × V)) : Prop :=
  2 * l.length ≤ 2 ^ L ∧ ∀ (w : List (K × V)) s a, w.Subperm l → s ≤ a →
    (∀ x ∈ w, s ≤ home o L x.1 ∧ home o L x.1 ≤ a) → w.length ≤ a - s + maxLOf L

theorem Roomy.subperm {L : Nat} {l l' : List (K × V)} (h : Roomy o L l) (hs : l'.Subperm l) : Roomy o L l' :=
  ⟨by have := hs.length_le; have := h.1; omega, fun w s a hw => h.2 w s a (hw.trans hs)⟩

theorem home_succ {L : Nat} (h1 : 1 ≤ L) (h2 : L < 63) (k : K) : home o (L + 1) k / 2 = home o L k := by
  unfold home indexOf
  rw [if_neg (by omega), if_neg (by omega), Nat.shiftRight_eq_div_pow, Nat.shiftRight_eq_div_pow,
    Nat.div_div_eq_div_mul, ← pow_succ]
  congr 2
  omega

theorem Roomy.succ {L : Nat} (h1 : 1 ≤ L) (h2 : L < 63) {l : List (K × V)} (h : Roomy o L l) :
    Roomy o (L + 1) l := by
  refine ⟨by have := h.1; rw [pow_succ]; omega, ?_⟩
  intro w s a hw hsa hin
  have hm : maxLOf L ≤ maxLOf (L + 1) := by
    unfold maxLOf
    rw [if_neg (by omega), if_neg (by omega)]
    omega
  have := h.2 w (s / 2) (a / 2) hw (by omega) (by
    intro x hx
    have := hin x hx
    rw [← home_succ h1 h2]
    omega)
  omega

theorem Roomy.mono {L L' : Nat} (h1 : 1 ≤ L) (hL : L ≤ L') (h2 : L' ≤ 63) {l : List (K × V)}
    (h : Roomy o L l) : Roomy o L' l := by
  induction L', hL using Nat.le_induction with
  | base => exact h
  | succ n hn ih => exact (ih (by omega)).succ (by omega) (by omega)

/-- A run of occupied slots up to a given one: all its entries want a slot of the run. -/
theorem run_aux {log : Nat} {c : List (Cell (K × V))} {n b s : Nat} {w : List (K × V)} {j e : Nat} {x : K × V}
    (h : WF o log n b c) (hs : s + w.length = n) (hb : b ≤ w.length)
    (hw : ∀ y ∈ w, s ≤ home o log y.1 ∧ home o log y.1 + b ≤ n) (hj : c[j]? = some (.full e x)) :
    ∃ (s' : Nat) (w' : List (K × V)), w'.Sublist (w ++ contents (c.take (j + 1))) ∧ s' + w'.length = n + j + 1 ∧
      s' ≤ home o log x.1 ∧ ∀ y ∈ w', s' ≤ home o log y.1 ∧ home o log y.1 ≤ home o log x.1 := by
  induction c generalizing n b s w j with
  | nil => exact h.elim
  | cons a r ih =>
    cases a with
    | empty =>
      cases j with
      | zero => simp at hj
      | succ j =>
        obtain ⟨s', w', h1, h2, h3, h4⟩ := ih (s := n + 1) (w := []) (WF_empty.mp h) (by simp) (by omega)
          (by simp) (by simpa using hj)
        refine ⟨s', w', ?_, by omega, h3, h4⟩
        rw [List.take_succ_cons]
        exact h1.trans (List.sublist_append_right _ _)
    | fin =>
      obtain ⟨rfl, -⟩ := WF_fin.mp h
      cases j <;> simp at hj
    | full d y =>
      rw [WF_full] at h
      cases j with
      | zero =>
        simp only [List.getElem?_cons_zero, Option.some.injEq, Cell.full.injEq] at hj
        obtain ⟨rfl, rfl⟩ := hj
        refine ⟨s, w ++ [y], by simp [contents], by simp; omega, by omega, ?_⟩
        intro z hz
        rcases List.mem_append.mp hz with hz | hz
        · have := hw z hz
          omega
        · rw [List.mem_singleton] at hz
          subst hz
          omega
      | succ j =>
        obtain ⟨s', w', h1, h2, h3, h4⟩ := ih (s := s) (w := w ++ [y]) h.2.2.2 (by simp; omega)
          (by simp; omega) (by
            intro z hz
            rcases List.mem_append.mp hz with hz | hz
            · have := hw z hz
              omega
            · rw [List.mem_singleton] at hz
              subst hz
              omega) (by simpa using hj)
        refine ⟨s', w', ?_, by omega, h3, h4⟩
        simpa [contents] using h1

theorem probe_prev (k : K) {c : List (Cell (K × V))} {d0 d : Nat} (h : probe o k c d0 = .stop d) (hd : d0 < d) :
    ∃ e x, c[d - 1 - d0]? = some (.full e x) ∧ d - 1 ≤ e := by
  induction c generalizing d0 with
  | nil => simp [probe] at h
  | cons a r ih =>
    cases a with
    | empty => simp [probe] at h; omega
    | fin =>
      simp only [probe] at h
      split at h
      · cases h
      · injection h with h; omega
    | full e x =>
      simp only [probe] at h
      split at h
      · injection h with h; omega
      · split at h
        · cases h
        · rename_i h1 h2
          by_cases hd' : d0 + 1 < d
          · obtain ⟨e', x', h3, h4⟩ := ih h hd'
            refine ⟨e', x', ?_, h4⟩
            rw [show d - 1 - d0 = (d - 1 - (d0 + 1)) + 1 by omega]
            simpa using h3
          · refine ⟨e, x, ?_, by omega⟩
            rw [show d - 1 - d0 = 0 by omega]
            simp

theorem displace_crowded {log : Nat} {r : List (Cell (K × V))} {n h s : Nat} {y : K × V}
    {w : List (K × V)} {r' : List (Cell (K × V))} {z : K × V} (hw : WF o log n h r)
    (hy : home o log y.1 + h = n) (hh : h < maxLOf log) (hs : s + w.length = n) (hb : h ≤ w.length)
    (hin : ∀ x ∈ w, s ≤ home o log x.1 ∧ home o log x.1 + h ≤ n)
    (hst : displace (maxLOf log) r h y = .stuck r' z) :
    ∃ (s' a : Nat) (w' : List (K × V)), w'.Subperm (w ++ y :: contents r) ∧ s' ≤ a ∧ w'.length = a - s' + maxLOf log + 1 ∧
      ∀ x ∈ w', s' ≤ home o log x.1 ∧ home o log x.1 ≤ a := by
  induction r generalizing n h y w r' z with
  | nil => exact hw.elim
  | cons c r ih =>
    cases c with
    | empty => simp [displace] at hst
    | fin => simp [displace] at hst
    | full d x =>
      rw [WF_full] at hw
      simp only [displace] at hst
      by_cases hdh : d < h
      · simp only [hdh, if_true] at hst
        cases hd : displace (maxLOf log) r (d + 1) x with
        | placed q => rw [hd] at hst; simp [DRes.cons] at hst
        | oob => rw [hd] at hst; simp [DRes.cons] at hst
        | stuck q z' =>
          obtain ⟨s', a, w', h1, h2⟩ := ih (y := x) (w := w ++ [y]) hw.2.2.2 (by omega) (by omega)
            (by simp; omega) (by simp; omega) (by
              intro u hu
              rcases List.mem_append.mp hu with hu | hu
              · have := hin u hu
                omega
              · rw [List.mem_singleton] at hu
                subst hu
                omega) hd
          exact ⟨s', a, w', by simpa [contents] using h1, h2⟩
      · simp only [hdh, if_false] at hst
        by_cases hm : h + 1 = maxLOf log
        · refine ⟨s, n - h, w ++ [y, x], ?_, by omega, by simp; omega, ?_⟩
          · apply List.Sublist.subperm
            apply List.Sublist.append_left
            simp [contents]
          · intro u hu
            rcases List.mem_append.mp hu with hu | hu
            · have := hin u hu
              omega
            · simp only [List.mem_cons, List.not_mem_nil, or_false] at hu
              rcases hu with rfl | rfl <;> omega
        · simp only [hm, if_false] at hst
          cases hd : displace (maxLOf log) r (h + 1) y with
          | placed q => rw [hd] at hst; simp [DRes.cons] at hst
          | oob => rw [hd] at hst; simp [DRes.cons] at hst
          | stuck q z' =>
            obtain ⟨s', a, w', h1, h2⟩ := ih (y := y) (n := n + 1) (h := h + 1) (w := w ++ [x])
              (hw.2.2.2.mono (by omega)) (by omega) (by omega)
              (by simp; omega) (by simp; omega) (by
                intro u hu
                rcases List.mem_append.mp hu with hu | hu
                · have := hin u hu
                  omega
                · rw [List.mem_singleton] at hu
                  subst hu
                  omega) hd
            refine ⟨s', a, w', h1.trans (List.Perm.subperm ?_), h2⟩
            simp only [List.append_assoc, List.singleton_append, contents]
            exact List.Perm.append_left _ (List.Perm.swap _ _ _)

/-- With room for the new entry the array does not grow. -/
theorem step_room (ho : o.Lawful) {t t' : Table K V} (hi : Inv o t) (h0 : t.log ≠ 0) {x : K × V}
    (hr : Roomy o t.log (x :: t.toList)) : step o t x ≠ .full t' := by
  intro hst
  have hp := probe_table ho hi x.1
  unfold step at hst
  dsimp only at hst
  revert hp
  cases hpr : probe o x.1 (t.cells.drop (home o t.log x.1)) 0 with
  | oob => exact False.elim
  | found d => rw [hpr] at hst; cases hst
  | stop d =>
    rintro ⟨hlt, habs, hdm, b, hdb, hw, hrep, hcon, hfull⟩
    rw [hpr] at hst
    dsimp only at hst
    have hhome : home o t.log x.1 < slotsOf t.log := inv_home_lt hi h0
    have hmax := maxL_ge t.log
    have hd : d ≠ maxLOf t.log := by
      intro hd
      obtain ⟨e, y, h1, h2⟩ := probe_prev x.1 hpr (by omega)
      rw [List.getElem?_drop] at h1
      obtain ⟨h3, h4⟩ := hi.wf.home_lt_pos h1
      obtain ⟨s, w, h5, h6, h7, h8⟩ := run_aux (s := 0) (w := []) hi.wf rfl (by simp) (by simp) h1
      have hsub : w.Subperm t.toList := by
        refine h5.subperm.trans (List.Sublist.subperm ?_)
        rw [List.nil_append]
        unfold Table.toList
        have hj : home o t.log x.1 + (d - 1 - 0) + 1 < t.cells.length := by omega
        obtain ⟨_, _, _, h9, _⟩ := hi.wf.split hj
        conv_rhs => rw [← List.take_append_drop (home o t.log x.1 + (d - 1 - 0) + 1) t.cells, h9]
        exact List.sublist_append_left _ _
      have := hr.2 (x :: w) s (home o t.log x.1) ((List.subperm_cons x).mpr hsub) (by omega) (by
        intro u hu
        rcases List.mem_cons.mp hu with rfl | hu
        · omega
        · have := h8 u hu
          omega)
      simp only [List.length_cons] at this
      omega
    have hload : ¬ slotsOf t.log < 2 * (t.num + 1) := by
      have := hr.1
      unfold slotsOf
      rw [if_neg h0]
      simp only [List.length_cons] at this
      rw [hi.num]
      omega
    rw [if_neg (by simp only [h0, hd, false_or]; exact hload)] at hst
    cases hdrop : t.cells.drop (home o t.log x.1 + d) with
    | nil => rw [hdrop] at hst; cases hst
    | cons c r =>
      rw [hdrop] at hst hw
      cases c with
      | empty => cases hst
      | fin => cases hst
      | full e y =>
        dsimp only at hst
        have hed : e < d := hfull e y r hdrop
        rw [WF_full] at hw
        cases hds : displace (maxLOf t.log) r (e + 1) y with
        | placed q => rw [hds] at hst; cases hst
        | oob => rw [hds] at hst; cases hst
        | stuck q z =>
          have hmod := hrep (.full d x :: r) ⟨rfl, by omega, hdb, hw.2.2.2.mono (by omega)⟩
          have htl : (t.cells.take (home o t.log x.1 + d)).length = home o t.log x.1 + d := by
            rw [List.length_take]; omega
          have hget : (t.cells.take (home o t.log x.1 + d) ++ .full d x :: r)[home o t.log x.1 + d]? =
              some (.full d x) := by
            rw [List.getElem?_append_right (by omega), htl]
            simp
          obtain ⟨s, w, h5, h6, h7, h8⟩ := run_aux (s := 0) (w := []) hmod rfl (by simp) (by simp) hget
          obtain ⟨s', a, w', h9, h10, h11, h12⟩ := displace_crowded (s := s) (w := w) (y := y) hw.2.2.2
            (by omega) (by omega) (by omega) (by omega) (by
              intro u hu
              have := h8 u hu
              omega) hds
          have hsub : w'.Subperm (x :: t.toList) := by
            refine h9.trans ?_
            have htake : (t.cells.take (home o t.log x.1 + d) ++ .full d x :: r).take
                (home o t.log x.1 + d + 1) = t.cells.take (home o t.log x.1 + d) ++ [.full d x] := by
              rw [List.take_append, htl]
              simp
            rw [List.nil_append, htake, hcon] at h5
            have hlist : t.toList = contents (t.cells.take (home o t.log x.1 + d)) ++ y :: contents r := by
              unfold Table.toList
              conv_lhs => rw [← List.take_append_drop (home o t.log x.1 + d) t.cells, hcon, hdrop]
              rfl
            rw [hlist]
            refine (h5.append_right _).subperm.trans (List.Perm.subperm ?_)
            simp only [contents, List.append_assoc, List.singleton_append]
            exact List.perm_middle
          have := hr.2 w' s' a hsub h10 h12
          omega

/-! ## Insertions that succeed -/

theorem insertAll_room (ho : o.Lawful) {L fuel : Nat}
    {emp : Table K V → K × V → Except Err (Table K V × Nat × Bool)}
    (hemp : ∀ t x, Inv o t → EmpSpec o t x (emp t x))
    (hok : ∀ t x, Inv o t → Roomy o L (x :: t.toList) → L ≤ t.log + fuel → ∃ r, emp t x = .ok r) :
    ∀ (l : List (K × V)) (t : Table K V), Inv o t → Distinct o (l ++ t.toList) → Roomy o L (l ++ t.toList) →
      L ≤ t.log + fuel → ∃ t', insertAll emp t l = .ok t' := by
  intro l
  induction l with
  | nil => intro t _ _ _ _; exact ⟨t, rfl⟩
  | cons x l ih =>
    intro t hi hd hr hL
    have hsub : (x :: t.toList).Subperm (x :: l ++ t.toList) := by
      rw [List.cons_append, List.subperm_cons]
      exact (List.sublist_append_right _ _).subperm
    obtain ⟨⟨t', i, new⟩, hr'⟩ := hok t x hi (hr.subperm hsub) hL
    have he := hemp t x hi
    simp only [insertAll, hr']
    rw [hr'] at he
    cases new with
    | true =>
      simp only [EmpSpec, if_true] at he
      obtain ⟨h1, h2, h3, -, -⟩ := he
      have hperm : (l ++ t'.toList).Perm (x :: l ++ t.toList) :=
        (List.Perm.append_left _ h3).trans List.perm_middle
      exact ih t' h1 (hd.perm ho hperm.symm) (hr.subperm hperm.subperm) (by omega)
    | false =>
      simp only [EmpSpec] at he
      obtain ⟨h1, h2, h3, e, y, h4, h5⟩ := he
      have hy := mem_contents_of_getElem? hi.wf h4
      have := (List.pairwise_cons.mp hd).1 y (List.mem_append_right _ hy)
      rw [h5] at this
      cases this

theorem rehash_room (ho : o.Lawful) {L fuel lim : Nat} (hlim : L ≤ lim) (hlim' : lim ≤ 63)
    {emp : Table K V → K × V → Except Err (Table K V × Nat × Bool)}
    (hemp : ∀ t x, Inv o t → EmpSpec o t x (emp t x))
    (hok : ∀ t x, Inv o t → Roomy o L (x :: t.toList) → L ≤ t.log + fuel → ∃ r, emp t x = .ok r)
    {t : Table K V} {n : Nat} (hnum : t.num = t.toList.length) (hd : Distinct o t.toList)
    (hr : Roomy o L t.toList) (hL : 1 ≤ L) {l : Nat} (hn : n ≤ 2 ^ l) (hl : 1 ≤ l) (hll : l ≤ lim)
    (hlL : L ≤ l) (hf : L ≤ sizeLog (max n (2 * t.num)) + fuel) :
    ∃ t', rehash lim emp t n = .ok t' := by
  unfold rehash
  dsimp only
  by_cases h0 : max n (2 * t.num) = 0
  · rw [if_pos h0]; exact ⟨_, rfl⟩
  · rw [if_neg h0]
    by_cases h1 : 2 ^ sizeLog (max n (2 * t.num)) = bucketCountOf t.log
    · rw [if_pos h1]; exact ⟨_, rfl⟩
    · rw [if_neg h1]
      have hp := Nat.pow_le_pow_right (show 0 < 2 by omega) hlL
      have h2 : sizeLog (max n (2 * t.num)) ≤ l := sizeLog_min hl (by have := hr.1; omega)
      rw [if_neg (by omega)]
      exact insertAll_room ho hemp hok t.toList _ (emptyTable_inv o (by omega))
        (by rw [emptyTable_toList, List.append_nil]; exact hd)
        (by rw [emptyTable_toList, List.append_nil]; exact hr) hf

/-- If there is room for the entries in `2 ^ L` slots, and memory for that many, an insertion succeeds. -/
theorem emplace_room (ho : o.Lawful) {L lim : Nat} (hL : 2 ≤ L) (hlim : L ≤ lim) (hlim' : lim ≤ 63) (fuel : Nat) :
    ∀ (t : Table K V) (x : K × V), Inv o t → Roomy o L (x :: t.toList) → L ≤ t.log + fuel →
      ∃ r, emplace o lim fuel t x = .ok r := by
  induction fuel with
  | zero =>
    intro t x hi hr hf
    have hs := step_spec ho hi x
    have hsr : ∀ t', step o t x ≠ .full t' := fun t' =>
      step_room ho hi (by omega) (hr.mono (by omega) (by omega) hi.log)
    unfold emplace
    revert hs hsr
    cases step o t x with
    | oob => exact fun h => h.elim
    | present i => exact fun _ _ => ⟨_, rfl⟩
    | inserted t' i => exact fun _ _ => ⟨_, rfl⟩
    | full t' => exact fun _ h => absurd rfl (h t')
  | succ fuel ih =>
    intro t x hi hr hf
    have hs := step_spec ho hi x
    unfold emplace
    cases hst : step o t x with
    | oob => rw [hst] at hs; exact hs.elim
    | present i => exact ⟨_, rfl⟩
    | inserted t' i => exact ⟨_, rfl⟩
    | full t' =>
      rw [hst] at hs
      obtain ⟨h1, h2, h3, h4⟩ := hs
      have hlt : t.log < L := by
        by_contra hc
        exact step_room ho hi (by omega) (hr.mono (by omega) (by omega) hi.log) hst
      have hnum : t'.num = t'.toList.length := by rw [h2, hi.num, h3.length_eq]
      have hd := hi.distinct.perm ho h3.symm
      have hroom : Roomy o L t'.toList := hr.subperm
        ((h3.subperm).trans (List.sublist_cons_self _ _).subperm)
      have hbk : max 4 (2 * bucketCountOf t'.log) ≤ 2 ^ L := by
        have h4 : 2 ^ 2 ≤ 2 ^ L := Nat.pow_le_pow_right (by omega) hL
        unfold bucketCountOf
        split
        · omega
        · have := Nat.pow_le_pow_right (show 0 < 2 by omega) (show t'.log + 1 ≤ L by omega)
          rw [pow_succ] at this
          omega
      have hsz : t.log + 1 ≤ sizeLog (max (max 4 (2 * bucketCountOf t'.log)) (2 * t'.num)) := by
        have hle := sizeLog_le (n := max (max 4 (2 * bucketCountOf t'.log)) (2 * t'.num))
        have hpos := sizeLog_pos (max (max 4 (2 * bucketCountOf t'.log)) (2 * t'.num))
        by_cases hz : t.log = 0
        · omega
        · have hb : bucketCountOf t'.log = 2 ^ t.log := by
            unfold bucketCountOf; rw [h1, if_neg hz]
          rw [hb] at hle hpos ⊢
          have : 2 ^ t.log < 2 ^ sizeLog (max (max 4 (2 * 2 ^ t.log)) (2 * t'.num)) := by omega
          exact (Nat.pow_lt_pow_iff_right (show 1 < 2 by omega)).mp this
      obtain ⟨t'', hre⟩ := rehash_room ho hlim hlim' (emplace_spec ho hlim' fuel) ih hnum hd hroom (by omega)
        hbk (by omega) hlim (le_refl L) (by omega)
      have hrs := rehash_spec ho hlim' (emplace_spec ho hlim' fuel) hnum hd (n := max 4 (2 * bucketCountOf t'.log))
        (.inr (grow_lt _))
      rw [hre] at hrs
      obtain ⟨h5, h6, h7, h8⟩ := hrs
      have h8 := h8 (grow_lt _)
      simp only [hre]
      exact ih t'' x h5 (hr.subperm ((List.subperm_cons x).mpr (h6.trans h3).subperm)) (by omega)

/-- A few entries always fit, whatever their hashes: as many as there are bits in the size of the array. -/
theorem roomy_of_few {L : Nat} (hL : 4 ≤ L) {l : List (K × V)} (h : l.length ≤ L) : Roomy o L l := by
  constructor
  · have : ∀ n, 4 ≤ n → 2 * n ≤ 2 ^ n := by
      intro n hn
      induction n, hn using Nat.le_induction with
      | base => decide
      | succ n hn ih => rw [pow_succ]; omega
    have := this L hL
    omega
  · intro w s a hw _ _
    have := hw.length_le
    unfold maxLOf
    split <;> omega

/-- The number of `set` calls. -/
def sets : List (Op K V) → Nat
  | [] => 0
  | .set _ _ :: cs => sets cs + 1
  | _ :: cs => sets cs

/-- **C25**, progress: with memory for `2 ^ lim` slots a Dict holds any `lim` entries. -/
theorem dict_capacity [Inhabited V] (ho : o.Lawful) {lim : Nat} (h4 : 4 ≤ lim) (hlim : lim ≤ 63) {fuel : Nat}
    (hf : lim ≤ fuel) (cs : List (Op K V)) (hsets : sets cs ≤ lim)
    (hres : ∀ n, Op.reserve n ∈ cs → 2 * n ≤ 2 ^ lim) :
    ∃ t rs, calls o lim fuel (Dict.new K V) cs = .ok (t, rs) := by
  have hok : ∀ (t : Table K V) (x : K × V), Inv o t → t.num + 1 ≤ lim →
      ∃ r, emplace o lim fuel t x = .ok r := by
    intro t x hi hn
    exact emplace_room ho (by omega) (le_refl lim) hlim fuel t x hi
      (roomy_of_few h4 (by simp only [List.length_cons]; rw [← hi.num]; omega)) (by omega)
  have key : ∀ (cs : List (Op K V)) (t : Table K V) (m : Map K V), Holds o t m → m.size + sets cs ≤ lim →
      (∀ n, Op.reserve n ∈ cs → 2 * n ≤ 2 ^ lim) → ∃ t' rs, calls o lim fuel t cs = .ok (t', rs) := by
    intro cs
    induction cs with
    | nil => intro t m _ _ _; exact ⟨t, [], rfl⟩
    | cons c cs ih =>
      intro t m h hsz hrs
      have hc := call_holds ho hlim fuel h c
      have hcok : ∃ t' r, call o lim fuel t c = .ok (t', r) := by
        cases c with
        | set k v =>
          obtain ⟨⟨t', i, new⟩, hr⟩ := hok t (k, default) h.inv (by
            simp only [sets] at hsz; rw [← h.size]; omega)
          have hd := dict_set_holds ho hlim fuel h k v
          have he := emplace_spec ho hlim fuel t (k, default) h.inv
          simp only [call]
          have : ∃ t'', Dict.set o lim fuel t k v = .ok t'' := by
            unfold Dict.set
            rw [hr] at he ⊢
            dsimp only
            cases new with
            | true =>
              simp only [EmpSpec, if_true] at he
              obtain ⟨h1, -, -, ⟨e, h4⟩, -⟩ := he
              obtain ⟨t'', _, _, ha, -⟩ := assign_spec h1 v h4
              exact ⟨t'', ha⟩
            | false =>
              simp only [EmpSpec] at he
              obtain ⟨h1, -, rfl, e, y, h4, -⟩ := he
              obtain ⟨t'', _, _, ha, -⟩ := assign_spec h1 v h4
              exact ⟨t'', ha⟩
          obtain ⟨t'', h''⟩ := this
          exact ⟨t'', .unit, by rw [h'']; rfl⟩
        | get k => exact ⟨t, _, by simp only [call, dict_get_holds ho h]; rfl⟩
        | pop k =>
          obtain ⟨t', h1, -⟩ := dict_pop_holds ho h k
          exact ⟨t', _, by simp only [call, h1]; rfl⟩
        | contains k => exact ⟨t, _, by simp only [call, dict_contains_holds ho h]; rfl⟩
        | len => exact ⟨t, _, rfl⟩
        | clear => exact ⟨_, _, rfl⟩
        | reserve n =>
          have : ∃ t', reserve o lim fuel t n = .ok t' := by
            unfold reserve
            split
            · have hn := hrs n (by simp)
              refine rehash_room ho (le_refl lim) hlim (emplace_spec ho hlim fuel)
                (fun t x hi hr hL => emplace_room ho (by omega) (le_refl lim) hlim fuel t x hi hr hL)
                h.inv.num h.inv.distinct (roomy_of_few h4 ?_) (by omega) hn (by omega) (le_refl _) (le_refl _)
                (by omega)
              rw [← h.inv.num, ← h.size]
              omega
            · exact ⟨t, rfl⟩
          obtain ⟨t', h'⟩ := this
          exact ⟨t', .unit, by simp only [call, h']; rfl⟩
      obtain ⟨t', r, hcr⟩ := hcok
      rw [hcr] at hc
      have hsize : (m.call o c).1.size + sets cs ≤ lim := by
        cases c with
        | set k v => simp only [Map.call, Map.set, sets] at hsz ⊢; split <;> omega
        | pop k => simp only [Map.call, Map.remove, sets] at hsz ⊢; split <;> omega
        | clear => simp only [Map.call, Map.empty, sets] at hsz ⊢; omega
        | get k => exact hsz
        | contains k => exact hsz
        | len => exact hsz
        | reserve n => exact hsz
      obtain ⟨t'', rs, h'⟩ := ih t' _ hc.1 hsize (fun n hn => hrs n (List.mem_cons_of_mem _ hn))
      exact ⟨t'', r :: rs, by simp only [calls, hcr, h']; rfl⟩
  exact key cs _ _ (holds_empty o (by omega)) (by simpa [Map.empty] using hsets) hres

/-! ## Keys that exhaust the memory -/

theorem emplace_log_le {lim : Nat} (fuel : Nat) : ∀ (t : Table K V) (x : K × V), t.log ≤ lim →
    ∀ t' i b, emplace o lim fuel t x = .ok (t', i, b) → t'.log ≤ lim := by
  have hstep : ∀ (t : Table K V) (x : K × V), (∀ t' i, step o t x = .inserted t' i → t'.log = t.log) ∧
      (∀ t', step o t x = .full t' → t'.log = t.log) := by
    intro t x
    unfold step
    dsimp only
    constructor
    · intro t' i h
      split at h
      · cases h
      · cases h
      · split at h
        · cases h
        · split at h
          · injection h with h; subst h; rfl
          · split at h
            · injection h with h; subst h; rfl
            · cases h
            · cases h
          · cases h
    · intro t' h
      split at h
      · cases h
      · cases h
      · split at h
        · injection h with h; subst h; rfl
        · split at h
          · cases h
          · split at h
            · cases h
            · injection h with h; subst h; rfl
            · cases h
          · cases h
  have hins : ∀ emp : Table K V → K × V → Except Err (Table K V × Nat × Bool),
      (∀ t x, t.log ≤ lim → ∀ t' i b, emp t x = .ok (t', i, b) → t'.log ≤ lim) →
      ∀ (l : List (K × V)) t, t.log ≤ lim → ∀ t', insertAll emp t l = .ok t' → t'.log ≤ lim := by
    intro emp hemp l
    induction l with
    | nil => intro t h t' h'; simp only [insertAll, Except.ok.injEq] at h'; subst h'; exact h
    | cons x l ih =>
      intro t h t' h'
      simp only [insertAll] at h'
      cases he : emp t x with
      | error e => rw [he] at h'; cases h'
      | ok r =>
        obtain ⟨t1, i, b⟩ := r
        rw [he] at h'
        exact ih t1 (hemp t x h t1 i b he) t' h'
  induction fuel with
  | zero =>
    intro t x h t' i b h'
    unfold emplace at h'
    cases hs : step o t x with
    | oob => rw [hs] at h'; cases h'
    | present j => rw [hs] at h'; simp only [Except.ok.injEq, Prod.mk.injEq] at h'; rw [← h'.1]; exact h
    | inserted t1 j =>
      rw [hs] at h'
      simp only [Except.ok.injEq, Prod.mk.injEq] at h'
      rw [← h'.1, (hstep t x).1 _ _ hs]; exact h
    | full t1 => rw [hs] at h'; cases h'
  | succ fuel ih =>
    intro t x h t' i b h'
    unfold emplace at h'
    cases hs : step o t x with
    | oob => rw [hs] at h'; cases h'
    | present j => rw [hs] at h'; simp only [Except.ok.injEq, Prod.mk.injEq] at h'; rw [← h'.1]; exact h
    | inserted t1 j =>
      rw [hs] at h'
      simp only [Except.ok.injEq, Prod.mk.injEq] at h'
      rw [← h'.1, (hstep t x).1 _ _ hs]; exact h
    | full t1 =>
      rw [hs] at h'
      dsimp only at h'
      cases hr : rehash lim (emplace o lim fuel) t1 (max 4 (2 * bucketCountOf t1.log)) with
      | error e => rw [hr] at h'; cases h'
      | ok t2 =>
        rw [hr] at h'
        refine ih t2 x ?_ t' i b h'
        unfold rehash at hr
        dsimp only at hr
        split at hr
        · simp only [Except.ok.injEq] at hr; subst hr; exact Nat.zero_le _
        · split at hr
          · simp only [Except.ok.injEq] at hr; subst hr; rw [(hstep t x).2 _ hs]; exact h
          · split at hr
            · cases hr
            · exact hins _ ih _ _ (by simp only [emptyTable]; omega) _ hr

/-- Entries that want the same slot are no more than the probe length. -/
theorem same_home_le {log : Nat} {c : List (Cell (K × V))} {n b a : Nat} (h : WF o log n b c)
    (ha : ∀ x ∈ contents c, home o log x.1 = a) : (contents c).length ≤ a + maxLOf log - max n a := by
  induction c generalizing n b with
  | nil => exact h.elim
  | cons d r ih =>
    cases d with
    | empty =>
      have := ih (WF_empty.mp h) ha
      simp only [contents]
      omega
    | fin => simp [contents]
    | full e x =>
      rw [WF_full] at h
      have h1 := ha x (by simp [contents])
      have := ih h.2.2.2 (fun y hy => ha y (by simp [contents, hy]))
      simp only [contents, List.length_cons]
      omega

/-- More than `max 4 lim` keys that want the same slot whatever the size of the array: no memory of `2 ^ lim`
slots is enough for them. -/
theorem colliding_keys_nomem (ho : o.Lawful) {lim : Nat} (hlim : lim ≤ 63) (fuel : Nat) {xs : List (K × V)}
    (hd : Distinct o xs) (hlen : max 4 lim < xs.length)
    (hh : ∀ l ≤ lim, ∀ x ∈ xs, ∀ y ∈ xs, home o l x.1 = home o l y.1) :
    insertAll (emplace o lim fuel) (emptyTable K V 0) xs = .error .nomem := by
  have hE := emptyTable_inv (V := V) o (log := 0) (by omega)
  have hsp := insertAll_spec ho (emplace_spec ho hlim fuel) xs _ hE
    (by rw [emptyTable_toList, List.append_nil]; exact hd)
  cases hr : insertAll (emplace o lim fuel) (emptyTable K V 0) xs with
  | error e => rw [hr] at hsp; rw [hsp]
  | ok t =>
    exfalso
    rw [hr] at hsp
    obtain ⟨h1, -, h3⟩ := hsp
    rw [emptyTable_toList, List.append_nil] at h3
    have hlog : ∀ (l : List (K × V)) (t : Table K V), t.log ≤ lim → ∀ t',
        insertAll (emplace o lim fuel) t l = .ok t' → t'.log ≤ lim := by
      intro l
      induction l with
      | nil => intro t h t' h'; simp only [insertAll, Except.ok.injEq] at h'; subst h'; exact h
      | cons x l ih =>
        intro t h t' h'
        simp only [insertAll] at h'
        cases he : emplace o lim fuel t x with
        | error e => rw [he] at h'; cases h'
        | ok r =>
          obtain ⟨t1, i, b⟩ := r
          rw [he] at h'
          exact ih t1 (emplace_log_le fuel t x h t1 i b he) t' h'
    have hl := hlog xs (emptyTable K V 0) (Nat.zero_le _) t hr
    cases xs with
    | nil => simp at hlen
    | cons x xs =>
      have := same_home_le (a := home o t.log x.1) h1.wf (by
        intro y hy
        exact hh t.log hl y (h3.mem_iff.mp hy) x (by simp))
      have hle := h3.length_eq
      unfold Table.toList at hle
      rw [hle] at this
      have hm : maxLOf t.log ≤ max 4 lim := by unfold maxLOf; split <;> omega
      omega

/-- The inverse of the multiplier of the hash policy. -/
def evil (j : Nat) : Nat := (17428512612931826493 * j) % 2 ^ 64

theorem evil_product {j : Nat} (h : j < 2 ^ 64) : (11400714819323198485 * evil j) % 2 ^ 64 = j := by
  unfold evil
  rw [Nat.mul_mod, Nat.mod_mod, ← Nat.mul_mod, ← Nat.mul_assoc, Nat.mul_mod]
  rw [show (11400714819323198485 * 17428512612931826493) % 2 ^ 64 = 1 by decide +kernel, Nat.one_mul,
    Nat.mod_mod]
  exact Nat.mod_eq_of_lt h

theorem evil_home {j l : Nat} (hj : j < 2 ^ 20) (hl : l ≤ 40) : home natOps l (evil j) = 0 := by
  unfold home indexOf natOps
  simp only [id]
  rw [evil_product (lt_trans hj (by decide)), Nat.shiftRight_eq_div_pow]
  apply Nat.div_eq_of_lt
  refine lt_of_lt_of_le hj (Nat.pow_le_pow_right (by omega) ?_)
  split <;> omega

theorem evil_inj {i j : Nat} (hi : i < 2 ^ 20) (hj : j < 2 ^ 20) (h : evil i = evil j) : i = j := by
  have h1 := evil_product (lt_trans hi (show (2 : Nat) ^ 20 < 2 ^ 64 by decide))
  have h2 := evil_product (lt_trans hj (show (2 : Nat) ^ 20 < 2 ^ 64 by decide))
  rw [h] at h1
  exact h1.symm.trans h2

/-- **C25**: for any memory of at most `2 ^ 40` slots there are a few integer keys no Dict can hold: one more than
`dict_capacity` guarantees. -/
theorem dict_colliding_ints_refuted {lim : Nat} (h4 : 4 ≤ lim) (hlim : lim ≤ 40) (fuel : Nat) :
    insertAll (emplace natOps lim fuel) (emptyTable Nat Nat 0)
      ((List.range (lim + 1)).map (fun j => (evil j, j))) = .error .nomem := by
  have hj : ∀ j ∈ List.range (lim + 1), j < 2 ^ 20 := by
    intro j hj
    rw [List.mem_range] at hj
    omega
  apply colliding_keys_nomem natOps_lawful (by omega)
  · unfold Distinct
    rw [List.pairwise_map]
    refine (List.nodup_range (n := lim + 1)).imp_of_mem ?_
    intro i j hi' hj' hne
    simp only [natOps, beq_eq_false_iff_ne]
    exact fun h => hne (evil_inj (hj i hi') (hj j hj') h)
  · simp; omega
  · intro l hl x hx y hy
    obtain ⟨i, hi', rfl⟩ := List.mem_map.mp hx
    obtain ⟨j, hj', rfl⟩ := List.mem_map.mp hy
    rw [evil_home (hj i hi') (by omega), evil_home (hj j hj') (by omega)]

/-- Five such keys need 32 slots: a table for five entries would otherwise have 16. -/
example : (match insertAll (emplace natOps 40 40) (emptyTable Nat Nat 0)
      ((List.range 5).map (fun j => (evil j, j))) with
    | .ok t => (t.log, t.num, t.toList.map Prod.snd)
    | .error _ => (0, 0, [])) = (5, 5, [0, 1, 2, 3, 4]) := by decide +kernel

/-- A result as a number, for the example below. -/
def Res.code : Res Nat → Nat
  | .unit => 100
  | .val none => 101
  | .val (some v) => v
  | .bool b => if b then 102 else 103
  | .nat n => n

/-- A history with overwriting, removal, growth and lookups. -/
example : (match calls natOps 40 40 (Dict.new Nat Nat)
      [.set 0 1, .set 2 2, .set 5 3, .set 10 4, .set 2 5, .pop 0, .get 2, .pop 0, .contains 5, .len, .clear, .get 5] with
    | .ok (t, rs) => some (t.num, rs.map Res.code)
    | .error _ => none) = some (0, [100, 100, 100, 100, 100, 1, 5, 101, 102, 3, 100, 101]) := by decide +kernel

end Verif.HashMap
