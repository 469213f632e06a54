import Verif.DepsDfs
import Verif.DepsVisit

/-!
Which functions and classes are compiled, and in which order (properties C94 and C95).
-/

namespace Verif.Deps

/-! ### One round -/

theorem raw_append {s : St} {add : List Nat} {i : Nat} (h : i < s.raws.length) :
    (s.raws ++ add).getD i 0 = s.raw i := by
  rw [St.raw, List.getD_eq_getElem?_getD, List.getD_eq_getElem?_getD, List.getElem?_append_left h]

/-- What the loop over the dependencies of one node does. -/
theorem resolveDeps_spec (prev : List Nat) (m : Nat) (hprev : ∀ j, j ∈ prev ↔ j < m) :
    ∀ (rs : List Nat) (s : St) (ds new : List Nat), rs.Nodup → m ≤ s.raws.length → s.raws.Nodup →
    (∀ r ∈ rs, ∀ j, m ≤ j → j < s.raws.length → s.raw j ≠ r) →
    (∀ j ∈ ds, j < s.raws.length) → (∀ j, j ∈ new ↔ m ≤ j ∧ j < s.raws.length) →
    ∃ add, (resolveDeps prev rs s ds new).1.raws = s.raws ++ add ∧
      (∀ x ∈ add, x ∈ rs) ∧ (s.raws ++ add).Nodup ∧
      (resolveDeps prev rs s ds new).1.deps = s.deps ∧
      (resolveDeps prev rs s ds new).1.order = s.order ∧
      (resolveDeps prev rs s ds new).2.1.map (fun j => (s.raws ++ add).getD j 0) =
        ds.map s.raw ++ rs ∧
      (∀ j ∈ (resolveDeps prev rs s ds new).2.1, j < s.raws.length + add.length) ∧
      (∀ j ∈ ds, j ∈ (resolveDeps prev rs s ds new).2.1) ∧
      (∀ j, s.raws.length ≤ j → j < s.raws.length + add.length →
        j ∈ (resolveDeps prev rs s ds new).2.1) ∧
      (∀ j, j ∈ (resolveDeps prev rs s ds new).2.2 ↔ m ≤ j ∧ j < s.raws.length + add.length) := by
  intro rs
  induction rs with
  | nil =>
    intro s ds new _ hm hnd _ hds hnew
    refine ⟨[], ?_⟩
    simp only [resolveDeps, List.append_nil, List.length_nil, Nat.add_zero]
    exact ⟨by trivial, by simp, hnd, by trivial, by trivial, by trivial, hds, fun j h => h,
      fun j h1 h2 => by omega, hnew⟩
  | cons r rest ih =>
    intro s ds new hrs hm hnd hfresh hds hnew
    rw [List.nodup_cons] at hrs
    cases hf : findRaw s r prev with
    | some i =>
      have hi : i ∈ prev := List.mem_of_find?_eq_some hf
      have hri : s.raw i = r := by
        have := List.find?_some hf
        simpa using this
      have hil : i < s.raws.length := by have := (hprev i).mp hi; omega
      obtain ⟨add, h1, h2, h3, h4, h5, h6, h7, h8, h9, h10⟩ := ih s (ds ++ [i]) new hrs.2 hm hnd
        (fun x hx => hfresh x (List.mem_cons_of_mem _ hx))
        (by
          intro j hj
          rcases List.mem_append.mp hj with h | h
          · exact hds j h
          · rw [List.mem_singleton.mp h]; exact hil) hnew
      have e : resolveDeps prev (r :: rest) s ds new = resolveDeps prev rest s (ds ++ [i]) new := by
        rw [resolveDeps, hf]
      rw [e]
      refine ⟨add, h1, fun x hx => List.mem_cons_of_mem _ (h2 x hx), h3, h4, h5, ?_, h7, ?_, h9, h10⟩
      · rw [h6, List.map_append, List.map_cons, List.map_nil, hri, List.append_assoc]
        rfl
      · exact fun j hj => h8 j (List.mem_append_left _ hj)
    | none =>
      have hnot : r ∉ s.raws := by
        intro hr
        obtain ⟨i, hi, e⟩ := List.mem_iff_getElem.mp hr
        have hraw : s.raw i = r := by
          rw [St.raw, List.getD_eq_getElem?_getD, List.getElem?_eq_getElem hi]
          exact e
        by_cases him : i < m
        · have := List.find?_eq_none.mp hf i ((hprev i).mpr him)
          simp [hraw] at this
        · exact hfresh r List.mem_cons_self i (by omega) hi hraw
      have hlast : (s.raws ++ [r]).getD s.raws.length 0 = r := by
        rw [List.getD_eq_getElem?_getD]; simp
      obtain ⟨add, h1, h2, h3, h4, h5, h6, h7, h8, h9, h10⟩ := ih { s with raws := s.raws ++ [r] }
        (ds ++ [s.raws.length]) (new ++ [s.raws.length]) hrs.2 (by simp; omega)
        (by
          rw [List.nodup_append]
          refine ⟨hnd, by simp, ?_⟩
          intro a ha b hb e
          rw [List.mem_singleton] at hb
          exact hnot (hb ▸ e ▸ ha))
        (by
          intro x hx j hj1 hj2
          simp only [List.length_append, List.length_cons, List.length_nil] at hj2
          by_cases hjl : j < s.raws.length
          · have := hfresh x (List.mem_cons_of_mem _ hx) j hj1 hjl
            rw [St.raw, raw_append hjl]
            exact this
          · have : j = s.raws.length := by omega
            subst this
            rw [St.raw, hlast]
            intro e
            exact hrs.1 (e ▸ hx))
        (by
          intro j hj
          simp only [List.length_append, List.length_cons, List.length_nil]
          rcases List.mem_append.mp hj with h | h
          · have := hds j h; omega
          · rw [List.mem_singleton.mp h]; omega)
        (by
          intro j
          simp only [List.length_append, List.length_cons, List.length_nil]
          rw [List.mem_append, hnew, List.mem_singleton]
          constructor
          · rintro (h | rfl) <;> omega
          · intro h
            by_cases hjl : j < s.raws.length
            · exact Or.inl ⟨h.1, hjl⟩
            · exact Or.inr (by omega))
      have e : resolveDeps prev (r :: rest) s ds new = resolveDeps prev rest
          { s with raws := s.raws ++ [r] } (ds ++ [s.raws.length]) (new ++ [s.raws.length]) := by
        rw [resolveDeps, hf]
      rw [e]
      simp only [List.length_append, List.length_cons, List.length_nil, List.append_assoc] at *
      refine ⟨r :: add, ?_, ?_, ?_, h4, h5, ?_, ?_, ?_, ?_, ?_⟩
      · simpa using h1
      · intro x hx
        rcases List.mem_cons.mp hx with rfl | hx
        · exact List.mem_cons_self
        · exact List.mem_cons_of_mem _ (h2 x hx)
      · simpa using h3
      · have hmap : (ds ++ [s.raws.length]).map (St.raw { s with raws := s.raws ++ [r] }) =
            ds.map s.raw ++ [r] := by
          rw [List.map_append, List.map_cons, List.map_nil]
          congr 1
          · refine List.map_congr_left ?_
            intro j hj
            rw [St.raw]
            exact raw_append (hds j hj)
          · rw [St.raw, hlast]
        rw [hmap] at h6
        simpa using h6
      · intro j hj
        have := h7 j hj
        simp only [List.length_cons]; omega
      · exact fun j hj => h8 j (List.mem_append_left _ hj)
      · intro j h1 h2
        simp only [List.length_cons] at h2
        by_cases hj : j = s.raws.length
        · subst hj
          exact h8 _ (List.mem_append_right _ (by simp))
        · exact h9 j (by omega) (by omega)
      · intro j
        rw [h10]
        simp only [List.length_cons]
        omega

/-- What holds between the steps of a round, for the nodes `prev` known so far. -/
structure Inv (G : Nat → List Nat) (main : Nat) (s : St) : Prop where
  nd : s.raws.Nodup
  first : s.raws.head? = some main
  deps : ∀ i l, s.deps i = some l → i < s.raws.length ∧ l.map s.raw = G (s.raw i) ∧
    ∀ j ∈ l, j < s.raws.length
  real : ∀ j, j < s.raws.length → Reach G main (s.raw j)
  linked : ∀ j, j < s.raws.length → Reach (edges s.deps) 0 j

theorem Inv.pos {G : Nat → List Nat} {main : Nat} {s : St} (h : Inv G main s) :
    0 < s.raws.length := by
  have := h.first
  cases hr : s.raws with
  | nil => rw [hr] at this; simp at this
  | cons a l => simp

theorem Inv.raw0 {G : Nat → List Nat} {main : Nat} {s : St} (h : Inv G main s) : s.raw 0 = main := by
  have := h.first
  rw [St.raw]
  cases hr : s.raws with
  | nil => rw [hr] at this; simp at this
  | cons a l => rw [hr] at this; simpa using this

theorem Inv.wf {G : Nat → List Nat} {main : Nat} {s : St} (h : Inv G main s) :
    Wf s.raw s.deps s.raws.length := by
  refine ⟨?_, ?_⟩
  · intro i j hi hj e
    rw [St.raw, St.raw, List.getD_eq_getElem?_getD, List.getD_eq_getElem?_getD,
      List.getElem?_eq_getElem hi, List.getElem?_eq_getElem hj] at e
    simp only [Option.getD_some] at e
    exact (List.getElem_inj h.nd).mp e
  · intro i hi j hj
    rw [edges] at hj
    cases hd : s.deps i with
    | none => rw [hd] at hj; simp at hj
    | some l => rw [hd] at hj; exact (h.deps i l hd).2.2 j hj

theorem Reach.mono {E F : Nat → List Nat} (h : ∀ a, ∀ b ∈ E a, b ∈ F a) {a b : Nat}
    (hr : Reach E a b) : Reach F a b := by
  induction hr with
  | refl => exact Reach.refl _
  | tail _ he ih => exact ih.tail (h _ _ he)

/-- `run_impl` for one node. -/
theorem runImpl_spec {G : Nat → List Nat} (hG : ∀ r, (G r).Nodup) {main : Nat} {s : St} {i : Nat}
    {prev : List Nat} (hs : Inv G main s) (hi : i < s.raws.length)
    (hprev : ∀ j, j ∈ prev ↔ j < s.raws.length) :
    Inv G main (runImpl G i prev s).1 ∧
    (∀ j, j ∈ prev ++ (runImpl G i prev s).2 ↔ j < (runImpl G i prev s).1.raws.length) ∧
    (runImpl G i prev s).1.order = s.order ∧
    (runImpl G i prev s).1.deps i ≠ none ∧
    (∀ j, s.deps j ≠ none → (runImpl G i prev s).1.deps j ≠ none) ∧
    s.raws.length ≤ (runImpl G i prev s).1.raws.length ∧
    (∀ x ∈ (runImpl G i prev s).2, s.raws.length ≤ x) := by
  cases hd : s.deps i with
  | some l =>
    have e : runImpl G i prev s = (s, []) := by rw [runImpl, hd]
    rw [e]
    refine ⟨hs, ?_, rfl, ?_, fun j hj => hj, Nat.le_refl _, by simp⟩
    · intro j; simp only [List.append_nil]; exact hprev j
    · simp only [hd]; simp
  | none =>
    obtain ⟨add, h1, h2, h3, h4, h5, h6, h7, h8, h9, h10⟩ := resolveDeps_spec prev s.raws.length hprev
      (G (s.raw i)) s [] [] (hG _) (Nat.le_refl _) hs.nd (fun r _ j h1 h2 => by omega) (by simp)
      (fun j => by simp only [List.not_mem_nil, false_iff]; omega)
    have e : runImpl G i prev s =
        ({ (resolveDeps prev (G (s.raw i)) s [] []).1 with
            deps := fun j => if j = i then some (resolveDeps prev (G (s.raw i)) s [] []).2.1
              else (resolveDeps prev (G (s.raw i)) s [] []).1.deps j },
          (resolveDeps prev (G (s.raw i)) s [] []).2.2) := by
      rw [runImpl, hd]
    rw [e]
    generalize hR : resolveDeps prev (G (s.raw i)) s [] [] = R at *
    obtain ⟨s1, ds, new⟩ := R
    obtain ⟨raws1, deps1, order1⟩ := s1
    simp only at h1 h4 h5 h6 h7 h9 h10
    subst h1 h4 h5
    simp only [List.map_nil, List.nil_append, List.length_append] at *
    have hmono : ∀ a, ∀ b ∈ edges s.deps a,
        b ∈ edges (fun j => if j = i then some ds else s.deps j) a := by
      intro a b hb
      rw [edges] at hb ⊢
      by_cases ha : a = i
      · subst ha; rw [hd] at hb; simp at hb
      · rw [if_neg ha]; exact hb
    have hedge : ∀ j ∈ ds, j ∈ edges (fun j => if j = i then some ds else s.deps j) i := by
      intro j hj; rw [edges, if_pos rfl]; exact hj
    have hlink := (hs.linked i hi).mono hmono
    refine ⟨⟨h3, ?_, ?_, ?_, ?_⟩, ?_, by trivial, by simp, ?_, by omega, fun x hx => ((h10 x).mp hx).1⟩
    · have := hs.first
      cases hr : s.raws with
      | nil => rw [hr] at this; simp at this
      | cons a l => rw [hr] at this; simpa using this
    · intro j l hl
      simp only [List.length_append] at *
      by_cases hj : j = i
      · subst hj
        rw [if_pos rfl, Option.some.injEq] at hl
        subst hl
        refine ⟨by omega, ?_, h7⟩
        have : St.raw ⟨s.raws ++ add, fun k => if k = j then some ds else s.deps k, s.order⟩ j = s.raw j := by
          rw [St.raw]; exact raw_append hi
        rw [this]
        exact h6
      · rw [if_neg hj] at hl
        obtain ⟨ha, hb, hc⟩ := hs.deps j l hl
        refine ⟨by omega, ?_, fun k hk => by have := hc k hk; omega⟩
        have e1 : St.raw ⟨s.raws ++ add, fun k => if k = i then some ds else s.deps k, s.order⟩ j = s.raw j := by
          rw [St.raw]; exact raw_append ha
        rw [e1, ← hb]
        refine List.map_congr_left ?_
        intro k hk
        rw [St.raw]
        exact raw_append (hc k hk)
    · intro j hj
      simp only [List.length_append] at hj
      by_cases hjl : j < s.raws.length
      · have : St.raw ⟨s.raws ++ add, fun k => if k = i then some ds else s.deps k, s.order⟩ j = s.raw j := by
          rw [St.raw]; exact raw_append hjl
        rw [this]
        exact hs.real j hjl
      · have hmem : j ∈ ds := h9 j (by omega) hj
        have : St.raw ⟨s.raws ++ add, fun k => if k = i then some ds else s.deps k, s.order⟩ j ∈ G (s.raw i) := by
          rw [← h6, St.raw]
          exact List.mem_map_of_mem (f := fun j => (s.raws ++ add).getD j 0) hmem
        exact (hs.real i hi).tail this
    · intro j hj
      simp only [List.length_append] at hj
      by_cases hjl : j < s.raws.length
      · exact (hs.linked j hjl).mono hmono
      · exact hlink.tail (hedge j (h9 j (by omega) hj))
    · intro j
      rw [List.mem_append, hprev, h10]
      omega
    · intro j hj
      by_cases h : j = i
      · simp [h]
      · simp [h, hj]

/-- The nodes of one round, one after the other. -/
theorem runNodes_spec {G : Nat → List Nat} (hG : ∀ r, (G r).Nodup) {main : Nat} (order : List Nat) :
    ∀ (todo new : List Nat) (s : St), Inv G main s → (∀ i ∈ todo, i < s.raws.length) →
    (∀ j, j ∈ order ++ [0] ++ new ↔ j < s.raws.length) →
    Inv G main (runNodes G order todo new s).1 ∧
    (∀ j, j ∈ order ++ [0] ++ (runNodes G order todo new s).2 ↔
      j < (runNodes G order todo new s).1.raws.length) ∧
    (∀ i ∈ todo, (runNodes G order todo new s).1.deps i ≠ none) ∧
    (∀ j, s.deps j ≠ none → (runNodes G order todo new s).1.deps j ≠ none) ∧
    (∃ more, (runNodes G order todo new s).2 = new ++ more ∧ ∀ x ∈ more, s.raws.length ≤ x) := by
  intro todo
  induction todo with
  | nil =>
    intro new s hs _ hcov
    rw [runNodes]
    exact ⟨hs, hcov, by simp, fun j hj => hj, ⟨[], by simp, by simp⟩⟩
  | cons i rest ih =>
    intro new s hs htodo hcov
    obtain ⟨h1, h2, _, h4, h5, h6, h7⟩ := runImpl_spec hG hs (htodo i List.mem_cons_self) hcov
    have e : runNodes G order (i :: rest) new s =
        runNodes G order rest (new ++ (runImpl G i (order ++ [0] ++ new) s).2)
          (runImpl G i (order ++ [0] ++ new) s).1 := by
      rw [runNodes]
    rw [e]
    obtain ⟨k1, k2, k3, k4, more, k5, k6⟩ := ih (new ++ (runImpl G i (order ++ [0] ++ new) s).2)
      (runImpl G i (order ++ [0] ++ new) s).1 h1
      (fun j hj => by have := htodo j (List.mem_cons_of_mem _ hj); omega)
      (fun j => by rw [← List.append_assoc]; exact h2 j)
    refine ⟨k1, k2, ?_, fun j hj => k4 j (h5 j hj), ?_⟩
    · intro j hj
      rcases List.mem_cons.mp hj with rfl | hj
      · exact k4 _ h4
      · exact k3 j hj
    · exact ⟨(runImpl G i (order ++ [0] ++ new) s).2 ++ more, by rw [k5, List.append_assoc],
        fun x hx => by
          rcases List.mem_append.mp hx with h | h
          · exact h7 x h
          · have := k6 x h; omega⟩

/-- What holds between two rounds. -/
structure RInv (G : Nat → List Nat) (main : Nat) (s : St) : Prop where
  inv : Inv G main s
  cover : ∀ j, j ∈ s.order ++ [0] ↔ j < s.raws.length

theorem start_inv (G : Nat → List Nat) (main : Nat) : RInv G main (start main) := by
  refine ⟨⟨by simp [start], by simp [start], by simp [start], ?_, ?_⟩, ?_⟩
  · intro j hj
    have : j = 0 := by simp [start] at hj; omega
    subst this
    exact Reach.refl main
  · intro j hj
    have : j = 0 := by simp [start] at hj; omega
    subst this
    exact Reach.refl 0
  · intro j; simp [start]

/-- One round: it ends; afterwards `order` lists all other nodes once, in the order of
the search; and if it found nothing new, every node has been analysed. -/
theorem run_spec {G : Nat → List Nat} (hG : ∀ r, (G r).Nodup) {main : Nat} {s : St}
    (hs : RInv G main s) :
    ∃ again s' t, run G s = some (again, s') ∧ RInv G main s' ∧
      dfs s'.raw s'.deps (s'.raws.length + 1) 0 {} = some t ∧
      s'.order = t.out.reverse.filter (fun i => i ≠ 0) ∧
      (again = true → s.raws.length < s'.raws.length) ∧
      (again = false → ∀ j, j < s'.raws.length → s'.deps j ≠ none) := by
  obtain ⟨h1, h2, h3, h4, h5, h6, h7⟩ := runImpl_spec hG hs.inv hs.inv.pos hs.cover
  obtain ⟨k1, k2, k3, k4, more, k5, k6⟩ := runNodes_spec hG s.order s.order
    (runImpl G 0 (s.order ++ [0]) s).2 (runImpl G 0 (s.order ++ [0]) s).1 h1
    (fun i hi => by
      have := (hs.cover i).mp (List.mem_append_left _ hi)
      omega) h2
  generalize hR : runNodes G s.order s.order (runImpl G 0 (s.order ++ [0]) s).2
    (runImpl G 0 (s.order ++ [0]) s).1 = R at *
  obtain ⟨s2, new⟩ := R
  simp only at k1 k2 k3 k4 k5
  obtain ⟨t, ht⟩ := search_total k1.wf k1.pos
  have hmem := search_mem k1.wf k1.pos ht
  have hp := dfs_post k1.wf _ 0 {} t k1.pos tinv_empty ht
  have e : run G s = some (decide (new ≠ []),
      { s2 with order := t.out.reverse.filter (fun i => i ≠ 0) }) := by
    rw [run]
    simp only [hR, topodeps, ht, Option.map_some, Option.bind_eq_bind, Option.bind_some]
  refine ⟨_, _, t, e, ⟨⟨k1.nd, k1.first, k1.deps, k1.real, k1.linked⟩, ?_⟩, ht, rfl, ?_, ?_⟩
  · intro j
    simp only [List.mem_append, List.mem_filter, List.mem_reverse, List.mem_singleton,
      decide_eq_true_eq]
    constructor
    · rintro (⟨h, _⟩ | rfl)
      · exact hp.inv.lt j h
      · exact k1.pos
    · intro hj
      by_cases h0 : j = 0
      · exact Or.inr h0
      · exact Or.inl ⟨(hmem j).mpr (k1.linked j hj), h0⟩
  · intro hag
    have hne : new ≠ [] := by simpa using hag
    obtain ⟨x, hx⟩ := List.exists_mem_of_ne_nil new hne
    have hge : s.raws.length ≤ x := by
      rw [k5] at hx
      rcases List.mem_append.mp hx with h | h
      · exact h7 x h
      · have := k6 x h; omega
    have hlt : x < s2.raws.length := (k2 x).mp (List.mem_append_right _ hx)
    simp only
    omega
  · intro hag j hj
    have hnil : new = [] := by simpa using hag
    subst hnil
    rw [List.append_nil] at k2
    simp only at hj ⊢
    rcases List.mem_append.mp ((k2 j).mpr hj) with h | h
    · exact k3 j h
    · rw [List.mem_singleton] at h
      subst h
      exact k4 0 h4

/-! ### All rounds -/

/-- The state the loop ends in. -/
structure Final (G : Nat → List Nat) (main : Nat) (s : St) (t : TSt) : Prop where
  inv : Inv G main s
  search : dfs s.raw s.deps (s.raws.length + 1) 0 {} = some t
  order : s.order = t.out.reverse.filter (fun i => i ≠ 0)
  known : ∀ j, j < s.raws.length → s.deps j ≠ none

theorem mem_raws_iff {s : St} {r : Nat} : r ∈ s.raws ↔ ∃ i, i < s.raws.length ∧ s.raw i = r := by
  constructor
  · intro h
    obtain ⟨i, hi, e⟩ := List.mem_iff_getElem.mp h
    refine ⟨i, hi, ?_⟩
    rw [St.raw, List.getD_eq_getElem?_getD, List.getElem?_eq_getElem hi]
    exact e
  · rintro ⟨i, hi, e⟩
    rw [St.raw, List.getD_eq_getElem?_getD, List.getElem?_eq_getElem hi] at e
    simp only [Option.getD_some] at e
    exact e ▸ List.getElem_mem hi

theorem reach_mem {G : Nat → List Nat} {U : List Nat} (hU : ∀ a ∈ U, ∀ b ∈ G a, b ∈ U) {a b : Nat}
    (ha : a ∈ U) (h : Reach G a b) : b ∈ U := by
  induction h with
  | refl => exact ha
  | tail _ he ih => exact hU _ ih _ he

theorem nodup_length_le : ∀ {l m : List Nat}, l.Nodup → (∀ x ∈ l, x ∈ m) → l.length ≤ m.length := by
  intro l
  induction l with
  | nil => intro m _ _; simp
  | cons a l ih =>
    intro m hn hs
    rw [List.nodup_cons] at hn
    have ha : a ∈ m := hs a List.mem_cons_self
    have := ih (m := m.erase a) hn.2 (fun x hx => by
      have hne : x ≠ a := fun e => hn.1 (e ▸ hx)
      exact (List.mem_erase_of_ne hne).mpr (hs x (List.mem_cons_of_mem _ hx)))
    rw [List.length_erase_of_mem ha] at this
    have hpos : 0 < m.length := List.length_pos_of_mem ha
    rw [List.length_cons]
    omega

theorem resolve_spec {G : Nat → List Nat} (hG : ∀ r, (G r).Nodup) {main : Nat} {U : List Nat}
    (hmain : main ∈ U) (hU : ∀ a ∈ U, ∀ b ∈ G a, b ∈ U) : ∀ (rounds : Nat) (s : St),
    RInv G main s → U.length < rounds + s.raws.length →
    ∃ s' t, resolve G rounds s = some s' ∧ Final G main s' t := by
  intro rounds
  induction rounds with
  | zero =>
    intro s hs hlt
    have : s.raws.length ≤ U.length := nodup_length_le hs.inv.nd (fun x hx => by
      obtain ⟨i, hi, e⟩ := mem_raws_iff.mp hx
      exact e ▸ reach_mem hU hmain (hs.inv.real i hi))
    omega
  | succ rounds ih =>
    intro s hs hlt
    obtain ⟨again, s1, t, h1, h2, h3, h4, h5, h6⟩ := run_spec hG hs
    rw [resolve]
    simp only [h1, Option.bind_eq_bind, Option.bind_some]
    cases again with
    | true =>
      have := h5 rfl
      rw [if_pos rfl]
      exact ih s1 h2 (by omega)
    | false =>
      rw [if_neg (by simp)]
      exact ⟨s1, t, rfl, ⟨h2.inv, h3, h4, h6 rfl⟩⟩

theorem Final.edges {G : Nat → List Nat} {main : Nat} {s : St} {t : TSt} (h : Final G main s t)
    {i : Nat} (hi : i < s.raws.length) : (edges s.deps i).map s.raw = G (s.raw i) := by
  cases hd : s.deps i with
  | none => exact absurd hd (h.known i hi)
  | some l =>
    rw [Deps.edges, hd]
    exact (h.inv.deps i l hd).2.1

theorem Final.reach {G : Nat → List Nat} {main : Nat} {s : St} {t : TSt} (h : Final G main s t)
    {i j : Nat} (hi : i < s.raws.length) (hr : Reach (Deps.edges s.deps) i j) :
    j < s.raws.length ∧ Reach G (s.raw i) (s.raw j) := by
  induction hr with
  | refl => exact ⟨hi, Reach.refl _⟩
  | tail _ he ih =>
    rename_i b c _
    refine ⟨h.inv.wf.closed b ih.1 c he, ih.2.tail ?_⟩
    rw [← h.edges ih.1]
    exact List.mem_map_of_mem he

/-- The nodes in the order of compilation. -/
theorem Final.nodes {G : Nat → List Nat} {main : Nat} {s : St} {t : TSt} (h : Final G main s t) :
    s.order.reverse ++ [0] = t.out.filter (fun i => i ≠ 0) ++ [0] := by
  rw [h.order, ← List.filter_reverse, List.reverse_reverse]

theorem Final.out_mem {G : Nat → List Nat} {main : Nat} {s : St} {t : TSt} (h : Final G main s t)
    (j : Nat) : j ∈ t.out ↔ j < s.raws.length := by
  rw [search_mem h.inv.wf h.inv.pos h.search]
  constructor
  · intro hr; exact (h.reach h.inv.pos hr).1
  · exact h.inv.linked j

theorem Final.nodes_mem {G : Nat → List Nat} {main : Nat} {s : St} {t : TSt} (h : Final G main s t)
    (j : Nat) : j ∈ s.order.reverse ++ [0] ↔ j < s.raws.length := by
  rw [h.nodes]
  simp only [List.mem_append, List.mem_filter, h.out_mem, List.mem_singleton, decide_eq_true_eq]
  constructor
  · rintro (⟨hj, _⟩ | rfl)
    · exact hj
    · exact h.inv.pos
  · intro hj
    by_cases h0 : j = 0
    · exact Or.inr h0
    · exact Or.inl ⟨hj, h0⟩

theorem Final.nodes_nodup {G : Nat → List Nat} {main : Nat} {s : St} {t : TSt}
    (h : Final G main s t) : (s.order.reverse ++ [0]).Nodup := by
  rw [h.nodes, List.nodup_append]
  have hp := dfs_post h.inv.wf _ 0 {} t h.inv.pos tinv_empty h.search
  refine ⟨hp.inv.nd.filter _, by simp, ?_⟩
  intro a ha b hb e
  rw [List.mem_singleton] at hb
  simp only [List.mem_filter, decide_eq_true_eq] at ha
  exact ha.2 (e.trans hb)

theorem map_nodup_of_inj {f : Nat → Nat} : ∀ {l : List Nat}, l.Nodup →
    (∀ a ∈ l, ∀ b ∈ l, f a = f b → a = b) → (l.map f).Nodup := by
  intro l
  induction l with
  | nil => intro _ _; simp
  | cons a l ih =>
    intro hn hinj
    rw [List.nodup_cons] at hn
    rw [List.map_cons, List.nodup_cons]
    refine ⟨?_, ih hn.2 (fun x hx y hy => hinj x (List.mem_cons_of_mem _ hx) y
      (List.mem_cons_of_mem _ hy))⟩
    intro hm
    obtain ⟨b, hb, e⟩ := List.mem_map.mp hm
    exact hn.1 (hinj b (List.mem_cons_of_mem _ hb) a List.mem_cons_self e ▸ hb)

/-- A result of the compiler comes from a final state. -/
theorem compile_final {G : Nat → List Nat} (hG : ∀ r, (G r).Nodup) {main rounds : Nat}
    {U : List Nat} (hmain : main ∈ U) (hU : ∀ a ∈ U, ∀ b ∈ G a, b ∈ U) (hr : U.length ≤ rounds) :
    ∃ s t, compile G rounds main = some (compileOrder s) ∧ Final G main s t := by
  obtain ⟨s, t, h, hf⟩ := resolve_spec hG hmain hU rounds (start main) (start_inv G main)
    (by simp [start]; omega)
  exact ⟨s, t, by rw [compile, h]; rfl, hf⟩

/-- **C94.**  If only finitely many functions and classes can be reached from the compiled
one (`U`), the search for dependencies ends after at most as many rounds, and what is
compiled is exactly what can be reached, each object once, the compiled one last. -/
theorem compile_exact (G : Nat → List Nat) (hG : ∀ r, (G r).Nodup) (main rounds : Nat)
    (U : List Nat) (hmain : main ∈ U) (hU : ∀ a ∈ U, ∀ b ∈ G a, b ∈ U) (hr : U.length ≤ rounds) :
    ∃ l, compile G rounds main = some l ∧ l.Nodup ∧ (∀ r, r ∈ l ↔ Reach G main r) ∧
      l.getLast? = some main := by
  obtain ⟨s, t, h, hf⟩ := compile_final hG hmain hU hr
  refine ⟨_, h, ?_, ?_, ?_⟩
  · refine map_nodup_of_inj hf.nodes_nodup ?_
    intro a ha b hb e
    exact hf.inv.wf.inj a b ((hf.nodes_mem a).mp ha) ((hf.nodes_mem b).mp hb) e
  · intro r
    rw [compileOrder, List.mem_map]
    constructor
    · rintro ⟨i, hi, rfl⟩
      exact hf.inv.real i ((hf.nodes_mem i).mp hi)
    · intro hreach
      induction hreach with
      | refl => exact ⟨0, (hf.nodes_mem 0).mpr hf.inv.pos, hf.inv.raw0⟩
      | tail _ he ih =>
        obtain ⟨i, hi, e⟩ := ih
        have hil := (hf.nodes_mem i).mp hi
        rw [← e, ← hf.edges hil] at he
        obtain ⟨j, hj, e'⟩ := List.mem_map.mp he
        exact ⟨j, (hf.nodes_mem j).mpr (hf.inv.wf.closed i hil j hj), e'⟩
  · rw [compileOrder, List.map_append, List.map_cons, List.map_nil, hf.inv.raw0]
    simp

/-- A position in the compilation order comes from one in the search. -/
theorem Final.split {G : Nat → List Nat} {main : Nat} {s : St} {t : TSt} (h : Final G main s t)
    {pre post : List Nat} {u : Nat} (he : compileOrder s = pre ++ u :: post) :
    ∃ preI i postI, s.order.reverse ++ [0] = preI ++ i :: postI ∧ preI.map s.raw = pre ∧
      s.raw i = u ∧ i < s.raws.length := by
  rw [compileOrder, List.map_eq_append_iff] at he
  obtain ⟨preI, rest, e1, e2, e3⟩ := he
  rw [List.map_eq_cons_iff] at e3
  obtain ⟨i, postI, e4, e5, _⟩ := e3
  refine ⟨preI, i, postI, by rw [e1, e4], e2, e5, ?_⟩
  refine (h.nodes_mem i).mp ?_
  rw [e1, e4]
  exact List.mem_append_right _ List.mem_cons_self

/-- Positions in a filtered list. -/
theorem filter_split {p : Nat → Bool} : ∀ {l pre post : List Nat} {u : Nat},
    l.filter p = pre ++ u :: post → ∃ preL postL, l = preL ++ u :: postL ∧ preL.filter p = pre := by
  intro l
  induction l with
  | nil => intro pre post u h; simp at h
  | cons a l ih =>
    intro pre post u h
    by_cases ha : p a = true
    · rw [List.filter_cons_of_pos ha] at h
      cases pre with
      | nil =>
        rw [List.nil_append, List.cons.injEq] at h
        exact ⟨[], l, by rw [h.1]; rfl, rfl⟩
      | cons b pre =>
        rw [List.cons_append, List.cons.injEq] at h
        obtain ⟨preL, postL, e1, e2⟩ := ih h.2
        exact ⟨a :: preL, postL, by rw [e1]; rfl, by rw [List.filter_cons_of_pos ha, e2, h.1]⟩
    · rw [List.filter_cons_of_neg ha] at h
      obtain ⟨preL, postL, e1, e2⟩ := ih h
      exact ⟨a :: preL, postL, by rw [e1]; rfl, by rw [List.filter_cons_of_neg ha, e2]⟩

/-- What comes before a node in the search comes before it in the compilation order,
except for the main node; everything else comes before the main node. -/
theorem Final.before {G : Nat → List Nat} {main : Nat} {s : St} {t : TSt} (h : Final G main s t)
    {preI postI : List Nat} {i v : Nat} (he : s.order.reverse ++ [0] = preI ++ i :: postI)
    (hv : v ≠ 0) (hvn : v < s.raws.length)
    (hs : ∀ pre post, t.out = pre ++ i :: post → v ∈ pre) : v ∈ preI := by
  rw [h.nodes] at he
  rcases append_singleton_split he with ⟨rfl, rfl, _⟩ | ⟨post', e⟩
  · simp only [List.mem_filter, decide_eq_true_eq]
    exact ⟨(h.out_mem v).mpr hvn, hv⟩
  · obtain ⟨preL, postL, e1, e2⟩ := filter_split e
    rw [← e2]
    simp only [List.mem_filter, decide_eq_true_eq]
    exact ⟨hs preL postL e1, hv⟩

/-- **C95, the part that holds without cycles.**  If no function or class depends on itself,
directly or through others (`rank` goes down along dependencies), everything is compiled
after what it depends on. -/
theorem compile_order_partial (G : Nat → List Nat) (hG : ∀ r, (G r).Nodup) (main rounds : Nat)
    (U : List Nat) (hmain : main ∈ U) (hU : ∀ a ∈ U, ∀ b ∈ G a, b ∈ U) (hr : U.length ≤ rounds)
    (rank : Nat → Nat) (hrank : ∀ a, Reach G main a → ∀ b ∈ G a, rank b < rank a)
    (l pre post : List Nat) (u : Nat) (hl : compile G rounds main = some l)
    (he : l = pre ++ u :: post) : ∀ v ∈ G u, v ∈ pre := by
  obtain ⟨s, t, h, hf⟩ := compile_final hG hmain hU hr
  rw [h, Option.some.injEq] at hl
  rw [← hl] at he
  obtain ⟨preI, i, postI, e1, rfl, rfl, hi⟩ := hf.split he
  intro v hv
  rw [← hf.edges hi] at hv
  obtain ⟨j, hj, rfl⟩ := List.mem_map.mp hv
  have hjn := hf.inv.wf.closed i hi j hj
  have hedge : ∀ a, Reach (Deps.edges s.deps) 0 a → ∀ b ∈ Deps.edges s.deps a,
      rank (s.raw b) < rank (s.raw a) := by
    intro a ha b hb
    obtain ⟨han, hra⟩ := hf.reach hf.inv.pos ha
    rw [hf.inv.raw0] at hra
    refine hrank _ hra _ ?_
    rw [← hf.edges han]
    exact List.mem_map_of_mem hb
  have hsort := dfs_sorted hf.inv.wf (fun a => rank (s.raw a)) 0 hedge _ 0 {} t hf.inv.pos
    (Reach.refl 0) tinv_empty (by intro p x q e; simp at e) (by simp) hf.search
  have hj0 : j ≠ 0 := by
    rintro rfl
    have hdown : ∀ a, Reach (Deps.edges s.deps) 0 a → rank (s.raw a) ≤ rank (s.raw 0) := by
      intro a ha
      induction ha with
      | refl => exact Nat.le_refl _
      | tail hb he ih => have := hedge _ hb _ he; omega
    have h1 := hdown i (hf.inv.linked i hi)
    have h2 := hedge i (hf.inv.linked i hi) 0 hj
    omega
  exact List.mem_map_of_mem (hf.before e1 hj0 hjn (fun p q e => hsort p i q e j hj))

/-- **C95, the part that holds in general.**  The first thing a function or class depends on,
which for a class with a base class is the base class, is compiled before it, provided it
does not itself depend on it. -/
theorem first_dependency_partial (G : Nat → List Nat) (hG : ∀ r, (G r).Nodup) (main rounds : Nat)
    (U : List Nat) (hmain : main ∈ U) (hU : ∀ a ∈ U, ∀ b ∈ G a, b ∈ U) (hr : U.length ≤ rounds)
    (l pre post : List Nat) (u v : Nat) (tl : List Nat) (hl : compile G rounds main = some l)
    (he : l = pre ++ u :: post) (hv : G u = v :: tl) (hn : ¬ Reach G v u) : v ∈ pre := by
  obtain ⟨s, t, h, hf⟩ := compile_final hG hmain hU hr
  rw [h, Option.some.injEq] at hl
  rw [← hl] at he
  obtain ⟨preI, i, postI, e1, rfl, rfl, hi⟩ := hf.split he
  rw [← hf.edges hi, List.map_eq_cons_iff] at hv
  obtain ⟨j, tl', ej, rfl, _⟩ := hv
  have hj : j ∈ Deps.edges s.deps i := by rw [ej]; exact List.mem_cons_self
  have hjn := hf.inv.wf.closed i hi j hj
  have hnr : ¬ Reach (Deps.edges s.deps) j i := fun hr => hn (hf.reach hjn hr).2
  have hfirst := dfs_first hf.inv.wf _ (fun _ => False) 0 {} t hf.inv.pos tinv_empty
    (by intro p x q e; simp at e) (by simp) (by simp) hf.search
  have hj0 : j ≠ 0 := by
    rintro rfl
    exact hnr (hf.inv.linked i hi)
  exact List.mem_map_of_mem (hf.before e1 hj0 hjn
    (fun p q e => hfirst p i q e j tl' ej hnr))

/-- **C96, for a whole program.**  Every function and class has a source and a namespace;
if no annotation is hidden by a parameter, everything that the compiled function uses by the
scoping rules of Python, directly or through others, is compiled. -/
theorem program_complete_partial (src : Nat → Tree) (W : Nat → World) (hW : ∀ r, (W r).Sane)
    (hplain : ∀ r, Plain (src r)) (main rounds : Nat) (U : List Nat) (hmain : main ∈ U)
    (hU : ∀ a ∈ U, ∀ b ∈ dependencies (W a) (src a), b ∈ U) (hr : U.length ≤ rounds) :
    ∃ l, compile (fun r => dependencies (W r) (src r)) rounds main = some l ∧
      ∀ r, Reach (fun a => uses (W a) [] [] (src a)) main r → r ∈ l := by
  obtain ⟨l, h1, _, h2, _⟩ := compile_exact (fun r => dependencies (W r) (src r))
    (fun r => dependencies_nodup _ _) main rounds U hmain hU hr
  exact ⟨l, h1, fun r hreach => (h2 r).mpr (hreach.mono fun a b hb =>
    dependencies_complete_partial (W a) (hW a) (src a) (hplain a) b hb)⟩

/-! ### The order with cycles -/

/-- A function (1) that calls itself before it calls another one (2), used by the compiled
function (0): it is compiled before the function it calls, although that one depends on
nothing. -/
def selfFirst : Nat → List Nat := fun r => if r = 0 then [1] else if r = 1 then [1, 2] else []

/-- A class (1) with a base class (2), used by the compiled function (0); a method of the base
class uses the derived class. -/
def baseUsesDerived : Nat → List Nat :=
  fun r => if r = 0 then [1] else if r = 1 then [2] else if r = 2 then [1] else []

/-- **C95 is false in general, first reason.**  A recursive function is compiled before the
functions that follow its own name in its source. -/
theorem compile_order_refuted :
    compile selfFirst 3 0 = some [1, 2, 0] ∧ 2 ∈ selfFirst 1 ∧ ¬ Reach selfFirst 2 1 := by
  refine ⟨by decide, by decide, ?_⟩
  intro h
  have : ∀ x, Reach selfFirst 2 x → x = 2 := by
    intro x hx
    induction hx with
    | refl => rfl
    | tail _ he ih => subst ih; simp [selfFirst] at he
  exact absurd (this 1 h) (by decide)

/-- **C95 is false in general, second reason.**  When a base class uses one of its derived
classes, the derived class is compiled first. -/
theorem base_class_order_refuted : compile baseUsesDerived 3 0 = some [1, 2, 0] ∧
    baseUsesDerived 1 = [2] := by
  decide

/-- A diamond: everything comes after what it depends on. -/
example : compile (fun r => if r = 5 then [7, 8] else if r = 7 then [9] else if r = 8 then [9] else [])
    4 5 = some [9, 7, 8, 5] := by decide

/-- A cycle between two classes (3 and 4) behind the compiled one (2), with a base class (6)
of the first: the base class comes first, and nothing is compiled twice. -/
example : compile (fun r => if r = 2 then [3] else if r = 3 then [6, 4] else if r = 4 then [3, 2] else [])
    4 2 = some [6, 3, 4, 2] := by decide

end Verif.Deps
