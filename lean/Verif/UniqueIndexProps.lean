import Mathlib.Data.List.Nodup
import Mathlib.Data.List.Perm.Subperm
import Verif.DTypeStrProps
import Verif.UniqueIndex

/-! # Names and signatures are unique (C45) -/

namespace Verif.UniqueIndex

open Verif.DTypeStr (digits digits_value digits_all isDigit)

def namesOf (rs : List Res) : List (List Char) :=
  rs.filterMap fun | .name n => some n | _ => none

def sigsOf (rs : List Res) : List Nat :=
  rs.filterMap fun | .sig k => some k | _ => none

theorem split_unique {a b : List Char} : ∀ {x y : List Char},
    (∀ c ∈ x, c ≠ '_') → (∀ c ∈ y, c ≠ '_') → a ++ '_' :: x = b ++ '_' :: y → a = b ∧ x = y := by
  induction a generalizing b with
  | nil =>
    intro x y hx hy e
    cases b with
    | nil => simpa using e
    | cons c b =>
      simp at e
      exact absurd rfl (hx '_' (by rw [e.2]; simp))
  | cons c a ih =>
    intro x y hx hy e
    cases b with
    | nil =>
      simp at e
      exact absurd rfl (hy '_' (by rw [← e.2]; simp))
    | cons c' b =>
      simp at e
      obtain ⟨rfl, rfl⟩ := ih hx hy e.2
      exact ⟨by rw [e.1], rfl⟩

theorem digits_no_underscore (n : Nat) : ∀ c ∈ digits n, c ≠ '_' := by
  intro c hc e
  have := digits_all n c hc
  subst e
  simp [isDigit] at this

theorem name_inj {b b' : List Char} {i j : Nat}
    (h : b ++ '_' :: digits i = b' ++ '_' :: digits j) : b = b' ∧ i = j := by
  obtain ⟨h1, h2⟩ := split_unique (digits_no_underscore i) (digits_no_underscore j) h
  refine ⟨h1, ?_⟩
  rw [← digits_value i, ← digits_value j, h2]

theorem run_names : ∀ (cs : List Call) (s : St),
    (namesOf (run s cs)).Nodup ∧
    ∀ n ∈ namesOf (run s cs), ∃ base i, n = base ++ '_' :: digits i ∧ s.idx base ≤ i := by
  intro cs
  induction cs with
  | nil => intro s; simp [run, namesOf]
  | cons c cs ih =>
    intro s
    cases c with
    | index name =>
      obtain ⟨h1, h2⟩ := ih (genIndex s name).2
      refine ⟨by simpa [run, namesOf] using h1, ?_⟩
      intro n hn
      obtain ⟨b, i, e, hi⟩ := h2 n (by simpa [run, namesOf] using hn)
      refine ⟨b, i, e, Nat.le_trans ?_ hi⟩
      simp only [genIndex]
      split
      · rename_i hb; subst hb; omega
      · exact Nat.le_refl _
    | name p h =>
      obtain ⟨h1, h2⟩ := ih (genName s p h).2
      have mono : ∀ b, s.idx b ≤ (genName s p h).2.idx b := by
        intro b
        simp only [genName, genIndex]
        split
        · rename_i hb; subst hb; omega
        · exact Nat.le_refl _
      have e : namesOf (run s (.name p h :: cs)) =
          (genName s p h).1 :: namesOf (run (genName s p h).2 cs) := by
        simp [run, namesOf]
      rw [e, List.nodup_cons]
      refine ⟨⟨?_, h1⟩, ?_⟩
      · intro hc
        obtain ⟨b, i, eb, hi⟩ := h2 _ hc
        have : (genName s p h).1 = (p ++ '_' :: digits h) ++
            '_' :: digits (s.idx (p ++ '_' :: digits h)) := rfl
        rw [this] at eb
        obtain ⟨rfl, rfl⟩ := name_inj eb
        have he : (genName s p h).2.idx (p ++ '_' :: digits h) =
            s.idx (p ++ '_' :: digits h) + 1 := by
          simp only [genName, genIndex, if_true]
        omega
      · intro n hn
        rcases List.mem_cons.mp hn with rfl | hn
        · exact ⟨p ++ '_' :: digits h, s.idx (p ++ '_' :: digits h), rfl, Nat.le_refl _⟩
        · obtain ⟨b, i, eb, hi⟩ := h2 n hn
          exact ⟨b, i, eb, Nat.le_trans (mono b) hi⟩
    | sig h =>
      simp only [run]
      cases hg : genSig s h with
      | none => simp [namesOf]
      | some r =>
        obtain ⟨k, s'⟩ := r
        have hs' : s'.idx = s.idx := by
          unfold genSig at hg
          split at hg
          · cases hg
          · injection hg with hg; injection hg with _ hg; rw [← hg]
        obtain ⟨h1, h2⟩ := ih s'
        refine ⟨by simpa [namesOf] using h1, ?_⟩
        intro n hn
        obtain ⟨b, i, e, hi⟩ := h2 n (by simpa [namesOf] using hn)
        exact ⟨b, i, e, by rw [← hs']; exact hi⟩

/-- **C45.**  Generated operator names are pairwise distinct, for any prefixes and seeds and
whatever other calls are made in between. -/
theorem names_distinct (cs : List Call) : (namesOf (run St.init cs)).Nodup :=
  (run_names cs St.init).1

theorem probe_fresh : ∀ (fuel k : Nat) (sigs : List Nat) (hash r : Nat),
    probe sigs hash fuel k = some r → r ∉ sigs := by
  intro fuel
  induction fuel with
  | zero =>
    intro k sigs hash r h
    unfold probe at h
    split at h
    · cases h
    · injection h with h; subst h; assumption
  | succ f ih =>
    intro k sigs hash r h
    unfold probe at h
    split at h
    · exact ih _ _ _ _ h
    · injection h with h; subst h; assumption

theorem run_sigs : ∀ (cs : List Call) (s : St),
    (sigsOf (run s cs)).Nodup ∧ ∀ k ∈ sigsOf (run s cs), k ∉ s.sigs := by
  intro cs
  induction cs with
  | nil => intro s; simp [run, sigsOf]
  | cons c cs ih =>
    intro s
    cases c with
    | index name => simpa [run, sigsOf, genIndex] using ih (genIndex s name).2
    | name p h => simpa [run, sigsOf, genName, genIndex] using ih (genName s p h).2
    | sig h =>
      simp only [run]
      cases hg : genSig s h with
      | none => simp [sigsOf]
      | some r =>
        obtain ⟨k, s'⟩ := r
        unfold genSig at hg
        split at hg
        · cases hg
        · rename_i r hr
          injection hg with hg
          injection hg with h1 h2
          subst h1
          obtain ⟨a, b⟩ := ih s'
          have e : sigsOf (Res.sig r :: run s' cs) = r :: sigsOf (run s' cs) := by simp [sigsOf]
          simp only
          rw [e, List.nodup_cons]
          refine ⟨⟨?_, a⟩, ?_⟩
          · intro hc
            have := b r hc
            rw [← h2] at this
            simp at this
          · intro k hk
            rcases List.mem_cons.mp hk with rfl | hk
            · exact probe_fresh _ _ _ _ _ hr
            · have := b k hk
              rw [← h2] at this
              simp at this
              exact this.2

/-- **C45.**  Generated signatures (the keys of graph entries) are pairwise distinct. -/
theorem signatures_distinct (cs : List Call) : (sigsOf (run St.init cs)).Nodup :=
  (run_sigs cs St.init).1

theorem probe_none : ∀ (fuel k : Nat) (sigs : List Nat) (hash : Nat),
    probe sigs hash fuel k = none → ∀ j, k ≤ j → j ≤ k + fuel → candidate hash j ∈ sigs := by
  intro fuel
  induction fuel with
  | zero =>
    intro k sigs hash h j h1 h2
    have : j = k := by omega
    subst this
    unfold probe at h
    split at h
    · assumption
    · cases h
  | succ f ih =>
    intro k sigs hash h j h1 h2
    unfold probe at h
    split at h
    · rename_i hk
      rcases Nat.lt_or_ge k j with hlt | hge
      · exact ih _ _ _ h j (by omega) (by omega)
      · have : j = k := by omega
        subst this; exact hk
    · cases h

theorem candidate_inj {hash i j : Nat} (hi : i < 2 ^ 32) (hj : j < 2 ^ 32)
    (h : candidate hash i = candidate hash j) : i = j := by
  unfold candidate at h
  omega

/-- **C45.**  As long as fewer than `2 ^ 32` signatures have been issued, the generator returns. -/
theorem signature_returns (s : St) (hash : Nat) (h : s.sigs.length < 2 ^ 32) :
    ∃ r, genSig s hash = some r := by
  unfold genSig
  cases hp : probe s.sigs hash (2 ^ 32 - 1) 0 with
  | some r => exact ⟨_, rfl⟩
  | none =>
    exfalso
    have hall := probe_none _ _ _ _ hp
    have hnd : ((List.range (2 ^ 32)).map (candidate hash)).Nodup := by
      refine List.Nodup.map_on ?_ List.nodup_range
      intro a ha b hb e
      rw [List.mem_range] at ha hb
      exact candidate_inj ha hb e
    have hsub : (List.range (2 ^ 32)).map (candidate hash) ⊆ s.sigs := by
      intro x hx
      obtain ⟨j, hj, rfl⟩ := List.mem_map.mp hx
      rw [List.mem_range] at hj
      exact hall j (by omega) (by omega)
    have := (hnd.subperm hsub).length_le
    rw [List.length_map, List.length_range] at this
    omega

/-- Different prefixes that run into each other still give different names. -/
example : namesOf (run St.init [.name "op".toList 1, .name "op".toList 1, .name "op_1".toList 1,
    .index "op_1".toList, .name "op".toList 1]) =
    ["op_1_0".toList, "op_1_1".toList, "op_1_1_0".toList, "op_1_3".toList] := by decide +kernel

example : candidate 5 0 = 5 ∧ candidate 5 1 = 4294967301 ∧ candidate 5 (2 ^ 32) = 5 := by decide

example : probe [5] 5 3 0 = some 4294967301 := by decide

end Verif.UniqueIndex
