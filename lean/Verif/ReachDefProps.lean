import Verif.ReachDef
import Verif.LivenessProps
import Mathlib.Algebra.BigOperators.Group.Finset.Basic
import Mathlib.Algebra.Order.BigOperators.Group.Finset
import Mathlib.Tactic.Linarith

/-!
# Theorems about reaching definitions and use-define chains
-/

namespace Verif.ReachDef

open Verif.Liveness (put put_self put_ne)

/-- The last assignment to the name `x` along a statement sequence. -/
def lastDef (x : Nat) (l : List Stmt) : Option Var :=
  ((l.flatMap Stmt.stores).filter fun v => v.name == x).getLast?

/-- `r`, read backwards, is a sequence of blocks through which control can
arrive at block `b`. -/
def PathTo (g : Graph) : List Nat → Nat → Prop
  | [], _ => True
  | p :: r, b => p ∈ g.prev b ∧ PathTo g r p

/-- The statements executed along such a path, in execution order. -/
def along (g : Graph) (r : List Nat) : List Stmt := r.reverse.flatMap g.code

/-- The meaning of "definition `d` reaches the point of block `b` after the
statements `pre`": control can arrive there along a path on which `d` is the
last assignment to its name. -/
def ReachesAt (g : Graph) (b : Nat) (pre : List Stmt) (d : Var) : Prop :=
  ∃ r, PathTo g r b ∧ lastDef d.name (along g r ++ pre) = some d

/-- Well-formed graphs: edges stay inside the block list, and `prev` is the
converse of `next` (every edge is made by `connect_2_blocks`). -/
structure Ok (g : Graph) : Prop where
  nextIn : ∀ b < g.n, ∀ c ∈ g.next b, c < g.n
  prevIn : ∀ b < g.n, ∀ p ∈ g.prev b, p < g.n
  conv : ∀ b c, c ∈ g.next b ↔ b ∈ g.prev c

/-! ### Dictionaries -/

/-- At most one entry per name, each under its own name. -/
def GOk (d : Gens) : Prop := (d.map Prod.fst).Nodup ∧ ∀ e ∈ d, e.2.name = e.1

theorem getGen_setGen (d : Gens) (v : Var) (x : Nat) :
    getGen (setGen d v) x = if v.name = x then some v else getGen d x := by
  induction d with
  | nil =>
    by_cases h : v.name = x <;> simp [setGen, getGen, h]
  | cons e d ih =>
    obtain ⟨k, w⟩ := e
    unfold setGen
    by_cases hk : k = v.name
    · subst hk
      by_cases h : v.name = x <;> simp [getGen, h]
    · rw [if_neg hk]
      by_cases hx : k = x
      · subst hx
        simp [getGen, Ne.symm hk]
      · have e1 : getGen ((k, w) :: setGen d v) x = getGen (setGen d v) x := by
          simp [getGen, hx]
        have e2 : getGen ((k, w) :: d) x = getGen d x := by simp [getGen, hx]
        rw [e1, e2, ih]

theorem keys_setGen (d : Gens) (v : Var) (k : Nat) :
    k ∈ (setGen d v).map Prod.fst ↔ k = v.name ∨ k ∈ d.map Prod.fst := by
  induction d with
  | nil => simp [setGen]
  | cons e d ih =>
    obtain ⟨k', w⟩ := e
    unfold setGen
    by_cases hk : k' = v.name
    · simp [hk]
    · rw [if_neg hk, List.map_cons, List.mem_cons, ih, List.map_cons, List.mem_cons]
      constructor
      · rintro (h | h | h)
        · exact .inr (.inl h)
        · exact .inl h
        · exact .inr (.inr h)
      · rintro (h | h | h)
        · exact .inr (.inl h)
        · exact .inl h
        · exact .inr (.inr h)

theorem gok_setGen {d : Gens} (h : GOk d) (v : Var) : GOk (setGen d v) := by
  induction d with
  | nil => exact ⟨by simp [setGen], by simp [setGen]⟩
  | cons e d ih =>
    obtain ⟨k, w⟩ := e
    obtain ⟨h1, h2⟩ := h
    have h1' := List.nodup_cons.1 (by simpa using h1 : (k :: d.map Prod.fst).Nodup)
    have hd : GOk d := ⟨h1'.2, fun e he => h2 e (by simp [he])⟩
    unfold setGen
    by_cases hk : k = v.name
    · rw [if_pos hk]
      exact ⟨by simpa using h1, by
        intro e he
        rcases List.mem_cons.1 he with rfl | he
        · exact hk.symm
        · exact hd.2 e he⟩
    · rw [if_neg hk]
      obtain ⟨i1, i2⟩ := ih hd
      refine ⟨?_, ?_⟩
      · rw [List.map_cons]
        refine List.nodup_cons.2 ⟨fun hm => ?_, i1⟩
        rcases (keys_setGen d v k).1 hm with h | h
        · exact hk h
        · exact h1'.1 h
      · intro e he
        rcases List.mem_cons.1 he with rfl | he
        · exact h2 _ (by simp)
        · exact i2 e he

theorem gok_foldl_setGen {d : Gens} (h : GOk d) (l : List Var) : GOk (l.foldl setGen d) := by
  induction l generalizing d with
  | nil => exact h
  | cons v l ih => exact ih (gok_setGen h v)

theorem getGen_foldl_setGen (d : Gens) (l : List Var) (x : Nat) :
    getGen (l.foldl setGen d) x = ((l.filter fun v => v.name == x).getLast?).or (getGen d x) := by
  induction l generalizing d with
  | nil => simp
  | cons v l ih =>
    rw [List.foldl_cons, ih, getGen_setGen]
    by_cases h : v.name = x
    · rw [if_pos h, List.filter_cons_of_pos (by simp [h]), List.getLast?_cons]
      cases (l.filter fun v => v.name == x).getLast? <;> simp
    · rw [if_neg h, List.filter_cons_of_neg (by simp [h])]

theorem getGen_code (d : Gens) (code : List Stmt) (x : Nat) :
    getGen (code.foldl storeStep d) x = (lastDef x code).or (getGen d x) := by
  induction code generalizing d with
  | nil => simp [lastDef]
  | cons s code ih =>
    rw [List.foldl_cons, ih]
    unfold storeStep lastDef
    rw [getGen_foldl_setGen, List.flatMap_cons, List.filter_append, List.getLast?_append,
      Option.or_assoc]

theorem gok_code {d : Gens} (h : GOk d) (code : List Stmt) : GOk (code.foldl storeStep d) := by
  induction code generalizing d with
  | nil => exact h
  | cons s code ih => exact ih (gok_foldl_setGen h _)

theorem mem_iff_getGen {d : Gens} (h : GOk d) (k : Nat) (v : Var) :
    (k, v) ∈ d ↔ getGen d k = some v := by
  induction d with
  | nil => simp [getGen]
  | cons e d ih =>
    obtain ⟨k', w⟩ := e
    obtain ⟨h1, h2⟩ := h
    have h1' := List.nodup_cons.1 (by simpa using h1 : (k' :: d.map Prod.fst).Nodup)
    have ih := ih ⟨h1'.2, fun e he => h2 e (by simp [he])⟩
    by_cases hk : k' = k
    · subst hk
      simp only [getGen, List.find?_cons, beq_self_eq_true, Option.map_some, List.mem_cons,
        Prod.mk.injEq, true_and, Option.some.injEq]
      constructor
      · rintro (h | h)
        · exact h.symm
        · exact absurd (List.mem_map.2 ⟨_, h, rfl⟩) h1'.1
      · intro h; exact .inl h.symm
    · have : getGen ((k', w) :: d) k = getGen d k := by simp [getGen, hk]
      rw [this, ← ih, List.mem_cons]
      constructor
      · rintro (h | h)
        · exact absurd (congrArg Prod.fst h).symm hk
        · exact h
      · exact .inr

theorem hasGen_iff (d : Gens) (x : Nat) : hasGen d x = (getGen d x).isSome := by
  unfold hasGen getGen
  rw [Option.isSome_map, Bool.eq_iff_iff, List.any_eq_true, List.find?_isSome]

theorem lastDef_name {x : Nat} {l : List Stmt} {v : Var} (h : lastDef x l = some v) :
    v.name = x := by
  have := List.mem_of_getLast? h
  simpa using (List.mem_filter.1 this).2

theorem lastDef_append (x : Nat) (a b : List Stmt) :
    lastDef x (a ++ b) = (lastDef x b).or (lastDef x a) := by
  unfold lastDef
  rw [List.flatMap_append, List.filter_append, List.getLast?_append]

/-- `reach_def_gen` holds exactly the last assignment to each name in the
block. -/
theorem mem_gen (g : Graph) (b : Nat) (v : Var) :
    v ∈ g.gen b ↔ lastDef v.name (g.code b) = some v := by
  have hok : GOk (gens (g.code b)) := gok_code ⟨by simp, by simp⟩ _
  have hget : ∀ x, getGen (gens (g.code b)) x = lastDef x (g.code b) := by
    intro x
    unfold gens
    rw [getGen_code]
    simp [getGen]
  unfold Graph.gen
  rw [List.mem_toFinset, List.mem_map]
  constructor
  · rintro ⟨⟨k, w⟩, hm, rfl⟩
    have hk : w.name = k := hok.2 _ hm
    subst hk
    rw [← hget]
    exact (mem_iff_getGen hok _ _).1 hm
  · intro h
    exact ⟨(v.name, v), (mem_iff_getGen hok _ _).2 ((hget _).trans h), rfl⟩

theorem mem_genNames (g : Graph) (b x : Nat) :
    x ∈ g.genNames b ↔ lastDef x (g.code b) ≠ none := by
  unfold Graph.genNames
  rw [Finset.mem_image]
  constructor
  · rintro ⟨v, hv, rfl⟩
    rw [(mem_gen g b v).1 hv]; simp
  · intro h
    obtain ⟨v, hv⟩ := Option.ne_none_iff_exists'.1 h
    have hn := lastDef_name hv
    exact ⟨v, (mem_gen g b v).2 (by rw [hn]; exact hv), hn⟩

theorem mem_kill (g : Graph) (b : Nat) (v : Var) :
    v ∈ g.kill b ↔ (∃ o < g.n, o ≠ b ∧ v ∈ g.gen o) ∧ lastDef v.name (g.code b) ≠ none := by
  unfold Graph.kill
  simp only [Finset.mem_biUnion, Finset.mem_filter, Finset.mem_range, mem_genNames]
  constructor
  · rintro ⟨o, ⟨h1, h2⟩, h3, h4⟩; exact ⟨⟨o, h1, h2, h3⟩, h4⟩
  · rintro ⟨⟨o, h1, h2, h3⟩, h4⟩; exact ⟨o, ⟨h1, h2⟩, h3, h4⟩

theorem mem_foldl_union (f : Nat → Finset Var) (l : List Nat) (acc : Finset Var) (v : Var) :
    v ∈ l.foldl (fun acc p => acc ∪ f p) acc ↔ v ∈ acc ∨ ∃ p ∈ l, v ∈ f p := by
  induction l generalizing acc with
  | nil => simp
  | cons p l ih =>
    rw [List.foldl_cons, ih]
    simp only [Finset.mem_union, List.mem_cons, exists_eq_or_imp, or_assoc]

theorem mem_inOf (g : Graph) (out : Nat → Finset Var) (b : Nat) (v : Var) :
    v ∈ inOf g out b ↔ ∃ p ∈ g.prev b, v ∈ out p := by
  simp [inOf, mem_foldl_union]

/-- The right-hand side of the equation for `OUT`. -/
def rhs (g : Graph) (out : Nat → Finset Var) (b : Nat) : Finset Var :=
  g.gen b ∪ (inOf g out b \ g.kill b)

theorem mem_rhs (g : Graph) (out : Nat → Finset Var) (b : Nat) (v : Var) :
    v ∈ rhs g out b ↔ v ∈ g.gen b ∨ (v ∈ inOf g out b ∧ v ∉ g.kill b) := by
  simp [rhs]

/-! ### Invariants -/

structure Inv (g : Graph) (st : State) : Prop where
  sub : st.changed ⊆ Finset.range g.n
  sound : ∀ b < g.n, ∀ d ∈ st.out b, ReachesAt g b (g.code b) d
  defs : ∀ b < g.n, st.out b ⊆ g.defs
  post : ∀ b < g.n, st.out b ⊆ rhs g st.out b
  fixOut : ∀ b < g.n, b ∉ st.changed → st.out b = rhs g st.out b
  fixIn : ∀ b < g.n, b ∉ st.changed → st.inn b = inOf g st.out b

theorem gen_sub_defs (g : Graph) {b : Nat} (hb : b < g.n) : g.gen b ⊆ g.defs :=
  fun _ hv => Finset.mem_biUnion.2 ⟨b, Finset.mem_range.2 hb, hv⟩

theorem inv_init (g : Graph) : Inv g (init g) where
  sub := Finset.Subset.refl _
  sound := fun b _ d hd => ⟨[], trivial, by
    simpa [along] using (mem_gen g b d).1 hd⟩
  defs := fun b hb => gen_sub_defs g hb
  post := fun b _ v hv => (mem_rhs ..).2 (.inl hv)
  fixOut := fun b hb h => absurd (Finset.mem_range.2 hb) h
  fixIn := fun b hb h => absurd (Finset.mem_range.2 hb) h

theorem rhs_mono (g : Graph) {o o' : Nat → Finset Var} (h : ∀ p, o p ⊆ o' p) (b : Nat) :
    rhs g o b ⊆ rhs g o' b := by
  intro v hv
  rcases (mem_rhs ..).1 hv with h1 | ⟨h1, h2⟩
  · exact (mem_rhs ..).2 (.inl h1)
  · obtain ⟨p, hp, hv⟩ := (mem_inOf ..).1 h1
    exact (mem_rhs ..).2 (.inr ⟨(mem_inOf ..).2 ⟨p, hp, h p hv⟩, h2⟩)

theorem rhs_sound {g : Graph} (hg : Ok g) {st : State} (I : Inv g st) {b : Nat} (hb : b < g.n)
    {d : Var} (hd : d ∈ rhs g st.out b) : ReachesAt g b (g.code b) d := by
  rcases (mem_rhs ..).1 hd with h | ⟨h1, h2⟩
  · exact ⟨[], trivial, by simpa [along] using (mem_gen g b d).1 h⟩
  · obtain ⟨p, hp, hd'⟩ := (mem_inOf ..).1 h1
    have hpn := hg.prevIn b hb p hp
    obtain ⟨r, hr, hl⟩ := I.sound p hpn d hd'
    refine ⟨p :: r, ⟨hp, hr⟩, ?_⟩
    have e : along g (p :: r) = along g r ++ g.code p := by
      simp [along, List.flatMap_append]
    rw [e, lastDef_append]
    cases hc : lastDef d.name (g.code b) with
    | none => simpa using hl
    | some w =>
      obtain ⟨o, ho, hgen⟩ := Finset.mem_biUnion.1 (I.defs p hpn hd')
      have : d ∈ g.gen b := by
        by_cases hob : o = b
        · subst hob; exact hgen
        · exact absurd ((mem_kill ..).2 ⟨⟨o, Finset.mem_range.1 ho, hob, hgen⟩, by rw [hc]; simp⟩) h2
      have := (mem_gen g b d).1 this
      rw [← hc, this]; rfl

theorem rhs_defs {g : Graph} (hg : Ok g) {st : State} (I : Inv g st) {b : Nat} (hb : b < g.n) :
    rhs g st.out b ⊆ g.defs := by
  intro v hv
  rcases (mem_rhs ..).1 hv with h | ⟨h1, -⟩
  · exact gen_sub_defs g hb h
  · obtain ⟨p, hp, hd⟩ := (mem_inOf ..).1 h1
    exact I.defs p (hg.prevIn b hb p hp) hd

theorem process_out (g : Graph) (st : State) (b : Nat) :
    (process g st b).out = put st.out b (rhs g st.out b) := rfl

theorem process_le {g : Graph} {st : State} (I : Inv g st) {b : Nat} (hb : b < g.n) (i : Nat) :
    st.out i ⊆ (process g st b).out i := by
  rw [process_out]
  by_cases h : i = b
  · subst h; rw [put_self]; exact I.post i hb
  · rw [put_ne _ _ h]

theorem inOf_put (g : Graph) (o : Nat → Finset Var) (b i : Nat) (x : Finset Var)
    (h : o b = x ∨ b ∉ g.prev i) : inOf g (put o b x) i = inOf g o i := by
  ext v
  rw [mem_inOf, mem_inOf]
  refine exists_congr fun p => and_congr_right fun hp => ?_
  by_cases hpb : p = b
  · subst hpb
    rcases h with h | h
    · rw [put_self, h]
    · exact absurd hp h
  · rw [put_ne _ _ hpb]

theorem process_inv {g : Graph} (hg : Ok g) {st : State} (I : Inv g st) {b : Nat} (hb : b < g.n) :
    Inv g (process g st b) := by
  have hle := process_le I hb
  have hch : ∀ i, i ∉ (process g st b).changed →
      (i = b ∨ i ∉ st.changed) ∧ (st.out b = rhs g st.out b ∨ b ∉ g.prev i) := by
    intro i hi
    have hi' : i ∉ (if st.out b = rhs g st.out b then st.changed.erase b
      else st.changed.erase b ∪ (g.next b).toFinset) := hi
    split at hi'
    · rename_i he
      refine ⟨?_, .inl he⟩
      rw [Finset.mem_erase] at hi'
      by_cases h : i = b
      · exact .inl h
      · exact .inr fun hc => hi' ⟨h, hc⟩
    · rw [Finset.mem_union, not_or, Finset.mem_erase, List.mem_toFinset] at hi'
      refine ⟨?_, .inr fun hp => hi'.2 ((hg.conv b i).2 hp)⟩
      by_cases h : i = b
      · exact .inl h
      · exact .inr fun hc => hi'.1 ⟨h, hc⟩
  have hin : ∀ i, i ∉ (process g st b).changed →
      inOf g (process g st b).out i = inOf g st.out i := by
    intro i hi
    rw [process_out]
    exact inOf_put g _ _ _ _ (hch i hi).2
  refine ⟨?_, fun i hi d hd => ?_, fun i hi => ?_, fun i hi => ?_, fun i hi hc => ?_,
    fun i hi hc => ?_⟩
  · intro i hi
    have hi' : i ∈ (if st.out b = rhs g st.out b then st.changed.erase b
      else st.changed.erase b ∪ (g.next b).toFinset) := hi
    split at hi'
    · exact I.sub (Finset.mem_of_mem_erase hi')
    · rcases Finset.mem_union.1 hi' with h | h
      · exact I.sub (Finset.mem_of_mem_erase h)
      · exact Finset.mem_range.2 (hg.nextIn b hb i (List.mem_toFinset.1 h))
  · rw [process_out] at hd
    by_cases h : i = b
    · subst h; rw [put_self] at hd; exact rhs_sound hg I hi hd
    · rw [put_ne _ _ h] at hd; exact I.sound i hi d hd
  · rw [process_out]
    by_cases h : i = b
    · subst h; rw [put_self]; exact rhs_defs hg I hi
    · rw [put_ne _ _ h]; exact I.defs i hi
  · refine Finset.Subset.trans ?_ (rhs_mono g hle i)
    rw [process_out]
    by_cases h : i = b
    · subst h; rw [put_self]
    · rw [put_ne _ _ h]; exact I.post i hi
  · have e : rhs g (process g st b).out i = rhs g st.out i := by
      unfold rhs; rw [hin i hc]
    rw [e, process_out]
    by_cases h : i = b
    · subst h; rw [put_self]
    · rw [put_ne _ _ h]
      exact I.fixOut i hi ((hch i hc).1.resolve_left h)
  · rw [hin i hc]
    show put st.inn b (inOf g st.out b) i = _
    by_cases h : i = b
    · subst h; rw [put_self]
    · rw [put_ne _ _ h]
      exact I.fixIn i hi ((hch i hc).1.resolve_left h)

/-! ### Termination -/

def weight (g : Graph) (o : Nat → Finset Var) : Nat := ∑ b ∈ Finset.range g.n, (o b).card

theorem weight_le {g : Graph} {st : State} (I : Inv g st) :
    weight g st.out ≤ g.n * g.defs.card := by
  have := Finset.sum_le_card_nsmul (Finset.range g.n) (fun b => (st.out b).card) g.defs.card
    (fun b hb => Finset.card_le_card (I.defs b (Finset.mem_range.1 hb)))
  simpa [weight] using this

/-- The measure that every round decreases. -/
def measure (g : Graph) (st : State) : Nat :=
  (g.n * g.defs.card - weight g st.out) * (g.n + 1) + st.changed.card

theorem process_measure {g : Graph} (hg : Ok g) {st : State} (I : Inv g st) {b : Nat}
    (hb : b ∈ st.changed) : measure g (process g st b) < measure g st := by
  have hbn := Finset.mem_range.1 (I.sub hb)
  have I' := process_inv hg I hbn
  have hle := process_le I hbn
  by_cases he : st.out b = rhs g st.out b
  · have eo : (process g st b).out = st.out := by
      rw [process_out]
      funext i
      by_cases h : i = b
      · subst h; rw [put_self, he.symm]
      · rw [put_ne _ _ h]
    have ec : (process g st b).changed = st.changed.erase b := by
      show (if st.out b = rhs g st.out b then _ else _) = _
      rw [if_pos he]
    unfold measure
    rw [eo, ec, Finset.card_erase_of_mem hb]
    have := Finset.card_pos.2 ⟨b, hb⟩
    omega
  · have hlt : weight g st.out < weight g (process g st b).out := by
      refine Finset.sum_lt_sum (fun i _ => Finset.card_le_card (hle i))
        ⟨b, Finset.mem_range.2 hbn, Finset.card_lt_card ⟨hle b, fun hsub => he ?_⟩⟩
      rw [process_out, put_self] at hsub
      exact Finset.Subset.antisymm (I.post b hbn) hsub
    have h1 := weight_le I'
    have h2 : (process g st b).changed.card ≤ g.n := by
      have := Finset.card_le_card I'.sub
      simpa using this
    unfold measure
    obtain ⟨k, hk⟩ : ∃ k, g.n * g.defs.card - weight g st.out =
        (g.n * g.defs.card - weight g (process g st b).out) + (k + 1) :=
      ⟨weight g (process g st b).out - weight g st.out - 1, by omega⟩
    rw [hk, Nat.add_mul, Nat.add_mul]
    generalize (g.n * g.defs.card - weight g (process g st b).out) * (g.n + 1) = A
    generalize k * (g.n + 1) = B
    omega

theorem pick_some {g : Graph} {ch : Finset Nat} (hs : ch ⊆ Finset.range g.n) (hne : ch ≠ ∅) :
    ∃ b, pick g ch = some b ∧ b ∈ ch := by
  obtain ⟨c, hc⟩ := Finset.nonempty_iff_ne_empty.2 hne
  have hm : c ∈ (List.range g.n).filter (· ∈ ch) := by
    simp [hc, Finset.mem_range.1 (hs hc)]
  have hnn : (List.range g.n).filter (· ∈ ch) ≠ [] := List.ne_nil_of_mem hm
  refine ⟨_, List.getLast?_eq_some_getLast hnn, ?_⟩
  have := List.getLast_mem hnn
  simpa using (List.mem_filter.1 this).2

theorem loop_done {g : Graph} (hg : Ok g) (fuel : Nat) (st : State) (I : Inv g st)
    (hf : measure g st ≤ fuel) :
    ∃ r, loop g fuel st = .done r ∧ Inv g r ∧ r.changed = ∅ := by
  induction fuel generalizing st with
  | zero =>
    have : st.changed = ∅ := by
      have : st.changed.card = 0 := by unfold measure at hf; omega
      exact Finset.card_eq_zero.1 this
    exact ⟨st, by unfold loop; rw [if_pos this], I, this⟩
  | succ fuel ih =>
    by_cases h : st.changed = ∅
    · exact ⟨st, by unfold loop; rw [if_pos h], I, h⟩
    · obtain ⟨b, hb, hm⟩ := pick_some I.sub h
      have := process_measure hg I hm
      obtain ⟨r, hr, hi⟩ := ih _ (process_inv hg I (Finset.mem_range.1 (I.sub hm))) (by omega)
      refine ⟨r, ?_, hi⟩
      unfold loop
      rw [if_neg h, hb]
      exact hr

theorem measure_init (g : Graph) : measure g (init g) ≤ fuelFor g := by
  unfold measure fuelFor init
  have : (g.n * g.defs.card - weight g g.gen) * (g.n + 1) ≤ g.n * g.defs.card * (g.n + 1) :=
    Nat.mul_le_mul_right _ (Nat.sub_le _ _)
  simp only [Finset.card_range]
  omega

/-! ### Completeness -/

theorem reach_complete {g : Graph} (hg : Ok g) {st : State} (I : Inv g st)
    (hc : st.changed = ∅) (d : Var) (r : List Nat) :
    ∀ b < g.n, PathTo g r b → lastDef d.name (along g r ++ g.code b) = some d → d ∈ st.out b := by
  induction r with
  | nil =>
    intro b hb _ h
    rw [I.fixOut b hb (by simp [hc])]
    exact (mem_rhs ..).2 (.inl ((mem_gen ..).2 (by simpa [along] using h)))
  | cons p r ih =>
    intro b hb hp h
    rw [I.fixOut b hb (by simp [hc])]
    rw [lastDef_append] at h
    cases hl : lastDef d.name (g.code b) with
    | some w =>
      rw [hl] at h
      have : w = d := Option.some.inj h
      subst this
      exact (mem_rhs ..).2 (.inl ((mem_gen ..).2 hl))
    | none =>
      rw [hl] at h
      have e : along g (p :: r) = along g r ++ g.code p := by
        simp [along, List.flatMap_append]
      rw [e, Option.none_or] at h
      have := ih p (hg.prevIn b hb p hp.1) hp.2 h
      exact (mem_rhs ..).2 (.inr ⟨(mem_inOf ..).2 ⟨p, hp.1, this⟩, fun hk => ((mem_kill ..).1 hk).2 hl⟩)

/-! ### The property -/

/-- **C38, termination.** On every well-formed graph the worklist empties
within `n * k * (n + 1) + n` rounds (`n` blocks, `k` block-final definitions)
and the "internal error" is never raised. -/
theorem reach_terminates (g : Graph) (hg : Ok g) : ∃ st, computeReach g = .done st := by
  obtain ⟨r, h, -⟩ := loop_done hg _ _ (inv_init g) (measure_init g)
  exact ⟨r, h⟩

theorem reach_final {g : Graph} (hg : Ok g) {st : State} (h : computeReach g = .done st) :
    Inv g st ∧ st.changed = ∅ := by
  obtain ⟨r, hr, hi, hc⟩ := loop_done hg _ _ (inv_init g) (measure_init g)
  have : Res.done r = Res.done st := hr.symm.trans h
  injection this with this
  subst this
  exact ⟨hi, hc⟩

/-- **C38, OUT.** A definition is in the `OUT` set of a block exactly when
control can run along a path ending with that block on which it is the last
assignment to its name. -/
theorem reach_out_exact (g : Graph) (hg : Ok g) (st : State) (h : computeReach g = .done st)
    (b : Nat) (hb : b < g.n) (d : Var) :
    d ∈ st.out b ↔ ReachesAt g b (g.code b) d := by
  obtain ⟨I, hc⟩ := reach_final hg h
  exact ⟨I.sound b hb d, fun ⟨r, hr, hl⟩ => reach_complete hg I hc d r b hb hr hl⟩

/-- **C38, IN.** A definition is in the `IN` set of a block exactly when
control can arrive at the block along a path on which it is the last
assignment to its name. -/
theorem reach_in_exact (g : Graph) (hg : Ok g) (st : State) (h : computeReach g = .done st)
    (b : Nat) (hb : b < g.n) (d : Var) :
    d ∈ st.inn b ↔ ReachesAt g b [] d := by
  obtain ⟨I, hc⟩ := reach_final hg h
  rw [I.fixIn b hb (by simp [hc]), mem_inOf]
  constructor
  · rintro ⟨p, hp, hd⟩
    obtain ⟨r, hr, hl⟩ := I.sound p (hg.prevIn b hb p hp) d hd
    refine ⟨p :: r, ⟨hp, hr⟩, ?_⟩
    simpa [along, List.flatMap_append] using hl
  · rintro ⟨r, hr, hl⟩
    cases r with
    | nil => simp [along, lastDef] at hl
    | cons p r =>
      refine ⟨p, hr.1, reach_complete hg I hc d r p (hg.prevIn b hb p hr.1) hr.2 ?_⟩
      simpa [along, List.flatMap_append] using hl

theorem useDefsFrom_mem (inn : Finset Var) (code : List Stmt) (d : Gens) (e : Var × Finset Var) :
    e ∈ useDefsFrom inn d code ↔ ∃ pre s post, code = pre ++ s :: post ∧ e.1 ∈ s.loads ∧
      e.2 = defsOf inn (pre.foldl storeStep d) e.1.name := by
  induction code generalizing d with
  | nil => simp [useDefsFrom]
  | cons s code ih =>
    rw [useDefsFrom, List.mem_append, List.mem_map, ih]
    constructor
    · rintro (⟨l, hl, rfl⟩ | ⟨pre, s', post, rfl, h2, h3⟩)
      · exact ⟨[], s, code, rfl, hl, rfl⟩
      · exact ⟨s :: pre, s', post, rfl, h2, h3⟩
    · rintro ⟨pre, s', post, h1, h2, h3⟩
      cases pre with
      | nil =>
        injection h1 with h1 h1'
        subst h1
        exact .inl ⟨e.1, h2, by rw [Prod.ext_iff]; exact ⟨rfl, h3.symm⟩⟩
      | cons s0 pre =>
        injection h1 with h1 h1'
        subst h1
        exact .inr ⟨pre, s', post, h1', h2, h3⟩

/-- The definitions entered for a load of `x` after the statements `pre` of
block `b` are exactly those that reach that point. -/
theorem defsOf_exact {g : Graph} (hg : Ok g) {st : State} (h : computeReach g = .done st)
    {b : Nat} (hb : b < g.n) (pre : List Stmt) (x : Nat) (d : Var) :
    d ∈ defsOf (st.inn b) (pre.foldl storeStep []) x ↔ d.name = x ∧ ReachesAt g b pre d := by
  have hget : getGen (pre.foldl storeStep []) x = lastDef x pre := by
    rw [getGen_code]; simp [getGen]
  unfold defsOf
  rw [hasGen_iff, hget]
  cases hl : lastDef x pre with
  | some w =>
    have hw := lastDef_name hl
    simp only [Option.isSome_some, if_true, Option.toList_some, List.mem_toFinset,
      List.mem_singleton]
    constructor
    · rintro rfl
      exact ⟨hw, [], trivial, by rw [hw]; simpa [along] using hl⟩
    · rintro ⟨hn, r, _, hr⟩
      rw [lastDef_append, hn, hl] at hr
      exact (Option.some.inj hr).symm
  | none =>
    simp only [Option.isSome_none, Bool.false_eq_true, if_false, Finset.mem_filter]
    rw [reach_in_exact g hg st h b hb d]
    constructor
    · rintro ⟨⟨r, hr, hlr⟩, hn⟩
      refine ⟨hn, r, hr, ?_⟩
      rw [lastDef_append, hn, hl, Option.none_or]
      simpa [hn] using hlr
    · rintro ⟨hn, r, hr, hlr⟩
      refine ⟨⟨r, hr, ?_⟩, hn⟩
      rw [lastDef_append, hn, hl, Option.none_or] at hlr
      simpa [hn] using hlr

/-- **C38, use-define chains.** Every load of a block gets an entry, every
entry comes from a load, and the definitions in the entry are exactly the
definitions of the loaded name that reach the statement of the load. -/
theorem use_def_exact (g : Graph) (hg : Ok g) (st : State) (h : computeReach g = .done st)
    (b : Nat) (hb : b < g.n) :
    (∀ pre s post l, g.code b = pre ++ s :: post → l ∈ s.loads →
      ∃ ds, (l, ds) ∈ useDefs g st b ∧ ∀ d, d ∈ ds ↔ d.name = l.name ∧ ReachesAt g b pre d) ∧
    (∀ l ds, (l, ds) ∈ useDefs g st b → ∃ pre s post, g.code b = pre ++ s :: post ∧ l ∈ s.loads ∧
      ∀ d, d ∈ ds ↔ d.name = l.name ∧ ReachesAt g b pre d) := by
  constructor
  · intro pre s post l hcode hl
    refine ⟨defsOf (st.inn b) (pre.foldl storeStep []) l.name,
      (useDefsFrom_mem ..).2 ⟨pre, s, post, hcode, hl, rfl⟩, fun d => ?_⟩
    exact defsOf_exact hg h hb pre l.name d
  · intro l ds hm
    obtain ⟨pre, s, post, h1, h2, h3⟩ := (useDefsFrom_mem ..).1 hm
    refine ⟨pre, s, post, h1, h2, fun d => ?_⟩
    dsimp only at h3
    rw [h3]
    exact defsOf_exact hg h hb pre l.name d

/-! ### A concrete case

0: `x = …` (node 10); 1: test of a loop; 2: `x = x` (load node 11, store node
12); 3: `return x` (load node 13). -/

def demo : Graph where
  n := 4
  code := fun
    | 0 => [⟨[], [⟨0, 10⟩]⟩]
    | 2 => [⟨[⟨0, 11⟩], [⟨0, 12⟩]⟩]
    | 3 => [⟨[⟨0, 13⟩], []⟩]
    | _ => []
  next := fun
    | 0 => [1]
    | 1 => [2, 3]
    | 2 => [1]
    | _ => []
  prev := fun
    | 1 => [0, 2]
    | 2 => [1]
    | 3 => [1]
    | _ => []

def Res.state : Res → Option State
  | .done st => some st
  | _ => none

example : (computeReach demo).state.map
      (fun st => ((List.range 4).map st.inn, useDefs demo st 2, useDefs demo st 3))
    = some ([∅, {⟨0, 10⟩, ⟨0, 12⟩}, {⟨0, 10⟩, ⟨0, 12⟩}, {⟨0, 10⟩, ⟨0, 12⟩}],
        [(⟨0, 11⟩, {⟨0, 10⟩, ⟨0, 12⟩})], [(⟨0, 13⟩, {⟨0, 10⟩, ⟨0, 12⟩})]) := by
  decide +kernel

example : Ok demo where
  nextIn := by decide
  prevIn := by decide
  conv := by
    intro b c
    rcases b with _ | _ | _ | _ | b <;> rcases c with _ | _ | _ | _ | c <;> simp [demo]

end Verif.ReachDef
