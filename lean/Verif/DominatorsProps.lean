import Verif.Dominators
import Verif.LivenessProps
import Mathlib.Algebra.BigOperators.Group.Finset.Basic
import Mathlib.Algebra.Order.BigOperators.Group.Finset
import Mathlib.Tactic.Linarith
import Mathlib.Tactic.ByContra

/-!
# Theorems about dominators, immediate dominators and dominance frontiers
-/

namespace Verif.Dominators

open Verif.Liveness (put put_self put_ne)

/-- `r`, read backwards, is a run of control from the function label to block
`b`; both ends are included. -/
inductive Walk (g : Graph) : List Nat → Nat → Prop
  | start : Walk g [g.entry] g.entry
  | step {r p b} : Walk g r p → p ∈ g.prev b → Walk g (b :: r) b

/-- `d` dominates `b`: every run from the function label to `b` passes through
`d`. -/
def Dominates (g : Graph) (d b : Nat) : Prop := ∀ r, Walk g r b → d ∈ r

/-- Some run reaches `b`. -/
def Reachable (g : Graph) (b : Nat) : Prop := ∃ r, Walk g r b

/-- The graphs on which the computed sets are exact: all predecessors are
registered with the scope, no registered block is dead code, and nothing is
linked to the function label. -/
structure Good (g : Graph) : Prop where
  root : g.prev g.entry = []
  covered : ∀ b ∈ g.blocks, ∀ p ∈ g.prev b, p = g.entry ∨ p ∈ g.blocks
  live : ∀ b ∈ g.blocks, Reachable g b

theorem mem_interAll (l : List (Finset Nat)) (hl : l ≠ []) (v : Nat) :
    v ∈ interAll l ↔ ∀ s ∈ l, v ∈ s := by
  induction l with
  | nil => exact absurd rfl hl
  | cons s l ih =>
    cases l with
    | nil => simp [interAll]
    | cons t l =>
      rw [interAll, Finset.mem_inter, ih (by simp)]
      simp

theorem interAll_subset (l : List (Finset Nat)) (A : Finset Nat) (h : ∀ s ∈ l, s ⊆ A) :
    interAll l ⊆ A := by
  cases l with
  | nil => simp [interAll]
  | cons s l =>
    intro v hv
    exact h s (by simp) ((mem_interAll _ (by simp) v).1 hv s (by simp))

theorem mem_newDom (g : Graph) (dom : Doms) (b v : Nat) :
    v ∈ newDom g dom b ↔ v = b ∨ (g.prev b ≠ [] ∧ ∀ p ∈ g.prev b, v ∈ dom p) := by
  unfold newDom
  rw [Finset.mem_insert]
  by_cases h : g.prev b = []
  · simp [h, interAll]
  · rw [mem_interAll _ (by simpa using h)]
    simp [h]

theorem newDom_mono (g : Graph) {d d' : Doms} (h : ∀ b, d b ⊆ d' b) (b : Nat) :
    newDom g d b ⊆ newDom g d' b := by
  intro v hv
  rw [mem_newDom] at hv ⊢
  exact hv.imp_right fun ⟨h1, h2⟩ => ⟨h1, fun p hp => h p (h2 p hp)⟩

/-! ### The iteration -/

structure Inv (g : Graph) (dom : Doms) : Prop where
  entryD : dom g.entry = {g.entry}
  outside : ∀ b, b ≠ g.entry → b ∉ g.blocks → dom b = ∅
  inAll : ∀ b, dom b ⊆ g.all
  post : ∀ b ∈ g.blocks, newDom g dom b ⊆ dom b

theorem inv_init (g : Graph) (he : g.entry ∉ g.blocks) : Inv g g.init := by
  have hall : ∀ b, g.init b ⊆ g.all := by
    intro b
    unfold Graph.init
    split
    · simp [Graph.all]
    · split <;> simp
  refine ⟨by simp [Graph.init], fun b h1 h2 => by simp [Graph.init, h1, h2], hall, fun b hb => ?_⟩
  have hbe : b ≠ g.entry := fun h => he (h ▸ hb)
  have : g.init b = g.all := by simp [Graph.init, hbe, hb]
  rw [this]
  unfold newDom
  refine Finset.insert_subset (by simp [Graph.all, hb]) (interAll_subset _ _ fun s hs => ?_)
  obtain ⟨p, -, rfl⟩ := List.mem_map.1 hs
  exact hall p

theorem domStep_inv {g : Graph} (he : g.entry ∉ g.blocks) {dom : Doms} {fl : Bool}
    (I : Inv g dom) {b : Nat} (hb : b ∈ g.blocks) :
    Inv g (domStep g (dom, fl) b).1 ∧ (∀ i, (domStep g (dom, fl) b).1 i ⊆ dom i) := by
  have hbe : b ≠ g.entry := fun h => he (h ▸ hb)
  unfold domStep
  split
  · exact ⟨I, fun _ => Finset.Subset.refl _⟩
  · dsimp only
    have hle : ∀ i, put dom b (newDom g dom b) i ⊆ dom i := by
      intro i
      by_cases h : i = b
      · subst h; rw [put_self]; exact I.post i hb
      · rw [put_ne _ _ h]
    refine ⟨⟨?_, fun i h1 h2 => ?_, fun i => Finset.Subset.trans (hle i) (I.inAll i),
      fun i hi => ?_⟩, hle⟩
    · rw [put_ne _ _ (Ne.symm hbe)]; exact I.entryD
    · rw [put_ne _ _ (fun h : i = b => h2 (h ▸ hb))]; exact I.outside i h1 h2
    · refine Finset.Subset.trans (newDom_mono g hle i) ?_
      by_cases h : i = b
      · subst h; rw [put_self]
      · rw [put_ne _ _ h]; exact I.post i hi

def weight (g : Graph) (dom : Doms) : Nat := ∑ b ∈ g.blocks.toFinset, (dom b).card

theorem weight_mono (g : Graph) {d d' : Doms} (h : ∀ i, d i ⊆ d' i) :
    weight g d ≤ weight g d' :=
  Finset.sum_le_sum fun b _ => Finset.card_le_card (h b)

theorem foldl_dom {g : Graph} (he : g.entry ∉ g.blocks) (Q : Doms → Prop)
    (hQ : ∀ dom, Inv g dom → Q dom → ∀ b ∈ g.blocks, Q (put dom b (newDom g dom b)))
    (l : List Nat) (hl : ∀ b ∈ l, b ∈ g.blocks) (dom : Doms) (fl : Bool)
    (I : Inv g dom) (q : Q dom) :
    let r := l.foldl (domStep g) (dom, fl)
    Inv g r.1 ∧ Q r.1 ∧ weight g r.1 ≤ weight g dom ∧
      (r.2 = true → fl = false → weight g r.1 < weight g dom) ∧
      (r.2 = false → r.1 = dom ∧ fl = false ∧ ∀ b ∈ l, dom b = newDom g dom b) := by
  induction l generalizing dom fl with
  | nil =>
    refine ⟨I, q, Nat.le_refl _, fun h1 h2 => ?_, fun h => ⟨rfl, h, by simp⟩⟩
    simp only [List.foldl_nil] at h1
    rw [h1] at h2; cases h2
  | cons b l ih =>
    have hb := hl b (by simp)
    obtain ⟨I', hle⟩ := domStep_inv (fl := fl) he I hb
    have hl' : ∀ c ∈ l, c ∈ g.blocks := fun c hc => hl c (by simp [hc])
    rw [List.foldl_cons]
    by_cases hc : dom b = newDom g dom b
    · have e : domStep g (dom, fl) b = (dom, fl) := by unfold domStep; rw [if_pos hc]
      rw [e]
      obtain ⟨h1, h2, h3, h4, h5⟩ := ih hl' dom fl I q
      refine ⟨h1, h2, h3, h4, fun hr => ?_⟩
      obtain ⟨e1, e2, e3⟩ := h5 hr
      refine ⟨e1, e2, fun c hm => ?_⟩
      rcases List.mem_cons.1 hm with rfl | hm
      · exact hc
      · exact e3 c hm
    · have e : domStep g (dom, fl) b = (put dom b (newDom g dom b), true) := by
        unfold domStep; rw [if_neg hc]
      rw [e] at I' hle ⊢
      dsimp only at I' hle
      obtain ⟨h1, h2, h3, h4, h5⟩ := ih hl' (put dom b (newDom g dom b)) true I' (hQ dom I q b hb)
      have hlt : weight g (put dom b (newDom g dom b)) < weight g dom := by
        refine Finset.sum_lt_sum (fun i _ => Finset.card_le_card (hle i))
          ⟨b, List.mem_toFinset.2 hb, Finset.card_lt_card ⟨hle b, fun hsub => hc ?_⟩⟩
        rw [put_self] at hsub
        exact Finset.Subset.antisymm hsub (I.post b hb)
      refine ⟨h1, h2, by omega, fun _ _ => by omega, fun hr => ?_⟩
      obtain ⟨-, e2, -⟩ := h5 hr
      cases e2

theorem domLoop_some {g : Graph} (he : g.entry ∉ g.blocks) (Q : Doms → Prop)
    (hQ : ∀ dom, Inv g dom → Q dom → ∀ b ∈ g.blocks, Q (put dom b (newDom g dom b)))
    (fuel : Nat) (dom : Doms) (I : Inv g dom) (q : Q dom) (hf : weight g dom < fuel) :
    ∃ r, domLoop g fuel dom = some r ∧ Inv g r ∧ Q r ∧ ∀ b ∈ g.blocks, r b = newDom g r b := by
  induction fuel generalizing dom with
  | zero => omega
  | succ fuel ih =>
    obtain ⟨h1, h2, -, h4, h5⟩ := foldl_dom he Q hQ g.blocks (fun _ h => h) dom false I q
    unfold domLoop
    cases hc : (domPass g dom).2 with
    | true =>
      simp only [hc, if_true]
      exact ih _ h1 h2 (by have := h4 hc rfl; unfold domPass; omega)
    | false =>
      simp only [hc]
      obtain ⟨e1, -, e3⟩ := h5 hc
      exact ⟨_, rfl, h1, h2, fun b hb => by
        rw [show (domPass g dom).1 = dom from e1]; exact e3 b hb⟩

theorem weight_init (g : Graph) (he : g.entry ∉ g.blocks) : weight g g.init < fuelFor g := by
  have := Finset.sum_le_card_nsmul g.blocks.toFinset (fun b => (g.init b).card) g.all.card
    (fun b _ => Finset.card_le_card ((inv_init g he).inAll b))
  unfold fuelFor weight
  have e : g.blocks.toFinset.card • g.all.card = g.blocks.toFinset.card * g.all.card := rfl
  omega

theorem fill_final {g : Graph} (he : g.entry ∉ g.blocks) (Q : Doms → Prop)
    (hQ : ∀ dom, Inv g dom → Q dom → ∀ b ∈ g.blocks, Q (put dom b (newDom g dom b)))
    (q : Q g.init) {dom : Doms} (h : fillDominates g = some dom) :
    Inv g dom ∧ Q dom ∧ ∀ b ∈ g.blocks, dom b = newDom g dom b := by
  obtain ⟨r, hr, h1, h2, h3⟩ := domLoop_some he Q hQ _ _ (inv_init g he) q (weight_init g he)
  have : r = dom := Option.some.inj (hr.symm.trans h)
  subst this
  exact ⟨h1, h2, h3⟩

/-! ### C39: dominators -/

/-- **C39, termination.** `fill_dominates` stops on every graph. -/
theorem dom_terminates (g : Graph) (he : g.entry ∉ g.blocks) :
    ∃ dom, fillDominates g = some dom := by
  obtain ⟨r, hr, -⟩ := domLoop_some he (fun _ => True) (fun _ _ _ _ _ => trivial) _ _
    (inv_init g he) trivial (weight_init g he)
  exact ⟨r, hr⟩

/-- **C39, no false dominators.** On every graph, whatever blocks are
registered with the scope and whether or not there is dead code, each block in
the computed set of a reachable block does dominate it. -/
theorem dom_sound (g : Graph) (he : g.entry ∉ g.blocks) (dom : Doms)
    (h : fillDominates g = some dom) (b d : Nat) (hd : d ∈ dom b) : Dominates g d b := by
  obtain ⟨I, -, hfix⟩ := fill_final he (fun _ => True) (fun _ _ _ _ _ => trivial) trivial h
  intro r hr
  induction hr with
  | start => rw [I.entryD] at hd; simpa using hd
  | @step r p b hw hp ih =>
    by_cases hbe : b = g.entry
    · subst hbe
      rw [I.entryD] at hd
      simp [Finset.mem_singleton.1 hd]
    · by_cases hb : b ∈ g.blocks
      · rw [hfix b hb, mem_newDom] at hd
        rcases hd with rfl | ⟨-, hd⟩
        · simp
        · exact List.mem_cons_of_mem _ (ih (hd p hp))
      · rw [I.outside b hbe hb] at hd
        simp at hd

theorem dominates_pred {g : Graph} {d b p : Nat} (h : Dominates g d b) (hp : p ∈ g.prev b)
    (hne : d ≠ b) : Dominates g d p := by
  intro r hr
  rcases List.mem_cons.1 (h _ (.step hr hp)) with h | h
  · exact absurd h hne
  · exact h

theorem dominates_entry {g : Graph} {d : Nat} (h : Dominates g d g.entry) : d = g.entry := by
  simpa using h _ .start

theorem entry_dominates (g : Graph) (b : Nat) : Dominates g g.entry b := by
  intro r hr
  induction hr with
  | start => simp
  | step _ _ ih => exact List.mem_cons_of_mem _ ih

theorem prev_ne_nil {g : Graph} {b : Nat} (h : Reachable g b) (hb : b ≠ g.entry) :
    g.prev b ≠ [] := by
  obtain ⟨r, hr⟩ := h
  cases hr with
  | start => exact absurd rfl hb
  | step _ hp => exact List.ne_nil_of_mem hp

theorem walk_all {g : Graph} (hg : Good g) {r : List Nat} {b : Nat} (hw : Walk g r b)
    (hb : b = g.entry ∨ b ∈ g.blocks) : ∀ d ∈ r, d ∈ g.all := by
  induction hw with
  | start => intro d hd; rw [List.mem_singleton.1 hd]; simp [Graph.all]
  | @step r p b hw hp ih =>
    have hb' : b ∈ g.blocks := by
      rcases hb with rfl | hb
      · rw [hg.root] at hp; cases hp
      · exact hb
    intro d hd
    rcases List.mem_cons.1 hd with rfl | hd
    · simp [Graph.all, hb']
    · exact ih (hg.covered b hb' p hp) d hd

/-- **C39, exactness** (on graphs whose blocks are all registered with the
scope and reachable).  The computed set of a block is exactly the set of
blocks that every run from the function label to it passes through. -/
theorem dom_exact_partial (g : Graph) (he : g.entry ∉ g.blocks) (hg : Good g) (dom : Doms)
    (h : fillDominates g = some dom) (b : Nat) (hb : b = g.entry ∨ b ∈ g.blocks) (d : Nat) :
    d ∈ dom b ↔ Dominates g d b := by
  refine ⟨dom_sound g he dom h b d, fun hd => ?_⟩
  have key := fill_final he (fun dom => ∀ b ∈ g.blocks, ∀ d, Dominates g d b → d ∈ dom b)
    (fun dom I q c hc i hi d hd => ?_) (fun i hi d hd => ?_) h
  · rcases hb with rfl | hb
    · rw [key.1.entryD, dominates_entry hd]; simp
    · exact key.2.1 b hb d hd
  · by_cases hic : i = c
    · subst hic
      rw [put_self, mem_newDom]
      by_cases hdi : d = i
      · exact .inl hdi
      · refine .inr ⟨prev_ne_nil (hg.live i hi) (fun h => he (h ▸ hi)), fun p hp => ?_⟩
        have hdp := dominates_pred hd hp hdi
        rcases hg.covered i hi p hp with rfl | hpb
        · rw [I.entryD, dominates_entry hdp]; simp
        · exact q p hpb d hdp
    · rw [put_ne _ _ hic]; exact q i hi d hd
  · obtain ⟨r, hr⟩ := hg.live i hi
    have hda := walk_all hg hr (.inr hi) d (hd r hr)
    have hie : i ≠ g.entry := fun h => he (h ▸ hi)
    simpa [Graph.init, hie, hi] using hda

/-! ### Immediate dominators -/

/-- `i` is the immediate dominator of `b`: a strict dominator that every other
strict dominator dominates. -/
def IsIdom (g : Graph) (i b : Nat) : Prop :=
  i ≠ b ∧ Dominates g i b ∧ ∀ d, d ≠ b → Dominates g d b → Dominates g d i

/-- The blocks the backward search may expand: connected to `b` by blocks that
are not in `revDoms`. -/
inductive Chain (g : Graph) (b : Nat) (revDoms : Finset Nat) : Nat → Prop
  | base : Chain g b revDoms b
  | step {x p} : Chain g b revDoms x → p ∈ g.prev x → p ≠ b → p ∉ revDoms → Chain g b revDoms p

theorem chain_walk {g : Graph} {b x : Nat} {D : Finset Nat} (hc : Chain g b D x) (r : List Nat)
    (hr : Walk g r x) : ∃ s, Walk g (s ++ r) b ∧ ∀ d ∈ s, d = b ∨ d ∉ D := by
  induction hc generalizing r with
  | base => exact ⟨[], hr, by simp⟩
  | @step x p hx hp hne hnD ih =>
    obtain ⟨s, hs, hsd⟩ := ih (x :: r) (.step hr hp)
    have hxd : x = b ∨ x ∉ D := by
      cases hx with
      | base => exact .inl rfl
      | step _ _ _ h => exact .inr h
    refine ⟨s ++ [x], by simpa using hs, fun d hd => ?_⟩
    rcases List.mem_append.1 hd with hd | hd
    · exact hsd d hd
    · rw [List.mem_singleton.1 hd]; exact hxd

theorem found_isIdom {g : Graph} {b x p : Nat} {D : Finset Nat}
    (hD : ∀ d, d ∈ D ↔ Dominates g d b) (hx : Chain g b D x) (hp : p ∈ g.prev x) (hne : p ≠ b)
    (hpD : p ∈ D) : IsIdom g p b := by
  refine ⟨hne, (hD p).1 hpD, fun d hdb hd r hr => ?_⟩
  obtain ⟨s, hs, hsd⟩ := chain_walk hx (x :: r) (.step hr hp)
  have hdD := (hD d).2 hd
  have hxd : d ≠ x := by
    rintro rfl
    cases hx with
    | base => exact hdb rfl
    | step _ _ _ h => exact h hdD
  rcases List.mem_append.1 (hd _ hs) with h | h
  · rcases hsd d h with h | h
    · exact absurd h hdb
    · exact absurd hdD h
  · rcases List.mem_cons.1 h with h | h
    · exact absurd h hxd
    · exact h

/-- What `idomScan` does. -/
theorem idomScan_spec (b : Nat) (D : Finset Nat) (vis ps q : List Nat) :
    (∃ p ∈ ps, idomScan b D vis ps q = .inl p ∧ p ≠ b ∧ p ∈ D) ∨
    (∃ add, idomScan b D vis ps q = .inr (q ++ add) ∧
      (∀ p ∈ add, p ∈ ps ∧ p ≠ b ∧ p ∉ D ∧ p ∉ vis) ∧
      (∀ p ∈ ps, p = b ∨ p ∈ vis ∨ p ∈ add)) := by
  induction ps generalizing q with
  | nil => exact .inr ⟨[], by simp [idomScan], by simp, by simp⟩
  | cons p ps ih =>
    unfold idomScan
    by_cases h : p ≠ b ∧ p ∉ vis
    · rw [if_pos h]
      by_cases hD : p ∈ D
      · rw [if_pos hD]; exact .inl ⟨p, by simp, rfl, h.1, hD⟩
      · rw [if_neg hD]
        rcases ih (q ++ [p]) with ⟨p', hp', h1, h2⟩ | ⟨add, h1, h2, h3⟩
        · exact .inl ⟨p', by simp [hp'], h1, h2⟩
        · refine .inr ⟨p :: add, by rw [h1]; simp, fun x hx => ?_, fun x hx => ?_⟩
          · rcases List.mem_cons.1 hx with rfl | hx
            · exact ⟨by simp, h.1, hD, h.2⟩
            · obtain ⟨a, b', c⟩ := h2 x hx; exact ⟨by simp [a], b', c⟩
          · rcases List.mem_cons.1 hx with rfl | hx
            · exact .inr (.inr (by simp))
            · rcases h3 x hx with h | h | h
              · exact .inl h
              · exact .inr (.inl h)
              · exact .inr (.inr (by simp [h]))
    · rw [if_neg h]
      rcases ih q with ⟨p', hp', h1, h2⟩ | ⟨add, h1, h2, h3⟩
      · exact .inl ⟨p', by simp [hp'], h1, h2⟩
      · refine .inr ⟨add, h1, fun x hx => ?_, fun x hx => ?_⟩
        · obtain ⟨a, b', c⟩ := h2 x hx; exact ⟨by simp [a], b', c⟩
        · rcases List.mem_cons.1 hx with rfl | hx
          · by_cases hb : x = b
            · exact .inl hb
            · exact .inr (.inl (by
                by_contra hv
                exact h ⟨hb, hv⟩))
          · exact h3 x hx

/-- Invariant of the backward search. -/
structure SInv (g : Graph) (b : Nat) (D : Finset Nat) (vis q : List Nat) : Prop where
  chain : ∀ x, x ∈ vis ∨ x ∈ q → Chain g b D x
  start : b ∈ vis ∨ b ∈ q
  closed : ∀ x ∈ vis, ∀ p ∈ g.prev x, p ≠ b → p ∉ D ∧ (p ∈ vis ∨ p ∈ q)

theorem chain_entry_free {g : Graph} {b : Nat} {D : Finset Nat} {vis : List Nat}
    (I : SInv g b D vis []) (he : g.entry ∈ D) (hbe : b ≠ g.entry) {r : List Nat}
    (hr : Walk g r b) : False := by
  -- shorten the walk so that `b` occurs only at its end
  have key : ∀ n (r : List Nat) (x : Nat), r.length ≤ n → Walk g r x → x ∈ vis → False := by
    intro n
    induction n with
    | zero =>
      intro r x hl hw _
      cases hw <;> simp at hl
    | succ n ih =>
      intro r x hl hw hx
      cases hw with
      | start =>
        cases I.chain _ (.inl hx) with
        | base => exact hbe rfl
        | step _ _ _ h => exact h he
      | @step r p _ hw hp =>
        have hl' : r.length ≤ n := by simpa using hl
        by_cases hpb : p = b
        · subst hpb
          exact ih r p hl' hw (by
            rcases I.start with h | h
            · exact h
            · cases h)
        · rcases (I.closed x hx p hp hpb).2 with h | h
          · exact ih r p hl' hw h
          · cases h
  exact key r.length r b (Nat.le_refl _) hr (by
    rcases I.start with h | h
    · exact h
    · cases h)

/-- One round of the search keeps the invariant. -/
theorem sinv_step {g : Graph} {b x : Nat} {D : Finset Nat} {vis q add : List Nat}
    (I : SInv g b D vis (x :: q))
    (h2 : ∀ p ∈ add, p ∈ g.prev x ∧ p ≠ b ∧ p ∉ D ∧ p ∉ vis ++ [x])
    (h3 : ∀ p ∈ g.prev x, p = b ∨ p ∈ vis ++ [x] ∨ p ∈ add) :
    SInv g b D (vis ++ [x]) (q ++ add) := by
  have hx : Chain g b D x := I.chain x (.inr (by simp))
  have hmem : ∀ y, y ∈ vis ∨ y ∈ x :: q → y ∈ vis ++ [x] ∨ y ∈ q ++ add := by
    intro y hy
    rcases hy with hy | hy
    · exact .inl (by simp [hy])
    · rcases List.mem_cons.1 hy with rfl | hy
      · exact .inl (by simp)
      · exact .inr (by simp [hy])
  refine ⟨fun y hy => ?_, hmem b I.start, fun y hy p hp hpb => ?_⟩
  · rcases hy with hy | hy
    · rcases List.mem_append.1 hy with hy | hy
      · exact I.chain y (.inl hy)
      · rw [List.mem_singleton.1 hy]; exact hx
    · rcases List.mem_append.1 hy with hy | hy
      · exact I.chain y (.inr (by simp [hy]))
      · obtain ⟨a, b', c, -⟩ := h2 y hy
        exact .step hx a b' c
  · rcases List.mem_append.1 hy with hy | hy
    · obtain ⟨a, c⟩ := I.closed y hy p hp hpb
      exact ⟨a, hmem p c⟩
    · rw [List.mem_singleton.1 hy] at hp
      rcases h3 p hp with h | h | h
      · exact absurd h hpb
      · refine ⟨?_, .inl h⟩
        have hc : Chain g b D p := by
          rcases List.mem_append.1 h with h | h
          · exact I.chain p (.inl h)
          · rw [List.mem_singleton.1 h]; exact hx
        cases hc with
        | base => exact absurd rfl hpb
        | step _ _ _ h => exact h
      · exact ⟨(h2 p h).2.2.1, .inr (by simp [h])⟩

/-- Blocks of a finite universe `U` not yet visited. -/
def unvisited (U : Finset Nat) (vis : List Nat) : Nat := (U.filter (· ∉ vis)).card

/-- Queue entries that have been visited already. -/
def stale (vis q : List Nat) : Nat := (q.filter (· ∈ vis)).length

theorem idomLoop_result {g : Graph} {b : Nat} {D : Finset Nat}
    (hD : ∀ d, d ∈ D ↔ Dominates g d b) (hreach : Reachable g b) (hbe : b ≠ g.entry)
    (he : g.entry ∈ D) (U : Finset Nat) (hU : ∀ x, ∀ p ∈ g.prev x, p ∈ U) (hbU : b ∈ U) :
    ∀ (u k : Nat) (vis q : List Nat), SInv g b D vis q → (∀ x ∈ q, x ∈ U) →
      unvisited U vis ≤ u → stale vis q ≤ k →
      ∃ N, ∀ fuel ≥ N, ∃ i, idomLoop g b D fuel vis q = some (some i) ∧ IsIdom g i b := by
  intro u
  induction u using Nat.strongRecOn with
  | _ u ihu =>
  intro k
  induction k using Nat.strongRecOn with
  | _ k ihk =>
  intro vis q I hq hun hst
  cases q with
  | nil =>
    obtain ⟨r, hr⟩ := hreach
    exact (chain_entry_free I he hbe hr).elim
  | cons x q =>
    have hxc : Chain g b D x := I.chain x (.inr (by simp))
    rcases idomScan_spec b D (vis ++ [x]) (g.prev x) q with ⟨p, hp, h1, h2, h3⟩ | ⟨add, h1, h2, h3⟩
    · refine ⟨1, fun fuel hf => ⟨p, ?_, found_isIdom hD hxc hp h2 h3⟩⟩
      obtain ⟨f, rfl⟩ : ∃ f, fuel = f + 1 := ⟨fuel - 1, by omega⟩
      unfold idomLoop; rw [h1]
    · have I' := sinv_step I h2 h3
      have hq' : ∀ y ∈ q ++ add, y ∈ U := by
        intro y hy
        rcases List.mem_append.1 hy with hy | hy
        · exact hq y (by simp [hy])
        · exact hU x y (h2 y hy).1
      have hrec : ∃ N, ∀ fuel ≥ N, ∃ i,
          idomLoop g b D fuel (vis ++ [x]) (q ++ add) = some (some i) ∧ IsIdom g i b := by
        by_cases hxv : x ∈ vis
        · -- a stale entry: the visited set is unchanged and one stale entry is gone
          have e1 : unvisited U (vis ++ [x]) = unvisited U vis := by
            unfold unvisited
            congr 1
            ext y
            simp only [Finset.mem_filter, List.mem_append, List.mem_singleton]
            constructor
            · rintro ⟨a, c⟩; exact ⟨a, fun h => c (.inl h)⟩
            · rintro ⟨a, c⟩
              refine ⟨a, fun h => ?_⟩
              rcases h with h | h
              · exact c h
              · exact c (h ▸ hxv)
          have e2 : stale (vis ++ [x]) (q ++ add) < stale vis (x :: q) := by
            unfold stale
            rw [List.filter_append, List.length_append, List.filter_cons_of_pos (by simpa using hxv)]
            have : add.filter (· ∈ vis ++ [x]) = [] := by
              rw [List.filter_eq_nil_iff]
              intro y hy
              simpa using (h2 y hy).2.2.2
            rw [this]
            have : q.filter (· ∈ vis ++ [x]) = q.filter (· ∈ vis) := by
              apply List.filter_congr
              intro y _
              simp only [List.mem_append, List.mem_singleton, decide_eq_decide]
              exact ⟨fun h => h.elim id fun h => h ▸ hxv, .inl⟩
            rw [this]
            simp
          exact ihk _ (Nat.lt_of_lt_of_le e2 hst) _ _ I' hq' (by omega) (Nat.le_refl _)
        · have e1 : unvisited U (vis ++ [x]) < unvisited U vis := by
            unfold unvisited
            refine Finset.card_lt_card ⟨?_, fun hsub => ?_⟩
            · intro y hy
              simp only [Finset.mem_filter, List.mem_append, not_or] at hy ⊢
              exact ⟨hy.1, hy.2.1⟩
            · have hxm : x ∈ U.filter (· ∉ vis) :=
                Finset.mem_filter.2 ⟨hq x (by simp), hxv⟩
              have := hsub hxm
              simp at this
          exact ihu _ (Nat.lt_of_lt_of_le e1 hun) _ _ _ I' hq' (Nat.le_refl _) (Nat.le_refl _)
      obtain ⟨N, hN⟩ := hrec
      refine ⟨N + 1, fun fuel hf => ?_⟩
      obtain ⟨f, rfl⟩ : ∃ f, fuel = f + 1 := ⟨fuel - 1, by omega⟩
      obtain ⟨i, hi, hi'⟩ := hN f (by omega)
      refine ⟨i, ?_, hi'⟩
      unfold idomLoop
      rw [h1]
      exact hi

/-- **C39, immediate dominators** (on the graphs of `dom_exact_partial`, with
finitely many links).  For every block the backward search stops and the block
it returns is the immediate dominator. -/
theorem idom_exact_partial (g : Graph) (he : g.entry ∉ g.blocks) (hg : Good g) (dom : Doms)
    (h : fillDominates g = some dom) (U : Finset Nat) (hU : ∀ x, ∀ p ∈ g.prev x, p ∈ U)
    (b : Nat) (hb : b ∈ g.blocks) :
    ∃ N, ∀ fuel ≥ N, ∃ i, findIdom g dom fuel b = some (some i) ∧ IsIdom g i b := by
  have hD := dom_exact_partial g he hg dom h b (.inr hb)
  have hbe : b ≠ g.entry := fun h => he (h ▸ hb)
  have hent : g.entry ∈ dom b := (hD _).2 (entry_dominates g b)
  exact idomLoop_result hD (hg.live b hb) hbe hent (insert b U)
    (fun x p hp => Finset.mem_insert_of_mem (hU x p hp)) (by simp) _ _ [] [b]
    ⟨fun x hx => by
      rcases hx with hx | hx
      · cases hx
      · rw [List.mem_singleton.1 hx]; exact .base,
     .inr (by simp), fun x hx => by cases hx⟩ (by simp) (Nat.le_refl _) (Nat.le_refl _)

/-! ### Dominance as an order -/

theorem walk_suffix {g : Graph} {r : List Nat} {b d : Nat} (hw : Walk g r b) (hd : d ∈ r) :
    ∃ s r', r = s ++ r' ∧ Walk g r' d := by
  induction hw with
  | start => rw [List.mem_singleton.1 hd]; exact ⟨[], _, rfl, .start⟩
  | @step r p b hw hp ih =>
    rcases List.mem_cons.1 hd with rfl | hd
    · exact ⟨[], _, rfl, .step hw hp⟩
    · obtain ⟨s, r', rfl, h⟩ := ih hd
      exact ⟨b :: s, r', rfl, h⟩

theorem walk_head {g : Graph} {r : List Nat} {b : Nat} (hw : Walk g r b) : b ∈ r := by
  cases hw <;> simp

theorem dominates_refl (g : Graph) (b : Nat) : Dominates g b b := fun _ hr => walk_head hr

theorem dominates_trans {g : Graph} {a b c : Nat} (h1 : Dominates g a b) (h2 : Dominates g b c) :
    Dominates g a c := by
  intro r hr
  obtain ⟨s, r', rfl, h⟩ := walk_suffix hr (h2 r hr)
  exact List.mem_append_right _ (h1 r' h)

/-- A reachable block is reached by a run that meets it only at the end. -/
theorem walk_fresh {g : Graph} {b : Nat} (h : Reachable g b) (hb : b ≠ g.entry) :
    ∃ r p, Walk g r p ∧ p ∈ g.prev b ∧ b ∉ r := by
  obtain ⟨r, hr⟩ := h
  have key : ∀ n (r : List Nat), r.length ≤ n → Walk g r b →
      ∃ r p, Walk g r p ∧ p ∈ g.prev b ∧ b ∉ r := by
    intro n
    induction n with
    | zero => intro r hl hw; cases hw <;> simp at hl
    | succ n ih =>
      intro r hl hw
      cases hw with
      | start => exact absurd rfl hb
      | @step r p _ hw hp =>
        by_cases hm : b ∈ r
        · obtain ⟨s, r', rfl, h⟩ := walk_suffix hw hm
          exact ih r' (by simp at hl; omega) h
        · exact ⟨r, p, hw, hp, hm⟩
  exact key _ r (Nat.le_refl _) hr

theorem dominates_antisymm {g : Graph} {a b : Nat} (h1 : Dominates g a b) (h2 : Dominates g b a)
    (hr : Reachable g b) : a = b := by
  by_cases hbe : b = g.entry
  · subst hbe; exact dominates_entry h1
  · obtain ⟨r, p, hw, hp, hm⟩ := walk_fresh hr hbe
    rcases List.mem_cons.1 (h1 _ (.step hw hp)) with h | h
    · exact h
    · obtain ⟨s, r', rfl, h'⟩ := walk_suffix hw h
      exact absurd (List.mem_append_right s (h2 r' h')) hm

/-! ### The blocks the frontier pass visits -/

theorem bfsPush_spec (closed cs q : List Nat) :
    ∃ add, bfsPush closed cs q = q ++ add ∧ (∀ c ∈ add, c ∈ cs ∧ c ∉ closed) ∧
      ∀ c ∈ cs, c ∈ closed ∨ c ∈ q ++ add := by
  induction cs generalizing q with
  | nil => exact ⟨[], by simp [bfsPush], by simp, by simp⟩
  | cons c cs ih =>
    unfold bfsPush
    split
    · rename_i h
      obtain ⟨add, h1, h2, h3⟩ := ih (q ++ [c])
      refine ⟨c :: add, by rw [h1]; simp, fun x hx => ?_, fun x hx => ?_⟩
      · rcases List.mem_cons.1 hx with rfl | hx
        · exact ⟨by simp, h.2⟩
        · exact ⟨by simp [(h2 x hx).1], (h2 x hx).2⟩
      · rcases List.mem_cons.1 hx with rfl | hx
        · exact .inr (by simp)
        · exact (h3 x hx).imp_right (by simp)
    · rename_i h
      obtain ⟨add, h1, h2, h3⟩ := ih q
      refine ⟨add, h1, fun x hx => ⟨by simp [(h2 x hx).1], (h2 x hx).2⟩, fun x hx => ?_⟩
      rcases List.mem_cons.1 hx with rfl | hx
      · by_cases hc : x ∈ closed
        · exact .inl hc
        · by_cases hq : x ∈ q
          · exact .inr (by simp [hq])
          · exact absurd ⟨hq, hc⟩ h
      · exact h3 x hx

theorem bfs_result {g : Graph} (hconv : ∀ b c, c ∈ g.next b ↔ b ∈ g.prev c) (U : Finset Nat)
    (hU : ∀ x, ∀ c ∈ g.next x, c ∈ U) :
    ∀ (u k : Nat) (closed q : List Nat),
      (∀ x ∈ q, Reachable g x) → (∀ x ∈ q, x ∈ U) →
      (∀ x ∈ closed, ∀ c ∈ g.next x, c ∈ closed ∨ c ∈ q) →
      unvisited U closed ≤ u → stale closed q ≤ k →
      ∃ N, ∀ fuel ≥ N, ∃ seen, bfs g fuel closed q = some seen ∧ (∀ x ∈ seen, Reachable g x) ∧
        (∀ x ∈ q, x ∈ seen) ∧
        (∀ x, x ∈ closed ∨ x ∈ seen → ∀ c ∈ g.next x, c ∈ closed ∨ c ∈ seen) := by
  intro u
  induction u using Nat.strongRecOn with
  | _ u ihu =>
  intro k
  induction k using Nat.strongRecOn with
  | _ k ihk =>
  intro closed q hr hq hcl hun hst
  cases q with
  | nil =>
    refine ⟨1, fun fuel hf => ⟨[], ?_, by simp, by simp, fun x hx c hc => ?_⟩⟩
    · obtain ⟨f, rfl⟩ : ∃ f, fuel = f + 1 := ⟨fuel - 1, by omega⟩
      rfl
    · rcases hx with hx | hx
      · exact hcl x hx c hc
      · cases hx
  | cons x q =>
    obtain ⟨add, h1, h2, h3⟩ := bfsPush_spec closed (g.next x) q
    have hxr := hr x (by simp)
    have hr' : ∀ y ∈ q ++ add, Reachable g y := by
      intro y hy
      rcases List.mem_append.1 hy with hy | hy
      · exact hr y (by simp [hy])
      · obtain ⟨w, hw⟩ := hxr
        exact ⟨_, .step hw ((hconv x y).1 (h2 y hy).1)⟩
    have hq' : ∀ y ∈ q ++ add, y ∈ U := by
      intro y hy
      rcases List.mem_append.1 hy with hy | hy
      · exact hq y (by simp [hy])
      · exact hU x y (h2 y hy).1
    have hcl' : ∀ y ∈ x :: closed, ∀ c ∈ g.next y, c ∈ x :: closed ∨ c ∈ q ++ add := by
      intro y hy c hc
      rcases List.mem_cons.1 hy with rfl | hy
      · exact (h3 c hc).imp_left (by simp +contextual)
      · rcases hcl y hy c hc with h | h
        · exact .inl (by simp [h])
        · rcases List.mem_cons.1 h with rfl | h
          · exact .inl (by simp)
          · exact .inr (by simp [h])
    have hrec : ∃ N, ∀ fuel ≥ N, ∃ seen, bfs g fuel (x :: closed) (q ++ add) = some seen ∧
        (∀ y ∈ seen, Reachable g y) ∧ (∀ y ∈ q ++ add, y ∈ seen) ∧
        (∀ y, y ∈ x :: closed ∨ y ∈ seen → ∀ c ∈ g.next y, c ∈ x :: closed ∨ c ∈ seen) := by
      by_cases hxv : x ∈ closed
      · have e1 : unvisited U (x :: closed) = unvisited U closed := by
          unfold unvisited
          congr 1
          ext y
          simp only [Finset.mem_filter, List.mem_cons, not_or]
          exact ⟨fun ⟨a, _, c⟩ => ⟨a, c⟩, fun ⟨a, c⟩ => ⟨a, fun h => c (h ▸ hxv), c⟩⟩
        have e3 : ∀ y, y ∈ x :: closed ↔ y ∈ closed := by
          intro y
          rw [List.mem_cons]
          exact ⟨fun h => h.elim (fun h => h ▸ hxv) id, .inr⟩
        have e2 : stale (x :: closed) (q ++ add) < stale closed (x :: q) := by
          unfold stale
          rw [List.filter_append, List.length_append, List.filter_cons_of_pos (by simpa using hxv)]
          have : add.filter (· ∈ x :: closed) = [] := by
            rw [List.filter_eq_nil_iff]
            intro y hy
            rw [decide_eq_true_iff, e3]
            exact (h2 y hy).2
          rw [this]
          have : q.filter (· ∈ x :: closed) = q.filter (· ∈ closed) := by
            apply List.filter_congr
            intro y _
            rw [decide_eq_decide, e3]
          rw [this]
          simp
        exact ihk _ (Nat.lt_of_lt_of_le e2 hst) _ _ hr' hq' hcl' (by omega) (Nat.le_refl _)
      · have e1 : unvisited U (x :: closed) < unvisited U closed := by
          unfold unvisited
          refine Finset.card_lt_card ⟨?_, fun hsub => ?_⟩
          · intro y hy
            simp only [Finset.mem_filter, List.mem_cons, not_or] at hy ⊢
            exact ⟨hy.1, hy.2.2⟩
          · have hxm : x ∈ U.filter (· ∉ closed) :=
              Finset.mem_filter.2 ⟨hq x (by simp), hxv⟩
            have := hsub hxm
            simp at this
        exact ihu _ (Nat.lt_of_lt_of_le e1 hun) _ _ _ hr' hq' hcl' (Nat.le_refl _) (Nat.le_refl _)
    obtain ⟨N, hN⟩ := hrec
    refine ⟨N + 1, fun fuel hf => ?_⟩
    obtain ⟨f, rfl⟩ : ∃ f, fuel = f + 1 := ⟨fuel - 1, by omega⟩
    obtain ⟨seen, s1, s2, s3, s4⟩ := hN f (by omega)
    refine ⟨x :: seen, ?_, ?_, ?_, ?_⟩
    · unfold bfs; rw [h1, s1]; rfl
    · intro y hy
      rcases List.mem_cons.1 hy with rfl | hy
      · exact hxr
      · exact s2 y hy
    · intro y hy
      rcases List.mem_cons.1 hy with rfl | hy
      · simp
      · exact List.mem_cons_of_mem _ (s3 y (by simp [hy]))
    · intro y hy c hc
      have : y ∈ x :: closed ∨ y ∈ seen := by
        rcases hy with hy | hy
        · exact .inl (by simp [hy])
        · rcases List.mem_cons.1 hy with rfl | hy
          · exact .inl (by simp)
          · exact .inr hy
      rcases s4 y this c hc with h | h
      · rcases List.mem_cons.1 h with rfl | h
        · exact .inr (by simp)
        · exact .inl h
      · exact .inr (by simp [h])

/-- The breadth-first walk of `find_blocks_involved` stops, and selects
exactly the reachable blocks (with the label added if it was missing). -/
theorem involved_exact (g : Graph) (hconv : ∀ b c, c ∈ g.next b ↔ b ∈ g.prev c)
    (U : Finset Nat) (hU : ∀ x, ∀ c ∈ g.next x, c ∈ U) (l : List Nat) :
    ∃ N, ∀ fuel ≥ N, ∃ inv, involved g fuel l = some inv ∧
      ∀ b, b ∈ inv ↔ (b = g.entry ∨ b ∈ l) ∧ Reachable g b := by
  obtain ⟨N, hN⟩ := bfs_result hconv (insert g.entry U)
    (fun x c hc => Finset.mem_insert_of_mem (hU x c hc)) _ _ [] [g.entry]
    (by simp only [List.mem_singleton, forall_eq]; exact ⟨_, .start⟩) (by simp) (by simp)
    (Nat.le_refl _) (Nat.le_refl _)
  refine ⟨N, fun fuel hf => ?_⟩
  obtain ⟨seen, h1, h2, h3, h4⟩ := hN fuel hf
  refine ⟨_, by unfold involved; rw [h1]; rfl, fun b => ?_⟩
  have hseen : b ∈ seen ↔ Reachable g b := by
    refine ⟨h2 b, fun ⟨r, hr⟩ => ?_⟩
    induction hr with
    | start => exact h3 _ (by simp)
    | @step r p b hw hp ih =>
      rcases h4 p (.inr (ih ⟨r, hw⟩)) b ((hconv p b).2 hp) with h | h
      · cases h
      · exact h
  rw [List.mem_filter, decide_eq_true_iff, hseen]
  refine and_congr_left fun _ => ?_
  split
  · rename_i he
    exact ⟨.inr, fun h => h.elim (fun h => h ▸ he) id⟩
  · simp [or_comm]

/-! ### Dominance frontiers -/

/-- Reading of the frontier lists: `y` was appended to the list of `x`. -/
theorem runner_result {g : Graph} {dom : Doms} {idom : Nat → Option Nat} (he : g.entry ∉ g.blocks)
    (hg : Good g) (hdom : ∀ b, b = g.entry ∨ b ∈ g.blocks → ∀ d, d ∈ dom b ↔ Dominates g d b)
    (hid : ∀ b ∈ g.blocks, ∃ i, idom b = some i ∧ IsIdom g i b)
    {nd i : Nat} (hnd : idom nd = some i) :
    ∀ (n r : Nat), (dom r).card ≤ n → (r = g.entry ∨ r ∈ g.blocks) → Dominates g i r →
      ∃ N, ∀ fuel ≥ N, ∀ df, ∃ df', runner idom nd fuel (some r) df = some df' ∧
        ∀ x z, z ∈ df' x ↔ z ∈ df x ∨ (z = nd ∧ Dominates g x r ∧ ¬ Dominates g x i) := by
  have hreach : ∀ b, b = g.entry ∨ b ∈ g.blocks → Reachable g b := by
    rintro b (rfl | hb)
    · exact ⟨_, .start⟩
    · exact hg.live b hb
  have hmem : ∀ b ∈ g.blocks, ∀ i, IsIdom g i b → i = g.entry ∨ i ∈ g.blocks := by
    intro b hb i hi
    obtain ⟨r, hr⟩ := hg.live b hb
    have := walk_all hg hr (.inr hb) i (hi.2.1 r hr)
    simpa [Graph.all] using this
  intro n
  induction n with
  | zero =>
    intro r hc hr _
    have : r ∈ dom r := (hdom r hr r).2 (dominates_refl g r)
    have := Finset.card_pos.2 ⟨r, this⟩
    omega
  | succ n ih =>
    intro r hc hr hir
    by_cases hri : r = i
    · subst hri
      refine ⟨1, fun fuel hf df => ⟨df, ?_, fun x z => ?_⟩⟩
      · obtain ⟨f, rfl⟩ : ∃ f, fuel = f + 1 := ⟨fuel - 1, by omega⟩
        unfold runner; rw [if_pos hnd.symm]
      · constructor
        · exact .inl
        · rintro (h | ⟨-, h1, h2⟩)
          · exact h
          · exact absurd h1 h2
    · have hrb : r ∈ g.blocks := by
        rcases hr with rfl | hr
        · exact absurd (dominates_entry hir).symm hri
        · exact hr
      obtain ⟨j, hj, hjd⟩ := hid r hrb
      have hja := hmem r hrb j hjd
      have hij : Dominates g i j := hjd.2.2 i (Ne.symm hri) hir
      have hcard : (dom j).card < (dom r).card := by
        refine Finset.card_lt_card ⟨fun d hd => ?_, fun hsub => ?_⟩
        · rw [hdom r hr]; exact dominates_trans ((hdom j hja d).1 hd) hjd.2.1
        · have := (hdom j hja r).1 (hsub ((hdom r hr r).2 (dominates_refl g r)))
          exact hjd.1 (dominates_antisymm hjd.2.1 this (hreach r hr))
      obtain ⟨N, hN⟩ := ih j (by omega) hja hij
      refine ⟨N + 1, fun fuel hf df => ?_⟩
      obtain ⟨f, rfl⟩ : ∃ f, fuel = f + 1 := ⟨fuel - 1, by omega⟩
      obtain ⟨df', h1, h2⟩ := hN f (by omega) (put df r (df r ++ [nd]))
      refine ⟨df', ?_, fun x z => ?_⟩
      · unfold runner
        rw [if_neg (by rw [hnd]; simpa using hri), hj]
        exact h1
      · rw [h2]
        have hxr : Dominates g x r ↔ x = r ∨ Dominates g x j := by
          constructor
          · intro h
            by_cases hx : x = r
            · exact .inl hx
            · exact .inr (hjd.2.2 x hx h)
          · rintro (rfl | h)
            · exact dominates_refl g x
            · exact dominates_trans h hjd.2.1
        by_cases hx : x = r
        · subst hx
          have hxi : ¬ Dominates g x i := fun h =>
            hri (dominates_antisymm hir h (hreach x hr)).symm
          rw [put_self, List.mem_append, List.mem_singleton]
          constructor
          · rintro ((h | h) | ⟨h1, -, -⟩)
            · exact .inl h
            · exact .inr ⟨h, dominates_refl g x, hxi⟩
            · exact .inr ⟨h1, dominates_refl g x, hxi⟩
          · rintro (h | ⟨h, -, -⟩)
            · exact .inl (.inl h)
            · exact .inl (.inr h)
        · rw [put_ne _ _ hx, hxr]
          simp [hx]

theorem preds_result {g : Graph} {idom : Nat → Option Nat} {inv : List Nat} {nd i : Nat}
    (hrun : ∀ r, r ∈ inv → Dominates g i r →
      ∃ N, ∀ fuel ≥ N, ∀ df, ∃ df', runner idom nd fuel (some r) df = some df' ∧
        ∀ x z, z ∈ df' x ↔ z ∈ df x ∨ (z = nd ∧ Dominates g x r ∧ ¬ Dominates g x i))
    (ps : List Nat) (hps : ∀ p ∈ ps, p ∈ inv ∧ Dominates g i p) :
    ∃ N, ∀ fuel ≥ N, ∀ df, ∃ df', frontierPreds idom inv fuel nd ps df = some df' ∧
      ∀ x z, z ∈ df' x ↔
        z ∈ df x ∨ (z = nd ∧ (∃ p ∈ ps, Dominates g x p) ∧ ¬ Dominates g x i) := by
  induction ps with
  | nil => exact ⟨0, fun fuel _ df => ⟨df, rfl, by simp⟩⟩
  | cons p ps ih =>
    obtain ⟨hp1, hp2⟩ := hps p (by simp)
    obtain ⟨N1, h1⟩ := hrun p hp1 hp2
    obtain ⟨N2, h2⟩ := ih (fun q hq => hps q (by simp [hq]))
    refine ⟨max N1 N2, fun fuel hf df => ?_⟩
    obtain ⟨df1, e1, m1⟩ := h1 fuel (by omega) df
    obtain ⟨df2, e2, m2⟩ := h2 fuel (by omega) df1
    refine ⟨df2, ?_, fun x z => ?_⟩
    · unfold frontierPreds
      rw [if_pos hp1, e1]
      exact e2
    · rw [m2, m1]
      constructor
      · rintro ((h | ⟨a, b, c⟩) | ⟨a, ⟨q, hq, b⟩, c⟩)
        · exact .inl h
        · exact .inr ⟨a, ⟨p, by simp, b⟩, c⟩
        · exact .inr ⟨a, ⟨q, by simp [hq], b⟩, c⟩
      · rintro (h | ⟨a, ⟨q, hq, b⟩, c⟩)
        · exact .inl (.inl h)
        · rcases List.mem_cons.1 hq with rfl | hq
          · exact .inl (.inr ⟨a, b, c⟩)
          · exact .inr ⟨a, ⟨q, hq, b⟩, c⟩

/-- With one predecessor there is no frontier entry to make. -/
theorem single_pred {g : Graph} {y x p : Nat} (hy : Reachable g y) (hye : y ≠ g.entry)
    (hone : ∀ q ∈ g.prev y, q = p) (hx : Dominates g x p) : x ≠ y ∧ Dominates g x y := by
  constructor
  · rintro rfl
    obtain ⟨r, q, hw, hq, hm⟩ := walk_fresh hy hye
    have := hone q hq
    subst this
    exact hm (hx r hw)
  · intro r hr
    cases hr with
    | start => exact absurd rfl hye
    | @step r q _ hw hq =>
      have := hone q hq
      subst this
      exact List.mem_cons_of_mem _ (hx r hw)

/-- **C39, dominance frontiers** (on the graphs of `dom_exact_partial`).  With
the immediate dominators found above and the blocks selected by
`find_blocks_involved`, the pass stops, and `y` is put in the frontier list of
`x` exactly when `x` dominates a predecessor of `y` without strictly
dominating `y`. -/
theorem frontier_exact_partial (g : Graph) (he : g.entry ∉ g.blocks) (hg : Good g) (dom : Doms)
    (h : fillDominates g = some dom) (idom : Nat → Option Nat)
    (hid : ∀ b ∈ g.blocks, ∃ i, idom b = some i ∧ IsIdom g i b)
    (inv : List Nat) (hinv : ∀ b, b ∈ inv ↔ b = g.entry ∨ b ∈ g.blocks) :
    ∃ N, ∀ fuel ≥ N, ∃ df, frontier g idom inv fuel inv (fun _ => []) = some df ∧
      ∀ x y, y ∈ df x ↔ y ∈ inv ∧ (∃ p ∈ g.prev y, Dominates g x p) ∧
        ¬ (x ≠ y ∧ Dominates g x y) := by
  have hdom := fun b hb => dom_exact_partial g he hg dom h b hb
  have step : ∀ (l : List Nat), (∀ b ∈ l, b ∈ inv) → ∃ N, ∀ fuel ≥ N, ∀ df, ∃ df',
      frontier g idom inv fuel l df = some df' ∧ ∀ x y, y ∈ df' x ↔ y ∈ df x ∨
        (y ∈ l ∧ (∃ p ∈ g.prev y, Dominates g x p) ∧ ¬ (x ≠ y ∧ Dominates g x y)) := by
    intro l
    induction l with
    | nil => exact fun _ => ⟨0, fun fuel _ df => ⟨df, rfl, by simp⟩⟩
    | cons nd l ih =>
      intro hl
      obtain ⟨N2, h2⟩ := ih (fun b hb => hl b (by simp [hb]))
      have hndi := hl nd (by simp)
      by_cases hlen : (g.prev nd).length > 1
      · have hne : nd ≠ g.entry := by
          rintro rfl; rw [hg.root] at hlen; simp at hlen
        have hndb : nd ∈ g.blocks := ((hinv nd).1 hndi).resolve_left hne
        obtain ⟨i, hi, hid'⟩ := hid nd hndb
        have hprev : ∀ p ∈ g.prev nd, p ∈ inv ∧ Dominates g i p := fun p hp =>
          ⟨(hinv p).2 (hg.covered nd hndb p hp), dominates_pred hid'.2.1 hp hid'.1⟩
        obtain ⟨N1, h1⟩ := preds_result (inv := inv) (fun r hr hir =>
          runner_result he hg hdom hid hi (dom r).card r (Nat.le_refl _) ((hinv r).1 hr) hir)
          (g.prev nd) hprev
        refine ⟨max N1 N2, fun fuel hf df => ?_⟩
        obtain ⟨df1, e1, m1⟩ := h1 fuel (by omega) df
        obtain ⟨df2, e2, m2⟩ := h2 fuel (by omega) df1
        refine ⟨df2, ?_, fun x y => ?_⟩
        · unfold frontier
          rw [if_pos hlen, e1]
          exact e2
        · have hstrict : ∀ x, ¬ Dominates g x i ↔ ¬ (x ≠ nd ∧ Dominates g x nd) := by
            intro x
            refine not_congr ⟨fun hx => ⟨?_, dominates_trans hx hid'.2.1⟩, fun hx => hid'.2.2 x hx.1 hx.2⟩
            rintro rfl
            exact hid'.1 (dominates_antisymm hid'.2.1 hx (hg.live x hndb))
          rw [m2, m1, List.mem_cons]
          constructor
          · rintro ((h | ⟨rfl, b, c⟩) | ⟨a, b, c⟩)
            · exact .inl h
            · exact .inr ⟨.inl rfl, b, (hstrict x).1 c⟩
            · exact .inr ⟨.inr a, b, c⟩
          · rintro (h | ⟨rfl | a, b, c⟩)
            · exact .inl (.inl h)
            · exact .inl (.inr ⟨rfl, b, (hstrict x).2 c⟩)
            · exact .inr ⟨a, b, c⟩
      · refine ⟨N2, fun fuel hf df => ?_⟩
        obtain ⟨df2, e2, m2⟩ := h2 fuel hf df
        refine ⟨df2, ?_, fun x y => ?_⟩
        · unfold frontier
          rw [if_neg hlen]
          exact e2
        · rw [m2, List.mem_cons]
          constructor
          · exact fun h => h.imp_right fun ⟨a, b⟩ => ⟨.inr a, b⟩
          · rintro (h | ⟨rfl | a, b, c⟩)
            · exact .inl h
            · exfalso
              obtain ⟨p, hp, hxp⟩ := b
              have hye : y ≠ g.entry := by
                rintro rfl; rw [hg.root] at hp; cases hp
              have hyb : y ∈ g.blocks := ((hinv y).1 hndi).resolve_left hye
              have hone : ∀ q ∈ g.prev y, q = p := by
                intro q hq
                match hpl : g.prev y with
                | [] => rw [hpl] at hp; cases hp
                | [a] =>
                  rw [hpl] at hp hq
                  rw [List.mem_singleton.1 hp, List.mem_singleton.1 hq]
                | a :: b :: t => rw [hpl] at hlen; simp at hlen
              exact c (single_pred (hg.live y hyb) hye hone hxp)
            · exact .inr ⟨a, b, c⟩
  obtain ⟨N, hN⟩ := step inv (fun _ h => h)
  refine ⟨N, fun fuel hf => ?_⟩
  obtain ⟨df, e, m⟩ := hN fuel hf (fun _ => [])
  exact ⟨df, e, fun x y => by rw [m]; simp⟩

/-! ### Concrete cases -/

/-- `def f: if c: a else: b; while d: e; return`: 0 the label, 1 the `if` with
the preceding code, 2 and 3 its branches, 4 the loop header (alone on its
line, so registered), 5 the loop body, 6 the rest. -/
def demo : Graph where
  entry := 0
  blocks := [1, 2, 3, 4, 5, 6]
  next := fun
    | 0 => [1]
    | 1 => [2, 3]
    | 2 => [4]
    | 3 => [4]
    | 4 => [5, 6]
    | 5 => [4]
    | _ => []
  prev := fun
    | 1 => [0]
    | 2 => [1]
    | 3 => [1]
    | 4 => [2, 3, 5]
    | 5 => [4]
    | 6 => [4]
    | _ => []

example : (fillDominates demo).map (fun d => (List.range 7).map d)
    = some [{0}, {0, 1}, {0, 1, 2}, {0, 1, 3}, {0, 1, 4}, {0, 1, 4, 5}, {0, 1, 4, 6}] := by
  decide +kernel

example : (fillDominates demo).map (fun d => (List.range 7).map (findIdom demo d 20))
    = some [some none, some (some 0), some (some 1), some (some 1), some (some 1),
        some (some 4), some (some 4)] := by
  decide +kernel

def demoIdom : Nat → Option Nat
  | 1 => some 0
  | 2 => some 1
  | 3 => some 1
  | 4 => some 1
  | 5 => some 4
  | 6 => some 4
  | _ => none

example : (frontier demo demoIdom (List.range 7) 10 (List.range 7) (fun _ => [])).map
      (fun df => (List.range 7).map df) = some [[], [], [4], [4], [4], [4], []] := by
  decide +kernel

example : involved demo 20 (List.range 9) = some [0, 1, 2, 3, 4, 5, 6] := by decide +kernel

theorem demo_good : Good demo := by
  have w0 : Walk demo [0] 0 := .start
  have w1 : Walk demo [1, 0] 1 := .step w0 (by decide)
  have w2 : Walk demo [2, 1, 0] 2 := .step w1 (by decide)
  have w3 : Walk demo [3, 1, 0] 3 := .step w1 (by decide)
  have w4 : Walk demo [4, 2, 1, 0] 4 := .step w2 (by decide)
  have w5 : Walk demo [5, 4, 2, 1, 0] 5 := .step w4 (by decide)
  have w6 : Walk demo [6, 4, 2, 1, 0] 6 := .step w4 (by decide)
  refine ⟨rfl, by decide, ?_⟩
  intro b hb
  have : b = 1 ∨ b = 2 ∨ b = 3 ∨ b = 4 ∨ b = 5 ∨ b = 6 := by simpa [demo] using hb
  rcases this with rfl | rfl | rfl | rfl | rfl | rfl
  exacts [⟨_, w1⟩, ⟨_, w2⟩, ⟨_, w3⟩, ⟨_, w4⟩, ⟨_, w5⟩, ⟨_, w6⟩]

end Verif.Dominators
