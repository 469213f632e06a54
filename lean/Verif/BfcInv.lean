/-
The invariant of the arena and the operations on bins.
-/
import Verif.Bfc
import Mathlib.Data.List.Perm.Basic
import Mathlib.Data.List.Chain
import Mathlib.Tactic.ByContra

namespace Verif.Bfc

@[simp] theorem ok_bind {α β : Type} (a : α) (f : α → Out β) : (Out.ok a >>= f) = f a := rfl
@[simp] theorem pure_ok {α : Type} (a : α) : (pure a : Out α) = .ok a := rfl

/-! ## Chains -/

/-- The chunks of a region: they follow each other in memory and in the links. -/
def Chain (cs : Nat → Chunk) : Nat → Option Nat → List Nat → Option Nat → Nat → Prop
  | p, _, [], _, e => p = e
  | p, pr, h :: hs, nx, e => (cs h).ptr = p ∧ (cs h).prev = pr ∧ (cs h).next = hs.head?.or nx ∧ 0 < (cs h).size ∧
      256 ∣ (cs h).size ∧ Chain cs (p + (cs h).size) (some h) hs nx e

/-- The same place, size and links. -/
def SameGeo (a b : Chunk) : Prop := a.ptr = b.ptr ∧ a.size = b.size ∧ a.prev = b.prev ∧ a.next = b.next

theorem Chain.congr {cs cs' : Nat → Chunk} : ∀ {hs p pr nx e}, Chain cs p pr hs nx e → (∀ h ∈ hs, SameGeo (cs h) (cs' h)) →
    Chain cs' p pr hs nx e := by
  intro hs
  induction hs with
  | nil => intro p pr nx e h _; exact h
  | cons h hs ih =>
    intro p pr nx e ⟨h1, h2, h3, h4, h5, h6⟩ hg
    obtain ⟨g1, g2, g3, g4⟩ := hg h (by simp)
    refine ⟨by rw [← g1, h1], by rw [← g3, h2], by rw [← g4, h3], by rw [← g2]; exact h4, by rw [← g2]; exact h5, ?_⟩
    rw [← g2]
    exact ih h6 (fun x hx => hg x (by simp [hx]))

theorem Chain.le {cs : Nat → Chunk} : ∀ {hs p pr nx e}, Chain cs p pr hs nx e → p ≤ e := by
  intro hs
  induction hs with
  | nil => intro p pr nx e h; exact Nat.le_of_eq h
  | cons h hs ih =>
    intro p pr nx e ⟨_, _, _, _, _, h6⟩
    have := ih h6
    omega

theorem Chain.range {cs : Nat → Chunk} : ∀ {hs p pr nx e}, Chain cs p pr hs nx e → ∀ h ∈ hs,
    p ≤ (cs h).ptr ∧ (cs h).ptr + (cs h).size ≤ e ∧ 0 < (cs h).size ∧ 256 ∣ (cs h).size ∧ 256 ∣ (cs h).ptr - p := by
  intro hs
  induction hs with
  | nil => intro p pr nx e _ h hm; simp at hm
  | cons k hs ih =>
    intro p pr nx e ⟨h1, _, _, h4, h5, h6⟩ h hm
    rcases List.mem_cons.1 hm with rfl | hm
    · have := h6.le
      refine ⟨by omega, by omega, h4, h5, ?_⟩
      rw [h1]; simp
    · obtain ⟨a, b, c, d, e'⟩ := ih h6 h hm
      refine ⟨by omega, b, c, d, ?_⟩
      have : (cs h).ptr - p = ((cs h).ptr - (p + (cs k).size)) + (cs k).size := by omega
      rw [this]
      exact Nat.dvd_add e' h5

theorem Chain.disjoint {cs : Nat → Chunk} : ∀ {hs p pr nx e}, Chain cs p pr hs nx e →
    hs.Pairwise fun a b => (cs a).ptr + (cs a).size ≤ (cs b).ptr := by
  intro hs
  induction hs with
  | nil => intro p pr nx e _; exact List.Pairwise.nil
  | cons k hs ih =>
    intro p pr nx e ⟨h1, _, _, _, _, h6⟩
    refine List.Pairwise.cons ?_ (ih h6)
    intro b hb
    have := h6.range b hb
    omega

/-- A chain in two parts. -/
theorem Chain.append {cs : Nat → Chunk} : ∀ {as bs : List Nat} {p pr nx e}, Chain cs p pr (as ++ bs) nx e ↔
    ∃ m, Chain cs p pr as (bs.head?.or nx) m ∧ Chain cs m (as.getLast?.or pr) bs nx e := by
  intro as
  induction as with
  | nil =>
    intro bs p pr nx e
    constructor
    · intro h; exact ⟨p, rfl, by simpa using h⟩
    · rintro ⟨m, h1, h2⟩
      obtain rfl : p = m := h1
      simpa using h2
  | cons a as ih =>
    intro bs p pr nx e
    have e1 : (a :: as).getLast?.or pr = as.getLast?.or (some a) := by
      cases as with
      | nil => simp
      | cons x xs => simp [List.getLast?_cons]
    have e2 : (as ++ bs).head?.or nx = as.head?.or (bs.head?.or nx) := by
      cases as <;> simp
    rw [e1]
    constructor
    · rintro ⟨h1, h2, h3, h4, h5, h6⟩
      obtain ⟨m, hm, hc⟩ := ih.1 h6
      exact ⟨m, ⟨h1, h2, by rw [h3]; exact e2, h4, h5, hm⟩, hc⟩
    · rintro ⟨m, ⟨h1, h2, h3, h4, h5, hm⟩, hc⟩
      exact ⟨h1, h2, by rw [h3]; exact e2.symm, h4, h5, ih.2 ⟨m, hm, hc⟩⟩

/-- A chain whose first chunk gets another predecessor. -/
theorem Chain.reprev {cs cs' : Nat → Chunk} {hs : List Nat} {p pr pr' nx e} (h : Chain cs p pr hs nx e)
    (hh : ∀ x, hs.head? = some x → (cs' x).ptr = (cs x).ptr ∧ (cs' x).size = (cs x).size ∧ (cs' x).next = (cs x).next ∧
      (cs' x).prev = pr')
    (ht : ∀ x ∈ hs.tail, SameGeo (cs x) (cs' x)) : Chain cs' p pr' hs nx e := by
  cases hs with
  | nil => exact h
  | cons a hs =>
    obtain ⟨h1, h2, h3, h4, h5, h6⟩ := h
    obtain ⟨g1, g2, g3, g4⟩ := hh a rfl
    refine ⟨by rw [g1, h1], g4, by rw [g3, h3], by rw [g2]; exact h4, by rw [g2]; exact h5, ?_⟩
    rw [g2]
    exact h6.congr (fun x hx => ht x hx)

/-! ## The invariant -/

/-- The regions, each with its chunks in order. -/
abbrev Ghost := List (Region × List Nat)

/-- All chunks of all regions. -/
def hsOf (G : Ghost) : List Nat := G.flatMap (·.2)

/-- The list of unused chunk records. -/
def FreeChain (cs : Nat → Chunk) : Option Nat → List Nat → Prop
  | f, [] => f = none
  | f, h :: l => f = some h ∧ FreeChain cs (cs h).next l

/-- A region and its chunks. -/
structure Geo (cs : Nat → Chunk) (g : Region × List Nat) : Prop where
  pos : 0 < g.1.base
  size : 0 < g.1.size
  top : g.1.base + g.1.size ≤ 2 ^ 62
  chain : Chain cs g.1.base none g.2 none (g.1.base + g.1.size)
  hset : ∀ h ∈ g.2, g.1.handles (((cs h).ptr - g.1.base) / 256) = some h
  hget : ∀ i h, g.1.handles i = some h → h ∈ g.2 ∧ (cs h).ptr = g.1.base + 256 * i

/-- The invariant. `X` are free chunks that are in no bin for the moment. -/
structure Inv (σ : Arena) (G : Ghost) (fl X : List Nat) : Prop where
  regs : σ.regions = G.map (·.1)
  order : G.Pairwise fun a b => a.1.base + a.1.size ≤ b.1.base
  geo : ∀ g ∈ G, Geo σ.chunks g
  nodup : (hsOf G ++ fl).Nodup
  bound : ∀ h ∈ hsOf G ++ fl, h < σ.n
  flist : FreeChain σ.chunks σ.free fl
  flbin : ∀ h ∈ fl, (σ.chunks h).bin = none
  binmem : ∀ b h, h ∈ σ.bins b ↔ h ∈ hsOf G ∧ h ∉ X ∧ (σ.chunks h).id = -1 ∧ b = binNum (σ.chunks h).size
  binof : ∀ h ∈ hsOf G, (σ.chunks h).bin =
    if h ∈ X ∨ (σ.chunks h).id ≠ -1 then none else some (binNum (σ.chunks h).size)
  xs : ∀ h ∈ X, h ∈ hsOf G ∧ (σ.chunks h).id = -1
  sorted : ∀ b, (σ.bins b).Pairwise fun a c => less σ.chunks a c = true
  next : 0 < σ.nextId
  ids : ∀ h ∈ hsOf G, (σ.chunks h).id = -1 ∨ (0 < (σ.chunks h).id ∧ (σ.chunks h).id < σ.nextId)
  req : ∀ h ∈ hsOf G, (σ.chunks h).id ≠ -1 → 0 < (σ.chunks h).req ∧ (σ.chunks h).req ≤ (σ.chunks h).size
  used : σ.used = ((hsOf G).map fun h => if (σ.chunks h).id = -1 then 0 else (σ.chunks h).size).sum
  total : σ.total = (G.map (·.1.size)).sum

theorem mem_hsOf {G : Ghost} {h : Nat} : h ∈ hsOf G ↔ ∃ g ∈ G, h ∈ g.2 := by simp [hsOf]

theorem hsOf_append (G G' : Ghost) : hsOf (G ++ G') = hsOf G ++ hsOf G' := by simp [hsOf]

theorem hsOf_cons (g : Region × List Nat) (G : Ghost) : hsOf (g :: G) = g.2 ++ hsOf G := by simp [hsOf]

theorem Inv.lt {σ G fl X} (I : Inv σ G fl X) {h : Nat} (hm : h ∈ hsOf G) : h < σ.n := I.bound h (by simp [hm])

theorem chunkAt_ok {σ : Arena} {h : Nat} (hl : h < σ.n) : chunkAt σ h = .ok (σ.chunks h) := if_pos hl

/-- Where a chunk is. -/
theorem Inv.split {σ G fl X} (_ : Inv σ G fl X) {h : Nat} (hm : h ∈ hsOf G) :
    ∃ P R A B Q, G = P ++ (R, A ++ h :: B) :: Q := by
  obtain ⟨⟨R, hs⟩, hg, hh⟩ := mem_hsOf.1 hm
  obtain ⟨P, Q, rfl⟩ := List.append_of_mem hg
  obtain ⟨A, B, e⟩ := List.append_of_mem hh
  simp only at e
  subst e
  exact ⟨P, R, A, B, Q, rfl⟩

theorem Inv.regionFor {σ G fl X} (I : Inv σ G fl X) {g : Region × List Nat} (hg : g ∈ G) {p : Nat} (h1 : g.1.base ≤ p)
    (h2 : p < g.1.base + g.1.size) : regionFor σ p = some g.1 := by
  unfold Bfc.regionFor
  rw [I.regs]
  have ho := I.order
  clear I
  induction G with
  | nil => simp at hg
  | cons a G ih =>
    simp only [List.map_cons]
    rcases List.mem_cons.1 hg with rfl | hg
    · rw [List.find?_cons_of_pos (by simpa using h2)]
    · have hlt : a.1.base + a.1.size ≤ g.1.base := (List.pairwise_cons.1 ho).1 g hg
      rw [List.find?_cons_of_neg (by simp; omega)]
      exact ih hg (List.pairwise_cons.1 ho).2

theorem Inv.getHandle {σ G fl X} (I : Inv σ G fl X) {g : Region × List Nat} (hg : g ∈ G) {p : Nat} (h1 : g.1.base ≤ p)
    (h2 : p < g.1.base + g.1.size) : getHandle σ p = .ok (g.1.handles ((p - g.1.base) / 256)) := by
  unfold Bfc.getHandle
  rw [I.regionFor hg h1 h2]
  simp only
  rw [if_pos h1]
  rfl

theorem putRegions_at (P Q : Ghost) (g : Region × List Nat) (p : Nat) (v : Option Nat)
    (ho : (P ++ g :: Q).Pairwise fun a b => a.1.base + a.1.size ≤ b.1.base) (h1 : g.1.base ≤ p)
    (h2 : p < g.1.base + g.1.size) (hs : List Nat) :
    putRegions p v ((P ++ g :: Q).map (·.1)) = .ok ((P ++ (g.1.put p v, hs) :: Q).map (·.1)) := by
  induction P with
  | nil =>
    simp only [List.nil_append, List.map_cons, putRegions]
    rw [if_pos h2, if_pos h1]
  | cons a P ih =>
    simp only [List.cons_append, List.map_cons, putRegions]
    have hlt : a.1.base + a.1.size ≤ g.1.base := (List.pairwise_cons.1 ho).1 g (by simp)
    rw [if_neg (by omega), ih (List.pairwise_cons.1 ho).2]
    rfl

/-- Different chunks have different places. -/
theorem Inv.ptr_inj {σ G fl X} (I : Inv σ G fl X) {h k : Nat} (hh : h ∈ hsOf G) (hk : k ∈ hsOf G)
    (e : (σ.chunks h).ptr = (σ.chunks k).ptr) : h = k := by
  obtain ⟨g, hg, hm⟩ := mem_hsOf.1 hh
  obtain ⟨g', hg', hm'⟩ := mem_hsOf.1 hk
  have r1 := (I.geo g hg).chain.range h hm
  have r2 := (I.geo g' hg').chain.range k hm'
  have e1 := I.regionFor hg (p := (σ.chunks h).ptr) (by omega) (by omega)
  have e2 := I.regionFor hg' (p := (σ.chunks k).ptr) (by omega) (by omega)
  rw [e, e2] at e1
  have e3 : g'.1 = g.1 := by injection e1
  have s1 := (I.geo g hg).hset h hm
  have s2 := (I.geo g' hg').hset k hm'
  rw [e3, ← e, s1] at s2
  injection s2

/-! ## Bins -/

theorem less_iff (cs : Nat → Chunk) (a b : Nat) : less cs a b = true ↔
    (cs a).size < (cs b).size ∨ ((cs a).size = (cs b).size ∧ (cs a).ptr < (cs b).ptr) := by
  unfold less
  split <;> simp <;> omega

theorem less_congr {cs cs' : Nat → Chunk} {a b : Nat} (ha : (cs a).size = (cs' a).size ∧ (cs a).ptr = (cs' a).ptr)
    (hb : (cs b).size = (cs' b).size ∧ (cs b).ptr = (cs' b).ptr) : less cs a b = less cs' a b := by
  unfold less
  rw [ha.1, ha.2, hb.1, hb.2]

theorem mem_insertSet (cs : Nat → Chunk) (h : Nat) (l : List Nat) (hd : ∀ a ∈ l, (cs a).ptr ≠ (cs h).ptr) (a : Nat) :
    a ∈ insertSet cs h l ↔ a = h ∨ a ∈ l := by
  induction l with
  | nil => simp [insertSet]
  | cons x l ih =>
    rw [insertSet]
    split
    · simp
    · split
      · rw [List.mem_cons, ih (fun y hy => hd y (by simp [hy])), List.mem_cons]
        constructor
        · rintro (h | h | h) <;> simp [h]
        · rintro (h | h | h) <;> simp [h]
      · rename_i h1 h2
        rw [less_iff] at h1 h2
        have := hd x (by simp)
        omega

theorem sorted_insertSet (cs : Nat → Chunk) (h : Nat) (l : List Nat) (hd : ∀ a ∈ l, (cs a).ptr ≠ (cs h).ptr)
    (hs : l.Pairwise fun a c => less cs a c = true) : (insertSet cs h l).Pairwise fun a c => less cs a c = true := by
  induction l with
  | nil => simp [insertSet]
  | cons x l ih =>
    obtain ⟨h1, h2⟩ := List.pairwise_cons.1 hs
    have hd' : ∀ a ∈ l, (cs a).ptr ≠ (cs h).ptr := fun y hy => hd y (by simp [hy])
    rw [insertSet]
    split
    · rename_i hl
      refine List.Pairwise.cons ?_ hs
      intro a ha
      rcases List.mem_cons.1 ha with rfl | ha
      · exact hl
      · have := h1 a ha
        rw [less_iff] at *
        omega
    · split
      · rename_i hl
        refine List.Pairwise.cons ?_ (ih hd' h2)
        intro a ha
        rw [mem_insertSet cs h l hd'] at ha
        rcases ha with rfl | ha
        · exact hl
        · exact h1 a ha
      · exact hs

theorem mem_eraseSet (cs : Nat → Chunk) (h : Nat) (l : List Nat) (hd : ∀ a ∈ l, (cs a).ptr = (cs h).ptr → a = h) (a : Nat) :
    a ∈ eraseSet cs h l ↔ a ∈ l ∧ a ≠ h := by
  unfold eraseSet
  rw [List.mem_filter]
  constructor
  · rintro ⟨h1, h2⟩
    refine ⟨h1, ?_⟩
    rintro rfl
    simp [less] at h2
  · rintro ⟨h1, h2⟩
    refine ⟨h1, ?_⟩
    have hp : (cs a).ptr ≠ (cs h).ptr := fun e => h2 (hd a h1 e)
    simp only [Bool.or_eq_true, less_iff]
    omega

/-- What does not change when only bins change. -/
theorem Inv.rebin {σ σ' : Arena} {G fl X X'} (I : Inv σ G fl X)
    (hr : σ'.regions = σ.regions) (hn : σ'.n = σ.n) (hf : σ'.free = σ.free) (hi : σ'.nextId = σ.nextId)
    (hu : σ'.used = σ.used) (ht : σ'.total = σ.total)
    (hc : ∀ k, SameGeo (σ.chunks k) (σ'.chunks k) ∧ (σ'.chunks k).id = (σ.chunks k).id ∧ (σ'.chunks k).req = (σ.chunks k).req)
    (flbin : ∀ h ∈ fl, (σ'.chunks h).bin = none)
    (binmem : ∀ b h, h ∈ σ'.bins b ↔ h ∈ hsOf G ∧ h ∉ X' ∧ (σ'.chunks h).id = -1 ∧ b = binNum (σ'.chunks h).size)
    (binof : ∀ h ∈ hsOf G, (σ'.chunks h).bin =
      if h ∈ X' ∨ (σ'.chunks h).id ≠ -1 then none else some (binNum (σ'.chunks h).size))
    (xs : ∀ h ∈ X', h ∈ hsOf G ∧ (σ'.chunks h).id = -1)
    (sorted : ∀ b, (σ'.bins b).Pairwise fun a c => less σ'.chunks a c = true) : Inv σ' G fl X' where
  regs := by rw [hr]; exact I.regs
  order := I.order
  geo := by
    intro g hg
    have G0 := I.geo g hg
    refine ⟨G0.pos, G0.size, G0.top, G0.chain.congr (fun h _ => (hc h).1), ?_, ?_⟩
    · intro h hh; rw [← (hc h).1.1]; exact G0.hset h hh
    · intro i h hh; rw [← (hc h).1.1]; exact G0.hget i h hh
  nodup := I.nodup
  bound := by rw [hn]; exact I.bound
  flist := by
    rw [hf]
    have key : ∀ l f, FreeChain σ.chunks f l → FreeChain σ'.chunks f l := by
      intro l
      induction l with
      | nil => intro f h; exact h
      | cons a l ih =>
        intro f h
        exact ⟨h.1, by rw [← (hc a).1.2.2.2]; exact ih _ h.2⟩
    exact key _ _ I.flist
  flbin := flbin
  binmem := binmem
  binof := binof
  xs := xs
  sorted := sorted
  next := by rw [hi]; exact I.next
  ids := by intro h hh; rw [hi, (hc h).2.1]; exact I.ids h hh
  req := by intro h hh; rw [(hc h).2.1, (hc h).2.2, ← (hc h).1.2.1]; exact I.req h hh
  used := by
    rw [hu, I.used]
    congr 1
    apply List.map_congr_left
    intro h _
    rw [(hc h).2.1, (hc h).1.2.1]
  total := by rw [ht]; exact I.total

theorem Inv.not_fl {σ G fl X} (I : Inv σ G fl X) {h : Nat} (hh : h ∈ hsOf G) : h ∉ fl := by
  intro hf
  exact (List.nodup_append.1 I.nodup).2.2 h hh h hf rfl

/-- The state after `insertBin`. -/
def inserted (σ : Arena) (h : Nat) : Arena :=
  (σ.set h { σ.chunks h with bin := some (binNum (σ.chunks h).size) }).setBin (binNum (σ.chunks h).size)
    (insertSet (σ.set h { σ.chunks h with bin := some (binNum (σ.chunks h).size) }).chunks h (σ.bins (binNum (σ.chunks h).size)))

theorem insertBin_ok {σ G fl X} {h : Nat} (I : Inv σ G fl (h :: X)) : insertBin σ h = .ok (inserted σ h) := by
  obtain ⟨h1, h2⟩ := I.xs h (by simp)
  have hb := I.binof h h1
  simp at hb
  unfold insertBin
  rw [chunkAt_ok (I.lt h1)]
  simp [Chunk.inUse, h2, hb, inserted, Arena.set]

theorem insertBin_inv {σ G fl X} {h : Nat} (I : Inv σ G fl (h :: X)) (hx : h ∉ X) : Inv (inserted σ h) G fl X := by
  obtain ⟨h1, h2⟩ := I.xs h (by simp)
  have hch : ∀ k, (inserted σ h).chunks k = if k = h then { σ.chunks h with bin := some (binNum (σ.chunks h).size) } else σ.chunks k :=
    fun _ => rfl
  have hgeo : ∀ k, SameGeo (σ.chunks k) ((inserted σ h).chunks k) ∧ ((inserted σ h).chunks k).id = (σ.chunks k).id ∧
      ((inserted σ h).chunks k).req = (σ.chunks k).req := by
    intro k
    rw [hch]
    split
    · rename_i e; subst e; exact ⟨⟨rfl, rfl, rfl, rfl⟩, rfl, rfl⟩
    · exact ⟨⟨rfl, rfl, rfl, rfl⟩, rfl, rfl⟩
  have hd : ∀ b, ∀ a ∈ σ.bins b, ((inserted σ h).chunks a).ptr ≠ ((inserted σ h).chunks h).ptr := by
    intro b a ha e
    rw [← (hgeo a).1.1, ← (hgeo h).1.1] at e
    have hm := (I.binmem b a).1 ha
    have := I.ptr_inj hm.1 h1 e
    subst this
    exact hm.2.1 (by simp)
  refine I.rebin rfl rfl rfl rfl rfl rfl hgeo ?_ ?_ ?_ ?_ ?_
  · intro k hk
    rw [hch, if_neg (fun e => I.not_fl h1 (by rw [← e]; exact hk))]
    exact I.flbin k hk
  · intro b k
    rw [(hgeo k).2.1, ← (hgeo k).1.2.1]
    by_cases hb : b = binNum (σ.chunks h).size
    · subst hb
      have : (inserted σ h).bins (binNum (σ.chunks h).size) =
          insertSet (inserted σ h).chunks h (σ.bins (binNum (σ.chunks h).size)) := by
        simp only [inserted, Arena.setBin, if_true]
      rw [this, mem_insertSet _ _ _ (hd _), I.binmem]
      constructor
      · rintro (rfl | ⟨a1, a2, a3, a4⟩)
        · exact ⟨h1, hx, h2, rfl⟩
        · exact ⟨a1, fun hk => a2 (by simp [hk]), a3, a4⟩
      · rintro ⟨a1, a2, a3, a4⟩
        by_cases e : k = h
        · exact .inl e
        · exact .inr ⟨a1, by simp [e, a2], a3, a4⟩
    · have : (inserted σ h).bins b = σ.bins b := by
        simp only [inserted, Arena.setBin, if_neg hb]
        rfl
      rw [this, I.binmem]
      constructor
      · rintro ⟨a1, a2, a3, a4⟩
        exact ⟨a1, fun hk => a2 (by simp [hk]), a3, a4⟩
      · rintro ⟨a1, a2, a3, a4⟩
        refine ⟨a1, ?_, a3, a4⟩
        simp only [List.mem_cons, not_or]
        exact ⟨fun e => hb (by rw [a4, e]), a2⟩
  · intro k hk
    rw [(hgeo k).2.1, ← (hgeo k).1.2.1, hch]
    split
    · rename_i e
      subst e
      simp [hx, h2]
    · rename_i e
      rw [I.binof k hk]
      simp [e]
  · intro k hk
    rw [(hgeo k).2.1]
    exact I.xs k (by simp [hk])
  · intro b
    have hl : ∀ l : List Nat, l.Pairwise (fun a c => less σ.chunks a c = true) →
        l.Pairwise (fun a c => less (inserted σ h).chunks a c = true) := by
      intro l hl
      refine hl.imp ?_
      intro a c hac
      rw [← less_congr (cs := σ.chunks) ⟨(hgeo a).1.2.1, (hgeo a).1.1⟩ ⟨(hgeo c).1.2.1, (hgeo c).1.1⟩]
      exact hac
    by_cases hb : b = binNum (σ.chunks h).size
    · subst hb
      have : (inserted σ h).bins (binNum (σ.chunks h).size) =
          insertSet (inserted σ h).chunks h (σ.bins (binNum (σ.chunks h).size)) := by
        simp only [inserted, Arena.setBin, if_true]
      rw [this]
      exact sorted_insertSet _ _ _ (hd _) (hl _ (I.sorted _))
    · have : (inserted σ h).bins b = σ.bins b := by
        simp only [inserted, Arena.setBin, if_neg hb]
        rfl
      rw [this]
      exact hl _ (I.sorted b)

/-- The state after a chunk has left its bin. -/
def removed (σ : Arena) (h : Nat) (l : List Nat) : Arena :=
  (σ.setBin (binNum (σ.chunks h).size) l).set h { σ.chunks h with bin := none }

theorem removed_inv {σ G fl X} {h : Nat} {l : List Nat} (I : Inv σ G fl X) (h1 : h ∈ hsOf G) (h2 : (σ.chunks h).id = -1)
    (hl : ∀ a, a ∈ l ↔ a ∈ σ.bins (binNum (σ.chunks h).size) ∧ a ≠ h)
    (hs : l.Sublist (σ.bins (binNum (σ.chunks h).size))) : Inv (removed σ h l) G fl (h :: X) := by
  have hch : ∀ k, (removed σ h l).chunks k = if k = h then { σ.chunks h with bin := none } else σ.chunks k := fun _ => rfl
  have hgeo : ∀ k, SameGeo (σ.chunks k) ((removed σ h l).chunks k) ∧ ((removed σ h l).chunks k).id = (σ.chunks k).id ∧
      ((removed σ h l).chunks k).req = (σ.chunks k).req := by
    intro k
    rw [hch]
    split
    · rename_i e; subst e; exact ⟨⟨rfl, rfl, rfl, rfl⟩, rfl, rfl⟩
    · exact ⟨⟨rfl, rfl, rfl, rfl⟩, rfl, rfl⟩
  have hbin : ∀ b, (removed σ h l).bins b = if b = binNum (σ.chunks h).size then l else σ.bins b := fun _ => rfl
  refine I.rebin rfl rfl rfl rfl rfl rfl hgeo ?_ ?_ ?_ ?_ ?_
  · intro k hk
    rw [hch, if_neg (fun e => I.not_fl h1 (by rw [← e]; exact hk))]
    exact I.flbin k hk
  · intro b k
    rw [(hgeo k).2.1, ← (hgeo k).1.2.1, hbin]
    split
    · rename_i hb
      subst hb
      rw [hl, I.binmem]
      simp only [List.mem_cons, not_or]
      constructor
      · rintro ⟨⟨a1, a2, a3, a4⟩, e⟩; exact ⟨a1, ⟨e, a2⟩, a3, a4⟩
      · rintro ⟨a1, ⟨e, a2⟩, a3, a4⟩; exact ⟨⟨a1, a2, a3, a4⟩, e⟩
    · rename_i hb
      rw [I.binmem]
      simp only [List.mem_cons, not_or]
      constructor
      · rintro ⟨a1, a2, a3, a4⟩; exact ⟨a1, ⟨fun e => hb (by rw [a4, e]), a2⟩, a3, a4⟩
      · rintro ⟨a1, ⟨e, a2⟩, a3, a4⟩; exact ⟨a1, a2, a3, a4⟩
  · intro k hk
    rw [(hgeo k).2.1, ← (hgeo k).1.2.1, hch]
    split
    · rename_i e
      subst e
      simp
    · rename_i e
      rw [I.binof k hk]
      simp [e]
  · intro k hk
    rw [(hgeo k).2.1]
    rcases List.mem_cons.1 hk with rfl | hk
    · exact ⟨h1, h2⟩
    · exact I.xs k hk
  · intro b
    have hl3 : ∀ m : List Nat, m.Pairwise (fun a c => less σ.chunks a c = true) →
        m.Pairwise (fun a c => less (removed σ h l).chunks a c = true) := by
      intro m hm
      refine hm.imp ?_
      intro a c hac
      rw [← less_congr (cs := σ.chunks) ⟨(hgeo a).1.2.1, (hgeo a).1.1⟩ ⟨(hgeo c).1.2.1, (hgeo c).1.1⟩]
      exact hac
    rw [hbin]
    split
    · exact hl3 _ ((I.sorted _).sublist hs)
    · exact hl3 _ (I.sorted b)

theorem Inv.inBin {σ G fl X} (I : Inv σ G fl X) {h : Nat} (h1 : h ∈ hsOf G) (h2 : (σ.chunks h).id = -1) (hx : h ∉ X) :
    h ∈ σ.bins (binNum (σ.chunks h).size) ∧ (σ.chunks h).bin = some (binNum (σ.chunks h).size) :=
  ⟨(I.binmem _ _).2 ⟨h1, hx, h2, rfl⟩, by rw [I.binof h h1]; simp [hx, h2]⟩

theorem removeBin_ok {σ G fl X} {h : Nat} (I : Inv σ G fl X) (h1 : h ∈ hsOf G) (h2 : (σ.chunks h).id = -1) (hx : h ∉ X) :
    ∃ l, removeBin σ h = .ok (removed σ h l) ∧ Inv (removed σ h l) G fl (h :: X) := by
  obtain ⟨hb, hbin⟩ := I.inBin h1 h2 hx
  have hd : ∀ a ∈ σ.bins (binNum (σ.chunks h).size), (σ.chunks a).ptr = (σ.chunks h).ptr → a = h := by
    intro a ha e
    exact I.ptr_inj ((I.binmem _ _).1 ha).1 h1 e
  have hm := mem_eraseSet σ.chunks h (σ.bins (binNum (σ.chunks h).size)) hd
  refine ⟨eraseSet σ.chunks h (σ.bins (binNum (σ.chunks h).size)), ?_,
    removed_inv I h1 h2 hm List.filter_sublist⟩
  unfold removeBin
  rw [chunkAt_ok (I.lt h1)]
  have hlen : (eraseSet σ.chunks h (σ.bins (binNum (σ.chunks h).size))).length ≠ (σ.bins (binNum (σ.chunks h).size)).length := by
    intro e
    have hs : (eraseSet σ.chunks h (σ.bins (binNum (σ.chunks h).size))).Sublist (σ.bins (binNum (σ.chunks h).size)) :=
      List.filter_sublist
    have := hs.eq_of_length e
    rw [← this] at hb
    exact ((hm h).1 hb).2 rfl
  simp [Chunk.inUse, h2, hbin, hlen, removed]

theorem removeIter_ok {σ G fl X} {h b : Nat} (I : Inv σ G fl X) (hb : h ∈ σ.bins b) :
    ∃ l, removeIter σ b h = .ok (removed σ h l) ∧ Inv (removed σ h l) G fl (h :: X) := by
  obtain ⟨h1, hx, h2, rfl⟩ := (I.binmem b h).1 hb
  have hbin := (I.inBin h1 h2 hx).2
  have hnd : (σ.bins (binNum (σ.chunks h).size)).Nodup := by
    refine (I.sorted _).imp ?_
    rintro a c hac rfl
    rw [less_iff] at hac
    omega
  refine ⟨(σ.bins (binNum (σ.chunks h).size)).erase h, ?_,
    removed_inv I h1 h2 (fun a => by rw [hnd.mem_erase_iff]; exact And.comm) List.erase_sublist⟩
  unfold removeIter
  rw [chunkAt_ok (I.lt h1)]
  simp [Chunk.inUse, h2, hbin, removed]

end Verif.Bfc
