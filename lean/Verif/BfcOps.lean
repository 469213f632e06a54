/-
The invariant of the arena: taking a chunk, giving it back.
-/
import Verif.BfcSplit

namespace Verif.Bfc

/-! ## Marking -/

/-- The state after the chunk is marked as used. -/
def marked (σ : Arena) (h num : Nat) : Arena :=
  { σ.set h { σ.chunks h with req := num, id := σ.nextId } with nextId := σ.nextId + 1, used := σ.used + (σ.chunks h).size }

theorem sum_change {f g : Nat → Nat} {h d : Nat} : ∀ {l : List Nat}, l.Nodup → h ∈ l → (∀ j ∈ l, j ≠ h → g j = f j) →
    g h = f h + d → (l.map g).sum = (l.map f).sum + d := by
  intro l
  induction l with
  | nil => intro _ hm; simp at hm
  | cons a l ih =>
    intro hnd hm hj hd
    obtain ⟨n1, n2⟩ := List.nodup_cons.1 hnd
    simp only [List.map_cons, List.sum_cons]
    rcases List.mem_cons.1 hm with rfl | hm
    · have : l.map g = l.map f := by
        apply List.map_congr_left
        intro j hj'
        exact hj j (by simp [hj']) (fun e => n1 (by rw [← e]; exact hj'))
      rw [this, hd]
      omega
    · rw [hj a (by simp) (fun e => n1 (by rw [e]; exact hm)), ih n2 hm (fun j hj' => hj j (by simp [hj'])) hd]
      omega

theorem Inv.nodup_hs {σ G fl X} (I : Inv σ G fl X) : (hsOf G).Nodup := (List.nodup_append.1 I.nodup).1

theorem marked_inv {σ G fl} {h num : Nat} (I : Inv σ G fl [h]) (h0 : 0 < num) (h1 : num ≤ (σ.chunks h).size) :
    Inv (marked σ h num) G fl [] := by
  obtain ⟨hm, hid⟩ := I.xs h (by simp)
  have hch : ∀ j, (marked σ h num).chunks j = if j = h then { σ.chunks h with req := num, id := σ.nextId } else σ.chunks j := fun _ => rfl
  have hne : ∀ j, j ≠ h → (marked σ h num).chunks j = σ.chunks j := fun j e => by rw [hch, if_neg e]
  have hhh : (marked σ h num).chunks h = { σ.chunks h with req := num, id := σ.nextId } := by rw [hch, if_pos rfl]
  have hgeo : ∀ j, SameGeo (σ.chunks j) ((marked σ h num).chunks j) := by
    intro j
    by_cases e : j = h
    · subst e; rw [hhh]; exact ⟨rfl, rfl, rfl, rfl⟩
    · rw [hne j e]; exact SameGeo.refl _
  have hnext := I.next
  have hnid : σ.nextId ≠ -1 := by omega
  exact {
    regs := I.regs, order := I.order
    geo := fun g hg => (I.geo g hg).congr (fun j _ => hgeo j)
    nodup := I.nodup, bound := I.bound
    flist := I.flist.congr (fun j _ => (hgeo j).2.2.2)
    flbin := fun j hj => by
      rw [hne j (fun e => I.not_fl hm (by rw [← e]; exact hj))]; exact I.flbin j hj
    binmem := by
      intro b j
      rw [show (marked σ h num).bins = σ.bins from rfl, I.binmem]
      by_cases e : j = h
      · subst e; rw [hhh]; simp [hnid]
      · rw [hne j e]; simp [e]
    binof := by
      intro j hj
      by_cases e : j = h
      · subst e
        rw [hhh]
        simp only [List.not_mem_nil, false_or, ne_eq, hnid, not_false_eq_true, if_true]
        rw [I.binof j hj]
        simp
      · rw [hne j e, I.binof j hj]; simp [e]
    xs := fun j hj => by simp at hj
    sorted := by
      intro b
      refine (I.sorted b).imp ?_
      intro a c hac
      rw [← less_congr (cs := σ.chunks) ⟨(hgeo a).2.1, (hgeo a).1⟩ ⟨(hgeo c).2.1, (hgeo c).1⟩]
      exact hac
    next := by change 0 < σ.nextId + 1; omega
    ids := by
      intro j hj
      change _ ∨ _ ∧ _ < σ.nextId + 1
      by_cases e : j = h
      · subst e; rw [hhh]; right; simp only; omega
      · rw [hne j e]
        rcases I.ids j hj with a | ⟨a, b⟩
        · exact .inl a
        · right; omega
    req := by
      intro j hj hi
      by_cases e : j = h
      · subst e; rw [hhh]; exact ⟨h0, h1⟩
      · rw [hne j e] at hi ⊢; exact I.req j hj hi
    used := by
      change σ.used + (σ.chunks h).size = ((hsOf G).map (weight (marked σ h num).chunks)).sum
      rw [I.used]
      refine (sum_change (f := weight σ.chunks) (h := h) I.nodup_hs hm ?_ ?_).symm
      · intro j _ e; unfold weight; rw [hne j e]
      · unfold weight; rw [hhh]; simp [hid, hnid]
    total := I.total }

/-- The state after the chunk is marked as free. -/
def unmarked (σ : Arena) (h : Nat) : Arena :=
  { σ.set h { σ.chunks h with id := -1 } with used := σ.used - (σ.chunks h).size }

theorem unmarked_inv {σ G fl} {h : Nat} (I : Inv σ G fl []) (hm : h ∈ hsOf G) (hid : (σ.chunks h).id ≠ -1) :
    Inv (unmarked σ h) G fl [h] ∧ (unmarked σ h).used + (σ.chunks h).size = σ.used := by
  have hch : ∀ j, (unmarked σ h).chunks j = if j = h then { σ.chunks h with id := -1 } else σ.chunks j := fun _ => rfl
  have hne : ∀ j, j ≠ h → (unmarked σ h).chunks j = σ.chunks j := fun j e => by rw [hch, if_neg e]
  have hhh : (unmarked σ h).chunks h = { σ.chunks h with id := -1 } := by rw [hch, if_pos rfl]
  have hgeo : ∀ j, SameGeo (σ.chunks j) ((unmarked σ h).chunks j) := by
    intro j
    by_cases e : j = h
    · subst e; rw [hhh]; exact ⟨rfl, rfl, rfl, rfl⟩
    · rw [hne j e]; exact SameGeo.refl _
  have hsum : ((hsOf G).map (weight σ.chunks)).sum = ((hsOf G).map (weight (unmarked σ h).chunks)).sum + (σ.chunks h).size := by
    refine sum_change (h := h) I.nodup_hs hm ?_ ?_
    · intro j _ e; unfold weight; rw [hne j e]
    · unfold weight; rw [hhh]; simp [hid]
  have hu : σ.used = ((hsOf G).map (weight (unmarked σ h).chunks)).sum + (σ.chunks h).size := by
    rw [← hsum]; exact I.used
  refine ⟨{
    regs := I.regs, order := I.order
    geo := fun g hg => (I.geo g hg).congr (fun j _ => hgeo j)
    nodup := I.nodup, bound := I.bound
    flist := I.flist.congr (fun j _ => (hgeo j).2.2.2)
    flbin := fun j hj => by
      rw [hne j (fun e => I.not_fl hm (by rw [← e]; exact hj))]; exact I.flbin j hj
    binmem := by
      intro b j
      rw [show (unmarked σ h).bins = σ.bins from rfl, I.binmem]
      by_cases e : j = h
      · subst e; rw [hhh]; simp [hid]
      · rw [hne j e]; simp [e]
    binof := by
      intro j hj
      by_cases e : j = h
      · subst e
        rw [hhh]
        simp only [List.mem_singleton, true_or, if_true]
        rw [I.binof j hj]
        simp [hid]
      · rw [hne j e, I.binof j hj]; simp [e]
    xs := fun j hj => by
      simp only [List.mem_singleton] at hj
      subst hj
      rw [hhh]
      exact ⟨hm, rfl⟩
    sorted := by
      intro b
      refine (I.sorted b).imp ?_
      intro a c hac
      rw [← less_congr (cs := σ.chunks) ⟨(hgeo a).2.1, (hgeo a).1⟩ ⟨(hgeo c).2.1, (hgeo c).1⟩]
      exact hac
    next := I.next
    ids := by
      intro j hj
      by_cases e : j = h
      · subst e; rw [hhh]; exact .inl rfl
      · rw [hne j e]; exact I.ids j hj
    req := by
      intro j hj hi
      by_cases e : j = h
      · subst e; rw [hhh] at hi; simp at hi
      · rw [hne j e] at hi ⊢; exact I.req j hj hi
    used := by
      change σ.used - (σ.chunks h).size = ((hsOf G).map (weight (unmarked σ h).chunks)).sum
      omega
    total := I.total }, ?_⟩
  change σ.used - (σ.chunks h).size + (σ.chunks h).size = σ.used
  omega

/-! ## Neighbours and live blocks -/

/-- No two neighbours are both free. -/
def Adj (cs : Nat → Chunk) (l : List Nat) : Prop := l.IsChain fun a b => (cs a).id ≠ -1 ∨ (cs b).id ≠ -1

/-- The same in all regions. -/
def Coal (cs : Nat → Chunk) (G : Ghost) : Prop := ∀ g ∈ G, Adj cs g.2

theorem Adj.mono {cs cs' : Nat → Chunk} {l : List Nat} (h : Adj cs l) (hc : ∀ j ∈ l, (cs j).id ≠ -1 → (cs' j).id ≠ -1) : Adj cs' l := by
  refine List.IsChain.imp_of_mem_imp ?_ h
  rintro a b ha hb (h | h)
  · exact .inl (hc a ha h)
  · exact .inr (hc b hb h)

/-- The blocks in use: place, requested size, size. -/
def liveL (cs : Nat → Chunk) (l : List Nat) : List (Nat × Nat × Nat) :=
  (l.filter fun h => (cs h).inUse).map fun h => ((cs h).ptr, (cs h).req, (cs h).size)

def liveOf (cs : Nat → Chunk) (G : Ghost) : List (Nat × Nat × Nat) := liveL cs (hsOf G)

theorem liveL_append (cs : Nat → Chunk) (l l' : List Nat) : liveL cs (l ++ l') = liveL cs l ++ liveL cs l' := by
  simp [liveL]

theorem liveL_free {cs : Nat → Chunk} {h : Nat} (hf : (cs h).id = -1) (l : List Nat) : liveL cs (h :: l) = liveL cs l := by
  simp [liveL, Chunk.inUse, hf]

theorem liveL_used {cs : Nat → Chunk} {h : Nat} (hf : (cs h).id ≠ -1) (l : List Nat) :
    liveL cs (h :: l) = ((cs h).ptr, (cs h).req, (cs h).size) :: liveL cs l := by
  simp [liveL, Chunk.inUse, hf]

theorem liveL_congr {cs cs' : Nat → Chunk} {l : List Nat} (h : ∀ j ∈ l, SameUse (cs j) (cs' j)) : liveL cs' l = liveL cs l := by
  induction l with
  | nil => rfl
  | cons a l ih =>
    obtain ⟨h1, h2, h3, h4⟩ := h a (by simp)
    have ih := ih (fun j hj => h j (by simp [hj]))
    by_cases e : (cs a).id = -1
    · rw [liveL_free e, liveL_free (by rw [h3]; exact e), ih]
    · rw [liveL_used e, liveL_used (by rw [h3]; exact e), ih, h1, h2, h4]

theorem liveOf_at (cs : Nat → Chunk) (P Q : Ghost) (R : Region) (hs : List Nat) :
    liveOf cs (P ++ (R, hs) :: Q) = liveL cs (hsOf P) ++ (liveL cs hs ++ liveL cs (hsOf Q)) := by
  unfold liveOf
  rw [hsOf_append, hsOf_cons, liveL_append, liveL_append]

theorem SameUse.refl (c : Chunk) : SameUse c c := ⟨rfl, rfl, rfl, rfl⟩

theorem SameUse.trans {a b c : Chunk} (h : SameUse a b) (h' : SameUse b c) : SameUse a c := by
  obtain ⟨h1, h2, h3, h4⟩ := h
  obtain ⟨g1, g2, g3, g4⟩ := h'
  exact ⟨by rw [g1, h1], by rw [g2, h2], by rw [g3, h3], by rw [g4, h4]⟩

/-- Where the regions are. -/
def shape (G : Ghost) : List (Nat × Nat × Nat) := G.map fun g => (g.1.base, g.1.size, g.1.id)

/-- The state between two calls. -/
structure Good (σ : Arena) (G : Ghost) (fl : List Nat) : Prop where
  inv : Inv σ G fl []
  coal : Coal σ.chunks G

theorem mem_mid {P Q : Ghost} {R : Region} {hs : List Nat} {j : Nat} :
    j ∈ hsOf (P ++ (R, hs) :: Q) ↔ j ∈ hsOf P ∨ j ∈ hs ∨ j ∈ hsOf Q := by
  rw [hsOf_append, hsOf_cons]; simp

theorem Coal.mid {cs cs' : Nat → Chunk} {P Q : Ghost} {R R' : Region} {hs hs' : List Nat} (h : Coal cs (P ++ (R, hs) :: Q))
    (ho : ∀ j ∈ hsOf P ++ hsOf Q, (cs' j).id = (cs j).id) (hn : Adj cs' hs') : Coal cs' (P ++ (R', hs') :: Q) := by
  intro g hg
  have aux : ∀ g, g ∈ P ∨ g ∈ Q → Adj cs' g.2 := by
    intro g hg
    refine (h g (by rcases hg with h | h <;> simp [h])).mono ?_
    intro j hj hi
    rw [ho j ?_]
    · exact hi
    · rw [List.mem_append]
      rcases hg with h | h
      · exact .inl (mem_hsOf.2 ⟨g, h, hj⟩)
      · exact .inr (mem_hsOf.2 ⟨g, h, hj⟩)
  rw [List.mem_append, List.mem_cons] at hg
  rcases hg with hg | rfl | hg
  · exact aux g (.inl hg)
  · exact hn
  · exact aux g (.inr hg)

/-- What a call of `Alloc` does to the state. -/
structure Took (σ : Arena) (G : Ghost) (σ' : Arena) (G' : Ghost) (fl' : List Nat) (p num s : Nat) : Prop where
  good : Good σ' G' fl'
  shape : shape G' = shape G
  live : ∃ X Y, liveOf σ.chunks G = X ++ Y ∧ liveOf σ'.chunks G' = X ++ (p, num, s) :: Y
  used : σ'.used = σ.used + s
  fits : num ≤ s
  total : σ'.total = σ.total
  cur : σ'.cur = σ.cur
  extensions : σ'.extensions = σ.extensions

theorem takeChunk_ok {cf : Conf} {σ G fl} {b h r num : Nat} (Gd : Good σ G fl) (hb : h ∈ σ.bins b) (hr : r ≤ (σ.chunks h).size)
    (h256 : 256 ∣ r) (h0 : 0 < num) (h1 : num ≤ r) (hmd : 1 ≤ cf.maxDead) :
    ∃ σ' G' fl' s, takeChunk cf σ b h r num = .ok ((σ.chunks h).ptr, σ') ∧ Took σ G σ' G' fl' (σ.chunks h).ptr num s ∧
      r ≤ s ∧ (s < 2 * r ∨ s = r) ∧ ((s : Int) - r < cf.maxDead) := by
  obtain ⟨I, C⟩ := Gd
  obtain ⟨hm, _, hid, _⟩ := (I.binmem b h).1 hb
  obtain ⟨l, e1, I1⟩ := removeIter_ok I hb
  obtain ⟨P, R, A, B, Q, rfl⟩ := I.split hm
  have hch1 : ∀ j, (removed σ h l).chunks j = if j = h then { σ.chunks h with bin := none } else σ.chunks j := fun _ => rfl
  have hs1 : ∀ j, SameUse (σ.chunks j) ((removed σ h l).chunks j) := by
    intro j
    rw [hch1]
    by_cases e : j = h
    · subst e; rw [if_pos rfl]; exact ⟨rfl, rfl, rfl, rfl⟩
    · rw [if_neg e]; exact SameUse.refl _
  have hsz : ((removed σ h l).chunks h).size = (σ.chunks h).size := (hs1 h).2.1
  have hC := C (R, A ++ h :: B) (by simp)
  simp only at hC
  have hndP := I.nodup_region
  simp only [List.nodup_append, List.nodup_cons, List.mem_cons] at hndP
  obtain ⟨n1, ⟨n2, n3⟩, n4⟩ := hndP
  have hnext := I.next
  have hnid : σ.nextId ≠ -1 := by omega
  have htop : (σ.chunks h).size ≤ 2 ^ 62 := by
    have g0 := I.geo (R, A ++ h :: B) (by simp)
    have r0 := g0.chain.range h (by simp)
    have t0 := g0.top
    simp only at r0 t0
    omega
  have hmod : r * 2 % 2 ^ 64 = r * 2 := Nat.mod_eq_of_lt (by omega)
  have hR : 0 < r := by omega
  have hno : ∀ j ∈ hsOf P ++ hsOf Q, j ∉ A ++ h :: B := fun j hj => I.other hj
  by_cases hcond : r * 2 ≤ (σ.chunks h).size ∨ cf.maxDead ≤ ((σ.chunks h).size : Int) - r
  · have hlt : r < (σ.chunks h).size := by omega
    obtain ⟨σ2, k, R', fl', e2, I2, hk, b1, b2, b3, b4, b5, b6, b7, b8, b9⟩ := splitChunk_ok I1 hR (by rw [hsz]; exact hlt) h256
    have I3 := marked_inv (num := num) I2 h0 (by rw [b4]; exact h1)
    have hkm : k ∉ A ++ h :: B := fun hm => hk (mem_mid.2 (.inr (.inl hm)))
    have hkh : k ≠ h := fun e => hkm (by simp [e])
    have hc3 : ∀ j, (marked σ2 h num).chunks j = if j = h then { σ2.chunks h with req := num, id := σ2.nextId } else σ2.chunks j := fun _ => rfl
    have hnid2 : σ2.nextId = σ.nextId := b9.nextId
    have huse : ∀ j ∈ hsOf (P ++ (R, A ++ h :: B) :: Q), j ≠ h → SameUse (σ.chunks j) ((marked σ2 h num).chunks j) := by
      intro j hj e
      rw [hc3, if_neg e]
      exact (hs1 j).trans (b8 j hj e)
    have hidh : ((marked σ2 h num).chunks h).id ≠ -1 := by rw [hc3, if_pos rfl]; simp only; rw [hnid2]; exact hnid
    have hidk : ((marked σ2 h num).chunks k).id = -1 := by rw [hc3, if_neg hkh]; exact b6
    have useA : ∀ j ∈ A, SameUse (σ.chunks j) ((marked σ2 h num).chunks j) := fun j hj =>
      huse j (mem_mid.2 (.inr (.inl (by simp [hj])))) (fun e => n4 j hj h (.inl rfl) e)
    have useB : ∀ j ∈ B, SameUse (σ.chunks j) ((marked σ2 h num).chunks j) := fun j hj =>
      huse j (mem_mid.2 (.inr (.inl (by simp [hj])))) (fun e => n2 (by rw [← e]; exact hj))
    have useP : ∀ j ∈ hsOf P, SameUse (σ.chunks j) ((marked σ2 h num).chunks j) := fun j hj =>
      huse j (mem_mid.2 (.inl hj)) (fun e => hno j (by simp [hj]) (by simp [e]))
    have useQ : ∀ j ∈ hsOf Q, SameUse (σ.chunks j) ((marked σ2 h num).chunks j) := fun j hj =>
      huse j (mem_mid.2 (.inr (.inr hj))) (fun e => hno j (by simp [hj]) (by simp [e]))
    refine ⟨marked σ2 h num, _, fl', r, ?_, ⟨⟨I3, ?_⟩, ?_, ?_, ?_, h1, ?_, ?_, ?_⟩, Nat.le_refl _, .inr rfl, by omega⟩
    · unfold takeChunk
      rw [e1]
      simp only [ok_bind]
      rw [chunkAt_ok (I1.lt hm)]
      simp only [ok_bind]
      rw [hsz, hmod, if_pos hcond, e2]
      simp only [ok_bind]
      rw [chunkAt_ok (I2.lt (mem_mid.2 (.inr (.inl (by simp)))))]
      change Out.ok ((σ2.chunks h).ptr, marked σ2 h num) = _
      rw [b5, (hs1 h).1]
    · refine Coal.mid (R := R) (hs := A ++ h :: B) C ?_ ?_
      · intro j hj
        rcases List.mem_append.1 hj with hj | hj
        · exact (useP j hj).2.2.1
        · exact (useQ j hj).2.2.1
      · unfold Adj at hC ⊢
        rw [List.isChain_split, List.isChain_cons] at hC
        obtain ⟨c1, c2, c3⟩ := hC
        rw [List.isChain_split, List.isChain_cons_cons, List.isChain_cons]
        refine ⟨?_, .inl hidh, ?_, ?_⟩
        · refine Adj.mono (cs := σ.chunks) c1 ?_
          intro j hj hi
          by_cases e : j = h
          · rw [e]; exact hidh
          · have hjA : j ∈ A := by simp only [List.mem_append, List.mem_singleton] at hj; tauto
            rw [(useA j hjA).2.2.1]; exact hi
        · intro y hy
          right
          have hyB : y ∈ B := List.mem_of_mem_head? hy
          rw [(useB y hyB).2.2.1]
          rcases c2 y hy with h | h
          · exact absurd hid h
          · exact h
        · refine Adj.mono (cs := σ.chunks) c3 ?_
          intro j hj hi
          rw [(useB j hj).2.2.1]; exact hi
    · simp [Bfc.shape, b1, b2, b3]
    · refine ⟨liveL σ.chunks (hsOf P) ++ liveL σ.chunks A, liveL σ.chunks B ++ liveL σ.chunks (hsOf Q), ?_, ?_⟩
      · rw [liveOf_at, liveL_append, liveL_free hid]; simp
      · rw [liveOf_at, liveL_append, liveL_used hidh, liveL_free hidk, liveL_congr useP, liveL_congr useQ, liveL_congr useA, liveL_congr useB]
        have e1 : ((marked σ2 h num).chunks h).ptr = (σ.chunks h).ptr := by
          rw [hc3, if_pos rfl]; simp only; rw [b5, (hs1 h).1]
        have e2 : ((marked σ2 h num).chunks h).req = num := by rw [hc3, if_pos rfl]
        have e3 : ((marked σ2 h num).chunks h).size = r := by rw [hc3, if_pos rfl]; exact b4
        rw [e1, e2, e3]
        simp
    · change σ2.used + (σ2.chunks h).size = _
      rw [b4, b9.used]
      rfl
    · exact b9.total
    · exact b9.cur
    · exact b9.extensions
  · have I3 := marked_inv (num := num) I1 h0 (by rw [hsz]; omega)
    have hc3 : ∀ j, (marked (removed σ h l) h num).chunks j =
        if j = h then { (removed σ h l).chunks h with req := num, id := σ.nextId } else (removed σ h l).chunks j := fun _ => rfl
    have huse : ∀ j, j ≠ h → SameUse (σ.chunks j) ((marked (removed σ h l) h num).chunks j) := by
      intro j e
      rw [hc3, if_neg e]
      exact hs1 j
    have hidh : ((marked (removed σ h l) h num).chunks h).id ≠ -1 := by rw [hc3, if_pos rfl]; exact hnid
    refine ⟨marked (removed σ h l) h num, _, fl, (σ.chunks h).size, ?_,
      ⟨⟨I3, ?_⟩, rfl, ?_, ?_, by omega, rfl, rfl, rfl⟩, hr, by omega, by omega⟩
    · unfold takeChunk
      rw [e1]
      simp only [ok_bind]
      rw [chunkAt_ok (I1.lt hm)]
      simp only [ok_bind]
      rw [hsz, hmod, if_neg hcond]
      simp only [ok_bind, pure_ok]
      rw [chunkAt_ok (I1.lt hm)]
      change Out.ok (((removed σ h l).chunks h).ptr, marked (removed σ h l) h num) = _
      rw [(hs1 h).1]
    · intro g hg
      refine (C g hg).mono ?_
      intro j hj hi
      by_cases e : j = h
      · rw [e]; exact hidh
      · rw [(huse j e).2.2.1]; exact hi
    · refine ⟨liveL σ.chunks (hsOf P) ++ liveL σ.chunks A, liveL σ.chunks B ++ liveL σ.chunks (hsOf Q), ?_, ?_⟩
      · rw [liveOf_at, liveL_append, liveL_free hid]; simp
      · rw [liveOf_at, liveL_append, liveL_used hidh,
          liveL_congr (l := hsOf P) (fun j hj => huse j (fun e => hno j (by simp [hj]) (by simp [e]))),
          liveL_congr (l := hsOf Q) (fun j hj => huse j (fun e => hno j (by simp [hj]) (by simp [e]))),
          liveL_congr (l := A) (fun j hj => huse j (fun e => n4 j hj h (.inl rfl) e)),
          liveL_congr (l := B) (fun j hj => huse j (fun e => n2 (by rw [← e]; exact hj)))]
        have e1 : ((marked (removed σ h l) h num).chunks h).ptr = (σ.chunks h).ptr := by
          rw [hc3, if_pos rfl]; exact (hs1 h).1
        have e2 : ((marked (removed σ h l) h num).chunks h).req = num := by rw [hc3, if_pos rfl]
        have e3 : ((marked (removed σ h l) h num).chunks h).size = (σ.chunks h).size := by rw [hc3, if_pos rfl]; exact hsz
        rw [e1, e2, e3]
        simp
    · change (removed σ h l).used + ((removed σ h l).chunks h).size = _
      rw [hsz]
      rfl

/-! ## Giving back -/

/-- The merge with the next chunk. -/
def stage1 (σ : Arena) (h : Nat) : Out Arena :=
  match (σ.chunks h).next with
  | none => pure σ
  | some m => do
    let e ← chunkAt σ m
    if e.inUse then pure σ
    else do
      let σ ← removeBin σ m
      let c ← chunkAt σ h
      match c.next with
      | none => .throws
      | some m => merge σ h m

/-- The merge with the previous chunk. -/
def stage2 (σ : Arena) (h : Nat) : Out Arena := do
  let c ← chunkAt σ h
  match c.prev with
  | none => insertBin σ h
  | some m => do
    let e ← chunkAt σ m
    if e.inUse then insertBin σ h
    else do
      let σ ← removeBin σ m
      let c ← chunkAt σ h
      match c.prev with
      | none => .throws
      | some m' => do
        let σ ← merge σ m' h
        insertBin σ m

theorem bind_assoc' {α β γ : Type} (x : Out α) (f : α → Out β) (g : β → Out γ) :
    ((x >>= f) >>= g) = (x >>= fun a => f a >>= g) := by
  cases x <;> rfl

theorem freeChunk_stages {σ G fl} {h : Nat} (I : Inv σ G fl []) (hm : h ∈ hsOf G) (hid : (σ.chunks h).id ≠ -1) :
    freeChunk σ h = (stage1 (unmarked σ h) h >>= fun σ => stage2 σ h) := by
  have hbin : (σ.chunks h).bin = none := by rw [I.binof h hm]; simp [hid]
  unfold freeChunk
  rw [chunkAt_ok (I.lt hm)]
  simp only [ok_bind]
  rw [if_neg (by simp [Chunk.inUse, hid, hbin])]
  have : ((unmarked σ h).chunks h).next = (σ.chunks h).next := by simp [unmarked, Arena.set]
  unfold stage1
  rw [this]
  generalize hτ : ({ σ.set h { σ.chunks h with id := -1 } with used := σ.used - (σ.chunks h).size } : Arena) = τ
  rw [show unmarked σ h = τ from hτ]
  clear hτ this hbin
  cases (σ.chunks h).next with
  | none => rfl
  | some m =>
    simp only [bind_assoc']
    change (chunkAt τ m >>= _) = _
    congr 1
    funext e
    by_cases he : e.inUse = true
    · rw [if_pos he, if_pos he]; rfl
    · rw [if_neg he, if_neg he, bind_assoc']
      congr 1
      funext τ'
      rw [bind_assoc']
      congr 1
      funext c
      cases c.next <;> rfl

theorem removed_use (σ : Arena) (h : Nat) (l : List Nat) (j : Nat) : SameUse (σ.chunks j) ((removed σ h l).chunks j) ∧
    SameGeo (σ.chunks j) ((removed σ h l).chunks j) := by
  simp only [removed, Arena.set, Arena.setBin]
  by_cases e : j = h
  · subst e; rw [if_pos rfl]; exact ⟨⟨rfl, rfl, rfl, rfl⟩, ⟨rfl, rfl, rfl, rfl⟩⟩
  · rw [if_neg e]; exact ⟨SameUse.refl _, SameGeo.refl _⟩

theorem Rest.refl (σ : Arena) : Rest σ σ := ⟨rfl, rfl, rfl, rfl, rfl⟩

theorem Rest.trans {a b c : Arena} (h : Rest a b) (h' : Rest b c) : Rest a c :=
  ⟨by rw [h'.nextId, h.nextId], by rw [h'.used, h.used], by rw [h'.total, h.total], by rw [h'.cur, h.cur],
    by rw [h'.extensions, h.extensions]⟩

theorem stage1_ok {σ P R A h B Q fl} (I : Inv σ (P ++ (R, A ++ h :: B) :: Q) fl [h]) (hA : Adj σ.chunks B) :
    ∃ σ' R' B' fl', stage1 σ h = .ok σ' ∧ Inv σ' (P ++ (R', A ++ h :: B') :: Q) fl' [h] ∧ R'.base = R.base ∧ R'.size = R.size ∧
      R'.id = R.id ∧ (σ'.chunks h).ptr = (σ.chunks h).ptr ∧
      (∀ j ∈ hsOf (P ++ (R', A ++ h :: B') :: Q), j ≠ h → SameUse (σ.chunks j) (σ'.chunks j)) ∧ Adj σ'.chunks B' ∧
      (∀ y ∈ B'.head?, (σ'.chunks y).id ≠ -1) ∧ liveL σ'.chunks B' = liveL σ.chunks B ∧ Rest σ σ' ∧
      (∀ j ∈ B', j ∈ B) := by
  obtain ⟨hpr, hnx⟩ := I.links
  have hhm : h ∈ hsOf (P ++ (R, A ++ h :: B) :: Q) := mem_mid.2 (.inr (.inl (by simp)))
  unfold stage1
  cases B with
  | nil =>
    rw [hnx]
    exact ⟨σ, R, [], fl, rfl, I, rfl, rfl, rfl, rfl, fun _ _ _ => SameUse.refl _, hA, by simp, rfl, Rest.refl _, fun _ h => h⟩
  | cons m B =>
    rw [hnx]
    simp only [List.head?_cons]
    have hmm : m ∈ hsOf (P ++ (R, A ++ h :: m :: B) :: Q) := mem_mid.2 (.inr (.inl (by simp)))
    rw [chunkAt_ok (I.lt hmm)]
    simp only [ok_bind]
    by_cases hid : (σ.chunks m).id = -1
    · rw [if_neg (by simp [Chunk.inUse, hid])]
      have hndP := I.nodup_region
      simp only [List.nodup_append, List.nodup_cons, List.mem_cons, not_or] at hndP
      obtain ⟨n1, ⟨⟨n2, n3⟩, n4, n5⟩, n6⟩ := hndP
      obtain ⟨l, e1, I1⟩ := removeBin_ok I hmm hid (by simp [Ne.symm n2])
      rw [e1]
      simp only [ok_bind]
      rw [chunkAt_ok (I1.lt hhm)]
      simp only [ok_bind]
      have hn1 : ((removed σ m l).chunks h).next = some m := by
        rw [← (removed_use σ m l h).2.2.2.2, hnx]; rfl
      rw [hn1]
      simp only
      obtain ⟨σ', R', e2, I2, b1, b2, b3, b4, b5, b6, b7⟩ := merge_ok I1 (fun j => by simp; tauto)
      have hsub : ∀ j, j ∈ hsOf (P ++ (R', A ++ h :: B) :: Q) → j ∈ hsOf (P ++ (R, A ++ h :: m :: B) :: Q) := by
        intro j hj
        rw [mem_mid] at hj ⊢
        simp only [List.mem_append, List.mem_cons] at hj ⊢
        tauto
      have hmo : m ∉ hsOf (P ++ (R', A ++ h :: B) :: Q) := fun hx => I2.not_fl hx (by simp)
      have huse : ∀ j ∈ hsOf (P ++ (R', A ++ h :: B) :: Q), j ≠ h → SameUse (σ.chunks j) (σ'.chunks j) := by
        intro j hj e
        exact (removed_use σ m l j).1.trans (b6 j (hsub j hj) e (fun e => hmo (by rw [← e]; exact hj)))
      have huB : ∀ j ∈ B, SameUse (σ.chunks j) (σ'.chunks j) := fun j hj =>
        huse j (mem_mid.2 (.inr (.inl (by simp [hj])))) (fun e => n3 (by rw [← e]; exact hj))
      unfold Adj at hA
      rw [List.isChain_cons] at hA
      refine ⟨σ', R', B, m :: fl, e2, I2, b1, b2, b3, ?_, huse, ?_, ?_, ?_, ?_, fun j hj => by simp [hj]⟩
      · rw [b5, (removed_use σ m l h).1.1]
      · exact Adj.mono (cs := σ.chunks) hA.2 (fun j hj hi => by rw [(huB j hj).2.2.1]; exact hi)
      · intro y hy
        rw [(huB y (List.mem_of_mem_head? hy)).2.2.1]
        rcases hA.1 y hy with h | h
        · exact absurd hid h
        · exact h
      · rw [liveL_congr huB, liveL_free hid]
      · exact Rest.trans (b := removed σ m l) ⟨rfl, rfl, rfl, rfl, rfl⟩ b7
    · rw [if_pos (by simp [Chunk.inUse, hid])]
      exact ⟨σ, R, m :: B, fl, rfl, I, rfl, rfl, rfl, rfl, fun _ _ _ => SameUse.refl _, hA,
        fun y hy => by simp only [List.head?_cons, Option.mem_def, Option.some.injEq] at hy; subst hy; exact hid,
        rfl, Rest.refl _, fun _ h => h⟩

theorem inserted_use (σ : Arena) (h : Nat) (j : Nat) : SameUse (σ.chunks j) ((inserted σ h).chunks j) := by
  simp only [inserted, Arena.set, Arena.setBin]
  by_cases e : j = h
  · subst e; rw [if_pos rfl]; exact ⟨rfl, rfl, rfl, rfl⟩
  · rw [if_neg e]; exact SameUse.refl _

theorem stage2_ok {σ P R A h B Q fl} (I : Inv σ (P ++ (R, A ++ h :: B) :: Q) fl [h]) (hA : Adj σ.chunks A) (hB : Adj σ.chunks B)
    (hy : ∀ y ∈ B.head?, (σ.chunks y).id ≠ -1) :
    ∃ σ' R' hs' fl', stage2 σ h = .ok σ' ∧ Inv σ' (P ++ (R', hs') :: Q) fl' [] ∧ R'.base = R.base ∧ R'.size = R.size ∧
      R'.id = R.id ∧ (∀ j ∈ hsOf P ++ hsOf Q, SameUse (σ.chunks j) (σ'.chunks j)) ∧ Adj σ'.chunks hs' ∧
      liveL σ'.chunks hs' = liveL σ.chunks A ++ liveL σ.chunks B ∧ Rest σ σ' := by
  obtain ⟨hpr, hnx⟩ := I.links
  have hhm : h ∈ hsOf (P ++ (R, A ++ h :: B) :: Q) := mem_mid.2 (.inr (.inl (by simp)))
  have hidh := (I.xs h (by simp)).2
  have hndP := I.nodup_region
  simp only [List.nodup_append, List.nodup_cons, List.mem_cons, not_or] at hndP
  obtain ⟨n1, ⟨n2, n3⟩, n4⟩ := hndP
  -- no merge
  have plain : (∀ y ∈ A.getLast?, (σ.chunks y).id ≠ -1) → insertBin σ h = .ok (inserted σ h) ∧
      Inv (inserted σ h) (P ++ (R, A ++ h :: B) :: Q) fl [] ∧ Adj (inserted σ h).chunks (A ++ h :: B) ∧
      liveL (inserted σ h).chunks (A ++ h :: B) = liveL σ.chunks A ++ liveL σ.chunks B := by
    intro hl
    refine ⟨insertBin_ok I, insertBin_inv I (by simp), ?_, ?_⟩
    · refine Adj.mono (cs := σ.chunks) ?_ (fun j _ hi => by rw [(inserted_use σ h j).2.2.1]; exact hi)
      unfold Adj at hA hB ⊢
      rw [List.isChain_append, List.isChain_cons]
      refine ⟨hA, ⟨fun y h => .inr (hy y h), hB⟩, fun x hx y hy => .inl (hl x hx)⟩
    · rw [liveL_congr (fun j _ => inserted_use σ h j), liveL_append, liveL_free hidh]
  unfold stage2
  rw [chunkAt_ok (I.lt hhm)]
  simp only [ok_bind]
  rcases List.eq_nil_or_concat A with rfl | ⟨A', m, hA'⟩
  · rw [hpr]
    simp only [List.getLast?_nil]
    obtain ⟨p1, p2, p3, p4⟩ := plain (by simp)
    exact ⟨_, R, _, fl, p1, p2, rfl, rfl, rfl, fun j _ => inserted_use σ h j, p3, p4, ⟨rfl, rfl, rfl, rfl, rfl⟩⟩
  · rw [List.concat_eq_append] at hA'
    subst hA'
    rw [hpr]
    simp only [List.getLast?_append, List.getLast?_singleton, Option.some_or]
    have hmm : m ∈ hsOf (P ++ (R, A' ++ [m] ++ h :: B) :: Q) := mem_mid.2 (.inr (.inl (by simp)))
    rw [chunkAt_ok (I.lt hmm)]
    simp only [ok_bind]
    by_cases hid : (σ.chunks m).id = -1
    · rw [if_neg (by simp [Chunk.inUse, hid])]
      have hmh : m ≠ h := fun e => n4 m (by simp) h (.inl rfl) e
      obtain ⟨l, e1, I1⟩ := removeBin_ok I hmm hid (by simp [hmh])
      rw [e1]
      simp only [ok_bind]
      rw [chunkAt_ok (I1.lt hhm)]
      simp only [ok_bind]
      have hn1 : ((removed σ m l).chunks h).prev = some m := by
        rw [← (removed_use σ m l h).2.2.2.1, hpr]; simp
      rw [hn1]
      simp only
      have eA : A' ++ [m] ++ h :: B = A' ++ m :: h :: B := by simp
      rw [eA] at I1
      obtain ⟨σ', R', e2, I2, b1, b2, b3, b4, b5, b6, b7⟩ := merge_ok I1 (fun j => by simp)
      have hmo : h ∉ hsOf (P ++ (R', A' ++ m :: B) :: Q) := fun hx => I2.not_fl hx (by simp)
      have huse : ∀ j ∈ hsOf (P ++ (R', A' ++ m :: B) :: Q), j ≠ m → SameUse (σ.chunks j) ((inserted σ' m).chunks j) := by
        intro j hj e
        refine ((removed_use σ m l j).1.trans (b6 j ?_ e (fun e => hmo (by rw [← e]; exact hj)))).trans (inserted_use σ' m j)
        rw [mem_mid] at hj ⊢
        simp only [List.mem_append, List.mem_cons] at hj ⊢
        tauto
      have hndQ := I2.nodup_region
      simp only [List.nodup_append, List.nodup_cons, List.mem_cons, not_or] at hndQ
      obtain ⟨q1, ⟨q2, q3⟩, q4⟩ := hndQ
      have huA : ∀ j ∈ A', SameUse (σ.chunks j) ((inserted σ' m).chunks j) := fun j hj =>
        huse j (mem_mid.2 (.inr (.inl (by simp [hj])))) (fun e => q4 j hj m (.inl rfl) e)
      have huB : ∀ j ∈ B, SameUse (σ.chunks j) ((inserted σ' m).chunks j) := fun j hj =>
        huse j (mem_mid.2 (.inr (.inl (by simp [hj])))) (fun e => q2 (by rw [← e]; exact hj))
      have I3 := insertBin_inv I2 (by simp)
      have idm := (I2.xs m (by simp)).2
      have idm' : ((inserted σ' m).chunks m).id = -1 := by rw [(inserted_use σ' m m).2.2.1]; exact idm
      refine ⟨inserted σ' m, R', A' ++ m :: B, h :: fl, ?_, I3, b1, b2, b3, ?_, ?_, ?_, ?_⟩
      · rw [e2]
        exact insertBin_ok I2
      · intro j hj
        refine huse j ?_ ?_
        · rw [mem_mid]; simp only [List.mem_append] at hj; tauto
        · intro e
          exact I2.other hj (by simp [e])
      · unfold Adj at hA hB ⊢
        rw [List.isChain_append] at hA
        rw [List.isChain_append, List.isChain_cons]
        refine ⟨Adj.mono (cs := σ.chunks) hA.1 (fun j hj hi => by rw [(huA j hj).2.2.1]; exact hi), ⟨?_, ?_⟩, ?_⟩
        · intro y hy'
          right
          rw [(huB y (List.mem_of_mem_head? hy')).2.2.1]
          exact hy y hy'
        · exact Adj.mono (cs := σ.chunks) hB (fun j hj hi => by rw [(huB j hj).2.2.1]; exact hi)
        · intro x hx y hy'
          left
          rw [(huA x (List.mem_of_getLast? hx)).2.2.1]
          rcases hA.2.2 x hx m (by simp) with h | h
          · exact h
          · exact absurd hid h
      · rw [liveL_append, liveL_free idm', liveL_congr huA, liveL_congr huB, liveL_append, liveL_free hid]
        simp [liveL]
      · exact Rest.trans (b := removed σ m l) ⟨rfl, rfl, rfl, rfl, rfl⟩ (Rest.trans (b := σ') b7 ⟨rfl, rfl, rfl, rfl, rfl⟩)
    · rw [if_pos (by simp [Chunk.inUse, hid])]
      obtain ⟨p1, p2, p3, p4⟩ := plain (by simp [hid])
      exact ⟨_, R, _, fl, p1, p2, rfl, rfl, rfl, fun j _ => inserted_use σ h j, p3, p4, ⟨rfl, rfl, rfl, rfl, rfl⟩⟩

/-- What a call of `Free` does to the state. -/
structure Gave (σ : Arena) (G : Ghost) (σ' : Arena) (G' : Ghost) (fl' : List Nat) (p num s : Nat) : Prop where
  good : Good σ' G' fl'
  shape : shape G' = shape G
  live : ∃ X Y, liveOf σ.chunks G = X ++ (p, num, s) :: Y ∧ liveOf σ'.chunks G' = X ++ Y
  used : σ'.used + s = σ.used
  total : σ'.total = σ.total
  cur : σ'.cur = σ.cur
  extensions : σ'.extensions = σ.extensions
  nextId : σ'.nextId = σ.nextId

theorem freeChunk_ok {σ G fl} {h : Nat} (Gd : Good σ G fl) (hm : h ∈ hsOf G) (hid : (σ.chunks h).id ≠ -1) :
    ∃ σ' G' fl', freeChunk σ h = .ok σ' ∧ Gave σ G σ' G' fl' (σ.chunks h).ptr (σ.chunks h).req (σ.chunks h).size := by
  obtain ⟨I, C⟩ := Gd
  rw [freeChunk_stages I hm hid]
  obtain ⟨I0, hu⟩ := unmarked_inv I hm hid
  obtain ⟨P, R, A, B, Q, rfl⟩ := I.split hm
  have hndP := I.nodup_region
  simp only [List.nodup_append, List.nodup_cons, List.mem_cons, not_or] at hndP
  obtain ⟨n1, ⟨n2, n3⟩, n4⟩ := hndP
  have u0 : ∀ j, j ≠ h → SameUse (σ.chunks j) ((unmarked σ h).chunks j) := by
    intro j e
    simp only [unmarked, Arena.set]
    rw [if_neg e]
    exact SameUse.refl _
  have hC := C (R, A ++ h :: B) (by simp)
  simp only at hC
  unfold Adj at hC
  rw [List.isChain_append, List.isChain_cons] at hC
  obtain ⟨c1, ⟨_, c2⟩, _⟩ := hC
  have a1 : Adj (unmarked σ h).chunks B := Adj.mono (cs := σ.chunks) c2
    (fun j hj hi => by rw [(u0 j (fun e => n2 (by rw [← e]; exact hj))).2.2.1]; exact hi)
  have a2 : Adj (unmarked σ h).chunks A := Adj.mono (cs := σ.chunks) c1
    (fun j hj hi => by rw [(u0 j (fun e => n4 j hj h (.inl rfl) e)).2.2.1]; exact hi)
  obtain ⟨σ1, R1, B1, fl1, e1, I1, b1, b2, b3, b4, b5, b6, b7, b8, b9, b10⟩ := stage1_ok I0 a1
  rw [e1]
  simp only [ok_bind]
  have u1A : ∀ j ∈ A, SameUse ((unmarked σ h).chunks j) (σ1.chunks j) := fun j hj =>
    b5 j (mem_mid.2 (.inr (.inl (by simp [hj])))) (fun e => n4 j hj h (.inl rfl) e)
  have a3 : Adj σ1.chunks A := a2.mono (fun j hj hi => by rw [(u1A j hj).2.2.1]; exact hi)
  obtain ⟨σ2, R2, hs2, fl2, e2, I2, d1, d2, d3, d4, d5, d6, d7⟩ := stage2_ok I1 a3 b6 b7
  have uO : ∀ j ∈ hsOf P ++ hsOf Q, SameUse (σ.chunks j) (σ2.chunks j) := by
    intro j hj
    have hne : j ≠ h := fun e => I.other hj (by simp [e])
    refine ((u0 j hne).trans (b5 j ?_ hne)).trans (d4 j hj)
    rw [mem_mid]; simp only [List.mem_append] at hj; tauto
  refine ⟨σ2, P ++ (R2, hs2) :: Q, fl2, e2, ⟨I2, ?_⟩, ?_, ?_, ?_, ?_, ?_, ?_, ?_⟩
  · exact Coal.mid C (fun j hj => (uO j hj).2.2.1) d5
  · simp [Bfc.shape, b1, b2, b3, d1, d2, d3]
  · refine ⟨liveL σ.chunks (hsOf P) ++ liveL σ.chunks A, liveL σ.chunks B ++ liveL σ.chunks (hsOf Q), ?_, ?_⟩
    · rw [liveOf_at, liveL_append, liveL_used hid]; simp
    · rw [liveOf_at, d6, b8, liveL_congr u1A,
        liveL_congr (l := hsOf P) (fun j hj => uO j (by simp [hj])), liveL_congr (l := hsOf Q) (fun j hj => uO j (by simp [hj])),
        liveL_congr (l := A) (fun j hj => u0 j (fun e => n4 j hj h (.inl rfl) e)),
        liveL_congr (l := B) (fun j hj => u0 j (fun e => n2 (by rw [← e]; exact hj)))]
      simp
  · rw [d7.used, b9.used]; exact hu
  · rw [d7.total, b9.total]; rfl
  · rw [d7.cur, b9.cur]; rfl
  · rw [d7.extensions, b9.extensions]; rfl
  · rw [d7.nextId, b9.nextId]; rfl

end Verif.Bfc
