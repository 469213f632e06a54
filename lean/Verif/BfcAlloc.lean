/-
The invariant of the arena: searching, extending, and the calls.
-/
import Verif.BfcOps

namespace Verif.Bfc

/-! ## Sizes -/

theorem binNum_mono {a b : Nat} (h : a ≤ b) : binNum a ≤ binNum b := by
  unfold binNum
  have h1 : max a 256 / 256 ≤ max b 256 / 256 := Nat.div_le_div_right (by omega)
  have h2 : Nat.log2 (max a 256 / 256) ≤ Nat.log2 (max b 256 / 256) := by
    have hb : max b 256 / 256 ≠ 0 := by omega
    have ha : max a 256 / 256 ≠ 0 := by omega
    rw [Nat.le_log2 hb]
    exact Nat.le_trans (Nat.log2_self_le ha) h1
  omega

theorem binNum_le (a : Nat) : binNum a ≤ 20 := by
  unfold binNum
  omega

/-- Rounding up to a multiple of 256. -/
theorem rounded_eq {n : Nat} (h : n + 255 < 2 ^ 64) : rounded n = (n + 255) / 256 * 256 := by
  unfold rounded
  rw [Nat.mod_eq_of_lt h, Nat.mul_comm]

theorem rounded_facts {n : Nat} (h : n + 255 < 2 ^ 64) : n ≤ rounded n ∧ rounded n < n + 256 ∧ 256 ∣ rounded n := by
  rw [rounded_eq h]
  omega

/-! ## Searching -/

theorem searchBin_ok {σ G fl} (I : Inv σ G fl []) (r b : Nat) : ∀ l : List Nat, (∀ h ∈ l, h ∈ σ.bins b) →
    searchBin σ r l = .ok (l.find? fun h => r ≤ (σ.chunks h).size) := by
  intro l
  induction l with
  | nil => intro _; rfl
  | cons h l ih =>
    intro hl
    obtain ⟨a1, _, a3, _⟩ := (I.binmem b h).1 (hl h (by simp))
    rw [searchBin, chunkAt_ok (I.lt a1)]
    simp only [ok_bind]
    rw [if_neg (by simp [Chunk.inUse, a3])]
    by_cases hr : r ≤ (σ.chunks h).size
    · rw [if_pos hr, List.find?_cons_of_pos (by simpa using hr)]; rfl
    · rw [if_neg hr, List.find?_cons_of_neg (by simpa using hr)]
      exact ih (fun x hx => hl x (by simp [hx]))

theorem searchBins_ok {σ G fl} (I : Inv σ G fl []) (r : Nat) : ∀ bs : List Nat, bs.Pairwise (· < ·) →
    ∃ o, searchBins σ r bs = .ok o ∧
      (o = none → ∀ b ∈ bs, ∀ h ∈ σ.bins b, (σ.chunks h).size < r) ∧
      (∀ b h, o = some (b, h) → b ∈ bs ∧ h ∈ σ.bins b ∧ r ≤ (σ.chunks h).size ∧
        (∀ b' ∈ bs, b' < b → ∀ h' ∈ σ.bins b', (σ.chunks h').size < r) ∧
        (∀ h' ∈ σ.bins b, r ≤ (σ.chunks h').size → h' = h ∨ less σ.chunks h h' = true)) := by
  intro bs
  induction bs with
  | nil => intro _; exact ⟨none, rfl, by simp, by simp⟩
  | cons b bs ih =>
    intro hp
    obtain ⟨p1, p2⟩ := List.pairwise_cons.1 hp
    rw [searchBins, searchBin_ok I r b (σ.bins b) (fun _ h => h)]
    simp only [ok_bind]
    cases hf : (σ.bins b).find? (fun h => r ≤ (σ.chunks h).size) with
    | some h =>
      refine ⟨some (b, h), rfl, by simp, ?_⟩
      intro b' h' e
      simp only [Option.some.injEq, Prod.mk.injEq] at e
      obtain ⟨rfl, rfl⟩ := e
      have hm := List.mem_of_find?_eq_some hf
      have hr : r ≤ (σ.chunks h).size := by simpa using List.find?_some hf
      refine ⟨by simp, hm, hr, ?_, ?_⟩
      · intro b' hb' hlt
        rcases List.mem_cons.1 hb' with rfl | hb'
        · omega
        · have := p1 b' hb'; omega
      · intro h' hh' hr'
        obtain ⟨_, as, bs', e1, e2⟩ := List.find?_eq_some_iff_append.1 hf
        have hs := I.sorted b
        rw [e1] at hs hh'
        rw [List.mem_append, List.mem_cons] at hh'
        rcases hh' with h1 | h1 | h1
        · have := e2 h' h1
          simp at this
          omega
        · exact .inl h1
        · rw [List.pairwise_append, List.pairwise_cons] at hs
          exact .inr (hs.2.1.1 h' h1)
    | none =>
      have hno : ∀ h ∈ σ.bins b, (σ.chunks h).size < r := by
        intro h hh
        have := List.find?_eq_none.1 hf h hh
        simp at this
        exact this
      obtain ⟨o, e1, e2, e3⟩ := ih p2
      refine ⟨o, e1, ?_, ?_⟩
      · intro ho b' hb'
        rcases List.mem_cons.1 hb' with rfl | hb'
        · exact hno
        · exact e2 ho b' hb'
      · intro b' h' ho
        obtain ⟨a1, a2, a3, a4, a5⟩ := e3 b' h' ho
        refine ⟨by simp [a1], a2, a3, ?_, a5⟩
        intro b'' hb'' hlt
        rcases List.mem_cons.1 hb'' with rfl | hb''
        · exact hno
        · exact a4 b'' hb'' hlt

/-- The search finds the smallest free chunk that is large enough, of those the lowest; it fails only when there is none. -/
theorem search_ok {σ G fl} (I : Inv σ G fl []) (r : Nat) :
    ∃ o, searchBins σ r ((List.range 21).drop (binNum r)) = .ok o ∧
      (o = none → ∀ h ∈ hsOf G, (σ.chunks h).id = -1 → (σ.chunks h).size < r) ∧
      (∀ b h, o = some (b, h) → h ∈ σ.bins b ∧ r ≤ (σ.chunks h).size ∧
        ∀ h' ∈ hsOf G, (σ.chunks h').id = -1 → r ≤ (σ.chunks h').size →
          (σ.chunks h).size < (σ.chunks h').size ∨ ((σ.chunks h).size = (σ.chunks h').size ∧ (σ.chunks h).ptr ≤ (σ.chunks h').ptr)) := by
  have hp : ((List.range 21).drop (binNum r)).Pairwise (· < ·) :=
    (List.pairwise_lt_range (n := 21)).sublist (List.drop_sublist _ _)
  have hmem : ∀ b, b ∈ (List.range 21).drop (binNum r) ↔ binNum r ≤ b ∧ b < 21 := by
    intro b
    rw [List.mem_drop_iff_getElem]
    constructor
    · rintro ⟨i, hi, e⟩
      simp at e hi
      omega
    · rintro ⟨h1, h2⟩
      exact ⟨b - binNum r, by simp; omega, by simp; omega⟩
  obtain ⟨o, e1, e2, e3⟩ := searchBins_ok I r _ hp
  refine ⟨o, e1, ?_, ?_⟩
  · intro ho h hh hid
    by_contra hc
    have hb := (I.inBin hh hid (by simp)).1
    have := e2 ho _ ((hmem _).2 ⟨binNum_mono (Nat.le_of_not_lt hc), by have := binNum_le (σ.chunks h).size; omega⟩) h hb
    exact hc this
  · intro b h ho
    obtain ⟨a1, a2, a3, a4, a5⟩ := e3 b h ho
    refine ⟨a2, a3, ?_⟩
    intro h' hh' hid' hr'
    obtain ⟨_, _, _, hbe⟩ := (I.binmem b h).1 a2
    have hb' := (I.inBin hh' hid' (by simp)).1
    rcases Nat.lt_trichotomy (binNum (σ.chunks h').size) b with hlt | heq | hgt
    · have := a4 _ ((hmem _).2 ⟨binNum_mono hr', by have := binNum_le (σ.chunks h').size; omega⟩) hlt h' hb'
      omega
    · rw [heq] at hb'
      rcases a5 h' hb' hr' with rfl | hl
      · exact .inr ⟨rfl, Nat.le_refl _⟩
      · rw [less_iff] at hl
        omega
    · left
      by_contra hc
      have := binNum_mono (Nat.le_of_not_lt hc)
      omega

/-! ## Extending -/

/-- What the construction is assumed to give: a limit below `2^62`, a positive `max_dead_bytes_per_chunk`, and a back-off that
makes less of a size. -/
structure Conf.Ok (cf : Conf) : Prop where
  limit : cf.limit ≤ 2 ^ 62
  dead : 1 ≤ cf.maxDead
  back : ∀ b, cf.back b ≤ b
  back8 : ∀ b, 8192 ≤ b → cf.back b + 256 ≤ b

/-- What the device is assumed to do: what it gives is not at null, not above `2^62` and apart from all that the arena holds. -/
structure DevOk (dev : Nat → Nat → Ans) (σ : Arena) : Prop where
  pos : ∀ k b a, dev k b = .mem a → 0 < a ∧ a + b ≤ 2 ^ 62
  apart : ∀ k b a, dev k b = .mem a → ∀ r ∈ σ.regions, a + b ≤ r.base ∨ r.base + r.size ≤ a

theorem doubling_ok (need : Nat) (hn : need ≤ 2 ^ 62) : ∀ fuel cur inc, 0 < cur → need ≤ cur * 2 ^ (fuel - 1) → 0 < fuel →
    256 ∣ cur → ∃ c i, doubling fuel need cur inc = .ok (c, i) ∧ need ≤ c ∧ 256 ∣ c ∧ 0 < c ∧
      (i = true → inc = true ∨ (cur < need ∧ c < 2 * need)) ∧ (i = false → c = cur ∧ inc = false) ∧ (c = cur ∨ c < 2 * need) := by
  intro fuel
  induction fuel with
  | zero => intro cur inc _ _ h; omega
  | succ fuel ih =>
    intro cur inc h0 h1 _ h4
    rw [doubling]
    by_cases hc : cur < need
    · rw [if_pos hc, Nat.mod_eq_of_lt (by omega)]
      have hf : 0 < fuel := by
        cases fuel with
        | zero => simp at h1; omega
        | succ f => omega
      have h1' : need ≤ cur * 2 * 2 ^ (fuel - 1) := by
        have e : (fuel + 1 - 1) = (fuel - 1) + 1 := by omega
        rw [e, Nat.pow_succ] at h1
        calc need ≤ cur * (2 ^ (fuel - 1) * 2) := h1
          _ = cur * 2 * 2 ^ (fuel - 1) := by rw [Nat.mul_assoc, Nat.mul_comm 2]
      obtain ⟨c, i, e1, e2, e3, e4, e5, e6, e7⟩ := ih (cur * 2) true (by omega) h1' hf (by omega)
      have hlt : c < 2 * need := by omega
      exact ⟨c, i, e1, e2, e3, e4, fun _ => .inr ⟨hc, hlt⟩, fun hi => by simpa using (e6 hi).2, .inr hlt⟩
    · rw [if_neg hc]
      exact ⟨cur, inc, rfl, by omega, h4, h0, fun h => .inl h, fun h => ⟨rfl, h⟩, .inl rfl⟩

theorem attempts_ok {cf : Conf} (hcf : cf.Ok) (dev : Nat → Nat → Ans) (need : Nat) : ∀ fuel k bytes, bytes < fuel → need ≤ bytes →
    256 ∣ bytes → bytes ≤ 2 ^ 62 →
    ∃ o, attempts cf dev need fuel k bytes = .ok o ∧
      (∀ a b, o = some (a, b) → need ≤ b ∧ b ≤ bytes ∧ 256 ∣ b ∧ ∃ k, dev k b = .mem a) ∧
      (o = none → ∃ k b, need ≤ b ∧ b ≤ bytes ∧ 256 ∣ b ∧ ∀ a, dev k b ≠ .mem a) ∧
      (∀ a, dev k bytes = .mem a → o = some (a, bytes)) := by
  intro fuel
  induction fuel with
  | zero => intro k bytes h; omega
  | succ fuel ih =>
    intro k bytes h1 h2 h3 h4
    rw [attempts]
    cases hd : dev k bytes with
    | mem a =>
      refine ⟨some (a, bytes), rfl, ?_, by simp, by simp⟩
      intro a' b' e
      simp only [Option.some.injEq, Prod.mk.injEq] at e
      obtain ⟨rfl, rfl⟩ := e
      exact ⟨h2, Nat.le_refl _, h3, k, hd⟩
    | raises => exact ⟨none, rfl, by simp, fun _ => ⟨k, bytes, h2, Nat.le_refl _, h3, by simp [hd]⟩, by simp⟩
    | null =>
      simp only
      have hb := hcf.back bytes
      obtain ⟨r1, r2, r3⟩ := rounded_facts (n := cf.back bytes) (by omega)
      by_cases hc : rounded (cf.back bytes) < need ∨ rounded (cf.back bytes) < 8192
      · rw [if_pos hc]
        exact ⟨none, rfl, by simp, fun _ => ⟨k, bytes, h2, Nat.le_refl _, h3, by simp [hd]⟩, by simp⟩
      · rw [if_neg hc]
        have h8 : 8192 ≤ bytes := by
          by_contra h8
          omega
        have := hcf.back8 bytes h8
        obtain ⟨o, e1, e2, e3, _⟩ := ih (k + 1) (rounded (cf.back bytes)) (by omega) (by omega) r3 (by omega)
        refine ⟨o, e1, ?_, ?_, by simp⟩
        · intro a b e
          obtain ⟨f1, f2, f3, f4⟩ := e2 a b e
          exact ⟨f1, by omega, f3, f4⟩
        · intro e
          obtain ⟨k', b, f1, f2, f3, f4⟩ := e3 e
          exact ⟨k', b, f1, by omega, f3, f4⟩

/-- The place of a new region. -/
theorem addRegion_at (r : Region) : ∀ G : Ghost, G.Pairwise (fun a b => a.1.base + a.1.size ≤ b.1.base) → 0 < r.size →
    (∀ g ∈ G, 0 < g.1.size ∧ (r.base + r.size ≤ g.1.base ∨ g.1.base + g.1.size ≤ r.base)) →
    ∃ P Q, G = P ++ Q ∧ addRegion r (G.map (·.1)) = P.map (·.1) ++ r :: Q.map (·.1) ∧
      (∀ g ∈ P, g.1.base + g.1.size ≤ r.base) ∧ (∀ g ∈ Q, r.base + r.size ≤ g.1.base) := by
  intro G
  induction G with
  | nil => intro _ _ _; exact ⟨[], [], rfl, rfl, by simp, by simp⟩
  | cons a G ih =>
    intro ho hr hd
    obtain ⟨o1, o2⟩ := List.pairwise_cons.1 ho
    simp only [List.map_cons, addRegion]
    by_cases hc : r.base < a.1.base + a.1.size
    · rw [if_pos hc]
      refine ⟨[], a :: G, rfl, rfl, by simp, ?_⟩
      have ha : r.base + r.size ≤ a.1.base := by
        have := hd a (by simp)
        omega
      intro g hg
      rcases List.mem_cons.1 hg with rfl | hg
      · exact ha
      · have := o1 g hg
        have := (hd a (by simp)).1
        omega
    · rw [if_neg hc]
      obtain ⟨P, Q, e1, e2, e3, e4⟩ := ih o2 hr (fun g hg => hd g (by simp [hg]))
      refine ⟨a :: P, Q, by rw [e1]; rfl, by rw [e2]; rfl, ?_, e4⟩
      intro g hg
      rcases List.mem_cons.1 hg with rfl | hg
      · omega
      · exact e3 g hg

theorem allocateChunk_with {σ σ1 : Arena} {k : Nat} (h : allocateChunk σ = .ok (k, σ1)) (t : Nat) (rs : List Region) (e : Nat) :
    allocateChunk { σ with total := t, regions := rs, extensions := e } =
      .ok (k, { σ1 with total := t, regions := rs, extensions := e }) := by
  unfold allocateChunk at h ⊢
  cases hf : σ.free with
  | none =>
    rw [hf] at h
    simp only [pure_ok, Out.ok.injEq, Prod.mk.injEq] at h ⊢
    obtain ⟨rfl, rfl⟩ := h
    refine ⟨rfl, ?_⟩
    simp [Arena.set, hf]
  | some m =>
    rw [hf] at h
    simp only [chunkAt] at h ⊢
    by_cases hl : m < σ.n
    · rw [if_pos hl] at h ⊢
      simp only [ok_bind, pure_ok, Out.ok.injEq, Prod.mk.injEq] at h ⊢
      obtain ⟨rfl, rfl⟩ := h
      exact ⟨rfl, rfl⟩
    · rw [if_neg hl] at h
      exact absurd h (by simp [bind, Out.bind])

/-- The end of `Extend`, once there is memory. -/
def grow (σ : Arena) (addr bytes : Nat) : Out (Bool × Arena) := do
  let σ : Arena := { σ with
    total := σ.total + bytes
    regions := addRegion ⟨addr, bytes, σ.extensions, fun _ => none⟩ σ.regions
    extensions := σ.extensions + 1 }
  let (h, σ) ← allocateChunk σ
  let c ← chunkAt σ h
  let σ := σ.set h { c with ptr := addr, size := bytes, id := -1, prev := none, next := none }
  let σ ← setHandle σ addr (some h)
  let σ ← insertBin σ h
  pure (true, σ)

theorem grow_ok {σ G fl} {addr bytes : Nat} (Gd : Good σ G fl) (hb : 0 < bytes) (hd : 256 ∣ bytes) (h0 : 0 < addr)
    (htop : addr + bytes ≤ 2 ^ 62) (hap : ∀ r ∈ σ.regions, addr + bytes ≤ r.base ∨ r.base + r.size ≤ addr) :
    ∃ σ' P Q R k fl', grow σ addr bytes = .ok (true, σ') ∧ G = P ++ Q ∧ Good σ' (P ++ (R, [k]) :: Q) fl' ∧
      R.base = addr ∧ R.size = bytes ∧ R.id = σ.extensions ∧ (σ'.chunks k).id = -1 ∧ (σ'.chunks k).size = bytes ∧
      (σ'.chunks k).ptr = addr ∧ (∀ j ∈ hsOf G, SameUse (σ.chunks j) (σ'.chunks j)) ∧
      liveOf σ'.chunks (P ++ (R, [k]) :: Q) = liveOf σ.chunks G ∧ σ'.used = σ.used ∧ σ'.total = σ.total + bytes ∧
      σ'.cur = σ.cur ∧ σ'.extensions = σ.extensions + 1 := by
  obtain ⟨I, C⟩ := Gd
  obtain ⟨k, σ1, fl1, e1, I1, S, hsame, f1, f2, f3, f4, f5, f6, f7⟩ := allocateChunk_ok I
  have hap' : ∀ g ∈ G, 0 < g.1.size ∧ (addr + bytes ≤ g.1.base ∨ g.1.base + g.1.size ≤ addr) := by
    intro g hg
    exact ⟨(I.geo g hg).size, hap g.1 (by rw [I.regs]; exact List.mem_map.2 ⟨g, hg, rfl⟩)⟩
  obtain ⟨P, Q, eG, ea, hP, hQ⟩ := addRegion_at ⟨addr, bytes, σ.extensions, fun _ => none⟩ G I.order hb hap'
  simp only at hP hQ
  subst eG
  generalize hR : (⟨addr, bytes, σ.extensions, fun _ => none⟩ : Region) = R at ea
  have hRb : R.base = addr := by rw [← hR]
  have hRs : R.size = bytes := by rw [← hR]
  have hRi : R.id = σ.extensions := by rw [← hR]
  have hRh : R.handles = fun _ => none := by rw [← hR]
  have horder : (P ++ (R, ([] : List Nat)) :: Q).Pairwise fun a b => a.1.base + a.1.size ≤ b.1.base := by
    have ho := I.order
    rw [List.pairwise_append] at ho ⊢
    rw [List.pairwise_cons]
    obtain ⟨o1, o2, o3⟩ := ho
    refine ⟨o1, ⟨?_, o2⟩, ?_⟩
    · intro g hg; simp only; rw [hRb, hRs]; exact hQ g hg
    · intro a ha b hb
      rcases List.mem_cons.1 hb with rfl | hb
      · simp only; rw [hRb]; exact hP a ha
      · exact o3 a ha b hb
  have hput := putRegions_at P Q (R, []) addr (some k) horder (by simp only; omega) (by simp only; omega) [k]
  have hks : k ∉ hsOf (P ++ Q) := fun h => S.out (by simp [h])
  have hkf : k ∉ fl1 := fun h => S.out (by simp [h])
  -- the state before the chunk is in a bin
  obtain ⟨c, hc⟩ : ∃ c : Chunk, c = { σ1.chunks k with ptr := addr, size := bytes, id := -1, prev := none, next := none } := ⟨_, rfl⟩
  obtain ⟨τ, hτ⟩ : ∃ τ : Arena, τ = { σ1.set k c with
      total := σ.total + bytes, regions := ((P ++ (R.put addr (some k), [k]) :: Q).map (·.1)), extensions := σ.extensions + 1 } := ⟨_, rfl⟩
  have hstep : grow σ addr bytes = (insertBin τ k >>= fun σ => pure (true, σ)) := by
    unfold grow
    rw [I.regs, hR, ea]
    change (allocateChunk { σ with total := σ.total + bytes, regions := _, extensions := σ.extensions + 1 } >>= _) = _
    rw [allocateChunk_with e1]
    simp only [ok_bind]
    rw [chunkAt, if_pos S.lt]
    simp only [ok_bind]
    unfold setHandle
    simp only [Arena.set]
    have : putRegions addr (some k) (P.map (·.1) ++ R :: Q.map (·.1)) = .ok ((P ++ (R.put addr (some k), [k]) :: Q).map (·.1)) := by
      rw [← hput]; simp
    rw [this]
    simp only [ok_bind, pure_ok]
    rw [hτ, hc]
    rfl
  have hne : ∀ j, j ≠ k → τ.chunks j = σ1.chunks j := fun j e => by rw [hτ]; exact if_neg e
  have hkk : τ.chunks k = c := by rw [hτ]; exact if_pos rfl
  have hO : ∀ j ∈ hsOf (P ++ Q), τ.chunks j = σ1.chunks j := fun j hj => hne j (fun e => hks (by rw [← e]; exact hj))
  have hperm : (hsOf (P ++ (R.put addr (some k), [k]) :: Q)).Perm (k :: hsOf (P ++ Q)) := by
    rw [hsOf_append, hsOf_cons, hsOf_append]
    exact List.perm_middle
  have hmemG : ∀ j, j ∈ hsOf (P ++ (R.put addr (some k), [k]) :: Q) ↔ j = k ∨ j ∈ hsOf (P ++ Q) := by
    intro j; rw [hperm.mem_iff, List.mem_cons]
  have hcid : (τ.chunks k).id = -1 := by rw [hkk, hc]
  have hcsz : (τ.chunks k).size = bytes := by rw [hkk, hc]
  have hcp : (τ.chunks k).ptr = addr := by rw [hkk, hc]
  have hcb : (τ.chunks k).bin = none := by rw [hkk, hc]; exact S.bin
  have hbins : τ.bins = σ1.bins := by rw [hτ]; rfl
  have hnid : τ.nextId = σ1.nextId := by rw [hτ]; rfl
  have It : Inv τ (P ++ (R.put addr (some k), [k]) :: Q) fl1 [k] := {
    regs := by rw [hτ]
    order := by
      have ho := horder
      rw [List.pairwise_append, List.pairwise_cons] at ho ⊢
      simp only [List.mem_cons, forall_eq_or_imp, Region.put] at ho ⊢
      exact ho
    geo := by
      intro g hg
      have aux : ∀ g, g ∈ P ++ Q → Geo τ.chunks g := fun g hg =>
        (I1.geo g hg).congr (fun j hj => SameGeo.of_eq (hO j (mem_hsOf.2 ⟨g, hg, hj⟩)))
      rw [List.mem_append, List.mem_cons] at hg
      rcases hg with hg | rfl | hg
      · exact aux g (by simp [hg])
      · refine ⟨by simp only [Region.put]; omega, by simp only [Region.put]; omega, by simp only [Region.put]; omega, ?_, ?_, ?_⟩
        · refine ⟨by rw [hcp]; exact hRb.symm, by rw [hkk, hc], by rw [hkk, hc]; rfl, by omega, by rw [hcsz]; exact hd, ?_⟩
          change R.base + (τ.chunks k).size = R.base + R.size
          omega
        · intro j hj
          simp only [List.mem_singleton] at hj
          subst hj
          change (if ((τ.chunks j).ptr - R.base) / 256 = (addr - R.base) / 256 then some j else _) = _
          rw [hcp, if_pos rfl]
        · intro i j hj
          change (if i = (addr - R.base) / 256 then some k else R.handles i) = some j at hj
          by_cases e : i = (addr - R.base) / 256
          · rw [if_pos e] at hj
            injection hj with hj
            subst hj
            refine ⟨by simp, ?_⟩
            change _ = R.base + 256 * i
            rw [hcp, hRb]
            have : (addr - R.base) / 256 = 0 := by rw [hRb]; simp
            omega
          · rw [if_neg e, hRh] at hj
            simp at hj
      · exact aux g (by simp [hg])
    nodup := by
      have : (hsOf (P ++ (R.put addr (some k), [k]) :: Q) ++ fl1).Perm (k :: (hsOf (P ++ Q) ++ fl1)) := hperm.append_right fl1
      rw [this.nodup_iff, List.nodup_cons]
      exact ⟨S.out, I1.nodup⟩
    bound := by
      intro j hj
      have hn : τ.n = σ1.n := by rw [hτ]; rfl
      rw [hn]
      rw [List.mem_append, hmemG] at hj
      rcases hj with (rfl | hj) | hj
      · exact S.lt
      · exact I1.bound j (by simp [hj])
      · exact I1.bound j (by simp [hj])
    flist := by
      have hf : τ.free = σ1.free := by rw [hτ]; rfl
      rw [hf]
      refine I1.flist.congr (fun j hj => ?_)
      rw [hne j (fun e => hkf (by rw [← e]; exact hj))]
    flbin := fun j hj => by
      rw [hne j (fun e => hkf (by rw [← e]; exact hj))]
      exact I1.flbin j hj
    binmem := by
      intro b j
      rw [hbins, I1.binmem, hmemG]
      by_cases e : j = k
      · subst e; simp [hks]
      · rw [hne j e]; simp [e]
    binof := by
      intro j hj
      by_cases e : j = k
      · subst e; rw [hcb]; simp
      · rw [hne j e, I1.binof j (((hmemG j).1 hj).resolve_left e)]; simp [e]
    xs := by
      intro j hj
      simp only [List.mem_singleton] at hj
      subst hj
      exact ⟨(hmemG _).2 (.inl rfl), hcid⟩
    sorted := by
      intro b
      rw [hbins]
      refine (I1.sorted b).imp_of_mem ?_
      intro a d ha hd hac
      have e1 := hO a ((I1.binmem b a).1 ha).1
      have e2 := hO d ((I1.binmem b d).1 hd).1
      unfold less at hac ⊢
      rw [e1, e2]
      exact hac
    next := by rw [hnid]; exact I1.next
    ids := by
      intro j hj
      by_cases e : j = k
      · subst e; exact .inl hcid
      · rw [hne j e, hnid]; exact I1.ids j (((hmemG j).1 hj).resolve_left e)
    req := by
      intro j hj hi
      by_cases e : j = k
      · subst e; exact absurd hcid hi
      · rw [hne j e] at hi ⊢; exact I1.req j (((hmemG j).1 hj).resolve_left e) hi
    used := by
      change _ = ((hsOf _).map (weight τ.chunks)).sum
      rw [(hperm.map _).sum_nat, List.map_cons, List.sum_cons]
      have w : weight τ.chunks k = 0 := by unfold weight; simp [hcid]
      have w2 : (hsOf (P ++ Q)).map (weight τ.chunks) = (hsOf (P ++ Q)).map (weight σ1.chunks) := by
        apply List.map_congr_left
        intro j hj
        unfold weight
        rw [hO j hj]
      rw [w, w2, Nat.zero_add]
      have hu : τ.used = σ1.used := by rw [hτ]; rfl
      rw [hu]
      exact I1.used
    total := by
      have ht : τ.total = σ.total + bytes := by rw [hτ]
      rw [ht, I.total]
      simp [Region.put, hRs]
      omega }
  have huse : ∀ j ∈ hsOf (P ++ Q), SameUse (σ.chunks j) ((inserted τ k).chunks j) := by
    intro j hj
    have := inserted_use τ k j
    rw [hO j hj, hsame j hj] at this
    exact this
  have hidk : ((inserted τ k).chunks k).id = -1 := by rw [(inserted_use τ k k).2.2.1]; exact hcid
  refine ⟨inserted τ k, P, Q, R.put addr (some k), k, fl1, ?_, rfl, ⟨insertBin_inv It (by simp), ?_⟩, hRb, hRs, hRi, hidk, ?_, ?_,
    huse, ?_, ?_, ?_, ?_, ?_⟩
  · rw [hstep, insertBin_ok It]; rfl
  · intro g hg
    rw [List.mem_append, List.mem_cons] at hg
    have aux : ∀ g, g ∈ P ++ Q → Adj (inserted τ k).chunks g.2 := fun g hg =>
      (C g hg).mono (fun j hj hi => by rw [(huse j (mem_hsOf.2 ⟨g, hg, hj⟩)).2.2.1]; exact hi)
    rcases hg with hg | rfl | hg
    · exact aux g (by simp [hg])
    · exact List.IsChain.singleton k
    · exact aux g (by simp [hg])
  · rw [(inserted_use τ k k).2.1]; exact hcsz
  · rw [(inserted_use τ k k).1]; exact hcp
  · rw [liveOf_at, liveL_free hidk]
    unfold liveOf
    rw [hsOf_append, liveL_append, liveL_congr (l := hsOf P) (fun j hj => huse j (by rw [hsOf_append]; simp [hj])),
      liveL_congr (l := hsOf Q) (fun j hj => huse j (by rw [hsOf_append]; simp [hj]))]
    simp [liveL]
  · change τ.used = _
    rw [hτ]; exact f3
  · change τ.total = _
    rw [hτ]
  · change τ.cur = _
    rw [hτ]; exact f5
  · change τ.extensions = _
    rw [hτ]

/-! ## The loop that doubles -/

theorem doubling_zero (need : Nat) (hn : 0 < need) : ∀ fuel inc, doubling fuel need 0 inc = .hang := by
  intro fuel
  induction fuel with
  | zero => intro _; rfl
  | succ fuel ih => intro inc; rw [doubling, if_pos hn]; exact ih true

theorem doubling_steps (need : Nat) : ∀ k f cur inc, doubling k need cur inc = .hang →
    ∃ inc', doubling (k + f) need cur inc = doubling f need (if k = 0 then cur else cur * 2 ^ k % 2 ^ 64) inc' ∧
      (0 < k → 0 < need) := by
  intro k
  induction k with
  | zero => intro f cur inc _; exact ⟨inc, by simp, by omega⟩
  | succ k ih =>
    intro f cur inc h
    rw [doubling] at h
    by_cases hc : cur < need
    · rw [if_pos hc] at h
      obtain ⟨inc', e, _⟩ := ih f _ _ h
      refine ⟨inc', ?_, fun _ => by omega⟩
      rw [show k + 1 + f = (k + f) + 1 by omega, doubling, if_pos hc, e]
      congr 1
      by_cases hk : k = 0
      · subst hk; simp
      · rw [if_neg hk, if_neg (by omega)]
        generalize (2 : Nat) ^ 64 = M
        rw [Nat.mul_mod, Nat.mod_mod, ← Nat.mul_mod, Nat.pow_succ, Nat.mul_assoc, Nat.mul_comm 2]
    · rw [if_neg hc] at h
      simp at h

/-- The bound of 65 rounds is no bound: a loop that is still going then never ends. -/
theorem doubling_hang {need cur : Nat} {inc : Bool} (h : doubling 65 need cur inc = .hang) (fuel : Nat) :
    doubling fuel need cur inc = .hang := by
  have mono : ∀ f g cur inc, doubling (f + g) need cur inc = .hang → doubling f need cur inc = .hang := by
    intro f
    induction f with
    | zero => intro g cur inc _; rfl
    | succ f ih =>
      intro g cur inc h
      rw [show f + 1 + g = (f + g) + 1 by omega, doubling] at h
      rw [doubling]
      by_cases hc : cur < need
      · rw [if_pos hc] at h ⊢; exact ih g _ _ h
      · rw [if_neg hc] at h; simp at h
  obtain ⟨inc', e, hp⟩ := doubling_steps need 65 fuel cur inc h
  refine mono fuel 65 cur inc ?_
  rw [Nat.add_comm, e, if_neg (by omega)]
  have : cur * 2 ^ 65 % 2 ^ 64 = 0 := by
    rw [show (2 : Nat) ^ 65 = 2 ^ 64 * 2 by rw [← Nat.pow_succ], ← Nat.mul_assoc, Nat.mul_comm cur, Nat.mul_assoc]
    exact Nat.mul_mod_right _ _
  rw [this]
  exact doubling_zero need (hp (by omega)) fuel inc'

/-! ## The calls -/

/-- The state between two calls, with the bounds on sizes. -/
structure St (cf : Conf) (σ : Arena) (G : Ghost) (fl : List Nat) : Prop where
  good : Good σ G fl
  total : σ.total ≤ cf.limit
  cur : 256 ∣ σ.cur
  waste : ∀ x ∈ liveOf σ.chunks G, (x.2.1 + 255) / 256 * 256 ≤ x.2.2 ∧
    (x.2.2 < 2 * ((x.2.1 + 255) / 256 * 256) ∨ x.2.2 = (x.2.1 + 255) / 256 * 256) ∧
    ((x.2.2 : Int) - ((x.2.1 + 255) / 256 * 256 : Nat) < cf.maxDead)

theorem findChunk_cases {cf : Conf} (hcf : cf.Ok) {σ G fl} (Gd : Good σ G fl) {r num : Nat} (h256 : 256 ∣ r) (h0 : 0 < num) (h1 : num ≤ r) :
    (findChunk cf σ r num = .ok (none, σ) ∧ ∀ h ∈ hsOf G, (σ.chunks h).id = -1 → (σ.chunks h).size < r) ∨
    (∃ h σ' G' fl' s, findChunk cf σ r num = .ok (some (σ.chunks h).ptr, σ') ∧ Took σ G σ' G' fl' (σ.chunks h).ptr num s ∧
      r ≤ s ∧ (s < 2 * r ∨ s = r) ∧ ((s : Int) - r < cf.maxDead) ∧ h ∈ hsOf G ∧ (σ.chunks h).id = -1 ∧ r ≤ (σ.chunks h).size ∧
      ∀ h' ∈ hsOf G, (σ.chunks h').id = -1 → r ≤ (σ.chunks h').size →
        (σ.chunks h).size < (σ.chunks h').size ∨ ((σ.chunks h).size = (σ.chunks h').size ∧ (σ.chunks h).ptr ≤ (σ.chunks h').ptr)) := by
  obtain ⟨o, e1, e2, e3⟩ := search_ok Gd.inv r
  unfold findChunk
  rw [e1]
  simp only [ok_bind]
  cases o with
  | none => exact .inl ⟨rfl, e2 rfl⟩
  | some bh =>
    obtain ⟨b, h⟩ := bh
    obtain ⟨a1, a2, a3⟩ := e3 b h rfl
    obtain ⟨σ', G', fl', s, t1, t2, t3, t4, t5⟩ := takeChunk_ok (cf := cf) Gd a1 a2 h256 h0 h1 hcf.dead
    obtain ⟨m1, _, m2, _⟩ := (Gd.inv.binmem b h).1 a1
    right
    refine ⟨h, σ', G', fl', s, ?_, t2, t3, t4, t5, m1, m2, a2, a3⟩
    simp only
    rw [t1]
    rfl

/-- How much the arena may still ask for. -/
def Arena.avail (cf : Conf) (σ : Arena) : Nat := (cf.limit - σ.total) / 256 * 256

theorem extend_cases {cf : Conf} (hcf : cf.Ok) {dev : Nat → Nat → Ans} {σ : Arena} (ht : σ.total ≤ cf.limit) (hcur : 256 ∣ σ.cur)
    {need : Nat} (hn : 0 < need) (h256 : 256 ∣ need) :
    (∃ c, extend cf dev σ need = .ok (false, { σ with cur := c }) ∧ 256 ∣ c ∧
      ((σ.avail cf < need ∧ c = σ.cur) ∨ (∃ k b, need ≤ b ∧ b ≤ σ.avail cf ∧ 256 ∣ b ∧ ∀ a, dev k b ≠ .mem a))) ∨
    (∃ c addr b k, extend cf dev σ need = grow { σ with cur := c } addr b ∧ 256 ∣ c ∧ need ≤ b ∧ b ≤ σ.avail cf ∧ 256 ∣ b ∧
      dev k b = .mem addr ∧
      ((∀ k b, b ≤ cf.limit → ∃ a, dev k b = .mem a) → (cf.pow2 = false ∧ c = σ.cur) ∨ (0 < c ∧ c < 2 * need) ∨
        (c = σ.cur * 2 % 2 ^ 64 ∧ b = min σ.cur (σ.avail cf)))) ∨
    (extend cf dev σ need = .hang ∧ cf.pow2 = true ∧ σ.cur = 0 ∧ need ≤ σ.avail cf) := by
  have hlim := hcf.limit
  have hav : (cf.limit + 2 ^ 64 - σ.total % 2 ^ 64) % 2 ^ 64 / 256 * 256 = σ.avail cf := by
    unfold Arena.avail
    congr 2
    rw [Nat.mod_eq_of_lt (show σ.total < 2 ^ 64 by omega)]
    omega
  have havle : σ.avail cf ≤ 2 ^ 62 := by unfold Arena.avail; omega
  have havd : 256 ∣ σ.avail cf := by unfold Arena.avail; omega
  have havl : σ.avail cf ≤ cf.limit := by unfold Arena.avail; omega
  unfold extend
  rw [hav]
  by_cases hlt : σ.avail cf < need
  · rw [if_pos hlt]
    exact .inl ⟨σ.cur, rfl, hcur, .inl ⟨hlt, rfl⟩⟩
  · rw [if_neg hlt]
    -- the attempts, once the size is known
    have go : ∀ bytes c, need ≤ bytes → bytes ≤ σ.avail cf → 256 ∣ bytes → 256 ∣ c →
        ((attempts cf dev need (bytes + 1) 0 bytes >>= fun o =>
          match o with
          | none => pure (false, ({ σ with cur := c } : Arena))
          | some (addr, bytes) => grow { σ with cur := c } addr bytes) = .ok (false, { σ with cur := c }) ∧
          (∃ k b, need ≤ b ∧ b ≤ σ.avail cf ∧ 256 ∣ b ∧ ∀ a, dev k b ≠ .mem a)) ∨
        (∃ addr b k, (attempts cf dev need (bytes + 1) 0 bytes >>= fun o =>
          match o with
          | none => pure (false, ({ σ with cur := c } : Arena))
          | some (addr, bytes) => grow { σ with cur := c } addr bytes) = grow { σ with cur := c } addr b ∧
          need ≤ b ∧ b ≤ σ.avail cf ∧ 256 ∣ b ∧ dev k b = .mem addr ∧
          ((∀ k b, b ≤ cf.limit → ∃ a, dev k b = .mem a) → b = bytes)) := by
      intro bytes c g1 g2 g3 g4
      obtain ⟨o, e1, e2, e3, e4⟩ := attempts_ok hcf dev need (bytes + 1) 0 bytes (by omega) g1 g3 (by omega)
      rw [e1]
      simp only [ok_bind]
      cases o with
      | none =>
        obtain ⟨k, b, f1, f2, f3, f4⟩ := e3 rfl
        exact .inl ⟨rfl, k, b, f1, by omega, f3, f4⟩
      | some ab =>
        obtain ⟨a, b⟩ := ab
        obtain ⟨f1, f2, f3, k, f4⟩ := e2 a b rfl
        refine .inr ⟨a, b, k, rfl, f1, by omega, f3, f4, ?_⟩
        intro hg
        obtain ⟨a', ha'⟩ := hg 0 bytes (by omega)
        have := e4 a' ha'
        simp only [Option.some.injEq, Prod.mk.injEq] at this
        exact this.2
    cases hp : cf.pow2 with
    | false =>
      simp only [Bool.false_eq_true, if_false, pure_ok, ok_bind]
      rcases go need σ.cur (Nat.le_refl _) (by omega) h256 hcur with ⟨e, f⟩ | ⟨addr, b, k, e, f1, f2, f3, f4, f5⟩
      · exact .inl ⟨σ.cur, e, hcur, .inr f⟩
      · exact .inr (.inl ⟨σ.cur, addr, b, k, e, hcur, f1, f2, f3, f4, fun _ => .inl (by simp)⟩)
    | true =>
      simp only [if_true]
      by_cases hz : σ.cur = 0
      · right; right
        rw [hz, doubling_zero need hn]
        exact ⟨rfl, trivial, rfl, by omega⟩
      · have hpos : 0 < σ.cur := by omega
        have hpow : need ≤ σ.cur * 2 ^ (65 - 1) := by
          have : (2 : Nat) ^ 64 ≤ σ.cur * 2 ^ (65 - 1) := Nat.le_mul_of_pos_left _ hpos
          omega
        obtain ⟨c, i, e1, e2, e3, e4, e5, e6, e7⟩ := doubling_ok need (by omega) 65 σ.cur false hpos hpow (by omega) hcur
        rw [e1]
        simp only [ok_bind, pure_ok]
        have hmd : 256 ∣ (if i = true then c else c * 2 % 2 ^ 64) := by
          split <;> omega
        rcases go (min c (σ.avail cf)) (if i = true then c else c * 2 % 2 ^ 64) (by omega) (by omega) (by omega) hmd with
          ⟨e, f⟩ | ⟨addr, b, k, e, f1, f2, f3, f4, f5⟩
        · exact .inl ⟨_, e, hmd, .inr f⟩
        · refine .inr (.inl ⟨_, addr, b, k, e, hmd, f1, f2, f3, f4, ?_⟩)
          intro hg
          have hb := f5 hg
          cases i with
          | true =>
            rcases e5 rfl with h | ⟨_, h⟩
            · simp at h
            · right; left; simp only [if_true]; exact ⟨e4, h⟩
          | false =>
            obtain ⟨h, _⟩ := e6 rfl
            right; right
            rw [h] at hb
            simp only [Bool.false_eq_true, if_false]
            exact ⟨by rw [h], hb⟩

/-- `alloc` with the search and the extension as parameters. -/
def allocWith (fc : Arena → Out (Option Nat × Arena)) (ex : Arena → Out (Bool × Arena)) (σ : Arena) : Out (Got × Arena) := do
  match ← fc σ with
  | (some p, σ) => pure (.ptr p, σ)
  | (none, σ) => do
    match ← ex σ with
    | (false, σ) => pure (.noMemory, σ)
    | (true, σ) => do
      match ← fc σ with
      | (some p, σ) => pure (.ptr p, σ)
      | (none, σ) => pure (.noMemory, σ)

theorem alloc_eq {cf : Conf} {dev σ num} (h0 : 0 < num) :
    alloc cf dev σ num = allocWith (fun σ => findChunk cf σ (rounded num) num) (fun σ => extend cf dev σ (rounded num)) σ := by
  unfold alloc allocWith
  rw [if_neg (by omega)]
  simp only []
  rfl

theorem with_take {fc ex σ p σ'} (h : fc σ = .ok (some p, σ')) : allocWith fc ex σ = .ok (.ptr p, σ') := by
  unfold allocWith
  rw [h]
  rfl

theorem with_no {fc ex σ τ} (h : fc σ = .ok (none, σ)) (he : ex σ = .ok (false, τ)) : allocWith fc ex σ = .ok (.noMemory, τ) := by
  unfold allocWith
  simp only [h, ok_bind, he]
  rfl

theorem with_stuck {fc ex σ} (h : fc σ = .ok (none, σ)) (he : ex σ = .hang) : allocWith fc ex σ = .hang := by
  unfold allocWith
  simp only [h, ok_bind, he]
  rfl

theorem with_more {fc ex σ τ p σ'} (h : fc σ = .ok (none, σ)) (he : ex σ = .ok (true, τ)) (h2 : fc τ = .ok (some p, σ')) :
    allocWith fc ex σ = .ok (.ptr p, σ') := by
  unfold allocWith
  simp only [h, ok_bind, he, h2]
  rfl

theorem alloc_take {cf : Conf} {dev σ num p σ'} (h0 : 0 < num) (h : findChunk cf σ (rounded num) num = .ok (some p, σ')) :
    alloc cf dev σ num = .ok (.ptr p, σ') := (alloc_eq h0).trans (with_take h)

theorem alloc_no {cf : Conf} {dev σ num τ} (h0 : 0 < num) (h : findChunk cf σ (rounded num) num = .ok (none, σ))
    (he : extend cf dev σ (rounded num) = .ok (false, τ)) : alloc cf dev σ num = .ok (.noMemory, τ) :=
  (alloc_eq h0).trans (with_no h he)

theorem alloc_stuck {cf : Conf} {dev σ num} (h0 : 0 < num) (h : findChunk cf σ (rounded num) num = .ok (none, σ))
    (he : extend cf dev σ (rounded num) = .hang) : alloc cf dev σ num = .hang := (alloc_eq h0).trans (with_stuck h he)

theorem alloc_more {cf : Conf} {dev σ num τ p σ'} (h0 : 0 < num) (h : findChunk cf σ (rounded num) num = .ok (none, σ))
    (he : extend cf dev σ (rounded num) = .ok (true, τ)) (h2 : findChunk cf τ (rounded num) num = .ok (some p, σ')) :
    alloc cf dev σ num = .ok (.ptr p, σ') := (alloc_eq h0).trans (with_more h he h2)

/-- What `Alloc` does. -/
theorem alloc_cases {cf : Conf} (hcf : cf.Ok) {dev : Nat → Nat → Ans} {σ G fl} (S : St cf σ G fl) (hd : DevOk dev σ) {num : Nat}
    (h0 : 0 < num) (hn : num + 255 < 2 ^ 64) :
    (∃ σ' G' fl' p s, alloc cf dev σ num = .ok (.ptr p, σ') ∧ St cf σ' G' fl' ∧
      (∃ X Y, liveOf σ.chunks G = X ++ Y ∧ liveOf σ'.chunks G' = X ++ (p, num, s) :: Y) ∧ σ'.used = σ.used + s ∧
      ((shape G' = shape G ∧ σ'.cur = σ.cur ∧ σ'.extensions = σ.extensions ∧ σ'.total = σ.total ∧
        ∃ h ∈ hsOf G, (σ.chunks h).id = -1 ∧ (σ.chunks h).ptr = p ∧ rounded num ≤ (σ.chunks h).size ∧
          ∀ h' ∈ hsOf G, (σ.chunks h').id = -1 → rounded num ≤ (σ.chunks h').size →
            (σ.chunks h).size < (σ.chunks h').size ∨ ((σ.chunks h).size = (σ.chunks h').size ∧ (σ.chunks h).ptr ≤ (σ.chunks h').ptr)) ∨
       ((∀ h ∈ hsOf G, (σ.chunks h).id = -1 → (σ.chunks h).size < rounded num) ∧
        ∃ b k, dev k b = .mem p ∧ rounded num ≤ b ∧ b ≤ σ.avail cf ∧ 256 ∣ b ∧ (shape G').Perm ((p, b, σ.extensions) :: shape G) ∧
          σ'.total = σ.total + b ∧ σ'.extensions = σ.extensions + 1 ∧
          ((∀ k b, b ≤ cf.limit → ∃ a, dev k b = .mem a) → (cf.pow2 = false ∧ σ'.cur = σ.cur) ∨
            (0 < σ'.cur ∧ σ'.cur < 2 * rounded num) ∨
            (σ'.cur = σ.cur * 2 % 2 ^ 64 ∧ b = min σ.cur (σ.avail cf)))))) ∨
    (∃ c, alloc cf dev σ num = .ok (.noMemory, { σ with cur := c }) ∧ 256 ∣ c ∧
      (∀ h ∈ hsOf G, (σ.chunks h).id = -1 → (σ.chunks h).size < rounded num) ∧
      ((σ.avail cf < rounded num ∧ c = σ.cur) ∨
        (∃ k b, rounded num ≤ b ∧ b ≤ σ.avail cf ∧ 256 ∣ b ∧ ∀ a, dev k b ≠ .mem a))) ∨
    (alloc cf dev σ num = .hang ∧ cf.pow2 = true ∧ σ.cur = 0 ∧ rounded num ≤ σ.avail cf ∧
      ∀ h ∈ hsOf G, (σ.chunks h).id = -1 → (σ.chunks h).size < rounded num) := by
  obtain ⟨r1, r2, r3⟩ := rounded_facts hn
  have req := rounded_eq hn
  -- a state after a chunk was taken
  have took : ∀ {τ Gτ σ' G' fl' p s}, Took τ Gτ σ' G' fl' p num s → τ.total ≤ cf.limit → 256 ∣ τ.cur →
      liveOf τ.chunks Gτ = liveOf σ.chunks G → rounded num ≤ s → (s < 2 * rounded num ∨ s = rounded num) →
      ((s : Int) - rounded num < cf.maxDead) → St cf σ' G' fl' := by
    intro τ Gτ σ' G' fl' p s T t1 t2 t3 t4 t5 t6
    refine ⟨T.good, by rw [T.total]; exact t1, by rw [T.cur]; exact t2, ?_⟩
    obtain ⟨X, Y, l1, l2⟩ := T.live
    intro x hx
    rw [l2, List.mem_append, List.mem_cons] at hx
    have hold : x ∈ X ∨ x ∈ Y → x ∈ liveOf σ.chunks G := by
      intro h
      rw [← t3, l1, List.mem_append]
      exact h
    rcases hx with hx | rfl | hx
    · exact S.waste x (hold (.inl hx))
    · simp only
      rw [← req]
      exact ⟨t4, t5, t6⟩
    · exact S.waste x (hold (.inr hx))
  rcases findChunk_cases hcf S.good r3 h0 r1 with ⟨e1, e2⟩ | ⟨h, σ', G', fl', s, e1, T, b1, b2, b3, b4, b5, b6, b7⟩
  · rcases extend_cases (dev := dev) hcf S.total S.cur (need := rounded num) (by omega) r3 with
      ⟨c, f1, f2, f3⟩ | ⟨c, addr, b, k, f1, f2, f3, f4, f5, f6, f7⟩ | ⟨f1, f2, f3, f4⟩
    · right; left
      exact ⟨c, alloc_no h0 e1 f1, f2, e2, f3⟩
    · left
      obtain ⟨p1, p2⟩ := hd.pos k b addr f6
      have G1 : Good { σ with cur := c } G fl := ⟨{
        regs := S.good.inv.regs, order := S.good.inv.order, geo := S.good.inv.geo, nodup := S.good.inv.nodup
        bound := S.good.inv.bound, flist := S.good.inv.flist, flbin := S.good.inv.flbin, binmem := S.good.inv.binmem
        binof := S.good.inv.binof, xs := S.good.inv.xs, sorted := S.good.inv.sorted, next := S.good.inv.next
        ids := S.good.inv.ids, req := S.good.inv.req, used := S.good.inv.used, total := S.good.inv.total }, S.good.coal⟩
      obtain ⟨τ, P, Q, R, m, flτ, g1, g2, g3, g4, g5, g6, g7, g8, g9, g10, g11, g12, g13, g14, g15⟩ :=
        grow_ok G1 (addr := addr) (bytes := b) (by omega) f5 p1 p2 (hd.apart k b addr f6)
      rcases findChunk_cases hcf g3 r3 h0 r1 with ⟨q1, q2⟩ | ⟨h, σ', G', fl', s, q1, T, b1, b2, b3, b4, b5, b6, b7⟩
      · have := q2 m (mem_mid.2 (.inr (.inl (by simp)))) g7
        omega
      · have hhm : h = m := by
          by_contra hne
          have hG : h ∈ hsOf G := by
            rw [g2, hsOf_append]
            rw [mem_mid] at b4
            simp only [List.mem_singleton] at b4
            rw [List.mem_append]
            tauto
          obtain ⟨_, u2, u3, _⟩ := g10 h hG
          have := e2 h hG (by rw [← u3]; exact b5)
          have h2 : (τ.chunks h).size = (σ.chunks h).size := u2
          omega
        subst hhm
        have hav : σ.avail cf ≤ cf.limit - σ.total := by unfold Arena.avail; omega
        have hS := S.total
        have g13' : τ.total = σ.total + b := g13
        refine ⟨σ', G', fl', (τ.chunks h).ptr, s, alloc_more h0 e1 (f1.trans g1) q1,
          took T (by omega) (by rw [g14]; exact f2) g11 b1 b2 b3, ?_, ?_, .inr ⟨e2, b, k, ?_, f3, f4, f5, ?_, ?_, ?_, ?_⟩⟩
        · obtain ⟨X, Y, l1, l2⟩ := T.live
          exact ⟨X, Y, by rw [← l1]; exact g11.symm, l2⟩
        · rw [T.used, g12]
        · rw [g9]; exact f6
        · rw [T.shape, g9, g2]
          unfold Bfc.shape
          rw [List.map_append, List.map_cons, List.map_append, g4, g5, g6]
          exact List.perm_middle
        · rw [T.total, g13']
        · rw [T.extensions, g15]
        · rw [T.cur, g14]; exact f7
    · right; right
      exact ⟨alloc_stuck h0 e1 f1, f2, f3, f4, e2⟩
  · left
    refine ⟨σ', G', fl', _, s, alloc_take h0 e1, took T S.total S.cur rfl b1 b2 b3, T.live, T.used,
      .inl ⟨T.shape, T.cur, T.extensions, T.total, h, b4, b5, rfl, b6, b7⟩⟩

/-- A live block is a chunk in use. -/
theorem mem_liveOf {cs : Nat → Chunk} {G : Ghost} {x : Nat × Nat × Nat} :
    x ∈ liveOf cs G ↔ ∃ h ∈ hsOf G, (cs h).id ≠ -1 ∧ x = ((cs h).ptr, (cs h).req, (cs h).size) := by
  unfold liveOf liveL
  rw [List.mem_map]
  simp only [List.mem_filter, Chunk.inUse, decide_eq_true_eq]
  constructor
  · rintro ⟨h, ⟨h1, h2⟩, rfl⟩; exact ⟨h, h1, by simpa using h2, rfl⟩
  · rintro ⟨h, h1, h2, rfl⟩; exact ⟨h, ⟨h1, by simpa using h2⟩, rfl⟩

/-- The handle of the place of a chunk. -/
theorem Inv.handleOf {σ G fl X} (I : Inv σ G fl X) {h : Nat} (hm : h ∈ hsOf G) {p : Nat} (h1 : (σ.chunks h).ptr ≤ p)
    (h2 : p < (σ.chunks h).ptr + 256) : Bfc.getHandle σ p = .ok (some h) := by
  obtain ⟨g, hg, hh⟩ := mem_hsOf.1 hm
  have r := (I.geo g hg).chain.range h hh
  rw [I.getHandle hg (p := p) (by omega) (by omega), ← (I.geo g hg).hset h hh]
  congr 2
  omega

/-- What `Free` does to a live block. -/
theorem free_ok {cf : Conf} {σ G fl} (S : St cf σ G fl) {p n s : Nat} (hx : (p, n, s) ∈ liveOf σ.chunks G) {q : Nat} (h1 : p ≤ q)
    (h2 : q < p + 256) :
    ∃ σ' G' fl', freePtr σ q = .ok σ' ∧ St cf σ' G' fl' ∧ shape G' = shape G ∧
      (∃ X Y, liveOf σ.chunks G = X ++ (p, n, s) :: Y ∧ liveOf σ'.chunks G' = X ++ Y) ∧
      σ'.used + s = σ.used ∧ σ'.total = σ.total ∧ σ'.cur = σ.cur ∧ σ'.extensions = σ.extensions := by
  obtain ⟨h, hm, hid, e⟩ := mem_liveOf.1 hx
  simp only [Prod.mk.injEq] at e
  obtain ⟨rfl, rfl, rfl⟩ := e
  have hpos : 0 < (σ.chunks h).ptr := by
    obtain ⟨g, hg, hh⟩ := mem_hsOf.1 hm
    have r := (S.good.inv.geo g hg).chain.range h hh
    have := (S.good.inv.geo g hg).pos
    omega
  obtain ⟨σ', G', fl', e1, V⟩ := freeChunk_ok S.good hm hid
  refine ⟨σ', G', fl', ?_, ⟨V.good, by rw [V.total]; exact S.total, by rw [V.cur]; exact S.cur, ?_⟩, V.shape, V.live, V.used, V.total,
    V.cur, V.extensions⟩
  · unfold freePtr
    rw [if_neg (by omega), S.good.inv.handleOf hm h1 h2]
    exact e1
  · obtain ⟨X, Y, l1, l2⟩ := V.live
    intro x hx
    apply S.waste x
    rw [l1]
    rw [l2] at hx
    simp only [List.mem_append, List.mem_cons] at hx ⊢
    tauto

end Verif.Bfc
