/-
The arena as it is used: alignment, concrete runs, requests close to `2^64`.
-/
import Verif.BfcProps

namespace Verif.Bfc

/-- The arena of the CPU (cpu_device_api.cc): 4 GiB, powers of two, 128 MiB of dead bytes. -/
def cpuConf : Conf := { limit := 2 ^ 32, pow2 := true, maxDead := 128 * 1024 * 1024, back := fun b => b * 9 / 10 }

/-- The assumptions on a configuration can be met. -/
theorem cpuConf_ok : cpuConf.Ok where
  limit := by simp only [cpuConf]; omega
  dead := by simp only [cpuConf]; omega
  back := fun b => by simp only [cpuConf]; omega
  back8 := fun b h => by simp only [cpuConf]; omega

/-- A device with one piece of memory to give. -/
def oneDev (a : Nat) : Nat → Nat → Ans := fun _ b => if b ≤ 2 ^ 32 then .mem a else .null

/-- The assumptions on a device can be met. -/
theorem oneDev_ok {a : Nat} (h0 : 0 < a) (h1 : a ≤ 2 ^ 60) (cf : Conf) (ic : Nat) : DevOk (oneDev a) (cf.init ic) where
  pos := by
    intro k b a' h
    unfold oneDev at h
    by_cases hb : b ≤ 2 ^ 32
    · rw [if_pos hb] at h
      simp only [Ans.mem.injEq] at h
      omega
    · rw [if_neg hb] at h
      simp at h
  apart := by
    intro k b a' _ r hr
    simp [Conf.init] at hr

/-- **C90.** When the device gives memory at multiples of `m`, a divisor of 256, so are all blocks. -/
theorem live_aligned {cf : Conf} (hcf : cf.Ok) {ic D σ L} (h : Reach cf ic D σ L) {m : Nat} (hm : m ∣ 256)
    (hD : ∀ dev, D dev → ∀ k b a, dev k b = .mem a → m ∣ a) {p n : Nat} (hp : (p, n) ∈ L) : m ∣ p := by
  obtain ⟨dev, k, a, b, d1, d2, d3, _, d5, _⟩ := live_inside hcf h hp
  have h1 := hD dev d1 k b a d2
  have h2 := Nat.dvd_trans hm d5
  have : p = a + (p - a) := by omega
  rw [this]
  exact Nat.dvd_add h1 h2

/-- The first block is the start of the memory that the device gave. -/
theorem first_block {cf : Conf} (hcf : cf.Ok) {ic : Nat} (hic : 0 < ic) (hl : cf.limit ≤ 2 ^ 32) {a num : Nat} (h0 : 0 < a) (h1 : a ≤ 2 ^ 60)
    (hn : 0 < num) (hnl : num + 255 ≤ cf.limit) : ∃ σ, alloc cf (oneDev a) (cf.init ic) num = .ok (.ptr a, σ) := by
  let D : (Nat → Nat → Ans) → Prop := fun dev => ∀ k b, b ≤ cf.limit → ∃ a, dev k b = .mem a
  have hgen : D (oneDev a) := fun k b hb => ⟨a, if_pos (by omega)⟩
  have hlim := hcf.limit
  have hd := oneDev_ok h0 h1 cf ic
  have hR : Reach cf ic D (cf.init ic) [] := .init
  obtain ⟨g, σ, e, hg⟩ := alloc_returns_partial hcf hic (by omega) (fun dev h => h) hR hd (num := num) (by omega)
  cases g with
  | null =>
    have := hg.1 rfl
    omega
  | ptr p =>
    rcases best_fit hcf hR hd hn (by omega) e with ⟨y, ⟨hv, _⟩, _⟩ | ⟨_, _, k, b, hb, _⟩
    · obtain ⟨r, hr, _⟩ := hv
      simp [Conf.init] at hr
    · have : p = a := by
        unfold oneDev at hb
        by_cases hb' : b ≤ 2 ^ 32
        · rw [if_pos hb'] at hb
          simp only [Ans.mem.injEq] at hb
          exact hb.symm
        · rw [if_neg hb'] at hb
          simp at hb
      subst this
      exact ⟨σ, e⟩
  | noMemory =>
    exfalso
    obtain ⟨_, hw, _⟩ := failure_justified hcf hR hd hn (by omega) e
    rcases hw with hw | ⟨k, b, _, hb, hno⟩
    · simp only [Conf.init] at hw
      omega
    · obtain ⟨a', ha'⟩ := hgen k b (by omega)
      exact hno a' ha'

/-- **C90 (refuted).** The alignment of 128 that arrays ask for is not kept: with memory at a multiple of 32, as the CPU allocator
gives it, the first block is at that address. -/
theorem alignment_refuted {cf : Conf} (hcf : cf.Ok) {ic : Nat} (hic : 0 < ic) (hl : cf.limit ≤ 2 ^ 32) {num : Nat}
    (hn : 0 < num) (hnl : num + 255 ≤ cf.limit) :
    ∃ a p σ, 32 ∣ a ∧ alloc cf (oneDev a) (cf.init ic) num = .ok (.ptr p, σ) ∧ ¬ 128 ∣ p := by
  obtain ⟨σ, e⟩ := first_block (a := 4096 + 32) hcf hic hl (by omega) (by omega) hn hnl
  exact ⟨_, _, σ, by omega, e, by omega⟩

/-- **C92 (refuted).** A pointer outside of the memory that the arena holds is not detected: an invalid memory access. -/
theorem foreign_refuted (σ : Arena) (p : Nat) (h0 : 0 < p) (hp : ∀ r ∈ σ.regions, p < r.base ∨ r.base + r.size ≤ p) :
    freePtr σ p = .bad := by
  unfold freePtr
  rw [if_neg (by omega)]
  have : getHandle σ p = .bad := by
    unfold getHandle
    cases hr : regionFor σ p with
    | none => rfl
    | some r =>
      have h1 := List.mem_of_find?_eq_some hr
      have h2 := List.find?_some hr
      simp only [decide_eq_true_eq] at h2
      have := hp r h1
      simp only
      rw [if_neg (by omega)]
  rw [this]
  rfl

/-- **C92.** Twice the same pointer: the second call fails. -/
theorem double_free {cf : Conf} (hcf : cf.Ok) {ic D σ L σ'} (h : Reach cf ic D σ L) {p n : Nat} (hp : (p, n) ∈ L)
    (e : freePtr σ p = .ok σ') : freePtr σ' p = .throws := by
  obtain ⟨G, fl, I⟩ := reach_inv hcf h
  obtain ⟨k, hk, hid, rfl, rfl⟩ := I.block hp
  obtain ⟨σ1, G', fl', f1, f2, f3, _⟩ := free_ok I.st (mem_liveOf.2 ⟨k, hk, hid, rfl⟩) (Nat.le_refl _) (by omega)
  rw [f1] at e
  simp only [Out.ok.injEq] at e
  subst e
  obtain ⟨g, hg, _, a1, a2, a3, _⟩ := I.st.good.inv.place hk
  have hm : (g.1.base, g.1.size, g.1.id) ∈ shape G' := by
    rw [f3]; exact List.mem_map.2 ⟨g, hg, rfl⟩
  obtain ⟨g', hg', eg⟩ := List.mem_map.1 hm
  simp only [Prod.mk.injEq] at eg
  have hreg : g'.1 ∈ σ1.regions := by rw [f2.good.inv.regs]; exact List.mem_map.2 ⟨g', hg', rfl⟩
  refine free_dead_partial hcf (.free h hp f1) hreg (by omega) (by omega) ?_
  intro q m hq
  have hne : L.Nodup := by
    rw [I.live.nodup_iff]
    refine List.Pairwise.imp_of_mem ?_ (liveL_pairwise I.st.good.inv.sortedAll (fun j hj hi => (I.st.good.inv.req j hj hi).2))
    intro a b ha _ hab he
    subst he
    obtain ⟨x, hx, rfl⟩ := List.mem_map.1 ha
    obtain ⟨j, hj, hjid, rfl⟩ := mem_liveOf.1 hx
    have := (I.st.good.inv.req j hj hjid).1
    simp only [pn] at hab
    omega
  have hq2 := (hne.mem_erase_iff).1 hq
  obtain ⟨j, hj, hjid, rfl, rfl⟩ := I.block hq2.2
  obtain ⟨_, _, _, _, _, b3, b4, _⟩ := I.st.good.inv.place hj
  have hjk : j ≠ k := by
    intro e
    subst e
    exact hq2.1 rfl
  have := I.st.good.inv.apart hj hk hjk
  omega

/-- **C91.** What was freed can be used again at once: after `Free` of a block any request that needs no more than the block had
succeeds, whatever the device does. -/
theorem freed_reused {cf : Conf} (hcf : cf.Ok) {ic D σ L σ'} (h : Reach cf ic D σ L) {p n : Nat} (hp : (p, n) ∈ L)
    (e : freePtr σ p = .ok σ') {m : Nat} (h0 : 0 < m) (hm : m ≤ n) (dev : Nat → Nat → Ans) :
    ∃ q σ'', alloc cf dev σ' m = .ok (.ptr q, σ'') ∧ σ''.total = σ.total := by
  obtain ⟨G, fl, I⟩ := reach_inv hcf h
  obtain ⟨_, s, hs, hns, hds, _⟩ := sizes_reported hcf h hp
  obtain ⟨k, hk, hid, rfl, rfl⟩ := I.block hp
  obtain ⟨σ1, G', fl', f1, f2, f3, f4, _, f6, f7, _⟩ := free_ok I.st (mem_liveOf.2 ⟨k, hk, hid, rfl⟩) (Nat.le_refl _) (by omega)
  rw [f1] at e
  simp only [Out.ok.injEq] at e
  subst e
  obtain ⟨g, hg, _, a1, a2, a3, a4, _⟩ := I.st.good.inv.place hk
  have htop := (I.st.good.inv.geo g hg).top
  have hmm : (g.1.base, g.1.size, g.1.id) ∈ shape G' := by
    rw [f3]; exact List.mem_map.2 ⟨g, hg, rfl⟩
  obtain ⟨g', hg', eg⟩ := List.mem_map.1 hmm
  simp only [Prod.mk.injEq] at eg
  have hreg : g'.1 ∈ σ1.regions := by rw [f2.good.inv.regs]; exact List.mem_map.2 ⟨g', hg', rfl⟩
  have hR : Reach cf ic D σ1 (L.erase ((σ.chunks k).ptr, (σ.chunks k).req)) := .free h hp f1
  rw [(sizes_of I.st.good.inv hk).2] at hs
  simp only [Out.ok.injEq] at hs
  subst hs
  obtain ⟨X, Y, l1, l2⟩ := f4
  have hvac : Vacant σ1 (L.erase ((σ.chunks k).ptr, (σ.chunks k).req)) (σ.chunks k).ptr ((σ.chunks k).ptr + (σ.chunks k).size) := by
    refine ⟨g'.1, hreg, by omega, by omega, by omega, ?_⟩
    intro q m s hq hs
    obtain ⟨G1, fl1, I1⟩ := reach_inv hcf hR
    have hsort : ((liveOf σ.chunks G).map fun x => (x.1, x.2.2)).Pairwise fun a b => a.1 + a.2 ≤ b.1 := by
      unfold liveOf liveL
      rw [List.map_map, List.pairwise_map]
      exact I.st.good.inv.sortedAll.sublist List.filter_sublist
    have hx : ∃ s', (q, m, s') ∈ liveOf σ1.chunks G' := by
      have hI' : (L.erase ((σ.chunks k).ptr, (σ.chunks k).req)).Perm ((liveOf σ1.chunks G').map pn) := by
        have := I.live
        rw [l1, List.map_append, List.map_cons] at this
        have h2 := (this.trans List.perm_middle).erase ((σ.chunks k).ptr, (σ.chunks k).req)
        rw [List.erase_cons_head] at h2
        rw [l2, List.map_append]
        exact h2
      have := hI'.mem_iff.1 hq
      obtain ⟨x, hx, ex⟩ := List.mem_map.1 this
      obtain ⟨q', m', s'⟩ := x
      simp only [pn, Prod.mk.injEq] at ex
      obtain ⟨rfl, rfl⟩ := ex
      exact ⟨s', hx⟩
    obtain ⟨s', hx⟩ := hx
    have hs' : s = s' := by
      obtain ⟨j, hj, _, ej⟩ := mem_liveOf.1 hx
      simp only [Prod.mk.injEq] at ej
      obtain ⟨rfl, rfl, rfl⟩ := ej
      rw [(sizes_of f2.good.inv hj).2] at hs
      simp only [Out.ok.injEq] at hs
      exact hs.symm
    subst hs'
    rw [l2, List.mem_append] at hx
    rw [l1, List.map_append, List.map_cons, List.pairwise_append] at hsort
    obtain ⟨_, o2, o3⟩ := hsort
    rw [List.pairwise_cons] at o2
    rcases hx with hx | hx
    · have := o3 _ (List.mem_map.2 ⟨_, hx, rfl⟩) _ List.mem_cons_self
      simp only at this
      omega
    · have := o2.1 _ (List.mem_map.2 ⟨_, hx, rfl⟩)
      simp only at this
      omega
  obtain ⟨q, σ'', e1, _, e3⟩ := vacant_reused hcf hR h0 (by omega) hvac (by omega) dev
  exact ⟨q, σ'', e1, by rw [e3, f6]⟩

/-! ## Runs -/

/-- Calls in a row: `inl n` is `Alloc(n)`, `inr p` is `Free(p)`. The pointers, 0 for no memory and 1 for a `Free`; the list ends
with a call that fails otherwise. -/
def script (cf : Conf) (dev : Nat → Nat → Ans) : Arena → List (Nat ⊕ Nat) → List Nat
  | _, [] => []
  | σ, .inl n :: l =>
    match alloc cf dev σ n with
    | .ok (.ptr p, σ) => p :: script cf dev σ l
    | .ok (_, σ) => 0 :: script cf dev σ l
    | _ => []
  | σ, .inr p :: l =>
    match freePtr σ p with
    | .ok σ => 1 :: script cf dev σ l
    | _ => []

/-- Blocks of 256, 512, 256 (in the first gap), 2048 and 3072 bytes; after two are freed they are one gap of 768. -/
example : script cpuConf (oneDev 4096) (cpuConf.init (2 ^ 20))
    [.inl 100, .inl 300, .inr 4096, .inl 50, .inl 2000, .inl 3000, .inr 4096, .inr 4352, .inl 600] =
    [4096, 4352, 1, 4096, 4864, 6912, 1, 1, 4096] := by decide +kernel

/-- The smallest gap is taken, not the first. -/
example : script cpuConf (oneDev 4096) (cpuConf.init (2 ^ 20))
    [.inl 1000, .inl 1, .inl 500, .inl 1, .inr 4096, .inr 5376, .inl 400] =
    [4096, 5120, 5376, 5888, 1, 1, 5376] := by decide +kernel

theorem script_two {cf : Conf} {dev σ n m p q} (h : script cf dev σ [.inl n, .inl m] = [p, q]) (hp : 0 < p) (hq : 0 < q) :
    ∃ σ1 σ2, alloc cf dev σ n = .ok (.ptr p, σ1) ∧ alloc cf dev σ1 m = .ok (.ptr q, σ2) := by
  have one : ∀ {σ n l r}, script cf dev σ (.inl n :: l) = r → r = [] ∨ (∃ σ1, alloc cf dev σ n = .ok (.ptr (r.headD 0), σ1) ∧
      script cf dev σ1 l = r.tail) ∨ r.headD 0 = 0 := by
    intro σ n l r h
    subst h
    rw [script]
    generalize alloc cf dev σ n = o
    cases o with
    | ok g =>
      obtain ⟨g, σ1⟩ := g
      cases g with
      | null => exact .inr (.inr rfl)
      | ptr p => exact .inr (.inl ⟨σ1, rfl, rfl⟩)
      | noMemory => exact .inr (.inr rfl)
    | throws => exact .inl rfl
    | bad => exact .inl rfl
    | hang => exact .inl rfl
  rcases one h with h1 | ⟨σ1, e1, e2⟩ | h1
  · simp at h1
  · rcases one e2 with h2 | ⟨σ2, e3, _⟩ | h2
    · simp at h2
    · exact ⟨σ1, σ2, e1, e3⟩
    · simp only [List.tail_cons, List.headD_cons] at h2
      omega
  · simp only [List.headD_cons] at h1
    omega

/-- **C90 (refuted).** A request of more than `2^64 - 256` bytes is rounded up to 0: it succeeds, and the next request is given the
same pointer, while both are live. -/
theorem wrap_refuted : (∀ n, 2 ^ 64 - 255 ≤ n → n < 2 ^ 64 → rounded n = 0) ∧
    ∃ σ1 σ2, alloc cpuConf (oneDev 4096) (cpuConf.init (2 ^ 20)) (2 ^ 64 - 1) = .ok (.ptr 4096, σ1) ∧
      alloc cpuConf (oneDev 4096) σ1 100 = .ok (.ptr 4096, σ2) := by
  constructor
  · intro n h1 h2
    unfold rounded
    omega
  · have h : script cpuConf (oneDev 4096) (cpuConf.init (2 ^ 20)) [.inl (2 ^ 64 - 1), .inl 100] = [4096, 4096] := by decide +kernel
    exact script_two h (by omega) (by omega)

end Verif.Bfc
