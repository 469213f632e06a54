/-
The invariant of the arena: splitting and merging chunks.
-/
import Verif.BfcSteps

namespace Verif.Bfc

theorem Chain.ptr_inj {cs : Nat → Chunk} {hs p pr nx e} (h : Chain cs p pr hs nx e) {a b : Nat} (ha : a ∈ hs) (hb : b ∈ hs)
    (e' : (cs a).ptr = (cs b).ptr) : a = b := by
  induction hs generalizing p pr with
  | nil => simp at ha
  | cons x hs ih =>
    obtain ⟨h1, _, _, h4, _, h6⟩ := h
    rcases List.mem_cons.1 ha with ha | ha <;> rcases List.mem_cons.1 hb with hb | hb
    · rw [ha, hb]
    · have := h6.range b hb
      rw [ha] at e'
      omega
    · have := h6.range a ha
      rw [hb] at e'
      omega
    · exact ih h6 ha hb

/-- Two chunks with the same index are the same. -/
theorem Chain.idx_inj {cs : Nat → Chunk} {hs p pr nx e} (h : Chain cs p pr hs nx e) {a b : Nat} (ha : a ∈ hs) (hb : b ∈ hs)
    (e' : ((cs a).ptr - p) / 256 = ((cs b).ptr - p) / 256) : a = b := by
  have r1 := h.range a ha
  have r2 := h.range b hb
  exact h.ptr_inj ha hb (by omega)

theorem Geo.put {cs cs' : Nat → Chunk} {R : Region} {hs hs' : List Nat} {k : Nat} (G0 : Geo cs (R, hs))
    (hc : Chain cs' R.base none hs' none (R.base + R.size)) (hk : k ∈ hs')
    (h1 : ∀ j ∈ hs', j ≠ k → j ∈ hs ∧ (cs' j).ptr = (cs j).ptr) (h2 : ∀ j ∈ hs, j ∈ hs' ∧ j ≠ k) :
    Geo cs' (R.put (cs' k).ptr (some k), hs') := by
  have rk := hc.range k hk
  refine ⟨G0.pos, G0.size, G0.top, hc, ?_, ?_⟩
  · intro j hj
    change (if ((cs' j).ptr - R.base) / 256 = ((cs' k).ptr - R.base) / 256 then some k else R.handles (((cs' j).ptr - R.base) / 256)) = _
    split
    · rename_i e
      rw [hc.idx_inj hj hk e]
    · rename_i e
      have hne : j ≠ k := fun e' => e (by rw [e'])
      obtain ⟨a, b⟩ := h1 j hj hne
      rw [b]
      exact G0.hset j a
  · intro i j hj
    change (if i = ((cs' k).ptr - R.base) / 256 then some k else R.handles i) = some j at hj
    split at hj
    · rename_i e
      injection hj with hj
      subst hj
      refine ⟨hk, ?_⟩
      change _ = R.base + 256 * i
      omega
    · obtain ⟨a, b⟩ := G0.hget i j hj
      obtain ⟨c, d⟩ := h2 j a
      refine ⟨c, ?_⟩
      rw [(h1 j c d).2]
      exact b

theorem Geo.erase {cs cs' : Nat → Chunk} {R : Region} {hs hs' : List Nat} {k : Nat} (G0 : Geo cs (R, hs))
    (hc : Chain cs' R.base none hs' none (R.base + R.size)) (hk : k ∈ hs)
    (h1 : ∀ j ∈ hs', j ∈ hs ∧ j ≠ k ∧ (cs' j).ptr = (cs j).ptr) (h2 : ∀ j ∈ hs, j ≠ k → j ∈ hs') :
    Geo cs' (R.put (cs k).ptr none, hs') := by
  have hc0 := G0.chain
  simp only at hc0
  have rk := hc0.range k hk
  refine ⟨G0.pos, G0.size, G0.top, hc, ?_, ?_⟩
  · intro j hj
    obtain ⟨a, b, c⟩ := h1 j hj
    change (if ((cs' j).ptr - R.base) / 256 = ((cs k).ptr - R.base) / 256 then none else R.handles (((cs' j).ptr - R.base) / 256)) = _
    rw [c]
    rw [if_neg (fun e => b (hc0.idx_inj a hk e))]
    exact G0.hset j a
  · intro i j hj
    change (if i = ((cs k).ptr - R.base) / 256 then none else R.handles i) = some j at hj
    split at hj
    · simp at hj
    · rename_i e
      obtain ⟨a, b⟩ := G0.hget i j hj
      simp only at b
      have hne : j ≠ k := by
        rintro rfl
        apply e
        rw [b]
        omega
      have hj' := h2 j a hne
      refine ⟨hj', ?_⟩
      rw [(h1 j hj').2.2]
      exact b

theorem Inv.nodup_region {σ P R hs Q fl X} (I : Inv σ (P ++ (R, hs) :: Q) fl X) : hs.Nodup := by
  have hnd := (List.nodup_append.1 I.nodup).1
  rw [hsOf_append, hsOf_cons] at hnd
  simp only [List.nodup_append] at hnd
  exact hnd.2.1.1

theorem Inv.mem_region {σ P R hs Q fl X} (_ : Inv σ (P ++ (R, hs) :: Q) fl X) {j : Nat} (hj : j ∈ hs) :
    j ∈ hsOf (P ++ (R, hs) :: Q) := by
  rw [hsOf_append, hsOf_cons]; simp [hj]

theorem Inv.other {σ P R hs Q fl X} (I : Inv σ (P ++ (R, hs) :: Q) fl X) {j : Nat} (hj : j ∈ hsOf P ++ hsOf Q) : j ∉ hs := by
  intro hh
  have hnd := (List.nodup_append.1 I.nodup).1
  rw [hsOf_append, hsOf_cons] at hnd
  simp only [List.nodup_append, List.mem_append] at hnd hj
  rcases hj with hj | hj
  · exact hnd.2.2 j hj j (.inl hh) rfl
  · exact hnd.2.1.2.2 j hh j hj rfl

/-- The links of a chunk. -/
theorem Inv.links {σ P R A h B Q fl X} (I : Inv σ (P ++ (R, A ++ h :: B) :: Q) fl X) :
    (σ.chunks h).prev = A.getLast? ∧ (σ.chunks h).next = B.head? := by
  have hc := (I.geo (R, A ++ h :: B) (by simp)).chain
  obtain ⟨m, _, h2⟩ := Chain.append.1 hc
  obtain ⟨_, h3, h4, _⟩ := h2
  exact ⟨by simpa using h3, by simpa using h4⟩

/-- The chunks after a split. -/
def splitChunks (cs : Nat → Chunk) (h k bytes : Nat) (j : Nat) : Chunk :=
  if (cs h).next = some j then { cs j with prev := some k }
  else if j = h then { cs h with size := bytes, next := some k }
  else if j = k then { cs k with ptr := (cs h).ptr + bytes, size := (cs h).size - bytes, id := -1, prev := some h, next := (cs h).next }
  else cs j

theorem splitChunks_chain {cs : Nat → Chunk} {A B : List Nat} {h k bytes p e : Nat}
    (hc : Chain cs p none (A ++ h :: B) none e) (hnd : (A ++ h :: B).Nodup) (hk : k ∉ A ++ h :: B) (hb : 0 < bytes)
    (hlt : bytes < (cs h).size) (hd : 256 ∣ bytes) : Chain (splitChunks cs h k bytes) p none (A ++ h :: k :: B) none e := by
  obtain ⟨m, c1, c2⟩ := Chain.append.1 hc
  obtain ⟨d1, d2, d3, d4, d5, d6⟩ := c2
  have hnx : (cs h).next = B.head? := by simpa using d3
  have hnB : ∀ j, j ∉ B → (cs h).next ≠ some j := by
    intro j hj e
    rw [hnx] at e
    exact hj (List.mem_of_mem_head? e)
  simp only [List.nodup_append, List.nodup_cons, List.mem_cons] at hnd
  obtain ⟨n1, ⟨n2, n3⟩, n4⟩ := hnd
  simp only [List.mem_append, List.mem_cons, not_or] at hk
  obtain ⟨k1, k2, k3⟩ := hk
  have hA : ∀ j ∈ A, splitChunks cs h k bytes j = cs j := by
    intro j hj
    unfold splitChunks
    rw [if_neg (hnB j (fun hB => n4 j hj j (.inr hB) rfl)), if_neg (fun e => n4 j hj h (.inl rfl) e),
      if_neg (fun e => k1 (by rw [← e]; exact hj))]
  have hh : splitChunks cs h k bytes h = { cs h with size := bytes, next := some k } := by
    unfold splitChunks
    rw [if_neg (hnB h n2), if_pos rfl]
  have hkk : splitChunks cs h k bytes k =
      { cs k with ptr := (cs h).ptr + bytes, size := (cs h).size - bytes, id := -1, prev := some h, next := (cs h).next } := by
    unfold splitChunks
    rw [if_neg (hnB k k3), if_neg k2, if_pos rfl]
  refine Chain.append.2 ⟨m, c1.congr (fun j hj => SameGeo.of_eq (hA j hj)), ?_⟩
  refine ⟨by rw [hh]; exact d1, by rw [hh]; exact d2, by rw [hh]; simp, by rw [hh]; exact hb, by rw [hh]; exact hd, ?_⟩
  have hdvd : 256 ∣ (cs h).size - bytes := by omega
  refine ⟨by rw [hkk, hh, d1], by rw [hkk], by rw [hkk, hnx]; simp, by rw [hkk]; simp only; omega, by rw [hkk]; exact hdvd, ?_⟩
  have e1 : m + (splitChunks cs h k bytes h).size + (splitChunks cs h k bytes k).size = m + (cs h).size := by
    rw [hh, hkk]; simp only; omega
  rw [e1]
  refine d6.reprev ?_ ?_
  · intro x hx
    unfold splitChunks
    rw [if_pos (by rw [hnx, hx])]
    exact ⟨rfl, rfl, rfl, rfl⟩
  · intro x hx
    refine SameGeo.of_eq ?_
    have hxB : x ∈ B := List.mem_of_mem_tail hx
    have hne : B.head? ≠ some x := by
      intro e
      cases B with
      | nil => simp at hx
      | cons b B =>
        simp only [List.head?_cons, Option.some.injEq] at e
        subst e
        exact (List.nodup_cons.1 n3).1 hx
    unfold splitChunks
    rw [if_neg (by rw [hnx]; exact hne), if_neg (fun e => n2 (by rw [← e]; exact hxB)),
      if_neg (fun e => k3 (by rw [← e]; exact hxB))]

/-- What the rest of an arena is after chunks changed places. -/
structure Rest (σ σ' : Arena) : Prop where
  nextId : σ'.nextId = σ.nextId
  used : σ'.used = σ.used
  total : σ'.total = σ.total
  cur : σ'.cur = σ.cur
  extensions : σ'.extensions = σ.extensions

/-- The same content: place, size, id and requested size. -/
def SameUse (a b : Chunk) : Prop := b.ptr = a.ptr ∧ b.size = a.size ∧ b.id = a.id ∧ b.req = a.req

theorem splitChunk_ok {σ P R A h B Q fl} (I : Inv σ (P ++ (R, A ++ h :: B) :: Q) fl [h]) {bytes : Nat} (hb : 0 < bytes)
    (hlt : bytes < (σ.chunks h).size) (hd : 256 ∣ bytes) :
    ∃ σ' k R' fl', splitChunk σ h bytes = .ok σ' ∧ Inv σ' (P ++ (R', A ++ h :: k :: B) :: Q) fl' [h] ∧
      k ∉ hsOf (P ++ (R, A ++ h :: B) :: Q) ∧
      R'.base = R.base ∧ R'.size = R.size ∧ R'.id = R.id ∧ (σ'.chunks h).size = bytes ∧ (σ'.chunks h).ptr = (σ.chunks h).ptr ∧
      (σ'.chunks k).id = -1 ∧ (σ'.chunks k).size = (σ.chunks h).size - bytes ∧
      (∀ j ∈ hsOf (P ++ (R, A ++ h :: B) :: Q), j ≠ h → SameUse (σ.chunks j) (σ'.chunks j)) ∧ Rest σ σ' := by
  obtain ⟨k, σ1, fl1, e1, I1, S, hsame, f1, f2, f3, f4, f5, f6, f7⟩ := allocateChunk_ok I
  have hhm : h ∈ hsOf (P ++ (R, A ++ h :: B) :: Q) := I.mem_region (by simp)
  obtain ⟨_, hid⟩ := I1.xs h (by simp)
  have hbin : (σ1.chunks h).bin = none := by
    rw [I1.binof h hhm]; simp
  have hceq : σ1.chunks h = σ.chunks h := hsame h hhm
  have hnd := I1.nodup_region
  have hko : k ∉ hsOf (P ++ (R, A ++ h :: B) :: Q) := fun hm => S.out (by simp [hm])
  have hkfl : k ∉ fl1 := fun hm => S.out (by simp [hm])
  have hk : k ∉ A ++ h :: B := fun hm => hko (I1.mem_region hm)
  have hkh : k ≠ h := fun e => hk (by simp [e])
  have hg := I1.geo (R, A ++ h :: B) (by simp)
  have hc := hg.chain
  simp only at hc
  obtain ⟨hpr, hnx⟩ := I1.links
  have hnB : ∀ j, j ∉ B → (σ1.chunks h).next ≠ some j := by
    intro j hj e
    rw [hnx] at e
    exact hj (List.mem_of_mem_head? e)
  have hndP := hnd
  simp only [List.nodup_append, List.nodup_cons, List.mem_cons] at hndP
  obtain ⟨n1, ⟨n2, n3⟩, n4⟩ := hndP
  have hch := splitChunks_chain hc hnd hk hb (by rw [hceq]; exact hlt) hd
  have rk := hch.range k (by simp)
  have rh := hc.range h (by simp)
  have hkB : k ∉ B := fun h => hk (by simp [h])
  -- the chunks
  have hkk : splitChunks σ1.chunks h k bytes k =
      { σ1.chunks k with ptr := (σ1.chunks h).ptr + bytes, size := (σ1.chunks h).size - bytes, id := -1, prev := some h, next := (σ1.chunks h).next } := by
    unfold splitChunks
    rw [if_neg (hnB k hkB), if_neg hkh, if_pos rfl]
  have hhh : splitChunks σ1.chunks h k bytes h = { σ1.chunks h with size := bytes, next := some k } := by
    unfold splitChunks
    rw [if_neg (hnB h n2), if_pos rfl]
  have huse : ∀ j ∈ hsOf (P ++ (R, A ++ h :: B) :: Q), j ≠ h → SameUse (σ1.chunks j) (splitChunks σ1.chunks h k bytes j) ∧
      (splitChunks σ1.chunks h k bytes j).bin = (σ1.chunks j).bin := by
    intro j hj hjh
    have hjk : j ≠ k := fun e => hko (by rw [← e]; exact hj)
    unfold splitChunks
    by_cases a : (σ1.chunks h).next = some j
    · rw [if_pos a]; exact ⟨⟨rfl, rfl, rfl, rfl⟩, rfl⟩
    · rw [if_neg a, if_neg hjh, if_neg hjk]; exact ⟨⟨rfl, rfl, rfl, rfl⟩, rfl⟩
  have hp : (splitChunks σ1.chunks h k bytes k).ptr = (σ1.chunks h).ptr + bytes := by rw [hkk]
  have hrs := putRegions_at P Q (R, A ++ h :: B) ((σ1.chunks h).ptr + bytes) (some k) I1.order
    (by simp only; omega) (by simp only; rw [← hp]; omega) (A ++ h :: k :: B)
  rw [← I1.regs] at hrs
  generalize hrsd : ((P ++ (R.put ((σ1.chunks h).ptr + bytes) (some k), A ++ h :: k :: B) :: Q).map (·.1)) = rs at hrs
  -- the state before the new chunk is put into a bin
  have hstep : splitChunk σ h bytes = insertBin { σ1 with chunks := splitChunks σ1.chunks h k bytes, regions := rs } k := by
    unfold splitChunk
    rw [e1]
    simp only [ok_bind]
    rw [chunkAt_ok (I1.lt hhm)]
    simp only [ok_bind]
    rw [if_neg (by simp [Chunk.inUse, hid, hbin])]
    rw [chunkAt_ok S.lt]
    simp only [ok_bind]
    unfold setHandle
    simp only [Arena.set]
    rw [hrs]
    simp only [ok_bind, pure_ok]
    cases hn : (σ1.chunks h).next with
    | none =>
      simp only [ok_bind]
      congr 2
      funext j
      unfold splitChunks
      rw [hn]
      simp only [reduceCtorEq, if_false]
      by_cases a : j = h
      · simp [a]
      · by_cases b : j = k <;> simp [a, b, hn]
    | some m =>
      have hmB : m ∈ B := by
        rw [hnx] at hn
        exact List.mem_of_mem_head? hn
      have hml : m < σ1.n := I1.lt (I1.mem_region (by simp [hmB]))
      have hmh : m ≠ h := fun e => n2 (by rw [← e]; exact hmB)
      have hmk : m ≠ k := fun e => hkB (by rw [← e]; exact hmB)
      simp only [ok_bind]
      rw [chunkAt, if_pos hml]
      simp only [ok_bind]
      congr 2
      funext j
      unfold splitChunks
      rw [hn]
      by_cases c : j = m
      · subst c; simp [hmh, hmk]
      · by_cases a : j = h
        · subst a; simp [c, Ne.symm c]
        · by_cases b : j = k
          · subst b; simp [c, a, Ne.symm c, hn]
          · simp [c, a, b, Ne.symm c]
  have Imid : Inv { σ1 with chunks := splitChunks σ1.chunks h k bytes, regions := rs }
      (P ++ (R.put ((σ1.chunks h).ptr + bytes) (some k), A ++ h :: k :: B) :: Q) fl1 [k, h] := by
    refine Inv.reshape I1 (X' := [k, h]) ?_ ?_ hrsd.symm rfl rfl ?_ ?_ ?_ ?_ ?_ ?_ rfl rfl rfl rfl ?_ ?_ ?_
    · intro j hj; simp only [List.mem_singleton] at hj; simp [hj]
    · intro j hj; simp only [List.mem_cons, List.not_mem_nil, or_false] at hj; rcases hj with rfl | rfl <;> simp
    · rw [← hp]
      refine hg.put hch (by simp) ?_ ?_
      · intro j hj hjk
        have hj' : j ∈ A ++ h :: B := by
          simp only [List.mem_append, List.mem_cons] at hj ⊢
          tauto
        refine ⟨hj', ?_⟩
        by_cases e : j = h
        · subst e
          change (splitChunks σ1.chunks j k bytes j).ptr = _
          rw [hhh]
        · exact (huse j (I1.mem_region hj') e).1.1
      · intro j hj
        refine ⟨?_, fun e => hk (by rw [← e]; exact hj)⟩
        simp only [List.mem_append, List.mem_cons] at hj ⊢
        tauto
    · intro j hj
      have hj' := I1.other hj
      have hjG : j ∈ hsOf (P ++ (R, A ++ h :: B) :: Q) := by
        rw [hsOf_append, hsOf_cons]; simp only [List.mem_append] at hj ⊢; tauto
      change splitChunks σ1.chunks h k bytes j = _
      unfold splitChunks
      rw [if_neg (hnB j (fun hB => hj' (by simp [hB]))), if_neg (fun e => hj' (by simp [e])), if_neg (fun e => hko (by rw [← e]; exact hjG))]
    · have hperm : (hsOf (P ++ (R.put ((σ1.chunks h).ptr + bytes) (some k), A ++ h :: k :: B) :: Q) ++ fl1).Perm
          (k :: (hsOf (P ++ (R, A ++ h :: B) :: Q) ++ fl1)) := by
        rw [hsOf_append, hsOf_cons, hsOf_append, hsOf_cons]
        simp only [List.append_assoc, List.cons_append]
        rw [← List.append_assoc (hsOf P), ← List.append_assoc (hsOf P)]
        refine ((List.Perm.swap k h _).append_left (hsOf P ++ A)).trans List.perm_middle
      rw [hperm.nodup_iff, List.nodup_cons]
      exact ⟨S.out, I1.nodup⟩
    · intro j hj
      change j < σ1.n
      by_cases e : j = k
      · rw [e]; exact S.lt
      · apply I1.bound
        rw [hsOf_append, hsOf_cons] at hj ⊢
        simp only [List.mem_append, List.mem_cons] at hj ⊢
        tauto
    · refine I1.flist.congr ?_
      intro j hj
      have hjG : j ∉ A ++ h :: B := fun hm => I1.not_fl (I1.mem_region hm) hj
      change _ = (splitChunks σ1.chunks h k bytes j).next
      unfold splitChunks
      rw [if_neg (hnB j (fun hB => hjG (by simp [hB]))), if_neg (fun e => hjG (by simp [e])), if_neg (fun e => hkfl (by rw [← e]; exact hj))]
    · intro j hj
      have hjG : j ∉ A ++ h :: B := fun hm => I1.not_fl (I1.mem_region hm) hj
      change (splitChunks σ1.chunks h k bytes j).bin = none
      unfold splitChunks
      rw [if_neg (hnB j (fun hB => hjG (by simp [hB]))), if_neg (fun e => hjG (by simp [e])), if_neg (fun e => hkfl (by rw [← e]; exact hj))]
      exact I1.flbin j hj
    · intro j hj
      by_cases ek : j = k
      · right
        subst ek
        refine ⟨by simp, ?_, ?_, fun hm => absurd hm hk⟩
        · change (splitChunks σ1.chunks h j bytes j).id = -1
          rw [hkk]
        · change (splitChunks σ1.chunks h j bytes j).bin = none
          rw [hkk]; exact S.bin
      · by_cases eh : j = h
        · right
          subst eh
          refine ⟨by simp, ?_, ?_, fun _ => by simp⟩
          · change (splitChunks σ1.chunks j k bytes j).id = -1
            rw [hhh]; exact hid
          · change (splitChunks σ1.chunks j k bytes j).bin = none
            rw [hhh]; exact hbin
        · left
          have hj' : j ∈ A ++ h :: B := by
            simp only [List.mem_append, List.mem_cons] at hj ⊢
            tauto
          obtain ⟨⟨u1, u2, u3, u4⟩, u5⟩ := huse j (I1.mem_region hj') eh
          exact ⟨hj', by simp [eh], by simp [ek, eh], u3, u2, u1, u5, u4⟩
    · intro j hj hx
      have eh : j ≠ h := by simpa using hx
      have ek : j ≠ k := fun e => hk (by rw [← e]; exact hj)
      refine ⟨?_, by simp [ek, eh]⟩
      simp only [List.mem_append, List.mem_cons] at hj ⊢
      tauto
    · change ((A ++ h :: k :: B).map (weight (splitChunks σ1.chunks h k bytes))).sum = ((A ++ h :: B).map (weight σ1.chunks)).sum
      have w1 : weight (splitChunks σ1.chunks h k bytes) h = 0 := by unfold weight; rw [hhh]; simp [hid]
      have w2 : weight (splitChunks σ1.chunks h k bytes) k = 0 := by unfold weight; rw [hkk]; simp
      have w3 : weight σ1.chunks h = 0 := by unfold weight; simp [hid]
      have w4 : ∀ l : List Nat, (∀ j ∈ l, j ∈ A ++ h :: B ∧ j ≠ h) →
          l.map (weight (splitChunks σ1.chunks h k bytes)) = l.map (weight σ1.chunks) := by
        intro l hl
        apply List.map_congr_left
        intro j hj
        obtain ⟨a, b⟩ := hl j hj
        obtain ⟨⟨u1, u2, u3, u4⟩, u5⟩ := huse j (I1.mem_region a) b
        unfold weight
        rw [u3, u2]
      simp only [List.map_append, List.map_cons, List.sum_append, List.sum_cons, w1, w2, w3]
      rw [w4 A (fun j hj => ⟨by simp [hj], fun e => n4 j hj h (.inl rfl) e⟩),
        w4 B (fun j hj => ⟨by simp [hj], fun e => n2 (by rw [← e]; exact hj)⟩)]
      omega
  refine ⟨_, k, R.put ((σ1.chunks h).ptr + bytes) (some k), fl1, by rw [hstep]; exact insertBin_ok Imid,
    insertBin_inv Imid (by simp [hkh]), hko, rfl, rfl, rfl, ?_, ?_, ?_, ?_, ?_, ⟨f2, f3, f4, f5, f7⟩⟩
  · simp only [inserted, Arena.setBin, Arena.set]
    rw [if_neg (Ne.symm hkh), hhh]
  · simp only [inserted, Arena.setBin, Arena.set]
    rw [if_neg (Ne.symm hkh), hhh, hceq]
  · simp only [inserted, Arena.setBin, Arena.set]
    rw [if_pos trivial, hkk]
  · simp only [inserted, Arena.setBin, Arena.set]
    rw [if_pos trivial, hkk, hceq]
  · intro j hj hjh
    simp only [inserted, Arena.setBin, Arena.set]
    rw [if_neg (fun e => hko (by rw [← e]; exact hj)), ← hsame j hj]
    exact (huse j hj hjh).1

/-! ## Merging -/

/-- The chunks after a merge. -/
def mergeChunks (cs : Nat → Chunk) (fr : Option Nat) (h1 h2 : Nat) (j : Nat) : Chunk :=
  if (cs h2).next = some j then { cs j with prev := some h1 }
  else if j = h1 then { cs h1 with size := (cs h1).size + (cs h2).size, next := (cs h2).next }
  else if j = h2 then { cs h2 with next := fr }
  else cs j

theorem mergeChunks_chain {cs : Nat → Chunk} {A B : List Nat} {fr : Option Nat} {h1 h2 p e : Nat}
    (hc : Chain cs p none (A ++ h1 :: h2 :: B) none e) (hnd : (A ++ h1 :: h2 :: B).Nodup) :
    Chain (mergeChunks cs fr h1 h2) p none (A ++ h1 :: B) none e := by
  obtain ⟨m, c1, c2⟩ := Chain.append.1 hc
  obtain ⟨d1, d2, d3, d4, d5, d6, d7, d8, d9, d10, d11⟩ := c2
  have hnx : (cs h2).next = B.head? := by simpa using d8
  have hnB : ∀ j, j ∉ B → (cs h2).next ≠ some j := by
    intro j hj e
    rw [hnx] at e
    exact hj (List.mem_of_mem_head? e)
  simp only [List.nodup_append, List.nodup_cons, List.mem_cons, not_or] at hnd
  obtain ⟨n1, ⟨⟨n2, n3⟩, n4, n5⟩, n6⟩ := hnd
  have hA : ∀ j ∈ A, mergeChunks cs fr h1 h2 j = cs j := by
    intro j hj
    unfold mergeChunks
    rw [if_neg (hnB j (fun hB => n6 j hj j (.inr (.inr hB)) rfl)), if_neg (fun e => n6 j hj h1 (.inl rfl) e),
      if_neg (fun e => n6 j hj h2 (.inr (.inl rfl)) e)]
  have hh : mergeChunks cs fr h1 h2 h1 = { cs h1 with size := (cs h1).size + (cs h2).size, next := (cs h2).next } := by
    unfold mergeChunks
    rw [if_neg (hnB h1 n3), if_pos rfl]
  refine Chain.append.2 ⟨m, c1.congr (fun j hj => SameGeo.of_eq (hA j hj)), ?_⟩
  refine ⟨by rw [hh]; exact d1, by rw [hh]; exact d2, by rw [hh]; exact d8, by rw [hh]; simp only; omega,
    by rw [hh]; exact Nat.dvd_add d5 d10, ?_⟩
  have e1 : m + (mergeChunks cs fr h1 h2 h1).size = m + (cs h1).size + (cs h2).size := by
    rw [hh]; simp only; omega
  rw [e1]
  refine d11.reprev ?_ ?_
  · intro x hx
    unfold mergeChunks
    rw [if_pos (by rw [hnx, hx])]
    exact ⟨rfl, rfl, rfl, rfl⟩
  · intro x hx
    refine SameGeo.of_eq ?_
    have hxB : x ∈ B := List.mem_of_mem_tail hx
    have hne : B.head? ≠ some x := by
      intro e
      cases B with
      | nil => simp at hx
      | cons b B =>
        simp only [List.head?_cons, Option.some.injEq] at e
        subst e
        exact (List.nodup_cons.1 n5).1 hx
    unfold mergeChunks
    rw [if_neg (by rw [hnx]; exact hne), if_neg (fun e => n3 (by rw [← e]; exact hxB)),
      if_neg (fun e => n4 (by rw [← e]; exact hxB))]

theorem merge_ok {σ P R A h1 h2 B Q fl X} (I : Inv σ (P ++ (R, A ++ h1 :: h2 :: B) :: Q) fl X)
    (hX : ∀ j, j ∈ X ↔ j = h1 ∨ j = h2) :
    ∃ σ' R' , merge σ h1 h2 = .ok σ' ∧ Inv σ' (P ++ (R', A ++ h1 :: B) :: Q) (h2 :: fl) [h1] ∧
      R'.base = R.base ∧ R'.size = R.size ∧ R'.id = R.id ∧ (σ'.chunks h1).size = (σ.chunks h1).size + (σ.chunks h2).size ∧
      (σ'.chunks h1).ptr = (σ.chunks h1).ptr ∧
      (∀ j ∈ hsOf (P ++ (R, A ++ h1 :: h2 :: B) :: Q), j ≠ h1 → j ≠ h2 → SameUse (σ.chunks j) (σ'.chunks j)) ∧ Rest σ σ' := by
  have m1 : h1 ∈ hsOf (P ++ (R, A ++ h1 :: h2 :: B) :: Q) := I.mem_region (by simp)
  have m2 : h2 ∈ hsOf (P ++ (R, A ++ h1 :: h2 :: B) :: Q) := I.mem_region (by simp)
  have x1 : h1 ∈ X := (hX h1).2 (.inl rfl)
  have x2 : h2 ∈ X := (hX h2).2 (.inr rfl)
  have i1 := (I.xs h1 x1).2
  have i2 := (I.xs h2 x2).2
  have b1 : (σ.chunks h1).bin = none := by rw [I.binof h1 m1]; simp [x1]
  have b2 : (σ.chunks h2).bin = none := by rw [I.binof h2 m2]; simp [x2]
  have hnd := I.nodup_region
  have hg := I.geo (R, A ++ h1 :: h2 :: B) (by simp)
  have hc := hg.chain
  simp only at hc
  have hpr : (σ.chunks h2).prev = some h1 := by
    obtain ⟨m, _, c2⟩ := Chain.append.1 hc
    exact c2.2.2.2.2.2.2.1
  have hnx : (σ.chunks h2).next = B.head? := by
    obtain ⟨m, _, c2⟩ := Chain.append.1 hc
    simpa using c2.2.2.2.2.2.2.2.1
  have hnB : ∀ j, j ∉ B → (σ.chunks h2).next ≠ some j := by
    intro j hj e
    rw [hnx] at e
    exact hj (List.mem_of_mem_head? e)
  have hndP := hnd
  simp only [List.nodup_append, List.nodup_cons, List.mem_cons, not_or] at hndP
  obtain ⟨n1, ⟨⟨n2, n3⟩, n4, n5⟩, n6⟩ := hndP
  have hch := mergeChunks_chain (fr := σ.free) hc hnd
  have r2 := hc.range h2 (by simp)
  have hhh : mergeChunks σ.chunks σ.free h1 h2 h1 =
      { σ.chunks h1 with size := (σ.chunks h1).size + (σ.chunks h2).size, next := (σ.chunks h2).next } := by
    unfold mergeChunks
    rw [if_neg (hnB h1 n3), if_pos rfl]
  have hh2 : mergeChunks σ.chunks σ.free h1 h2 h2 = { σ.chunks h2 with next := σ.free } := by
    unfold mergeChunks
    rw [if_neg (hnB h2 n4), if_neg (Ne.symm n2), if_pos rfl]
  have huse : ∀ j, j ≠ h1 → j ≠ h2 → SameUse (σ.chunks j) (mergeChunks σ.chunks σ.free h1 h2 j) ∧
      (mergeChunks σ.chunks σ.free h1 h2 j).bin = (σ.chunks j).bin := by
    intro j a b
    unfold mergeChunks
    by_cases c : (σ.chunks h2).next = some j
    · rw [if_pos c]; exact ⟨⟨rfl, rfl, rfl, rfl⟩, rfl⟩
    · rw [if_neg c, if_neg a, if_neg b]; exact ⟨⟨rfl, rfl, rfl, rfl⟩, rfl⟩
  have hrs := putRegions_at P Q (R, A ++ h1 :: h2 :: B) (σ.chunks h2).ptr none I.order
    (by simp only; omega) (by simp only; omega) (A ++ h1 :: B)
  rw [← I.regs] at hrs
  generalize hrsd : ((P ++ (R.put (σ.chunks h2).ptr none, A ++ h1 :: B) :: Q).map (·.1)) = rs at hrs
  have hstep : merge σ h1 h2 =
      .ok { σ with chunks := mergeChunks σ.chunks σ.free h1 h2, regions := rs, free := some h2 } := by
    have key : ∀ τ : Arena, τ.regions = σ.regions → τ.n = σ.n → τ.free = σ.free → τ.bins = σ.bins → τ.nextId = σ.nextId →
        τ.cur = σ.cur → τ.total = σ.total → τ.used = σ.used → τ.extensions = σ.extensions →
        (∀ j, j ≠ h2 → τ.chunks j = mergeChunks σ.chunks σ.free h1 h2 j) → τ.chunks h2 = σ.chunks h2 →
        deleteChunk τ h2 = .ok { σ with chunks := mergeChunks σ.chunks σ.free h1 h2, regions := rs, free := some h2 } := by
      intro τ t1 t2 t3 t4 t5 t6 t7 t8 t9 t10 t11
      unfold deleteChunk
      rw [chunkAt_ok (by rw [t2]; exact I.lt m2)]
      simp only [ok_bind]
      unfold setHandle
      rw [t1, t11, hrs]
      simp only [ok_bind, pure_ok]
      unfold deallocateChunk
      rw [chunkAt, if_pos (by simp only; rw [t2]; exact I.lt m2)]
      simp only [ok_bind, pure_ok, Arena.set]
      cases τ with
      | mk a1 a2 a3 a4 a5 a6 a7 a8 a9 a10 =>
        simp only at t1 t2 t3 t4 t5 t6 t7 t8 t9 t10 t11
        subst t1 t2 t3 t4 t5 t6 t7 t8 t9
        congr 2
        funext j
        by_cases e : j = h2
        · subst e
          simp only [if_true]
          rw [hh2, t11]
        · rw [if_neg e]
          exact t10 j e
    unfold merge
    rw [chunkAt_ok (I.lt m1)]
    simp only [ok_bind]
    rw [chunkAt_ok (I.lt m2)]
    simp only [ok_bind]
    rw [if_neg (by simp [Chunk.inUse, i1, i2]), if_neg (by simp [hpr])]
    cases hn : (σ.chunks h2).next with
    | none =>
      simp only [ok_bind, pure_ok]
      rw [chunkAt_ok (σ := σ.set h1 _) (I.lt m1)]
      simp only [ok_bind]
      apply key <;> try rfl
      · intro j hj
        unfold mergeChunks
        rw [hn]
        by_cases a : j = h1
        · subst a; simp [Arena.set]
        · simp [Arena.set, a, hj]
      · simp [Arena.set, Ne.symm n2]
    | some m =>
      have hmB : m ∈ B := by
        rw [hnx] at hn
        exact List.mem_of_mem_head? hn
      have hml : m < σ.n := I.lt (I.mem_region (by simp [hmB]))
      have hm1 : m ≠ h1 := fun e => n3 (by rw [← e]; exact hmB)
      have hm2 : m ≠ h2 := fun e => n4 (by rw [← e]; exact hmB)
      simp only [ok_bind, pure_ok]
      rw [chunkAt_ok (σ := σ.set h1 _) hml]
      simp only [ok_bind]
      rw [chunkAt_ok (σ := (σ.set h1 _).set m _) (I.lt m1)]
      simp only [ok_bind]
      apply key <;> try rfl
      · intro j hj
        unfold mergeChunks
        rw [hn]
        by_cases c : j = m
        · subst c; simp [Arena.set, hm1]
        · by_cases a : j = h1
          · subst a; simp [Arena.set, Ne.symm hm1, hm1]
          · simp [Arena.set, a, hj, c, Ne.symm c]
      · simp [Arena.set, Ne.symm n2, Ne.symm hm2]
  have hsub : ∀ j, j ∈ A ++ h1 :: B → j ∈ A ++ h1 :: h2 :: B ∧ j ≠ h2 := by
    intro j hj
    constructor
    · simp only [List.mem_append, List.mem_cons] at hj ⊢; tauto
    · rintro rfl
      simp only [List.mem_append, List.mem_cons] at hj
      rcases hj with hj | hj | hj
      · exact n6 _ hj _ (.inr (.inl rfl)) rfl
      · exact n2 hj.symm
      · exact n4 hj
  refine ⟨_, R.put (σ.chunks h2).ptr none, hstep, ?_, rfl, rfl, rfl, ?_, ?_, ?_, ⟨rfl, rfl, rfl, rfl, rfl⟩⟩
  · refine Inv.reshape I (X' := [h1]) ?_ ?_ hrsd.symm rfl rfl ?_ ?_ ?_ ?_ ?_ ?_ rfl rfl rfl rfl ?_ ?_ ?_
    · intro j hj; rcases (hX j).1 hj with rfl | rfl <;> simp
    · intro j hj; simp only [List.mem_singleton] at hj; simp [hj]
    · refine hg.erase hch (by simp) ?_ ?_
      · intro j hj
        obtain ⟨a, b⟩ := hsub j hj
        refine ⟨a, b, ?_⟩
        by_cases e : j = h1
        · subst e
          change (mergeChunks σ.chunks σ.free j h2 j).ptr = _
          rw [hhh]
        · exact (huse j e b).1.1
      · intro j hj hne
        simp only [List.mem_append, List.mem_cons] at hj ⊢; tauto
    · intro j hj
      have hj' := I.other hj
      change mergeChunks σ.chunks σ.free h1 h2 j = _
      unfold mergeChunks
      rw [if_neg (hnB j (fun hB => hj' (by simp [hB]))), if_neg (fun e => hj' (by simp [e])), if_neg (fun e => hj' (by simp [e]))]
    · have hperm : (hsOf (P ++ (R.put (σ.chunks h2).ptr none, A ++ h1 :: B) :: Q) ++ h2 :: fl).Perm
          (hsOf (P ++ (R, A ++ h1 :: h2 :: B) :: Q) ++ fl) := by
        rw [hsOf_append, hsOf_cons, hsOf_append, hsOf_cons]
        refine List.perm_middle.trans ?_
        simp only [List.append_assoc, List.cons_append]
        rw [← List.append_assoc (hsOf P), ← List.append_assoc (hsOf P)]
        refine (List.perm_middle.symm).trans ((List.Perm.swap h1 h2 _).append_left (hsOf P ++ A))
      rw [hperm.nodup_iff]
      exact I.nodup
    · intro j hj
      change j < σ.n
      apply I.bound
      rw [hsOf_append, hsOf_cons] at hj ⊢
      simp only [List.mem_append, List.mem_cons] at hj ⊢
      tauto
    · refine ⟨rfl, ?_⟩
      change FreeChain (mergeChunks σ.chunks σ.free h1 h2) (mergeChunks σ.chunks σ.free h1 h2 h2).next fl
      rw [hh2]
      refine I.flist.congr ?_
      intro j hj
      have hjG : j ∉ A ++ h1 :: h2 :: B := fun hm => I.not_fl (I.mem_region hm) hj
      unfold mergeChunks
      rw [if_neg (hnB j (fun hB => hjG (by simp [hB]))), if_neg (fun e => hjG (by simp [e])), if_neg (fun e => hjG (by simp [e]))]
    · intro j hj
      rcases List.mem_cons.1 hj with rfl | hj
      · change (mergeChunks σ.chunks σ.free h1 j j).bin = none
        rw [hh2]; exact b2
      · have hjG : j ∉ A ++ h1 :: h2 :: B := fun hm => I.not_fl (I.mem_region hm) hj
        change (mergeChunks σ.chunks σ.free h1 h2 j).bin = none
        rw [(huse j (fun e => hjG (by simp [e])) (fun e => hjG (by simp [e]))).2]
        exact I.flbin j hj
    · intro j hj
      obtain ⟨a, b⟩ := hsub j hj
      by_cases e : j = h1
      · right
        subst e
        refine ⟨by simp, ?_, ?_, fun _ => x1⟩
        · change (mergeChunks σ.chunks σ.free j h2 j).id = -1
          rw [hhh]; exact i1
        · change (mergeChunks σ.chunks σ.free j h2 j).bin = none
          rw [hhh]; exact b1
      · left
        obtain ⟨⟨u1, u2, u3, u4⟩, u5⟩ := huse j e b
        exact ⟨a, fun hx => by rcases (hX j).1 hx with h | h <;> tauto, by simp [e], u3, u2, u1, u5, u4⟩
    · intro j hj hx
      have e1 : j ≠ h1 := fun e => hx (by rw [e]; exact x1)
      have e2 : j ≠ h2 := fun e => hx (by rw [e]; exact x2)
      refine ⟨?_, by simp [e1]⟩
      simp only [List.mem_append, List.mem_cons] at hj ⊢; tauto
    · change ((A ++ h1 :: B).map (weight (mergeChunks σ.chunks σ.free h1 h2))).sum = ((A ++ h1 :: h2 :: B).map (weight σ.chunks)).sum
      have w1 : weight (mergeChunks σ.chunks σ.free h1 h2) h1 = 0 := by unfold weight; rw [hhh]; simp [i1]
      have w2 : weight σ.chunks h1 = 0 := by unfold weight; simp [i1]
      have w3 : weight σ.chunks h2 = 0 := by unfold weight; simp [i2]
      have w4 : ∀ l : List Nat, (∀ j ∈ l, j ≠ h1 ∧ j ≠ h2) →
          l.map (weight (mergeChunks σ.chunks σ.free h1 h2)) = l.map (weight σ.chunks) := by
        intro l hl
        apply List.map_congr_left
        intro j hj
        obtain ⟨a, b⟩ := hl j hj
        obtain ⟨⟨u1, u2, u3, u4⟩, u5⟩ := huse j a b
        unfold weight
        rw [u3, u2]
      simp only [List.map_append, List.map_cons, List.sum_append, List.sum_cons, w1, w2, w3]
      rw [w4 A (fun j hj => ⟨fun e => n6 j hj h1 (.inl rfl) e, fun e => n6 j hj h2 (.inr (.inl rfl)) e⟩),
        w4 B (fun j hj => ⟨fun e => n3 (by rw [← e]; exact hj), fun e => n4 (by rw [← e]; exact hj)⟩)]
      omega
  · change (mergeChunks σ.chunks σ.free h1 h2 h1).size = _
    rw [hhh]
  · change (mergeChunks σ.chunks σ.free h1 h2 h1).ptr = _
    rw [hhh]
  · intro j _ a b
    exact (huse j a b).1

end Verif.Bfc
