import Verif.CedarMoveProps
/-
`_resolve` and `_follow`: one step down the tree, adding the node if it is missing.
-/
namespace Verif.Cedar

/-- A state that holds a whole tree. -/
structure TInv (s : St) (g : Gh) : Prop where
  inv : GInv s g
  hole : ∀ m, ¬ g.hole m
  done : ∀ π c, g.done π c
  q : ∀ π c, g.Q π c ↔ g.D (c :: π) ∨ (π = [] ∧ c = 0)

/-- Values of nodes that do not exist can be changed. -/
theorem TInv.reval {s : St} {g : Gh} (h : TInv s g) (v : List Nat → Int)
    (hv : ∀ π, g.D π → v π = g.val π) : TInv s { g with val := v } := by
  obtain ⟨i, h1, h2, h3⟩ := h
  refine ⟨⟨i.alloc, i.rootD, i.rootPos, i.rootBase, i.rootQ, i.clos, i.inj, i.used, i.only, i.place, i.old,
    i.big, i.leaf, ?_, i.dq, i.qlt, i.settled, i.first, i.nochild, i.sib, i.free, i.hole0⟩, h1, h2, h3⟩
  intro π hd
  show _ = v (0 :: π)
  rw [hv _ hd]; exact i.value π hd

theorem TInv.ext {s s' : St} {g : Gh} (h : TInv s g) (hx : Ext s s') : TInv s' g :=
  ⟨h.inv.ext hx, h.hole, h.done, h.q⟩

/-- The loop can start. -/
theorem loop_start {s s' : St} {g : Gh} (h : TInv s g) {ξ : List Nat} {B : Nat} {K : List Nat}
    (P : Nat → Prop) (hP : ∀ c, P c → c < 256) (hξ : g.D ξ) (hne : ξ ≠ []) (hin : Inner ξ)
    (hq0 : ∃ c, g.Q ξ c) (hs : K.Pairwise (· < ·)) (hK : ∀ k, k ∈ K ↔ g.Q ξ k ∨ P k) (hB : 256 ≤ B)
    (hlt : B < s.size) (hfit : ∀ c ∈ K, (s.arr (slot B c)).check < 0) (hblk : s'.blk = s.blk)
    (hhead : s'.head = s.head) (hsize : s'.size = s.size)
    (hnode : s'.arr (g.pos ξ) = ⟨B, (s.arr (g.pos ξ)).check⟩)
    (harr : ∀ m, m ≠ g.pos ξ → s'.arr m = s.arr m)
    (hsib : ∀ m, (s'.ni m).sibling = (s.ni m).sibling)
    (hchild : ∀ m, m ≠ g.pos ξ → (s'.ni m).child = (s.ni m).child)
    (hfirst : First (fun k => g.Q ξ k ∨ P k) (s'.ni (g.pos ξ)).child) :
    Loop s' { g with
      Q := fun π c => g.Q π c ∨ (π = ξ ∧ P c)
      done := fun π c => π ≠ ξ ∨ c ∉ K
      A := (s.arr (g.pos ξ)).base } ξ B K := by
  have i := h.inv
  obtain ⟨c0, hc0⟩ := hq0
  have hAbig := i.big c0 ξ hξ hne hc0
  have hpz : g.pos ξ ≠ 0 := i.pos_ne_zero hξ hne
  have hpos : ∀ π, g.D π → π ≠ ξ → g.pos π ≠ g.pos ξ := fun π hp hn e => hn (i.inj _ _ hp hξ e)
  have harr' : ∀ π, g.D π → π ≠ ξ → s'.arr (g.pos π) = s.arr (g.pos π) :=
    fun π hp hn => harr _ (hpos π hp hn)
  have hck : ∀ m, (s'.arr m).check = (s.arr m).check := by
    intro m
    by_cases hm : m = g.pos ξ
    · rw [hm, hnode]
    · rw [harr m hm]
  have hused : ∀ m, Used s' m ↔ Used s m := by intro m; simp only [Used, hsize, hck]
  have hQ : ∀ π, π ≠ ξ → (fun c => g.Q π c ∨ (π = ξ ∧ P c)) = g.Q π := by
    intro π hn; funext c; exact propext ⟨fun e => e.resolve_right (fun e => hn e.1), Or.inl⟩
  have hQξ : (fun c => g.Q ξ c ∨ (ξ = ξ ∧ P c)) = fun k => g.Q ξ k ∨ P k := by
    funext c; exact propext ⟨fun e => e.imp id (fun e => e.2), fun e => e.imp id (fun e => ⟨rfl, e⟩)⟩
  have hDK : ∀ c, g.D (c :: ξ) → c ∈ K := fun c hc => (hK c).mpr (Or.inl (i.dq c ξ hc))
  refine ⟨?_, h.hole, hξ, hne, ?_, hB, by rw [hsize]; exact hlt, fun _ _ => Iff.rfl, ?_, hAbig, ?_⟩
  · refine ⟨?_, i.rootD, i.rootPos, ?_, Or.inl i.rootQ, i.clos, i.inj, ?_, ?_, ?_, ?_, ?_, ?_, ?_, ?_, ?_, ?_, ?_,
      ?_, ?_, ?_, i.hole0⟩
    · refine i.alloc.frame hblk hhead hsize ?_ ?_
      · intro m _ hm
        refine harr m ?_
        rintro rfl
        have := (i.usedD hξ hne).2.2
        omega
      · intro m _ hm; rw [hck]; exact hm
    · rw [harr 0 (Ne.symm hpz)]; exact i.rootBase
    · intro c π hp
      obtain ⟨u1, u2, u3⟩ := i.used c π hp
      exact ⟨(hused _).mpr u1, by rw [hck]; exact u2, u3⟩
    · intro m hm; exact i.only m ((hused m).mp hm)
    · intro c π hp hd
      have hn : π ≠ ξ := by
        rintro rfl
        rcases hd with hd | hd
        · exact hd rfl
        · exact hd (hDK c hp)
      show g.pos (c :: π) = slot (s'.arr (g.pos π)).base c
      rw [harr' π (i.clos c π hp).1 hn]
      exact i.place c π hp (h.done _ _)
    · intro c π hp hd
      have hn : π = ξ := by
        by_contra hn
        exact hd (Or.inl hn)
      subst hn
      exact i.place c π hp (h.done _ _)
    · intro c π hp hn hq
      show 256 ≤ (s'.arr (g.pos π)).base
      by_cases hn' : π = ξ
      · rw [hn', hnode]; show (256 : Int) ≤ B; omega
      · rw [harr' π hp hn']
        exact i.big c π hp hn (hq.resolve_right (fun e => hn' e.1))
    · intro π hp hn hi hq
      have hn' : π ≠ ξ := by
        rintro rfl
        exact hq c0 (Or.inl hc0)
      show (s'.arr (g.pos π)).base = -1
      rw [harr' π hp hn']
      exact i.leaf π hp hn hi (fun c hc => hq c (Or.inl hc))
    · intro π hp
      have hn' : 0 :: π ≠ ξ := by rintro rfl; exact hin rfl
      show (s'.arr (g.pos (0 :: π))).base = g.val (0 :: π)
      rw [harr' _ hp hn']
      exact i.value π hp
    · intro c π hp; exact Or.inl (i.dq c π hp)
    · rintro c π (hq | ⟨e, hq⟩)
      · exact i.qlt c π hq
      · subst e; exact ⟨hP c hq, hin, hξ⟩
    · intro c π hq hd
      have hn : π ≠ ξ := by
        rintro rfl
        rcases hd with hd | hd
        · exact hd rfl
        · exact hd ((hK c).mpr (hq.imp id (fun e => e.2)))
      exact i.settled c π (hq.resolve_right (fun e => hn e.1)) (h.done _ _)
    · intro c π hq
      show First (fun c => g.Q π c ∨ (π = ξ ∧ P c)) (s'.ni (g.pos π)).child
      by_cases hn : π = ξ
      · rw [hn, hQξ]; exact hfirst
      · have hq' := hq.resolve_right (fun e => hn e.1)
        rw [hQ π hn, hchild _ (hpos π (i.qlt c π hq').2.2 hn)]
        exact i.first c π hq'
    · intro π hp hq
      have hn' : π ≠ ξ := by
        rintro rfl
        exact hq c0 (Or.inl hc0)
      show (s'.ni (g.pos π)).child = 0
      rw [hchild _ (hpos π hp hn')]
      exact i.nochild π hp (fun c hc => hq c (Or.inl hc))
    · intro c π hq hd
      have hn : π ≠ ξ := by
        rintro rfl
        rcases hd with hd | hd
        · exact hd rfl
        · exact hd ((hK c).mpr (hq.imp id (fun e => e.2)))
      have hq' := hq.resolve_right (fun e => hn e.1)
      show Next (fun c => g.Q π c ∨ (π = ξ ∧ P c)) c (s'.ni (slot (s'.arr (g.pos π)).base c)).sibling
      rw [hQ π hn, harr' π (i.qlt c π hq').2.2 hn, hsib]
      exact i.sib c π hq' (h.done _ _)
    · intro m hm h0
      rw [hused] at hm
      rw [hchild m]
      · exact i.free m hm h0
      · rintro rfl; exact hm (i.usedD hξ hne)
  · show (s'.arr (g.pos ξ)).base = B
    rw [hnode]
  · intro c hc; rw [hck]; exact hfit c hc
  · refine ⟨[], by simpa using hs, fun k => ?_⟩
    show k ∈ [] ++ K ↔ g.Q ξ k ∨ (ξ = ξ ∧ P k)
    rw [List.nil_append, hK]; simp

theorem place_spec {s : St} (h : AInv s) {first : Nat} {rest : List Nat} (hf : first < 256)
    (hr : ∀ p ∈ rest, p < 256) :
    ∃ s' e, (if rest = [] then some (findPlace s) else findPlaces s first rest) = some (s', e) ∧
      Ext s s' ∧ 256 ≤ e ^^^ first ∧ e ^^^ first < s'.size ∧
      ∀ c ∈ first :: rest, (s'.arr (slot ((e ^^^ first : Nat) : Int) c)).check < 0 := by
  have main : ∀ s' e, Ext s s' → 256 ≤ e → e < s'.size → (s'.arr e).check < 0 → Fits s' e first rest →
      256 ≤ e ^^^ first ∧ e ^^^ first < s'.size ∧
      ∀ c ∈ first :: rest, (s'.arr (slot ((e ^^^ first : Nat) : Int) c)).check < 0 := by
    intro s' e x1 x2 x3 x4 x5
    have h1 := xor_div e first hf
    have h2 := x1.inv.size_mod
    refine ⟨by omega, by omega, ?_⟩
    intro c hc
    have hsl : slot ((e ^^^ first : Nat) : Int) c = (e ^^^ first) ^^^ c := by
      unfold slot; rw [Int.toNat_natCast]
    rw [hsl]
    rcases List.mem_cons.mp hc with rfl | hc
    · rw [Nat.xor_assoc, Nat.xor_self, Nat.xor_zero]; exact x4
    · exact x5 c hc
  split
  · rename_i hrest
    obtain ⟨x1, x2, x3, x4⟩ := findPlace_spec h
    exact ⟨(findPlace s).1, (findPlace s).2, rfl, x1, main _ _ x1 x2 x3 x4 (by rw [hrest]; intro p hp; simp at hp)⟩
  · obtain ⟨s', e, y1, y2, y3, y4, y5, y6⟩ := findPlaces_spec h hf hr
    exact ⟨s', e, y1, y2, main _ _ y2 y3 y4 y5 y6⟩

theorem base_setBase (s : St) (i : Nat) (x : Int) :
    (s.setBase i x).arr i = ⟨x, (s.arr i).check⟩ := by simp [St.setBase]

/-- The end of the loop. -/
theorem Loop.finish {s : St} {g : Gh} {ξ : List Nat} {B : Nat} (h : Loop s g ξ B [])
    (hq : ∀ π c, g.Q π c ↔ g.D (c :: π) ∨ (π = [] ∧ c = 0)) : TInv s g :=
  ⟨h.inv, h.hole, fun π c => (h.done π c).mpr (Or.inr (by simp)), hq⟩

theorem resolve_spec {s : St} {g : Gh} (h : TInv s g) {ν : List Nat} {x : Nat} (hν : g.D ν)
    (hin : Inner ν) (hlt : x < 256) (h0 : ν = [] → x ≠ 0) (hb : 0 ≤ (s.arr (g.pos ν)).base)
    (hc : 0 ≤ (s.arr (slot (s.arr (g.pos ν)).base x)).check)
    (hcn : (s.arr (slot (s.arr (g.pos ν)).base x)).check ≠ g.pos ν)
    (hv : x = 0 → g.val (x :: ν) = 0) :
    ∃ s' g' srcN, resolve s (g.pos ν) (s.arr (g.pos ν)).base x = some (s', srcN, g'.pos (x :: ν)) ∧
      TInv s' g' ∧ (∀ π, g'.D π ↔ g.D π ∨ π = x :: ν) ∧ g'.val = g.val := by
  have i := h.inv
  -- both bases are beyond the first block
  have hkid : ν ≠ [] → ∃ c, g.Q ν c := by
    intro hn
    by_contra hc
    have := i.leaf ν hν hn hin (fun c hq => hc ⟨c, hq⟩)
    omega
  have hbig : ν ≠ [] → 256 ≤ (s.arr (g.pos ν)).base := by
    intro hn
    obtain ⟨c, hq⟩ := hkid hn
    exact i.big c ν hν hn hq
  have hbn : ν = [] → (s.arr (g.pos ν)).base = 0 := by
    rintro rfl; rw [i.rootPos]; exact i.rootBase
  generalize hbN : (s.arr (g.pos ν)).base = bN at *
  have hsd := slot_div bN x hlt
  have hsz : slot bN x < s.size := by
    have h1 := i.alloc.size_mod
    have h2 := i.alloc.size_pos
    by_cases hn : ν = []
    · have h3 := hbn hn
      omega
    · obtain ⟨c, hq⟩ := hkid hn
      have hd := ((h.q ν c).mp hq).resolve_right (fun e => hn e.1)
      have h3 := i.place c ν hd (h.done _ _)
      have h4 := (i.used c ν hd).1.2.1
      rw [hbN] at h3
      rw [h3] at h4
      have h5 := slot_div bN c (i.qlt c ν hq).1
      omega
  have hs0 : slot bN x ≠ 0 := by
    intro e
    by_cases hn : ν = []
    · rw [hbn hn] at e; exact h0 hn (by simpa [slot] using e)
    · have := hbig hn; rw [e] at hsd; omega
  have hus : Used s (slot bN x) := ⟨hs0, hsz, hc⟩
  obtain ⟨d, ξ0, hdξ, hpξ⟩ := (i.only _ hus).resolve_left (h.hole _)
  have hck := (i.used d ξ0 hdξ).2.1
  rw [hpξ] at hck
  have hcl := i.clos d ξ0 hdξ
  have hne : ν ≠ ξ0 := by rintro rfl; exact hcn hck
  have hplace := i.place d ξ0 hdξ (h.done _ _)
  rw [hpξ] at hplace
  have hqξ := i.dq d ξ0 hdξ
  have hdlt := hcl.2.1
  have hroot : ν ≠ [] := by
    intro hn
    have h1 : ξ0 ≠ [] := fun e => hne (by rw [hn, e])
    have h2 := i.big d ξ0 hcl.1 h1 hqξ
    have h3 := slot_div (s.arr (g.pos ξ0)).base d hdlt
    rw [← hplace] at h3
    rw [hbn hn] at hsd h3
    simp at hsd
    omega
  have hroot0 : ξ0 ≠ [] := by
    intro hn
    have h2 := hbig hroot
    rw [hn, i.rootPos, i.rootBase] at hplace
    have h3 := slot_div 0 d hdlt
    rw [← hplace] at h3
    simp at h3
    omega
  have hbP : 256 ≤ (s.arr (g.pos ξ0)).base := i.big d ξ0 hcl.1 hroot0 hqξ
  have hbN' := hbig hroot
  have hxD : ¬ g.D (x :: ν) := by
    intro hx
    have h1 := i.place x ν hx (h.done _ _)
    rw [hbN] at h1
    have h2 := (i.used x ν hx).2.1
    rw [h1] at h2
    exact hcn h2
  have hxQ : ¬ g.Q ν x := by
    intro hq
    rcases (h.q ν x).mp hq with e | e
    · exact hxD e
    · exact hroot e.1
  obtain ⟨c0, hc0⟩ := hkid hroot
  have hchN := i.chain ν (fun c _ => h.done ν c)
  have hchP := i.chain ξ0 (fun c _ => h.done ξ0 c)
  rw [hbN] at hchN
  have hfN := i.first c0 ν hc0
  have hfP := i.first d ξ0 hqξ
  have htoP : (s.arr (slot bN x)).check.toNat = g.pos ξ0 := by rw [hck]; simp
  unfold resolve
  dsimp only
  rw [htoP]
  obtain ⟨flag, hflag⟩ := consult_spec hchN hchP 257 _ _ hfN.1 hfP.1 (by omega)
  rw [hflag]
  dsimp only
  cases flag with
  | true =>
    obtain ⟨K, k1, k2, k3⟩ := setChildren_insert hchN hfN hxQ
    simp only [if_true, k1]
    cases K with
    | nil => have := (k3 x).mpr (Or.inr rfl); simp at this
    | cons first rest =>
      have hKlt : ∀ p ∈ first :: rest, p < 256 := by
        intro p hp
        rcases (k3 p).mp hp with e | e
        · exact (i.qlt p ν e).1
        · omega
      obtain ⟨s1, e, p1, p2, p3, p4, p5⟩ := place_spec (rest := rest) i.alloc (hKlt first (by simp))
        (fun p hp => hKlt p (by simp [hp]))
      dsimp only
      rw [p1]
      dsimp only
      have h1 := h.ext p2
      have hn1 : s1.ni = s.ni := p2.ni
      have ha1 : s1.arr (g.pos ν) = s.arr (g.pos ν) := p2.arr _ (i.posD_lt hν)
      have hfst : First (fun k => g.Q ν k ∨ k = x) first := by
        refine ⟨(k3 first).mp (by simp), fun k hk => ?_⟩
        rcases List.mem_cons.mp ((k3 k).mpr hk) with e | e
        · omega
        · have := (List.pairwise_cons.mp k2).1 k e; omega
      generalize hs2 : (if True ∧ first = x then s1.setChild (g.pos ν) x else s1) = s2
      have hs2a : s2.arr = s1.arr ∧ s2.blk = s1.blk ∧ s2.head = s1.head ∧ s2.size = s1.size ∧
          (∀ m, (s2.ni m).sibling = (s1.ni m).sibling) ∧
          (∀ m, m ≠ g.pos ν → (s2.ni m).child = (s1.ni m).child) := by
        rw [← hs2]; split
        · exact ⟨rfl, rfl, rfl, rfl, fun m => sibling_setChild .., fun m hm => by
            rw [child_setChild, if_neg hm]⟩
        · exact ⟨rfl, rfl, rfl, rfl, fun _ => rfl, fun _ _ => rfl⟩
      have hfirst2 : First (fun k => g.Q ν k ∨ k = x) (s2.ni (g.pos ν)).child := by
        rw [← hs2]
        by_cases hfx : first = x
        · rw [if_pos ⟨trivial, hfx⟩, child_setChild, if_pos rfl, ← hfx]
          rw [← hfx] at hfst; exact hfst
        · rw [if_neg (fun e => hfx e.2), hn1]
          have hcf : (s.ni (g.pos ν)).child = first := by
            have a1 := hfN.2 first (hfst.1.resolve_right hfx)
            have a2 := hfst.2 _ (Or.inl hfN.1)
            omega
          rw [hcf]; exact hfst
      have hL := loop_start (s' := s2.setBase (g.pos ν) ((e ^^^ first : Nat) : Int)) h1 (K := first :: rest)
        (fun k => k = x) (fun k hk => by omega) hν hroot hin ⟨c0, hc0⟩ k2 k3 p3 p4 p5 hs2a.2.1 hs2a.2.2.1
        hs2a.2.2.2.1 (by rw [base_setBase, hs2a.1])
        (fun m hm => by simp only [St.setBase]; rw [upd_ne _ _ hm, hs2a.1])
        hs2a.2.2.2.2.1 hs2a.2.2.2.2.2 hfirst2
      rw [ha1, hbN] at hL
      have hx' : x ∈ first :: rest := (k3 x).mpr (Or.inr rfl)
      obtain ⟨s', g', r1, r2, r3, r4, r5⟩ := moveAll_flag (m := ⟨true, g.pos ν, bN, ((e ^^^ first : Nat) : Int),
        slot bN x, x⟩) (x := x) rfl rfl rfl (first :: rest) _ _ hL rfl rfl
        (fun c hc => ((k3 c).mp hc).imp (fun e => ((h.q ν c).mp e).resolve_right (fun e => hroot e.1)) id)
        (fun _ => hxD) hv
      dsimp only at r1
      rw [r1]
      dsimp only
      have hD' : ∀ π, g'.D π ↔ g.D π ∨ π = x :: ν := by
        intro π; rw [r3]; simp only [hx', and_true]
      have hT := r2.finish (by
        intro π c
        rw [r4, hD']
        show (g.Q π c ∨ (π = ν ∧ c = x)) ↔ _
        rw [h.q]
        constructor
        · rintro ((e | e) | ⟨e1, e2⟩)
          · exact Or.inl (Or.inl e)
          · exact Or.inr e
          · exact Or.inl (Or.inr (by rw [e1, e2]))
        · rintro ((e | e) | e)
          · exact Or.inl (Or.inl e)
          · obtain ⟨e1, e2⟩ := List.cons.inj e
            exact Or.inr ⟨e2, e1⟩
          · exact Or.inl (Or.inr e))
      refine ⟨s', g', g.pos ν, ?_, hT, hD', r5⟩
      have := hT.inv.place x ν ((hD' _).mpr (Or.inr rfl)) (hT.done _ _)
      rw [this, r2.base]
  | false =>
    obtain ⟨K, k1, k2, k3⟩ := setChildren_spec hchP hfP
    simp only [Bool.false_eq_true, if_false, k1]
    cases K with
    | nil => have := (k3 d).mpr hqξ; simp at this
    | cons first rest =>
      have hKlt : ∀ p ∈ first :: rest, p < 256 := fun p hp => (i.qlt p ξ0 ((k3 p).mp hp)).1
      obtain ⟨s1, e, p1, p2, p3, p4, p5⟩ := place_spec (rest := rest) i.alloc (hKlt first (by simp))
        (fun p hp => hKlt p (by simp [hp]))
      dsimp only
      rw [p1]
      dsimp only
      have h1 := h.ext p2
      have hn1 : s1.ni = s.ni := p2.ni
      have ha1 : s1.arr (g.pos ξ0) = s.arr (g.pos ξ0) := p2.arr _ (i.posD_lt hcl.1)
      have hP0 : (fun k => g.Q ξ0 k ∨ False) = g.Q ξ0 := by funext k; simp
      have hL := loop_start (s' := s1.setBase (g.pos ξ0) ((e ^^^ first : Nat) : Int)) h1 (K := first :: rest)
        (fun _ => False) (fun k hk => absurd hk id) hcl.1 hroot0 hcl.2.2.1 ⟨d, hqξ⟩ k2
        (fun k => by rw [k3]; simp) p3 p4 p5 rfl rfl rfl (base_setBase ..)
        (fun m hm => by simp only [St.setBase]; rw [upd_ne _ _ hm])
        (fun _ => rfl) (fun _ _ => rfl) (by
          show First (fun k => g.Q ξ0 k ∨ False) (s1.ni (g.pos ξ0)).child
          rw [hP0, hn1]; exact hfP)
      have hbase1 : ((s1.setBase (g.pos ξ0) ((e ^^^ first : Nat) : Int)).arr (g.pos ν)).base = bN := by
        have : g.pos ν ≠ g.pos ξ0 := fun e => hne (i.inj _ _ hν hcl.1 e)
        simp only [St.setBase]; rw [upd_ne _ _ this, p2.arr _ (i.posD_lt hν), hbN]
      rw [ha1] at hL
      have htrig : ∃ c ∈ first :: rest, slot (s.arr (g.pos ξ0)).base c = slot bN x :=
        ⟨d, (k3 d).mpr hqξ, hplace.symm⟩
      obtain ⟨s', g', r1, r2, r3, r4, r5, r6⟩ := moveAll_other (m := ⟨false, g.pos ξ0, (s.arr (g.pos ξ0)).base,
        ((e ^^^ first : Nat) : Int), slot bN x, x⟩) (x := x) (ν := ν) (bN := bN) rfl rfl rfl rfl hin hne hlt hbN'
        hroot (first :: rest) _ _ hL rfl rfl
        (fun c hc => ((h.q ξ0 c).mp ((k3 c).mp hc)).resolve_right (fun e => hroot0 e.1)) hν hbase1
        (fun _ => hxD) hv
      dsimp only at r1
      have hns : (if False ∧ first = x then s1.setChild (g.pos ξ0) x else s1) = s1 := by simp
      rw [hns, r1]
      dsimp only
      have hD' : ∀ π, g'.D π ↔ g.D π ∨ π = x :: ν := by
        intro π; rw [r3]; simp only [htrig, and_true]
      have hT := r2.finish (by
        intro π c
        rw [r4, hD']
        show ((g.Q π c ∨ (π = ξ0 ∧ False)) ∨ _) ↔ _
        rw [h.q]
        simp only [and_false, or_false]
        constructor
        · rintro ((e | e) | ⟨e1, e2, _⟩)
          · exact Or.inl (Or.inl e)
          · exact Or.inr e
          · exact Or.inl (Or.inr (by rw [e1, e2]))
        · rintro ((e | e) | e)
          · exact Or.inl (Or.inl e)
          · obtain ⟨e1, e2⟩ := List.cons.inj e
            exact Or.inr ⟨e2, e1, htrig⟩
          · exact Or.inl (Or.inr e))
      refine ⟨s', g', g'.pos ν, ?_, hT, hD', r5⟩
      have := hT.inv.place x ν ((hD' _).mpr (Or.inr rfl)) (hT.done _ _)
      rw [this, r6]

theorem planted_of_pushed {s1 s2 s3 : St} {g : Gh} {ν : List Nat} {x e : Nat} {b : Int}
    (hne : e ≠ g.pos ν) (hdone : ∀ d, g.done ν d) (hnode : s1.arr e = ⟨if x ≠ 0 then -1 else 0, g.pos ν⟩)
    (hce : (s1.ni e).child = 0) (hblk : s2.blk = s1.blk) (hhead : s2.head = s1.head)
    (hsize : s2.size = s1.size) (hni : s2.ni = s1.ni)
    (hpar : s2.arr (g.pos ν) = ⟨b, (s1.arr (g.pos ν)).check⟩)
    (harr : ∀ m, m ≠ g.pos ν → s2.arr m = s1.arr m) (p : Pushed s2 s3 (g.pos ν) b (g.Q ν) x) :
    Planted s1 s3 g ν x e b := by
  refine ⟨by rw [p.blk, hblk], by rw [p.head, hhead], by rw [p.size, hsize], ?_, ?_, ?_, ?_, ?_, p.first,
    fun d hq _ => p.sib d hq, ?_⟩
  · rw [p.arr, harr e hne, hnode]
  · rw [p.arr, hpar]
  · intro m _ hm; rw [p.arr, harr m hm]
  · rw [p.child e hne, hni, hce]
  · intro m _ hm; rw [p.child m hm, hni]
  · intro m hm
    rw [p.other m (fun d hq => hm d hq (Or.inl (hdone d))), hni]

/-- `_push_sibling` for the first child. -/
theorem pushSibling_none {s : St} {src x : Nat} {b : Int} {Q : Nat → Prop} (hq : ∀ c, ¬ Q c)
    (hc : (s.ni src).child = 0) :
    ∃ s', pushSibling s src b x false = some s' ∧ Pushed s s' src b Q x := by
  refine ⟨(s.setSibling (slot b x) (s.ni src).child).setChild src x,
    by simp only [pushSibling]; rw [if_neg (by simp)], rfl, rfl, rfl, rfl, ?_, ?_, ?_, ?_⟩
  · rw [child_setChild, if_pos rfl]
    exact ⟨Or.inr rfl, fun k hk => by rcases hk with hk | hk; exact absurd hk (hq k); omega⟩
  · intro m hm; rw [child_setChild, if_neg hm, child_setSibling]
  · rintro d (hd | rfl)
    · exact absurd hd (hq d)
    · rw [sibling_setChild, sibling_setSibling, if_pos rfl, hc]
      exact Or.inl ⟨rfl, fun k hk => by rcases hk with hk | hk; exact absurd hk (hq k); omega⟩
  · intro m hm
    rw [sibling_setChild, sibling_setSibling, if_neg (hm x (Or.inr rfl))]

/-- A node has been planted in a whole tree. -/
theorem TInv.plant {s s' : St} {g : Gh} (h : TInv s g) {ν : List Nat} {x e : Nat}
    (i : GInv s' (g.plant ν x e)) : TInv s' (g.plant ν x e) := by
  refine ⟨i, fun _ c => c, fun π c => Or.inl (h.done π c), ?_⟩
  intro π c
  show (g.Q π c ∨ (π = ν ∧ c = x)) ↔ (g.D (c :: π) ∨ c :: π = x :: ν) ∨ (π = [] ∧ c = 0)
  rw [h.q]
  constructor
  · rintro ((e | e) | ⟨e1, e2⟩)
    · exact Or.inl (Or.inl e)
    · exact Or.inr e
    · exact Or.inl (Or.inr (by rw [e1, e2]))
  · rintro ((e | e) | e)
    · exact Or.inl (Or.inl e)
    · obtain ⟨e1, e2⟩ := List.cons.inj e
      exact Or.inr ⟨e2, e1⟩
    · exact Or.inl (Or.inr e)

/-- `_follow`: the child is there, and nothing else has changed. -/
theorem follow_spec {s : St} {g : Gh} (h : TInv s g) {ν : List Nat} {x : Nat} (hν : g.D ν)
    (hin : Inner ν) (hlt : x < 256) (h0 : ν = [] → x ≠ 0)
    (hv : ¬ g.D (x :: ν) → x = 0 → g.val (x :: ν) = 0) :
    ∃ s' g', follow s (g.pos ν) x = some (s', g'.pos (x :: ν)) ∧ TInv s' g' ∧
      (∀ π, g'.D π ↔ g.D π ∨ π = x :: ν) ∧ g'.val = g.val := by
  have i := h.inv
  have hsd : ∀ b : Int, slot b x / 256 = b.toNat / 256 := fun b => slot_div b x hlt
  have hneg : (s.arr (g.pos ν)).base < 0 → (∀ c, ¬ g.Q ν c) ∧ ν ≠ [] := by
    intro hb
    have hn : ν ≠ [] := by
      rintro rfl; rw [i.rootPos, i.rootBase] at hb; omega
    refine ⟨fun c hq => ?_, hn⟩
    have := i.big c ν hν hn hq
    omega
  by_cases hb : (s.arr (g.pos ν)).base < 0
  · -- the first child
    obtain ⟨hq, hn⟩ := hneg hb
    obtain ⟨x1, x2, x3, x4⟩ := findPlace_spec i.alloc
    generalize hf : findPlace s = q at x1 x2 x3 x4
    obtain ⟨s0, e⟩ := q
    dsimp only at x1 x2 x3 x4
    have hT := h.ext x1
    have hx : ¬ g.D (x :: ν) := fun hd => hq x (i.dq x ν hd)
    obtain ⟨t1, t2, t3, t4, t5, t6, t7⟩ := hT.inv.take hT.hole x (g.pos ν) (by omega) x3 x4
    have hne : e ≠ g.pos ν := fun c => t1.not_hole hν c.symm
    obtain ⟨s3, p1, p2⟩ := pushSibling_none (s := (takeSlot s0 e x (g.pos ν)).setBase (g.pos ν) ((e ^^^ x : Nat) : Int))
      (src := g.pos ν) (x := x) (b := ((e ^^^ x : Nat) : Int)) hq (by
        show ((takeSlot s0 e x (g.pos ν)).ni (g.pos ν)).child = 0
        rw [t3]; exact hT.inv.nochild ν hν hq)
    have hpl : Planted (takeSlot s0 e x (g.pos ν)) s3 { g with hole := (· = e) } ν x e ((e ^^^ x : Nat) : Int) :=
      planted_of_pushed (s2 := (takeSlot s0 e x (g.pos ν)).setBase (g.pos ν) ((e ^^^ x : Nat) : Int)) hne
        (h.done ν) t5 t6 rfl rfl rfl rfl (base_setBase ..)
        (fun m hm => by simp only [St.setBase]; rw [upd_ne _ _ hm]) p2
    have hed := xor_div e x hlt
    have hP := t1.planted (fun _ => Iff.rfl) hν hin hx hlt h0
      ⟨by omega, by rw [t4]; exact x3, by rw [t5]; exact Int.natCast_nonneg _⟩
      (b := ((e ^^^ x : Nat) : Int))
      (by unfold slot; rw [Int.toNat_natCast, Nat.xor_assoc, Nat.xor_self, Nat.xor_zero])
      (Or.inr (fun c hd => hq c (i.dq c ν hd))) (fun _ => by omega) (fun c => absurd c hn)
      (fun c => hv hx c) hpl
    refine ⟨s3, g.plant ν x e, ?_, h.plant hP, fun _ => Iff.rfl, rfl⟩
    unfold follow
    dsimp only
    rw [if_pos (Or.inl hb)]
    unfold popEnode
    rw [if_pos hb, hf]
    dsimp only
    have hdec : decide (0 ≤ (s.arr (g.pos ν)).base) = false := by
      rw [decide_eq_false_iff_not]; omega
    rw [hdec, p1]
    show some (s3, e) = some (s3, updP g.pos (x :: ν) e (x :: ν))
    rw [updP_self]
  · have hb' : 0 ≤ (s.arr (g.pos ν)).base := by omega
    have hkid : ν ≠ [] → ∃ c, g.D (c :: ν) := by
      intro hn
      by_contra hc
      have := i.leaf ν hν hn hin (fun c hq => hc ⟨c, ((h.q ν c).mp hq).resolve_right (fun e => hn e.1)⟩)
      omega
    have hbig : ν ≠ [] → 256 ≤ (s.arr (g.pos ν)).base := by
      intro hn
      obtain ⟨c, hd⟩ := hkid hn
      exact i.big c ν hν hn (i.dq c ν hd)
    have hbn : ν = [] → (s.arr (g.pos ν)).base = 0 := by
      rintro rfl; rw [i.rootPos]; exact i.rootBase
    have hqe : ∃ c, g.Q ν c := by
      by_cases hn : ν = []
      · exact ⟨0, by rw [hn]; exact i.rootQ⟩
      · obtain ⟨c, hd⟩ := hkid hn
        exact ⟨c, i.dq c ν hd⟩
    have hsz : slot (s.arr (g.pos ν)).base x < s.size := by
      have h1 := i.alloc.size_mod
      have h2 := i.alloc.size_pos
      have h3 := hsd (s.arr (g.pos ν)).base
      by_cases hn : ν = []
      · have := hbn hn; omega
      · obtain ⟨c, hd⟩ := hkid hn
        have h4 := i.place c ν hd (h.done _ _)
        have h5 := (i.used c ν hd).1.2.1
        have h6 := slot_div (s.arr (g.pos ν)).base c (i.clos c ν hd).2.1
        omega
    have hs0 : slot (s.arr (g.pos ν)).base x ≠ 0 := by
      intro e
      by_cases hn : ν = []
      · rw [hbn hn] at e; exact h0 hn (by simpa [slot] using e)
      · have := hbig hn
        have h3 := hsd (s.arr (g.pos ν)).base
        omega
    unfold follow
    dsimp only
    by_cases hc : (s.arr (slot (s.arr (g.pos ν)).base x)).check < 0
    · -- a free slot
      have hx : ¬ g.D (x :: ν) := by
        intro hd
        have h1 := i.place x ν hd (h.done _ _)
        have h2 := i.check_nonneg hd
        rw [h1] at h2; omega
      have hxQ : ¬ g.Q ν x := by
        intro hq
        rcases (h.q ν x).mp hq with e | e
        · exact hx e
        · exact h0 e.1 e.2
      rw [if_pos (Or.inr hc)]
      unfold popEnode
      rw [if_neg hb]
      dsimp only
      generalize hbe : (s.arr (g.pos ν)).base = b at *
      obtain ⟨t1, t2, t3, t4, t5, t6, t7⟩ := i.take h.hole x (g.pos ν) hs0 hsz hc
      generalize hss : takeSlot s (slot b x) x (g.pos ν) = s1 at *
      have hne : slot b x ≠ g.pos ν := fun c => t1.not_hole hν c.symm
      obtain ⟨c0, hc0⟩ := hqe
      have hch := i.chain ν (fun d _ => h.done ν d)
      rw [← t3, hbe] at hch
      obtain ⟨s3, p1, p2⟩ := pushSibling_spec (x := x) hch (by rw [t3]; exact i.first c0 ν hc0) hxQ
      have hpl : Planted s1 s3 { g with hole := (· = slot b x) } ν x (slot b x) b :=
        planted_of_pushed hne (h.done ν) t5 t6 rfl rfl rfl rfl
          (node_ext (by rw [t2 ν hν, hbe]) rfl) (fun _ _ => rfl) p2
      have hP := t1.planted (fun _ => Iff.rfl) hν hin hx hlt h0
        ⟨hs0, by rw [t4]; exact hsz, by rw [t5]; exact Int.natCast_nonneg _⟩ rfl
        (Or.inl (by show b = (s1.arr (g.pos ν)).base; rw [t2 ν hν, hbe])) hbig hbn (fun c => hv hx c) hpl
      refine ⟨s3, g.plant ν x (slot b x), ?_, h.plant hP, fun _ => Iff.rfl, rfl⟩
      have hdec : decide (0 ≤ b) = true := decide_eq_true hb'
      have hxx : ((slot b x ^^^ x : Nat) : Int) = b := by
        unfold slot
        rw [Nat.xor_assoc, Nat.xor_self, Nat.xor_zero]; omega
      rw [hdec, hxx, p1]
      show some (s3, slot b x) = some (s3, updP g.pos (x :: ν) (slot b x) (x :: ν))
      rw [updP_self]
    · rw [if_neg (by omega)]
      by_cases hcn : (s.arr (slot (s.arr (g.pos ν)).base x)).check = g.pos ν
      · -- the child exists
        rw [if_neg (by simpa using hcn)]
        have hd : g.D (x :: ν) := by
          obtain ⟨d, ξ, hd, hp⟩ := (i.only _ ⟨hs0, hsz, by omega⟩).resolve_left (h.hole _)
          have h1 := (i.used d ξ hd).2.1
          rw [hp, hcn] at h1
          have h2 : ξ = ν := i.inj _ _ (i.clos d ξ hd).1 hν (by omega)
          subst h2
          have h3 := i.place d ξ hd (h.done _ _)
          rw [hp] at h3
          rw [slot_inj h3]; exact hd
        refine ⟨s, g, ?_, h, ?_, rfl⟩
        · rw [i.place x ν hd (h.done _ _)]
        · intro π
          exact ⟨Or.inl, fun e => e.elim id (fun e => e ▸ hd)⟩
      · rw [if_pos hcn]
        have hx : ¬ g.D (x :: ν) := by
          intro hd
          have h1 := i.place x ν hd (h.done _ _)
          have h2 := (i.used x ν hd).2.1
          rw [h1] at h2; exact hcn h2
        obtain ⟨s', g', srcN, r1, r2, r3, r4⟩ := resolve_spec h hν hin hlt h0 hb' (by omega) hcn (hv hx)
        rw [r1]
        exact ⟨s', g', rfl, r2, r3, r4⟩

end Verif.Cedar
