import Verif.CedarFollowProps
import Mathlib.Data.List.Basic
/-
What the trie does: updating and prefix searching.
-/
namespace Verif.Cedar

/-- A key (or text) of bytes other than NUL. -/
def Bytes (l : List Nat) : Prop := ∀ c ∈ l, 0 < c ∧ c < 256

/-- The state holds the keys of `M` with their values. -/
structure Holds (s : St) (M : List Nat → Option Int) (g : Gh) : Prop where
  tree : TInv s g
  zero : ∀ π, ¬ g.D π → g.val π = 0
  keys : ∀ k v, M k = some v ↔ g.D (0 :: k.reverse) ∧ g.val (0 :: k.reverse) = v
  full : ∀ π, g.D π → π ≠ [] → Inner π → ∃ c, g.D (c :: π)

/-- The state represents the map `M` from keys to values. -/
def Represents (s : St) (M : List Nat → Option Int) : Prop := ∃ g, Holds s M g

/-- The tree of the empty trie. -/
def g0 : Gh where
  D := fun π => π = []
  Q := fun π c => π = [] ∧ c = 0
  pos := fun _ => 0
  val := fun _ => 0
  done := fun _ _ => True
  A := 0
  hole := fun _ => False

theorem init_represents : Represents init (fun _ => none) := by
  refine ⟨g0, ⟨⟨AInv_init, rfl, rfl, rfl, ⟨rfl, rfl⟩, ?_, ?_, ?_, ?_, ?_, ?_, ?_, ?_, ?_, ?_, ?_, ?_, ?_, ?_, ?_, ?_,
    fun h => h⟩, fun _ h => h, fun _ _ => trivial, ?_⟩, fun _ _ => rfl, ?_, ?_⟩
  · intro c π h; cases h
  · intro π π' h h' _; exact h.trans h'.symm
  · intro c π h; cases h
  · rintro m ⟨h1, h2, h3⟩
    exfalso
    simp only [init, if_neg h1, firstSlot] at h2 h3
    split at h3 <;> omega
  · intro c π h; cases h
  · intro c π h; cases h
  · intro c π h hn; exact absurd h hn
  · intro π h hn; exact absurd h hn
  · intro π h; cases h
  · intro c π h; cases h
  · rintro c π ⟨rfl, rfl⟩; exact ⟨by omega, by simp [Inner], rfl⟩
  · rintro c π h _; exact Or.inr h
  · rintro c π ⟨rfl, rfl⟩
    exact ⟨⟨rfl, rfl⟩, fun k _ => Nat.zero_le k⟩
  · rintro π rfl h; exact absurd ⟨rfl, rfl⟩ (h 0)
  · rintro c π ⟨rfl, rfl⟩ _
    exact Or.inl ⟨rfl, fun k hk => by have := hk.2; omega⟩
  · intro m _ _; rfl
  · intro π c
    show (π = [] ∧ c = 0) ↔ (c :: π = [] ∨ _)
    simp
  · intro k v; simp [g0]
  · intro π h hn; exact absurd h hn

theorem TInv.clos_append {s : St} {g : Gh} (h : TInv s g) : ∀ (a π : List Nat), g.D (a ++ π) → g.D π
  | [], _, hd => hd
  | c :: a, π, hd => h.clos_append a π (h.inv.clos c (a ++ π) hd).1

theorem followAll_spec : ∀ (key : List Nat) {s : St} {g : Gh} (_ : TInv s g) (_ : ∀ π, ¬ g.D π → g.val π = 0)
    {ν : List Nat} (_ : g.D ν) (_ : Inner ν) (_ : Bytes key),
    ∃ s' g', followAll s (g.pos ν) key = some (s', g'.pos (key.reverse ++ ν)) ∧ TInv s' g' ∧
      (∀ π, g'.D π ↔ g.D π ∨ ∃ a b, key = a ++ b ∧ a ≠ [] ∧ π = a.reverse ++ ν) ∧ g'.val = g.val
  | [], s, g, h, _, ν, hν, _, _ => by
    refine ⟨s, g, rfl, h, fun π => ⟨Or.inl, ?_⟩, rfl⟩
    rintro (e | ⟨a, b, e1, e2, _⟩)
    · exact e
    · exact absurd (List.append_eq_nil_iff.mp e1.symm).1 e2
  | c :: key, s, g, h, hz, ν, hν, hin, hb => by
    have hc := hb c (by simp)
    obtain ⟨s1, g1, f1, f2, f3, f4⟩ := follow_spec h hν hin hc.2 (fun _ => by omega) (fun _ e => by omega)
    obtain ⟨s2, g2, k1, k2, k3, k4⟩ := followAll_spec key f2
      (fun π hp => by rw [f4]; exact hz π (fun e => hp ((f3 π).mpr (Or.inl e)))) ((f3 _).mpr (Or.inr rfl))
      (by simp [Inner]; omega) (fun d hd => hb d (by simp [hd]))
    refine ⟨s2, g2, ?_, k2, ?_, by rw [k4, f4]⟩
    · simp only [followAll, f1, k1]
      simp
    · intro π
      rw [k3, f3]
      constructor
      · rintro ((e | e) | ⟨a, b, e1, e2, e3⟩)
        · exact Or.inl e
        · exact Or.inr ⟨[c], key, rfl, by simp, by simpa using e⟩
        · exact Or.inr ⟨c :: a, b, by rw [e1]; rfl, by simp, by rw [e3]; simp⟩
      · rintro (e | ⟨a, b, e1, e2, e3⟩)
        · exact Or.inl (Or.inl e)
        · cases a with
          | nil => exact absurd rfl e2
          | cons d a =>
            obtain ⟨e4, e5⟩ := List.cons.inj e1
            subst e4
            by_cases ha : a = []
            · subst ha; exact Or.inl (Or.inr (by simpa using e3))
            · exact Or.inr ⟨a, b, e5, ha, by rw [e3]; simp⟩

/-- The value of a key can be changed. -/
theorem TInv.setVal {s : St} {g : Gh} (h : TInv s g) {ν : List Nat} (hd : g.D (0 :: ν)) (v : Int) :
    TInv (s.setBase (g.pos (0 :: ν)) v) { g with val := updP g.val (0 :: ν) v } := by
  have i := h.inv
  have hz := i.pos_ne_zero hd (by simp)
  have hu := i.usedD hd (by simp)
  have hck : ∀ m, ((s.setBase (g.pos (0 :: ν)) v).arr m).check = (s.arr m).check := by
    intro m; simp only [St.setBase, upd_apply]; split
    · rename_i e; rw [e]
    · rfl
  have harr : ∀ π, g.D π → π ≠ 0 :: ν → (s.setBase (g.pos (0 :: ν)) v).arr (g.pos π) = s.arr (g.pos π) := by
    intro π hp hn
    simp only [St.setBase]
    rw [upd_ne _ _ (fun e => hn (i.inj _ _ hp hd e))]
  have hused : ∀ m, Used (s.setBase (g.pos (0 :: ν)) v) m ↔ Used s m := by
    intro m; simp only [Used, hck]; rfl
  have hin : ∀ π c, g.Q π c → π ≠ 0 :: ν := by
    rintro π c hq rfl; exact (i.qlt _ _ hq).2.1 rfl
  refine ⟨⟨?_, i.rootD, i.rootPos, ?_, i.rootQ, i.clos, i.inj, ?_, ?_, ?_, ?_, ?_, ?_, ?_, i.dq, i.qlt, i.settled,
    i.first, i.nochild, ?_, ?_, i.hole0⟩, h.hole, h.done, h.q⟩
  · refine i.alloc.frame rfl rfl rfl ?_ (fun m _ hm => by rw [hck]; exact hm)
    intro m _ hm
    simp only [St.setBase]
    rw [upd_ne]
    rintro rfl
    have := hu.2.2
    omega
  · simp only [St.setBase]; rw [upd_ne _ _ (Ne.symm hz)]; exact i.rootBase
  · intro c π hp
    obtain ⟨u1, u2, u3⟩ := i.used c π hp
    exact ⟨(hused _).mpr u1, by rw [hck]; exact u2, u3⟩
  · intro m hm; exact i.only m ((hused m).mp hm)
  · intro c π hp hdn
    show g.pos (c :: π) = slot ((s.setBase (g.pos (0 :: ν)) v).arr (g.pos π)).base c
    rw [harr π (i.clos c π hp).1 (hin π c (i.dq c π hp))]
    exact i.place c π hp hdn
  · intro c π hp hdn; exact absurd (h.done _ _) hdn
  · intro c π hp hn hq
    show 256 ≤ ((s.setBase (g.pos (0 :: ν)) v).arr (g.pos π)).base
    rw [harr π hp (hin π c hq)]
    exact i.big c π hp hn hq
  · intro π hp hn hi hq
    show ((s.setBase (g.pos (0 :: ν)) v).arr (g.pos π)).base = -1
    rw [harr π hp (by rintro rfl; exact hi rfl)]
    exact i.leaf π hp hn hi hq
  · intro π hp
    show ((s.setBase (g.pos (0 :: ν)) v).arr (g.pos (0 :: π))).base = updP g.val (0 :: ν) v (0 :: π)
    by_cases e : 0 :: π = 0 :: ν
    · rw [e, updP_self, base_setBase]
    · rw [updP_ne _ _ e, harr _ hp e]; exact i.value π hp
  · intro c π hq hdn
    show Next (g.Q π) c (s.ni (slot ((s.setBase (g.pos (0 :: ν)) v).arr (g.pos π)).base c)).sibling
    rw [harr π (i.qlt c π hq).2.2 (hin π c hq)]
    exact i.sib c π hq hdn
  · intro m hm; exact i.free m (fun e => hm ((hused m).mpr e))

/-- The map after `update(key, val)`: the value is added to the one that is there. -/
def added (M : List Nat → Option Int) (key : List Nat) (val : Int) : List Nat → Option Int :=
  fun k => if k = key then some (wrap ((M key).getD 0 + wrap val)) else M k

theorem update_represents {s : St} {M : List Nat → Option Int} (h : Represents s M) {key : List Nat}
    (hne : key ≠ []) (hb : Bytes key) (val : Int) :
    ∃ s', update s key val = some s' ∧ Represents s' (added M key val) := by
  obtain ⟨g, h1, h2, h3, h4⟩ := h
  obtain ⟨s1, g1, a1, a2, a3, a4⟩ := followAll_spec key h1 h2 h1.inv.rootD (by simp [Inner]) hb
  have hrev : Inner key.reverse := by
    unfold Inner
    intro e
    have : 0 ∈ key := List.mem_reverse.mp (List.mem_of_head? e)
    have := (hb 0 this).1
    omega
  have hz1 : ∀ π, ¬ g1.D π → g1.val π = 0 :=
    fun π hp => by rw [a4]; exact h2 π (fun e => hp ((a3 π).mpr (Or.inl e)))
  have hD1 : g1.D key.reverse := (a3 _).mpr (Or.inr ⟨key, [], by simp, hne, by simp⟩)
  obtain ⟨s2, g2, b1, b2, b3, b4⟩ := follow_spec a2 hD1 hrev (x := 0) (by omega)
    (fun e => absurd (List.reverse_eq_nil_iff.mp e) hne) (fun e _ => hz1 _ e)
  have hD2 : g2.D (0 :: key.reverse) := (b3 _).mpr (Or.inr rfl)
  have hD : ∀ π, g2.D π ↔ g.D π ∨ (∃ a b, key = a ++ b ∧ a ≠ [] ∧ π = a.reverse) ∨ π = 0 :: key.reverse := by
    intro π; rw [b3, a3, or_assoc]; simp
  have hval : g2.val (0 :: key.reverse) = (M key).getD 0 := by
    rw [b4, a4]
    cases hM : M key with
    | some v => rw [((h3 key v).mp hM).2]; rfl
    | none =>
      refine h2 _ (fun hd => ?_)
      have := (h3 key _).mpr ⟨hd, rfl⟩
      rw [hM] at this; cases this
  have hkey : ∀ k : List Nat, g2.D (0 :: k.reverse) ↔ g.D (0 :: k.reverse) ∨ k = key := by
    intro k
    rw [hD]
    constructor
    · rintro (e | ⟨a, b, e1, e2, e3⟩ | e)
      · exact Or.inl e
      · exfalso
        have : 0 ∈ a := by rw [← List.mem_reverse, ← e3]; simp
        have := (hb 0 (by rw [e1]; simp [this])).1
        omega
      · have := (List.cons.inj e).2
        exact Or.inr (List.reverse_injective this)
    · rintro (e | e)
      · exact Or.inl e
      · exact Or.inr (Or.inr (by rw [e]))
  refine ⟨s2.setBase (g2.pos (0 :: key.reverse)) (wrap ((M key).getD 0 + wrap val)), ?_,
    { g2 with val := updP g2.val (0 :: key.reverse) (wrap ((M key).getD 0 + wrap val)) }, b2.setVal hD2 _, ?_, ?_, ?_⟩
  · unfold update
    rw [if_neg hne]
    rw [h1.inv.rootPos, List.append_nil] at a1
    simp only [a1, b1]
    rw [b2.inv.value _ hD2, hval]
  · intro π hp
    have hp' : ¬ g2.D π := hp
    show updP g2.val (0 :: key.reverse) _ π = 0
    rw [updP_ne _ _ (by rintro rfl; exact hp' hD2), b4]
    exact hz1 π (fun e => hp' ((b3 π).mpr (Or.inl e)))
  · intro k v
    show added M key val k = some v ↔ g2.D (0 :: k.reverse) ∧ updP g2.val (0 :: key.reverse) _ (0 :: k.reverse) = v
    unfold added
    by_cases hk : k = key
    · subst hk
      rw [if_pos rfl, updP_self]
      constructor
      · intro e; exact ⟨hD2, Option.some.inj e⟩
      · rintro ⟨_, e⟩; rw [e]
    · have hk' : 0 :: k.reverse ≠ 0 :: key.reverse :=
        fun e => hk (List.reverse_injective (List.cons.inj e).2)
      rw [if_neg hk, updP_ne _ _ hk', h3, hkey, b4, a4]
      constructor
      · rintro ⟨e1, e2⟩; exact ⟨Or.inl e1, e2⟩
      · rintro ⟨e1, e2⟩; exact ⟨e1.resolve_right hk, e2⟩
  · intro π hp hn hi
    have hp' : g2.D π := hp
    show ∃ c, g2.D (c :: π)
    rcases (hD π).mp hp' with e | ⟨a, b, e1, e2, e3⟩ | e
    · obtain ⟨c, hc⟩ := h4 π e hn hi
      exact ⟨c, (hD _).mpr (Or.inl hc)⟩
    · cases b with
      | nil =>
        rw [List.append_nil] at e1
        exact ⟨0, (hD _).mpr (Or.inr (Or.inr (by rw [e3, e1])))⟩
      | cons c b =>
        exact ⟨c, (hD _).mpr (Or.inr (Or.inl ⟨a ++ [c], b, by rw [e1]; simp, by simp, by rw [e3]; simp⟩))⟩
    · subst e; exact absurd rfl hi

/-- The map that a history of updates leaves: for each key the sum of its values in 32 bits. -/
def total (ops : List (List Nat × Int)) : List Nat → Option Int :=
  fun k => if k ∈ ops.map (·.1) then some (wrap ((ops.filter (·.1 = k)).map (·.2)).sum) else none

theorem wrap_add (a b : Int) : wrap (wrap a + wrap b) = wrap (a + b) := by
  unfold wrap; rw [Int.bmod_add_bmod, Int.add_bmod_bmod]

theorem wrap_wrap (a : Int) : wrap (wrap a) = wrap a := by
  unfold wrap; rw [Int.bmod_bmod]

theorem build_represents : ∀ (ops : List (List Nat × Int)) {s : St} {M : List Nat → Option Int},
    Represents s M → (∀ p ∈ ops, p.1 ≠ [] ∧ Bytes p.1) →
    ∃ s', build s ops = some s' ∧ Represents s' (ops.foldl (fun M p => added M p.1 p.2) M)
  | [], s, M, h, _ => ⟨s, rfl, h⟩
  | (k, v) :: ops, s, M, h, hb => by
    have hk := hb (k, v) (by simp)
    obtain ⟨s1, e1, h1⟩ := update_represents h hk.1 hk.2 v
    obtain ⟨s2, e2, h2⟩ := build_represents ops h1 (fun p hp => hb p (by simp [hp]))
    exact ⟨s2, by simp only [build, e1, e2], h2⟩

theorem total_snoc (ops : List (List Nat × Int)) (k : List Nat) (v : Int) :
    added (total ops) k v = total (ops ++ [(k, v)]) := by
  funext k'
  unfold added total
  by_cases hk : k' = k
  · subst hk
    have hR : k' ∈ (ops ++ [(k', v)]).map (·.1) := by simp
    rw [if_pos rfl, if_pos hR]
    simp only [List.filter_append, List.sum_append]
    rw [List.map_append, List.sum_append]
    split
    · simp [wrap_add]
    · rename_i hn
      have : ops.filter (fun p => p.1 = k') = [] := by
        rw [List.filter_eq_nil_iff]
        intro p hp
        simp only [decide_eq_true_eq]
        rintro rfl
        exact hn (List.mem_map_of_mem hp)
      simp [this, wrap_wrap]
  · rw [if_neg hk]
    have h1 : (k' ∈ (ops ++ [(k, v)]).map (·.1)) ↔ k' ∈ ops.map (·.1) := by simp [hk]
    have h2 : (ops ++ [(k, v)]).filter (fun p => p.1 = k') = ops.filter (fun p => p.1 = k') := by
      rw [List.filter_append]
      simp [Ne.symm hk]
    simp only [h1, h2]

theorem foldl_total : ∀ (ops pre : List (List Nat × Int)),
    ops.foldl (fun M p => added M p.1 p.2) (total pre) = total (pre ++ ops)
  | [], pre => by simp
  | (k, v) :: ops, pre => by
    simp only [List.foldl_cons, total_snoc]
    rw [foldl_total ops (pre ++ [(k, v)])]
    simp

/-- **C51, updates.**  After any history of updates with non-empty keys without NUL, in any order and any number,
the trie holds exactly the keys of the history, each with the sum of its values in 32 bits: relocating nodes never
loses or changes another key. -/
theorem history (ops : List (List Nat × Int)) (hb : ∀ p ∈ ops, p.1 ≠ [] ∧ Bytes p.1) :
    ∃ s, build init ops = some s ∧ Represents s (total ops) := by
  obtain ⟨s, h1, h2⟩ := build_represents ops init_represents hb
  refine ⟨s, h1, ?_⟩
  have : (fun _ => none : List Nat → Option Int) = total [] := by funext k; simp [total]
  rw [this, foldl_total] at h2
  exact h2

/-! ### Searching -/

section search

variable {s : St} {M : List Nat → Option Int} {g : Gh}

theorem Holds.slot_ok (h : Holds s M g) {ν : List Nat} (hν : g.D ν) (hin : Inner ν) {c : Nat} (hc : c < 256) :
    0 ≤ (s.arr (g.pos ν)).base ∧ slot (s.arr (g.pos ν)).base c < s.size ∧
      (ν ≠ [] → 256 ≤ slot (s.arr (g.pos ν)).base c) ∧ (ν = [] → slot (s.arr (g.pos ν)).base c = c) := by
  have i := h.tree.inv
  have h1 := i.alloc.size_mod
  have h2 := i.alloc.size_pos
  have h3 := slot_div (s.arr (g.pos ν)).base c hc
  by_cases hn : ν = []
  · subst hn
    have h4 : (s.arr (g.pos [])).base = 0 := by rw [i.rootPos]; exact i.rootBase
    have h5 : slot (s.arr (g.pos [])).base c = c := by rw [h4]; simp [slot]
    exact ⟨by omega, by omega, fun e => absurd rfl e, fun _ => h5⟩
  · obtain ⟨d, hd⟩ := h.full ν hν hn hin
    have h4 := i.place d ν hd (h.tree.done _ _)
    have h5 := (i.used d ν hd).1.2.1
    have h6 := slot_div (s.arr (g.pos ν)).base d (i.clos d ν hd).2.1
    have h7 := i.big d ν hν hn (i.dq d ν hd)
    exact ⟨by omega, by omega, fun _ => by omega, fun e => absurd e hn⟩

theorem Holds.check_iff (h : Holds s M g) {ν : List Nat} (hν : g.D ν) (hin : Inner ν) {c : Nat} (hc : c < 256)
    (h0 : ν = [] → c ≠ 0) :
    (s.arr (slot (s.arr (g.pos ν)).base c)).check = g.pos ν ↔ g.D (c :: ν) := by
  have i := h.tree.inv
  obtain ⟨o1, o2, o3, o4⟩ := h.slot_ok hν hin hc
  constructor
  · intro e
    have hs0 : slot (s.arr (g.pos ν)).base c ≠ 0 := by
      by_cases hn : ν = []
      · rw [o4 hn]; exact h0 hn
      · have := o3 hn; omega
    obtain ⟨d, ξ, hd, hp⟩ := (i.only _ ⟨hs0, o2, by omega⟩).resolve_left (h.tree.hole _)
    have h1 := (i.used d ξ hd).2.1
    rw [hp, e] at h1
    have h2 : ξ = ν := i.inj _ _ (i.clos d ξ hd).1 hν (by omega)
    subst h2
    have h3 := i.place d ξ hd (h.tree.done _ _)
    rw [hp] at h3
    rw [slot_inj h3]; exact hd
  · intro hd
    have h1 := (i.used c ν hd).2.1
    rw [i.place c ν hd (h.tree.done _ _)] at h1
    exact h1

theorem St.read_nat {s : St} {i : Nat} (h : i < s.size) : s.read (i : Int) = some (s.arr i) := by
  unfold St.read; rw [if_pos (by omega)]; simp

theorem slotOf_nonneg {b : Int} (h : 0 ≤ b) (c : Nat) : slotOf b c = ((slot b c : Nat) : Int) := by
  unfold slotOf slot; rw [if_neg (by omega)]

theorem Holds.find1_eq (h : Holds s M g) {pre : List Nat} (hν : g.D pre.reverse) (hin : Inner pre.reverse) {c : Nat}
    (hc : 0 < c ∧ c < 256) :
    (g.D (c :: pre.reverse) → find1 s (g.pos pre.reverse) c =
      some ((M (pre ++ [c])).getD (-1), g.pos (c :: pre.reverse))) ∧
    (¬ g.D (c :: pre.reverse) → find1 s (g.pos pre.reverse) c = some (-2, g.pos pre.reverse)) := by
  have i := h.tree.inv
  obtain ⟨o1, o2, o3, o4⟩ := h.slot_ok hν hin hc.2
  have hiff := h.check_iff hν hin hc.2 (fun _ => by omega)
  have r1 := St.read_nat (i.posD_lt hν)
  have r2 := St.read_nat o2
  constructor
  · intro hd
    have hin' : Inner (c :: pre.reverse) := by simp [Inner]; omega
    obtain ⟨q1, q2, q3, q4⟩ := h.slot_ok hd hin' (c := 0) (by omega)
    have hiff' := h.check_iff hd hin' (c := 0) (by omega) (fun e => by cases e)
    have r3 := St.read_nat q2
    have hp := i.place c _ hd (h.tree.done _ _)
    unfold Cedar.find1
    rw [r1]
    dsimp only
    rw [slotOf_nonneg o1, r2]
    dsimp only
    rw [if_neg (by rw [hiff.mpr hd]; simp), Int.toNat_natCast, ← hp, slotOf_nonneg q1, r3]
    dsimp only
    have hrev : (pre ++ [c]).reverse = c :: pre.reverse := by simp
    cases hM : M (pre ++ [c]) with
    | none =>
      have : ¬ g.D (0 :: c :: pre.reverse) := by
        intro hD
        have := (h.keys (pre ++ [c]) _).mpr ⟨by rw [hrev]; exact hD, rfl⟩
        rw [hM] at this; cases this
      rw [if_pos (fun e => this (hiff'.mp e))]; rfl
    | some v =>
      obtain ⟨d1, d2⟩ := (h.keys _ _).mp hM
      rw [hrev] at d1 d2
      rw [if_neg (by rw [hiff'.mpr d1]; simp), ← i.place 0 _ d1 (h.tree.done _ _), i.value _ d1, d2]; rfl
  · intro hd
    unfold Cedar.find1
    rw [r1]
    dsimp only
    rw [slotOf_nonneg o1, r2]
    dsimp only
    rw [if_pos (fun e => hd (hiff.mp e))]

end search

/-- The prefixes of `text` behind `pre` that are keys, shortest first, with their lengths (from `n`) and values. -/
def found (M : List Nat → Option Int) (pre : List Nat) (n : Nat) (text : List Nat) : List (Nat × Int) :=
  (List.range text.length).filterMap (fun k => (M (pre ++ text.take (k + 1))).map (fun v => (n + (k + 1), v)))

theorem found_cons (M : List Nat → Option Int) (pre : List Nat) (n c : Nat) (l : List Nat) :
    found M pre n (c :: l) =
      ((M (pre ++ [c])).map (fun v => (n + 1, v))).toList ++ found M (pre ++ [c]) (n + 1) l := by
  unfold found
  rw [List.length_cons, List.range_succ_eq_map, List.filterMap_cons, List.filterMap_map]
  have e : (fun k => (M (pre ++ (c :: l).take (k + 1))).map (fun v => (n + (k + 1), v))) ∘ Nat.succ =
      fun k => (M ((pre ++ [c]) ++ l.take (k + 1))).map (fun v => (n + 1 + (k + 1), v)) := by
    funext k
    simp only [Function.comp, Nat.succ_eq_add_one, List.take_succ_cons, List.append_assoc, List.cons_append,
      List.nil_append]
    congr 1
    funext v
    simp; omega
  rw [e]
  simp only [Nat.zero_add, List.take_succ_cons, List.take_zero]
  cases M (pre ++ [c]) <;> rfl

/-- The prefixes that a search reports: it stops at a value -2 and leaves out the values -1. -/
def reported (r : List (Nat × Int)) : List (Nat × Int) := (r.takeWhile (·.2 ≠ -2)).filter (·.2 ≠ -1)

theorem prefixes_eq {s : St} {M : List Nat → Option Int} {g : Gh} (h : Holds s M g) :
    ∀ (text pre : List Nat) (n : Nat), g.D pre.reverse → Inner pre.reverse → Bytes text →
      prefixes s (g.pos pre.reverse) n text = some (reported (found M pre n text))
  | [], _, _, _, _, _ => rfl
  | c :: l, pre, n, hd, hin, hb => by
    have hc := hb c (by simp)
    obtain ⟨f1, f2⟩ := h.find1_eq hd hin hc
    unfold prefixes
    by_cases hD : g.D (c :: pre.reverse)
    · have hrev : (pre ++ [c]).reverse = c :: pre.reverse := by simp
      have ih := prefixes_eq h l (pre ++ [c]) (n + 1) (by rw [hrev]; exact hD)
        (by rw [hrev]; simp [Inner]; omega) (fun d hd => hb d (by simp [hd]))
      rw [hrev] at ih
      rw [f1 hD, found_cons]
      dsimp only
      cases hM : M (pre ++ [c]) with
      | none =>
        simp only [Option.getD_none, if_true, ih, Option.map_none, Option.toList_none, List.nil_append]
      | some v =>
        simp only [Option.getD_some, ih, Option.map_some, Option.toList_some, List.singleton_append]
        by_cases h1 : v = -1
        · rw [if_pos h1, h1]; simp [reported]
        · rw [if_neg h1]
          by_cases h2 : v = -2
          · rw [if_pos h2, h2]; simp [reported]
          · rw [if_neg h2]; simp [reported, h1, h2]
    · rw [f2 hD]
      have : found M pre n (c :: l) = [] := by
        unfold found
        rw [List.filterMap_eq_nil_iff]
        intro k _
        rw [Option.map_eq_none_iff]
        cases hM : M (pre ++ (c :: l).take (k + 1)) with
        | none => rfl
        | some v =>
          exfalso
          have := ((h.keys _ _).mp hM).1
          rw [List.take_succ_cons, List.reverse_append, List.reverse_cons, List.append_assoc, ← List.cons_append,
            List.singleton_append] at this
          exact hD (h.tree.clos_append _ _ this)
      rw [this]; rfl

theorem takeWhile_all {α : Type} (p : α → Bool) : ∀ l : List α, (∀ x ∈ l, p x = true) → l.takeWhile p = l
  | [], _ => rfl
  | x :: l, h => by
    rw [List.takeWhile_cons, if_pos (h x (by simp)), takeWhile_all p l (fun y hy => h y (by simp [hy]))]

theorem reported_all {M : List Nat → Option Int} {w : List Nat} (hv : ∀ k v, M k = some v → v ≠ -1 ∧ v ≠ -2) :
    reported (found M [] 0 w) = found M [] 0 w := by
  have hall : ∀ p ∈ found M [] 0 w, p.2 ≠ -1 ∧ p.2 ≠ -2 := by
    intro p hp
    unfold found at hp
    rw [List.mem_filterMap] at hp
    obtain ⟨k, _, hk⟩ := hp
    rw [Option.map_eq_some_iff] at hk
    obtain ⟨v, hv1, rfl⟩ := hk
    exact hv _ _ hv1
  unfold reported
  rw [takeWhile_all _ _ (fun p hp => by simpa using (hall p hp).2),
    List.filter_eq_self.mpr (fun p hp => by simpa using (hall p hp).1)]

/-- **C51, all prefixes.**  `prefix_search_all` on a text without NUL reports the keys of the trie that are prefixes of
the text, shortest first, with their lengths and values, if none of them has the value -1 or -2 and there are at most
64 of them. -/
theorem prefixSearchAll_partial {s : St} {M : List Nat → Option Int} (h : Represents s M) {w : List Nat}
    (hw : Bytes w) (hv : ∀ k v, M k = some v → v ≠ -1 ∧ v ≠ -2) (hl : (found M [] 0 w).length ≤ 64) :
    prefixSearchAll s w = some (found M [] 0 w) := by
  obtain ⟨g, h⟩ := h
  have hp := prefixes_eq h w [] 0 h.tree.inv.rootD (by simp [Inner]) hw
  rw [List.reverse_nil, h.tree.inv.rootPos] at hp
  have hr := reported_all (w := w) hv
  unfold prefixSearchAll
  rw [hp, hr]
  simp only []
  rw [if_neg (by omega)]

theorem foldl_last : ∀ (r : List (Nat × Int)) (a : Nat × Int), (a :: r).Pairwise (fun x y => x.1 < y.1) →
    r.foldl (fun a x => if a.1 < x.1 then x else a) a = (a :: r).getLast (by simp)
  | [], a, _ => rfl
  | x :: r, a, h => by
    have h1 := (List.pairwise_cons.mp h).1 x (by simp)
    rw [List.foldl_cons, if_pos h1, foldl_last r x (List.pairwise_cons.mp h).2]
    simp

theorem found_sorted (M : List Nat → Option Int) (pre : List Nat) (n : Nat) (text : List Nat) :
    ((n, -1) :: found M pre n text).Pairwise (fun x y => x.1 < y.1) := by
  induction text generalizing pre n with
  | nil => simp [found]
  | cons c l ih =>
    have := ih (pre ++ [c]) (n + 1)
    rw [List.pairwise_cons] at this ⊢
    rw [found_cons]
    obtain ⟨t1, t2⟩ := this
    cases M (pre ++ [c]) with
    | none =>
      refine ⟨fun p hp => ?_, by simpa using t2⟩
      have h2 := t1 p (by simpa using hp)
      dsimp only at h2 ⊢
      omega
    | some v =>
      simp only [Option.map_some, Option.toList_some, List.singleton_append]
      refine ⟨fun p hp => ?_, List.pairwise_cons.mpr ⟨t1, t2⟩⟩
      rcases List.mem_cons.mp hp with e | e
      · rw [e]; dsimp only; omega
      · have h2 := t1 p e
        dsimp only at h2 ⊢
        omega

theorem mem_found (M : List Nat → Option Int) (w : List Nat) (n : Nat) (v : Int) :
    (n, v) ∈ found M [] 0 w ↔ 0 < n ∧ n ≤ w.length ∧ M (w.take n) = some v := by
  unfold found
  rw [List.mem_filterMap]
  constructor
  · rintro ⟨k, hk, e⟩
    rw [Option.map_eq_some_iff] at e
    obtain ⟨v', e1, e2⟩ := e
    obtain ⟨e3, e4⟩ := Prod.mk.inj e2
    rw [List.mem_range] at hk
    rw [List.nil_append] at e1
    rw [← e3, ← e4, Nat.zero_add]
    exact ⟨by omega, by omega, e1⟩
  · rintro ⟨h1, h2, h3⟩
    refine ⟨n - 1, List.mem_range.mpr (by omega), ?_⟩
    have : n - 1 + 1 = n := by omega
    rw [this, List.nil_append, h3, Nat.zero_add]; rfl

/-- **C51, the longest prefix.**  `prefix_search` on a text without NUL returns the length and value of the longest key
that is a prefix of the text, or length 0 and value -1 if there is none, under the same conditions. -/
theorem prefixSearch_partial {s : St} {M : List Nat → Option Int} (h : Represents s M) {w : List Nat}
    (hw : Bytes w) (hv : ∀ k v, M k = some v → v ≠ -1 ∧ v ≠ -2) (hl : (found M [] 0 w).length ≤ 64) :
    ∃ n v, prefixSearch s w = some (n, v) ∧
      ((n = 0 ∧ v = -1) ∨ (0 < n ∧ n ≤ w.length ∧ M (w.take n) = some v)) ∧
      ∀ k, n < k → k ≤ w.length → M (w.take k) = none := by
  have hall := prefixSearchAll_partial h hw hv hl
  unfold prefixSearchAll at hall
  cases hp : prefixes s 0 0 w with
  | none => rw [hp] at hall; cases hall
  | some r =>
    rw [hp] at hall
    dsimp only at hall
    split at hall
    · cases hall
    · rename_i hlen
      have hr := Option.some.inj hall
      have hs := found_sorted M [] 0 w
      rw [← hr] at hs
      have hfold := foldl_last r (0, -1) hs
      generalize hL : ((0, -1) :: r : List (Nat × Int)).getLast (by simp) = L at hfold
      have hLmem : L ∈ ((0, -1) :: r : List (Nat × Int)) := by rw [← hL]; exact List.getLast_mem _
      refine ⟨L.1, L.2, ?_, ?_, ?_⟩
      · unfold prefixSearch
        rw [hp]
        dsimp only
        rw [if_neg hlen, hfold]
      · rcases List.mem_cons.mp hLmem with e | e
        · left; rw [e]; exact ⟨rfl, rfl⟩
        · right
          rw [hr] at e
          exact (mem_found M w L.1 L.2).mp e
      · intro k hk hkl
        cases hM : M (w.take k) with
        | none => rfl
        | some v =>
          exfalso
          have hm : (k, v) ∈ r := by rw [hr]; exact (mem_found M w k v).mpr ⟨by omega, hkl, hM⟩
          have hle : ∀ (l : List (Nat × Int)) (hne : l ≠ []), l.Pairwise (fun x y => x.1 < y.1) →
              ∀ p ∈ l, p.1 ≤ (l.getLast hne).1 := by
            intro l hne hpw p hp
            rcases List.mem_iff_getElem.mp hp with ⟨i, hi, rfl⟩
            rw [List.getLast_eq_getElem]
            by_cases he : i = l.length - 1
            · simp only [he]; omega
            · have := List.pairwise_iff_getElem.mp hpw i (l.length - 1) hi (by omega) (by omega)
              omega
          have := hle _ (by simp) hs (k, v) (by simp [hm])
          rw [hL] at this
          dsimp only at this
          omega

end Verif.Cedar
